import Verif.Spec.Means
import Verif.Model.Convert
import Verif.Model.EditDespan
import Verif.Model.EditParser
/-! Facts about the relation between the trees of the two crates. -/

namespace Verif.Gram
open Spec Syn

variable {U : Uni} {bd : Build}

/-! ### Decor and spans do not matter -/

theorem _root_.Verif.Spec.Means.mapMeta {v : EExpr} {e : Expr} (h : Means U bd v e) (g : Meta → Meta) :
    Means U bd (v.mapMeta g) e := by
  cases h with
  | null => exact .null
  | bool => exact .bool
  | number => exact .number
  | string => exact .string
  | array h => exact .array h
  | object h k => exact .object h k
  | template h k => exact .template h k
  | heredoc h k l => exact .heredoc h k l
  | paren h => exact .paren h
  | var => exact .var
  | cond h1 h2 h3 => exact .cond h1 h2 h3
  | call h => exact .call h
  | trav h k => exact .trav h k
  | unary h => exact .unary h
  | binary h k => exact .binary h k
  | forE h1 h2 h3 h4 => exact .forE h1 h2 h3 h4

theorem _root_.Verif.Spec.MeansKey.mapMeta {v : EKey} {e : ObjKey} (h : MeansKey U bd v e) (g : Meta → Meta) :
    MeansKey U bd (v.mapMeta g) e := by
  cases h with
  | ident => exact .ident (d := ⟨g _, _⟩)
  | expr h => exact .expr (h.mapMeta g)

theorem _root_.Verif.Spec.MeansTravOp.mapMeta {v : ETravOp} {o : TravOp} (h : MeansTravOp U bd v o)
    (g : Meta → Meta) : MeansTravOp U bd (v.mapMeta g) o := by
  cases h with
  | attrSplat => exact .attrSplat
  | fullSplat => exact .fullSplat
  | getAttr => exact .getAttr (d := ⟨g _, _⟩)
  | index h => exact .index (h.mapMeta g)
  | legacyIndex => exact .legacyIndex

theorem _root_.Verif.Spec.MeansElem.setSpan {v : EElem} {e : Elem} (h : MeansElem U bd v e) (s : Span) :
    MeansElem U bd (v.setSpan s) e := by
  cases h with
  | lit => exact .lit
  | interp h => exact .interp h
  | ifDir h1 h2 h3 => exact .ifDir h1 h2 h3
  | forDir h1 h2 => exact .forDir h1 h2

theorem names_despan (s : Str) (ns : List DIdent) :
    (ns.map (DIdent.despan s)).map DIdent.name = ns.map DIdent.name := by
  rw [List.map_map]; rfl

theorem optName_despan (s : Str) (k : Option DIdent) :
    (k.map (DIdent.despan s)).map DIdent.name = k.map DIdent.name := by
  cases k <;> rfl

mutual

theorem _root_.Verif.Spec.Means.despan (s : Str) {v : EExpr} {e : Expr} : Means U bd v e →
    Means U bd (v.despan s) e
  | .null => by simp only [EExpr.despan]; exact .null
  | .bool => by simp only [EExpr.despan]; exact .bool
  | .number => by simp only [EExpr.despan]; exact .number
  | .string => by simp only [EExpr.despan]; exact .string
  | .array h => by simp only [EExpr.despan]; exact .array (h.despan s)
  | .object h k => by simp only [EExpr.despan]; exact .object (h.despan s) k
  | .template h k => by simp only [EExpr.despan]; exact .template (h.despan s) k
  | .heredoc h k l => by simp only [EExpr.despan]; exact .heredoc (h.despan s) k l
  | .paren h => by simp only [EExpr.despan]; exact .paren (h.despan s)
  | .var => by simp only [EExpr.despan]; exact .var
  | .cond h1 h2 h3 => by simp only [EExpr.despan]; exact .cond (h1.despan s) (h2.despan s) (h3.despan s)
  | .call (ns := ns) (n := n) h => by
    simp only [EExpr.despan]
    rw [← names_despan s ns]
    exact .call (n := n.despan s) (h.despan s)
  | .trav h k => by simp only [EExpr.despan]; exact .trav (h.despan s) (k.despan s)
  | .unary h => by simp only [EExpr.despan]; exact .unary (h.despan s)
  | .binary h k => by simp only [EExpr.despan]; exact .binary (h.despan s) (k.despan s)
  | .forE (k := k) (x := x) h1 h2 h3 h4 => by
    simp only [EExpr.despan]
    rw [← optName_despan s k]
    exact .forE (x := x.despan s) (h1.despan s) (h2.despan s) (h3.despan s) (h4.despan s)

theorem _root_.Verif.Spec.MeansOpt.despan (s : Str) {v : Option EExpr} {e : Option Expr} : MeansOpt U bd v e →
    MeansOpt U bd (EExpr.despanOpt s v) e
  | .none => by simp only [EExpr.despanOpt]; exact .none
  | .some h => by simp only [EExpr.despanOpt]; exact .some (h.despan s)

theorem _root_.Verif.Spec.MeansList.despan (s : Str) {v : List EExpr} {e : List Expr} : MeansList U bd v e →
    MeansList U bd (EExpr.despanList s v) e
  | .nil => by simp only [EExpr.despanList]; exact .nil
  | .cons h k => by simp only [EExpr.despanList]; exact .cons (h.despan s) (k.despan s)

theorem _root_.Verif.Spec.MeansItems.despan (s : Str) {v : List EItem} {e : List (ObjKey × Expr)} :
    MeansItems U bd v e → MeansItems U bd (EExpr.despanItems s v) e
  | .nil => by simp only [EExpr.despanItems]; exact .nil
  | .cons h k l => by simp only [EExpr.despanItems]; exact .cons (h.despan s) (k.despan s) (l.despan s)

theorem _root_.Verif.Spec.MeansKey.despan (s : Str) {v : EKey} {e : ObjKey} : MeansKey U bd v e →
    MeansKey U bd (v.despan s) e
  | .ident (d := d) => by simp only [EKey.despan]; exact .ident (d := d.despan s)
  | .expr h => by simp only [EKey.despan]; exact .expr (h.despan s)

theorem _root_.Verif.Spec.MeansTravs.despan (s : Str) {v : List ETrav} {o : List TravOp} :
    MeansTravs U bd v o → MeansTravs U bd (EExpr.despanTravs s v) o
  | .nil => by simp only [EExpr.despanTravs]; exact .nil
  | .cons h k => by simp only [EExpr.despanTravs]; exact .cons (h.despan s) (k.despan s)

theorem _root_.Verif.Spec.MeansTravOp.despan (s : Str) {v : ETravOp} {o : TravOp} : MeansTravOp U bd v o →
    MeansTravOp U bd (v.despan s) o
  | .attrSplat => by simp only [ETravOp.despan]; exact .attrSplat
  | .fullSplat => by simp only [ETravOp.despan]; exact .fullSplat
  | .getAttr (d := d) => by simp only [ETravOp.despan]; exact .getAttr (d := d.despan s)
  | .index h => by simp only [ETravOp.despan]; exact .index (h.despan s)
  | .legacyIndex => by simp only [ETravOp.despan]; exact .legacyIndex

theorem _root_.Verif.Spec.MeansElems.despan (s : Str) {v : List EElem} {e : List Elem} : MeansElems U bd v e →
    MeansElems U bd (EExpr.despanElems s v) e
  | .nil => by simp only [EExpr.despanElems]; exact .nil
  | .cons .lit k => by simp only [EExpr.despanElems]; exact .cons .lit (k.despan s)
  | .cons (.interp h) k => by
    simp only [EExpr.despanElems]; exact .cons (.interp (h.despan s)) (k.despan s)
  | .cons (.ifDir h1 h2 h3) k => by
    simp only [EExpr.despanElems]
    exact .cons (.ifDir (h1.despan s) (h2.despan s) (h3.despan s)) (k.despan s)
  | .cons (.forDir (k := k) (x := x) h1 h2) hs => by
    simp only [EExpr.despanElems]
    rw [← optName_despan s k]
    exact .cons (.forDir (x := x.despan s) (h1.despan s) (h2.despan s)) (hs.despan s)

theorem _root_.Verif.Spec.MeansElse.despan (s : Str) {v : Option EElse} {e : Option (List Elem)} {i : Strip} :
    MeansElse U bd v e i → MeansElse U bd (EExpr.despanElse s v) e i
  | .none => by simp only [EExpr.despanElse]; exact .none
  | .some h => by simp only [EExpr.despanElse]; exact .some (h.despan s)

end

theorem _root_.Verif.Spec.MeansLabels.despan (s : Str) {v : List ELabel} {l : List Label} (h : MeansLabels v l) :
    MeansLabels (v.map (ELabel.despan s)) l := by
  induction h with
  | nil => exact .nil
  | cons h _ ih =>
    refine .cons ?_ ih
    cases h with
    | ident => exact .ident (d := DIdent.despan s _)
    | string => exact .string

mutual

theorem _root_.Verif.Spec.MeansStruct.despan (s : Str) {v : EStruct} {e : Struct} : MeansStruct U bd v e →
    MeansStruct U bd (v.despan s) e
  | .attr (d := d) h => by simp only [EStruct.despan]; exact .attr (d := d.despan s) (h.despan s)
  | .block (d := d) h k => by
    simp only [EStruct.despan]; exact .block (d := d.despan s) (h.despan s) (k.despan s)

theorem _root_.Verif.Spec.MeansStructs.despan (s : Str) {v : List EStruct} {e : List Struct} :
    MeansStructs U bd v e → MeansStructs U bd (EStruct.despanList s v) e
  | .nil => by simp only [EStruct.despanList]; exact .nil
  | .cons h k => by simp only [EStruct.despanList]; exact .cons (h.despan s) (k.despan s)

theorem _root_.Verif.Spec.MeansBody.despan (s : Str) {v : EBody} {e : List Struct} : MeansBody U bd v e →
    MeansBody U bd (v.despan s) e
  | .mk h => by simp only [EBody.despan]; exact .mk (h.despan s)

end

/-! ### Keys -/

theorem names_beq : ∀ {ns ms : List DIdent}, DIdent.beqList ns ms = true → ns.map DIdent.name = ms.map DIdent.name := by
  intro ns
  induction ns with
  | nil => intro ms h; cases ms with
    | nil => rfl
    | cons => cases h
  | cons n ns ih =>
    intro ms h
    cases ms with
    | nil => cases h
    | cons m ms =>
      unfold DIdent.beqList at h
      rw [Bool.and_eq_true] at h
      rw [List.map_cons, List.map_cons, ih h.2, show n.name = m.name from of_decide_eq_true h.1]

/-- Equal trees are not expressions that are apart. -/
theorem apart_beq {a b : EExpr} {x y : Expr} : Means U bd a x → Means U bd b y → EExpr.beq a b = true →
    apart x y = false
  | .null, h2, h => by
    cases h2 <;> simp only [EExpr.beq, Bool.false_eq_true] at h
    simp only [apart]
  | .bool, h2, h => by
    cases h2 <;> simp only [EExpr.beq, Bool.false_eq_true] at h
    simp only [apart]
    simpa using h
  | .number, h2, h => by
    cases h2 <;> simp only [EExpr.beq, Bool.false_eq_true] at h
    simp only [apart]
    simpa using h
  | .string, h2, h => by
    cases h2 <;> simp only [EExpr.beq, Bool.false_eq_true] at h
    simp only [apart]
    simpa using h
  | .array _, h2, h => by
    cases h2 <;> simp only [EExpr.beq, Bool.false_eq_true] at h
    simp only [apart]
  | .object _ _, h2, h => by
    cases h2 <;> simp only [EExpr.beq, Bool.false_eq_true] at h
    simp only [apart]
  | .template _ _, h2, h => by
    cases h2 <;> simp only [EExpr.beq, Bool.false_eq_true] at h
    simp only [apart]
  | .heredoc _ _ _, h2, h => by
    cases h2 <;> simp only [EExpr.beq, Bool.false_eq_true] at h
    simp only [apart]
  | .paren h1, h2, h => by
    cases h2 <;> simp only [EExpr.beq, Bool.false_eq_true] at h
    simp only [apart]
    rename_i h2
    exact apart_beq h1 h2 h
  | .var, h2, h => by
    cases h2 <;> simp only [EExpr.beq, Bool.false_eq_true] at h
    simp only [apart]
    simpa using h
  | .cond h1 _ _, h2, h => by
    cases h2 <;> simp only [EExpr.beq, Bool.false_eq_true] at h
    simp only [apart]
    simp only [Bool.and_eq_true] at h
    rename_i h2 _ _
    exact apart_beq h1 h2 h.1.1
  | .call _, h2, h => by
    cases h2 <;> simp only [EExpr.beq, Bool.false_eq_true] at h
    simp only [apart]
    simp only [Bool.and_eq_true] at h
    rw [names_beq h.1.1.1.1, show DIdent.name _ = DIdent.name _ from of_decide_eq_true h.1.1.1.2]
    simp
  | .trav h1 _, h2, h => by
    cases h2 <;> simp only [EExpr.beq, Bool.false_eq_true] at h
    simp only [apart]
    simp only [Bool.and_eq_true] at h
    rename_i h2 _
    exact apart_beq h1 h2 h.1
  | .unary h1, h2, h => by
    cases h2 <;> simp only [EExpr.beq, Bool.false_eq_true] at h
    simp only [apart]
    simp only [Bool.and_eq_true, decide_eq_true_eq] at h
    rename_i h2
    rw [apart_beq h1 h2 h.2, h.1]
    simp
  | .binary h1 k1, h2, h => by
    cases h2 <;> simp only [EExpr.beq, Bool.false_eq_true] at h
    simp only [apart]
    simp only [Bool.and_eq_true, decide_eq_true_eq] at h
    rename_i h2 k2
    rw [apart_beq h1 h2 h.1.1, apart_beq k1 k2 h.2, h.1.2]
    simp
  | .forE _ _ _ _, h2, h => by
    cases h2 <;> simp only [EExpr.beq, Bool.false_eq_true] at h
    simp only [apart]

theorem keyApart_beq {k l : EKey} {a b : ObjKey} (h1 : MeansKey U bd k a) (h2 : MeansKey U bd l b)
    (h : keyApart a b = true) : EExpr.beqKey k l = false := by
  cases hb : EExpr.beqKey k l with
  | false => rfl
  | true =>
    cases h1 <;> cases h2 <;> simp only [EExpr.beqKey, Bool.false_eq_true] at hb
    · rename_i c d
      have : c.name = d.name := of_decide_eq_true hb
      simp [keyApart, this] at h
    · rename_i h1 _ _ h2
      simp only [keyApart, apart_beq h1 h2 hb] at h
      cases h

/-- Equal expressions are not apart. -/
theorem apart_eq : ∀ a b : Expr, Expr.beq a b = true → apart a b = false
  | .null, b, h => by
    cases b <;> simp only [Expr.beq, Bool.false_eq_true] at h
    simp only [apart]
  | .bool _, b, h => by
    cases b <;> simp only [Expr.beq, Bool.false_eq_true] at h
    simp only [apart]; simpa using h
  | .number _, b, h => by
    cases b <;> simp only [Expr.beq, Bool.false_eq_true] at h
    simp only [apart]; simpa using h
  | .string _, b, h => by
    cases b <;> simp only [Expr.beq, Bool.false_eq_true] at h
    simp only [apart]; simpa using h
  | .array _, b, h => by
    cases b <;> simp only [Expr.beq, Bool.false_eq_true] at h
    simp only [apart]
  | .object _, b, h => by
    cases b <;> simp only [Expr.beq, Bool.false_eq_true] at h
    simp only [apart]
  | .template _, b, h => by
    cases b <;> simp only [Expr.beq, Bool.false_eq_true] at h
    simp only [apart]
  | .var _, b, h => by
    cases b <;> simp only [Expr.beq, Bool.false_eq_true] at h
    simp only [apart]; simpa using h
  | .traversal a _, b, h => by
    cases b <;> simp only [Expr.beq, Bool.false_eq_true] at h
    simp only [apart]
    simp only [Bool.and_eq_true] at h
    exact apart_eq a _ h.1
  | .call _ _ _, b, h => by
    cases b <;> simp only [Expr.beq, Bool.false_eq_true] at h
    simp only [apart]
    simp only [Bool.and_eq_true, decide_eq_true_eq] at h
    simp [h.1.1]
  | .paren a, b, h => by
    cases b <;> simp only [Expr.beq, Bool.false_eq_true] at h
    simp only [apart]
    exact apart_eq a _ h
  | .cond a _ _, b, h => by
    cases b <;> simp only [Expr.beq, Bool.false_eq_true] at h
    simp only [apart]
    simp only [Bool.and_eq_true] at h
    exact apart_eq a _ h.1.1
  | .unary _ a, b, h => by
    cases b <;> simp only [Expr.beq, Bool.false_eq_true] at h
    simp only [apart]
    simp only [Bool.and_eq_true, decide_eq_true_eq] at h
    rw [apart_eq a _ h.2, h.1]
    simp
  | .binary a _ b, c, h => by
    cases c <;> simp only [Expr.beq, Bool.false_eq_true] at h
    simp only [apart]
    simp only [Bool.and_eq_true, decide_eq_true_eq] at h
    rw [apart_eq a _ h.1.1, apart_eq b _ h.2, h.1.2]
    simp
  | .forE _ _ _ _ _ _ _, b, h => by
    cases b <;> simp only [Expr.beq, Bool.false_eq_true] at h
    simp only [apart]

theorem keyApart_eq {a b : ObjKey} (h : keyApart a b = true) : ObjKey.beq a b = false := by
  cases hb : ObjKey.beq a b with
  | false => rfl
  | true =>
    cases a <;> cases b <;> simp only [ObjKey.beq, Bool.false_eq_true] at hb
    · have := of_decide_eq_true hb
      simp [keyApart, this] at h
    · simp only [keyApart, apart_eq _ _ hb] at h
      cases h

theorem objInsert_append {k : ObjKey} {v : Expr} {es : List (ObjKey × Expr)}
    (h : ∀ p ∈ es, ObjKey.beq p.1 k = false) : objInsert k v es = es ++ [(k, v)] := by
  induction es with
  | nil => rfl
  | cons p es ih =>
    obtain ⟨k', v'⟩ := p
    unfold objInsert
    rw [if_neg (by rw [h (k', v') (List.mem_cons_self ..)]; decide),
      ih fun p hp => h p (List.mem_cons_of_mem _ hp)]
    rfl

theorem objCollect_apart {es : List (ObjKey × Expr)} (h : KeysApart (es.map Prod.fst)) : objCollect es = es := by
  have key : ∀ es acc : List (ObjKey × Expr), KeysApart ((acc ++ es).map Prod.fst) →
      es.foldl (fun m e => objInsert e.1 e.2 m) acc = acc ++ es := by
    intro es
    induction es with
    | nil => intro acc _; rw [List.append_nil]; rfl
    | cons p es ih =>
      intro acc h
      rw [List.foldl_cons, objInsert_append, ih, List.append_assoc]
      · rfl
      · rw [List.append_assoc]; exact h
      · intro q hq
        unfold KeysApart at h
        rw [List.map_append, List.pairwise_append] at h
        exact keyApart_eq (h.2.2 q.1 (List.mem_map_of_mem hq) p.1 (List.mem_cons_self ..))
  exact key es [] h

theorem itemInsert_append {k : EKey} {v : EExpr} {a : Assign} {t : ItemEnd} {is : List EItem}
    {acc : List (ObjKey × Expr)} {ke : ObjKey} (h : MeansItems U bd is acc) (hk : MeansKey U bd k ke)
    (hap : ∀ p ∈ acc, keyApart p.1 ke = true) : itemInsert k v a t is = is ++ [.mk k v a t] := by
  induction is generalizing acc with
  | nil => rfl
  | cons i is ih =>
    cases h with
    | cons h1 h2 h3 =>
      unfold itemInsert
      rw [if_neg (by rw [keyApart_beq h1 hk (hap _ (List.mem_cons_self ..))]; decide),
        ih h3 fun q hq => hap q (List.mem_cons_of_mem _ hq)]
      rfl

theorem _root_.Verif.Spec.MeansItems.append {is js : List EItem} {es fs : List (ObjKey × Expr)}
    (h1 : MeansItems U bd is es) (h2 : MeansItems U bd js fs) : MeansItems U bd (is ++ js) (es ++ fs) := by
  induction is generalizing es with
  | nil => cases h1; exact h2
  | cons i is ih =>
    cases h1 with
    | cons k1 k2 k3 => exact .cons k1 k2 (ih k3)

theorem _root_.Verif.Spec.MeansItems.one {k : EKey} {v : EExpr} {a : Assign} {t : ItemEnd} {ke : ObjKey} {e : Expr}
    (h1 : MeansKey U bd k ke) (h2 : Means U bd v e) : MeansItems U bd [.mk k v a t] [(ke, e)] :=
  .cons h1 h2 .nil

/-! ### The conversion -/

mutual

/-- Without templates the conversion yields the expression. -/
theorem _root_.Verif.Spec.Means.toHcl (F : FmtEnv) {v : EExpr} {e : Expr} : Means U bd v e →
    noTemplate e = true → Verif.toHcl F v = e
  | .null, _ => by simp only [Verif.toHcl]
  | .bool, _ => by simp only [Verif.toHcl]
  | .number, _ => by simp only [Verif.toHcl]
  | .string, _ => by simp only [Verif.toHcl]
  | .array h, hn => by
    simp only [noTemplate] at hn
    simp only [Verif.toHcl, h.toHcl F hn]
  | .object h k, hn => by
    simp only [noTemplate] at hn
    simp only [Verif.toHcl, h.toHcl F hn, objCollect_apart k]
  | .template h k, hn => by simp only [noTemplate, Bool.false_eq_true] at hn
  | .heredoc h k l, hn => by simp only [noTemplate, Bool.false_eq_true] at hn
  | .paren h, hn => by
    simp only [noTemplate] at hn
    simp only [Verif.toHcl, h.toHcl F hn]
  | .var, _ => by simp only [Verif.toHcl]
  | .cond h1 h2 h3, hn => by
    simp only [noTemplate, Bool.and_eq_true] at hn
    simp only [Verif.toHcl, h1.toHcl F hn.1.1, h2.toHcl F hn.1.2, h3.toHcl F hn.2]
  | .call h, hn => by
    simp only [noTemplate] at hn
    simp only [Verif.toHcl, h.toHcl F hn]
  | .trav h k, hn => by
    simp only [noTemplate, Bool.and_eq_true] at hn
    simp only [Verif.toHcl, h.toHcl F hn.1, k.toHcl F hn.2]
  | .unary h, hn => by
    simp only [noTemplate] at hn
    simp only [Verif.toHcl, h.toHcl F hn]
  | .binary h k, hn => by
    simp only [noTemplate, Bool.and_eq_true] at hn
    simp only [Verif.toHcl, h.toHcl F hn.1, k.toHcl F hn.2]
  | .forE h1 h2 h3 h4, hn => by
    simp only [noTemplate, Bool.and_eq_true] at hn
    simp only [Verif.toHcl, h1.toHcl F hn.1.1.1, h2.toHcl F hn.1.1.2, h3.toHcl F hn.1.2, h4.toHcl F hn.2]

theorem _root_.Verif.Spec.MeansOpt.toHcl (F : FmtEnv) {v : Option EExpr} {e : Option Expr} : MeansOpt U bd v e →
    noTemplateOpt e = true → toHclOpt F v = e
  | .none, _ => by simp only [toHclOpt]
  | .some h, hn => by
    simp only [noTemplateOpt] at hn
    simp only [toHclOpt, h.toHcl F hn]

theorem _root_.Verif.Spec.MeansList.toHcl (F : FmtEnv) {v : List EExpr} {e : List Expr} : MeansList U bd v e →
    noTemplates e = true → toHclList F v = e
  | .nil, _ => by simp only [toHclList]
  | .cons h k, hn => by
    simp only [noTemplates, Bool.and_eq_true] at hn
    simp only [toHclList, h.toHcl F hn.1, k.toHcl F hn.2]

theorem _root_.Verif.Spec.MeansItems.toHcl (F : FmtEnv) {v : List EItem} {e : List (ObjKey × Expr)} :
    MeansItems U bd v e → noTemplateItems e = true → toHclItems F v = e
  | .nil, _ => by simp only [toHclItems]
  | .cons h k l, hn => by
    simp only [noTemplateItems, Bool.and_eq_true] at hn
    simp only [toHclItems, h.toHcl F hn.1.1, k.toHcl F hn.1.2, l.toHcl F hn.2]

theorem _root_.Verif.Spec.MeansKey.toHcl (F : FmtEnv) {v : EKey} {e : ObjKey} : MeansKey U bd v e →
    noTemplateKey e = true → toHclKey F v = e
  | .ident, _ => by simp only [toHclKey]
  | .expr h, hn => by
    simp only [noTemplateKey] at hn
    simp only [toHclKey, h.toHcl F hn]

theorem _root_.Verif.Spec.MeansTravs.toHcl (F : FmtEnv) {v : List ETrav} {o : List TravOp} :
    MeansTravs U bd v o → noTemplateOps o = true → toHclOps F v = o
  | .nil, _ => by simp only [toHclOps]
  | .cons h k, hn => by
    simp only [noTemplateOps, Bool.and_eq_true] at hn
    simp only [toHclOps, h.toHcl F hn.1, k.toHcl F hn.2]

theorem _root_.Verif.Spec.MeansTravOp.toHcl (F : FmtEnv) {v : ETravOp} {o : TravOp} : MeansTravOp U bd v o →
    noTemplateOp o = true → toHclOp F v = o
  | .attrSplat, _ => by simp only [toHclOp]
  | .fullSplat, _ => by simp only [toHclOp]
  | .getAttr, _ => by simp only [toHclOp]
  | .index h, hn => by
    simp only [noTemplateOp] at hn
    simp only [toHclOp, h.toHcl F hn]
  | .legacyIndex, _ => by simp only [toHclOp]

end

theorem _root_.Verif.Spec.MeansLabels.toHcl {v : List ELabel} {l : List Label} (h : MeansLabels v l) :
    v.map toHclLabel = l := by
  induction h with
  | nil => rfl
  | cons h _ ih =>
    rw [List.map_cons, ih]
    cases h <;> rfl

mutual

theorem _root_.Verif.Spec.MeansStruct.toHcl (F : FmtEnv) {v : EStruct} {e : Struct} : MeansStruct U bd v e →
    noTemplateStruct e = true → toHclStruct F v = e
  | .attr h, hn => by
    simp only [noTemplateStruct] at hn
    simp only [toHclStruct, h.toHcl F hn]
  | .block h k, hn => by
    simp only [noTemplateStruct] at hn
    simp only [toHclStruct, h.toHcl, k.toHcl F hn]

theorem _root_.Verif.Spec.MeansStructs.toHcl (F : FmtEnv) {v : List EStruct} {e : List Struct} :
    MeansStructs U bd v e → noTemplateBody e = true → toHclStructs F v = e
  | .nil, _ => by simp only [toHclStructs]
  | .cons h k, hn => by
    simp only [noTemplateBody, Bool.and_eq_true] at hn
    simp only [toHclStructs, h.toHcl F hn.1, k.toHcl F hn.2]

theorem _root_.Verif.Spec.MeansBody.toHcl (F : FmtEnv) {v : EBody} {e : List Struct} : MeansBody U bd v e →
    noTemplateBody e = true → toHclBody F v = e
  | .mk h, hn => by simp only [toHclBody, h.toHcl F hn]

end

mutual

/-- Without templates in its expressions the conversion of a template yields its elements. -/
theorem _root_.Verif.Spec.MeansElems.toHcl (F : FmtEnv) {v : List EElem} {e : List Elem} : MeansElems U bd v e →
    noTemplateElems e = true → toHclElems F v = e
  | .nil, _ => by simp only [toHclElems]
  | .cons h k, hn => by
    simp only [noTemplateElems, Bool.and_eq_true] at hn
    simp only [toHclElems, h.toHcl F hn.1, k.toHcl F hn.2]

theorem _root_.Verif.Spec.MeansElem.toHcl (F : FmtEnv) {v : EElem} {e : Elem} : MeansElem U bd v e →
    noTemplateElem e = true → toHclElem F v = e
  | .lit, _ => by simp only [toHclElem]
  | .interp h, hn => by
    simp only [noTemplateElem] at hn
    simp only [toHclElem, h.toHcl F hn]
  | .ifDir h1 h2 h3, hn => by
    simp only [noTemplateElem, Bool.and_eq_true] at hn
    obtain ⟨h4, h5⟩ := h3.toHcl F hn.2
    simp only [toHclElem, h1.toHcl F hn.1.1, h2.toHcl F hn.1.2, h4, h5]
  | .forDir h1 h2, hn => by
    simp only [noTemplateElem, Bool.and_eq_true] at hn
    simp only [toHclElem, h1.toHcl F hn.1, h2.toHcl F hn.2]

theorem _root_.Verif.Spec.MeansElse.toHcl (F : FmtEnv) {v : Option EElse} {e : Option (List Elem)} {j : Strip} :
    MeansElse U bd v e j → noTemplateElse e = true → toHclElseOpt F v = e ∧ elseStrip v = j
  | .none, _ => by simp only [toHclElseOpt, elseStrip, and_self]
  | .some h, hn => by
    simp only [noTemplateElse] at hn
    simp only [toHclElseOpt, toHclElse, h.toHcl F hn, elseStrip, and_self]

end

end Verif.Gram
