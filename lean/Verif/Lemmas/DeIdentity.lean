import Verif.Lemmas.De
import Verif.Lemmas.Convert
import Mathlib.Data.List.Nodup
/-!
How results of deserialization are put together, and that the types of this crate are deserialized from
themselves unchanged.
-/

namespace Verif
open Spec De Filter

theorem eventually_list {α : Type} {P : Nat → α → Prop} : ∀ {l : List α},
    (∀ a ∈ l, ∀ᶠ n in atTop, P n a) → ∀ᶠ n in atTop, ∀ a ∈ l, P n a
  | [], _ => .of_forall fun _ _ h => absurd h (by simp)
  | a :: l, h => by
    filter_upwards [h a (by simp), eventually_list (l := l) fun b hb => h b (by simp [hb])] with n h1 h2
    intro b hb
    rcases List.mem_cons.1 hb with rfl | hb
    · exact h1
    · exact h2 b hb

theorem DRes.each_ok {α β : Type} {f : α → DRes β} {g : α → β} : ∀ {l : List α},
    (∀ a ∈ l, f a = .ok (g a)) → DRes.each f l = .ok (l.map g)
  | [], _ => rfl
  | a :: l, h => by
    simp only [DRes.each, h a (by simp), DRes.bind, DRes.each_ok (l := l) fun b hb => h b (by simp [hb]),
      List.map_cons]

/-- A field of a struct, with the entry it is deserialized from and the result. -/
structure Fld where
  name : Str
  ty : Ty
  key : Src
  src : Src
  d : Datum

namespace De

section
variable {E : FmtEnv} {r : Ty → Src → DRes Datum}

theorem findIdx_name {l pre post : List Fld} {q : Fld} (hl : l = pre ++ q :: post)
    (hn : (l.map Fld.name).Nodup) :
    (l.map Fld.name).findIdx? (fun x => x == q.name) = some pre.length := by
  subst hl
  rw [List.findIdx?_eq_some_iff_getElem]
  refine ⟨by simp, by simp, fun j hj => ?_⟩
  simp only [beq_iff_eq]
  intro he
  have h1 : j < ((pre ++ q :: post).map Fld.name).length := by simp; omega
  have h2 : pre.length < ((pre ++ q :: post).map Fld.name).length := by simp
  have := (List.Nodup.getElem_inj_iff hn (hi := h1) (hj := h2)).1 (by rw [he]; simp)
  omega

theorem fields_ok {l : List Fld} (hn : (l.map Fld.name).Nodup)
    (h : ∀ q ∈ l, ask E q.key .identifier = .str q.name ∧ r q.ty q.src = .ok q.d) :
    ∀ (post pre : List Fld) (acc : List (Nat × Datum)), l = pre ++ post →
      (∀ i, (acc.find? (fun p : Nat × Datum => p.1 == i)).map Prod.snd = (pre.map Fld.d)[i]?) →
      ∃ acc', fields E r (l.map fun q => (q.name, q.ty)) acc (post.map fun q => (q.key, q.src)) = .ok acc' ∧
        ∀ i, (acc'.find? (fun p : Nat × Datum => p.1 == i)).map Prod.snd = (l.map Fld.d)[i]?
  | [], pre, acc, hl, hacc => ⟨acc, rfl, by simpa [hl] using hacc⟩
  | q :: post, pre, acc, hl, hacc => by
    have hq := h q (by simp [hl])
    have hidx := findIdx_name hl hn
    have hany : acc.any (fun p : Nat × Datum => p.1 == pre.length) = false := by
      have := hacc pre.length
      rw [List.getElem?_eq_none (by simp), Option.map_eq_none_iff, List.find?_eq_none] at this
      rw [List.any_eq_false]
      exact this
    have hget : (l.map fun q => (q.name, q.ty))[pre.length]? = some (q.name, q.ty) := by simp [hl]
    have hnames : (l.map fun q => (q.name, q.ty)).map Prod.fst = l.map Fld.name := by
      rw [List.map_map]; rfl
    obtain ⟨acc', h1, h2⟩ := fields_ok hn h post (pre ++ [q]) ((pre.length, q.d) :: acc) (by simp [hl])
      (fun i => by
        rw [List.find?_cons]
        by_cases hi : pre.length = i
        · subst hi; simp
        · rw [beq_eq_false_iff_ne.2 hi]
          simp only [hacc i, List.map_append]
          by_cases hlt : i < pre.length
          · rw [List.getElem?_append_left (by simpa using hlt)]
          · rw [List.getElem?_eq_none (by simp; omega), List.getElem?_eq_none (by simp; omega)])
    refine ⟨acc', ?_, h2⟩
    simp only [List.map_cons, fields, hq.1, fieldOf, hnames, hidx, DRes.bind, hany, hget, hq.2]
    exact h1

theorem gather_ok {l : List Fld} {acc : List (Nat × Datum)}
    (h : ∀ i, (acc.find? (fun p : Nat × Datum => p.1 == i)).map Prod.snd = (l.map Fld.d)[i]?) :
    ∀ (post pre : List Fld), l = pre ++ post →
      gather r acc pre.length (post.map fun q => (q.name, q.ty)) = .ok (post.map Fld.d)
  | [], _, _ => rfl
  | q :: post, pre, hl => by
    have hq := h pre.length
    have : (l.map Fld.d)[pre.length]? = some q.d := by simp [hl]
    rw [this, Option.map_eq_some_iff] at hq
    obtain ⟨p, hp, hd⟩ := hq
    have ih := gather_ok h post (pre ++ [q]) (by simp [hl])
    rw [List.length_append, List.length_singleton] at ih
    simp only [List.map_cons, gather, hp, DRes.bind, ih, hd]

theorem visitStruct_ok {l : List Fld} (hn : (l.map Fld.name).Nodup)
    (h : ∀ q ∈ l, ask E q.key .identifier = .str q.name ∧ r q.ty q.src = .ok q.d) :
    visitStruct E r (l.map fun q => (q.name, q.ty)) (.map (l.map fun q => (q.key, q.src))) =
      .ok (.list (l.map Fld.d)) := by
  obtain ⟨acc, h1, h2⟩ := fields_ok hn h l [] [] rfl (by simp)
  have := gather_ok (r := r) h2 l [] rfl
  simp only [List.length_nil] at this
  simp only [visitStruct, h1, DRes.bind, this, DRes.map]

end

end De

section
variable {E : FmtEnv}

theorem des_str (s : Str) : Deserializes E .string (.str s) (.str s) := ⟨1, rfl⟩

theorem des_bool (b : Bool) : Deserializes E .bool (.bool b) (.bool b) := ⟨1, rfl⟩

theorem des_ident {x : Str} (h : IsIdentifier E.U x) : Deserializes E .ident (.str x) (.str x) :=
  ⟨1, by
    show visitStr (Ident.tryNew E.U) .str (.str x) = _
    rw [visitStr, (Props.C01_tryNew E.U x).1 h]; rfl⟩

theorem des_number {n : N} (h : WellFormed n) : Deserializes E .number (.num n) (.number n) := by
  refine ⟨1, ?_⟩
  cases n with
  | posInt n => rfl
  | negInt i =>
    simp only [de, visit, ask, number]
    rw [N.ofI64, if_pos h.2]
  | float x =>
    simp [de, visit, ask, number, N.fromF64, h.2.1, h.2.2, DRes.ofOption, DRes.map, DRes.bind]

theorem des_unOp (o : UnOp) : Deserializes E .unOp (.str o.asStr) (.unOp o) := ⟨1, by cases o <;> rfl⟩

theorem des_binOp (o : BinOp) : Deserializes E .binOp (.str o.asStr) (.binOp o) := ⟨1, by cases o <;> rfl⟩

theorem des_strip (m : HeredocStrip) : Deserializes E .strip (.str m.asStr) (.strip m) :=
  ⟨1, by cases m <;> rfl⟩

/-- A sequence, element by element. -/
theorem des_seq {α : Type} {t : Ty} {src : α → Src} {d : α → Datum} {l : List α}
    (h : ∀ a ∈ l, Deserializes E t (src a) (d a)) :
    Deserializes E (.seq t) (.seq (l.map src)) (.list (l.map d)) := by
  refine .of_eventually ?_
  filter_upwards [eventually_list fun a ha => (h a ha).eventually] with n hn
  have key : DRes.each (de E n t) (l.map src) = .ok (l.map d) := by
    clear h
    induction l with
    | nil => rfl
    | cons a l ih =>
      simp only [List.map_cons, DRes.each, hn a (by simp), DRes.bind, ih fun b hb => hn b (by simp [hb])]
  show (DRes.each (de E n t) (l.map src)).map Datum.list = _
  rw [key]; rfl

theorem des_opt_none (t : Ty) : Deserializes E (.option t) (.opt none) .none := ⟨1, rfl⟩

theorem des_opt_some {t : Ty} {s : Src} {d : Datum} (h : Deserializes E t s d) :
    Deserializes E (.option t) (.opt (some s)) (.some d) := by
  refine .of_eventually ?_
  filter_upwards [h.eventually] with n hn
  show (de E n t s).map Datum.some = _
  rw [hn]; rfl

/-- A struct, field by field. -/
theorem des_struct {s : Src} {name : Str} {l : List Fld}
    (ha : ask E s .struct = .map (l.map fun q => (q.key, q.src))) (hn : (l.map Fld.name).Nodup)
    (h : ∀ q ∈ l, ask E q.key .identifier = .str q.name ∧ Deserializes E q.ty q.src q.d) :
    Deserializes E (.struct name (l.map fun q => (q.name, q.ty))) s (.list (l.map Fld.d)) := by
  refine .of_eventually ?_
  filter_upwards [eventually_list fun a ha => (h a ha).2.eventually] with n hn'
  show visitStruct E (de E n) _ (ask E s .struct) = _
  rw [ha]
  exact visitStruct_ok hn fun q hq => ⟨(h q hq).1, hn' q hq⟩

/-- A newtype variant. -/
theorem des_variant {s content : Src} {name : Str} {vs : List (Str × VTy)} {vname : Str} {acc : VAcc} {i : Nat}
    {t : Ty} {d : Datum} (ha : ask E s (.enum name) = .enum (.str vname) acc)
    (hi : (vs.map Prod.fst).findIdx? (fun x => x == vname) = some i) (hv : vs[i]? = some (vname, .newtype t))
    (hc : ∀ r, newtypeVariant r t acc = r t content)
    (h : Deserializes E t content d) : Deserializes E (.enum name vs) s (.var i d) := by
  refine .of_eventually ?_
  filter_upwards [h.eventually] with n hn
  show visit E (de E n) (.enum name vs) (ask E s (.enum name)) = _
  rw [ha]
  simp only [visit, visitEnum, ask, variantOf, hi, DRes.ofOption, DRes.bind, hv, variantContent, hc, hn,
    DRes.map]

/-- A unit variant. -/
theorem des_unitVariant {s : Src} {name : Str} {vs : List (Str × VTy)} {vname : Str} {acc : VAcc} {i : Nat}
    (ha : ask E s (.enum name) = .enum (.str vname) acc)
    (hi : (vs.map Prod.fst).findIdx? (fun x => x == vname) = some i) (hv : vs[i]? = some (vname, .unit))
    (h : ∀ᶠ n in atTop, unitVariant (de E n) acc = .ok ()) : Deserializes E (.enum name vs) s (.unitVar i) := by
  refine .of_eventually ?_
  filter_upwards [h] with n hn
  show visit E (de E n) (.enum name vs) (ask E s (.enum name)) = _
  rw [ha]
  simp only [visit, visitEnum, ask, variantOf, hi, DRes.ofOption, DRes.bind, hv, variantContent, hn,
    DRes.map]

/-- A variant of `Expression`. -/
theorem des_expr {e e' : Expr} {content : Src} {i : Nat} {t : Ty} {d : Datum}
    (hi : (exprVariants.map Prod.fst).findIdx? (fun x => x == exprName e) = some i)
    (hv : exprVariants[i]? = some (exprName e, .newtype t)) (hc : exprContent e = some content)
    (h : Deserializes E t content d) (ha : asExprVariant (.var i d) = some e') :
    Deserializes E .expr (.expr e) (.expr e') := by
  refine .of_eventually ?_
  filter_upwards [h.eventually] with n hn
  have : ask E (.expr e) (want .expr) = .enum (.str (exprName e)) (.expr e) := by
    simp only [ask, want, exprAsk, exprEnum, if_pos]
  rw [this]
  simp only [visit, visitExpr, visitEnum, ask, variantOf, hi, DRes.ofOption, DRes.bind, hv, variantContent,
    newtypeVariant, hc, hn, DRes.map, ha]

theorem des_null : Deserializes E .expr (.expr .null) (.expr .null) := ⟨1, rfl⟩

theorem keys_objCollect {es : List (ObjKey × Expr)} (h : KeysDiffer es) : objCollect es = es :=
  objCollect_fresh h

theorem mapM_expr : ∀ es : List Expr, (es.map Datum.expr).mapM asExpr = some es
  | [] => rfl
  | e :: es => by simp [List.mapM_cons, asExpr, mapM_expr es]

theorem mapM_str : ∀ es : List Str, (es.map Datum.str).mapM asStr = some es
  | [] => rfl
  | e :: es => by simp [List.mapM_cons, asStr, mapM_str es]

/-- What a key is deserialized to. -/
def keyDatum : ObjKey → Datum
  | .ident x => .var 0 (.str x)
  | .expr e => .var 1 (.expr e)

theorem asKey_keyDatum (k : ObjKey) : asKey (keyDatum k) = some k := by cases k <;> rfl

theorem mapM_entries : ∀ es : List (ObjKey × Expr),
    (es.map fun p => (keyDatum p.1, Datum.expr p.2)).mapM asEntry = some es
  | [] => rfl
  | e :: es => by simp [List.mapM_cons, asEntry, asKey_keyDatum, asExpr, mapM_entries es]

/-- What a traversal operator is deserialized to. -/
def travDatum : TravOp → Datum
  | .attrSplat => .unitVar 0
  | .fullSplat => .unitVar 1
  | .getAttr x => .var 2 (.str x)
  | .index e => .var 3 (.expr e)
  | .legacyIndex i => .var 4 (.int i)

theorem mapM_ops : ∀ os : List TravOp, (os.map travDatum).mapM asTravOp = some os
  | [] => rfl
  | o :: os => by
    rw [List.map_cons, List.mapM_cons, mapM_ops os]
    cases o <;> rfl

/-- What a template is deserialized to. -/
def tmplDatum : TmplExpr → Datum
  | .quoted s => .var 0 (.str s)
  | .heredoc d t m => .var 1 (.list [.str d, .str t, .strip m])

theorem des_tmpl {t : TmplExpr} (h : SoundTmpl E.U t) : Deserializes E tmplTy (.tmpl t) (tmplDatum t) := by
  cases t with
  | quoted s =>
    exact des_variant (vname := c!"QuotedString") (acc := .source (.tmpl (.quoted s)))
      (content := .tmpl (.quoted s)) rfl rfl rfl (fun _ => rfl) ⟨1, rfl⟩
  | heredoc d t m =>
    refine des_variant (vname := c!"Heredoc") (acc := .source (.tmpl (.heredoc d t m)))
      (content := .tmpl (.heredoc d t m)) rfl rfl rfl (fun _ => rfl) ?_
    refine des_struct (l := [⟨c!"delimiter", .ident, .str c!"delimiter", .str d, .str d⟩,
      ⟨c!"template", .string, .str c!"template", .str t, .str t⟩,
      ⟨c!"strip", .strip, .str c!"strip", .str m.asStr, .strip m⟩]) rfl (by simp only [List.map]; decide) ?_
    simp only [List.mem_cons, List.not_mem_nil, or_false, forall_eq_or_imp, forall_eq]
    exact ⟨⟨rfl, des_ident h⟩, ⟨rfl, des_str t⟩, ⟨rfl, des_strip m⟩⟩

theorem des_func {n : FuncName} (h : ∀ y ∈ n.namespaces, IsIdentifier E.U y) (h' : IsIdentifier E.U n.name) :
    Deserializes E funcNameTy (.access (funcNameAccess n))
      (.list [.list (n.namespaces.map .str), .str n.name]) := by
  refine des_struct (l := [⟨c!"namespace", .seq .ident, .str c!"namespace", .seq (n.namespaces.map .str),
      .list (n.namespaces.map .str)⟩,
    ⟨c!"name", .ident, .str c!"name", .str n.name, .str n.name⟩]) rfl (by simp only [List.map]; decide) ?_
  simp only [List.mem_cons, List.not_mem_nil, or_false, forall_eq_or_imp, forall_eq]
  exact ⟨⟨rfl, des_seq fun y hy => des_ident (h y hy)⟩, ⟨rfl, des_ident h'⟩⟩

/-- The map of an object. -/
theorem des_entries {es : List (ObjKey × Expr)} (hk : ∀ p ∈ es, Deserializes E keyTy (.key p.1) (keyDatum p.1))
    (hv : ∀ p ∈ es, Deserializes E .expr (.expr p.2) (.expr p.2)) :
    Deserializes E (.map keyTy .expr) (.map (entries es))
      (.map (es.map fun p => (keyDatum p.1, Datum.expr p.2))) := by
  refine .of_eventually ?_
  filter_upwards [eventually_list fun p hp => (hk p hp).eventually,
    eventually_list fun p hp => (hv p hp).eventually] with n h1 h2
  have key : DRes.each (fun p : Src × Src => (de E n keyTy p.1).bind fun x => (de E n .expr p.2).bind fun y =>
      .ok (x, y)) (entries es) = .ok (es.map fun p => (keyDatum p.1, Datum.expr p.2)) := by
    clear hk hv
    induction es with
    | nil => rfl
    | cons p es ih =>
      simp only [entries, List.map_cons, DRes.each, h1 p (by simp), h2 p (by simp), DRes.bind]
      have := ih (fun q hq => h1 q (by simp [hq])) (fun q hq => h2 q (by simp [hq]))
      simp only [entries, DRes.bind] at this
      rw [this]
  show (DRes.each _ (entries es)).map Datum.map = _
  rw [key]; rfl

mutual

theorem des_same : ∀ {e : Expr}, Sound E.U e → Deserializes E .expr (.expr e) (.expr e)
  | .null, _ => des_null
  | .bool b, _ => des_expr rfl rfl rfl (des_bool b) rfl
  | .number n, h => des_expr rfl rfl rfl (des_number h) rfl
  | .string s, _ => des_expr rfl rfl rfl (des_str s) rfl
  | .array es, h => des_expr rfl rfl rfl (des_seq (des_same_list h)) (by
      simp only [asExprVariant, mapM_expr, Option.map_some])
  | .object es, h => des_expr rfl rfl rfl (des_entries (fun p hp => (des_same_entries h.1 p hp).1)
      (fun p hp => (des_same_entries h.1 p hp).2)) (by
      simp only [asExprVariant, mapM_entries, Option.map_some, keys_objCollect h.2])
  | .template t, h => des_expr rfl rfl rfl (des_tmpl h) (by cases t <;> rfl)
  | .var x, h => des_expr rfl rfl rfl (des_ident h) rfl
  | .traversal e os, h => by
    refine des_expr rfl rfl rfl (des_struct (l := [⟨c!"expr", .expr, .str c!"expr", .expr e, .expr e⟩,
      ⟨c!"operators", .seq travOpTy, .str c!"operators", .seq (os.map .travOp), .list (os.map travDatum)⟩])
      rfl (by simp only [List.map]; decide) ?_) ?_
    · simp only [List.mem_cons, List.not_mem_nil, or_false, forall_eq_or_imp, forall_eq]
      exact ⟨⟨rfl, des_same h.1⟩, ⟨rfl, des_seq (des_same_ops h.2)⟩⟩
    · simp only [List.map_cons, List.map_nil, asExprVariant, mapM_ops, Option.map_some]
  | .call n es x, h => by
    refine des_expr rfl rfl rfl (des_struct (l := [
      ⟨c!"name", funcNameTy, .str c!"name", .access (funcNameAccess n),
        .list [.list (n.namespaces.map .str), .str n.name]⟩,
      ⟨c!"args", .seq .expr, .str c!"args", .seq (exprs es), .list (es.map .expr)⟩,
      ⟨c!"expand_final", .bool, .str c!"expand_final", .bool x, .bool x⟩]) rfl (by simp only [List.map]; decide) ?_) ?_
    · simp only [List.mem_cons, List.not_mem_nil, or_false, forall_eq_or_imp, forall_eq]
      exact ⟨⟨rfl, des_func h.1 h.2.1⟩, ⟨rfl, des_seq (des_same_list h.2.2)⟩, ⟨rfl, des_bool x⟩⟩
    · simp only [List.map_cons, List.map_nil, asExprVariant, mapM_expr, mapM_str, Option.map_some,
        Option.bind_some]
  | .paren e, h => des_expr rfl rfl rfl (des_same h) rfl
  | .cond c t f, h => by
    refine des_expr rfl rfl rfl (des_struct (l := [
      ⟨c!"cond_expr", .expr, .str c!"cond_expr", .expr c, .expr c⟩,
      ⟨c!"true_expr", .expr, .str c!"true_expr", .expr t, .expr t⟩,
      ⟨c!"false_expr", .expr, .str c!"false_expr", .expr f, .expr f⟩]) rfl (by simp only [List.map]; decide) ?_) rfl
    simp only [List.mem_cons, List.not_mem_nil, or_false, forall_eq_or_imp, forall_eq]
    exact ⟨⟨rfl, des_same h.1⟩, ⟨rfl, des_same h.2.1⟩, ⟨rfl, des_same h.2.2⟩⟩
  | .unary o e, h => by
    refine des_expr rfl rfl rfl (des_variant (vname := c!"Unary") (acc := .source (.unaryOp o e))
      (content := .unaryOp o e) rfl rfl rfl (fun _ => rfl)
      (des_struct (l := [
        ⟨c!"operator", .unOp, .str c!"operator", .str o.asStr, .unOp o⟩,
        ⟨c!"expr", .expr, .str c!"expr", .expr e, .expr e⟩]) rfl (by simp only [List.map]; decide) ?_)) rfl
    simp only [List.mem_cons, List.not_mem_nil, or_false, forall_eq_or_imp, forall_eq]
    exact ⟨⟨rfl, des_unOp o⟩, ⟨rfl, des_same h⟩⟩
  | .binary l o r, h => by
    refine des_expr rfl rfl rfl (des_variant (vname := c!"Binary") (acc := .source (.binaryOp l o r))
      (content := .binaryOp l o r) rfl rfl rfl (fun _ => rfl)
      (des_struct (l := [
        ⟨c!"lhs_expr", .expr, .str c!"lhs_expr", .expr l, .expr l⟩,
        ⟨c!"operator", .binOp, .str c!"operator", .str o.asStr, .binOp o⟩,
        ⟨c!"rhs_expr", .expr, .str c!"rhs_expr", .expr r, .expr r⟩]) rfl (by simp only [List.map]; decide) ?_)) rfl
    simp only [List.mem_cons, List.not_mem_nil, or_false, forall_eq_or_imp, forall_eq]
    exact ⟨⟨rfl, des_same h.1⟩, ⟨rfl, des_binOp o⟩, ⟨rfl, des_same h.2⟩⟩
  | .forE k v c ke ve g ce, h => by
    have hk : ∃ d, Deserializes E (.option .ident) (.opt (k.map .str)) d ∧ asOpt asStr d = some k := by
      cases k with
      | none => exact ⟨_, des_opt_none _, rfl⟩
      | some x => exact ⟨_, des_opt_some (des_ident (h.1 x rfl)), rfl⟩
    obtain ⟨dk, hk1, hk2⟩ := hk
    obtain ⟨dke, hke1, hke2⟩ := des_same_opt h.2.2.2.1
    obtain ⟨dce, hce1, hce2⟩ := des_same_opt h.2.2.2.2.2
    refine des_expr rfl rfl rfl (des_struct (l := [
      ⟨c!"key_var", .option .ident, .str c!"key_var", .opt (k.map .str), dk⟩,
      ⟨c!"value_var", .ident, .str c!"value_var", .str v, .str v⟩,
      ⟨c!"collection_expr", .expr, .str c!"collection_expr", .expr c, .expr c⟩,
      ⟨c!"key_expr", .option .expr, .str c!"key_expr", .opt (ke.map .expr), dke⟩,
      ⟨c!"value_expr", .expr, .str c!"value_expr", .expr ve, .expr ve⟩,
      ⟨c!"grouping", .bool, .str c!"grouping", .bool g, .bool g⟩,
      ⟨c!"cond_expr", .option .expr, .str c!"cond_expr", .opt (ce.map .expr), dce⟩]) rfl (by simp only [List.map]; decide) ?_) ?_
    · simp only [List.mem_cons, List.not_mem_nil, or_false, forall_eq_or_imp, forall_eq]
      exact ⟨⟨rfl, hk1⟩, ⟨rfl, des_ident h.2.1⟩, ⟨rfl, des_same h.2.2.1⟩, ⟨rfl, hke1⟩,
        ⟨rfl, des_same h.2.2.2.2.1⟩, ⟨rfl, des_bool g⟩, ⟨rfl, hce1⟩⟩
    · simp only [List.map_cons, List.map_nil, asExprVariant, hk2, hke2, hce2, Option.map_some,
        Option.bind_some]

theorem des_same_opt : ∀ {o : Option Expr}, SoundOpt E.U o →
    ∃ d, Deserializes E (.option .expr) (.opt (o.map .expr)) d ∧ asOpt asExpr d = some o
  | none, _ => ⟨_, des_opt_none _, rfl⟩
  | some _, h => ⟨_, des_opt_some (des_same h), rfl⟩

theorem des_same_list : ∀ {es : List Expr}, SoundList E.U es →
    ∀ e ∈ es, Deserializes E .expr (.expr e) (.expr e)
  | [], _, _, h => absurd h (by simp)
  | x :: es, h, e, he => by
    rcases List.mem_cons.1 he with heq | he
    · rw [heq]; exact des_same h.1
    · exact des_same_list h.2 e he

theorem des_same_entries : ∀ {es : List (ObjKey × Expr)}, SoundEntries E.U es → ∀ p ∈ es,
    Deserializes E keyTy (.key p.1) (keyDatum p.1) ∧ Deserializes E .expr (.expr p.2) (.expr p.2)
  | [], _, _, h => absurd h (by simp)
  | (k, v) :: es, h, p, hp => by
    rcases List.mem_cons.1 hp with heq | hp
    · rw [heq]; exact ⟨des_same_key h.1, des_same h.2.1⟩
    · exact des_same_entries h.2.2 p hp

theorem des_same_key : ∀ {k : ObjKey}, SoundKey E.U k → Deserializes E keyTy (.key k) (keyDatum k)
  | .ident x, h => des_variant (vname := c!"Identifier") (acc := .key (.ident x)) (content := .key (.ident x))
      rfl rfl rfl (fun _ => rfl) ⟨1, by
        show visitStr (Ident.tryNew E.U) .str (.str x) = _
        rw [visitStr, (Props.C01_tryNew E.U x).1 h]; rfl⟩
  | .expr e, h => des_variant (vname := c!"Expression") (acc := .key (.expr e)) (content := .expr e)
      rfl rfl rfl (fun _ => rfl) (des_same h)

theorem des_same_ops : ∀ {os : List TravOp}, SoundOps E.U os →
    ∀ o ∈ os, Deserializes E travOpTy (.travOp o) (travDatum o)
  | [], _, _, h => absurd h (by simp)
  | x :: os, h, o, ho => by
    rcases List.mem_cons.1 ho with heq | ho
    · rw [heq]; exact des_same_op h.1
    · exact des_same_ops h.2 o ho

theorem des_same_op : ∀ {o : TravOp}, SoundOp E.U o → Deserializes E travOpTy (.travOp o) (travDatum o)
  | .attrSplat, _ => ⟨2, rfl⟩
  | .fullSplat, _ => ⟨2, rfl⟩
  | .getAttr x, h => des_variant (vname := c!"GetAttr") (acc := .travOp (.getAttr x)) (content := .str x)
      rfl rfl rfl (fun _ => rfl) (des_ident h)
  | .index e, h => des_variant (vname := c!"Index") (acc := .travOp (.index e)) (content := .expr e)
      rfl rfl rfl (fun _ => rfl) (des_same h)
  | .legacyIndex i, h => des_variant (vname := c!"LegacyIndex") (acc := .travOp (.legacyIndex i))
      (content := .travOp (.legacyIndex i)) rfl rfl rfl (fun _ => rfl) ⟨1, by
        show visitInt 0 (2 ^ 64 - 1) (.u64 i) = _
        simp only [SoundOp] at h
        rw [visitInt, if_pos (by omega)]⟩

end

end

end Verif
