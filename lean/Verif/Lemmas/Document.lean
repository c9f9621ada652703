import Verif.Lemmas.DeRoundTrip
import Verif.Lemmas.JsonSpec
import Verif.Spec.Document
/-!
Documents that are written and read back: what the nodes of serialized blocks are, and that they are
deserialized to the same data.
-/

namespace Verif
open Spec De Filter

/-! ### Nodes -/

/-- The nodes of blocks with the same identifier, merged. -/
def joinNodes : List JNode → JNode
  | [] => .map []
  | n :: ns => ns.foldl JNode.merge n

theorem get_last {V : Type} {x : Str} {a : V} : ∀ {m : List (Str × V)}, x ∉ m.map Prod.fst →
    Map.get? x (m ++ [(x, a)]) = some a
  | [], _ => by simp [Map.get?]
  | (k, v) :: m, h => by
    simp only [List.map_cons, List.mem_cons, not_or] at h
    simp only [List.cons_append, Map.get?, if_neg (Ne.symm h.1)]
    exact get_last h.2

theorem insert_last {V : Type} {x : Str} {a b : V} : ∀ {m : List (Str × V)}, x ∉ m.map Prod.fst →
    Map.insert x b (m ++ [(x, a)]) = m ++ [(x, b)]
  | [], _ => by simp [Map.insert]
  | (k, v) :: m, h => by
    simp only [List.map_cons, List.mem_cons, not_or] at h
    simp only [List.cons_append, Map.insert, if_neg (Ne.symm h.1), insert_last h.2]

theorem get_absent {V : Type} {x : Str} : ∀ {m : List (Str × V)}, x ∉ m.map Prod.fst → Map.get? x m = none
  | [], _ => rfl
  | (k, v) :: m, h => by
    simp only [List.map_cons, List.mem_cons, not_or] at h
    simp only [Map.get?, if_neg (Ne.symm h.1), get_absent h.2]

theorem merge_last {x : Str} {m : List (Str × JNode)} (h : x ∉ m.map Prod.fst) (a n : JNode) :
    JNode.mergeAll (m ++ [(x, a)]) [(x, n)] = m ++ [(x, JNode.merge a n)] := by
  rw [mergeAll_one, get_last h, insert_last h]

theorem merge_first {x : Str} {m : List (Str × JNode)} (h : x ∉ m.map Prod.fst) (n : JNode) :
    JNode.mergeAll m [(x, n)] = m ++ [(x, n)] := by
  rw [mergeAll_one, get_absent h]; exact Map.insert_fresh h

theorem fold_last {x : Str} {m : List (Str × JNode)} (h : x ∉ m.map Prod.fst) : ∀ (ns : List JNode) (a : JNode),
    ns.foldl (fun m n => JNode.mergeAll m [(x, n)]) (m ++ [(x, a)]) = m ++ [(x, ns.foldl JNode.merge a)]
  | [], _ => rfl
  | n :: ns, a => by
    rw [List.foldl_cons, merge_last h, fold_last h ns]; rfl

theorem fold_same {x : Str} {m : List (Str × JNode)} (h : x ∉ m.map Prod.fst) {ns : List JNode} (hn : ns ≠ []) :
    ns.foldl (fun m n => JNode.mergeAll m [(x, n)]) m = m ++ [(x, joinNodes ns)] := by
  cases ns with
  | nil => exact absurd rfl hn
  | cons n ns => rw [List.foldl_cons, merge_first h, fold_last h]; rfl

theorem fold_maps {x : Str} : ∀ (ns : List JNode) (m : List (Str × JNode)),
    (ns.map fun n => JNode.map [(x, n)]).foldl JNode.merge (.map m) =
      .map (ns.foldl (fun m n => JNode.mergeAll m [(x, n)]) m)
  | [], _ => rfl
  | n :: ns, m => by
    simp only [List.map_cons, List.foldl_cons, JNode.merge]
    exact fold_maps ns _

/-- Blocks with a label in front. -/
structure Grp where
  label : Str
  nodes : List JNode

theorem fold_groups : ∀ (gs : List Grp) (m : List (Str × JNode)), (m.map Prod.fst ++ gs.map Grp.label).Nodup →
    (∀ g ∈ gs, g.nodes ≠ []) →
    (gs.map fun g => g.nodes.map fun n => JNode.map [(g.label, n)]).flatten.foldl JNode.merge (.map m) =
      .map (m ++ gs.map fun g => (g.label, joinNodes g.nodes))
  | [], m, _, _ => by simp
  | g :: gs, m, hd, hn => by
    have hx : g.label ∉ m.map Prod.fst := by
      intro hm
      rw [List.nodup_append] at hd
      exact hd.2.2 _ hm g.label (by simp) rfl
    rw [List.map_cons, List.flatten_cons, List.foldl_append, fold_maps, fold_same hx (hn g (by simp)),
      fold_groups gs _ (by simpa [List.append_assoc] using hd) fun g' hg => hn g' (by simp [hg])]
    simp

theorem join_groups {gs : List Grp} (h : (gs.map Grp.label).Nodup) (hn : ∀ g ∈ gs, g.nodes ≠ []) :
    joinNodes (gs.map fun g => g.nodes.map fun n => JNode.map [(g.label, n)]).flatten =
      .map (gs.map fun g => (g.label, joinNodes g.nodes)) := by
  have key := fold_groups gs [] (by simpa using h) hn
  rw [List.nil_append] at key
  rw [← key]
  cases gs with
  | nil => rfl
  | cons g gs =>
    rcases hg : g.nodes with _ | ⟨n, ns⟩
    · exact absurd hg (hn g (by simp))
    · simp only [List.map_cons, List.flatten_cons, hg, List.cons_append, joinNodes, List.foldl_cons, JNode.merge,
        mergeAll_one_nil]

theorem join_bodies : ∀ (bs : List Expr) (cs : List Expr),
    (bs.map fun b => JNode.body [b]).foldl JNode.merge (.body cs) = .body (cs ++ bs)
  | [], cs => by simp
  | b :: bs, cs => by
    simp only [List.map_cons, List.foldl_cons, JNode.merge]
    rw [join_bodies bs]; simp

theorem toExpr_bodies {bs : List Expr} (h : 2 ≤ bs.length) :
    (joinNodes (bs.map fun b => JNode.body [b])).toExpr = .array bs := by
  match bs, h with
  | b :: c :: bs, _ =>
    have := join_bodies (c :: bs) [b]
    rw [List.map_cons, joinNodes, this]
    simp [JNode.toExpr]

theorem entriesToExpr_eq : ∀ es : List (Str × JNode),
    JNode.entriesToExpr es = es.map fun p => (ObjKey.expr (.string p.1), p.2.toExpr)
  | [] => by simp [JNode.entriesToExpr]
  | (k, n) :: es => by simp [JNode.entriesToExpr, entriesToExpr_eq es]

theorem toExpr_map {es : List (Str × JNode)} (h : (es.map Prod.fst).Nodup) :
    (JNode.map es).toExpr = .object (es.map fun p => (.expr (.string p.1), p.2.toExpr)) := by
  rw [JNode.toExpr, entriesToExpr_eq, keys_objCollect]
  exact keysDiffer_names (ns := es.map Prod.fst) (by simp) h

/-- The blocks with an identifier: labels and bodies. -/
abbrev Items := List (List Label × List Struct)

def Items.blocks (id : Str) (is : Items) : List Struct := is.map fun p => .block id p.1 p.2

def Items.nodes (is : Items) : List JNode := is.map fun p => blockNode (bodyToJson p.2) p.1

theorem bodyNodes_blocks {id : Str} : ∀ (is : Items) (m : List (Str × JNode)),
    bodyNodes m (is.blocks id) = is.nodes.foldl (fun m n => JNode.mergeAll m [(id, n)]) m
  | [], m => by simp [Items.blocks, Items.nodes, bodyNodes]
  | p :: is, m => by
    have := bodyNodes_blocks (id := id) is (structNodes m (.block id p.1 p.2))
    simp only [Items.blocks, Items.nodes, List.map_cons, bodyNodes, List.foldl_cons] at this ⊢
    rw [this]
    simp only [structNodes, bodyToJson]

/-! ### Printing -/

variable {E : FmtEnv} {bd : Build} {cfg : FmtCfg}

theorem printableStructs_iff : ∀ {ss : List Struct},
    PrintableStructs E bd cfg false ss ↔ ∀ s ∈ ss, PrintableStruct E bd cfg false s
  | [] => by simp [PrintableStructs]
  | s :: ss => by simp [PrintableStructs, printableStructs_iff (ss := ss)]

theorem synKeys_append : ∀ a b : List Struct, Spec.Syn.attrKeys (a ++ b) = Spec.Syn.attrKeys a ++ Spec.Syn.attrKeys b
  | [], _ => rfl
  | .attr k e :: a, b => by simp [Spec.Syn.attrKeys, synKeys_append a b]
  | .block _ _ _ :: a, b => by simp [Spec.Syn.attrKeys, synKeys_append a b]

theorem synKeys_blocks {id : Str} : ∀ is : Items, Spec.Syn.attrKeys (is.blocks id) = []
  | [] => rfl
  | _ :: is => synKeys_blocks is

/-! ### Attributes -/

theorem sval_struct (w : Value) (i : Str) : (w.sval.run E).struct i = Ser.attr i (w.sval.run E).expr := by
  rcases w with _ | _ | n | _ | _ | _ <;> first | rfl | (cases n <;> rfl)

theorem attr_of {v : SVal} {i : Str} {e : Expr} (h : (v.run E).struct i = Ser.attr i (v.run E).expr)
    (hg : Gives true (v.run E).expr (.ok e)) : Gives true ((v.run E).struct i) (.ok [.attr i e]) := by
  rw [h]
  exact gives_chain hg (gives_ret _)

theorem gives_unique {α : Type} {m : SM α} {a b : α} (h : Gives true m (.ok a)) (h' : Gives true m (.ok b)) :
    a = b := by
  have hs : StOk { SerSt.initial with internal := true } := stOk_initial
  exact SRes.ok.inj ((h _ hs rfl).1.symm.trans (h' _ hs rfl).1)

theorem attr_gives (i : Str) {e : Expr} : ∀ {t : Ty} {d : Datum} {v : SVal}, Impl E.U t d v → AttrField v →
    Gives true (v.run E).expr (.ok e) → Gives true ((v.run E).struct i) (.ok [.attr i e])
  | _, _, _, .some (v := v) h, ha, hg => attr_gives i (v := v) h ha hg
  | _, _, _, .newtype h, ha, hg => attr_of (by simp only [SVal.run, Ser.newtypeStruct, if_neg ha.1, if_neg ha.2]) hg
  | _, _, _, .number _ hv, _, hg => by subst hv; exact attr_of (sval_struct _ i) hg
  | _, _, _, .value _ _ hv, _, hg => by subst hv; exact attr_of (sval_struct _ i) hg
  | _, _, _, .expr (e := e') h, _, hg => by
    rw [← gives_unique (gives_exprSers e') hg]
    exact gives_exprSers_field i e'
  | _, _, _, .bool _, _, hg => attr_of rfl hg
  | _, _, _, .sint _ _ _, _, hg => attr_of rfl hg
  | _, _, _, .uint _ _, _, hg => attr_of rfl hg
  | _, _, _, .u64 _, _, hg => attr_of rfl hg
  | _, _, _, .f64 _, _, hg => attr_of rfl hg
  | _, _, _, .char _, _, hg => attr_of rfl hg
  | _, _, _, .string _, _, hg => attr_of rfl hg
  | _, _, _, .unit, _, hg => attr_of rfl hg
  | _, _, _, .none _, _, hg => attr_of rfl hg
  | _, _, _, .seq _, _, hg => attr_of rfl hg
  | _, _, _, .tuple _, _, hg => attr_of rfl hg
  | _, _, _, .tupleStruct _, _, hg => attr_of rfl hg
  | _, _, _, .map _ _, _, hg => attr_of rfl hg
  | _, _, _, .struct _ _ _ _, _, hg => attr_of rfl hg
  | _, _, _, .unitVar _ _ _, _, hg => attr_of rfl hg
  | _, _, _, .newtypeVar _ _ _ _, _, hg => attr_of rfl hg
  | _, _, _, .tupleVar _ _ _ _, _, hg => attr_of rfl hg
  | _, _, _, .structVar _ _ _ _ _, _, hg => attr_of rfl hg
  | _, _, _, .ident _, _, hg => attr_of rfl hg
  | _, _, _, .block _, ha, _ => absurd ha id
  | _, _, _, .labeled _, ha, _ => absurd ha id

/-! ### Documents -/

/-- A field or entry of a document: its name, type, node and the result. -/
structure DFld where
  name : Str
  ty : Ty
  node : JNode
  d : Datum

/-- What a field of a document gives. -/
structure FieldRt (E : FmtEnv) (bd : Build) (cfg : FmtCfg) (id : Str) (t : Ty) (d : Datum) (v : SVal)
    (ss : List Struct) (node : JNode) : Prop where
  gives : Gives true ((v.run E).struct id) (.ok ss)
  nodes : ∀ m, id ∉ m.map Prod.fst → bodyNodes m ss = m ++ [(id, node)]
  des : Deserializes E t (.expr node.toExpr) d
  null : ¬ AttrField v → node.toExpr ≠ .null
  text : PrintableStructs E bd cfg false ss
  keys : (Spec.Syn.attrKeys ss).Sublist [id]

/-- What the content of a `Block` gives. -/
structure BlocksRt (E : FmtEnv) (bd : Build) (cfg : FmtCfg) (id : Str) (t : Ty) (d : Datum) (m : SM (List Struct))
    (is : Items) : Prop where
  gives : Gives true m (.ok (is.blocks id))
  some : is ≠ []
  des : Deserializes E t (.expr (joinNodes is.nodes).toExpr) d
  null : (joinNodes is.nodes).toExpr ≠ .null
  text : PrintableStructs E bd cfg false (is.blocks id)

/-- What a document gives. -/
structure BodyRt (E : FmtEnv) (bd : Build) (cfg : FmtCfg) (t : Ty) (d : Datum) (v : SVal) (ss : List Struct) :
    Prop where
  gives : Gives true (v.run E).body (.ok ss)
  block : ∀ id, Gives true ((v.run E).block id) (.ok [.block id [] ss])
  obj : ∃ es, bodyToJson ss = .object es
  des : Deserializes E t (.expr (bodyToJson ss)) d
  doc : Deserializes E t (.doc ss) d
  text : PrintableBody E bd cfg false ss

/-- What the fields or entries give. -/
structure FieldsRt (E : FmtEnv) (bd : Build) (cfg : FmtCfg) (m : SM (List (List Struct))) (bss : List (List Struct))
    (l : List DFld) : Prop where
  gives : Gives true m (.ok bss)
  nodes : ∀ m, (m.map Prod.fst ++ l.map DFld.name).Nodup →
    bodyNodes m bss.flatten = m ++ l.map fun q => (q.name, q.node)
  des : ∀ q ∈ l, Deserializes E q.ty (.expr q.node.toExpr) q.d
  text : PrintableStructs E bd cfg false bss.flatten
  keys : (Spec.Syn.attrKeys bss.flatten).Sublist (l.map DFld.name)

theorem FieldsRt.nil : FieldsRt E bd cfg (SM.ret []) [] [] where
  gives := gives_ret _
  nodes m _ := by simp [bodyNodes]
  des := nofun
  text := trivial
  keys := .refl _

theorem FieldsRt.cons {α : Type} {f : α → SM (List Struct)} {a : α} {as : List α} {x : Str} {t : Ty} {d : Datum}
    {v : SVal} {ss : List Struct} {node : JNode} {bss : List (List Struct)} {l : List DFld}
    (h : FieldRt E bd cfg x t d v ss node) (hf : Gives true (f a) (.ok ss))
    (hr : FieldsRt E bd cfg (SM.each f as) bss l) :
    FieldsRt E bd cfg (SM.each f (a :: as)) (ss :: bss) (⟨x, t, node, d⟩ :: l) where
  gives := gives_chain hf (gives_chain hr.gives (gives_ret _))
  nodes m hd := by
    have hx : x ∉ m.map Prod.fst := by
      intro hm
      rw [List.nodup_append] at hd
      exact hd.2.2 _ hm x (by simp) rfl
    rw [List.flatten_cons, bodyNodes_append, h.nodes m hx, hr.nodes _ (by simpa [List.append_assoc] using hd)]
    simp
  des := by
    rw [List.forall_mem_cons]; exact ⟨h.des, hr.des⟩
  text := by
    rw [List.flatten_cons, printableStructs_iff]
    intro s hs
    rcases List.mem_append.1 hs with hs | hs
    · exact printableStructs_iff.1 h.text s hs
    · exact printableStructs_iff.1 hr.text s hs
  keys := by
    rw [List.flatten_cons, synKeys_append]
    exact h.keys.append hr.keys

theorem FieldsRt.json {m : SM (List (List Struct))} {bss : List (List Struct)} {l : List DFld}
    (h : FieldsRt E bd cfg m bss l) (hn : (l.map DFld.name).Nodup) :
    bodyToJson bss.flatten = .object (l.map fun q => (.expr (.string q.name), q.node.toExpr)) := by
  rw [bodyToJson, h.nodes [] (by simpa using hn), List.nil_append, toExpr_map (by simpa [Function.comp_def] using hn)]
  simp [Function.comp_def]

theorem FieldsRt.body {m : SM (List (List Struct))} {bss : List (List Struct)} {l : List DFld} {v : SVal} {t : Ty}
    {d : Datum}
    (h : FieldsRt E bd cfg m bss l) (hn : (l.map DFld.name).Nodup)
    (hb : (v.run E).body = SM.chain m fun bs => SM.ret bs.flatten)
    (hb' : ∀ id, (v.run E).block id = SM.chain (SM.chain m fun bs => SM.ret bs.flatten) fun ss =>
      SM.ret [.block id [] ss])
    (hd : ∀ s, (∀ w, w = .struct ∨ w = .map → 
      ask E s w = .map (entries (l.map fun q => (.expr (.string q.name), q.node.toExpr)))) → Deserializes E t s d) :
    BodyRt E bd cfg t d v bss.flatten where
  gives := by rw [hb]; exact gives_chain h.gives (gives_ret _)
  block id := by rw [hb']; exact gives_chain (gives_chain h.gives (gives_ret _)) (gives_ret _)
  obj := ⟨_, h.json hn⟩
  des := by
    rw [h.json hn]
    refine hd _ ?_
    rintro w (rfl | rfl) <;> rfl
  doc := by
    refine hd _ ?_
    rintro w (rfl | rfl) <;>
    · simp only [ask, h.json hn]
      rfl
  text := ⟨List.Nodup.sublist h.keys hn, h.text⟩

/-- A body that stands for an object with one entry, the variant of an enum. -/
theorem BodyRt.variant {n x : Str} {vs : List (Str × VTy)} {i : Nat} {vt : VTy} {d : Datum} {v : SVal}
    {ss : List Struct} {e : Expr} (hne : n ≠ c!"$hcl::Expression") (hn : (vs.map Prod.fst).Nodup)
    (hv : vs[i]? = .some (x, vt)) (hj : bodyToJson ss = .object [(.expr (.string x), e)])
    (hc : ∀ᶠ m in atTop, variantContent E (de E m) i (.entry (.expr e)) vt = .ok d)
    (h1 : Gives true (v.run E).body (.ok ss)) (h2 : ∀ id, Gives true ((v.run E).block id) (.ok [.block id [] ss]))
    (ht : PrintableBody E bd cfg false ss) : BodyRt E bd cfg (.enum n vs) d v ss where
  gives := h1
  block := h2
  obj := ⟨_, hj⟩
  des := by rw [hj]; exact des_enum hn hv (exprEnum_other hne _ _) rfl hc
  doc := des_enum hn hv (by rw [ask, hj]; exact exprEnum_other (E := E) hne _ _) rfl hc
  text := ht

theorem json_block (x : Str) (ss : List Struct) :
    bodyToJson [.block x [] ss] = .object [(.expr (.string x), bodyToJson ss)] := by
  have := bodyNodes_blocks (id := x) [([], ss)] []
  rw [bodyToJson, show [Struct.block x [] ss] = Items.blocks x [([], ss)] from rfl, this,
    fold_same (by simp) (by simp [Items.nodes]), List.nil_append, toExpr_map (by simp)]
  rfl

theorem FieldRt.json {x : Str} {t : Ty} {d : Datum} {v : SVal} {ss : List Struct} {node : JNode}
    (h : FieldRt E bd cfg x t d v ss node) : bodyToJson ss = .object [(.expr (.string x), node.toExpr)] := by
  rw [bodyToJson, h.nodes [] (by simp), List.nil_append, toExpr_map (by simp)]
  rfl

theorem FieldRt.of_blocks {id : Str} {t : Ty} {d : Datum} {v : SVal} {m : SM (List Struct)} {is : Items}
    (h : BlocksRt E bd cfg id t d m is) (hv : Gives true m (.ok (is.blocks id)) →
      Gives true ((v.run E).struct id) (.ok (is.blocks id))) :
    FieldRt E bd cfg id t d v (is.blocks id) (joinNodes is.nodes) where
  gives := hv h.gives
  nodes m hm := by
    rw [bodyNodes_blocks, fold_same hm]
    simpa [Items.nodes] using h.some
  des := h.des
  null _ := h.null
  text := h.text
  keys := by rw [synKeys_blocks]; exact List.nil_sublist _

/-- A labelled group of blocks. -/
structure LGrp where
  label : Str
  ty : Ty
  items : Items
  d : Datum

theorem relabel_items {id x : Str} (is : Items) :
    (is.blocks id).filterMap (Ser.relabel fun ls => .string x :: ls) =
      Items.blocks id (is.map fun p => (.string x :: p.1, p.2)) := by
  induction is with
  | nil => rfl
  | cons p is ih =>
    simp only [Items.blocks, List.map_cons] at ih ⊢
    rw [List.filterMap_cons_some (b := Struct.block id (.string x :: p.1) p.2) (by rfl), ih]

/-- All the blocks of the groups. -/
def LGrp.all (gs : List LGrp) : Items := (gs.map fun g => g.items.map fun p => (Label.string g.label :: p.1, p.2)).flatten

theorem LGrp.nodes_all (gs : List LGrp) : (LGrp.all gs).nodes =
    ((gs.map fun g => (⟨g.label, g.items.nodes⟩ : Grp)).map fun g => g.nodes.map fun n => JNode.map [(g.label, n)]).flatten := by
  induction gs with
  | nil => rfl
  | cons g gs ih =>
    simp only [LGrp.all, Items.nodes, List.map_cons, List.flatten_cons, List.map_append, List.map_map] at ih ⊢
    rw [ih]
    rfl

theorem Items.blocks_append (id : Str) (a b : Items) : Items.blocks id (a ++ b) = a.blocks id ++ b.blocks id :=
  List.map_append

/-- What labelled groups of blocks give. -/
structure GroupsRt (E : FmtEnv) (bd : Build) (cfg : FmtCfg) (id : Str) (m : SM (List (List Struct)))
    (gs : List LGrp) : Prop where
  gives : ∃ bss, Gives true m (.ok bss) ∧ bss.flatten = (LGrp.all gs).blocks id
  des : ∀ g ∈ gs, g.items ≠ [] ∧ Deserializes E g.ty (.expr (joinNodes g.items.nodes).toExpr) g.d
  text : PrintableStructs E bd cfg false ((LGrp.all gs).blocks id)

theorem GroupsRt.cons {α : Type} {f : α → SM (List Struct)} {a : α} {as : List α} {id x : Str} {t : Ty} {d : Datum}
    {v : SVal} {is : Items} {gs : List LGrp} (hi : IsIdentifier E.U id) (hx : StringSafe x)
    (h : BlocksRt E bd cfg id t d ((v.run E).block id) is) (hf : Gives true (f a) (.ok
      ((is.blocks id).filterMap (Ser.relabel fun ls => .string x :: ls))))
    (hr : GroupsRt E bd cfg id (SM.each f as) gs) :
    GroupsRt E bd cfg id (SM.each f (a :: as)) (⟨x, t, is, d⟩ :: gs) := by
  have ha : (LGrp.all (⟨x, t, is, d⟩ :: gs)).blocks id =
      Items.blocks id (is.map fun p => (.string x :: p.1, p.2)) ++ (LGrp.all gs).blocks id := by
    rw [← Items.blocks_append]; rfl
  obtain ⟨⟨bss, h1, h2⟩, h3, h4⟩ := hr
  refine ⟨⟨Items.blocks id (is.map fun p => (.string x :: p.1, p.2)) :: bss, ?_, ?_⟩, ?_, ?_⟩
  · rw [relabel_items] at hf
    exact gives_chain hf (gives_chain h1 (gives_ret _))
  · rw [ha, List.flatten_cons, h2]
  · rw [List.forall_mem_cons]; exact ⟨⟨h.some, h.des⟩, h3⟩
  · rw [ha, printableStructs_iff]
    intro s hs
    rcases List.mem_append.1 hs with hs | hs
    · obtain ⟨p, hp, rfl⟩ := List.mem_map.1 hs
      obtain ⟨q, hq, rfl⟩ := List.mem_map.1 hp
      have := printableStructs_iff.1 h.text (.block id q.1 q.2) (List.mem_map.2 ⟨q, hq, rfl⟩)
      refine ⟨hi, ?_, this.2.2⟩
      rw [List.forall_mem_cons]
      exact ⟨hx, this.2.1⟩
    · exact printableStructs_iff.1 h4 s hs

theorem GroupsRt.nil {α : Type} {f : α → SM (List Struct)} {id : Str} : GroupsRt E bd cfg id (SM.each f []) [] :=
  ⟨⟨[], gives_ret _, rfl⟩, nofun, trivial⟩

theorem GroupsRt.blocks {id : Str} {m : SM (List (List Struct))} {gs : List LGrp} {t : Ty} {d : Datum}
    (h : GroupsRt E bd cfg id m gs) (hn : (gs.map LGrp.label).Nodup) (he : gs ≠ [])
    (hd : Deserializes E t (.expr (.object (gs.map fun g => (.expr (.string g.label),
      (joinNodes g.items.nodes).toExpr)))) d) :
    BlocksRt E bd cfg id t d (SM.chain m fun bs => SM.ret bs.flatten) (LGrp.all gs) := by
  obtain ⟨⟨bss, h1, h2⟩, h3, h4⟩ := h
  have hj : (joinNodes (LGrp.all gs).nodes).toExpr =
      .object (gs.map fun g => (.expr (.string g.label), (joinNodes g.items.nodes).toExpr)) := by
    rw [LGrp.nodes_all, join_groups (by simpa [Function.comp_def] using hn) (by
      intro g hg
      obtain ⟨g', hg', rfl⟩ := List.mem_map.1 hg
      simpa [Items.nodes] using (h3 g' hg').1), toExpr_map (by simpa [Function.comp_def] using hn)]
    simp [Function.comp_def]
  refine ⟨?_, ?_, hj ▸ hd, ?_, h4⟩
  · refine gives_chain h1 ?_
    rw [h2]; exact gives_ret _
  · cases gs with
    | nil => exact absurd rfl he
    | cons g gs =>
      intro hnil
      have := (h3 g (by simp)).1
      simp [LGrp.all] at hnil
      exact this hnil.1
  · rw [hj]; nofun

mutual

theorem rt_body (hc : cfg.preferIdentKeys = false) : ∀ {t : Ty} {d : Datum} {v : SVal}, DocBody E bd cfg t d v →
    ∃ ss, BodyRt E bd cfg t d v ss
  | _, _, _, .struct (n := n) h1 h2 hn h => by
    obtain ⟨bss, l, hl, rfl, rfl⟩ := rt_docFields hc h
    have hn' : (l.map DFld.name).Nodup := by simpa [Function.comp_def] using hn
    refine ⟨_, hl.body hn' ?_ (fun _ => rfl) fun s hs => ?_⟩
    · simp only [SVal.run, Ser.struct, if_neg h1, if_neg h2]
    · have := des_struct (E := E) (s := s) (name := n)
        (l := l.map fun q => ⟨q.name, q.ty, .key (.expr (.string q.name)), .expr q.node.toExpr, q.d⟩)
        (by rw [hs _ (.inl rfl)]; simp [entries, Function.comp_def])
        (by simpa [Function.comp_def] using hn') (by
          intro q hq
          obtain ⟨q', hq', rfl⟩ := List.mem_map.1 hq
          exact ⟨rfl, hl.des q' hq'⟩)
      simpa [Function.comp_def] using this
  | _, _, _, .map (t := t) h hn => by
    obtain ⟨bss, l, hl, rfl, ht⟩ := rt_docEntries hc h
    have hn' : (l.map DFld.name).Nodup := by
      rw [List.map_map] at hn
      exact List.Nodup.of_map (f := Datum.str) (by simpa [Function.comp_def] using hn)
    refine ⟨_, hl.body hn' rfl (fun _ => rfl) fun s hs => ?_⟩
    have := des_map (E := E) (s := s) (k := .string) (t := t)
        (l := l.map fun q => ⟨.key (.expr (.string q.name)), .expr q.node.toExpr, .str q.name, q.d⟩)
        (by rw [hs _ (.inr rfl)]; simp [entries, Function.comp_def])
        (by
          intro q hq
          obtain ⟨q', hq', rfl⟩ := List.mem_map.1 hq
          exact ⟨des_str_of rfl, ht q' hq' ▸ hl.des q' hq'⟩)
    simpa [Function.comp_def] using this

  | _, _, _, .newtypeVar (x := x) hne hn hv hx h => by
    obtain ⟨ss, node, h⟩ := rt_field hc hx h
    refine ⟨ss, .variant hne hn hv h.json (eventually_content_newtype (fun _ => rfl) h.des) ?_ (fun id => ?_)
      ⟨List.Nodup.sublist h.keys (List.nodup_singleton _), h.text⟩⟩
    · simp only [SVal.run, Ser.newtypeVariant, newIdent_ok hx, SM.ret_chain]
      exact h.gives
    · simp only [SVal.run, Ser.newtypeVariant, newIdent_ok hx, SM.ret_chain]
      exact gives_chain h.gives (gives_ret _)
  | _, _, _, .structVar (x := x) (i := i) hne hn hv hx hf h => by
    obtain ⟨bss, l, hl, rfl, rfl⟩ := rt_docFields hc h
    have hn' : (l.map DFld.name).Nodup := by simpa [Function.comp_def] using hf
    have hct : ∀ᶠ m in atTop, variantContent E (de E m) i (.entry (.expr (bodyToJson bss.flatten)))
        (.struct (l.map fun q => (q.name, q.ty))) = .ok (.var i (.list (l.map DFld.d))) := by
      have := eventually_content_struct (E := E) (i := i) (acc := .entry (.expr (bodyToJson bss.flatten)))
        (l := l.map fun q => ⟨q.name, q.ty, .key (.expr (.string q.name)), .expr q.node.toExpr, q.d⟩)
        (by rw [hl.json hn']; simp [VAcc.struct, ask, exprAsk, exprMap, entries, Function.comp_def])
        (by simpa [Function.comp_def] using hn') (by
          intro q hq
          obtain ⟨q', hq', rfl⟩ := List.mem_map.1 hq
          exact ⟨rfl, hl.des q' hq'⟩)
      simpa [Function.comp_def] using this
    refine ⟨_, .variant hne hn hv (json_block x _) hct ?_ (fun id => ?_) ⟨.nil, ⟨⟨hx, nofun, ?_⟩, trivial⟩⟩⟩
    · simp only [SVal.run, Ser.structVariant, newIdent_ok hx, SM.ret_chain]
      exact gives_chain (gives_chain hl.gives (gives_ret _)) (gives_ret _)
    · simp only [SVal.run, Ser.structVariant, newIdent_ok hx, SM.ret_chain]
      exact gives_chain (gives_chain hl.gives (gives_ret _)) (gives_ret _)
    · exact ⟨List.Nodup.sublist hl.keys hn', hl.text⟩
  | _, _, _, .newtype h1 h2 h => by
    obtain ⟨ss, h⟩ := rt_body hc h
    refine ⟨ss, h.gives, fun id => ?_, h.obj, des_newtype rfl h.des, des_newtype (s' := .expr (bodyToJson ss)) ?_ h.des,
      h.text⟩
    · simp only [SVal.run, Ser.newtypeStruct, if_neg h2]
      exact h.block id
    · simp only [ask, if_neg h1]; rfl

theorem rt_docFields (hc : cfg.preferIdentKeys = false) : ∀ {fs : List (Str × Ty)} {ds : List Datum}
    {vs : List (Str × SVal)}, DocFields E bd cfg fs ds vs →
    ∃ bss l, FieldsRt E bd cfg (SM.each (fun p => Ser.bodyEntry (Ser.newIdent E.U p.1) p.2) (SVal.runFields E vs)) bss l ∧
      fs = l.map (fun q => (q.name, q.ty)) ∧ ds = l.map DFld.d
  | _, _, _, .nil => ⟨[], [], .nil, rfl, rfl⟩
  | _, _, _, .cons (f := f) (v := v) hi h hr => by
    obtain ⟨ss, node, h1⟩ := rt_field hc hi h
    obtain ⟨bss, l, h2, rfl, rfl⟩ := rt_docFields hc hr
    refine ⟨ss :: bss, _ :: l, FieldsRt.cons h1 ?_ h2, rfl, rfl⟩
    show Gives true (Ser.bodyEntry (Ser.newIdent E.U f) (v.run E)) _
    rw [newIdent_ok hi]
    exact gives_chain h1.gives (gives_ret _)

theorem rt_docEntries (hc : cfg.preferIdentKeys = false) : ∀ {t : Ty} {es : List (Datum × Datum)}
    {vs : List (SVal × SVal)}, DocEntries E bd cfg t es vs →
    ∃ bss l, FieldsRt E bd cfg (SM.each (fun p => Ser.bodyEntry p.1.ident p.2) (SVal.runEntries E vs)) bss l ∧
      es = l.map (fun q => (.str q.name, q.d)) ∧ ∀ q ∈ l, q.ty = t
  | _, _, _, .nil => ⟨[], [], .nil, rfl, nofun⟩
  | _, _, _, .cons (x := x) (v := v) hi h hr => by
    obtain ⟨ss, node, h1⟩ := rt_field hc hi h
    obtain ⟨bss, l, h2, rfl, h3⟩ := rt_docEntries hc hr
    refine ⟨ss :: bss, _ :: l, FieldsRt.cons h1 ?_ h2, rfl, ?_⟩
    · show Gives true (Ser.bodyEntry (Ser.newIdent E.U x) (v.run E)) _
      rw [newIdent_ok hi]
      exact gives_chain h1.gives (gives_ret _)
    · rw [List.forall_mem_cons]; exact ⟨rfl, h3⟩

theorem rt_field (hc : cfg.preferIdentKeys = false) {id : Str} (hi : IsIdentifier E.U id) : ∀ {t : Ty} {d : Datum}
    {v : SVal}, DocField E bd cfg t d v → ∃ ss node, FieldRt E bd cfg id t d v ss node
  | _, _, _, .attr h ha hs ht => by
    obtain ⟨e, he⟩ := rt_expr (bd := bd) (cfg := cfg) h hs
    refine ⟨[.attr id e], .expr e, attr_gives id h ha he.gives, fun m hm => ?_, he.des, fun h => absurd ha h,
      ⟨⟨hi, he.text hc ht⟩, trivial⟩, .refl _⟩
    simp only [bodyNodes, structNodes]
    exact Map.insert_fresh hm
  | _, _, _, .block h => by
    obtain ⟨is, h⟩ := rt_blocks hc hi h
    exact ⟨_, _, .of_blocks h fun h => gives_mode_true h⟩
  | _, _, _, .labeled h => by
    obtain ⟨is, h⟩ := rt_labeled hc hi h
    refine ⟨_, _, .of_blocks h fun h => gives_mode_true ?_⟩
    have hm : labeledMarker ≠ blockMarker := by decide
    simp only [Ser.newtypeStruct, if_neg hm, if_true]
    exact h
  | _, _, _, .some h ha => by
    obtain ⟨ss, node, h⟩ := rt_field hc hi h
    exact ⟨ss, node, h.gives, h.nodes, des_some (ask_some (h.null ha)) h.des, fun _ => h.null ha, h.text, h.keys⟩

theorem rt_blocks (hc : cfg.preferIdentKeys = false) {id : Str} (hi : IsIdentifier E.U id) : ∀ {t : Ty} {d : Datum}
    {v : SVal}, DocBlocks E bd cfg t d v → ∃ is, BlocksRt E bd cfg id t d ((v.run E).block id) is
  | _, _, _, .one h => by
    obtain ⟨ss, h⟩ := rt_body hc h
    refine ⟨[([], ss)], h.block id, nofun, h.des, ?_, ⟨⟨hi, nofun, h.text.1, h.text.2⟩, trivial⟩⟩
    obtain ⟨es, he⟩ := h.obj
    show bodyToJson ss ≠ _
    rw [he]; nofun
  | _, _, _, .many (t := t) h hl => by
    obtain ⟨sss, l, h1, h2, rfl, h3, h4⟩ := rt_bodies hc hi h
    have hlen : l.length = sss.length := by simpa using congrArg List.length h2
    have hj : (joinNodes (Items.nodes (sss.map fun ss => ([], ss)))).toExpr = .array (sss.map bodyToJson) := by
      have := toExpr_bodies (bs := sss.map bodyToJson) (by simpa [← hlen] using hl)
      rw [← this]
      simp [Items.nodes, Function.comp_def, blockNode]
    refine ⟨sss.map fun ss => ([], ss), ?_, ?_, ?_, ?_, ?_⟩
    · refine gives_chain h1 ?_
      have : (sss.map fun ss => [Struct.block id [] ss]).flatten = Items.blocks id (sss.map fun ss => ([], ss)) := by
        clear * -
        induction sss with
        | nil => rfl
        | cons ss sss ih => simp_all [Items.blocks]
      rw [← this]
      exact gives_ret _
    · intro hnil
      simp_all
    · rw [hj]
      exact des_seq_of (ends := false) (by simp only [ask, exprAsk, exprSeq, exprs]; rw [h2, List.map_map]; rfl) h3
    · rw [hj]; nofun
    · rw [printableStructs_iff]
      intro s hs
      obtain ⟨p, hp, rfl⟩ := List.mem_map.1 hs
      obtain ⟨ss, hss, rfl⟩ := List.mem_map.1 hp
      exact ⟨hi, nofun, (h4 ss hss).1, (h4 ss hss).2⟩
  | _, _, _, .labeled h => by
    obtain ⟨is, h⟩ := rt_labeled hc hi h
    refine ⟨is, gives_mode_true ?_, h.some, h.des, h.null, h.text⟩
    simp only [Ser.newtypeStruct, if_true]
    exact h.gives

theorem rt_bodies (hc : cfg.preferIdentKeys = false) {id : Str} (hi : IsIdentifier E.U id) : ∀ {t : Ty}
    {ds : List Datum} {vs : List SVal}, DocBodies E bd cfg t ds vs →
    ∃ (sss : List (List Struct)) (l : List Elt),
      Gives true (SM.each (fun v => v.block id) (SVal.runs E vs)) (.ok (sss.map fun ss => [.block id [] ss])) ∧
      l.map Elt.src = (sss.map fun ss => Src.expr (bodyToJson ss)) ∧ ds = l.map Elt.d ∧
      (∀ q ∈ l, Deserializes E t q.src q.d) ∧ ∀ ss ∈ sss, PrintableBody E bd cfg false ss
  | _, _, _, .nil => ⟨[], [], gives_ret _, rfl, rfl, nofun, nofun⟩
  | t, _, _, .cons (d := d) h hr => by
    obtain ⟨ss, h⟩ := rt_body hc h
    obtain ⟨sss, l, h1, h2, rfl, h3, h4⟩ := rt_bodies hc hi hr
    refine ⟨ss :: sss, ⟨t, .expr (bodyToJson ss), d⟩ :: l, gives_chain (h.block id) (gives_chain h1 (gives_ret _)),
      by simp [h2], rfl, ?_, ?_⟩
    · rw [List.forall_mem_cons]; exact ⟨h.des, h3⟩
    · rw [List.forall_mem_cons]; exact ⟨h.text, h4⟩

theorem rt_labeled (hc : cfg.preferIdentKeys = false) {id : Str} (hi : IsIdentifier E.U id) : ∀ {t : Ty} {d : Datum}
    {v : SVal}, DocLabeled E bd cfg t d v → ∃ is, BlocksRt E bd cfg id t d ((v.run E).labeled id) is
  | _, _, _, .struct (n := n) hn he h => by
    obtain ⟨gs, hg, rfl, rfl⟩ := rt_labelFields hc hi h
    have hn' : (gs.map LGrp.label).Nodup := by simpa [Function.comp_def] using hn
    refine ⟨_, hg.blocks hn' (by simpa using he) ?_⟩
    have := des_struct (E := E) (name := n) (s := .expr (.object (gs.map fun g => (.expr (.string g.label),
        (joinNodes g.items.nodes).toExpr))))
      (l := gs.map fun g => ⟨g.label, g.ty, .key (.expr (.string g.label)), .expr (joinNodes g.items.nodes).toExpr, g.d⟩)
      (by simp [ask, exprAsk, exprMap, entries, Function.comp_def])
      (by simpa [Function.comp_def] using hn') (by
        intro q hq
        obtain ⟨q', hq', rfl⟩ := List.mem_map.1 hq
        exact ⟨rfl, (hg.des q' hq').2⟩)
    simpa [Function.comp_def] using this
  | _, _, _, .map (t := t) h hn he => by
    obtain ⟨gs, hg, rfl, ht⟩ := rt_labels hc hi h
    have hn' : (gs.map LGrp.label).Nodup := by
      rw [List.map_map] at hn
      exact List.Nodup.of_map (f := Datum.str) (by simpa [Function.comp_def] using hn)
    refine ⟨_, hg.blocks hn' (by simpa using he) ?_⟩
    have := des_map (E := E) (s := .expr (.object (gs.map fun g => (.expr (.string g.label),
        (joinNodes g.items.nodes).toExpr))))
      (k := .string) (t := t)
      (l := gs.map fun g => ⟨.key (.expr (.string g.label)), .expr (joinNodes g.items.nodes).toExpr, .str g.label, g.d⟩)
      (by simp [ask, exprAsk, exprMap, entries, Function.comp_def])
      (by
        intro q hq
        obtain ⟨q', hq', rfl⟩ := List.mem_map.1 hq
        exact ⟨des_str_of rfl, ht q' hq' ▸ (hg.des q' hq').2⟩)
    simpa [Function.comp_def] using this
  | _, _, _, .newtypeVar (x := x) (d := d) (v := v) hne hn hv hx h => by
    obtain ⟨is, h⟩ := rt_blocks hc hi h
    have hj : (joinNodes (Items.nodes (is.map fun p => (Label.string x :: p.1, p.2)))).toExpr =
        .object [(.expr (.string x), (joinNodes is.nodes).toExpr)] := by
      have := LGrp.nodes_all [⟨x, .unit, is, d⟩]
      simp only [LGrp.all, List.map_cons, List.map_nil, List.flatten_cons, List.flatten_nil, List.append_nil] at this
      rw [this]
      have := join_groups (gs := [⟨x, is.nodes⟩]) (by simp) (by simpa [Items.nodes] using h.some)
      simp only [List.map_cons, List.map_nil, List.flatten_cons, List.flatten_nil, List.append_nil] at this
      rw [this, toExpr_map (by simp)]
      rfl
    refine ⟨is.map fun p => (.string x :: p.1, p.2), gives_labeledBlocks h.gives (relabel_items is), ?_, ?_, ?_, ?_⟩
    · simpa using h.some
    · rw [hj]
      exact des_enum hn hv (exprEnum_other hne _ _) rfl (eventually_content_newtype (fun _ => rfl) h.des)
    · rw [hj]; nofun
    · rw [printableStructs_iff]
      intro s hs
      obtain ⟨p, hp, rfl⟩ := List.mem_map.1 hs
      obtain ⟨q, hq, rfl⟩ := List.mem_map.1 hp
      have := printableStructs_iff.1 h.text (.block id q.1 q.2) (List.mem_map.2 ⟨q, hq, rfl⟩)
      refine ⟨hi, ?_, this.2.2⟩
      rw [List.forall_mem_cons]
      exact ⟨hx, this.2.1⟩

theorem rt_labels (hc : cfg.preferIdentKeys = false) {id : Str} (hi : IsIdentifier E.U id) : ∀ {t : Ty}
    {es : List (Datum × Datum)} {vs : List (SVal × SVal)}, DocLabels E bd cfg t es vs →
    ∃ gs : List LGrp,
      GroupsRt E bd cfg id (SM.each (fun p => Ser.labeledEntry id p.1.string p.2) (SVal.runEntries E vs)) gs ∧
      es = gs.map (fun g => (.str g.label, g.d)) ∧ ∀ g ∈ gs, g.ty = t
  | _, _, _, .nil => ⟨[], .nil, rfl, nofun⟩
  | _, _, _, .cons (x := x) (v := v) hx h hr => by
    obtain ⟨is, h⟩ := rt_blocks hc hi h
    obtain ⟨gs, h1, rfl, h2⟩ := rt_labels hc hi hr
    refine ⟨_, .cons hi hx h ?_ h1, rfl, ?_⟩
    · show Gives true (Ser.labeledEntry id (SM.ret x) (v.run E)) _
      exact gives_chain (gives_labeledBlocks h.gives rfl) (gives_ret _)
    · rw [List.forall_mem_cons]; exact ⟨rfl, h2⟩

theorem rt_labelFields (hc : cfg.preferIdentKeys = false) {id : Str} (hi : IsIdentifier E.U id) :
    ∀ {fs : List (Str × Ty)} {ds : List Datum} {vs : List (Str × SVal)}, DocLabelFields E bd cfg fs ds vs →
    ∃ gs : List LGrp,
      GroupsRt E bd cfg id (SM.each (fun p => Ser.labeledBlocks id p.2 (fun ls => .string p.1 :: ls))
        (SVal.runFields E vs)) gs ∧
      fs = gs.map (fun g => (g.label, g.ty)) ∧ ds = gs.map LGrp.d
  | _, _, _, .nil => ⟨[], .nil, rfl, rfl⟩
  | _, _, _, .cons hx h hr => by
    obtain ⟨is, h⟩ := rt_blocks hc hi h
    obtain ⟨gs, h1, rfl, rfl⟩ := rt_labelFields hc hi hr
    exact ⟨_, .cons hi hx h (gives_labeledBlocks h.gives rfl) h1, rfl, rfl⟩

end

theorem rt_root (hc : cfg.preferIdentKeys = false) : ∀ {t : Ty} {d : Datum} {v : SVal}, DocRoot E bd cfg t d v →
    ∃ ss, Gives true (v.run E).body (.ok ss) ∧ Deserializes E t (.doc ss) d ∧ PrintableBody E bd cfg false ss
  | _, _, _, .body h => by
    obtain ⟨ss, h⟩ := rt_body hc h
    exact ⟨ss, h.gives, h.doc, h.text⟩
  | _, _, _, .tupleVar (x := x) hne hn hv hx h hs ht => by
    obtain ⟨es, l, h1, h2, rfl, rfl, h3, h4, h5⟩ := rt_each (bd := bd) (cfg := cfg) h hs
    have hj : bodyToJson [.attr x (.array es)] = .object [(.expr (.string x), .array es)] := by
      rw [bodyToJson]
      simp only [bodyNodes, structNodes, Map.insert]
      rw [toExpr_map (by simp)]
      simp [JNode.toExpr]
    refine ⟨[.attr x (.array es)], ?_, des_enum hn hv (by rw [ask, hj]; exact exprEnum_other (E := E) hne _ _) rfl
      (eventually_content_tuple (ends := false) (by rw [h2]; rfl) h3),
      List.nodup_singleton _, ⟨hx, h5 hc ht.1, h4.trans ht.2⟩, trivial⟩
    simp only [SVal.run, Ser.tupleVariant, newIdent_ok hx, SM.ret_chain]
    exact gives_chain h1 (gives_ret _)

end Verif
