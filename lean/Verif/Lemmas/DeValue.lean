import Verif.Lemmas.DeIdentity
import Verif.Lemmas.JsonSpec
/-!
Deserialization of values and of documents.
-/

namespace Verif
open Spec De Filter

/-! ### What holds for the expression a document stands for -/

theorem keysDiffer_objInsert {k : ObjKey} {v : Expr} : ∀ {m : List (ObjKey × Expr)}, KeysDiffer m →
    KeysDiffer (objInsert k v m) ∧ ∀ p ∈ objInsert k v m, (∃ q ∈ m, q.1 = p.1) ∨ p.1 = k
  | [], _ => ⟨List.pairwise_singleton _ _, by simp [objInsert]⟩
  | (k', v') :: m, h => by
    rw [KeysDiffer, List.pairwise_cons] at h
    obtain ⟨h1, h2⟩ := h
    obtain ⟨h3, h4⟩ := keysDiffer_objInsert (k := k) (v := v) h2
    unfold objInsert
    by_cases hb : ObjKey.beq k' k = true
    · rw [if_pos hb]
      refine ⟨List.pairwise_cons.2 ⟨h1, h2⟩, fun p hp => .inl ?_⟩
      rcases List.mem_cons.1 hp with rfl | hp
      · exact ⟨(k', v'), by simp, rfl⟩
      · exact ⟨p, by simp [hp], rfl⟩
    · rw [if_neg hb]
      refine ⟨List.pairwise_cons.2 ⟨fun p hp => ?_, h3⟩, fun p hp => ?_⟩
      · rcases h4 p hp with ⟨q, hq, he⟩ | he
        · rw [← he]; exact h1 q hq
        · rw [he]; simpa using hb
      · rcases List.mem_cons.1 hp with rfl | hp
        · exact .inl ⟨(k', v'), by simp, rfl⟩
        · rcases h4 p hp with ⟨q, hq, he⟩ | he
          · exact .inl ⟨q, by simp [hq], he⟩
          · exact .inr he

theorem keysDiffer_objCollect (es : List (ObjKey × Expr)) : KeysDiffer (objCollect es) := by
  have key : ∀ (es m : List (ObjKey × Expr)), KeysDiffer m →
      KeysDiffer (es.foldl (fun m e => objInsert e.1 e.2 m) m) := by
    intro es
    induction es with
    | nil => exact fun _ h => h
    | cons e es ih => exact fun m h => ih _ (keysDiffer_objInsert h).1
  exact key es [] List.Pairwise.nil

theorem all_objInsert {k : ObjKey} {v : Expr} {P : ObjKey → Prop} {Q : Expr → Prop} (hk : P k) (hv : Q v) :
    ∀ {m : List (ObjKey × Expr)}, (∀ p ∈ m, P p.1 ∧ Q p.2) → ∀ p ∈ objInsert k v m, P p.1 ∧ Q p.2
  | [], _ => by simp [objInsert, hk, hv]
  | (k', v') :: m, h => by
    unfold objInsert
    split
    · intro p hp
      rcases List.mem_cons.1 hp with rfl | hp
      · exact ⟨(h (k', v') (by simp)).1, hv⟩
      · exact h p (by simp [hp])
    · intro p hp
      rcases List.mem_cons.1 hp with rfl | hp
      · exact h _ (by simp)
      · exact all_objInsert hk hv (fun q hq => h q (by simp [hq])) p hp

theorem all_objCollect {P : ObjKey → Prop} {Q : Expr → Prop} {es : List (ObjKey × Expr)}
    (h : ∀ p ∈ es, P p.1 ∧ Q p.2) : ∀ p ∈ objCollect es, P p.1 ∧ Q p.2 := by
  have key : ∀ (es m : List (ObjKey × Expr)), (∀ p ∈ es, P p.1 ∧ Q p.2) → (∀ p ∈ m, P p.1 ∧ Q p.2) →
      ∀ p ∈ es.foldl (fun m e => objInsert e.1 e.2 m) m, P p.1 ∧ Q p.2 := by
    intro es
    induction es with
    | nil => exact fun _ _ h => h
    | cons e es ih =>
      exact fun m h1 h2 => ih _ (fun p hp => h1 p (by simp [hp]))
        (all_objInsert (h1 e (by simp)).1 (h1 e (by simp)).2 h2)
  exact key es [] h (by simp)

section
variable (Q : Expr → Prop)

mutual
/-- All expressions in the node have the property. -/
def JNode.All : JNode → Prop
  | .map es => JNode.AllEntries es
  | .body bs => ∀ b ∈ bs, Q b
  | .expr e => Q e
termination_by structural x => x
def JNode.AllEntries : List (Str × JNode) → Prop
  | [] => True
  | (_, n) :: es => n.All ∧ JNode.AllEntries es
termination_by structural x => x
end

mutual
/-- All expressions of the attributes have the property. -/
def StructAll : Struct → Prop
  | .attr _ e => Q e
  | .block _ _ b => BodyAll b
termination_by structural x => x
def BodyAll : List Struct → Prop
  | [] => True
  | s :: ss => StructAll s ∧ BodyAll ss
termination_by structural x => x
end

variable {Q}

theorem JNode.allEntries_iff : ∀ {m : List (Str × JNode)}, JNode.AllEntries Q m ↔ ∀ p ∈ m, p.2.All Q
  | [] => by simp [JNode.AllEntries]
  | (k, n) :: m => by simp [JNode.AllEntries, JNode.allEntries_iff (m := m)]

theorem JNode.all_insert {k : Str} {n : JNode} (hn : n.All Q) : ∀ {m : List (Str × JNode)},
    JNode.AllEntries Q m → JNode.AllEntries Q (Map.insert k n m)
  | [], _ => ⟨hn, trivial⟩
  | (k', n') :: m, h => by
    unfold Map.insert
    split
    · exact ⟨hn, h.2⟩
    · exact ⟨h.1, JNode.all_insert hn h.2⟩

theorem JNode.all_get {k : Str} {n : JNode} : ∀ {m : List (Str × JNode)},
    JNode.AllEntries Q m → Map.get? k m = some n → n.All Q
  | [], _, hg => by simp [Map.get?] at hg
  | (k', n') :: m, h, hg => by
    unfold Map.get? at hg
    split at hg
    · injection hg with hg; rw [← hg]; exact h.1
    · exact JNode.all_get h.2 hg

mutual
theorem JNode.all_merge : ∀ {b a : JNode}, a.All Q → b.All Q → (JNode.merge a b).All Q
  | .map r, .map l, ha, hb => by
    simp only [JNode.merge, JNode.All] at *
    exact JNode.all_mergeAll ha hb
  | .body r, .body l, ha, hb => by
    simp only [JNode.merge, JNode.All, List.mem_append] at *
    exact fun x hx => hx.elim (ha x) (hb x)
  | .expr _, a, _, hb => by cases a <;> exact hb
  | .map _, .body _, _, hb => hb
  | .map _, .expr _, _, hb => hb
  | .body _, .map _, _, hb => hb
  | .body _, .expr _, _, hb => hb
theorem JNode.all_mergeAll : ∀ {r l : List (Str × JNode)}, JNode.AllEntries Q l → JNode.AllEntries Q r →
    JNode.AllEntries Q (JNode.mergeAll l r)
  | [], _, hl, _ => hl
  | (k, n) :: rest, l, hl, hr => by
    unfold JNode.mergeAll
    refine JNode.all_mergeAll ?_ hr.2
    split
    · rename_i old ho
      exact JNode.all_insert (JNode.all_merge (JNode.all_get hl ho) hr.1) hl
    · exact JNode.all_insert hr.1 hl
end

variable (hobj : ∀ es, (∀ p ∈ es, (∃ s, p.1 = .expr (.string s)) ∧ Q p.2) → KeysDiffer es → Q (.object es))
  (harr : ∀ es, (∀ e ∈ es, Q e) → Q (.array es))
include hobj harr

mutual
theorem JNode.all_toExpr : ∀ {n : JNode}, n.All Q → Q n.toExpr
  | .map es, h => by
    simp only [JNode.toExpr]
    exact hobj _ (all_objCollect (P := fun k => ∃ s, k = .expr (.string s)) (JNode.all_entriesToExpr h))
      (keysDiffer_objCollect _)
  | .body bs, h => by
    unfold JNode.toExpr
    split
    · exact h _ (by simp)
    · exact harr _ h
  | .expr _, h => h
theorem JNode.all_entriesToExpr : ∀ {es : List (Str × JNode)}, JNode.AllEntries Q es →
    ∀ p ∈ JNode.entriesToExpr es, (∃ s, p.1 = .expr (.string s)) ∧ Q p.2
  | [], _ => by simp [JNode.entriesToExpr]
  | (k, n) :: es, h => by
    intro p hp
    unfold JNode.entriesToExpr at hp
    rcases List.mem_cons.1 hp with heq | hp
    · rw [heq]; exact ⟨⟨k, rfl⟩, JNode.all_toExpr h.1⟩
    · exact JNode.all_entriesToExpr h.2 p hp
end

omit hobj harr in
theorem JNode.all_blockNode {x : Expr} (hx : Q x) : ∀ ls : List Label, (blockNode x ls).All Q
  | [] => by simpa [blockNode, JNode.All] using hx
  | _ :: ls => ⟨JNode.all_blockNode hx ls, trivial⟩

mutual
theorem JNode.all_bodyNodes : ∀ {ss : List Struct} {m : List (Str × JNode)}, BodyAll Q ss →
    JNode.AllEntries Q m → JNode.AllEntries Q (bodyNodes m ss)
  | [], _, _, hm => hm
  | s :: ss, m, h, hm => by
    unfold bodyNodes
    exact JNode.all_bodyNodes (ss := ss) h.2 (JNode.all_structNodes h.1 hm)
theorem JNode.all_structNodes : ∀ {s : Struct} {m : List (Str × JNode)}, StructAll Q s →
    JNode.AllEntries Q m → JNode.AllEntries Q (structNodes m s)
  | .attr k e, m, h, hm => JNode.all_insert (n := .expr e) h hm
  | .block i ls b, m, h, hm => by
    have hb : Q (JNode.map (bodyNodes [] b)).toExpr :=
      JNode.all_toExpr hobj harr (n := .map _) (JNode.all_bodyNodes (m := []) h trivial)
    unfold structNodes
    exact JNode.all_mergeAll hm ⟨JNode.all_blockNode hb ls, trivial⟩
end

theorem bodyToJson_all {b : List Struct} (h : BodyAll Q b) : Q (bodyToJson b) :=
  JNode.all_toExpr hobj harr (n := .map _) (JNode.all_bodyNodes hobj harr (m := []) h trivial)

end

section
variable {E : FmtEnv}

/-! ### Values -/

theorem visitValue_number {r : Ty → Src → DRes Datum} {n : N} (h : WellFormed n) :
    visitValue r (number n) = .ok (.number n) := by
  cases n with
  | posInt n => rfl
  | negInt i =>
    simp only [visitValue, number]
    rw [N.ofI64, if_pos h.2]
  | float x =>
    simp [visitValue, number, N.fromF64, h.2.1, h.2.2]

theorem des_value_of {s : Src} {v : Value} (h : ∀ᶠ n in atTop, visitValue (de E n) (ask E s .any) = .ok v) :
    Deserializes E .value s (.value v) := by
  refine .of_eventually ?_
  filter_upwards [h] with n hn
  show (visitValue (de E n) (ask E s .any)).map Datum.value = _
  rw [hn]; rfl

theorem DRes.each_map_ok {α β γ : Type} {f : β → DRes γ} {src : α → β} {g : α → γ} : ∀ {l : List α},
    (∀ a ∈ l, f (src a) = .ok (g a)) → DRes.each f (l.map src) = .ok (l.map g)
  | [], _ => rfl
  | a :: l, h => by
    rw [List.map_cons, DRes.each, h a (by simp), DRes.each_map_ok (l := l) fun b hb => h b (by simp [hb])]
    rfl

theorem visitValue_seq {α : Type} {src : α → Src} {f : α → Value} {ends : Bool} {l : List α}
    (h : ∀ a ∈ l, Deserializes E .value (src a) (.value (f a))) :
    ∀ᶠ n in atTop, visitValue (de E n) (.seq (l.map src) ends) = .ok (.array (l.map f)) := by
  filter_upwards [eventually_list fun a ha => (h a ha).eventually] with n hn
  rw [visitValue, DRes.each_map_ok (g := f) fun a ha => by rw [hn a ha]; rfl]
  rfl

theorem visitValue_map {α : Type} {k s : α → Src} {x : α → Str} {f : α → Value} {l : List α}
    (hk : ∀ a ∈ l, Deserializes E .string (k a) (.str (x a)))
    (hv : ∀ a ∈ l, Deserializes E .value (s a) (.value (f a))) :
    ∀ᶠ n in atTop, visitValue (de E n) (.map (l.map fun a => (k a, s a))) =
      .ok (.object (Map.collect (l.map fun a => (x a, f a)))) := by
  filter_upwards [eventually_list fun a ha => (hk a ha).eventually,
    eventually_list fun a ha => (hv a ha).eventually] with n h1 h2
  rw [visitValue, DRes.each_map_ok (g := fun a => (x a, f a)) fun a ha => by
    simp only [h1 a ha, h2 a ha]; rfl]
  rfl

mutual
theorem des_value_same : ∀ {v : Value}, v.WF → NumbersOk v → Deserializes E .value (.value v) (.value v)
  | .null, _, _ => ⟨1, rfl⟩
  | .bool _, _, _ => ⟨1, rfl⟩
  | .number _, _, h => des_value_of (.of_forall fun _ => visitValue_number h)
  | .string _, _, _ => ⟨1, rfl⟩
  | .array vs, hw, h => des_value_of (by
      have := visitValue_seq (src := .value) (f := id) (ends := false) (des_value_same_list hw h)
      rw [List.map_id] at this
      exact this)
  | .object es, hw, h => des_value_of (by
      have := visitValue_map (k := fun p : Str × Value => .str p.1) (s := fun p => .value p.2)
        (x := Prod.fst) (f := Prod.snd) (fun p _ => des_str p.1) (des_value_same_entries hw.2 h)
      have hid : (es.map fun p : Str × Value => (p.1, p.2)) = es := List.map_id es
      rw [hid, Map.collect_nodup hw.1] at this
      exact this)
theorem des_value_same_list : ∀ {vs : List Value}, Value.WFList vs → NumbersOkAll vs →
    ∀ v ∈ vs, Deserializes E .value (.value v) (.value v)
  | [], _, _, _, h => absurd h (by simp)
  | x :: vs, hw, h, v, hv => by
    rcases List.mem_cons.1 hv with heq | hv
    · rw [heq]; exact des_value_same hw.1 h.1
    · exact des_value_same_list hw.2 h.2 v hv
theorem des_value_same_entries : ∀ {es : List (Str × Value)}, Value.WFObj es → NumbersOkEntries es →
    ∀ p ∈ es, Deserializes E .value (.value p.2) (.value p.2)
  | [], _, _, _, h => absurd h (by simp)
  | (k, v) :: es, hw, h, p, hp => by
    rcases List.mem_cons.1 hp with heq | hp
    · rw [heq]; exact des_value_same hw.1 h.1
    · exact des_value_same_entries hw.2 h.2 p hp
end

/-! ### Values from expressions -/

theorem toValues_map : ∀ es : List Expr, toValues E es = es.map (toValue E)
  | [] => rfl
  | e :: es => by rw [toValues, toValues_map es]; rfl

theorem toValueEntries_map : ∀ es : List (ObjKey × Expr),
    toValueEntries E es = es.map fun p => (keyString E p.1, toValue E p.2)
  | [] => rfl
  | (k, e) :: es => by rw [toValueEntries, toValueEntries_map es]; rfl

theorem des_namedKey {k : ObjKey} (h : NamedKey k) : Deserializes E .string (.key k) (.str (keyString E k)) := by
  cases k with
  | ident x => exact ⟨1, rfl⟩
  | expr e =>
    cases e with
    | string s => exact ⟨1, rfl⟩
    | _ => exact h.elim

mutual
theorem visitValue_named : ∀ {e : Expr}, Named e →
    ∀ᶠ n in atTop, visitValue (de E n) (exprAny E e) = .ok (toValue E e)
  | .null, _ => .of_forall fun _ => rfl
  | .bool _, _ => .of_forall fun _ => rfl
  | .number _, h => .of_forall fun _ => visitValue_number h
  | .string _, _ => .of_forall fun _ => rfl
  | .array es, h => by
    have := visitValue_seq (src := .expr) (f := toValue E) (ends := false) (des_named_list h)
    simp only [exprAny, toValue, toValues_map]
    exact this
  | .object es, h => by
    have := visitValue_map (k := fun p : ObjKey × Expr => .key p.1) (s := fun p => .expr p.2)
      (x := fun p => keyString E p.1) (f := fun p => toValue E p.2)
      (fun p hp => (des_named_entries h p hp).1) (fun p hp => (des_named_entries h p hp).2)
    simp only [exprAny, toValue, toValueEntries_map]
    exact this
  | .paren e, h => by
    simp only [exprAny, toValue]
    exact visitValue_named (e := e) h
  | .template _, _ => .of_forall fun _ => rfl
  | .var _, _ => .of_forall fun _ => rfl
  | .traversal _ _, _ => .of_forall fun _ => rfl
  | .call _ _ _, _ => .of_forall fun _ => rfl
  | .cond _ _ _, _ => .of_forall fun _ => rfl
  | .unary _ _, _ => .of_forall fun _ => rfl
  | .binary _ _ _, _ => .of_forall fun _ => rfl
  | .forE _ _ _ _ _ _ _, _ => .of_forall fun _ => rfl
theorem des_named_list : ∀ {es : List Expr}, NamedList es →
    ∀ e ∈ es, Deserializes E .value (.expr e) (.value (toValue E e))
  | [], _, _, h => absurd h (by simp)
  | x :: es, h, e, he => by
    rcases List.mem_cons.1 he with heq | he
    · rw [heq]; exact des_value_of (visitValue_named h.1)
    · exact des_named_list h.2 e he
theorem des_named_entries : ∀ {es : List (ObjKey × Expr)}, NamedEntries es →
    ∀ p ∈ es, Deserializes E .string (.key p.1) (.str (keyString E p.1)) ∧
      Deserializes E .value (.expr p.2) (.value (toValue E p.2))
  | [], _, _, h => absurd h (by simp)
  | (k, v) :: es, h, p, hp => by
    rcases List.mem_cons.1 hp with heq | hp
    · rw [heq]; exact ⟨des_namedKey h.1, des_value_of (visitValue_named h.2.1)⟩
    · exact des_named_entries h.2.2 p hp
end

theorem des_named {e : Expr} (h : Named e) : Deserializes E .value (.expr e) (.value (toValue E e)) :=
  des_value_of (visitValue_named h)

/-! ### Documents -/

theorem namedList_iff : ∀ {es : List Expr}, NamedList es ↔ ∀ e ∈ es, Named e
  | [] => by simp [NamedList]
  | e :: es => by simp [NamedList, namedList_iff (es := es)]

theorem namedEntries_iff : ∀ {es : List (ObjKey × Expr)},
    NamedEntries es ↔ ∀ p ∈ es, NamedKey p.1 ∧ Named p.2
  | [] => by simp [NamedEntries]
  | (k, e) :: es => by simp [NamedEntries, namedEntries_iff (es := es), and_assoc]

theorem soundList_iff {U : Uni} : ∀ {es : List Expr}, SoundList U es ↔ ∀ e ∈ es, Sound U e
  | [] => by simp [SoundList]
  | e :: es => by simp [SoundList, soundList_iff (es := es)]

theorem soundEntries_iff {U : Uni} : ∀ {es : List (ObjKey × Expr)},
    SoundEntries U es ↔ ∀ p ∈ es, SoundKey U p.1 ∧ Sound U p.2
  | [] => by simp [SoundEntries]
  | (k, e) :: es => by simp [SoundEntries, soundEntries_iff (es := es), and_assoc]

mutual
theorem bodyAll_named : ∀ {b : List Struct}, NamedBody b → BodyAll Named b
  | [], _ => trivial
  | _ :: ss, h => ⟨structAll_named h.1, bodyAll_named (b := ss) h.2⟩
theorem structAll_named : ∀ {s : Struct}, NamedStruct s → StructAll Named s
  | .attr _ _, h => h
  | .block _ _ b, h => bodyAll_named (b := b) h
end

mutual
theorem bodyAll_sound {U : Uni} : ∀ {b : List Struct}, SoundBody U b → BodyAll (Sound U) b
  | [], _ => trivial
  | _ :: ss, h => ⟨structAll_sound h.1, bodyAll_sound (b := ss) h.2⟩
theorem structAll_sound {U : Uni} : ∀ {s : Struct}, SoundStruct U s → StructAll (Sound U) s
  | .attr _ _, h => h.2
  | .block _ _ b, h => bodyAll_sound (b := b) h.2.2
end

theorem named_bodyToJson {b : List Struct} (h : NamedBody b) : Named (bodyToJson b) :=
  bodyToJson_all (fun es hes _ => namedEntries_iff.2 fun p hp => by
      obtain ⟨⟨s, hs⟩, hv⟩ := hes p hp
      exact ⟨by rw [hs]; trivial, hv⟩)
    (fun es hes => namedList_iff.2 hes) (bodyAll_named h)

theorem sound_bodyToJson {U : Uni} {b : List Struct} (h : SoundBody U b) : Sound U (bodyToJson b) :=
  bodyToJson_all (fun es hes hk => ⟨soundEntries_iff.2 fun p hp => by
      obtain ⟨⟨s, hs⟩, hv⟩ := hes p hp
      exact ⟨by rw [hs]; trivial, hv⟩, hk⟩)
    (fun es hes => soundList_iff.2 hes) (bodyAll_sound h)

theorem des_doc_value {b : List Struct} (h : NamedBody b) :
    Deserializes E .value (.doc b) (.value (toValue E (bodyToJson b))) :=
  des_value_of (visitValue_named (named_bodyToJson h))

/-- An expression from a document is made from the expression the document stands for. -/
theorem des_doc_expr {b : List Struct} {d : Datum} (h : Deserializes E .expr (.expr (bodyToJson b)) d) :
    Deserializes E .expr (.doc b) d := by
  obtain ⟨n, hn⟩ := h
  refine ⟨n, ?_⟩
  cases n with
  | zero => exact hn
  | succ n => exact hn

/-! ### Bodies -/

/-- What a label is deserialized to. -/
def labelDatum : Label → Datum
  | .ident x => .var 0 (.str x)
  | .string s => .var 1 (.str s)

theorem mapM_labels : ∀ ls : List Label, (ls.map labelDatum).mapM asLabel = some ls
  | [] => rfl
  | l :: ls => by
    rw [List.map_cons, List.mapM_cons, mapM_labels ls]
    cases l <;> rfl

theorem des_label {l : Label} (h : SoundLabel E.U l) : Deserializes E labelTy (.label l) (labelDatum l) := by
  cases l with
  | ident x =>
    exact des_variant (vname := c!"Identifier") (acc := .source (.label (.ident x)))
      (content := .label (.ident x)) rfl rfl rfl (fun _ => rfl) ⟨1, by
        show visitStr (Ident.tryNew E.U) .str (.str x) = _
        rw [visitStr, (Props.C01_tryNew E.U x).1 h]; rfl⟩
  | string s =>
    exact des_variant (vname := c!"String") (acc := .source (.label (.string s)))
      (content := .label (.string s)) rfl rfl rfl (fun _ => rfl) ⟨1, rfl⟩

/-- What a structure is deserialized to. -/
def structDatum : Struct → Datum
  | .attr k e => .var 0 (.list [.str k, .expr e])
  | .block i ls b => .var 1 (.list [.str i, .list (ls.map labelDatum), .body b])

theorem mapM_structs : ∀ b : List Struct, (b.map structDatum).mapM asStruct = some b
  | [] => rfl
  | s :: b => by
    rw [List.map_cons, List.mapM_cons, mapM_structs b]
    cases s with
    | attr k e => rfl
    | block i ls b =>
      simp only [structDatum, asStruct, mapM_labels, Option.map_some]
      rfl

theorem des_body_of {s : Src} {b : List Struct} (ha : ask E s (.newtype c!"$hcl::Body") = .newtype (.seq (b.map .struct)))
    (h : ∀ s ∈ b, Deserializes E structTy (.struct s) (structDatum s)) :
    Deserializes E .body s (.body b) := by
  refine .of_eventually ?_
  filter_upwards [(des_seq h).eventually] with n hn
  show visit E (de E n) .body (ask E s (.newtype c!"$hcl::Body")) = _
  rw [ha]
  simp only [visit, hn, DRes.bind, asBody, mapM_structs, DRes.ofOption, DRes.map]

mutual
theorem des_struct_same : ∀ {s : Struct}, SoundStruct E.U s → Deserializes E structTy (.struct s) (structDatum s)
  | .attr k e, h => by
    refine des_variant (vname := c!"Attribute") (acc := .source (.struct (.attr k e)))
      (content := .struct (.attr k e)) rfl rfl rfl (fun _ => rfl)
      (des_struct (l := [
        ⟨c!"key", .ident, .str c!"key", .str k, .str k⟩,
        ⟨c!"expr", .expr, .str c!"expr", .expr e, .expr e⟩]) rfl (by simp only [List.map]; decide) ?_)
    simp only [List.mem_cons, List.not_mem_nil, or_false, forall_eq_or_imp, forall_eq]
    exact ⟨⟨rfl, des_ident h.1⟩, ⟨rfl, des_same h.2⟩⟩
  | .block i ls b, h => by
    refine des_variant (vname := c!"Block") (acc := .source (.struct (.block i ls b)))
      (content := .struct (.block i ls b)) rfl rfl rfl (fun _ => rfl)
      (des_struct (l := [
        ⟨c!"identifier", .ident, .str c!"identifier", .str i, .str i⟩,
        ⟨c!"labels", .seq labelTy, .str c!"labels", .seq (ls.map .label), .list (ls.map labelDatum)⟩,
        ⟨c!"body", .body, .str c!"body", .newtype (.seq (b.map .struct)), .body b⟩]) rfl
          (by simp only [List.map]; decide) ?_)
    simp only [List.mem_cons, List.not_mem_nil, or_false, forall_eq_or_imp, forall_eq]
    exact ⟨⟨rfl, des_ident h.1⟩, ⟨rfl, des_seq fun l hl => des_label (h.2.1 l hl)⟩,
      ⟨rfl, des_body_of rfl (des_structs_same h.2.2)⟩⟩
theorem des_structs_same : ∀ {b : List Struct}, SoundBody E.U b →
    ∀ s ∈ b, Deserializes E structTy (.struct s) (structDatum s)
  | [], _, _, h => absurd h (by simp)
  | x :: b, h, s, hs => by
    rcases List.mem_cons.1 hs with heq | hs
    · rw [heq]; exact des_struct_same h.1
    · exact des_structs_same h.2 s hs
end

theorem des_doc_body {b : List Struct} (h : SoundBody E.U b) : Deserializes E .body (.doc b) (.body b) :=
  des_body_of rfl (des_structs_same h)

end

end Verif
