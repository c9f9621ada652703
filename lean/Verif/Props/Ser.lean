import Verif.Lemmas.Ser
import Verif.Props.Ident
/-!
C48: the state of serialization. C49: labels of blocks. C57: results do not depend on the history. C58:
this crate's own trees are kept. C59: expressions as values. C60: the ways to serialize data agree.
-/

namespace Verif.Props
open Verif.Spec

variable {E : FmtEnv}

/-- The environment of the examples. -/
private def E0 : FmtEnv := ⟨Uni.ascii, fun _ => []⟩

/-! ### C48 -/

/-- The mode is the same before and after every serialization of every value, whether it succeeds, fails
or panics, and whatever nested serializations it runs. -/
theorem C48_mode_restored (en : Entry) (v : SVal) (st : SerSt) :
    (serialize E en v st).2.internal = st.internal := entry_same E v en st

/-- In every state a thread can be in, the mode is off, and the live handles are distinct and were all
given out before the next one. -/
theorem C48_reachable {st : SerSt} (h : Reachable E st) : st.internal = false ∧ StOk st := by
  induction h with
  | start => exact ⟨rfl, stOk_initial⟩
  | step en v _ ih => exact ⟨(entry_same E v en _).trans ih.1, (entry_ok E v en ih.2).1⟩

/-- A handle is never given out twice: the counters only grow, and every live handle is below them. -/
theorem C48_handles_fresh (en : Entry) (v : SVal) {st : SerSt} (h : StOk st) :
    StOk (serialize E en v st).2 ∧ st.exprs.last ≤ (serialize E en v st).2.exprs.last ∧
      st.structs.last ≤ (serialize E en v st).2.structs.last := entry_ok E v en h

/-- The serialization of an honest value does not panic, and does not take away the handles that others
have put in. -/
theorem C48_no_panic {v : SVal} (hv : Honest v) (en : Entry) {st : SerSt} (h : StOk st) :
    (serialize E en v st).1 ≠ .panic ∧ (∀ p ∈ st.exprs.live, p ∈ (serialize E en v st).2.exprs.live) ∧
      ∀ p ∈ st.structs.live, p ∈ (serialize E en v st).2.structs.live := entry_live hv en h

/-- Every handle put in is taken out again, once: the registries are the same before and after the
serialization of an honest, well-placed value, whether it succeeds or fails. Missing from the full claim,
which is false (see `C48_leak`): values where expressions or structures of this crate stand at other
places. -/
theorem C48_balanced_partial {v : SVal} (hv : Honest v) (en : Entry) {st : SerSt} (h : StOk st)
    (hp : Sited (place st.internal en) v) :
    (serialize E en v st).2.exprs.live = st.exprs.live ∧
      (serialize E en v st).2.structs.live = st.structs.live := by
  obtain ⟨g, -, hg⟩ := serialize_tame (Sited.at E _ v hv hp)
  exact (hg st h rfl).2.2

/-- A failing, nested case: a struct with an expression, a sequence of blocks, a labeled block, a nested
serialization that is used when it succeeds, and a field that fails. -/
private def v0 : SVal := .struct c!"Config"
  [(c!"image", .hclExpr (.var c!"x")),
   (c!"service", .block (.seq [.struct c!"S" [(c!"port", .hclExpr (.number (.posInt 1)))],
      .map [(.str c!"port", .seq [.hclExpr .null, .u64 2])]])),
   (c!"user", .labeled (.map [(.str c!"john", .some (.struct c!"U" [(c!"mail", .str c!"j")]))])),
   (c!"text", .nested .body (.hclStruct (.attr c!"a" .null))
      fun g => match g with | .body _ => .str c!"ok" | _ => .unit),
   (c!"bad", .fail)]

example : Honest v0 ∧ Sited (place false .body) v0 ∧ StOk SerSt.initial ∧
    (serialize E0 .body v0 SerSt.initial).1 = .err := by
  refine ⟨?_, ?_, stOk_initial, rfl⟩
  · refine ⟨by decide, by decide, trivial, ?_, ?_, ?_, trivial, trivial⟩
    · exact ⟨⟨by decide, by decide, trivial, trivial⟩, ⟨⟨trivial, trivial, trivial, trivial⟩, trivial⟩, trivial⟩
    · exact ⟨⟨trivial, by decide, by decide, trivial, trivial⟩, trivial⟩
    · refine ⟨trivial, fun g _ => ?_⟩
      cases g <;> trivial
  · refine Or.inr ⟨.inr (.inl rfl), ?_, ?_, ?_, trivial, trivial⟩
    · refine Or.inr ⟨Or.inr ⟨.inr (.inl rfl), trivial⟩,
        Or.inr ⟨⟨trivial, Or.inr ⟨.inr (.inr (.inl rfl)), trivial, trivial⟩⟩, trivial⟩, trivial⟩
    · exact Or.inr ⟨⟨trivial, Or.inr ⟨trivial, trivial⟩⟩, trivial⟩
    · refine ⟨.inl rfl, fun g => ?_⟩
      cases g <;> trivial

/-- A field of type `Block<Expression>`. -/
private def leaky (x : Str) : SVal := .struct c!"Config" [(c!"user", .block (.hclExpr (.var x)))]

/-- What `leaky` does. -/
private theorem leaky_run (st : SerSt) (x : Str) : serialize E0 .body (leaky x) st =
    (.body [.block c!"user" [] [.attr c!"handle" (.number (.posInt st.exprs.last))]],
      { st with exprs := (st.exprs.insert (.var x)).2 }) := rfl

/-- The full claim is false: an expression directly inside `Block<T>` (which also does not come out, see
`C57_history_fails`) stays in the registry for ever. -/
theorem C48_leak (x : Str) {st : SerSt} (h : StOk st) : Honest (leaky x) ∧
    (serialize E0 .body (leaky x) st).2.exprs.live = (st.exprs.last, .var x) :: st.exprs.live := by
  refine ⟨⟨by decide, by decide, trivial, trivial⟩, ?_⟩
  rw [leaky_run]
  exact insert_live h.1 _

/-- The same for a structure in a field: a field of type `hcl::Body` becomes a list of numbers. -/
theorem C48_leak_structure (x : Str) {st : SerSt} (h : StOk st) :
    let v : SVal := .struct c!"Config" [(c!"body", bodySVal [.attr x .null])]
    Honest v ∧ (serialize E0 .body v st).1 = .body [.attr c!"body" (.array
        [.object [(.expr (.string c!"handle"), .number (.posInt st.structs.last))]])] ∧
      (serialize E0 .body v st).2.structs.live = (st.structs.last, .attr x .null) :: st.structs.live := by
  refine ⟨⟨by decide, by decide, ⟨trivial, trivial⟩, trivial⟩, rfl, ?_⟩
  exact insert_live h.2 _

/-- The same for an expression as a map key, where the serialization fails. -/
theorem C48_leak_key (x : Str) {st : SerSt} (h : StOk st) :
    let v : SVal := .map [(.hclExpr (.var x), .unit)]
    Honest v ∧ (serialize E0 .body v st).1 = .err ∧
      (serialize E0 .body v st).2.exprs.live = (st.exprs.last, .var x) :: st.exprs.live := by
  refine ⟨⟨⟨trivial, trivial⟩, trivial⟩, rfl, ?_⟩
  exact insert_live h.1 _

/-- A struct of the user with a reserved name makes the crate panic; the mode is restored. -/
theorem C48_reserved_name (st : SerSt) : st.exprs.live = [] →
    (serialize E0 .expr (.struct exprMarker [(c!"handle", .u64 7)]) st).1 = .panic := by
  intro h
  show SRes.got Got.expr (match (⟨st.exprs.last, st.exprs.live⟩ : Reg Expr).remove 7 with
    | some (e, r) => (SRes.ok e, { st with internal := true, exprs := r })
    | none => (SRes.panic, { st with internal := true })).1 = _
  rw [h]
  rfl

/-! ### C57 -/

/-- What comes out of the serialization of an honest, well-placed value does not depend on the
serializations before it or around it. Missing from the full claim, which is false (see
`C57_history_fails`): values where expressions or structures of this crate stand at other places. -/
theorem C57_history_partial {v : SVal} (hv : Honest v) (en : Entry) {a b : SerSt} (ha : StOk a)
    (hb : StOk b) (hm : a.internal = b.internal) (hp : Sited (place b.internal en) v) :
    (serialize E en v a).1 = (serialize E en v b).1 := by
  obtain ⟨g, -, hg⟩ := serialize_tame (Sited.at E _ v hv hp)
  exact (hg a ha hm).1.trans (hg b hb rfl).1.symm

/-- `to_body` and `to_expression` also do not depend on the mode they are called in. -/
theorem C57_nested_partial {v : SVal} (hv : Honest v) {en : Entry} (hen : en ≠ .value) {a b : SerSt}
    (ha : StOk a) (hb : StOk b) (hp : Sited (place true en) v) :
    (serialize E en v a).1 = (serialize E en v b).1 := by
  have hp' : ∀ c, Sited (place c en) v := by
    intro c
    cases en
    · exact hp
    · exact hp
    · exact absurd rfl hen
  have key : ∀ st, StOk st → (serialize E en v st).1 =
      (serialize E en v { st with internal := true }).1 := by
    intro st _
    cases en
    · rfl
    · rfl
    · exact absurd rfl hen
  rw [key a ha, key b hb]
  exact C57_history_partial hv en (a := { a with internal := true }) (b := { b with internal := true })
    ha hb rfl (hp' _)

/-- A reachable state with a live handle, and the one at the start: both meet the hypotheses. -/
example : StOk (serialize E0 .body (leaky c!"x") SerSt.initial).2 ∧
    (serialize E0 .body (leaky c!"x") SerSt.initial).2.exprs.live ≠ [] ∧
    (serialize E0 .body (leaky c!"x") SerSt.initial).2.internal = SerSt.initial.internal := by
  refine ⟨(C48_reachable (.step .body _ .start)).2, ?_, rfl⟩
  rw [leaky_run]
  exact nofun

/-- The full claim is false: a field of type `Block<Expression>` gives the number of its handle, which
depends on how many expressions have been serialized before. -/
theorem C57_history_fails (x : Str) : ∃ a b, Reachable E0 a ∧ Reachable E0 b ∧
    (serialize E0 .body (leaky x) a).1 ≠ (serialize E0 .body (leaky x) b).1 := by
  refine ⟨SerSt.initial, _, .start, .step .expr (.hclExpr .null) .start, ?_⟩
  rw [leaky_run, leaky_run]
  intro h
  have h1 : (serialize E0 .expr (.hclExpr .null) SerSt.initial).2.exprs.last = 1 := rfl
  rw [h1] at h
  simp [SerSt.initial] at h

/-- A value given to `to_value` from within a serialization is not what it is outside of one. -/
theorem C57_to_value_fails (x : Str) {st : SerSt} (h : StOk st) :
    (serialize E0 .value (.hclExpr (.var x)) { st with internal := true }).1 =
        .value (.object [(c!"handle", .number (.posInt st.exprs.last))]) ∧
      (serialize E0 .value (.hclExpr (.var x)) { st with internal := false }).1 =
        .value (.string (Fmt.toInterpolatedString (Fmt.expr E0 (.var x)))) ∧
      (serialize E0 .value (.hclExpr (.var x)) { st with internal := true }).2.exprs.live =
        (st.exprs.last, .var x) :: st.exprs.live :=
  ⟨rfl, rfl, insert_live h.1 _⟩

/-! ### C49 -/

/-- A document whose fields are `Block<T>` and `LabeledBlock<T>` has, field by field and leaf by leaf, one
block: its identifier is the name of the field, its labels are the keys on the way to the leaf from the
outermost to the innermost, and its body is what the leaf alone would be serialized to. -/
theorem C49_labels {n : Str} {fs : List (Str × BlockField)} {content : SVal → List Struct}
    (hn : n ≠ exprMarker ∧ n ≠ structMarker) (hid : ∀ f ∈ fs, IsIdentifier E.U f.1)
    (hl : ∀ f ∈ fs, ∀ p ∈ f.2.paths, OneBlock p.2 ∧ Honest p.2 ∧ Sited .document p.2 ∧
      (serialize E .body p.2 SerSt.initial).1 = .body (content p.2))
    {st : SerSt} (hs : StOk st) :
    (serialize E .body (.struct n (fs.map fun f => (f.1, f.2.val))) st).1 =
      .body (fs.map fun f => blocksOf content f.1 f.2.paths).flatten := by
  refine (serialize_body hs ?_).1
  simp only [SVal.run, Ser.struct, if_neg hn.1, if_neg hn.2, runFields_map, each_map]
  refine gives_eachFlat (k := fun x => x) fun f hf => ?_
  have h1 : Ser.newIdent E.U f.1 = SM.ret f.1 := by
    simp only [Ser.newIdent, (C01_tryNew E.U f.1).1 (hid f hf)]
  simp only [Ser.bodyEntry, Ser.entry, h1, SM.ret_chain]
  refine gives_chain (BlockField.gives f.2 fun p hp => ?_) (gives_ret _)
  obtain ⟨h2, h3, h4, h5⟩ := hl f hf p hp
  exact ⟨h3, h2, gives_of_initial h3 h4 h5⟩

/-- The same for a document that is a map with string keys. -/
theorem C49_labels_map {fs : List (Str × BlockField)} {content : SVal → List Struct}
    (hid : ∀ f ∈ fs, IsIdentifier E.U f.1)
    (hl : ∀ f ∈ fs, ∀ p ∈ f.2.paths, OneBlock p.2 ∧ Honest p.2 ∧ Sited .document p.2 ∧
      (serialize E .body p.2 SerSt.initial).1 = .body (content p.2))
    {st : SerSt} (hs : StOk st) :
    (serialize E .body (.map (fs.map fun f => (.str f.1, f.2.val))) st).1 =
      .body (fs.map fun f => blocksOf content f.1 f.2.paths).flatten := by
  refine (serialize_body hs ?_).1
  simp only [SVal.run, Ser.map, runEntries_map, each_map]
  refine gives_eachFlat (k := fun x => x) fun f hf => ?_
  have h1 : Ser.newIdent E.U f.1 = SM.ret f.1 := by
    simp only [Ser.newIdent, (C01_tryNew E.U f.1).1 (hid f hf)]
  simp only [SVal.run, Ser.str, Ser.scalar, Ser.bodyEntry, Ser.entry, h1, SM.ret_chain]
  refine gives_chain (BlockField.gives f.2 fun p hp => ?_) (gives_ret _)
  obtain ⟨h2, h3, h4, h5⟩ := hl f hf p hp
  exact ⟨h3, h2, gives_of_initial h3 h4 h5⟩

/-- `doubly_labeled_block`: two labels, the outer key first. Equal outer keys are merged by the map. -/
theorem C49_doubly_labeled {k : Str} {es : List (Str × List (Str × SVal))}
    {content : SVal → List Struct} (hk : IsIdentifier E.U k) (hd : (es.map Prod.fst).Nodup)
    (hl : ∀ e ∈ es, ∀ p ∈ e.2, OneBlock p.2 ∧ Honest p.2 ∧ Sited .document p.2 ∧
      (serialize E .body p.2 SerSt.initial).1 = .body (content p.2))
    {st : SerSt} (hs : StOk st) :
    (serialize E .body (.struct [] [(k, doublyLabeled
        (es.map fun e => (e.1, .map (e.2.map fun p => (.str p.1, p.2)))))]) st).1 =
      .body (es.map fun e => e.2.map fun p =>
        Struct.block k [.string e.1, .string p.1] (content p.2)).flatten := by
  let t : List (Str × SVal) → LKeys := fun l => .map (l.map fun p => (p.1, .leaf p.2))
  have hval : ∀ l, (t l).val = .map (l.map fun p => (.str p.1, p.2)) := by
    intro l
    simp only [t, LKeys.val, valEntries_eq, List.map_map]
    rfl
  have hpaths : ∀ l, (t l).paths = l.map fun p => ([p.1], p.2) := by
    intro l
    simp only [t, LKeys.paths, pathsFields_eq, List.map_map]
    induction l with
    | nil => rfl
    | cons p l ih => simp only [List.map_cons, List.flatten_cons, ih]; rfl
  have := C49_labels (E := E) (n := []) (content := content)
    (fs := [(k, .labeled (.map (es.map fun e => (e.1, .labeled (t e.2)))))]) ⟨by decide, by decide⟩
    (by simpa using hk) (by
      intro f hf p hp
      simp only [List.mem_singleton] at hf
      subst hf
      simp only [BlockField.paths, LKeys.paths, pathsFields_eq, List.map_map, List.mem_flatten,
        List.mem_map] at hp
      obtain ⟨l, ⟨e, he, rfl⟩, hp⟩ := hp
      simp only [Function.comp, LTree.paths, hpaths, List.map_map, List.mem_map] at hp
      obtain ⟨q, hq, rfl⟩ := hp
      exact hl e he q hq) hs
  simp only [List.map_cons, List.map_nil, BlockField.val, LKeys.val, valEntries_eq, List.map_map,
    List.flatten_cons, List.flatten_nil, List.append_nil, BlockField.paths, LKeys.paths,
    pathsFields_eq, blocksOf_flatten] at this
  have hd' : ((es.map fun e => (e.1, SVal.map (e.2.map fun p => (.str p.1, p.2)))).map Prod.fst).Nodup := by
    simpa [List.map_map, Function.comp_def] using hd
  rw [doublyLabeled, Map.collect_distinct hd', List.map_map]
  simp only [Function.comp_def, LTree.val, hval, LTree.paths, hpaths, blocksOf, List.map_map] at this
  exact this

example : (serialize E0 .body (.struct [] [(c!"resource", doublyLabeled
    [(c!"aws_sns_topic", .map [(.str c!"mytopic", .map [(.str c!"name", .str c!"mytopic")])])])])
      SerSt.initial).1 =
    .body [.block c!"resource" [.string c!"aws_sns_topic", .string c!"mytopic"]
      [.attr c!"name" (.string c!"mytopic")]] := rfl

/-- The parts of the example: `LabeledBlock<Map<_, LabeledBlock<Map<_, Vec<_>>>>>` with leaves at two
different depths. -/
private def t0 : LKeys := .map
  [(c!"a", .labeled (.map [(c!"b", .many [.leaf (.struct c!"T" [(c!"x", .u64 1)]),
      .leaf (.map [])])])),
   (c!"c", .labeled (.fields c!"V" [(c!"f", .leaf (.map [(.str c!"y", .hclExpr .null)]))]))]

example : blocksOf (fun v => match (serialize E0 .body v SerSt.initial).1 with | .body b => b | _ => [])
      c!"user" t0.paths =
    [.block c!"user" [.string c!"a", .string c!"b"] [.attr c!"x" (.number (.posInt 1))],
     .block c!"user" [.string c!"a", .string c!"b"] [],
     .block c!"user" [.string c!"c", .string c!"V", .string c!"f"] [.attr c!"y" .null]] := rfl

example : ∀ p ∈ t0.paths, OneBlock p.2 ∧ Honest p.2 ∧ Sited .document p.2 ∧
    ∃ b, (serialize E0 .body p.2 SerSt.initial).1 = .body b := by
  intro p hp
  simp only [t0, LKeys.paths, LTree.pathsFields, LTree.pathsField, LTree.paths, LTree.pathsAll,
    List.map_cons, List.map_nil, List.cons_append, List.nil_append, List.append_nil, List.mem_cons,
    List.not_mem_nil, or_false] at hp
  rcases hp with rfl | rfl | rfl
  · exact ⟨trivial, ⟨by decide, by decide, trivial, trivial⟩, Or.inr ⟨trivial, trivial⟩, _, rfl⟩
  · exact ⟨trivial, trivial, Or.inr trivial, _, rfl⟩
  · exact ⟨trivial, ⟨⟨trivial, trivial⟩, trivial⟩, Or.inr ⟨⟨trivial, .inr (.inl rfl)⟩, trivial⟩, _, rfl⟩

/-- Adding a label skips nothing: whatever stands where blocks are expected, if its serialization
succeeds then all it gives are blocks with the expected identifier. -/
theorem C49_nothing_skipped (v : SVal) (id : Str) (st : SerSt) {ss : List Struct}
    (h : ((v.run E).block id st).1 = .ok ss) : ∀ s ∈ ss, ∃ ls b, s = .block id ls b :=
  (BlocksOnly.run E v).block id st ss h

example : ((SVal.map [(.str c!"x", .u64 1)]).run E0).block c!"a" SerSt.initial =
    (.ok [.block c!"a" [] [.attr c!"x" (.number (.posInt 1))]], SerSt.initial) := rfl

/-! ### C58 -/

/-- A body is serialized to itself. -/
theorem C58_body (b : List Struct) {st : SerSt} (hs : StOk st) :
    (serialize E .body (bodySVal b) st).1 = .body b ∧ SameLive st (serialize E .body (bodySVal b) st).2 := by
  refine serialize_body hs ?_
  show Gives true (SM.chain (SM.each Sers.body (SVal.runs E (b.map .hclStruct))) fun bs =>
    SM.ret bs.flatten) _
  rw [runs_map, each_map]
  have := gives_eachFlat (γ := List Struct) (k := fun x => x) (l := b)
    (f := fun s => ((SVal.hclStruct s).run E).body) (b := true) fun s _ => gives_structSers s
  rwa [← List.flatMap_def, List.flatMap_singleton'] at this

/-- An expression is serialized to itself. -/
theorem C58_expr (e : Expr) {st : SerSt} (hs : StOk st) :
    (serialize E .expr (.hclExpr e) st).1 = .expr e ∧
      SameLive st (serialize E .expr (.hclExpr e) st).2 :=
  serialize_expr hs (gives_exprSers e)

/-- The expressions in the fields of a struct become attributes as they are. -/
theorem C58_fields {n : Str} {fs : List (Str × Expr)} (hn : n ≠ exprMarker ∧ n ≠ structMarker)
    (hid : ∀ f ∈ fs, IsIdentifier E.U f.1) {st : SerSt} (hs : StOk st) :
    (serialize E .body (.struct n (fs.map fun f => (f.1, .hclExpr f.2))) st).1 =
      .body (fs.map fun f => .attr f.1 f.2) := by
  refine (serialize_body hs ?_).1
  simp only [SVal.run, Ser.struct, if_neg hn.1, if_neg hn.2, runFields_map, each_map]
  have := gives_eachFlat (γ := List Struct) (k := fun x => x) (l := fs)
    (f := fun p => Ser.bodyEntry (Ser.newIdent E.U p.1) ((SVal.hclExpr p.2).run E)) (b := true)
    (g := fun p => [.attr p.1 p.2]) fun f hf => by
      have h1 : Ser.newIdent E.U f.1 = SM.ret f.1 := by
        simp only [Ser.newIdent, (C01_tryNew E.U f.1).1 (hid f hf)]
      simp only [Ser.bodyEntry, Ser.entry, h1, SM.ret_chain]
      exact gives_chain (gives_exprSers_field _ _) (gives_ret _)
  rw [← List.flatMap_def, ← List.map_eq_flatMap] at this
  exact this

/-- A key of the document that is not an identifier is an error, whatever comes before or after it. -/
theorem C58_bad_field {n k : Str} {fs : List (Str × SVal)} {v : SVal}
    (hn : n ≠ exprMarker ∧ n ≠ structMarker) (hm : (k, v) ∈ fs) (hk : ¬ IsIdentifier E.U k)
    (st : SerSt) (b : List Struct) : (serialize E .body (.struct n fs) st).1 ≠ .body b := by
  intro h
  have hmem : (k, v.run E) ∈ SVal.runFields E fs := by
    have := runFields_map E id fs
    rw [List.map_id] at this
    rw [this]
    exact List.mem_map_of_mem hm
  have hno : Ser.newIdent E.U k = SM.fail := by
    simp only [Ser.newIdent, (C01_tryNew E.U k).2 hk]
  have key := each_ne_ok (f := fun p => Ser.bodyEntry (Ser.newIdent E.U p.1) p.2) hmem (by
    intro st b
    simp only [Ser.bodyEntry, Ser.entry, hno, SM.fail_chain]
    exact nofun) { st with internal := true }
  have h' : SRes.got Got.body (((SVal.struct n fs).run E).body { st with internal := true }).1 = .body b := h
  simp only [SVal.run, Ser.struct, if_neg hn.1, if_neg hn.2, SM.chain] at h'
  rcases hr : SM.each (fun p => Ser.bodyEntry (Ser.newIdent E.U p.1) p.2) (SVal.runFields E fs)
    { st with internal := true } with ⟨z | _ | _, st2⟩ <;> rw [hr] at h'
  · exact key z (by rw [hr])
  · cases h'
  · cases h'

example : ¬ IsIdentifier E0.U c!"a b" := by rw [← C01_isIdent_iff]; decide

/-- `to_value` gives back a value. -/
theorem C58_value {v : Value} (h : v.WF) (hn : NumbersOk v) (st : SerSt) :
    serialize E .value v.sval st = (.value v, st) := by
  show (SRes.got Got.value _, _) = _
  rw [value_sval E v h hn]
  rfl

/-- `to_expression` converts a value like `Expression::from`. -/
theorem C58_value_expr {v : Value} (hn : NumbersOk v) (st : SerSt) :
    serialize E .expr v.sval st = (.expr (ofValue v), st) := by
  show (SRes.got Got.expr (withInternal _ st).1, (withInternal _ st).2) = _
  rw [expr_sval E v hn]
  rfl

example : (Value.object [(c!"a", .array [.number (.posInt 1), .null, .number (.negInt (-3))]),
    (c!"b", .string c!"${x}")]).WF ∧
    NumbersOk (.object [(c!"a", .array [.number (.posInt 1), .null, .number (.negInt (-3))]),
      (c!"b", .string c!"${x}")]) := by
  refine ⟨⟨by decide, ⟨trivial, trivial, trivial, trivial⟩, trivial, trivial⟩, ⟨?_, trivial, ?_, trivial⟩, trivial, trivial⟩
  · show (1 : Nat) < 2 ^ 64; omega
  · show (-2 ^ 63 : Int) ≤ -3 ∧ (-3 : Int) < 0; omega

/-! ### C59 -/

/-- `to_value` of an expression is `Value::from` of it. Missing from the full claim, which is false (see
below): templates and objects with entries. -/
theorem C59_to_value_partial {e : Expr} (h : Flat e) {st : SerSt} (hs : StOk st)
    (hb : st.internal = false) :
    (serialize E .value (.hclExpr e) st).1 = .value (toValue E e) :=
  congrArg (SRes.got .value) (gives_toValue E e h st hs hb).1

example : Flat (.array [.paren (.binary (.var c!"a") .plus (.number (.posInt 1))), .string c!"b",
    .object []]) := ⟨trivial, trivial, rfl, trivial⟩

/-- The full claim is false: `to_value` fails for every object with entries. -/
theorem C59_object_fails (k : ObjKey) (x : Expr) (es : List (ObjKey × Expr)) {st : SerSt}
    (hb : st.internal = false) :
    (serialize E .value (.hclExpr (.object ((k, x) :: es))) st).1 = .err := by
  show SRes.got Got.value ((exprSers E _).value st).1 = _
  simp only [exprSers, Ser.byMode, hb, Bool.false_eq_true, if_false, exprSersEntries]
  cases k <;> rfl

/-- The full claim is false: `to_value` wraps a template in an interpolation. -/
theorem C59_template_fails : (serialize E0 .value (.hclExpr (.template (.quoted c!"a"))) SerSt.initial).1 =
      .value (.string c!"${\"a\"}") ∧
    toValue E0 (.template (.quoted c!"a")) = .string c!"a" := ⟨rfl, rfl⟩

/-! ### C60 -/

/-- For data of the user, `to_value` and `to_expression` succeed, the expression stands for the value, and
neither leaves a trace. Missing from the full claim, which is false (see below): maps whose keys are not
strings, and variants whose names are not identifiers. -/
theorem C60_agree_partial {v : SVal} (h : Data E.U v) (st : SerSt) : ∃ e,
    serialize E .value v st = (.value (toValue E e), st) ∧ serialize E .expr v st = (.expr e, st) := by
  obtain ⟨w, h1, e, h2, he⟩ := data_stands E v h
  refine ⟨e, ?_, ?_⟩
  · show (SRes.got Got.value _, _) = _
    rw [h1, he]; rfl
  · show (SRes.got Got.expr (withInternal _ st).1, (withInternal _ st).2) = _
    rw [h2]; rfl

/-- A struct as a document: one attribute for each field, in order, whose expression is what
`to_expression` gives for the field. -/
theorem C60_document {n : Str} (hn : n ≠ exprMarker ∧ n ≠ structMarker) {fs : List (Str × SVal)}
    (hf : ∀ f ∈ fs, IsIdentifier E.U f.1 ∧ AttrField f.2 ∧ Data E.U f.2) {st : SerSt}
    {content : SVal → Expr} (hc : ∀ f ∈ fs, (serialize E .expr f.2 st).1 = .expr (content f.2)) :
    serialize E .body (.struct n fs) st =
      (.body (fs.map fun f => .attr f.1 (content f.2)), st) := by
  have key : SM.each (fun p => Ser.bodyEntry (Ser.newIdent E.U p.1) p.2) (SVal.runFields E fs) =
      SM.ret (fs.map fun f => [.attr f.1 (content f.2)]) := by
    induction fs with
    | nil => rfl
    | cons f fs ih =>
      rcases f with ⟨k, v⟩
      obtain ⟨h1, h2, h3⟩ := hf (k, v) (by simp)
      obtain ⟨w, -, e, he, -⟩ := data_stands E v h3
      have hk : Ser.newIdent E.U k = SM.ret k := by
        simp only [Ser.newIdent, (C01_tryNew E.U k).1 h1]
      have hce : content v = e := by
        have := hc (k, v) (by simp)
        change SRes.got Got.expr (withInternal _ st).1 = _ at this
        rw [he] at this
        injection this with this
        exact this.symm
      simp only [SVal.runFields, SVal.runField, SM.each, Ser.bodyEntry, Ser.entry, hk, SM.ret_chain,
        attrField_struct E k h2 h3, he, Ser.attr, List.map_cons, hce]
      have := ih (fun f hf' => hf f (by simp [hf'])) (fun f hf' => hc f (by simp [hf']))
      simp only [Ser.bodyEntry, Ser.entry] at this
      simp only [this, SM.ret_chain]
  show (SRes.got Got.body (withInternal _ st).1, (withInternal _ st).2) = _
  simp only [SVal.run, Ser.struct, if_neg hn.1, if_neg hn.2, key, SM.ret_chain]
  rw [← List.flatMap_def, ← List.map_eq_flatMap]
  rfl

/-- A map as a document: the same. -/
theorem C60_document_map {fs : List (Str × SVal)}
    (hf : ∀ f ∈ fs, IsIdentifier E.U f.1 ∧ AttrField f.2 ∧ Data E.U f.2) {st : SerSt}
    {content : SVal → Expr} (hc : ∀ f ∈ fs, (serialize E .expr f.2 st).1 = .expr (content f.2)) :
    serialize E .body (.map (fs.map fun f => (.str f.1, f.2))) st =
      (.body (fs.map fun f => .attr f.1 (content f.2)), st) := by
  have hn : ([] : Str) ≠ exprMarker ∧ ([] : Str) ≠ structMarker := ⟨by decide, by decide⟩
  rw [← C60_document (n := []) hn hf hc]
  show (SRes.got Got.body (withInternal _ st).1, (withInternal _ st).2) =
    (SRes.got Got.body (withInternal _ st).1, (withInternal _ st).2)
  have : ((SVal.map (fs.map fun f => (.str f.1, f.2))).run E).body =
      ((SVal.struct [] fs).run E).body := by
    have hfs := runFields_map E id fs
    rw [List.map_id] at hfs
    simp only [SVal.run, Ser.struct, if_neg hn.1, if_neg hn.2, Ser.map, runEntries_map, hfs, each_map]
    rfl
  rw [this]

/-- An object expression as a document: one attribute for each entry, in order; a key that is a string is
turned into an identifier. -/
theorem C60_object_document {es : List (ObjKey × Expr)} {names : List Str}
    (h : es.map (fun p => attrName E.U p.1) = names.map some) {st : SerSt} (hs : StOk st) :
    (serialize E .body (.hclExpr (.object es)) st).1 =
      .body ((names.zip es).map fun p => .attr p.1 p.2.2) := by
  refine (serialize_body hs (gives_exprSers_body ?_)).1
  induction es generalizing names with
  | nil => cases names with
    | nil => rfl
    | cons => cases h
  | cons e es ih =>
    rcases names with _ | ⟨x, names⟩
    · cases h
    · simp only [List.map_cons, List.cons.injEq] at h
      have := ih h.2
      rcases e with ⟨k, e⟩
      simp only [Ser.exprBody] at this
      cases k with
      | ident y =>
        have hx : y = x := by simpa [attrName] using h.1
        simp only [Ser.exprBody, Ser.objectAttrs, this, SM.ret_chain, hx]
        rfl
      | expr k =>
        cases k <;> simp only [attrName, reduceCtorEq, false_and, Option.some.injEq] at h
        simp only [Ser.exprBody, Ser.objectAttrs, this, SM.ret_chain, h.1]
        rfl

example : [(ObjKey.ident c!"a", Expr.null), (.expr (.string c!"b c"), .bool true)].map
    (fun p => attrName E0.U p.1) = [c!"a", c!"b_c"].map some := by decide +kernel

/-- Any other key is an error, and so is every other expression as a document. -/
theorem C60_object_document_bad {es : List (ObjKey × Expr)} (h : ∃ p ∈ es, attrName E.U p.1 = none)
    {st : SerSt} (hs : StOk st) : (serialize E .body (.hclExpr (.object es)) st).1 = .err := by
  refine serialize_body_err hs (gives_exprSers_body_err ?_)
  simp only [Ser.exprBody]
  induction es with
  | nil => obtain ⟨p, hp, -⟩ := h; cases hp
  | cons e es ih =>
    rcases e with ⟨k, e⟩
    by_cases hk : attrName E.U k = none
    · cases k with
      | ident => cases hk
      | expr k => cases k <;> first | rfl | cases hk
    · have h' : ∃ p ∈ es, attrName E.U p.1 = none := by
        obtain ⟨p, hp, hn⟩ := h
        rcases List.mem_cons.1 hp with rfl | hp
        · exact absurd hn hk
        · exact ⟨p, hp, hn⟩
      have := ih h'
      cases k with
      | ident => simp only [Ser.objectAttrs, this, SM.fail_chain]
      | expr k =>
        cases k <;> first | exact absurd rfl hk | skip
        simp only [Ser.objectAttrs, this, SM.fail_chain]

/-- No other expression is a document. -/
theorem C60_other_document_bad {e : Expr} (h : ∀ es, e ≠ .object es) {st : SerSt} (hs : StOk st) :
    (serialize E .body (.hclExpr e) st).1 = .err := by
  refine serialize_body_err hs (gives_exprSers_body_err ?_)
  cases e <;> first | rfl | exact absurd rfl (h _)

/-- An enum variant as a document is the document of a map with the name of the variant as its only key:
one attribute for variants without named fields, one block without labels for variants with named fields. -/
theorem C60_variant_document (x : Str) (v : SVal) (vs : List SVal) (n : Str) (fs : List (Str × SVal))
    (st : SerSt) :
    serialize E .body (.newtypeVariant x v) st = serialize E .body (.map [(.str x, v)]) st ∧
    serialize E .body (.tupleVariant x vs) st = serialize E .body (.map [(.str x, .seq vs)]) st ∧
    serialize E .body (.structVariant x fs) st =
      serialize E .body (.map [(.str x, .newtypeStruct blockMarker (.struct n fs))]) st := by
  have flat1 : ∀ {α : Type} (x : List α), [x].flatten = x := by simp
  refine ⟨?_, ?_, ?_⟩ <;>
    show (SRes.got Got.body (withInternal _ st).1, (withInternal _ st).2) =
      (SRes.got Got.body (withInternal _ st).1, (withInternal _ st).2)
  · simp only [SVal.run, Ser.newtypeVariant, Ser.map, SVal.runEntries, SVal.runEntry, SM.each,
      Ser.bodyEntry, Ser.entry, SM.chain_assoc, SM.ret_chain, flat1, SM.chain_ret]
    rfl
  · simp only [SVal.run, Ser.tupleVariant, Ser.map, Ser.seq, Ser.attr, SVal.runEntries, SVal.runEntry,
      SM.each, Ser.bodyEntry, Ser.entry, SM.chain_assoc, SM.ret_chain, flat1]
    rfl
  · simp only [SVal.run, Ser.structVariant, Ser.map, Ser.newtypeStruct, if_true, Ser.struct,
      SVal.runEntries, SVal.runEntry, SM.each, Ser.bodyEntry, Ser.entry, SM.chain_assoc, SM.ret_chain, flat1]
    rfl

example : (serialize E0 .body (.seq [.tupleVariant c!"a" [.u64 1, .unit],
      .structVariant c!"b" [(c!"c", .str c!"d")], .newtypeVariant c!"e" (.bool true)]) SerSt.initial).1 =
    .body [.attr c!"a" (.array [.number (.posInt 1), .null]), .block c!"b" [] [.attr c!"c" (.string c!"d")],
      .attr c!"e" (.bool true)] := rfl

/-- Data with every kind of variant, nested. -/
private def d0 : SVal := .struct c!"Server" [(c!"name", .str c!"a"),
  (c!"mode", .newtypeVariant c!"Fast" (.some (.u64 3))),
  (c!"area", .tupleVariant c!"Rect" [.int (-1), .unit, .unitVariant c!"On"]),
  (c!"more", .map [(.str c!"x", .seq [.bool true]), (.str c!"y z", .structVariant c!"P" [(c!"q", .char 'c')]),
    (.str c!"x", .unit)])]

example : Data E0.U d0 ∧ (serialize E0 .value d0 SerSt.initial).1 = .value (.object [
    (c!"name", .string c!"a"), (c!"mode", .object [(c!"Fast", .number (.posInt 3))]),
    (c!"area", .object [(c!"Rect", .array [.number (.negInt (-1)), .null, .string c!"On"])]),
    (c!"more", .object [(c!"x", .null), (c!"y z", .object [(c!"P", .object [(c!"q", .string c!"c")])])])]) :=
  ⟨by
    refine ⟨by decide, by decide, trivial, ⟨?_, trivial⟩, ⟨trivial, trivial, trivial, trivial⟩,
      ⟨⟨⟨_, rfl⟩, trivial, trivial⟩, ⟨⟨_, rfl⟩, trivial, trivial⟩, ⟨⟨_, rfl⟩, trivial⟩, trivial⟩, trivial⟩
    rw [← C01_isIdent_iff]; decide, rfl⟩

/-- The full claim is false: a map whose keys are numbers is an expression but not a value. -/
theorem C60_number_key_fails (st : SerSt) :
    (serialize E .expr (.map [(.u64 1, .unit)]) st).1 =
        .expr (.object [(.expr (.number (.posInt 1)), .null)]) ∧
      (serialize E .value (.map [(.u64 1, .unit)]) st).1 = .err := ⟨rfl, rfl⟩

/-- The full claim is false: a variant with one value whose name is not an identifier is a value but not an
expression; the other kinds of variants are both. -/
theorem C60_variant_name_fails {x : Str} (hx : ¬ IsIdentifier E.U x) (st : SerSt) :
    (serialize E .value (.newtypeVariant x .unit) st).1 = .value (.object [(x, .null)]) ∧
      (serialize E .expr (.newtypeVariant x .unit) st).1 = .err ∧
      (serialize E .expr (.tupleVariant x [.unit]) st).1 =
        .expr (.object [(.expr (.string x), .array [.null])]) := by
  refine ⟨rfl, ?_, rfl⟩
  show SRes.got Got.expr (withInternal _ st).1 = _
  have : Ser.newIdent E.U x = SM.fail := by simp only [Ser.newIdent, (C01_tryNew E.U x).2 hx]
  simp only [SVal.run, Ser.newtypeVariant, this, SM.fail_chain]
  rfl

/-- The full claim is false: keys given as enum variants and keys given as strings are different keys of an
expression, but may be the same key of a value, so the values of the entries can differ. -/
theorem C60_mixed_keys_fail (st : SerSt) :
    (serialize E0 .value (.map [(.unitVariant c!"a", .u64 1), (.str c!"a", .u64 2),
        (.unitVariant c!"a", .u64 3)]) st).1 = .value (.object [(c!"a", .number (.posInt 3))]) ∧
      (serialize E0 .expr (.map [(.unitVariant c!"a", .u64 1), (.str c!"a", .u64 2),
        (.unitVariant c!"a", .u64 3)]) st).1 = .expr (.object [(.ident c!"a", .number (.posInt 3)),
          (.expr (.string c!"a"), .number (.posInt 2))]) ∧
      toValue E0 (.object [(.ident c!"a", .number (.posInt 3)),
          (.expr (.string c!"a"), .number (.posInt 2))]) = .object [(c!"a", .number (.posInt 2))] :=
  ⟨rfl, rfl, rfl⟩

end Verif.Props
