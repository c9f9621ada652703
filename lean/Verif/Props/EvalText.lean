import Verif.Lemmas.EvalText
import Verif.Props.Parse
import Verif.Props.Roundtrip
import Verif.Props.Reads
import Verif.Props.Ser
import Verif.Props.Tool
/-! C84: reading and writing documents with evaluation (`eval::from_str`, `eval::to_string`). -/

namespace Verif.Props
open Spec De

/-- C84: `eval::from_str` reads the document in which every attribute, in all blocks, has the value of its expression. -/
theorem C84_reads (L : Tool.Lib) (ctx : Ctx) (t : Ty) (text : Str) (d : Datum) :
    EvalReads L ctx t text d ↔ ∃ doc b', parseBody ⟨L.E.U, L.build⟩ text = .ok doc ∧
      Evaluated L.env ctx (toHclBody L.E doc) b' ∧ Deserializes L.E t (.doc b') d :=
  ⟨fun ⟨doc, h1, b', h2, h3⟩ => ⟨doc, b', h1, evalBody_shape _ _ h2, h3⟩,
    fun ⟨doc, b', h1, h2, h3⟩ => ⟨doc, h1, b', evalBody_of_shape _ _ h2, h3⟩⟩

/-- C84: there is a document to read from exactly if every attribute can be evaluated. -/
theorem C84_all (env : Env) (ctx : Ctx) (b : List Struct) :
    (∃ b', Evaluated env ctx b b') ↔ ∀ e ∈ attrsOf b, ∃ v, eval env ctx e = .ok v := by
  constructor
  · rintro ⟨b', h⟩ e he
    obtain ⟨_, v, hv, _⟩ := shape_all h e he
    exact ⟨v, hv⟩
  · intro h
    exact shape_of_all fun e he => (h e he).elim fun v hv => ⟨ofValue v, v, hv, rfl⟩

/-- C84: so one attribute that cannot be evaluated is enough to fail, whatever the type and even if the type has no
field for it. -/
theorem C84_fails (L : Tool.Lib) (ctx : Ctx) (t : Ty) (text : Str) (d : Datum) (doc : EBody)
    (hdoc : parseBody ⟨L.E.U, L.build⟩ text = .ok doc) (e : Expr) (he : e ∈ attrsOf (toHclBody L.E doc))
    (hf : ∀ v, eval L.env ctx e ≠ .ok v) : ¬ EvalReads L ctx t text d := by
  rw [C84_reads]
  rintro ⟨doc', b', h1, h2, -⟩
  rw [hdoc] at h1
  cases h1
  obtain ⟨v, hv⟩ := (C84_all _ _ _).1 ⟨b', h2⟩ e he
  exact hf v hv

/-- The values of all attributes are well formed: their numbers are those that the types allow. -/
def ValuesOk (env : Env) (ctx : Ctx) (b : List Struct) : Prop :=
  ∀ e ∈ attrsOf b, ∀ v, eval env ctx e = .ok v → NumbersOk v

private theorem evaluated_ok {env : Env} {ctx : Ctx} {b b' : List Struct} (hc : CtxWF ctx) (hn : ValuesOk env ctx b)
    (h : Evaluated env ctx b b') :
    SameShape (fun e e' => ∃ v, eval env ctx e = .ok v ∧ e' = ofValue v ∧ v.WF ∧ NumbersOk v) b b' :=
  shape_mem b b' (fun e _ he ⟨v, h1, h2⟩ => ⟨v, h1, h2, eval_wf hc h1, hn e he v h1⟩) h

/-- C84: an attribute `k = e` that no attribute or block of the same name follows is read as the value of `e` when a
`Value` is read. -/
theorem C84_value (L : Tool.Lib) (ctx : Ctx) (text : Str) (v : Value) (pre post : List Struct) (k : Str) (e : Expr)
    (doc : EBody) (hdoc : parseBody ⟨L.E.U, L.build⟩ text = .ok doc) (hb : toHclBody L.E doc = pre ++ .attr k e :: post)
    (hpost : ∀ s ∈ post, Spec.structName s ≠ k) (hc : CtxWF ctx) (hn : ValuesOk L.env ctx (toHclBody L.E doc))
    (h : EvalReads L ctx .value text (.value v)) :
    ∃ fs x, v = .object fs ∧ eval L.env ctx e = .ok x ∧ Map.get? k fs = some x := by
  obtain ⟨doc', b', h1, h2, h3⟩ := (C84_reads _ _ _ _ _).1 h
  rw [hdoc] at h1
  cases h1
  have hall : BodyAll Named b' := shape_bodyAll (fun _ _ ⟨_, _, h2, _, h4⟩ => h2 ▸ named_ofValue h4) (evaluated_ok hc hn h2)
  have hval : v = toValue L.E (bodyToJson b') := by
    cases h3.unique (C63_document_partial (named_bodyAll hall))
    rfl
  rw [hb] at h2
  obtain ⟨pre', e', post', rfl, ⟨x, hx, rfl⟩, hp⟩ := shape_split h2
  have hpost' : ∀ s ∈ post', Spec.structName s ≠ k := by
    intro s hs
    have : Spec.structName s ∈ post.map Spec.structName := hp ▸ List.mem_map_of_mem hs
    obtain ⟨s0, hs0, he⟩ := List.mem_map.1 this
    exact he ▸ hpost s0 hs0
  obtain ⟨fs, g1, g2⟩ := toValue_attr L.E pre' post' k (ofValue x) hpost'
  exact ⟨fs, x, hval.trans g1, hx, by rw [g2, toValue_ofValue x (eval_wf hc hx)]⟩

/-- C84: any other type reads the object that the evaluated document stands for (C46, C47), and accepts exactly what
`ReadsE` describes. -/
theorem C84_typed (L : Tool.Lib) (ctx : Ctx) {t : Ty} (hu : UserTy t)
    (ho : ∀ u, t ≠ .option u) (hch : t ≠ .char) (hs : t ≠ .string) (hi : t ≠ .ident) (text : Str) (d : Datum) (doc : EBody)
    (hdoc : parseBody ⟨L.E.U, L.build⟩ text = .ok doc) (hc : CtxWF ctx) (hn : ValuesOk L.env ctx (toHclBody L.E doc)) :
    EvalReads L ctx t text d ↔
      ∃ b', Evaluated L.env ctx (toHclBody L.E doc) b' ∧ ReadsE L.E t (bodyToJson b') d := by
  have key : ∀ b', Evaluated L.env ctx (toHclBody L.E doc) b' →
      (Deserializes L.E t (.doc b') d ↔ ReadsE L.E t (bodyToJson b') d) := by
    intro b' h
    have hall : BodyAll Clean b' :=
      shape_bodyAll (fun _ _ ⟨v, _, h2, h3, h4⟩ => h2 ▸ ofValue_clean v h3 h4) (evaluated_ok hc hn h)
    have := clean_bodyToJson hall
    rw [C68_document hu ho hch hs hi, C68_expression hu this]
  rw [C84_reads]
  constructor
  · rintro ⟨doc', b', h1, h2, h3⟩
    rw [hdoc] at h1
    cases h1
    exact ⟨b', h2, (key b' h2).1 h3⟩
  · rintro ⟨b', h2, h3⟩
    exact ⟨doc, b', hdoc, h2, (key b' h2).2 h3⟩

private theorem field_of {E : FmtEnv} {es : List (ObjKey × Expr)} {k : Str} {x : Expr} {u : Ty}
    (hn : ∃ ks : List Str, ks.Nodup ∧ es.map Prod.fst = ks.map fun x => .expr (.string x))
    (hm : (ObjKey.expr (.string k), x) ∈ es) {ns : List Str} (hk : k ∈ ns) :
    ∀ {fs : List (Str × Ty)} {ds : List Datum} {i : Nat}, ReadsFieldsE E ns fs es ds → fs[i]? = some (k, u) →
      ∃ d, ds[i]? = some d ∧ ReadsE E u x d
  | _, _, 0, .found (k := k') (f := f) (e := e') h1 hd h2 _, h => by
    simp only [List.getElem?_cons_zero, Option.some.injEq, Prod.mk.injEq] at h
    obtain ⟨rfl, rfl⟩ := h
    obtain ⟨ks, hks, he⟩ := hn
    have hmem : k' ∈ es.map Prod.fst := List.mem_map_of_mem (f := Prod.fst) h1
    rw [he] at hmem
    obtain ⟨y, -, rfl⟩ := List.mem_map.1 hmem
    obtain ⟨rfl, -⟩ := denotes_string.1 hd
    have hnd : (es.map Prod.fst).Nodup := by
      rw [he]
      exact hks.map fun a b h => by cases h; rfl
    have : ((ObjKey.expr (.string y), e') : ObjKey × Expr) = (.expr (.string y), x) :=
      List.inj_on_of_nodup_map hnd h1 hm rfl
    injection this with _ this
    exact ⟨_, rfl, this ▸ h2⟩
  | _, _, 0, .missing h1 _, h => by
    simp only [List.getElem?_cons_zero, Option.some.injEq, Prod.mk.injEq] at h
    exact absurd (.text rfl (h.1 ▸ hk)) (h.1 ▸ h1 _ hm)
  | _, _, i + 1, .found _ _ _ h3, h => by
    rw [List.getElem?_cons_succ] at h ⊢
    exact field_of hn hm hk h3 h
  | _, _, i + 1, .missing _ h2, h => by
    rw [List.getElem?_cons_succ] at h ⊢
    exact field_of hn hm hk h2 h

/-- C84: an attribute `k = e` that no attribute or block of the same name follows gives the field `k` of a struct: what
the type of the field accepts from the value of `e`. -/
theorem C84_field (L : Tool.Lib) (ctx : Ctx) {n : Str} {fs : List (Str × Ty)} (hu : UserTy (.struct n fs)) (text : Str)
    (d : Datum) (pre post : List Struct) (k : Str) (e : Expr) (doc : EBody)
    (hdoc : parseBody ⟨L.E.U, L.build⟩ text = .ok doc) (hb : toHclBody L.E doc = pre ++ .attr k e :: post)
    (hpost : ∀ s ∈ post, Spec.structName s ≠ k) (hc : CtxWF ctx) (hn : ValuesOk L.env ctx (toHclBody L.E doc))
    (i : Nat) (u : Ty) (hi : fs[i]? = some (k, u)) (h : EvalReads L ctx (.struct n fs) text d) :
    ∃ ds x dk, d = .list ds ∧ eval L.env ctx e = .ok x ∧ ds[i]? = some dk ∧ ReadsE L.E u (ofValue x) dk := by
  obtain ⟨b', h2, h3⟩ := (C84_typed L ctx hu nofun nofun nofun nofun text d doc hdoc hc hn).1 h
  rw [hb] at h2
  obtain ⟨pre', e', post', rfl, ⟨x, hx, rfl⟩, hp⟩ := shape_split h2
  have hpost' : ∀ s ∈ post', Spec.structName s ≠ k := by
    intro s hs
    have : Spec.structName s ∈ post.map Spec.structName := hp ▸ List.mem_map_of_mem hs
    obtain ⟨s0, hs0, he⟩ := List.mem_map.1 this
    exact he ▸ hpost s0 hs0
  obtain ⟨es, g1, g2, g3⟩ := bodyToJson_attr pre' post' k (ofValue x) hpost'
  rw [g1] at h3
  cases h3 with
  | struct _ h3 =>
    obtain ⟨dk, h4, h5⟩ := field_of g2 g3 (List.mem_map_of_mem (f := Prod.fst) (List.mem_of_getElem? hi)) h3 hi
    exact ⟨_, x, dk, rfl, hx, h4, h5⟩
  | op hp => cases hp

/-- C84: a document in which all attributes are data is read as without evaluation, in every context. -/
theorem C84_data (L : Tool.Lib) (ctx : Ctx) (t : Ty) (text : Str) (d : Datum) (doc : EBody)
    (hdoc : parseBody ⟨L.E.U, L.build⟩ text = .ok doc)
    (hd : ∀ e ∈ attrsOf (toHclBody L.E doc), ∃ v : Value, v.WF ∧ e = ofValue v) :
    EvalReads L ctx t text d ↔ Deserializes L.E t (.doc (toHclBody L.E doc)) d := by
  have hev : Evaluated L.env ctx (toHclBody L.E doc) (toHclBody L.E doc) :=
    shape_mem _ _ (fun e e' he (h : e = e') => by
      obtain ⟨v, h1, h2⟩ := hd e he
      exact ⟨v, h2 ▸ eval_ofValue v h1, h ▸ h2⟩) (shape_refl _)
  have huniq : evalBody (evalRec L.env) ctx (toHclBody L.E doc) = .ok (toHclBody L.E doc) := evalBody_of_shape _ _ hev
  constructor
  · rintro ⟨doc', h1, b', h2, h3⟩
    rw [hdoc] at h1
    cases h1
    have h2 : evalBody (evalRec L.env) ctx (toHclBody L.E doc) = .ok b' := h2
    rw [huniq] at h2
    cases h2
    exact h3
  · intro h
    exact ⟨doc, hdoc, _, huniq, h⟩

/-- C84: what `eval::to_string` writes for a document is read as the evaluated document. Missing for the full claim:
values with numbers or strings that do not survive being written, see C13, C52 and `C84_write_fails`. -/
theorem C84_write_partial (L : Tool.Lib) (ctx : Ctx) (st : SerSt) (hst : StOk st) (text out : Str) (doc : EBody)
    (hdoc : parseBody ⟨L.E.U, L.build⟩ text = .ok doc) (hc : CtxWF ctx)
    (hs : ∀ e ∈ attrsOf (toHclBody L.E doc), ∀ v, eval L.env ctx e = .ok v → Writable L.E L.build v)
    (hl : LabelsSafe (toHclBody L.E doc)) (h : EvalWrites L ctx st (toHclBody L.E doc) out) :
    ∃ doc', parseBody ⟨L.E.U, L.build⟩ out = .ok doc' ∧ Evaluated L.env ctx (toHclBody L.E doc) (toHclBody L.E doc') := by
  obtain ⟨b', h1, ss, h2, rfl⟩ := h
  have h1 := evalBody_shape _ _ h1
  rw [(C58_body b' hst).1] at h2
  injection h2 with h2
  subst h2
  have h3 : SameShape (fun e e' => Printable L.E L.build .default false e') (toHclBody L.E doc) b' :=
    shape_mem _ _ (fun e _ he ⟨v, h4, h5⟩ => h5 ▸ writable_text rfl (eval_wf hc h4) (hs e he v h4)) h1
  obtain ⟨doc₀, h6, rfl⟩ := C17_body_partial ⟨L.E.U, L.build⟩ text doc hdoc
  have hp : PrintableBody L.E L.build .default false b' := Document.frame (fun _ _ h => h) h6 h3 hl
  obtain ⟨doc', h7, -, h8⟩ := C51_body_partial L.E L.build .default false
    (.blank (.inl rfl) (.blank (.inl rfl) .nil)) b' hp
  exact ⟨doc', h7, by rw [h8 L.E (Gram.printableStructs_noTemplate b' hp.2)]; exact h1⟩

/-- C84: so reading what was written gives the same as reading the original with evaluation, for every type. It does not
matter if this is done with or without evaluation, nor in which context. -/
theorem C84_roundtrip_partial (L : Tool.Lib) (ctx : Ctx) (st : SerSt) (hst : StOk st) (text out : Str) (doc : EBody)
    (hdoc : parseBody ⟨L.E.U, L.build⟩ text = .ok doc) (hc : CtxWF ctx)
    (hs : ∀ e ∈ attrsOf (toHclBody L.E doc), ∀ v, eval L.env ctx e = .ok v → Writable L.E L.build v)
    (hl : LabelsSafe (toHclBody L.E doc)) (h : EvalWrites L ctx st (toHclBody L.E doc) out) (t : Ty) (d : Datum) :
    ∃ doc', parseBody ⟨L.E.U, L.build⟩ out = .ok doc' ∧
      (EvalReads L ctx t text d ↔ Deserializes L.E t (.doc (toHclBody L.E doc')) d) ∧
      ∀ ctx', EvalReads L ctx t text d ↔ EvalReads L ctx' t out d := by
  obtain ⟨doc', h1, h2⟩ := C84_write_partial L ctx st hst text out doc hdoc hc hs hl h
  have huniq := evalBody_of_shape _ _ h2
  have key : EvalReads L ctx t text d ↔ Deserializes L.E t (.doc (toHclBody L.E doc')) d := by
    constructor
    · rintro ⟨doc₁, h3, b', h4, h5⟩
      rw [hdoc] at h3
      cases h3
      have h4 : evalBody (evalRec L.env) ctx (toHclBody L.E doc) = .ok b' := h4
      rw [huniq] at h4
      cases h4
      exact h5
    · intro h5
      exact ⟨doc, hdoc, _, huniq, h5⟩
  refine ⟨doc', h1, key, fun ctx' => key.trans (C84_data L ctx' t out d doc' h1 fun e he => ?_).symm⟩
  obtain ⟨e₀, v, h3, h4⟩ := shape_back h2 e he
  exact ⟨v, eval_wf hc h3, h4⟩

/-! ### The hypotheses hold -/

/-- What is read from a text. -/
private def content (text : Str) : Option (List Struct) :=
  match parseBody ⟨.ascii, .release⟩ text with
  | .ok b => some (toHclBody exLib.E b)
  | _ => none

private theorem content_some {text : Str} {ss : List Struct} (h : content text = some ss) :
    ∃ b, parseBody ⟨.ascii, .release⟩ text = .ok b ∧ toHclBody exLib.E b = ss := by
  unfold content at h
  split at h
  · rename_i b hb
    exact ⟨b, hb, Option.some.inj h⟩
  · cases h

private def exDoc : Str := c!"b \"l\" { a = x + 1 }\n"

private def exSum : Expr := .binary (.var c!"x") .plus (.number (.posInt 1))

private theorem exDoc_reads : content exDoc = some [.block c!"b" [.string c!"l"] [.attr c!"a" exSum]] := by
  have : (match content exDoc with
    | some [.block b [.string l] [.attr a (.binary (.var x) .plus (.number (.posInt n)))]] =>
      b == c!"b" && l == c!"l" && a == c!"a" && x == c!"x" && n == 1
    | _ => false) = true := by decide +kernel
  split at this
  · rename_i h
    rw [h]
    simp only [Bool.and_eq_true, beq_iff_eq] at this
    obtain ⟨⟨⟨⟨rfl, rfl⟩, rfl⟩, rfl⟩, rfl⟩ := this
    rfl
  · cases this

/-- A context in which `x` is 2. -/
private def exCtx : Ctx := Ctx.declareVar c!"x" (.number (.posInt 2)) Ctx.new

private theorem exCtx_wf : CtxWF exCtx := by
  refine ⟨fun y v h => ?_, fun n f h => by cases h⟩
  have : Ctx.var c!"x" exCtx = some (.number (.posInt 2)) := rfl
  unfold exCtx Ctx.declareVar Ctx.new Ctx.var at h
  simp only [Map.get?, Map.insert] at h
  split at h
  · rename_i w hw
    split at hw
    · injection hw with hw; injection h with h; rw [← h, ← hw]; trivial
    · cases hw
  · cases h

private theorem exSum_eval : eval exLib.env exCtx exSum = .ok (.number (.posInt 3)) := eval_of_evalF 3 rfl (by simp)

/-- `b "l" { a = x + 1 }` is read with `x = 2` like what is written for it, as a `struct S { b: map of maps of u8 }`. -/
theorem C84_example : ∃ doc, parseBody ⟨.ascii, .release⟩ exDoc = .ok doc ∧
    EvalWrites exLib exCtx .initial (toHclBody exLib.E doc) c!"b \"l\" {\n  a = 3\n}\n" ∧
    EvalReads exLib exCtx (.struct c!"S" [(c!"b", .map .string (.map .string (.uint 8)))]) exDoc
      (.list [.map [(.str c!"l", .map [(.str c!"a", .int 3)])]]) ∧
    ∀ ctx, EvalReads exLib ctx (.struct c!"S" [(c!"b", .map .string (.map .string (.uint 8)))])
      c!"b \"l\" {\n  a = 3\n}\n" (.list [.map [(.str c!"l", .map [(.str c!"a", .int 3)])]]) := by
  obtain ⟨doc, h1, h2⟩ := content_some exDoc_reads
  have hev : evalBody (evalRec exLib.env) exCtx (toHclBody exLib.E doc) =
      .ok [.block c!"b" [.string c!"l"] [.attr c!"a" (.number (.posInt 3))]] := by
    rw [h2]
    exact evalBody_of_shape _ _ (.cons (.block (.cons (.attr ⟨_, exSum_eval, rfl⟩) .nil)) .nil)
  have hw : EvalWrites exLib exCtx .initial (toHclBody exLib.E doc) c!"b \"l\" {\n  a = 3\n}\n" :=
    ⟨_, hev, _, (C58_body _ stOk_initial).1, by decide +kernel⟩
  have hr : EvalReads exLib exCtx (.struct c!"S" [(c!"b", .map .string (.map .string (.uint 8)))]) exDoc
      (.list [.map [(.str c!"l", .map [(.str c!"a", .int 3)])]]) := ⟨doc, h1, _, hev, 6, rfl⟩
  refine ⟨doc, h1, hw, hr, fun ctx => ?_⟩
  obtain ⟨_, -, -, h3⟩ := C84_roundtrip_partial exLib exCtx .initial stOk_initial exDoc _ doc h1 exCtx_wf (by
    rw [h2]
    intro e he v hv
    have : e = exSum := by simpa [attrsOf, attrsOfStruct] using he
    rw [this, exSum_eval] at hv
    cases hv
    show (3 : Nat) < 2 ^ 64
    omega) (by
    rw [h2]
    refine ⟨⟨fun s hs => ?_, trivial, trivial⟩, trivial⟩
    simp only [List.mem_cons, List.not_mem_nil, or_false, Label.string.injEq] at hs
    subst hs
    rintro a c d b h - - -
    have : '{' ∈ c!"l" := by rw [h]; simp
    exact absurd this (by decide)) hw _ _
  exact (h3 ctx).1 hr

/-! ### Where the full property fails -/

/-- A string with unusual markers is written, but what is written cannot be read. -/
theorem C84_write_fails : ∃ ctx out, EvalWrites exLib ctx .initial [.attr c!"a" (.var c!"x")] out ∧
    ∀ doc, parseBody ⟨.ascii, .release⟩ out ≠ .ok doc := by
  refine ⟨Ctx.declareVar c!"x" (.string c!"${$%{") Ctx.new, _, ⟨_, evalBody_of_shape (env := exLib.env)
    (b' := [.attr c!"a" (.string c!"${$%{")]) _
    (.cons (.attr ⟨.string c!"${$%{", eval_of_evalF 3 rfl (by simp), rfl⟩) .nil), _, (C58_body _ stOk_initial).1, rfl⟩, ?_⟩
  have : (match parseBody ⟨.ascii, .release⟩ (Fmt.body exLib.E [.attr c!"a" (.string c!"${$%{")] (Fmt.new .default)).out with
    | .ok _ => true
    | _ => false) = false := by decide +kernel
  intro doc h
  rw [h] at this
  cases this

private def injected : Str := c!"a = \"%%{%${y}\"\n"

private theorem injected_reads : content injected = some [.attr c!"a" (.template (.quoted c!"%%{%${y}"))] := by
  have : (match content injected with
    | some [.attr a (.template (.quoted t))] => a == c!"a" && t == c!"%%{%${y}"
    | _ => false) = true := by decide +kernel
  split at this
  · rename_i h
    rw [h]
    simp only [Bool.and_eq_true, beq_iff_eq] at this
    obtain ⟨rfl, rfl⟩ := this
    rfl
  · cases this

/-- Or it is read, and a part of the data is evaluated: with `x` the text `%{%${y}`, the document written for `a = x` has
the variable `y` in it, and reading it looks `y` up. -/
theorem C84_inject_fails : ∃ ctx ctx' out, EvalWrites exLib ctx .initial [.attr c!"a" (.var c!"x")] out ∧
    ctx.var c!"x" = some (.string c!"%{%${y}") ∧ ctx'.var c!"y" = some (.string c!"s") ∧
    EvalReads exLib ctx' .value out (.value (.object [(c!"a", .string c!"%{%s")])) := by
  refine ⟨Ctx.declareVar c!"x" (.string c!"%{%${y}") Ctx.new, Ctx.declareVar c!"y" (.string c!"s") Ctx.new, injected,
    ⟨_, evalBody_of_shape (env := exLib.env) (b' := [.attr c!"a" (.string c!"%{%${y}")]) _
    (.cons (.attr ⟨.string c!"%{%${y}", eval_of_evalF 3 rfl (by simp), rfl⟩) .nil), _, (C58_body _ stOk_initial).1, by
      decide +kernel⟩, rfl, rfl, ?_⟩
  obtain ⟨doc, h1, h2⟩ := content_some injected_reads
  have : (match (evalF exLib.env 6).expr (Ctx.declareVar c!"y" (.string c!"s") Ctx.new) (.template (.quoted c!"%%{%${y}")) with
    | .ok (.string t) => t == c!"%{%s"
    | _ => false) = true := by decide +kernel
  split at this
  · rename_i t h
    rw [beq_iff_eq] at this
    subst this
    refine ⟨doc, h1, [.attr c!"a" (.string c!"%{%s")], ?_, 5, rfl⟩
    rw [h2]
    exact evalBody_of_shape (env := exLib.env) _ _ (.cons (.attr ⟨.string c!"%{%s", eval_of_evalF 6 h (by simp), rfl⟩) .nil)
  · cases this

/-- Evaluation of an attribute that the type does not have fails all the same: `S { a: u8 }` is not read from
`a = 1`, `b = y` if there is no `y`, although it is without evaluation. -/
theorem C84_unused_fails : ∃ text t d, (∃ doc, parseBody ⟨.ascii, .release⟩ text = .ok doc ∧
    Deserializes exLib.E t (.doc (toHclBody exLib.E doc)) d) ∧ ¬ EvalReads exLib Ctx.new t text d := by
  have : (match content c!"a = 1\nb = y\n" with
    | some [.attr a (.number (.posInt n)), .attr b (.var y)] => a == c!"a" && n == 1 && b == c!"b" && y == c!"y"
    | _ => false) = true := by decide +kernel
  split at this
  · rename_i h
    simp only [Bool.and_eq_true, beq_iff_eq] at this
    obtain ⟨⟨⟨rfl, rfl⟩, rfl⟩, rfl⟩ := this
    obtain ⟨doc, h1, h2⟩ := content_some h
    refine ⟨c!"a = 1\nb = y\n", .struct c!"S" [(c!"a", .uint 8)], .list [.int 1], ⟨doc, h1, by rw [h2]; exact ⟨5, rfl⟩⟩, ?_⟩
    refine C84_fails exLib Ctx.new _ _ _ doc h1 (.var c!"y") (by rw [h2]; simp [attrsOf, attrsOfStruct]) fun v hv => ?_
    have : eval exLib.env Ctx.new (.var c!"y") = R.err (.undefinedVar c!"y") := eval_of_evalF 3 rfl (by simp [R.err])
    rw [this] at hv
    cases hv
  · cases this

end Verif.Props
