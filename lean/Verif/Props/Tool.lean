import Verif.Lemmas.Tool
/-!
C81: what `hcl2json` writes. One input gives its value, several give all of theirs in the order of the arguments and
walks, however the files are processed. `--simplify` writes the value of what can be evaluated and keeps the meaning of
the rest.
-/

namespace Verif.Props
open Spec Tool Bulk

/-- C81: without arguments, or with the argument `-`, the value of the standard input is written. -/
theorem C81_stdin (L : Lib) (w : World) (a : Args) (es : List Event) (h : a.paths = [] ∨ a.paths = [c!"-"]) (v : Value) :
    run L w a es = some (.ok v) ↔ ∃ t, w.stdin = some t ∧ Reads L a.simplify t v := by
  rw [← readHcl_ok]
  rcases h with h | h <;> simp [run, h]

/-- C81: with one file as the argument, its value is written. -/
theorem C81_single (L : Lib) (w : World) (a : Args) (es : List Event) (p : Str) (hp : a.paths = [p]) (hs : p ≠ c!"-")
    (hd : w.isDir p = false) (v : Value) : run L w a es = some (.ok v) ↔ FileIs L w a p v := by
  rw [FileIs, ← readHcl_ok]
  simp [run, hp, hs, hd]

/-- Several arguments, or one that is a directory. -/
def Many (w : World) (a : Args) : Prop := 2 ≤ a.paths.length ∨ ∃ p, a.paths = [p] ∧ p ≠ c!"-" ∧ w.isDir p = true

theorem run_many {L : Lib} {w : World} {a : Args} {es : List Event} (h : Many w a) :
    run L w a es = match gather w a a.paths [] with
      | .ok paths => bulkConvert L w a paths es
      | .error e => some (.error e) := by
  rcases h with h | ⟨p, hp, hs, hd⟩
  · unfold run
    cases hp : a.paths with
    | nil => simp [hp] at h
    | cons p ps => cases ps with
      | nil => simp [hp] at h
      | cons q qs => rfl
  · simp only [run, hp, if_neg hs, hd, if_true]
    rfl

/-- C81: with several arguments the tool writes the values of all files they stand for, in order, as an array or as an
object with the paths as keys, if it succeeds; it only succeeds if every file can be read as HCL and every directory
walked to the end. -/
theorem C81_all (L : Lib) (w : World) (a : Args) (es : List Event) (hm : Many w a) (hc : a.continueOnError = false)
    (hes : Complete (a.paths.flatMap (filesOf w a)).length es) (out : Value)
    (h : run L w a es = some (.ok out)) :
    Globs w a ∧ (∀ p ∈ a.paths, w.isDir p = true → Walks w p) ∧
    ∃ vs, List.Forall₂ (FileIs L w a) (a.paths.flatMap (filesOf w a)) vs ∧
      out = if a.filePaths then .object (Map.collect ((a.paths.flatMap (filesOf w a)).zip vs)) else .array vs := by
  rw [run_many hm] at h
  cases hg : gather w a a.paths [] with
  | error e => rw [hg] at h; cases h
  | ok paths =>
    rw [hg] at h
    obtain ⟨h1, h2, h3⟩ := gather_ok _ _ _ hg
    rw [List.nil_append] at h1
    subst h1
    refine ⟨h3, h2 hc, ?_⟩
    generalize a.paths.flatMap (filesOf w a) = fs at h hes
    simp only [bulkConvert, hc] at h
    cases hb : bulk false (processFile L w a) fs es with
    | none => simp [hb] at h
    | some r =>
      simp only [hb, Option.map_some, Option.some.injEq] at h
      cases r with
      | error e => cases h
      | ok rs =>
        cases h
        have hr := ((C50_all_or_error _ _ _ hes _ hb).1 rs).1 rfl
        have key : ∀ (fs : List Str) (rs : List (Str × Value)), fs.map (processFile L w a) = rs.map .ok →
            List.Forall₂ (FileIs L w a) fs (rs.map Prod.snd) ∧ fs.zip (rs.map Prod.snd) = rs := by
          intro fs
          induction fs with
          | nil => intro rs h; cases rs with
            | nil => exact ⟨.nil, rfl⟩
            | cons => simp at h
          | cons p fs ih => intro rs h; cases rs with
            | nil => simp at h
            | cons r rs =>
              simp only [List.map_cons, List.cons.injEq] at h
              obtain ⟨i1, i2⟩ := ih rs h.2
              obtain ⟨j1, j2⟩ := processFile_ok.1 h.1
              refine ⟨.cons j2 i1, ?_⟩
              simp only [List.map_cons, List.zip_cons_cons, i2, ← j1]
        obtain ⟨k1, k2⟩ := key fs rs hr
        exact ⟨_, k1, by rw [output, k2]⟩

/-- C81: conversely, if all of them can be read and walked, it succeeds for every schedule that can occur. -/
theorem C81_succeeds (L : Lib) (w : World) (a : Args) (es : List Event) (hm : Many w a) (hc : a.continueOnError = false)
    (hes : Complete (a.paths.flatMap (filesOf w a)).length es) (hg : Globs w a)
    (hw : ∀ p ∈ a.paths, w.isDir p = true → Walks w p)
    (hf : ∀ p ∈ a.paths.flatMap (filesOf w a), ∃ v, FileIs L w a p v) (r : Except Fault Value)
    (h : run L w a es = some r) : ∃ out, r = .ok out := by
  rw [run_many hm] at h
  obtain ⟨paths, hp⟩ := gather_total (w := w) (a := a) a.paths [] hg (.inr hw)
  rw [hp] at h
  have h1 := (gather_ok _ _ _ hp).1
  rw [List.nil_append] at h1
  subst h1
  simp only [bulkConvert, hc] at h
  cases hb : bulk false (processFile L w a) (a.paths.flatMap (filesOf w a)) es with
  | none => simp [hb] at h
  | some q =>
    simp only [hb, Option.map_some, Option.some.injEq] at h
    subst h
    cases q with
    | ok rs => exact ⟨_, rfl⟩
    | error e =>
      obtain ⟨p, hpm, he⟩ := (C50_all_or_error _ _ _ hes _ hb).2 e rfl
      obtain ⟨v, hv⟩ := hf p hpm
      rw [processFile_ok (r := (p, v)) |>.2 ⟨rfl, hv⟩] at he
      cases he

/-- C81: with `--continue-on-error` it succeeds whatever the files are, if the patterns are valid, and writes the values
of exactly the files that can be read as HCL, in order. -/
theorem C81_continue (L : Lib) (w : World) (a : Args) (es : List Event) (hm : Many w a) (hc : a.continueOnError = true)
    (hes : Complete (a.paths.flatMap (filesOf w a)).length es) (hg : Globs w a) (r : Except Fault Value)
    (h : run L w a es = some r) :
    ∃ f : Str → Option Value, (∀ p v, f p = some v ↔ FileIs L w a p v) ∧
      r = .ok (output a.filePaths ((a.paths.flatMap (filesOf w a)).filterMap fun p => (f p).map (Prod.mk p))) := by
  rw [run_many hm] at h
  obtain ⟨paths, hp⟩ := gather_total (w := w) (a := a) a.paths [] hg (.inl hc)
  rw [hp] at h
  have h1 := (gather_ok _ _ _ hp).1
  rw [List.nil_append] at h1
  subst h1
  simp only [bulkConvert, hc] at h
  cases hb : bulk true (processFile L w a) (a.paths.flatMap (filesOf w a)) es with
  | none => simp [hb] at h
  | some q =>
    simp only [hb, Option.map_some, Option.some.injEq] at h
    subst h
    have hq := C50_continue_on_error _ _ _ hes _ hb
    subst hq
    refine ⟨fun p => match processFile L w a p with | .ok r => some r.2 | .error _ => none, fun p v => ?_, ?_⟩
    · beta_reduce
      cases hr : processFile L w a p with
      | ok r =>
        obtain ⟨j1, j2⟩ := processFile_ok.1 hr
        simp only [Option.some.injEq]
        constructor
        · rintro rfl; exact j2
        · intro hv
          rw [(processFile_ok (r := (p, v))).2 ⟨rfl, hv⟩] at hr
          cases hr; rfl
      | error e =>
        simp only [reduceCtorEq, false_iff]
        intro hv
        rw [(processFile_ok (r := (p, v))).2 ⟨rfl, hv⟩] at hr
        cases hr
    · have : ∀ fs : List Str, okResults (processFile L w a) fs = fs.filterMap fun p =>
          (match processFile L w a p with | .ok r => some r.2 | .error _ => none).map (Prod.mk p) := by
        intro fs
        induction fs with
        | nil => rfl
        | cons p fs ih =>
          rw [List.filterMap_cons, ← ih]
          cases hr : processFile L w a p with
          | ok r =>
            obtain ⟨j1, j2⟩ := processFile_ok.1 hr
            subst j1
            simp only [okResults, hr, Option.map_some]
          | error e => simp only [okResults, hr, Option.map_none]
      rw [← this]

/-- C81: a directory without a pattern or with one that is not valid makes the tool fail, also with
`--continue-on-error`. -/
theorem C81_patterns (L : Lib) (w : World) (a : Args) (es : List Event) (hm : Many w a) (out : Value)
    (h : run L w a es = some (.ok out)) : Globs w a := by
  rw [run_many hm] at h
  cases hg : gather w a a.paths [] with
  | error e => rw [hg] at h; cases h
  | ok paths => exact (gather_ok _ _ _ hg).2.2

/-- C81: what `--simplify` does to an attribute `k = e` of a document that no attribute or block of the same name
follows. Under `k` stands the value of an expression that means the same in every context. It is the value of `e` itself
if `e` can be evaluated in place without variables. Missing for the full claim: objects with keys that merge (C44, C79),
and keys of objects that are no names (C63). -/
theorem C81_simplify_partial (L : Lib) (text : Str) (v : Value) (pre post : List Struct) (k : Str) (e : Expr)
    (doc : EBody) (hdoc : parseBody ⟨L.E.U, L.build⟩ text = .ok doc)
    (hb : toHclBody L.E doc = pre ++ .attr k e :: post) (hpost : ∀ s ∈ post, structName s ≠ k)
    (hnamed : ∀ b' errs, inPlaceBody (evalRec L.env) Ctx.new (toHclBody L.E doc) = .ok (b', errs) → NamedBody b')
    (hmerge : Unmerged L.env Ctx.new e) (hu : Uniform L.env Ctx.new e) (h : Reads L true text v) :
    ∃ fs e', v = .object fs ∧ Map.get? k fs = some (toValue L.E e') ∧ (∀ d, eval L.env d e' = eval L.env d e) ∧
      ((∃ e2, inPlace (evalRec L.env) Ctx.new e = .ok (e2, [])) →
        ∃ x, eval L.env Ctx.new e = .ok x ∧ Map.get? k fs = some x) := by
  obtain ⟨b, hb', h⟩ := h
  rw [hdoc] at hb'
  cases hb'
  simp only [if_true] at h
  obtain ⟨b', errs, hp, hdes⟩ := h
  have hn := hnamed b' errs hp
  have hval : v = toValue L.E (bodyToJson b') := by
    cases hdes.unique (C63_document_partial hn)
    rfl
  rw [hb] at hp
  obtain ⟨pre', e', post', es, rfl, h1, _, h3⟩ := inPlaceBody_split pre post b' errs k e hp
  have hpost' : ∀ s ∈ post', structName s ≠ k := by
    intro s hs
    have : structName s ∈ post.map structName := h3 ▸ List.mem_map_of_mem hs
    obtain ⟨s0, hs0, he⟩ := List.mem_map.1 this
    exact he ▸ hpost s0 hs0
  obtain ⟨fs, g1, g2⟩ := toValue_attr L.E pre' post' k e' hpost'
  refine ⟨fs, e', hval.trans g1, g2, fun d => ?_, fun ⟨e2, h2⟩ => ?_⟩
  · exact inPlace_alike e Ctx.new d e' es ctxWF_new ⟨fun _ _ h => (by cases h), fun _ _ h => (by cases h)⟩ hmerge h1
  · have h1' : inPlace (evalRec L.env) Ctx.new e = .ok (e', es) := h1
    rw [h2] at h1'
    cases h1'
    obtain ⟨x, hx, hx'⟩ := C44_expression_partial L.env Ctx.new e e' ctxWF_new hu h2
    exact ⟨x, hx, by rw [g2, hx', toValue_ofValue x (eval_wf ctxWF_new hx)]⟩

/-! Concrete cases. -/

/-- The model of the crates' own parser in place of every external function. -/
def exLib : Lib where
  E := ⟨.ascii, fun _ => []⟩
  build := .release
  env := ⟨.release, .ascii,
    fun t => match parseTemplate ⟨.ascii, .release⟩ t with
      | .ok els => .ok (toHclElems ⟨.ascii, fun _ => []⟩ els)
      | _ => .error [], fun _ => [], fun _ => []⟩

/-- The document of a text, if it is a single attribute. -/
private def soleAttr (text : Str) : Option (Str × Expr) :=
  match parseBody ⟨.ascii, .release⟩ text with
  | .ok b => match toHclBody exLib.E b with
    | [.attr k e] => some (k, e)
    | _ => none
  | _ => none

private theorem soleAttr_some {text : Str} {k : Str} {e : Expr} (h : soleAttr text = some (k, e)) :
    ∃ b, parseBody ⟨.ascii, .release⟩ text = .ok b ∧ toHclBody exLib.E b = [.attr k e] := by
  unfold soleAttr at h
  split at h
  · rename_i b hb
    refine ⟨b, hb, ?_⟩
    split at h
    · rename_i hs
      cases h
      exact hs
    · cases h
  · cases h

private theorem reads_escaped : soleAttr c!"a = \"$${x}\"\n" = some (c!"a", .string c!"${x}") := by
  have : (match soleAttr c!"a = \"$${x}\"\n" with
    | some (k, .string s) => k == c!"a" && s == c!"${x}"
    | _ => false) = true := by decide +kernel
  split at this
  · rename_i h
    rw [h]
    simp only [Bool.and_eq_true, beq_iff_eq] at this
    rw [this.1, this.2]
  · cases this

private theorem reads_variable : soleAttr c!"a = x\n" = some (c!"a", .var c!"x") := by
  have : (match soleAttr c!"a = x\n" with
    | some (k, .var s) => k == c!"a" && s == c!"x"
    | _ => false) = true := by decide +kernel
  split at this
  · rename_i h
    rw [h]
    simp only [Bool.and_eq_true, beq_iff_eq] at this
    rw [this.1, this.2]
  · cases this

private theorem reads_sum : soleAttr c!"a = 1 + 2\n" =
    some (c!"a", .binary (.number (.posInt 1)) .plus (.number (.posInt 2))) := by
  have : (match soleAttr c!"a = 1 + 2\n" with
    | some (k, .binary (.number (.posInt m)) .plus (.number (.posInt n))) => k == c!"a" && m == 1 && n == 2
    | _ => false) = true := by decide +kernel
  split at this
  · rename_i h
    rw [h]
    simp only [Bool.and_eq_true, beq_iff_eq] at this
    rw [this.1.1, this.1.2, this.2]
  · cases this

private theorem place_sum : inPlace (evalRec exLib.env) Ctx.new
    (.binary (.number (.posInt 1)) .plus (.number (.posInt 2))) = .ok (.number (.posInt 3), []) := by
  have h : (evalRec exLib.env).expr Ctx.new (.binary (.number (.posInt 1)) .plus (.number (.posInt 2))) =
    .ok (.number (.posInt 3)) := eval_of_evalF 3 rfl (by simp)
  simp only [inPlace, R.bind, List.append_nil, finishPlace, h, placed, ofValue]

private theorem place_body {k : Str} {e e' : Expr} {es : List EvalErr}
    (h : inPlace (evalRec exLib.env) Ctx.new e = .ok (e', es)) :
    inPlaceBody ⟨eval exLib.env, evalTmpl exLib.env⟩ Ctx.new [.attr k e] = .ok ([.attr k e'], es) := by
  have h' : inPlace ⟨eval exLib.env, evalTmpl exLib.env⟩ Ctx.new e = .ok (e', es) := h
  simp only [inPlaceBody, inPlaceStruct, h', R.bind, List.append_nil]

/-- `a = 1 + 2` is written as `{"a":3}` with `--simplify`. -/
theorem C81_example : Reads exLib true c!"a = 1 + 2\n" (.object [(c!"a", .number (.posInt 3))]) := by
  obtain ⟨b, h1, h2⟩ := soleAttr_some reads_sum
  refine ⟨b, h1, ?_⟩
  simp only [if_true, h2]
  exact ⟨_, _, place_body place_sum, 5, rfl⟩

/-- And as `{"a":"${1 + 2}"}` without. -/
theorem C81_example_plain : Reads exLib false c!"a = 1 + 2\n" (.object [(c!"a", .string c!"${1 + 2}")]) := by
  obtain ⟨b, h1, h2⟩ := soleAttr_some reads_sum
  refine ⟨b, h1, ?_⟩
  simp only [Bool.false_eq_true, if_false, h2]
  exact ⟨5, rfl⟩

/-- The JSON does not tell a variable from a text: `a = x` and `a = "$${x}"` are both written as `{"a":"${x}"}`, with
and without `--simplify`. -/
theorem C81_ambiguous : ∀ simplify, ∃ v, Reads exLib simplify c!"a = x\n" v ∧
    Reads exLib simplify c!"a = \"$${x}\"\n" v := by
  intro simplify
  obtain ⟨b, h1, h2⟩ := soleAttr_some reads_variable
  obtain ⟨b', h1', h2'⟩ := soleAttr_some reads_escaped
  refine ⟨.object [(c!"a", .string c!"${x}")], ⟨b, h1, ?_⟩, ⟨b', h1', ?_⟩⟩
  · have hx : inPlace (evalRec exLib.env) Ctx.new (.var c!"x") = .ok (.var c!"x", [.undefinedVar c!"x"]) := by
      have h : (evalRec exLib.env).expr Ctx.new (.var c!"x") = R.err (.undefinedVar c!"x") :=
        eval_of_evalF 3 rfl (by simp [R.err])
      simp only [inPlace, finishPlace, h, R.err, placed]
    cases simplify
    · simp only [Bool.false_eq_true, if_false, h2]
      exact ⟨5, rfl⟩
    · simp only [if_true, h2]
      exact ⟨_, _, place_body hx, 5, rfl⟩
  · cases simplify
    · simp only [Bool.false_eq_true, if_false, h2']
      exact ⟨5, rfl⟩
    · simp only [if_true, h2']
      exact ⟨_, _, place_body rfl, 5, rfl⟩

/-- A directory `d` with the file `d/a` and an entry that cannot be read after it. -/
def exWorld : World where
  isDir p := p == c!"d"
  file _ := some c!"a = 1 + 2\n"
  stdin := none
  matcher _ _ := some fun _ => true
  walk _ := [some (c!"d", false), some (c!"d/a", true), none, some (c!"d/b", true)]

/-- With `--continue-on-error` a directory that cannot be walked to the end is reported as ignored, but the files found
before are converted. -/
theorem C81_not_ignored : ∃ (a : Args) (es : List Event), a.paths = [c!"d"] ∧ ¬ Walks exWorld c!"d" ∧
    Complete (a.paths.flatMap (filesOf exWorld a)).length es ∧
    run exLib exWorld a es = some (.ok (.array [.object [(c!"a", .number (.posInt 3))]])) := by
  refine ⟨⟨some c!"*", false, true, true, [c!"d"]⟩, [.process 0], rfl, by simp [Walks, exWorld], ?_, ?_⟩
  · intro i hi
    have : i < 1 := hi
    exact .inl (by simp; omega)
  · have hf : processFile exLib exWorld ⟨some c!"*", false, true, true, [c!"d"]⟩ c!"d/a" =
        .ok (c!"d/a", .object [(c!"a", .number (.posInt 3))]) :=
      processFile_ok.2 ⟨rfl, c!"a = 1 + 2\n", rfl, C81_example⟩
    rw [run_many (.inr ⟨c!"d", rfl, by decide, rfl⟩)]
    have hg : gather exWorld ⟨some c!"*", false, true, true, [c!"d"]⟩ [c!"d"] [] = .ok [c!"d/a"] := by rfl
    rw [hg]
    simp only [bulkConvert, bulk, if_true, runEvents, stepFilter, List.getElem?_cons_zero, hf, Option.map_some,
      State.collect, List.length_cons, List.length_nil]
    rfl

-- `C81_all`, `C81_succeeds` and `C81_continue`: two files, both can be read.
example : Many exWorld ⟨none, false, false, true, [c!"x", c!"y"]⟩ ∧ Globs exWorld ⟨none, false, false, true, [c!"x", c!"y"]⟩ ∧
    (∀ p ∈ [c!"x", c!"y"], exWorld.isDir p = true → Walks exWorld p) ∧
    ∀ p ∈ [c!"x", c!"y"].flatMap (filesOf exWorld ⟨none, false, false, true, [c!"x", c!"y"]⟩),
      ∃ v, FileIs exLib exWorld ⟨none, false, false, true, [c!"x", c!"y"]⟩ p v := by
  refine ⟨.inl (by simp), fun p hp hd => ?_, fun p hp hd => ?_, fun p _ => ⟨_, _, rfl, C81_example⟩⟩ <;>
    · simp only [List.mem_cons, List.not_mem_nil, or_false] at hp
      rcases hp with rfl | rfl <;> exact absurd hd (by decide)

-- `C81_simplify_partial`: the attribute of `a = 1 + 2`.
example : ∃ doc, parseBody ⟨.ascii, .release⟩ c!"a = 1 + 2\n" = .ok doc ∧
    toHclBody exLib.E doc = [] ++ .attr c!"a" (.binary (.number (.posInt 1)) .plus (.number (.posInt 2))) :: [] ∧
    (∀ b' errs, inPlaceBody (evalRec exLib.env) Ctx.new (toHclBody exLib.E doc) = .ok (b', errs) → NamedBody b') ∧
    Unmerged exLib.env Ctx.new (.binary (.number (.posInt 1)) .plus (.number (.posInt 2))) ∧
    Uniform exLib.env Ctx.new (.binary (.number (.posInt 1)) .plus (.number (.posInt 2))) := by
  obtain ⟨b, h1, h2⟩ := soleAttr_some reads_sum
  refine ⟨b, h1, h2, fun b' errs h => ?_, fun es h => ?_, fun es h => ?_⟩
  · rw [h2] at h
    have := (place_body (k := c!"a") place_sum).symm.trans h
    cases this
    exact ⟨by simp [NamedStruct, Named, WellFormed], trivial⟩
  · cases h with
    | left h => cases h
    | right h => cases h
  · cases h with
    | left h => cases h
    | right h => cases h

end Verif.Props
