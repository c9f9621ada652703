import Verif.Lemmas.Stages
/-!
C79: evaluation can be done in stages. What evaluates with some names defined evaluates to the same with more. An
expression, body or template that was evaluated in place as far as some names allow evaluates, once more are defined, to
what the original evaluates to.
-/

namespace Verif.Props
open Spec

/-- C79: defining more names and functions does not change the value of what could be evaluated before. -/
theorem C79_more_names (env : Env) (c d : Ctx) (e : Expr) (v : Value) (hd : Extends c d)
    (h : eval env c e = .ok v) : eval env d e = .ok v := eval_extends hd h

/-- C79: nor the text of templates. -/
theorem C79_more_names_template (env : Env) (c d : Ctx) (els : List Elem) (a b : Strip) (t : Str) (hd : Extends c d)
    (h : evalTmpl env c els a b = .ok t) : evalTmpl env d els a b = .ok t := evalTmpl_extends hd h

/-- C79: an expression evaluated in place with some names, whatever errors that met, evaluates with more names to
what the original evaluates to, with the same error if it fails. Missing for the full claim: objects whose entries
merge when their keys are evaluated, see `C79_false`. -/
theorem C79_stages_partial (env : Env) (c d : Ctx) (e e' : Expr) (errs : List EvalErr) (hc : CtxWF c)
    (hd : Extends c d) (hu : Unmerged env c e) (h : inPlace (evalRec env) c e = .ok (e', errs)) :
    eval env d e' = eval env d e := inPlace_alike e c d e' errs hc hd hu h

/-- C79: so do expressions in which the keys of objects are distinct identifiers and strings. -/
theorem C79_stages_plain_partial (env : Env) (c d : Ctx) (e e' : Expr) (errs : List EvalErr) (hc : CtxWF c)
    (hd : Extends c d) (hu : ∀ es, Within e (.object es) → NamesOnce es)
    (h : inPlace (evalRec env) c e = .ok (e', errs)) : eval env d e' = eval env d e :=
  inPlace_alike e c d e' errs hc hd (unmerged_plain hu) h

/-- C79: so do bodies. -/
theorem C79_stages_body_partial (env : Env) (c d : Ctx) (b b' : List Struct) (errs : List EvalErr) (hc : CtxWF c)
    (hd : Extends c d) (hu : ∀ e ∈ attrsOf b, Unmerged env c e)
    (h : inPlaceBody (evalRec env) c b = .ok (b', errs)) :
    evalBody (evalRec env) d b' = evalBody (evalRec env) d b := by
  obtain ⟨ess, _, _, h3⟩ := inPlaceBody_shape b b' errs h
  refine evalBody_alike b b' (shape_mem b b' (fun e e' he hr => ?_) h3)
  obtain ⟨es, _, hr⟩ := hr
  exact inPlace_alike e c d e' es hc hd (hu e he) hr

/-- C79, C54: so do templates whose loop variables are not defined in the first stage. -/
theorem C79_stages_template_partial (env : Env) (c d : Ctx) (t t' : List Elem) (errs : List EvalErr) (hc : CtxWF c)
    (hd : Extends c d) (hu : LoopVarsUndefined env c t) (h : inPlaceTmpl (evalRec env) c t = .ok (t', errs)) :
    evalTmpl env d t' .none .none = evalTmpl env d t .none .none :=
  tmplAlike (inPlaceTmpl_alike hc t t' errs hu h) hd _ _

/-- `{ "a" = true, (x) = false, ("a") = null }` -/
def exStaged : Expr := .object
  [(.expr (.string c!"a"), .bool true), (.expr (.paren (.var c!"x")), .bool false),
    (.expr (.paren (.string c!"a")), .null)]

/-- `{ "a" = null, (x) = false }` -/
def exStaged' : Expr := .object
  [(.expr (.string c!"a"), .null), (.expr (.paren (.var c!"x")), .bool false)]

/-- C79 is false of the code: `{ "a" = true, (x) = false, ("a") = null }` becomes `{ "a" = null, (x) = false }` in
place if `x` is not defined, and that is `{ a = false }` once `x = "a"`, but the original is `{ a = null }` then. -/
theorem C79_false : ∃ (env : Env) (c d : Ctx) (e e' : Expr) (errs : List EvalErr) (v w : Value), CtxWF c ∧
    Extends c d ∧ inPlace (evalRec env) c e = .ok (e', errs) ∧ eval env d e' = .ok v ∧ eval env d e = .ok w ∧
      v.beq w = false := by
  refine ⟨exEnv, Ctx.new, Ctx.declareVar c!"x" (.string c!"a") Ctx.new, exStaged, exStaged',
    [.undefinedVar c!"x"], .object [(c!"a", .bool false)], .object [(c!"a", .null)], ctxWF_new,
    ⟨fun x v h => (by cases h), fun n f h => (by cases h)⟩, ?_, eval_of_evalF 6 rfl (by simp),
    eval_of_evalF 6 rfl (by simp), by decide⟩
  have h2 : (evalRec exEnv).expr Ctx.new.child (.paren (.string c!"a")) = .ok (.string c!"a") := by
    show eval exEnv Ctx.new.child (.paren (.string c!"a")) = _
    rw [eval_paren, eval_string]
  have h3 : (evalRec exEnv).expr Ctx.new.child.child (.var c!"x") = R.err (.undefinedVar c!"x") :=
    eval_of_evalF 5 rfl (by simp [R.err])
  simp only [exStaged, exStaged', inPlace, inPlaceEntries, inPlaceKey, R.bind, finishPlace, placed, h2, h3, R.err,
    ofValue, objInsert, ObjKey.beq, Expr.beq, Bool.false_eq_true, if_false, decide_true, if_true,
    List.append_nil, List.nil_append]

/-! Concrete cases. -/

/-- `{ k = [x, y] }` -/
private def twoNames : Expr := .object [(.ident c!"k", .array [.var c!"x", .var c!"y"])]

-- The hypotheses are met: `x` is known first, `y` later.
example : CtxWF exOuter ∧ Extends exOuter (exOuter.declareVar c!"y" .null) := by
  refine ⟨ctxWF_outer, fun x v h => ?_, fun n f h => by
    simp [exOuter, Ctx.declareVar, Ctx.new, Ctx.func, Map.get?] at h⟩
  rw [exOuter, Ctx.declareVar_var] at h
  split at h
  · rename_i hx
    injection h with h
    subst hx h
    rfl
  · cases h
example : ∀ es, Within twoNames (.object es) → NamesOnce es := by
  intro es h
  cases h with
  | self => exact ⟨fun p hp => by simp at hp; exact .inl ⟨_, by rw [hp]⟩, by simp⟩
  | key hm _ => simp at hm
  | value hm h =>
    simp only [List.mem_singleton, Prod.mk.injEq] at hm
    rw [hm.2] at h
    cases h with
    | array hm h =>
      simp only [List.mem_cons, List.not_mem_nil, or_false] at hm
      rcases hm with rfl | rfl <;> cases h
-- In place, the first name is replaced and the second reported.
example : inPlace (evalRec exEnv) exOuter twoNames =
    .ok (.object [(.ident c!"k", .array [.string c!"o", .var c!"y"])], [.undefinedVar c!"y"]) := by
  have h1 : (evalRec exEnv).expr exOuter.child.child (.var c!"x") = .ok (.string c!"o") :=
    eval_of_evalF 5 rfl (by simp)
  have h2 : (evalRec exEnv).expr exOuter.child.child (.var c!"y") = R.err (.undefinedVar c!"y") :=
    eval_of_evalF 5 rfl (by simp [R.err])
  simp only [twoNames, inPlace, inPlaceEntries, inPlaceList, inPlaceKey, R.bind, finishPlace, placed, h1, h2, R.err,
    ofValue, objInsert, List.append_nil, List.nil_append]
-- A template that uses its loop variable.
example : LoopVarsUndefined exEnv exOuter
    [.forDir none c!"y" (.array [.var c!"x"]) [.interp (.var c!"y") .none] .none .none] := by
  refine ⟨⟨fun es h => ?_, ⟨fun es h => (by cases h), trivial⟩, rfl, fun _ h => (by cases h)⟩, trivial⟩
  cases h with
  | array hm h => simp only [List.mem_singleton] at hm; subst hm; cases h

end Verif.Props
