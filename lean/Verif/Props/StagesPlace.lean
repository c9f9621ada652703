import Verif.Lemmas.StagesPlace
import Verif.Props.Stages
/-!
C80: evaluation in place can be repeated. Once more it changes nothing and reports the same errors. After a first stage
with fewer names it gives what it gives on the original, with the same errors.
-/

namespace Verif.Props
open Spec

/-- C80: evaluating an expression in place that was evaluated in place before, with the same or fewer names, changes it
to what the original becomes and reports the same errors. Missing for the full claim: objects whose entries merge in
the first stage, see `C80_false`. -/
theorem C80_again_partial (env : Env) (c d : Ctx) (e e' : Expr) (errs : List EvalErr) (hc : CtxWF c)
    (hd : Extends c d) (hu : Unmerged env c e) (h : inPlace (evalRec env) c e = .ok (e', errs)) :
    inPlace (evalRec env) d e' = inPlace (evalRec env) d e := inPlace_again e c d e' errs hc hd hu h

/-- C80: with the same names, it changes nothing and reports the errors of the first time. -/
theorem C80_twice_partial (env : Env) (c : Ctx) (e e' : Expr) (errs : List EvalErr) (hc : CtxWF c)
    (hu : Unmerged env c e) (h : inPlace (evalRec env) c e = .ok (e', errs)) :
    inPlace (evalRec env) c e' = .ok (e', errs) :=
  (inPlace_again e c c e' errs hc ⟨fun _ _ h => h, fun _ _ h => h⟩ hu h).trans h

/-- C80: what in-place evaluation replaced without errors is final: no context changes it or reports an error. -/
theorem C80_done (env : Env) (c d : Ctx) (e e' : Expr) (hc : CtxWF c)
    (h : inPlace (evalRec env) c e = .ok (e', [])) : inPlace (evalRec env) d e' = .ok (e', []) := inPlace_done hc h d

/-- C80: the same for bodies. -/
theorem C80_again_body_partial (env : Env) (c d : Ctx) (b b' : List Struct) (errs : List EvalErr) (hc : CtxWF c)
    (hd : Extends c d) (hu : ∀ e ∈ attrsOf b, Unmerged env c e)
    (h : inPlaceBody (evalRec env) c b = .ok (b', errs)) :
    inPlaceBody (evalRec env) d b' = inPlaceBody (evalRec env) d b := inPlaceBody_again hc hd b b' errs hu h

theorem C80_twice_body_partial (env : Env) (c : Ctx) (b b' : List Struct) (errs : List EvalErr) (hc : CtxWF c)
    (hu : ∀ e ∈ attrsOf b, Unmerged env c e) (h : inPlaceBody (evalRec env) c b = .ok (b', errs)) :
    inPlaceBody (evalRec env) c b' = .ok (b', errs) :=
  (inPlaceBody_again hc ⟨fun _ _ h => h, fun _ _ h => h⟩ b b' errs hu h).trans h

/-- C80: the same for templates, with and without loops. -/
theorem C80_again_template_partial (env : Env) (c d : Ctx) (t t' : List Elem) (errs : List EvalErr) (hc : CtxWF c)
    (hd : Extends c d) (hu : UnmergedT env c t) (h : inPlaceTmpl (evalRec env) c t = .ok (t', errs)) :
    inPlaceTmpl (evalRec env) d t' = inPlaceTmpl (evalRec env) d t := inPlaceTmpl_again hc hd t t' errs hu h

theorem C80_twice_template_partial (env : Env) (c : Ctx) (t t' : List Elem) (errs : List EvalErr) (hc : CtxWF c)
    (hu : UnmergedT env c t) (h : inPlaceTmpl (evalRec env) c t = .ok (t', errs)) :
    inPlaceTmpl (evalRec env) c t' = .ok (t', errs) :=
  (inPlaceTmpl_again hc ⟨fun _ _ h => h, fun _ _ h => h⟩ t t' errs hu h).trans h

/-- C80 is false of the code: `{ "a" = x, ("a") = true }` with undefined `x` becomes `{ "a" = true }` and reports an
error, and the second time it reports none: the expression that failed is gone. -/
theorem C80_false : ∃ (env : Env) (c : Ctx) (e e' : Expr) (x : EvalErr), CtxWF c ∧
    inPlace (evalRec env) c e = .ok (e', [x]) ∧ inPlace (evalRec env) c e' = .ok (e', []) := by
  refine ⟨exEnv, Ctx.new, .object [(.expr (.string c!"a"), .var c!"x"), (.expr (.paren (.string c!"a")), .bool true)],
    .object [(.expr (.string c!"a"), .bool true)], .undefinedVar c!"x", ctxWF_new, ?_, ?_⟩
  · have h2 : (evalRec exEnv).expr Ctx.new.child (.paren (.string c!"a")) = .ok (.string c!"a") := by
      show eval exEnv Ctx.new.child (.paren (.string c!"a")) = _
      rw [eval_paren, eval_string]
    have h3 : (evalRec exEnv).expr Ctx.new.child (.var c!"x") = R.err (.undefinedVar c!"x") :=
      eval_of_evalF 5 rfl (by simp [R.err])
    simp only [inPlace, inPlaceEntries, inPlaceKey, R.bind, finishPlace, placed, h2, h3, R.err,
      ofValue, objInsert, ObjKey.beq, Expr.beq, decide_true, if_true, List.append_nil, List.nil_append]
  · exact inPlace_ofValue (.object [(c!"a", .bool true)]) (by simp [Value.WF, Value.WFObj]) _

/-! Concrete cases: `[x, -y]` with `x` known. -/

-- The hypotheses are met.
example : CtxWF exOuter ∧ Unmerged exEnv exOuter (.array [.var c!"x", .unary .neg (.var c!"y")]) := by
  refine ⟨ctxWF_outer, fun es h => ?_⟩
  cases h with
  | array hm h =>
    simp only [List.mem_cons, List.not_mem_nil, or_false] at hm
    rcases hm with rfl | rfl
    · cases h
    · cases h with | unary h => cases h
-- The first stage replaces `x` and reports `y`.
example : inPlace (evalRec exEnv) exOuter (.array [.var c!"x", .unary .neg (.var c!"y")]) =
    .ok (.array [.string c!"o", .unary .neg (.var c!"y")], [.undefinedVar c!"y"]) := by
  have h1 : (evalRec exEnv).expr exOuter.child (.var c!"x") = .ok (.string c!"o") :=
    eval_of_evalF 5 rfl (by simp)
  have h2 : (evalRec exEnv).expr exOuter.child.child (.var c!"y") = R.err (.undefinedVar c!"y") :=
    eval_of_evalF 5 rfl (by simp [R.err])
  simp only [inPlace, inPlaceList, R.bind, finishPlace, placed, h1, h2, R.err, ofValue, List.append_nil, List.nil_append]
example : UnmergedT exEnv exOuter
    [.forDir none c!"x" (.array [.var c!"x"]) [.interp (.var c!"x") .none] .none .none] := by
  refine ⟨⟨fun es h => ?_, fun es h => (by cases h), trivial⟩, trivial⟩
  cases h with
  | array hm h => simp only [List.mem_singleton] at hm; subst hm; cases h

end Verif.Props
