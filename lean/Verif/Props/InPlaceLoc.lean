import Verif.Lemmas.InPlaceLoc
/-! C78: which expressions the errors of evaluation in place name, and how it ends. -/

namespace Verif.Props
open Spec Gram

private theorem nice_of_reads {env : Env} {P : PEnv} {F : FmtEnv} (hr : ReadsTemplates env P F) : Nice env where
  nest := (C76_nesting env P F hr).1
  eval c e := by
    obtain ⟨d, h⟩ := C76_ends env P F hr e
    refine ⟨d, fun n hn => ?_⟩
    have := (evalF_agree env n).1 c e
    rwa [(h c.plain n hn).1] at this

private theorem sound_of_reads {env : Env} {P : PEnv} {F : FmtEnv} (hr : ReadsTemplates env P F) : Sound env := by
  intro c e f hf h
  rcases C76_outcome env P F hr c e with ⟨v, hv⟩ | ⟨k, hk⟩ | ⟨hp, hx⟩
  · rw [hv] at h; cases h
  · rw [hk] at h; cases h; exact absurd rfl (hf k)
  · rw [hp] at h; cases h; exact ⟨rfl, hx⟩

private theorem names_of_good {env : Env} {ctx : Ctx} {e : Expr} {k : EvalErr} {x : Option Expr}
    (h : GoodP env (.ofUser ctx) e k x) : NamesCause env ctx e k x := by
  rcases h with h | ⟨y, d, hy, hr, hev, hx⟩
  · exact .inl h
  · rw [LCtx.ofUser_plain] at hev
    rw [LCtx.ofUser_expr, LCtx.ofUser_plain] at hx
    right
    rcases hx with ⟨_, hx, hx'⟩ | ⟨p, p', d', hx, hp, hs, hyp⟩
    · exact absurd hx hx'
    · exact ⟨p, p', y, hx, hp, hy, hyp.imp id fun ⟨h1, h2⟩ => ⟨h1, h2.imp (·.1) id⟩, hr, ⟨d, hev⟩, d',
        hs.mono fun _ _ ⟨v, h1, _, h2⟩ => ⟨v, h1, h2⟩⟩

/-- From some depth of recursion on, the evaluation with expressions attached to its errors is the evaluation without
them, and each error names its cause. -/
private theorem located {α : Type} {Q : EvalErr → Option Expr → Prop} {l : Nat → LPlaced α} {r : Placed α}
    (h : Eventually fun n => LocatedP Q (l n) r) :
    ∃ depth, ∀ n, depth ≤ n → (∀ a errs, l n = .ok (a, errs) →
        r = .ok (a, errs.map Prod.fst) ∧ ∀ k x, (k, x) ∈ errs → Q k x) ∧
      ∀ a ks, r = .ok (a, ks) → ∃ errs, l n = .ok (a, errs) ∧ errs.map Prod.fst = ks := by
  obtain ⟨d, h⟩ := h
  refine ⟨d, fun n hn => ⟨fun a errs hl => ?_, fun a ks hr => ?_⟩⟩
  · have : LocatedP Q (l n) r := h n hn
    rw [hl] at this
    generalize r = r' at this
    cases this with
    | ok _ _ hq => exact ⟨rfl, fun k x hm => hq _ hm⟩
  · have : LocatedP Q (l n) r := h n hn
    rw [hr] at this
    generalize l n = r' at this
    cases this with
    | ok _ errs _ => exact ⟨errs, rfl, rfl⟩

/-- **C78** for evaluation in place, as far as the keys of the objects in the expression are uniform: every error
that is returned names its cause. Attaching the expressions changes nothing else. -/
theorem C78_errors_partial (env : Env) (P : PEnv) (F : FmtEnv) (hr : ReadsTemplates env P F) (ctx : Ctx)
    (hc : CtxWF ctx) (e : Expr) (hu : Uniform env ctx e) :
    ∃ depth, ∀ n, depth ≤ n →
      (∀ e' errs, Loc.inPlace (Loc.evalF env n) (.ofUser ctx) e = .ok (e', errs) →
        inPlace (evalRec env) ctx e = .ok (e', errs.map Prod.fst) ∧
        ∀ k x, (k, x) ∈ errs → NamesCause env ctx e k x) ∧
      ∀ e' ks, inPlace (evalRec env) ctx e = .ok (e', ks) →
        ∃ errs, Loc.inPlace (Loc.evalF env n) (.ofUser ctx) e = .ok (e', errs) ∧ errs.map Prod.fst = ks := by
  have hp := LCtx.ofUser_plain ctx
  have h := inPlace_agree (nice_of_reads hr) e (.ofUser ctx) (by rwa [hp]) (by rwa [hp])
  rw [hp] at h
  exact located (h.imp fun n h => h.mono fun _ _ => names_of_good)

/-- The same for a body: the cause lies in one of its attributes, those of nested blocks included. -/
theorem C78_errors_body_partial (env : Env) (P : PEnv) (F : FmtEnv) (hr : ReadsTemplates env P F) (ctx : Ctx)
    (hc : CtxWF ctx) (b : List Struct) (hu : ∀ e ∈ attrsOf b, Uniform env ctx e) :
    ∃ depth, ∀ n, depth ≤ n →
      (∀ b' errs, Loc.inPlaceBody (Loc.evalF env n) (.ofUser ctx) b = .ok (b', errs) →
        inPlaceBody (evalRec env) ctx b = .ok (b', errs.map Prod.fst) ∧
        ∀ k x, (k, x) ∈ errs → ∃ e ∈ attrsOf b, NamesCause env ctx e k x) ∧
      ∀ b' ks, inPlaceBody (evalRec env) ctx b = .ok (b', ks) →
        ∃ errs, Loc.inPlaceBody (Loc.evalF env n) (.ofUser ctx) b = .ok (b', errs) ∧ errs.map Prod.fst = ks := by
  have hp := LCtx.ofUser_plain ctx
  have h := inPlaceBody_agree (nice_of_reads hr) b (.ofUser ctx) (by rwa [hp]) (by rwa [hp])
  rw [hp] at h
  exact located (h.imp fun n h => h.mono fun _ _ ⟨q, hq, hg⟩ => ⟨q, hq, names_of_good hg⟩)

/-- The same for a template: the cause lies in one of its expressions. -/
theorem C78_errors_template_partial (env : Env) (P : PEnv) (F : FmtEnv) (hr : ReadsTemplates env P F) (ctx : Ctx)
    (hc : CtxWF ctx) (els : List Elem) (hu : ∀ e, InElems e els → Uniform env ctx e) :
    ∃ depth, ∀ n, depth ≤ n →
      (∀ els' errs, Loc.inPlaceTmpl (Loc.evalF env n) (.ofUser ctx) els = .ok (els', errs) →
        inPlaceTmpl (evalRec env) ctx els = .ok (els', errs.map Prod.fst) ∧
        ∀ k x, (k, x) ∈ errs → ∃ e, InElems e els ∧ NamesCause env ctx e k x) ∧
      ∀ els' ks, inPlaceTmpl (evalRec env) ctx els = .ok (els', ks) →
        ∃ errs, Loc.inPlaceTmpl (Loc.evalF env n) (.ofUser ctx) els = .ok (els', errs) ∧ errs.map Prod.fst = ks := by
  have hp := LCtx.ofUser_plain ctx
  have h := inPlaceTmpl_agree (nice_of_reads hr) els (.ofUser ctx) (by rwa [hp]) (by rwa [hp])
  rw [hp] at h
  exact located (h.imp fun n h => h.mono fun _ _ ⟨q, hq, hg⟩ => ⟨q, hq, names_of_good hg⟩)

/-! ### How it ends -/

private theorem ends {α : Type} {r : Placed α} {p : Prop} (h : ∀ f, r = .error f → f = .panic ∧ p) :
    (∃ x, r = .ok x) ∨ (r = .error .panic ∧ p) := by
  cases r with
  | ok x => exact .inl ⟨x, rfl⟩
  | error f =>
    obtain ⟨rfl, hp⟩ := h f rfl
    exact .inr ⟨rfl, hp⟩

/-- **C78** for evaluation in place, as far as the keys of the objects in the expression are uniform: it ends and
collects its errors, unless some operation on numbers in the expression panics. -/
theorem C78_ends_partial (env : Env) (P : PEnv) (F : FmtEnv) (hr : ReadsTemplates env P F) (ctx : Ctx)
    (hc : CtxWF ctx) (e : Expr) (hu : Uniform env ctx e) :
    (∃ r, inPlace (evalRec env) ctx e = .ok r) ∨
    (inPlace (evalRec env) ctx e = .error .panic ∧ ∃ x scopes, Spec.Part env x e ∧ Breaks env (scopes ++ ctx) x) :=
  ends fun f h => inPlace_fail (sound_of_reads hr) e ctx f hc hu h

/-- The same for a body. -/
theorem C78_ends_body_partial (env : Env) (P : PEnv) (F : FmtEnv) (hr : ReadsTemplates env P F) (ctx : Ctx)
    (hc : CtxWF ctx) (b : List Struct) (hu : ∀ e ∈ attrsOf b, Uniform env ctx e) :
    (∃ r, inPlaceBody (evalRec env) ctx b = .ok r) ∨
    (inPlaceBody (evalRec env) ctx b = .error .panic ∧
      ∃ e ∈ attrsOf b, ∃ x scopes, Spec.Part env x e ∧ Breaks env (scopes ++ ctx) x) :=
  ends fun f h => by
    obtain ⟨q, hq, h1, h2⟩ := inPlaceBody_fail (sound_of_reads hr) b ctx f hc hu h
    exact ⟨h1, q, hq, h2⟩

/-- The same for a template. -/
theorem C78_ends_template_partial (env : Env) (P : PEnv) (F : FmtEnv) (hr : ReadsTemplates env P F) (ctx : Ctx)
    (hc : CtxWF ctx) (els : List Elem) (hu : ∀ e, InElems e els → Uniform env ctx e) :
    (∃ r, inPlaceTmpl (evalRec env) ctx els = .ok r) ∨
    (inPlaceTmpl (evalRec env) ctx els = .error .panic ∧
      ∃ e, InElems e els ∧ ∃ x scopes, Spec.Part env x e ∧ Breaks env (scopes ++ ctx) x) :=
  ends fun f h => by
    obtain ⟨q, hq, h1, h2⟩ := inPlaceTmpl_fail (sound_of_reads hr) els ctx f hc hu h
    exact ⟨h1, q, hq, h2⟩

/-! ### Examples -/

private def envN : Env := ⟨.release, .ascii, fun _ => .error c!"no", fun _ => [], fun _ => []⟩

private theorem envN_reads : ReadsTemplates envN ⟨.ascii, .release⟩ ⟨.ascii, fun _ => []⟩ := by
  intro t els h; cases h

/-- `[a, -(1 + b), 2 + 3]` -/
private def manyErrors : Expr :=
  .array [.var c!"a", .unary .neg (.binary (.number (.posInt 1)) .plus (.var c!"b")),
    .binary (.number (.posInt 2)) .plus (.number (.posInt 3))]

/-- The hypotheses are met. -/
example : CtxWF .new ∧ Uniform envN .new manyErrors := by
  refine ⟨⟨fun x v h => (by cases h), fun n f h => (by cases h)⟩, ?_⟩
  intro es h
  simp only [manyErrors] at h
  cases h with
  | array hm h =>
    simp only [List.mem_cons, List.not_mem_nil, or_false] at hm
    rcases hm with rfl | rfl | rfl
    · cases h
    · cases h with | unary h => cases h with
      | left h => cases h
      | right h => cases h
    · cases h with
      | left h => cases h
      | right h => cases h

/-- Both errors are found, and each names the expression its cause stands in. What could be evaluated is. -/
example : (match Loc.inPlace (Loc.evalF envN 6) (.ofUser .new) manyErrors with
    | .ok (.array [.var _, .unary .neg (.binary _ .plus (.var _)), .number (.posInt 5)],
        [(.undefinedVar x, some (.array [.var _, _, .binary ..])), (.undefinedVar y, some (.binary _ .plus (.var _)))]) =>
      x == c!"a" && y == c!"b"
    | _ => false) = true := rfl

/-- An outermost expression is named with its operand evaluated. -/
example : (match Loc.inPlace (Loc.evalF envN 6) (.ofUser .new) (.unary .not (.binary (.number (.posInt 1)) .plus
      (.number (.posInt 2)))) with
    | .ok (.unary .not (.number (.posInt 3)), [(.unaryOp .not (.number (.posInt 3)), some (.unary .not (.number (.posInt 3))))]) =>
      true
    | _ => false) = true := rfl

end Verif.Props
