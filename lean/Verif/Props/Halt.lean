import Verif.Lemmas.Light
import Verif.Props.Parse
/-! C76: evaluation ends, and panics only where the arithmetic of numbers panics. -/

namespace Verif.Props
open Spec Gram

/-- **C76**: the evaluation of an expression ends. The depth of its recursion is bounded by a number that
depends on the expression alone, not on the variables and functions in scope, although templates are parsed
while they are evaluated and may contain further templates. -/
theorem C76_ends (env : Env) (P : PEnv) (F : FmtEnv) (hr : ReadsTemplates env P F) (e : Expr) :
    ∃ depth, ∀ ctx n, depth ≤ n → (evalF env n).expr ctx e = eval env ctx e ∧ eval env ctx e ≠ .error .timeout := by
  obtain ⟨d, h⟩ := ends_of_acc (acc_reads hr e)
  refine ⟨d, fun ctx n hn => ?_⟩
  have := eval_of_ends (h.mono hn) ctx
  exact ⟨this.1.symm, this.2⟩

/-- **C76** for templates, parsed or built. -/
theorem C76_template_ends (env : Env) (P : PEnv) (F : FmtEnv) (hr : ReadsTemplates env P F) (els : List Elem) :
    ∃ depth, ∀ ctx prev next n, depth ≤ n →
      (evalF env n).tmpl ctx els prev next = evalTmpl env ctx els prev next ∧
      evalTmpl env ctx els prev next ≠ .error .timeout := by
  obtain ⟨d, h, _⟩ := elems_ends els fun x _ => ends_of_acc (acc_reads hr x)
  refine ⟨d, fun ctx p q n hn => ?_⟩
  have := evalTmpl_of_ends (h.mono hn) ctx p q
  exact ⟨this.1.symm, this.2⟩

/-- **C76**: the evaluation of an expression yields a value or an error, unless some operation on numbers in it
panics: a part of the expression is a negation or an operation whose operands evaluate to numbers, in the scope
it stands in, and the arithmetic panics on these numbers. -/
theorem C76_outcome (env : Env) (P : PEnv) (F : FmtEnv) (hr : ReadsTemplates env P F) (ctx : Ctx) (e : Expr) :
    (∃ v, eval env ctx e = .ok v) ∨ (∃ k, eval env ctx e = .error (.err k)) ∨
    (eval env ctx e = .error .panic ∧ ∃ x scopes, Part env x e ∧ Breaks env (scopes ++ ctx) x) := by
  obtain ⟨d, h⟩ := C76_ends env P F hr e
  obtain ⟨h1, h2⟩ := h ctx d (Nat.le_refl d)
  generalize he : eval env ctx e = r at h1 h2 ⊢
  match r with
  | .ok v => exact .inl ⟨v, rfl⟩
  | .error (.err k) => exact .inr (.inl ⟨k, rfl⟩)
  | .error .timeout => exact absurd rfl h2
  | .error .panic => exact .inr (.inr ⟨rfl, (panics_aux env d).1 ctx e .panic h1 rfl⟩)

/-- **C76** for templates. -/
theorem C76_template_outcome (env : Env) (P : PEnv) (F : FmtEnv) (hr : ReadsTemplates env P F) (ctx : Ctx)
    (els : List Elem) (prev next : Strip) :
    (∃ t, evalTmpl env ctx els prev next = .ok t) ∨ (∃ k, evalTmpl env ctx els prev next = .error (.err k)) ∨
    (evalTmpl env ctx els prev next = .error .panic ∧
      ∃ e, InElems e els ∧ ∃ x scopes, Part env x e ∧ Breaks env (scopes ++ ctx) x) := by
  obtain ⟨d, h⟩ := C76_template_ends env P F hr els
  obtain ⟨h1, h2⟩ := h ctx prev next d (Nat.le_refl d)
  generalize he : evalTmpl env ctx els prev next = r at h1 h2 ⊢
  match r with
  | .ok v => exact .inl ⟨v, rfl⟩
  | .error (.err k) => exact .inr (.inl ⟨k, rfl⟩)
  | .error .timeout => exact absurd rfl h2
  | .error .panic => exact .inr (.inr ⟨rfl, (panics_aux env d).2 ctx els prev next .panic h1 rfl⟩)

/-- **C76**: no expression stands inside of itself, and expressions are not nested without end, where what the
parser reads from the text of a template counts as standing inside the template. -/
theorem C76_nesting (env : Env) (P : PEnv) (F : FmtEnv) (hr : ReadsTemplates env P F) :
    (∀ e q, Part env e q → ¬ Direct env q e) ∧
    ¬ ∃ f : Nat → Expr, ∀ i, Direct env (f (i + 1)) (f i) := by
  have hw : WellFounded (Direct env) := ⟨acc_reads hr⟩
  have hpart : ∀ {x y}, Part env x y → x = y ∨ Relation.TransGen (Direct env) x y := by
    intro x y h
    induction h with
    | self => exact .inl rfl
    | inside _ hd ih =>
      right
      rcases ih with rfl | ih
      · exact .single hd
      · exact .tail ih hd
  refine ⟨fun e q h1 h2 => ?_, fun ⟨f, hf⟩ => ?_⟩
  · have : Relation.TransGen (Direct env) e e := by
      rcases hpart h1 with rfl | h
      · exact .single h2
      · exact .tail h h2
    have irr : ∀ x, Acc (Relation.TransGen (Direct env)) x → ¬ Relation.TransGen (Direct env) x x := by
      intro x hx
      induction hx with
      | intro x _ ih => exact fun h => ih x h h
    exact irr e (hw.transGen.apply e) this
  · have : ∀ e, Acc (Direct env) e → ∀ i, f i ≠ e := by
      intro e he
      induction he with
      | intro e _ ih => rintro i rfl; exact ih _ (hf i) (i + 1) rfl
    exact this (f 0) (hw.apply _) 0 rfl

/-! ### Examples -/

/-- An environment with the crate's parser. -/
private def parserEnv (bd : Build) (P : PEnv) (F : FmtEnv) : Env :=
  ⟨bd, P.U, fun t => match parseTemplate P t with
    | .ok es => .ok (toHclElems F es)
    | _ => .error c!"no", fun _ => c!"v", fun _ => c!"n"⟩

/-- It meets the hypothesis. -/
private theorem parserEnv_reads (bd : Build) (P : PEnv) (F : FmtEnv) : ReadsTemplates (parserEnv bd P F) P F := by
  intro t els h
  simp only [parserEnv] at h
  split at h
  · cases h; exact ⟨_, by assumption, rfl⟩
  · cases h

private def isInner : List Elem → Bool
  | [.lit _, .interp (.template (.quoted t)) _] => t == c!"b${x}"
  | _ => false

private def P₀ : PEnv := ⟨.ascii, .release⟩
private def F₀ : FmtEnv := ⟨.ascii, fun _ => []⟩

/-- A template in a template is parsed when it is evaluated. -/
example : (match (parserEnv .release P₀ F₀).parseTemplate c!"a${\"b${x}\"}" with
    | .ok els => isInner els
    | _ => false) = true := by decide +kernel

/-- It is evaluated to the end. -/
example : (match (evalF (parserEnv .release P₀ F₀) 6).expr [⟨[(c!"x", .string c!"c")], []⟩]
      (.template (.quoted c!"a${\"b${x}\"}")) with
    | .ok (.string t) => t == c!"abc"
    | _ => false) = true := by decide +kernel

/-- Sums panic in debug builds, and the part that is found is a sum that overflows. -/
example : eval (parserEnv .debug P₀ F₀) .new (.paren (.binary (.number (.posInt 18446744073709551615)) .plus
    (.number (.posInt 1)))) = .error .panic := by
  refine eval_of_evalF 4 ?_ (by nofun)
  rfl

example : Overflows .debug .plus (.posInt 18446744073709551615) (.posInt 1) := by
  show N.add .debug _ _ = none
  decide +kernel

/-- With another parser the evaluation need not end: here every template contains itself. -/
theorem C76_parser_needed : ∃ env : Env, ∀ n ctx t,
    (evalF env n).expr ctx (.template t) = .error .timeout := by
  refine ⟨⟨.release, .ascii, fun _ => .ok [.interp (.template (.quoted [])) .none], fun _ => [], fun _ => []⟩, ?_⟩
  intro n
  induction n with
  | zero => intro ctx t; rfl
  | succ n ih => intro ctx t; exact ih _ _

end Verif.Props
