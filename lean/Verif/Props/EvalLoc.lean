import Verif.Lemmas.EvalLoc
/-! C73: the error of a failed evaluation names an expression that fails with it. -/

namespace Verif.Props
open Spec

/-- An error that is returned, with its expression, is the error of the evaluation. -/
theorem C73_same (env : Env) (n : Nat) (ctx : Ctx) (e : Expr) (k : EvalErr) (x : Option Expr)
    (h : (Loc.evalF env n).expr (.ofUser ctx) e = .error ⟨.err k, x⟩) : eval env ctx e = .error (.err k) := by
  have ha := (evalF_agree env n).1 (.ofUser ctx) e
  have hp : LCtx.plain (.ofUser ctx) = ctx := LCtx.ofUser_plain ctx
  rw [h, hp] at ha
  refine eval_of_evalF n (r := .error (.err k)) ?_ (by nofun)
  generalize (evalF env n).expr ctx e = r at ha
  cases ha with
  | err _ => rfl
  | fail hf => exact absurd rfl (hf k)

/-- A value that is returned is the value of the expression: attaching expressions to errors changes nothing
else. -/
theorem C73_same_value (env : Env) (n : Nat) (ctx : Ctx) (e : Expr) (v : Value)
    (h : (Loc.evalF env n).expr (.ofUser ctx) e = .ok v) : eval env ctx e = .ok v := by
  have ha := (evalF_agree env n).1 (.ofUser ctx) e
  have hp : LCtx.plain (.ofUser ctx) = ctx := LCtx.ofUser_plain ctx
  rw [h, hp] at ha
  refine eval_of_evalF n (r := .ok v) ?_ (by nofun)
  generalize (evalF env n).expr ctx e = r at ha
  cases ha with
  | ok _ => rfl

/-- The converse: whatever the evaluation of an expression yields is what is returned, with an expression
attached if it is an error. -/
theorem C73_complete (env : Env) (ctx : Ctx) (e : Expr) : (∀ v, eval env ctx e = .ok v →
      ∃ n, (Loc.evalF env n).expr (.ofUser ctx) e = .ok v) ∧
    ∀ k, eval env ctx e = .error (.err k) → ∃ n x, (Loc.evalF env n).expr (.ofUser ctx) e = .error ⟨.err k, x⟩ := by
  have hp : LCtx.plain (.ofUser ctx) = ctx := LCtx.ofUser_plain ctx
  have hex : ∀ r, eval env ctx e = r → r ≠ .error .timeout → ∃ n, (evalF env n).expr ctx e = r := by
    intro r h hr
    unfold eval at h
    split at h
    · exact ⟨_, h⟩
    · exact absurd h.symm hr
  refine ⟨fun v h => ?_, fun k h => ?_⟩
  · obtain ⟨n, hn⟩ := hex _ h (by nofun)
    have ha := (evalF_agree env n).1 (.ofUser ctx) e
    rw [hp, hn] at ha
    refine ⟨n, ?_⟩
    generalize (Loc.evalF env n).expr (.ofUser ctx) e = r at ha ⊢
    cases ha with
    | ok _ => rfl
  · obtain ⟨n, hn⟩ := hex _ h (by nofun)
    have ha := (evalF_agree env n).1 (.ofUser ctx) e
    rw [hp, hn] at ha
    generalize hg : (Loc.evalF env n).expr (.ofUser ctx) e = r at ha
    cases ha with
    | err _ => exact ⟨n, _, hg⟩
    | fail hf => exact absurd rfl (hf k)

/-- The error of a failed evaluation of `e` names no expression only if a template in `e` does not parse.
Otherwise there is a part `y` of `e` that raises an error of this kind by itself, and the expression `p` named by
the error is the one `y` stands in directly, or `y` itself if it stands in none or (for loops and templates)
if it happened in an iteration. Evaluated in their scopes both `y` and `p` fail with the error. -/
theorem C73_cause (env : Env) (n : Nat) (ctx : Ctx) (e : Expr) (k : EvalErr) (x : Option Expr)
    (h : (Loc.evalF env n).expr (.ofUser ctx) e = .error ⟨.err k, x⟩) :
    (x = none ∧ ∃ t msg, Part env (.template t) e ∧ env.parseTemplate t.asStr = .error msg ∧ k = .message msg) ∨
    ∃ p y, x = some p ∧ Part env p e ∧ Part env y e ∧
      (Direct env y p ∨ (p = y ∧ (y = e ∨ Loops y))) ∧ Raises y k ∧
      (∃ scopes, eval env (scopes ++ ctx) y = .error (.err k)) ∧
      ∃ scopes, eval env (scopes ++ ctx) p = .error (.err k) := by
  have ha := (evalF_agree env n).1 (.ofUser ctx) e
  have hp : LCtx.plain (.ofUser ctx) = ctx := LCtx.ofUser_plain ctx
  have hn : LCtx.expr (.ofUser ctx) = none := LCtx.ofUser_expr ctx
  rw [h, hp] at ha
  generalize (evalF env n).expr ctx e = r at ha
  have hg : Good env (.ofUser ctx) e k x := by
    cases ha with
    | err h => exact h
    | fail hf => exact absurd rfl (hf k)
  rcases hg with hg | ⟨y, d, hy, hr, hev, hx⟩
  · exact .inl hg
  · right
    rw [hp] at hev
    rcases hx with ⟨_, hx, hx'⟩ | ⟨hx, hl⟩ | ⟨p, d', hx, hpp, hyp, hpe⟩
    · exact absurd (hx.trans hn) hx'
    · exact ⟨y, y, hx, hy, hy, .inr ⟨rfl, hl.imp (·.1) id⟩, hr, ⟨d, hev⟩, d, hev⟩
    · rw [hp] at hpe
      exact ⟨p, y, hx, hpp, hy, .inl hyp, hr, ⟨d, hev⟩, d', hpe⟩

/-- The same for a template: an expression is named unless the error is that of a directive of the template
itself, or a template in it does not parse. -/
theorem C73_template (env : Env) (n : Nat) (ctx : Ctx) (els : List Elem) (a b : Strip) (k : EvalErr) (x : Option Expr)
    (h : (Loc.evalF env n).tmpl (.ofUser ctx) els a b = .error ⟨.err k, x⟩) :
    (x = none ∧ ∃ v, k = .unexpected v c!"a boolean" ∨ k = .unexpected v c!"an array or object") ∨
    ∃ e, InElems e els ∧
      ((x = none ∧ ∃ t msg, Part env (.template t) e ∧ env.parseTemplate t.asStr = .error msg ∧ k = .message msg) ∨
      ∃ p y, x = some p ∧ Part env p e ∧ Part env y e ∧
        (Direct env y p ∨ (p = y ∧ (y = e ∨ Loops y))) ∧ Raises y k ∧
        (∃ scopes, eval env (scopes ++ ctx) y = .error (.err k)) ∧
        ∃ scopes, eval env (scopes ++ ctx) p = .error (.err k)) := by
  have ha := (evalF_agree env n).2 (.ofUser ctx) els a b
  have hp : LCtx.plain (.ofUser ctx) = ctx := LCtx.ofUser_plain ctx
  have hq : Quiet (.ofUser ctx) := by
    intro f hf
    simp only [LCtx.ofUser, List.mem_map] at hf
    obtain ⟨_, _, rfl⟩ := hf
    rfl
  rw [h, hp] at ha
  generalize (evalF env n).tmpl ctx els a b = r at ha
  have hg : GoodT env (.ofUser ctx) els k x := by
    cases ha with
    | err h => exact h
    | fail hf => exact absurd rfl (hf k)
  have hquiet : ∀ {d : LCtx}, Quiet d → LCtx.expr d = none := fun {d} hd => by
    have := hd.expr []
    rw [List.append_nil] at this
    exact this
  rcases hg with ⟨d, hd, hx, hk⟩ | ⟨d, e, hd, he, hg⟩
  · left
    have hall : Quiet (d ++ .ofUser ctx) := fun f hf => (List.mem_append.mp hf).elim (hd f) (hq f)
    refine ⟨?_, ?_⟩
    · rw [hx]
      generalize d ++ LCtx.ofUser ctx = c at hall
      cases c with
      | nil => rfl
      | cons f c =>
        have hc : LCtx.expr c = none := hquiet fun g hg => hall g (List.mem_cons_of_mem _ hg)
        simp [LCtx.blamed, LCtx.parentExpr, LCtx.ownExpr, hc, hall f]
    · cases k <;> first | exact hk.elim | (rename_i v w; exact ⟨v, hk.imp (fun h => by rw [h]) (fun h => by rw [h])⟩)
  · refine .inr ⟨e, he, ?_⟩
    have hn : LCtx.expr (d ++ .ofUser ctx) = none := (hd.expr _).trans (LCtx.ofUser_expr ctx)
    have hpl : LCtx.plain (d ++ .ofUser ctx) = LCtx.plain d ++ ctx := by
      rw [LCtx.plain, List.map_append]; exact congrArg (_ ++ ·) hp
    rcases hg with hg | ⟨y, d2, hy, hr, hev, hx⟩
    · exact .inl hg
    · right
      rw [hpl, ← List.append_assoc] at hev
      rcases hx with ⟨_, hx, hx'⟩ | ⟨hx, hl⟩ | ⟨p, d', hx, hpp, hyp, hpe⟩
      · exact absurd (hx.trans hn) hx'
      · exact ⟨y, y, hx, hy, hy, .inr ⟨rfl, hl.imp (·.1) id⟩, hr, ⟨_, hev⟩, _, hev⟩
      · rw [hpl, ← List.append_assoc] at hpe
        exact ⟨p, y, hx, hpp, hy, .inl hyp, hr, ⟨_, hev⟩, _, hpe⟩

private def envL : Env := ⟨.release, .ascii, fun _ => .error c!"no", fun _ => [], fun _ => []⟩

/-- The error of an undefined variable in a sum in an array: the sum is named. -/
example : (match (Loc.evalF envL 5).expr (.ofUser .new) (.array [.null, .binary (.var c!"a") .plus (.number (.posInt 1))])
    with
    | .error ⟨.err (.undefinedVar y), some (.binary (.var z) .plus _)⟩ => y == c!"a" && z == c!"a"
    | _ => false) = true := rfl

/-- An outermost expression is named itself. -/
example : (match (Loc.evalF envL 5).expr (.ofUser .new) (.unary .not .null) with
    | .error ⟨.err (.unaryOp .not .null), some (.unary .not .null)⟩ => true
    | _ => false) = true := rfl

/-- A duplicate key in a loop: the loop is named, although it stands in an array. -/
example : (match (Loc.evalF envL 6).expr (.ofUser .new)
    (.array [.forE none c!"v" (.array [.null, .null]) (some (.string c!"k")) .null false none]) with
    | .error ⟨.err (.keyExists _), some (.forE ..)⟩ => true
    | _ => false) = true := rfl

/-- A template that does not parse: no expression is named. -/
example : (match (Loc.evalF envL 6).expr (.ofUser .new) (.array [.template (.quoted c!"${")]) with
    | .error ⟨.err (.message _), none⟩ => true
    | _ => false) = true := rfl

/-- A template: the condition of a directive is not a boolean, and an interpolation fails. -/
example : (match (Loc.evalF envL 6).tmpl (.ofUser .new) [.ifDir .null [] none .none .none .none] .none .none with
    | .error ⟨.err (.unexpected .null _), none⟩ => true
    | _ => false) = true := rfl
example : (match (Loc.evalF envL 6).tmpl (.ofUser .new) [.lit c!"a", .interp (.paren (.var c!"a")) .none] .none .none with
    | .error ⟨.err (.undefinedVar _), some (.paren _)⟩ => true
    | _ => false) = true := rfl

end Verif.Props
