import Verif.Props.EvalTrav
/-! Properties C40 (arguments are validated) and C41 (parameter types). -/

namespace Verif
open Verif.Spec

theorem checkPositional_none_iff (pos : Nat) (args : List Value) (params : List ParamType)
    (h : args.length = params.length) :
    checkPositional pos args params = none ↔
      List.Forall₂ (fun t v => ParamType.satisfiedBy t v = true) params args := by
  induction params generalizing pos args with
  | nil => cases args <;> simp_all [checkPositional]
  | cons t ts ih =>
    cases args with
    | nil => simp at h
    | cons a as =>
      simp only [checkPositional, List.forall₂_cons]
      cases hs : t.satisfiedBy a with
      | false => simp
      | true => simpa using ih (pos + 1) as (by simpa using h)

theorem checkVariadic_none_iff (t : ParamType) (pos : Nat) (args : List Value) :
    checkVariadic t pos args = none ↔ ∀ a ∈ args, t.satisfiedBy a = true := by
  induction args generalizing pos with
  | nil => simp [checkVariadic]
  | cons a as ih =>
    simp only [checkVariadic, List.mem_cons, forall_eq_or_imp]
    cases hs : t.satisfiedBy a with
    | false => simp
    | true => simpa using ih (pos + 1)

theorem FuncDef.check_none_iff (f : FuncDef) (args : List Value) :
    f.check args = none ↔
      FitsSignature (fun t v => ParamType.satisfiedBy t v = true) f.params f.variadic args := by
  unfold FuncDef.check
  by_cases h1 : args.length < f.params.length ∨ (f.variadic.isNone ∧ args.length > f.params.length)
  · rw [if_pos h1]
    simp only [reduceCtorEq, false_iff]
    rintro ⟨a, b, rfl, h2, h3⟩
    have hl := h2.length_eq
    cases hv : f.variadic with
    | none => rw [hv] at h1 h3; simp only at h3; subst h3; simp at h1; omega
    | some t => rw [hv] at h1; simp at h1; omega
  · rw [if_neg h1]
    have hlen : (args.take f.params.length).length = f.params.length := by
      rw [List.length_take]; omega
    have hp := checkPositional_none_iff 0 (args.take f.params.length) f.params hlen
    constructor
    · intro h
      cases hc : checkPositional 0 (args.take f.params.length) f.params with
      | some e => rw [hc] at h; cases h
      | none =>
        rw [hc] at h
        refine ⟨args.take f.params.length, args.drop f.params.length, by simp, hp.1 hc, ?_⟩
        cases hv : f.variadic with
        | none =>
          rw [hv] at h1
          simp only [Option.isNone_none, true_and] at h1
          exact List.drop_eq_nil_of_le (by omega)
        | some t =>
          rw [hv] at h
          exact (checkVariadic_none_iff t _ _).1 h
    · rintro ⟨a, b, rfl, h2, h3⟩
      have hl := h2.length_eq
      have ht : (a ++ b).take f.params.length = a := by rw [hl]; simp
      have hd : (a ++ b).drop f.params.length = b := by rw [hl]; simp
      rw [ht] at hp ⊢
      rw [hp.2 h2, hd]
      cases hv : f.variadic with
      | none => rfl
      | some t =>
        rw [hv] at h3
        exact (checkVariadic_none_iff t _ _).2 h3

/-- The arguments of a call: `vs` are the values of `args`; the last one is expanded. -/
def ArgsAre (env : Env) (ctx : Ctx) (args : List Expr) (expand : Bool) (vs : List Value) : Prop :=
  if expand = true ∧ args ≠ [] then
    ∃ init last ivs lvs, args = init ++ [last] ∧ vs = ivs ++ lvs ∧
      List.Forall₂ (fun a v => eval env ctx a = .ok v) init ivs ∧
      eval env ctx last = .ok (.array lvs)
  else List.Forall₂ (fun a v => eval env ctx a = .ok v) args vs

theorem evalArgs_of {env : Env} {ctx : Ctx} {args : List Expr} {expand : Bool} {vs : List Value}
    (h : ArgsAre env ctx args expand vs) : evalArgs (evalRec env) ctx expand args = .ok vs := by
  unfold ArgsAre at h
  by_cases hx : expand = true ∧ args ≠ []
  · rw [if_pos hx] at h
    obtain ⟨init, last, ivs, lvs, rfl, rfl, h1, h2⟩ := h
    have hx1 := hx.1
    clear hx
    subst hx1
    induction h1 with
    | nil =>
      have : (evalRec env).expr ctx last = .ok (.array lvs) := h2
      simp [evalArgs, evalArray, this, R.bind]
    | @cons a v as vs' h1 _ ih =>
      have : (evalRec env).expr ctx a = .ok v := h1
      simp only [List.cons_append, evalArgs, this, R.bind, ih]
      rw [if_neg (by simp)]
  · rw [if_neg hx] at h
    induction h with
    | nil => rfl
    | @cons a v as vs' h1 h2 ih =>
      have : (evalRec env).expr ctx a = .ok v := h1
      have hf : expand = false := by cases expand <;> simp_all
      subst hf
      simp only [evalArgs, Bool.false_eq_true, false_and, if_false, this, R.bind,
        ih (by simp)]

mutual
/-- No `OneOf` without alternatives. -/
def NoEmptyOneOf : ParamType → Prop
  | .array t | .object t | .nullable t => NoEmptyOneOf t
  | .oneOf ts => ts ≠ [] ∧ NoEmptyOneOfs ts
  | _ => True
def NoEmptyOneOfs : List ParamType → Prop
  | [] => True
  | t :: ts => NoEmptyOneOf t ∧ NoEmptyOneOfs ts
end

mutual
theorem satisfiedBy_iff : ∀ (t : ParamType) (v : Value), NoEmptyOneOf t →
    (t.satisfiedBy v = true ↔ InType t v)
  | .any, v, _ => by simp only [ParamType.satisfiedBy, true_iff]; exact .any
  | .bool, v, _ => by
    constructor
    · intro h
      cases v with
      | bool b => exact .bool
      | _ => simp [ParamType.satisfiedBy] at h
    · intro h; cases h; rfl
  | .number, v, _ => by
    constructor
    · intro h
      cases v with
      | number b => exact .number
      | _ => simp [ParamType.satisfiedBy] at h
    · intro h; cases h; rfl
  | .string, v, _ => by
    constructor
    · intro h
      cases v with
      | string b => exact .string
      | _ => simp [ParamType.satisfiedBy] at h
    · intro h; cases h; rfl
  | .array t, v, ht => by
    simp only [NoEmptyOneOf] at ht
    constructor
    · intro h
      cases v with
      | array xs =>
        simp only [ParamType.satisfiedBy, List.all_eq_true] at h
        exact .array fun x hx => (satisfiedBy_iff t x ht).1 (h x hx)
      | _ => simp [ParamType.satisfiedBy] at h
    · intro h
      cases h with
      | array h =>
        simp only [ParamType.satisfiedBy, List.all_eq_true]
        exact fun x hx => (satisfiedBy_iff t x ht).2 (h x hx)
  | .object t, v, ht => by
    simp only [NoEmptyOneOf] at ht
    constructor
    · intro h
      cases v with
      | object xs =>
        simp only [ParamType.satisfiedBy, List.all_eq_true] at h
        exact .object fun x hx => (satisfiedBy_iff t x.2 ht).1 (h x hx)
      | _ => simp [ParamType.satisfiedBy] at h
    · intro h
      cases h with
      | object h =>
        simp only [ParamType.satisfiedBy, List.all_eq_true]
        exact fun x hx => (satisfiedBy_iff t x.2 ht).2 (h x hx)
  | .nullable t, v, ht => by
    simp only [NoEmptyOneOf] at ht
    simp only [ParamType.satisfiedBy, Bool.or_eq_true, satisfiedBy_iff t v ht]
    constructor
    · rintro (h | h)
      · cases v <;> first | exact .null | cases h
      · exact .nullable h
    · intro h
      cases h with
      | null => exact Or.inl rfl
      | nullable h => exact Or.inr h
  | .oneOf ts, v, ht => by
    simp only [NoEmptyOneOf] at ht
    simp only [ParamType.satisfiedBy, anySatisfiedBy_iff ts v ht.2]
    constructor
    · exact .oneOf
    · intro h
      cases h with
      | oneOf h => exact h
      | oneOfEmpty => exact absurd rfl ht.1
theorem anySatisfiedBy_iff : ∀ (ts : List ParamType) (v : Value), NoEmptyOneOfs ts →
    (ParamType.anySatisfiedBy ts v = true ↔ InSome ts v)
  | [], v, _ => by
    simp only [ParamType.anySatisfiedBy, Bool.false_eq_true, false_iff]
    intro h; cases h
  | t :: ts, v, ht => by
    simp only [NoEmptyOneOfs] at ht
    simp only [ParamType.anySatisfiedBy, Bool.or_eq_true, satisfiedBy_iff t v ht.1,
      anySatisfiedBy_iff ts v ht.2]
    constructor
    · rintro (h | h)
      · exact .head h
      · exact .tail h
    · intro h
      cases h with
      | head h => exact Or.inl h
      | tail h => exact Or.inr h
end

/-- What is wrong with the arguments is not said by the function itself. -/
theorem FuncDef.check_not_user (f : FuncDef) (vs : List Value) (msg : Str) : f.check vs ≠ some (.user msg) := by
  intro hc
  have hpos : ∀ pos as ts, checkPositional pos as ts ≠ some (.user msg) := by
    intro pos as ts
    induction as generalizing pos ts with
    | nil => cases ts <;> simp [checkPositional]
    | cons a as ih =>
      cases ts with
      | nil => simp [checkPositional]
      | cons t ts =>
        simp only [checkPositional]
        split
        · simp
        · exact ih _ _
  have hvar : ∀ t pos as, checkVariadic t pos as ≠ some (.user msg) := by
    intro t pos as
    induction as generalizing pos with
    | nil => simp [checkVariadic]
    | cons a as ih =>
      simp only [checkVariadic]
      split
      · simp
      · exact ih _
  unfold FuncDef.check at hc
  split at hc
  · cases hc
  · cases hp : checkPositional 0 (vs.take f.params.length) f.params with
    | some e' => rw [hp] at hc; cases hc; exact hpos _ _ _ hp
    | none =>
      rw [hp] at hc
      cases hv : f.variadic with
      | none => rw [hv] at hc; cases hc
      | some t => rw [hv] at hc; exact hvar _ _ _ hc

namespace Props

/-- C40: arguments that fit the signature are passed to the function, whose result is the result. -/
theorem C40_accepted (env : Env) (ctx : Ctx) (n : FuncName) (args : List Expr) (expand : Bool)
    (f : FuncDef) (vs : List Value) (hf : ctx.func n = some f)
    (hargs : ArgsAre env ctx args expand vs)
    (hfit : FitsSignature (fun t v => ParamType.satisfiedBy t v = true) f.params f.variadic vs) :
    eval env ctx (.call n args expand) =
      match f.func vs with
      | .ok v => .ok v
      | .error msg => R.err (.funcCall n (.user msg)) := by
  rw [eval_call, hf]
  simp only [evalArgs_of hargs, R.bind, FuncDef.call, (FuncDef.check_none_iff f vs).2 hfit]
  cases f.func vs <;> rfl

/-- C40: otherwise the call is an error that does not depend on the implementation (which is not
invoked): it is the same for every function `impl`. -/
theorem C40_rejected (env : Env) (ctx : Ctx) (n : FuncName) (args : List Expr) (expand : Bool)
    (f : FuncDef) (vs : List Value) (hf : ctx.func n = some f)
    (hargs : ArgsAre env ctx args expand vs)
    (hfit : ¬ FitsSignature (fun t v => ParamType.satisfiedBy t v = true) f.params f.variadic vs) :
    ∃ e, (∀ msg, e ≠ .user msg) ∧ eval env ctx (.call n args expand) = R.err (.funcCall n e) ∧
      ∀ impl, ({ f with func := impl } : FuncDef).call vs = .error e := by
  rw [← FuncDef.check_none_iff] at hfit
  cases hc : f.check vs with
  | none => exact absurd hc hfit
  | some e =>
    refine ⟨e, ?_, ?_, fun impl => ?_⟩
    · exact fun msg h => f.check_not_user vs msg (h ▸ hc)
    · rw [eval_call, hf]
      simp only [evalArgs_of hargs, R.bind, FuncDef.call, hc]
    · have : ({ f with func := impl } : FuncDef).check vs = some e := hc
      simp only [FuncDef.call, this]

/-- C40: a call of an undeclared function is an error and evaluates no argument. -/
theorem C40_undeclared (env : Env) (ctx : Ctx) (n : FuncName) (args : List Expr) (expand : Bool)
    (hf : ctx.func n = none) :
    eval env ctx (.call n args expand) = R.err (.undefinedFunc n) := by
  rw [eval_call, hf]

/-- C40: a failing argument is the failure of the call, whatever the function is. -/
theorem C40_argument_fails (env : Env) (ctx : Ctx) (n : FuncName) (init : List Expr) (a : Expr)
    (rest : List Expr) (vs : List Value) (f : FuncDef) (e : Fail) (hf : ctx.func n = some f)
    (hinit : List.Forall₂ (fun a v => eval env ctx a = .ok v) init vs)
    (ha : eval env ctx a = .error e) (expand : Bool) :
    eval env ctx (.call n (init ++ a :: rest) expand) = .error e := by
  have ha' : (evalRec env).expr ctx a = .error e := ha
  have : evalArgs (evalRec env) ctx expand (init ++ a :: rest) = .error e := by
    induction hinit with
    | nil =>
      simp only [List.nil_append, evalArgs]
      split
      · simp only [evalArray, ha', R.bind]
      · simp only [ha', R.bind]
    | @cons b v bs vs' h1 _ ih =>
      have h1' : (evalRec env).expr ctx b = .ok v := h1
      have hne : ¬ (expand = true ∧ (bs ++ a :: rest).isEmpty = true) := by simp
      simp only [List.cons_append, evalArgs, if_neg hne, h1', R.bind, ih]
  rw [eval_call, hf]; simp only [this, R.bind]

/-- C41 is false of the code: `OneOf` without alternatives is documented to allow any type but
rejects every value. -/
theorem C41_false : ∃ t v, InType t v ∧ ParamType.satisfiedBy t v = false :=
  ⟨.oneOf [], .null, .oneOfEmpty, rfl⟩

/-- C41 for all types that contain no `OneOf` without alternatives. Missing: the empty `OneOf`
(`C41_false`). -/
theorem C41_param_types_partial (t : ParamType) (v : Value) (h : NoEmptyOneOf t) :
    t.satisfiedBy v = true ↔ InType t v := satisfiedBy_iff t v h

/-! Concrete cases. -/

/-- `f(number, nullable string, bool...)` returning its first argument. -/
def exFunc : FuncDef where
  func vs := match vs with | v :: _ => .ok v | [] => .error c!"no args"
  params := [.number, .nullable .string]
  variadic := some .bool

example : FitsSignature (fun t v => ParamType.satisfiedBy t v = true) exFunc.params exFunc.variadic
    [.number (.posInt 1), .null, .bool true, .bool false] :=
  (FuncDef.check_none_iff _ _).1 rfl
example : ¬ FitsSignature (fun t v => ParamType.satisfiedBy t v = true) exFunc.params exFunc.variadic
    [.number (.posInt 1), .null, .bool true, .null] :=
  fun h => by have := (FuncDef.check_none_iff _ _).2 h; cases this
/-- `f(1, ["x", true]...)` -/
example : ArgsAre exEnv Ctx.new
    [.number (.posInt 1), .array [.string c!"x", .bool true]] true
    [.number (.posInt 1), .string c!"x", .bool true] :=
  ⟨[.number (.posInt 1)], .array [.string c!"x", .bool true], [.number (.posInt 1)],
    [.string c!"x", .bool true], rfl, rfl, .cons (eval_number _) .nil, by
      rw [eval_array]; simp only [mapR, eval_string, eval_bool, R.bind]⟩
example : NoEmptyOneOf (.array (.oneOf [.string, .nullable .number])) := by
  simp [NoEmptyOneOf, NoEmptyOneOfs]

end Props
end Verif
