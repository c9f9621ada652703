import Verif.Model.EvalFuncDef
import Verif.Spec.EvalFuncDef
import Verif.Props.EvalFunc
/-! Property C86: a function gets its arguments as they were declared. -/

namespace Verif.Props
open Spec

/-- A call of a method of the builder. -/
def applyCall (b : FuncDefBuilder) : Declares → FuncDefBuilder
  | .param t => b.param t
  | .params ts => b.addParams ts
  | .variadic t => b.variadic t

/-- The function that is defined with the given calls of methods of the builder. -/
def defined (ds : List Declares) (impl : FuncArgs → Except Str Value) : FuncDef :=
  (ds.foldl applyCall FuncDef.builder).build impl

/-- The result of an implementation as the result of a call expression. -/
def resultOf (n : FuncName) : Except Str Value → R Value
  | .ok v => .ok v
  | .error msg => R.err (.funcCall n (.user msg))

private theorem foldl_params : ∀ (ds : List Declares) (b : FuncDefBuilder),
    (ds.foldl applyCall b).params = b.params ++ declaredParams ds
  | [], b => by simp [declaredParams]
  | .param t :: ds, b => by
    rw [List.foldl_cons, foldl_params ds]; simp [applyCall, FuncDefBuilder.param, declaredParams]
  | .params ts :: ds, b => by
    rw [List.foldl_cons, foldl_params ds]; simp [applyCall, FuncDefBuilder.addParams, declaredParams]
  | .variadic t :: ds, b => by
    rw [List.foldl_cons, foldl_params ds]; simp [applyCall, FuncDefBuilder.variadic, declaredParams]

private theorem variadic_cons {d : Declares} {ds : List Declares} {t : ParamType} (h : VariadicIs ds t) : VariadicIs (d :: ds) t := by
  obtain ⟨x, y, rfl, h2⟩ := h
  exact ⟨d :: x, y, rfl, h2⟩

private theorem variadic_tail {d : Declares} {ds : List Declares} {t : ParamType} (h : VariadicIs (d :: ds) t) :
    VariadicIs ds t ∨ (d = .variadic t ∧ ∀ t', ¬ VariadicIs ds t') := by
  obtain ⟨x, y, h1, h2⟩ := h
  cases x with
  | nil =>
    injection h1 with h1 h3
    subst h3
    refine .inr ⟨h1, fun t' ⟨x, z, h4, _⟩ => h2 t' (h4 ▸ by simp)⟩
  | cons a x =>
    injection h1 with _ h3
    exact .inl ⟨x, y, h3, h2⟩

private theorem variadic_single {ds : List Declares} {t : ParamType} (h : ∀ t', ¬ VariadicIs ds t') :
    VariadicIs (.variadic t :: ds) t := by
  refine ⟨[], ds, rfl, fun t' hm => ?_⟩
  clear t
  induction ds with
  | nil => cases hm
  | cons d ds ih =>
    have h' : ∀ t', ¬ VariadicIs ds t' := fun t hv => h t (variadic_cons hv)
    rcases List.mem_cons.mp hm with rfl | hm
    · refine h t' ⟨[], ds, rfl, fun t'' hm => ?_⟩
      exact ih h' |> fun _ => absurd hm (fun hm => by
        obtain ⟨u, hu⟩ := lastOne ds hm
        exact h' u hu)
    · exact ih h' hm
where
  lastOne : ∀ (ds : List Declares) {t : ParamType}, Declares.variadic t ∈ ds → ∃ u, VariadicIs ds u
    | d :: ds, t, hm => by
      by_cases hd : ∃ u, Declares.variadic u ∈ ds
      · obtain ⟨u, hu⟩ := hd
        obtain ⟨w, hw⟩ := lastOne ds hu
        exact ⟨w, variadic_cons hw⟩
      · rcases List.mem_cons.mp hm with rfl | hm
        · exact ⟨t, [], ds, rfl, fun t' h => hd ⟨t', h⟩⟩
        · exact absurd ⟨t, hm⟩ hd

private theorem foldl_variadic : ∀ (ds : List Declares) (b : FuncDefBuilder) (t : ParamType),
    (ds.foldl applyCall b).variadicParam = some t ↔
      VariadicIs ds t ∨ (b.variadicParam = some t ∧ ∀ t', ¬ VariadicIs ds t')
  | [], b, t => by
    have h : ∀ t, ¬ VariadicIs [] t := fun t ⟨x, y, h, _⟩ => by simp at h
    simp [h]
  | d :: ds, b, t => by
    rw [List.foldl_cons, foldl_variadic ds]
    constructor
    · rintro (h | ⟨h1, h2⟩)
      · exact .inl (variadic_cons h)
      · cases d with
        | variadic u =>
          cases (Option.some.inj h1 : u = t)
          exact .inl (variadic_single h2)
        | param u => exact .inr ⟨h1, fun t' h => (variadic_tail h).elim (h2 t') fun h => by cases h.1⟩
        | params u => exact .inr ⟨h1, fun t' h => (variadic_tail h).elim (h2 t') fun h => by cases h.1⟩
    · rintro (h | ⟨h1, h2⟩)
      · rcases variadic_tail h with h | ⟨rfl, h'⟩
        · exact .inl h
        · exact .inr ⟨rfl, h'⟩
      · refine .inr ⟨?_, fun t' h => h2 t' (variadic_cons h)⟩
        cases d with
        | variadic u => exact absurd (variadic_single fun t' h => h2 t' (variadic_cons h)) (h2 u)
        | param u => exact h1
        | params u => exact h1

private theorem defined_variadic (ds : List Declares) (impl : FuncArgs → Except Str Value) (t : ParamType) :
    (defined ds impl).variadic = some t ↔ VariadicIs ds t :=
  (foldl_variadic ds _ t).trans ⟨fun h => h.elim id fun h => (by cases h.1), .inl⟩

private theorem defined_params (ds : List Declares) (impl : FuncArgs → Except Str Value) :
    (defined ds impl).params = declaredParams ds := foldl_params ds _

private theorem fits_iff (ds : List Declares) (impl : FuncArgs → Except Str Value) (vs : List Value) :
    FitsSignature (fun t v => ParamType.satisfiedBy t v = true) (defined ds impl).params (defined ds impl).variadic vs ↔
      ∃ ps rest, vs = ps ++ rest ∧ Accepted (fun t v => ParamType.satisfiedBy t v = true) ds ps rest := by
  rw [defined_params]
  cases hv : (defined ds impl).variadic with
  | none =>
    have hn : ∀ t, ¬ VariadicIs ds t := fun t h => by
      rw [← defined_variadic ds impl, hv] at h; cases h
    constructor
    · rintro ⟨ps, rest, rfl, h1, rfl⟩
      exact ⟨ps, [], rfl, h1, fun h => absurd rfl h, fun t h => absurd h (hn t)⟩
    · rintro ⟨ps, rest, rfl, h1, h2, -⟩
      refine ⟨ps, rest, rfl, h1, ?_⟩
      by_contra h
      obtain ⟨t, ht⟩ := h2 h
      exact hn t ht
  | some t =>
    have ht := (defined_variadic ds impl t).mp hv
    constructor
    · rintro ⟨ps, rest, rfl, h1, h2⟩
      refine ⟨ps, rest, rfl, h1, fun _ => ⟨t, ht⟩, fun t' ht' => ?_⟩
      rw [← defined_variadic ds impl, hv] at ht'
      cases ht'
      exact h2
    · rintro ⟨ps, rest, rfl, h1, -, h2⟩
      exact ⟨ps, rest, rfl, h1, h2 t ht⟩

/-- A call with arguments as declared is the implementation's result. It gets all arguments in order, those for the
declared parameters as positional arguments and the others as variadic arguments. -/
theorem C86_called (env : Env) (ctx : Ctx) (n : FuncName) (ds : List Declares) (impl : FuncArgs → Except Str Value)
    (args : List Expr) (expand : Bool) (positional rest : List Value) (hf : ctx.func n = some (defined ds impl))
    (ha : ArgsAre env ctx args expand (positional ++ rest))
    (hs : Accepted (fun t v => ParamType.satisfiedBy t v = true) ds positional rest) :
    ∃ a : FuncArgs, a.intoValues = positional ++ rest ∧ a.positionalArgs = positional ∧ a.variadicArgs = rest ∧
      eval env ctx (.call n args expand) = resultOf n (impl a) := by
  have hl : (ds.foldl applyCall FuncDef.builder).params.length = positional.length := by
    rw [foldl_params]; exact hs.1.length_eq
  refine ⟨⟨positional ++ rest, positional.length⟩, rfl, by simp [FuncArgs.positionalArgs],
    by simp [FuncArgs.variadicArgs], ?_⟩
  rw [C40_accepted env ctx n args expand _ _ hf ha ((fits_iff ds impl _).mpr ⟨_, _, rfl, hs⟩)]
  have : (defined ds impl).func (positional ++ rest) = impl ⟨positional ++ rest, positional.length⟩ := by
    show impl ⟨_, _⟩ = _
    rw [hl]
  rw [this]
  unfold resultOf
  cases impl ⟨positional ++ rest, positional.length⟩ <;> rfl

/-- Otherwise the call fails with an error that is not the implementation's and does not depend on it. -/
theorem C86_rejected (env : Env) (n : FuncName) (ds : List Declares) (args : List Expr) (expand : Bool) (vs : List Value)
    (hs : ∀ positional rest, vs = positional ++ rest →
      ¬ Accepted (fun t v => ParamType.satisfiedBy t v = true) ds positional rest) :
    ∃ e, (∀ msg, e ≠ .user msg) ∧ ∀ (ctx : Ctx) (impl : FuncArgs → Except Str Value),
      ctx.func n = some (defined ds impl) → ArgsAre env ctx args expand vs →
      eval env ctx (.call n args expand) = R.err (.funcCall n e) := by
  have hn : ∀ impl, ¬ FitsSignature (fun t v => ParamType.satisfiedBy t v = true) (defined ds impl).params
      (defined ds impl).variadic vs := fun impl h => by
    obtain ⟨ps, rest, h1, h2⟩ := (fits_iff ds impl vs).mp h
    exact hs ps rest h1 h2
  cases hc : (defined ds fun _ => .error []).check vs with
  | none => exact absurd ((FuncDef.check_none_iff _ _).mp hc) (hn _)
  | some e =>
    have hall : ∀ impl, (defined ds impl).call vs = .error e := fun impl => by
      have : (defined ds impl).check vs = some e := hc
      simp only [FuncDef.call, this]
    refine ⟨e, ?_, fun ctx impl hf ha => ?_⟩
    · rintro msg rfl
      exact FuncDef.check_not_user _ _ _ hc
    · obtain ⟨e', -, h1, h2⟩ := C40_rejected env ctx n args expand _ vs hf ha (hn impl)
      have := (h2 (defined ds impl).func).symm.trans (hall impl)
      injection this with this
      rw [h1, this]

/-- `FuncDef::new` defines a function without variadic parameter. -/
theorem C86_new (impl : FuncArgs → Except Str Value) (ts : List ParamType) :
    FuncDef.new impl ts = defined [.params ts] impl := rfl

/-! ### The hypotheses hold -/

/-- A function `n` with a number as first parameter, a text or number as second and further booleans. -/
private def exDecl : List Declares := [.param .number, .variadic .any, .params [.oneOf [.string, .number]], .variadic .bool]

private def exImpl : FuncArgs → Except Str Value := fun a => .ok (.array [.array a.positionalArgs, .array a.variadicArgs])

private def exCtx : Ctx := [⟨[], [(⟨[], c!"n"⟩, defined exDecl exImpl)]⟩]

private theorem exVariadic : VariadicIs exDecl .bool := ⟨[.param .number, .variadic .any, .params [.oneOf [.string, .number]]], [], rfl, nofun⟩

private theorem exAccepted (b b' : Bool) : Accepted (fun t v => ParamType.satisfiedBy t v = true) exDecl
    [.number (.posInt 1), .string c!"x"] [.bool b, .bool b'] := by
  refine ⟨.cons rfl (.cons rfl .nil), fun _ => ⟨_, exVariadic⟩, fun t ht => ?_⟩
  rw [← defined_variadic _ exImpl] at ht
  cases (Option.some.inj ht : ParamType.bool = t)
  simp [ParamType.satisfiedBy]

private theorem exArgs (env : Env) : ArgsAre env exCtx [.number (.posInt 1), .string c!"x", .bool true, .bool false] false
    ([.number (.posInt 1), .string c!"x"] ++ [.bool true, .bool false]) := by
  unfold ArgsAre
  rw [if_neg (by simp)]
  exact .cons (eval_number _) (.cons (eval_string _) (.cons (eval_bool _) (.cons (eval_bool _) .nil)))

example (env : Env) : eval env exCtx (.call ⟨[], c!"n"⟩ [.number (.posInt 1), .string c!"x", .bool true, .bool false] false) =
    .ok (.array [.array [.number (.posInt 1), .string c!"x"], .array [.bool true, .bool false]]) := by
  obtain ⟨a, -, h2, h3, h4⟩ := C86_called env exCtx ⟨[], c!"n"⟩ exDecl exImpl
    [.number (.posInt 1), .string c!"x", .bool true, .bool false] false _ _ rfl (exArgs env) (exAccepted true false)
  rw [h4]
  simp only [exImpl, h2, h3, resultOf]

/-- A call without second argument is rejected. -/
example (env : Env) (args : List Expr) : ∃ e, (∀ msg, e ≠ .user msg) ∧
    ∀ (ctx : Ctx) (impl : FuncArgs → Except Str Value), ctx.func ⟨[], c!"n"⟩ = some (defined exDecl impl) →
      ArgsAre env ctx args false [.number (.posInt 1)] →
      eval env ctx (.call ⟨[], c!"n"⟩ args false) = R.err (.funcCall ⟨[], c!"n"⟩ e) :=
  C86_rejected env _ exDecl args false _ fun ps rest h ha => by
    have h1 := ha.1.length_eq
    have h2 := congrArg List.length h
    simp only [List.length_append, List.length_cons, List.length_nil] at h2
    have h3 : (declaredParams exDecl).length = 2 := rfl
    omega

end Verif.Props
