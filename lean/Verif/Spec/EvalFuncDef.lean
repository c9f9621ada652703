import Verif.Spec.Eval
/-!
What a sequence of calls of the builder of function definitions declares (C86).
-/

namespace Verif.Spec

/-- A call of a method of the builder. -/
inductive Declares
  | param (t : ParamType)
  | params (ts : List ParamType)
  | variadic (t : ParamType)

/-- The parameters that are declared: all of them, in the order of the calls. -/
def declaredParams : List Declares → List ParamType
  | [] => []
  | .param t :: ds => t :: declaredParams ds
  | .params ts :: ds => ts ++ declaredParams ds
  | .variadic _ :: ds => declaredParams ds

/-- `t` is declared as variadic parameter: by the last call that declares one. -/
def VariadicIs (ds : List Declares) (t : ParamType) : Prop :=
  ∃ before after, ds = before ++ Declares.variadic t :: after ∧ ∀ t', Declares.variadic t' ∉ after

/-- `positional` and `rest` are arguments for these declarations; `ok` says when a value fits a parameter type. -/
def Accepted (ok : ParamType → Value → Prop) (ds : List Declares) (positional rest : List Value) : Prop :=
  List.Forall₂ ok (declaredParams ds) positional ∧ (rest ≠ [] → ∃ t, VariadicIs ds t) ∧
    ∀ t, VariadicIs ds t → ∀ a ∈ rest, ok t a

end Verif.Spec
