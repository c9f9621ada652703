import Verif.Basic
/-! Specification of identifiers (HCL syntax specification, "Identifiers"), independent of the code:
`Identifier = ID_Start (ID_Continue | '-')*`, where hcl-rs additionally allows `_` first. -/

namespace Verif.Spec

/-- Characters that may begin an identifier. -/
def IdFirst (U : Uni) (c : Char) : Prop := U.xidStart c = true ∨ c = '_'

/-- Characters that may occur after the first one. -/
def IdRest (U : Uni) (c : Char) : Prop := U.xidContinue c = true ∨ c = '-'

/-- The identifier grammar as a relation on texts. -/
def IsIdentifier (U : Uni) (s : Str) : Prop :=
  ∃ c cs, s = c :: cs ∧ IdFirst U c ∧ ∀ d ∈ cs, IdRest U d

end Verif.Spec
