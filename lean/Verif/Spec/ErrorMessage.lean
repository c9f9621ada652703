import Verif.Model.ErrorMessage
/-!
C93: lists of alternatives in messages.
-/

namespace Verif.Spec

/-- Alternatives as a text has them: `a`, `a or b`, `a, b or c`, … -/
def alternatives : List Str → Str
  | [] => []
  | [a] => a
  | [a, b] => a ++ c!" or " ++ b
  | a :: b :: es => a ++ c!", " ++ alternatives (b :: es)

/-- What was noted as expected. -/
def expectedIn : List ParseNote → List Str
  | [] => []
  | .label _ :: ns => expectedIn ns
  | .expected s :: ns => s :: expectedIn ns

/-- The first thing noted as being parsed. -/
def labelIn : List ParseNote → Option Str
  | [] => none
  | .label s :: _ => some s
  | .expected _ :: ns => labelIn ns

end Verif.Spec
