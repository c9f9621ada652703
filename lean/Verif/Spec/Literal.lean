import Verif.Basic
/-! Specification of template literals (HCL syntax specification, "Template Literals"): how a reader
of a template understands literal text. `$${` and `%%{` stand for the two characters `${` and `%{`;
a `${` or `%{` that is not part of such an escape starts an interpolation or directive. -/

namespace Verif.Spec

/-- The two sigils that can introduce a template sequence. -/
def Sigil (c : Char) : Prop := c = '$' ∨ c = '%'

instance (c : Char) : Decidable (Sigil c) := inferInstanceAs (Decidable (_ ∨ _))

/-- Left-to-right reading of literal text: `none` if an interpolation or directive starts
somewhere, otherwise the denoted text. -/
def readLiteral : Str → Option Str
  | '$' :: '$' :: '{' :: r => (readLiteral r).map (fun t => '$' :: '{' :: t)
  | '%' :: '%' :: '{' :: r => (readLiteral r).map (fun t => '%' :: '{' :: t)
  | '$' :: '{' :: _ => none
  | '%' :: '{' :: _ => none
  | c :: r => (readLiteral r).map (c :: ·)
  | [] => some []

/-- The text contains a `${` or `%{` (escaped or not). -/
def HasMarker (s : Str) : Prop := ∃ a c b, s = a ++ c :: '{' :: b ∧ Sigil c

end Verif.Spec
