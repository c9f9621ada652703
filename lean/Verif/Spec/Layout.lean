import Verif.Basic
/-! When two texts contain the same tokens and differ in layout only (C30). -/

namespace Verif.Spec

/-- A layout character. -/
def blank (c : Char) : Bool := c == ' ' || c == '\t' || c == '\n' || c == '\r'

/-- A text of layout characters. -/
def Blanks (s : Str) : Prop := ∀ c ∈ s, blank c = true

/-- The two texts are the same tokens in the same order. They may differ in the blanks after an opening
bracket, before a closing bracket and after a comma, and in the blanks of line breaks; if `sep`, also in
whether two object items are separated by a comma or a line break. -/
inductive SameTokens (sep : Bool) : Str → Str → Prop
  | same (s) : SameTokens sep s s
  | app {a a' b b'} : SameTokens sep a a' → SameTokens sep b b' → SameTokens sep (a ++ b) (a' ++ b')
  | opening {c l l'} : c = '[' ∨ c = '{' → Blanks l → Blanks l' → SameTokens sep (c :: l) (c :: l')
  | closing {c l l'} : c = ']' ∨ c = '}' → Blanks l → Blanks l' → SameTokens sep (l ++ [c]) (l' ++ [c])
  | comma {l l'} : Blanks l → Blanks l' → SameTokens sep (',' :: l) (',' :: l')
  | lines {l l'} : Blanks l → Blanks l' → SameTokens sep ('\n' :: l) ('\n' :: l')
  | item {l} : sep = true → Blanks l → SameTokens sep c!", " ('\n' :: l)
  | item' {l} : sep = true → Blanks l → SameTokens sep ('\n' :: l) c!", "

end Verif.Spec
