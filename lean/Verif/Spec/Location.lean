import Verif.Basic
/-! Positions in a text (C26). -/

namespace Verif.Spec

/-- The one-based number of the line with the character at index `n`: one more than the number of
line breaks before it. -/
def lineNumber (s : Str) (n : Nat) : Nat := (s.take n).count '\n' + 1

/-- The text of that line before the character at index `n`. -/
def linePrefix (s : Str) (n : Nat) : Str := ((s.take n).reverse.takeWhile (· != '\n')).reverse

/-- The one-based column of the character at index `n`. -/
def columnNumber (s : Str) (n : Nat) : Nat := (linePrefix s n).length + 1

/-- The line with the character at index `n`, without its line break. -/
def lineText (s : Str) (n : Nat) : Str := linePrefix s n ++ (s.drop n).takeWhile (· != '\n')

end Verif.Spec
