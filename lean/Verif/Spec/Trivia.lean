import Verif.Basic
/-! What whitespace and comments are (C15), independent of the parser. -/

namespace Verif.Spec

/-- A line comment without its line ending. -/
def LineComment (x : Str) : Prop :=
  ∃ t, (x = '#' :: t ∨ x = '/' :: '/' :: t) ∧ '\n' ∉ t ∧ '\r' ∉ t

/-- A block comment: it ends at the first `*/`. -/
def BlockComment (x : Str) : Prop := ∃ t, x = c!"/*" ++ t ++ c!"*/" ∧ ¬ c!"*/" <:+: t

/-- Whitespace and comments. With `nl = false` there is no line break outside of a block comment and
no line comment. A line comment extends to the next line break or to the end. -/
inductive Trivia : Bool → Str → Prop
  | nil {nl} : Trivia nl []
  | blank {nl c t} : c = ' ' ∨ c = '\t' → Trivia nl t → Trivia nl (c :: t)
  | newline {c t} : c = '\n' ∨ c = '\r' → Trivia true t → Trivia true (c :: t)
  | line {x t} : LineComment x → t = [] ∨ t.head? = some '\n' ∨ t.head? = some '\r' → Trivia true t →
      Trivia true (x ++ t)
  | block {nl x t} : BlockComment x → Trivia nl t → Trivia nl (x ++ t)

/-- The text is at the end of a line: at the end of the input or in front of `\n` or `\r\n`. -/
def AtLineEnd (r : Str) : Prop := r = [] ∨ c!"\n" <+: r ∨ c!"\r\n" <+: r

/-- The text starts with a blank, with a line break (if `nl`), with a complete block comment or (if
`nl`) with a line comment that extends to the end of its line. -/
def StartsTrivia (nl : Bool) (u : Str) : Prop :=
  (∃ c r, u = c :: r ∧ (c = ' ' ∨ c = '\t' ∨ nl = true ∧ (c = '\n' ∨ c = '\r'))) ∨
  ∃ x r, u = x ++ r ∧ (BlockComment x ∨ nl = true ∧ LineComment x ∧ AtLineEnd r)

end Verif.Spec
