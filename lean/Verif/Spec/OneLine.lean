import Verif.Spec.Source
/-! Texts on one line (C69). -/

namespace Verif.Spec

/-- What encloses text that may contain line breaks: brackets, quotes, the start of a heredoc and of a
block comment. -/
def brackets : List Str := [c!"(", c!"[", c!"{", c!"\"", c!"<<", c!"/*"]

/-- A text outside of all brackets, in which no `.` is in front of whitespace or a comment. -/
def Bracketless (t : Str) : Prop :=
  (∀ b ∈ brackets, ¬ b <:+: t) ∧ ∀ c ∈ [' ', '\t', '\n', '\r', '#', '/'], ¬ ['.', c] <:+: t

/-- A text without line breaks. -/
def OneLine (t : Str) : Prop := '\n' ∉ t ∧ '\r' ∉ t

/-- An attribute of a body or of a block in it, at any depth. -/
inductive HasAttr : List EStruct → Meta → DIdent → EExpr → Prop
  | here {ss m k v} : .attr m k v ∈ ss → HasAttr ss m k v
  | inside {ss bm i ls dm bs o om m k v} : .block bm i ls (.mk dm bs o om) ∈ ss → HasAttr bs m k v →
      HasAttr ss m k v

end Verif.Spec
