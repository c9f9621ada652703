import Verif.Model.EditAst
/-!
Lines of a template (C23).
-/

namespace Verif.Spec

/-- The lines of a text: what is between the newlines, including the possibly empty text after the
last one. -/
def lines : Str → List Str
  | [] => [[]]
  | c :: r =>
    if c = '\n' then [] :: lines r
    else match lines r with
      | l :: ls => (c :: l) :: ls
      | [] => [[c]]

/-- The text of a template when every element that is not a literal stands for the text `f` gives
it. -/
def outline (f : EElem → Str) : List EElem → Str
  | [] => []
  | .lit _ s :: es => s ++ outline f es
  | e :: es => f e ++ outline f es

/-- The text stands on one line and begins with a character that is not whitespace. -/
def Inline (U : Uni) : Str → Prop
  | [] => False
  | c :: r => U.isWs c = false ∧ c ≠ '\n' ∧ '\n' ∉ r

/-- Literals are not empty, have no carriage return, and no two of them are next to each other: what
the parser makes of a text without carriage returns. -/
def Regular : List EElem → Prop
  | [] => True
  | .lit _ s :: es => s ≠ [] ∧ '\r' ∉ s ∧ Regular es ∧ ∀ sp t es', es ≠ .lit sp t :: es'
  | _ :: es => Regular es

end Verif.Spec
