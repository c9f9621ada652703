import Verif.Spec.Printable
/-!
The templates that are displayed as a text from which they can be read again (C83). What is excluded is what the text
does not show: where one literal ends and the next one begins, empty literals, the strip markers of an `else` that does
not exist, and literals that end in `$` or `%` in front of a control sequence which starts with the same character.
-/

namespace Verif.Spec
open Syn

/-- The character that a control sequence starts with. -/
def sigilOfElem : Elem → Option Char
  | .lit _ => none
  | .interp .. => some '$'
  | .ifDir .. | .forDir .. => some '%'

/-- The literal `s` is followed by the end of the text (`next = none`), by the end of the branch of a directive
(`next = some '%'`), or by a control sequence; and its last character is not the first one of what follows. -/
def LitFollow (s : Str) (next : Option Char) : List Elem → Prop
  | [] => ∀ c, next = some c → s.getLast? ≠ some c
  | e :: _ => ∃ c, sigilOfElem e = some c ∧ s.getLast? ≠ some c

section
variable (E : FmtEnv) (bd : Build) (cfg : FmtCfg) (tm : Bool)

mutual

/-- Elements that are displayed as a text from which they can be read again. -/
def ShownElem : Elem → Prop
  | .lit s => s ≠ [] ∧ StringSafe s
  | .interp e _ => Printable E bd cfg tm e
  | .ifDir c t f _ j _ => Printable E bd cfg tm c ∧ ShownElems (some '%') t ∧ ShownElse f ∧ (f = none → j = .none)
  | .forDir k v c t _ _ => (∀ x, k = some x → IsIdentifier E.U x) ∧ IsIdentifier E.U v ∧ Printable E bd cfg tm c ∧
      ShownElems (some '%') t
termination_by structural x => x

/-- The elements of a template, or of a branch of a directive. -/
def ShownElems : Option Char → List Elem → Prop
  | _, [] => True
  | next, e :: es => ShownElem e ∧ (∀ s, e = .lit s → LitFollow s next es) ∧ ShownElems next es
termination_by structural _ x => x

/-- The second branch of an `if` directive. -/
def ShownElse : Option (List Elem) → Prop
  | none => True
  | some t => ShownElems (some '%') t
termination_by structural x => x

end

/-- Templates that are displayed as a text from which they can be read again. -/
def ShownTemplate (t : List Elem) : Prop := ShownElems E bd cfg tm none t

end

end Verif.Spec
