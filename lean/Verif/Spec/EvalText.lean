import Verif.Spec.InPlace
import Verif.Spec.Printable
/-!
What reading and writing documents with evaluation should do (C84).
-/

namespace Verif.Spec

/-- The body `b'` is `b` with the value of its expression for every attribute, in all blocks. -/
def Evaluated (env : Env) (ctx : Ctx) (b b' : List Struct) : Prop :=
  SameShape (fun e e' => ∃ v, eval env ctx e = .ok v ∧ e' = ofValue v) b b'

section
variable (E : FmtEnv) (bd : Build)

mutual

/-- Values whose numbers and strings come back when they are written as text (C52, C13). -/
def Writable : Value → Prop
  | .null => True
  | .bool _ => True
  | .number n => NumberSafe E bd n
  | .string s => StringSafe s
  | .array vs => WritableList vs
  | .object es => WritableEntries es
termination_by structural x => x

def WritableList : List Value → Prop
  | [] => True
  | v :: vs => Writable v ∧ WritableList vs
termination_by structural x => x

def WritableEntries : List (Str × Value) → Prop
  | [] => True
  | (k, v) :: es => StringSafe k ∧ Writable v ∧ WritableEntries es
termination_by structural x => x

end

end

mutual

/-- The labels of the blocks that are strings come back when they are written as text. -/
def LabelsSafe : List Struct → Prop
  | [] => True
  | s :: ss => LabelsSafe1 s ∧ LabelsSafe ss
termination_by structural x => x

def LabelsSafe1 : Struct → Prop
  | .attr _ _ => True
  | .block _ ls b => (∀ s, Label.string s ∈ ls → StringSafe s) ∧ LabelsSafe b
termination_by structural x => x

end

end Verif.Spec
