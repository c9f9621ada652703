import Verif.Model.ObjectMap
import Verif.Spec.Content
/-!
What a client of an object knows after a history of calls (C74). Keys are told apart by their content:
decor, spans and the notation of numbers do not count.
-/

namespace Verif.Spec
open Verif Obj

/-- The keys say the same. -/
def EqualKey (a b : EKey) : Prop := Same (keyContent a) (keyContent b)

/-- The key is well-formed: its numbers are, and the objects in it have no key twice. -/
def ProperKey (k : EKey) : Prop := Proper (keyContent k)

/-- What is stored for every key: the key as it was first inserted, and its value. -/
abbrev Known := EKey → Option (EKey × Val)

open Classical in
/-- A value is stored for a key. A key that is there stays as it is. -/
noncomputable def Known.put (t : Known) (k : EKey) (v : Val) : Known := fun k' =>
  if EqualKey k k' then some (((t k).map (·.1)).getD k, v) else t k'

open Classical in
/-- Nothing is stored for the key any more. -/
noncomputable def Known.drop (t : Known) (k : EKey) : Known := fun k' =>
  if EqualKey k k' then none else t k'

/-- A stored key with other decor, and another value. -/
def changed (f : EKey → Val → Decor × Val) (e : EKey × Val) : EKey × Val :=
  (setDecor (f e.1 e.2).1 e.1, (f e.1 e.2).2)

open Classical in
/-- What is stored after an operation. -/
noncomputable def Known.after (t : Known) : Op → Known
  | .insert k v => t.put k v
  | .extend es => es.foldl (fun t e => t.put e.1 e.2) t
  | .remove k => t.drop k
  | .removeEntry k => t.drop k
  | .clear => fun _ => none
  | .setValue k v => if (t k).isSome then t.put k v else t
  | .changeEntry k f => fun k' => if EqualKey k k' then (t k).map (changed f) else t k'
  | .changeAll f => fun k' => (t k').map (changed f)

/-- What is stored after a sequence of operations. -/
noncomputable def Known.history (t : Known) (ops : List Op) : Known := ops.foldl Known.after t

/-- The operation is called with well-formed keys. -/
def _root_.Verif.Obj.Op.ProperKeys : Op → Prop
  | .insert k _ | .remove k | .removeEntry k | .setValue k _ | .changeEntry k _ => ProperKey k
  | .extend es => ∀ e ∈ es, ProperKey e.1
  | .clear | .changeAll _ => True

/-- The keys are well-formed and pairwise different. -/
def DistinctKeys (is : List EItem) : Prop :=
  (∀ i ∈ is, ProperKey i.key) ∧ is.Pairwise fun i j => ¬ EqualKey i.key j.key

end Verif.Spec
