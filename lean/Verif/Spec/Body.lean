import Verif.Model.Body
/-!
Specification side of the body container: what a body contains, and what a client can conclude from
the operations it called and the values they returned.
-/

namespace Verif.Spec
open Verif Body
variable {A B : Type}

/-- The keys of the attributes of a body, in order. -/
def attrKeys : List (BStruct A B) → List Str
  | [] => []
  | .attr k _ :: rest => k :: attrKeys rest
  | .block _ _ :: rest => attrKeys rest

/-- The payloads of the blocks with identifier `i`, in order. -/
def blocksNamed (i : Str) : List (BStruct A B) → List B
  | [] => []
  | .attr _ _ :: rest => blocksNamed i rest
  | .block j b :: rest => if j = i then b :: blocksNamed i rest else blocksNamed i rest

/-- What the client knows about the attributes: an (unbounded) table. -/
abbrev Table (A : Type) := Str → Option A

/-- Add an entry unless the key is taken. -/
def Table.addIfNew (t : Table A) (k : Str) (a : A) : Table A :=
  fun k' => if k' = k ∧ t k = none then some a else t k'

/-- Drop an entry. -/
def Table.drop (t : Table A) (k : Str) : Table A := fun k' => if k' = k then none else t k'

/-- Update of the table when a structure is added / removed. -/
def Table.addStruct (t : Table A) : BStruct A B → Table A
  | .attr k a => t.addIfNew k a
  | .block _ _ => t

def Table.dropStruct (t : Table A) : Option (BStruct A B) → Table A
  | some (.attr k _) => t.drop k
  | _ => t

/-- The table after an operation, from the operation and the value it returned. -/
def Table.after (t : Table A) (op : Op A B) (r : Ret A B) : Table A :=
  match op, r with
  | .insert _ s, _ => t.addStruct s
  | .push s, _ => t.addStruct s
  | .extend ss, _ => ss.foldl Table.addStruct t
  | .pop, .structure s => t.dropStruct s
  | .remove _, .structure s => t.dropStruct s
  | .removeAttribute k, _ => t.drop k
  | .setAttribute k a, _ => fun k' => if k' = k ∧ (t k).isSome then some a else t k'
  | .clear, _ => fun _ => none
  | _, _ => t

/-- The table after a sequence of operations. -/
def Table.history (t : Table A) : List (Op A B) → List (Ret A B) → Table A
  | op :: ops, r :: rs => Table.history (t.after op r) ops rs
  | _, _ => t

end Verif.Spec
