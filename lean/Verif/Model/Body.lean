import Verif.Basic
/-!
Model of the container operations of `hcl-edit`'s `Body`, `crates/hcl-edit/src/structure/body.rs`.

A structure is an attribute (its key text and everything else as an opaque payload `A`) or a block (its
identifier text and everything else as an opaque payload `B`); the operations below never look at the
payloads. The display hints, decor and span of a body are not modelled. A `none` result is a panic.
-/

namespace Verif

/-- `Structure`, `crates/hcl-edit/src/structure/mod.rs`. -/
inductive BStruct (A B : Type)
  | attr (key : Str) (a : A)
  | block (ident : Str) (b : B)
  deriving DecidableEq

namespace Body
variable {A B : Type}

/-- `Structure::as_attribute` (`crates/hcl-edit/src/structure/mod.rs`), with the key. -/
def asAttribute : BStruct A B → Option (Str × A)
  | .attr k a => some (k, a)
  | .block _ _ => none

/-- `Structure::as_block` (`crates/hcl-edit/src/structure/mod.rs`), with the identifier. -/
def asBlock : BStruct A B → Option (Str × B)
  | .attr _ _ => none
  | .block i b => some (i, b)

/-- `Body::get_attribute`, `crates/hcl-edit/src/structure/body.rs:199-204`. -/
def getAttribute (key : Str) (b : List (BStruct A B)) : Option (Str × A) :=
  (b.filterMap asAttribute).find? (fun a => decide (a.1 = key))

/-- `Body::has_attribute`, `crates/hcl-edit/src/structure/body.rs:160-162`. -/
def hasAttribute (key : Str) (b : List (BStruct A B)) : Bool := (getAttribute key b).isSome

/-- `Body::get_blocks`, `crates/hcl-edit/src/structure/body.rs:269-276`. -/
def getBlocks (ident : Str) (b : List (BStruct A B)) : List (Str × B) :=
  (b.filterMap asBlock).filter (fun x => decide (x.1 = ident))

/-- `Body::has_blocks`, `crates/hcl-edit/src/structure/body.rs:177-179`. -/
def hasBlocks (ident : Str) (b : List (BStruct A B)) : Bool := (getBlocks ident b).head?.isSome

/-- `Vec::insert` (standard library): panics if the index is greater than the length. -/
def vecInsert {α : Type} (i : Nat) (x : α) (l : List α) : Option (List α) :=
  if i ≤ l.length then some (l.take i ++ x :: l.drop i) else none

/-- `Vec::remove` (standard library): panics if the index is out of bounds. -/
def vecRemove {α : Type} (i : Nat) (l : List α) : Option (α × List α) :=
  match l[i]? with
  | some x => some (x, l.take i ++ l.drop (i + 1))
  | none => none

/-- What an operation returns to the caller. -/
inductive Ret (A B : Type)
  | unit
  /-- `Err(attr)` of `try_insert` / `try_push` -/
  | rejected (key : Str) (a : A)
  | structure (s : Option (BStruct A B))
  | attribute (a : Option (Str × A))
  | blocks (bs : List (Str × B))

/-- `Body::try_insert`, `crates/hcl-edit/src/structure/body.rs:369-381`. -/
def tryInsert (i : Nat) (s : BStruct A B) (b : List (BStruct A B)) :
    Option (List (BStruct A B) × Ret A B) :=
  match s with
  | .attr k a =>
    if hasAttribute k b then some (b, .rejected k a)
    else (vecInsert i (.attr k a) b).map (·, .unit)
  | .block j x => (vecInsert i (.block j x) b).map (·, .unit)

/-- `Body::try_push`, `crates/hcl-edit/src/structure/body.rs:424-432`. -/
def tryPush (s : BStruct A B) (b : List (BStruct A B)) : List (BStruct A B) × Ret A B :=
  match s with
  | .attr k a => if hasAttribute k b then (b, .rejected k a) else (b ++ [.attr k a], .unit)
  | .block j x => (b ++ [.block j x], .unit)

/-- `Extend for Body`, `crates/hcl-edit/src/structure/body.rs:716-733` (also `FromIterator`,
735-749, from the empty body): pushes one after the other. -/
def extend (b : List (BStruct A B)) (ss : List (BStruct A B)) : List (BStruct A B) :=
  ss.foldl (fun b s => (tryPush s b).1) b

/-- `Body::pop`, `crates/hcl-edit/src/structure/body.rs:436-438`. -/
def pop (b : List (BStruct A B)) : List (BStruct A B) × Option (BStruct A B) :=
  (b.dropLast, b.getLast?)

/-- The structure is an attribute with the key (`remove_attribute`,
`crates/hcl-edit/src/structure/body.rs:478-482`). -/
def isAttr (key : Str) (s : BStruct A B) : Bool :=
  match asAttribute s with
  | some a => decide (a.1 = key)
  | none => false

/-- The structure is a block with the identifier (`remove_block`,
`crates/hcl-edit/src/structure/body.rs:542-546`). -/
def isBlock (ident : Str) (s : BStruct A B) : Bool :=
  match asBlock s with
  | some x => decide (x.1 = ident)
  | none => false

/-- `Body::remove_attribute`, `crates/hcl-edit/src/structure/body.rs:475-484`: `position`, then
`remove`, then `into_attribute`. A `none` from `remove` would be a panic; the index comes from
`position` and is in bounds. -/
def removeAttribute (key : Str) (b : List (BStruct A B)) :
    Option (List (BStruct A B) × Option (Str × A)) :=
  match b.findIdx? (isAttr key) with
  | none => some (b, none)
  | some i => match vecRemove i b with
    | some (s, b') => some (b', asAttribute s)
    | none => none

/-- `Body::remove_block`, `crates/hcl-edit/src/structure/body.rs:539-548`. -/
def removeBlock (ident : Str) (b : List (BStruct A B)) :
    Option (List (BStruct A B) × Option (Str × B)) :=
  match b.findIdx? (isBlock ident) with
  | none => some (b, none)
  | some i => match vecRemove i b with
    | some (s, b') => some (b', asBlock s)
    | none => none

/-- The loop of `Body::remove_blocks`, `crates/hcl-edit/src/structure/body.rs:529-537`, bounded by `n`
rounds (every round removes a structure, so the length of the body plus one is enough);
`none` also stands for running out of rounds. -/
def removeBlocksF (ident : Str) : Nat → List (BStruct A B) →
    Option (List (BStruct A B) × List (Str × B))
  | 0, _ => none
  | n + 1, b => match removeBlock ident b with
    | none => none
    | some (b', none) => some (b', [])
    | some (b', some x) => match removeBlocksF ident n b' with
      | none => none
      | some (b'', xs) => some (b'', x :: xs)

/-- `Body::remove_blocks`, `crates/hcl-edit/src/structure/body.rs:529-537`. -/
def removeBlocks (ident : Str) (b : List (BStruct A B)) :
    Option (List (BStruct A B) × List (Str × B)) :=
  removeBlocksF ident (b.length + 1) b

/-- `get_attribute_mut` (`crates/hcl-edit/src/structure/body.rs:230-236`) used to assign the value: an
`AttributeMut` gives mutable access to everything but the key
(`crates/hcl-edit/src/structure/attribute.rs`). -/
def setAttribute (key : Str) (a : A) : List (BStruct A B) → List (BStruct A B)
  | [] => []
  | s :: rest => if isAttr key s then
      (match s with | .attr k _ => .attr k a | .block i x => .block i x) :: rest
    else s :: setAttribute key a rest

/-- The mutating operations of the public interface that do not hand out `&mut Structure`. -/
inductive Op (A B : Type)
  /-- `insert` / `try_insert` -/
  | insert (i : Nat) (s : BStruct A B)
  /-- `push` / `try_push` / `BodyBuilder::structure` -/
  | push (s : BStruct A B)
  /-- `extend` / `BodyBuilder::structures` -/
  | extend (ss : List (BStruct A B))
  | pop
  | remove (i : Nat)
  | removeAttribute (key : Str)
  | removeBlocks (ident : Str)
  | setAttribute (key : Str) (a : A)
  | clear

/-- One operation; `none` is a panic. -/
def step (b : List (BStruct A B)) : Op A B → Option (List (BStruct A B) × Ret A B)
  | .insert i s => tryInsert i s b
  | .push s => some (tryPush s b)
  | .extend ss => some (extend b ss, .unit)
  | .pop => some ((pop b).1, .structure (pop b).2)
  | .remove i => (vecRemove i b).map fun r => (r.2, .structure (some r.1))
  | .removeAttribute k => (removeAttribute k b).map fun r => (r.1, .attribute r.2)
  | .removeBlocks i => (removeBlocks i b).map fun r => (r.1, .blocks r.2)
  | .setAttribute k a => some (setAttribute k a b, .unit)
  | .clear => some ([], .unit)

/-- A sequence of operations, with the returned values. -/
def run (b : List (BStruct A B)) : List (Op A B) → Option (List (BStruct A B) × List (Ret A B))
  | [] => some (b, [])
  | op :: ops => match step b op with
    | none => none
    | some (b', r) => match run b' ops with
      | none => none
      | some (b'', rs) => some (b'', r :: rs)

end Body
end Verif
