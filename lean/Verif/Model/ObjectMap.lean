import Verif.Model.EditEq
import Verif.Model.Body
/-!
Model of the container operations of `hcl-edit`'s `Object`, `crates/hcl-edit/src/expr/object.rs`.

The entries of an object are a list of keys and values in order. `VecMap` (external, vecmap-rs) is
modelled after its documentation: an entry is found by going through the entries in order and
comparing keys with `PartialEq for ObjectKey`. Trailing whitespace, decor, span and capacity of the
object itself are not modelled; no operation below looks at them.
-/

namespace Verif.Obj

/-- `ObjectValue`, `crates/hcl-edit/src/expr/object.rs:393-399`, with the defaults of
`ObjectValue::new` (403-409). -/
structure Val where
  expr : EExpr
  assign : Assign := .equals
  term : ItemEnd := .comma

/-- An entry made of a key and a value. -/
def entry (k : EKey) (v : Val) : EItem := .mk k v.expr v.assign v.term

/-- The value of an entry. -/
def val (i : EItem) : Val := ⟨i.value, i.assign, i.term⟩

/-- `VecMap::get_index_of` (external): the position of the first entry with an equal key. -/
def indexOf (k : EKey) (is : List EItem) : Option Nat := is.findIdx? fun i => EExpr.beqKey i.key k

/-- `Object::get_key_value`, `crates/hcl-edit/src/expr/object.rs:92-94`. -/
def getKeyValue (k : EKey) (is : List EItem) : Option (EKey × Val) :=
  match indexOf k is with
  | some n => is[n]?.map fun i => (i.key, val i)
  | none => none

/-- `Object::get`, `crates/hcl-edit/src/expr/object.rs:80-82`. -/
def get (k : EKey) (is : List EItem) : Option Val := (getKeyValue k is).map (·.2)

/-- `Object::contains_key`, `crates/hcl-edit/src/expr/object.rs:74-76`. -/
def containsKey (k : EKey) (is : List EItem) : Bool := (indexOf k is).isSome

/-- `Object::len`, `crates/hcl-edit/src/expr/object.rs:62-64`. -/
def len (is : List EItem) : Nat := is.length

/-- `Object::is_empty`, `crates/hcl-edit/src/expr/object.rs:56-58`. -/
def isEmpty (is : List EItem) : Bool := is.isEmpty

/-- `Object::iter` and `IntoIterator for Object`, `crates/hcl-edit/src/expr/object.rs:146-148,242-258`. -/
def iter (is : List EItem) : List (EKey × Val) := is.map fun i => (i.key, val i)

/-- `Object::insert`, `crates/hcl-edit/src/expr/object.rs:117-124`, with the value that was replaced. -/
def insert (k : EKey) (v : Val) (is : List EItem) : List EItem × Option Val :=
  (itemInsert k v.expr v.assign v.term is, get k is)

/-- `Extend for Object`, `crates/hcl-edit/src/expr/object.rs:202-223` (and `FromIterator`, 225-240,
which extends an empty object). -/
def extend (es : List (EKey × Val)) (is : List EItem) : List EItem :=
  es.foldl (fun is e => (insert e.1 e.2 is).1) is

/-- `Object::remove_entry`, `crates/hcl-edit/src/expr/object.rs:139-142`: the entry is taken out
with `Vec::remove`. -/
def removeEntry (k : EKey) (is : List EItem) : List EItem × Option (EKey × Val) :=
  match indexOf k is with
  | none => (is, none)
  | some n => match Body.vecRemove n is with
    | some (i, rest) => (rest, some (i.key, val i))
    | none => (is, none)

/-- `Object::remove`, `crates/hcl-edit/src/expr/object.rs:130-133`. -/
def remove (k : EKey) (is : List EItem) : List EItem × Option Val :=
  ((removeEntry k is).1, (removeEntry k is).2.map (·.2))

/-- `*ObjectKeyMut::decor_mut() = d`, `crates/hcl-edit/src/expr/object.rs:354-362`. A `ObjectKeyMut`
gives access to the decor of the key and to nothing else. -/
def setDecor (d : Decor) (k : EKey) : EKey := k.mapMeta fun m => { m with decor := d }

/-- What a client can do with the references to a key and a value: set the decor of the key and
replace the value. -/
def change (f : EKey → Val → Decor × Val) (i : EItem) : EItem :=
  entry (setDecor (f i.key (val i)).1 i.key) (f i.key (val i)).2

/-- `Object::get_mut`, `crates/hcl-edit/src/expr/object.rs:86-88`, with an assignment through the
reference. -/
def setValue (k : EKey) (v : Val) (is : List EItem) : List EItem × Option Val :=
  match indexOf k is with
  | some n => (is.modify n fun i => entry i.key v, get k is)
  | none => (is, none)

/-- `Object::get_key_value_mut`, `crates/hcl-edit/src/expr/object.rs:98-105`, with a change through
the references. -/
def changeEntry (k : EKey) (f : EKey → Val → Decor × Val) (is : List EItem) : List EItem :=
  match indexOf k is with
  | some n => is.modify n (change f)
  | none => is

/-- `Object::iter_mut`, `crates/hcl-edit/src/expr/object.rs:153-159`, with a change through each of the
references. -/
def changeAll (f : EKey → Val → Decor × Val) (is : List EItem) : List EItem := is.map (change f)

/-- An operation. -/
inductive Op
  | insert (k : EKey) (v : Val)
  | extend (es : List (EKey × Val))
  | remove (k : EKey)
  | removeEntry (k : EKey)
  /-- `Object::clear`, `crates/hcl-edit/src/expr/object.rs:68-70` -/
  | clear
  | setValue (k : EKey) (v : Val)
  | changeEntry (k : EKey) (f : EKey → Val → Decor × Val)
  | changeAll (f : EKey → Val → Decor × Val)

/-- What an operation returns. -/
inductive Ret
  | unit
  | value (v : Option Val)
  | entry (e : Option (EKey × Val))

/-- One operation. -/
def step (is : List EItem) : Op → List EItem × Ret
  | .insert k v => ((insert k v is).1, .value (insert k v is).2)
  | .extend es => (extend es is, .unit)
  | .remove k => ((remove k is).1, .value (remove k is).2)
  | .removeEntry k => ((removeEntry k is).1, .entry (removeEntry k is).2)
  | .clear => ([], .unit)
  | .setValue k v => ((setValue k v is).1, .value (setValue k v is).2)
  | .changeEntry k f => (changeEntry k f is, .unit)
  | .changeAll f => (changeAll f is, .unit)

/-- A sequence of operations, starting with the given entries. -/
def run (is : List EItem) : List Op → List EItem × List Ret
  | [] => (is, [])
  | op :: ops => ((run (step is op).1 ops).1, (step is op).2 :: (run (step is op).1 ops).2)

end Verif.Obj
