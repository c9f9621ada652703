import Verif.Basic
import Verif.Model.Number
/-!
Model of `crates/hcl-rs/src/value/mod.rs` (the `Value` type), of the insertion-ordered maps it
uses (`indexmap::IndexMap`, external crate) and of their equality.
-/

namespace Verif

/-- `Value`, `crates/hcl-rs/src/value/mod.rs:19-33`. An object (`IndexMap<String, Value>`) is the
list of its entries in iteration order; keys are unique in every map the code can build, which is
the separate predicate `Value.WF`. -/
inductive Value
  | null
  | bool (b : Bool)
  | number (n : N)
  | string (s : Str)
  | array (xs : List Value)
  | object (es : List (Str × Value))

namespace Map

/-- `IndexMap::get` (indexmap 2.14, external): the value stored under the key. -/
def get? {K V : Type} [DecidableEq K] (k : K) : List (K × V) → Option V
  | [] => none
  | (k', v) :: rest => if k' = k then some v else get? k rest

/-- `IndexMap::insert` (indexmap 2.14, external): the value of an existing key is replaced at its
position, a new key is appended. -/
def insert {K V : Type} [DecidableEq K] (k : K) (v : V) : List (K × V) → List (K × V)
  | [] => [(k, v)]
  | (k', v') :: rest => if k' = k then (k', v) :: rest else (k', v') :: insert k v rest

/-- `FromIterator for IndexMap` (external): insert the pairs one after the other. -/
def collect {K V : Type} [DecidableEq K] (es : List (K × V)) : List (K × V) :=
  es.foldl (fun m e => insert e.1 e.2 m) []

end Map

mutual
/-- Derived `PartialEq for Value`, `crates/hcl-rs/src/value/mod.rs:18`. Numbers compare with
`Number`'s `==`; objects with `IndexMap`'s `==`: same length and every entry of the left map has an
equal entry in the right one, in any order. -/
def Value.beq : Value → Value → Bool
  | .null, .null => true
  | .bool a, .bool b => a == b
  | .number a, .number b => N.eq a b
  | .string a, .string b => decide (a = b)
  | .array a, .array b => Value.beqList a b
  | .object a, .object b => a.length == b.length && Value.beqObj a b
  | _, _ => false
/-- `PartialEq for Vec<Value>` (standard library). -/
def Value.beqList : List Value → List Value → Bool
  | [], [] => true
  | a :: as, b :: bs => Value.beq a b && Value.beqList as bs
  | _, _ => false
/-- The entry comparison of `PartialEq for IndexMap` (external). -/
def Value.beqObj : List (Str × Value) → List (Str × Value) → Bool
  | [], _ => true
  | (k, v) :: rest, other =>
    (match Map.get? k other with
      | some w => Value.beq v w
      | none => false) && Value.beqObj rest other
end

mutual
/-- Every object inside the value has pairwise different keys (the `IndexMap` invariant). -/
def Value.WF : Value → Prop
  | .array xs => Value.WFList xs
  | .object es => (es.map Prod.fst).Nodup ∧ Value.WFObj es
  | _ => True
/-- `Value.WF` for all elements. -/
def Value.WFList : List Value → Prop
  | [] => True
  | v :: vs => v.WF ∧ Value.WFList vs
/-- `Value.WF` for all entry values. -/
def Value.WFObj : List (Str × Value) → Prop
  | [] => True
  | (_, v) :: es => v.WF ∧ Value.WFObj es
end

/-- `Value::as_array`, `crates/hcl-rs/src/value/mod.rs:38-43`. -/
def Value.asArray : Value → Option (List Value)
  | .array xs => some xs
  | _ => none

/-- `Value::as_object`, `crates/hcl-rs/src/value/mod.rs`. -/
def Value.asObject : Value → Option (List (Str × Value))
  | .object es => some es
  | _ => none

end Verif
