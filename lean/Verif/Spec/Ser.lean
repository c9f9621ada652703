import Verif.Spec.Ident
import Verif.Model.Ser
import Verif.Spec.Number
/-!
Specification vocabulary for serialization: well-formed registries, honest and well-placed values, and
trees of labels.
-/

namespace Verif.Spec
open Verif

/-- The live handles of a registry are pairwise different, and all were given out before the next one. -/
def RegOk {α : Type} (r : Reg α) : Prop :=
  (r.live.map Prod.fst).Nodup ∧ ∀ p ∈ r.live, p.1 < r.last

/-- Both registries are well formed. -/
def StOk (st : SerSt) : Prop := RegOk st.exprs ∧ RegOk st.structs

/-- The same mode and the same live handles. -/
def SameLive (a b : SerSt) : Prop :=
  b.internal = a.internal ∧ b.exprs.live = a.exprs.live ∧ b.structs.live = a.structs.live

mutual
/-- The value does not panic by itself and no struct of its own has one of the two names this crate
reserves for its handles (both start with a NUL character). What it does after a nested serialization
only has to be honest if that one did not panic. -/
def Honest : SVal → Prop
  | .panic => False
  | .some v => Honest v
  | .newtypeStruct _ v => Honest v
  | .newtypeVariant _ v => Honest v
  | .seq vs => HonestAll vs
  | .tupleVariant _ vs => HonestAll vs
  | .map es => HonestEntries es
  | .struct n fs => n ≠ exprMarker ∧ n ≠ structMarker ∧ HonestFields fs
  | .structVariant _ fs => HonestFields fs
  | .block v => Honest v
  | .labeled v => Honest v
  | .nested _ v k => Honest v ∧ ∀ g, g ≠ .panic → Honest (k g)
  | _ => True
termination_by structural x => x
/-- All elements are honest. -/
def HonestAll : List SVal → Prop
  | [] => True
  | v :: vs => Honest v ∧ HonestAll vs
termination_by structural x => x
/-- All entries are honest. -/
def HonestEntries : List (SVal × SVal) → Prop
  | [] => True
  | e :: es => HonestEntry e ∧ HonestEntries es
termination_by structural x => x
/-- Key and value are honest. -/
def HonestEntry : SVal × SVal → Prop
  | (k, v) => Honest k ∧ Honest v
termination_by structural x => x
/-- All fields are honest. -/
def HonestFields : List (Str × SVal) → Prop
  | [] => True
  | f :: fs => HonestField f ∧ HonestFields fs
termination_by structural x => x
/-- The field's value is honest. -/
def HonestField : Str × SVal → Prop
  | (_, v) => Honest v
termination_by structural x => x
end

/-- The places of a serialized value, in the words of the documentation
(`crates/hcl-rs/src/ser/mod.rs:14-29`, `crates/hcl-rs/src/ser/blocks.rs:9-31,158-182`): the whole
document, the value of a field, the content of a `Block<T>`, the content of a `LabeledBlock<T>`, an
expression, a map key (with the mode that is on), and a value given to `to_value` (with the mode it was
called in). -/
inductive Pos
  | document
  | field
  | block
  | labeled
  | expr
  | key (internal : Bool)
  | value (internal : Bool)
  deriving DecidableEq

/-- The mode that is on at the place. -/
def Pos.internal : Pos → Bool
  | .key b | .value b => b
  | _ => true

/-- The place of what is wrapped in a newtype struct. -/
def Pos.wrapped (name : Str) : Pos → Pos
  | .field => if name = blockMarker then .block else if name = labeledMarker then .labeled else .expr
  | .block => if name = labeledMarker then .labeled else .block
  | p => p

/-- The place of the elements of a sequence. -/
def Pos.elem : Pos → Pos
  | .field => .expr
  | p => p

/-- The place of the values of a map or of the fields of a struct. -/
def Pos.entry : Pos → Pos
  | .document | .block => .field
  | .field => .expr
  | .labeled => .block
  | p => p

/-- The place of the fields of a tuple variant. -/
def Pos.tuple : Pos → Pos
  | .document | .field => .expr
  | .labeled => .block
  | p => p

/-- The place of the content of a newtype variant. -/
def Pos.variant : Pos → Pos
  | .document | .block => .field
  | .field => .expr
  | .labeled => .block
  | p => p

/-- The place of the value given to a serialization that is started at a place. -/
def Pos.enter (p : Pos) : Entry → Pos
  | .body => .document
  | .expr => .expr
  | .value => .value p.internal

/-- The place is the key of a map, where sequences, maps and structs are rejected at once. -/
def Pos.isKey : Pos → Bool
  | .key _ => true
  | _ => false

mutual
/-- Expressions of this crate occur only in the document itself, as (parts of) the values of fields, and
structures only in the document itself; neither occurs in a map key, directly inside `Block<T>` or
`LabeledBlock<T>`, or in something given to `to_value` from within a serialization. Outside of a
serialization into HCL (`to_value`) they may occur anywhere. -/
def Sited : Pos → SVal → Prop
  | p, .some v => Sited p v
  | p, .newtypeStruct n v => Sited (p.wrapped n) v
  | p, .newtypeVariant _ v => Sited p.variant v
  | p, .seq vs => p.isKey = true ∨ SitedAll p.elem vs
  | p, .tupleVariant _ vs => p.isKey = true ∨ SitedAll p.tuple vs
  | p, .map es => p.isKey = true ∨ SitedEntries p es
  | p, .struct _ fs => p.isKey = true ∨ SitedFields p.entry fs
  | p, .structVariant _ fs => p.isKey = true ∨ SitedFields p.entry fs
  | p, .block v => Sited (p.wrapped blockMarker) v
  | p, .labeled v => Sited (p.wrapped labeledMarker) v
  | p, .hclExpr _ => p = .document ∨ p = .field ∨ p = .expr ∨ p.internal = false
  | p, .hclStruct _ => p = .document ∨ p.internal = false
  | p, .nested en v k => Sited (p.enter en) v ∧ ∀ g, Sited p (k g)
  | _, _ => True
termination_by structural _ x => x
/-- All elements are well placed. -/
def SitedAll : Pos → List SVal → Prop
  | _, [] => True
  | p, v :: vs => Sited p v ∧ SitedAll p vs
termination_by structural _ x => x
/-- All entries are well placed. -/
def SitedEntries : Pos → List (SVal × SVal) → Prop
  | _, [] => True
  | p, e :: es => SitedEntry p e ∧ SitedEntries p es
termination_by structural _ x => x
/-- Key and value are well placed. -/
def SitedEntry : Pos → SVal × SVal → Prop
  | p, (k, v) => Sited (.key p.internal) k ∧ Sited p.entry v
termination_by structural _ x => x
/-- All fields are well placed. -/
def SitedFields : Pos → List (Str × SVal) → Prop
  | _, [] => True
  | p, f :: fs => SitedField p f ∧ SitedFields p fs
termination_by structural _ x => x
/-- The field's value is well placed. -/
def SitedField : Pos → Str × SVal → Prop
  | p, (_, v) => Sited p v
termination_by structural _ x => x
end

mutual
/-- What can stand where blocks are expected: the content of one block, a sequence of such things, or a
`LabeledBlock<T>` of things with keys. -/
inductive LTree
  | leaf (v : SVal)
  | many (ts : List LTree)
  | labeled (c : LKeys)
/-- What a `LabeledBlock<T>` can contain: a map (with keys that are strings), a struct, the three kinds of
enum variants with data, a sequence of such things, or another `LabeledBlock<T>`. -/
inductive LKeys
  | map (es : List (Str × LTree))
  | struct (name : Str) (fs : List (Str × LTree))
  | variant (x : Str) (t : LTree)
  | tuple (x : Str) (ts : List LTree)
  | fields (x : Str) (fs : List (Str × LTree))
  | many (cs : List LKeys)
  | labeled (c : LKeys)
end

mutual
/-- The value of the tree. -/
def LTree.val : LTree → SVal
  | .leaf v => v
  | .many ts => .seq (LTree.vals ts)
  | .labeled c => .labeled c.val
termination_by structural x => x
/-- The value of the things with keys. -/
def LKeys.val : LKeys → SVal
  | .map es => .map (LTree.valEntries es)
  | .struct n fs => .struct n (LTree.valFields fs)
  | .variant x t => .newtypeVariant x t.val
  | .tuple x ts => .tupleVariant x (LTree.vals ts)
  | .fields x fs => .structVariant x (LTree.valFields fs)
  | .many cs => .seq (LKeys.vals cs)
  | .labeled c => .labeled c.val
termination_by structural x => x
/-- The values of a sequence. -/
def LTree.vals : List LTree → List SVal
  | [] => []
  | t :: ts => t.val :: LTree.vals ts
termination_by structural x => x
/-- The values of a sequence. -/
def LKeys.vals : List LKeys → List SVal
  | [] => []
  | c :: cs => c.val :: LKeys.vals cs
termination_by structural x => x
/-- The entries of a map. -/
def LTree.valEntries : List (Str × LTree) → List (SVal × SVal)
  | [] => []
  | e :: es => LTree.valEntry e :: LTree.valEntries es
termination_by structural x => x
/-- One entry of a map. -/
def LTree.valEntry : Str × LTree → SVal × SVal
  | (k, t) => (.str k, t.val)
termination_by structural x => x
/-- The fields of a struct. -/
def LTree.valFields : List (Str × LTree) → List (Str × SVal)
  | [] => []
  | e :: es => LTree.valField e :: LTree.valFields es
termination_by structural x => x
/-- One field of a struct. -/
def LTree.valField : Str × LTree → Str × SVal
  | (k, t) => (k, t.val)
termination_by structural x => x
end

mutual
/-- The leaves of the tree from left to right, each with the keys on the way to it, outermost first. -/
def LTree.paths : LTree → List (List Str × SVal)
  | .leaf v => [([], v)]
  | .many ts => LTree.pathsAll ts
  | .labeled c => c.paths
termination_by structural x => x
/-- The leaves and the keys on the way to them. -/
def LKeys.paths : LKeys → List (List Str × SVal)
  | .map es => LTree.pathsFields es
  | .struct _ fs => LTree.pathsFields fs
  | .variant x t => t.paths.map fun p => (x :: p.1, p.2)
  | .tuple x ts => (LTree.pathsAll ts).map fun p => (x :: p.1, p.2)
  | .fields x fs => (LTree.pathsFields fs).map fun p => (x :: p.1, p.2)
  | .many cs => LKeys.pathsAll cs
  | .labeled c => c.paths
termination_by structural x => x
/-- The leaves of a sequence. -/
def LTree.pathsAll : List LTree → List (List Str × SVal)
  | [] => []
  | t :: ts => t.paths ++ LTree.pathsAll ts
termination_by structural x => x
/-- The leaves of a sequence. -/
def LKeys.pathsAll : List LKeys → List (List Str × SVal)
  | [] => []
  | c :: cs => c.paths ++ LKeys.pathsAll cs
termination_by structural x => x
/-- The leaves of a map or struct. -/
def LTree.pathsFields : List (Str × LTree) → List (List Str × SVal)
  | [] => []
  | e :: es => LTree.pathsField e ++ LTree.pathsFields es
termination_by structural x => x
/-- The leaves under one key. -/
def LTree.pathsField : Str × LTree → List (List Str × SVal)
  | (k, t) => t.paths.map fun p => (k :: p.1, p.2)
termination_by structural x => x
end

/-- The content of one block: a map, a struct or an enum variant with one value or with named fields,
possibly wrapped in `Some`, `Block<T>` or a newtype of the user. -/
def OneBlock : SVal → Prop
  | .map _ => True
  | .struct _ _ => True
  | .newtypeVariant _ _ => True
  | .structVariant _ _ => True
  | .some v => OneBlock v
  | .block v => OneBlock v
  | .newtypeStruct n v => n ≠ labeledMarker ∧ OneBlock v
  | _ => False

/-- A field of a document that becomes blocks: `Block<T>` or `LabeledBlock<T>`. -/
inductive BlockField
  | block (t : LTree)
  | labeled (c : LKeys)

/-- The value of the field. -/
def BlockField.val : BlockField → SVal
  | .block t => .block t.val
  | .labeled c => .labeled c.val

/-- The leaves of the field and the keys on the way to them. -/
def BlockField.paths : BlockField → List (List Str × SVal)
  | .block t => t.paths
  | .labeled c => c.paths

/-- One block per leaf: the labels are the keys on the way to it. -/
def blocksOf (content : SVal → List Struct) (id : Str) (ps : List (List Str × SVal)) : List Struct :=
  ps.map fun p => .block id (p.1.map .string) (content p.2)

mutual
/-- The numbers in the value are well formed. -/
def NumbersOk : Value → Prop
  | .number n => WellFormed n
  | .array vs => NumbersOkAll vs
  | .object es => NumbersOkEntries es
  | _ => True
termination_by structural x => x
/-- The numbers in the elements are well formed. -/
def NumbersOkAll : List Value → Prop
  | [] => True
  | v :: vs => NumbersOk v ∧ NumbersOkAll vs
termination_by structural x => x
/-- The numbers in the entries are well formed. -/
def NumbersOkEntries : List (Str × Value) → Prop
  | [] => True
  | e :: es => NumbersOkEntry e ∧ NumbersOkEntries es
termination_by structural x => x
/-- The numbers in the entry's value are well formed. -/
def NumbersOkEntry : Str × Value → Prop
  | (_, v) => NumbersOk v
termination_by structural x => x
end

/-- The states a thread can be in between serializations: it starts with the mode off and nothing in the
registries, and then serializes any values in any way, one after the other. -/
inductive Reachable (E : FmtEnv) : SerSt → Prop
  | start : Reachable E SerSt.initial
  | step {st : SerSt} (en : Entry) (v : SVal) : Reachable E st → Reachable E (serialize E en v st).2

/-- The place of the value given to a function that starts a serialization. -/
def place (internal : Bool) : Entry → Pos
  | .body => .document
  | .expr => .expr
  | .value => .value internal

mutual
/-- No template and no object with entries occurs in the expression, outside of what is turned into the
text of an interpolation. -/
def Flat : Expr → Prop
  | .template _ => False
  | .object es => es = []
  | .array es => FlatAll es
  | .paren e => Flat e
  | .number n => WellFormed n
  | _ => True
termination_by structural x => x
/-- The same for all elements. -/
def FlatAll : List Expr → Prop
  | [] => True
  | e :: es => Flat e ∧ FlatAll es
termination_by structural x => x
end

mutual
/-- Data of the user: no expressions or structures of this crate, no failures and no nested
serializations; no struct has a reserved name, the keys of maps are strings, and the names of enum
variants with one value are identifiers. -/
def Data (U : Uni) : SVal → Prop
  | .some v => Data U v
  | .newtypeStruct _ v => Data U v
  | .newtypeVariant x v => IsIdentifier U x ∧ Data U v
  | .seq vs => DataAll U vs
  | .tupleVariant _ vs => DataAll U vs
  | .map es => DataEntries U es
  | .struct n fs => n ≠ exprMarker ∧ n ≠ structMarker ∧ DataFields U fs
  | .structVariant _ fs => DataFields U fs
  | .block v => Data U v
  | .labeled v => Data U v
  | .hclExpr _ => False
  | .hclStruct _ => False
  | .fail => False
  | .panic => False
  | .nested _ _ _ => False
  | _ => True
termination_by structural x => x
/-- All elements are data. -/
def DataAll (U : Uni) : List SVal → Prop
  | [] => True
  | v :: vs => Data U v ∧ DataAll U vs
termination_by structural x => x
/-- All entries are data, and their keys are strings. -/
def DataEntries (U : Uni) : List (SVal × SVal) → Prop
  | [] => True
  | e :: es => DataEntry U e ∧ DataEntries U es
termination_by structural x => x
/-- The entry is data, and its key is a string. -/
def DataEntry (U : Uni) : SVal × SVal → Prop
  | (k, v) => (∃ s, k = .str s) ∧ Data U v
termination_by structural x => x
/-- All fields are data. -/
def DataFields (U : Uni) : List (Str × SVal) → Prop
  | [] => True
  | f :: fs => DataField U f ∧ DataFields U fs
termination_by structural x => x
/-- The field is data. -/
def DataField (U : Uni) : Str × SVal → Prop
  | (_, v) => Data U v
termination_by structural x => x
end

/-- A field of a document with this value becomes an attribute: the value is not a `Block<T>` or
`LabeledBlock<T>`, also not in `Some`. -/
def AttrField : SVal → Prop
  | .some v => AttrField v
  | .newtypeStruct n _ => n ≠ blockMarker ∧ n ≠ labeledMarker
  | .block _ => False
  | .labeled _ => False
  | _ => True

/-- The name of the attribute that an entry of an object with this key becomes: an identifier, or a string
turned into one. -/
def attrName (U : Uni) : ObjKey → Option Str
  | .ident x => some x
  | .expr (.string s) => some (Ident.newSanitized U s)
  | _ => none

end Verif.Spec
