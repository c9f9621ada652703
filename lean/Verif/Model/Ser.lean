import Verif.Model.Ident
import Verif.Model.Expr
import Verif.Model.Format
/-!
Model of serialization into HCL: `crates/hcl-rs/src/ser/mod.rs`, `crates/hcl-rs/src/ser/blocks.rs`,
`crates/hcl-rs/src/structure/ser/mod.rs`, `crates/hcl-rs/src/expr/ser/mod.rs` and
`crates/hcl-rs/src/value/ser.rs`.

Everything a `Serialize` implementation can do is a tree `SVal`: one constructor per method of
`serde::Serializer` (external crate; the trait is taken from memory), one for each kind of type of this
crate whose implementation looks at the thread-local mode, and three for the behaviours of user code:
failing, panicking, and running another serialization and going on depending on its result. The methods
of each serializer of the crate are functions on the behaviours (`Sers`) of the parts.

The thread-local state is explicit (`SerSt`), a computation (`SM`) may fail or panic, and in both cases
the state it leaves behind is kept.
-/

namespace Verif

/-- `InternalHandles`, `crates/hcl-rs/src/ser/mod.rs:562-566`: the next handle and the live entries.
Simplified: the counter (`AtomicUsize`) does not wrap around. The map is a list of entries. -/
structure Reg (α : Type) where
  last : Nat
  live : List (Nat × α)

/-- The thread-local state: `INTERNAL_SERIALIZATION` (`crates/hcl-rs/src/ser/mod.rs:282-284`),
`EXPR_HANDLES` (`crates/hcl-rs/src/expr/ser/mod.rs:13-15`) and `STRUCTURE_HANDLES`
(`crates/hcl-rs/src/structure/ser/mod.rs:23-25`). -/
structure SerSt where
  internal : Bool
  exprs : Reg Expr
  structs : Reg Struct

/-- The state a thread starts with. -/
def SerSt.initial : SerSt := ⟨false, ⟨0, []⟩, ⟨0, []⟩⟩

/-- `Result<T>`, or a panic. -/
inductive SRes (α : Type)
  | ok (a : α)
  | err
  | panic
  deriving DecidableEq

/-- A computation that may fail or panic and uses the thread-local state. -/
def SM (α : Type) : Type := SerSt → SRes α × SerSt

namespace SM

/-- `Ok(a)`. -/
def ret {α : Type} (a : α) : SM α := fun st => (.ok a, st)

/-- `m?` followed by `k`. -/
def chain {α β : Type} (m : SM α) (k : α → SM β) : SM β := fun st =>
  match m st with
  | (.ok a, st') => k a st'
  | (.err, st') => (.err, st')
  | (.panic, st') => (.panic, st')

/-- `Err(_)`. -/
def fail {α : Type} : SM α := fun st => (.err, st)

/-- A panic. -/
def panic {α : Type} : SM α := fun st => (.panic, st)

/-- Run `f` on the elements one after the other and collect the results. -/
def each {α β : Type} (f : α → SM β) : List α → SM (List β)
  | [] => ret []
  | a :: as => chain (f a) fun b => chain (each f as) fun bs => ret (b :: bs)

end SM

/-- `with_internal_serialization`, `crates/hcl-rs/src/ser/mod.rs:290-299`: the guard `OnDrop` (lines
595-607) stores the old value on every way out, also when unwinding. -/
def withInternal {α : Type} (m : SM α) : SM α := fun st =>
  let r := m { st with internal := true }
  (r.1, { r.2 with internal := st.internal })

/-- The two lines of `InternalHandles::serialize`, `crates/hcl-rs/src/ser/mod.rs:588-589`. `BTreeMap`'s
`insert` (standard library) replaces an entry with the same key. -/
def Reg.insert {α : Type} (r : Reg α) (a : α) : Nat × Reg α :=
  (r.last, ⟨r.last + 1, (r.last, a) :: r.live.filter (fun p => p.1 != r.last)⟩)

/-- `InternalHandles::remove`, `crates/hcl-rs/src/ser/mod.rs:577-582`; `none` is the panic of
`expect`. -/
def Reg.remove {α : Type} (r : Reg α) (h : Nat) : Option (α × Reg α) :=
  match r.live.find? (fun p => p.1 == h) with
  | some p => some (p.2, ⟨r.last, r.live.filter (fun p => p.1 != h)⟩)
  | none => none

/-- `EXPR_HANDLES.insert`. -/
def insertExpr (e : Expr) : SM Nat := fun st =>
  (.ok (st.exprs.insert e).1, { st with exprs := (st.exprs.insert e).2 })

/-- `STRUCTURE_HANDLES.insert`. -/
def insertStruct (s : Struct) : SM Nat := fun st =>
  (.ok (st.structs.insert s).1, { st with structs := (st.structs.insert s).2 })

/-- `EXPR_HANDLES.remove`. -/
def removeExpr (h : Nat) : SM Expr := fun st =>
  match st.exprs.remove h with
  | some (e, r) => (.ok e, { st with exprs := r })
  | none => (.panic, st)

/-- `STRUCTURE_HANDLES.remove`. -/
def removeStruct (h : Nat) : SM Struct := fun st =>
  match st.structs.remove h with
  | some (s, r) => (.ok s, { st with structs := r })
  | none => (.panic, st)

/-- `EXPR_HANDLE_MARKER`, `crates/hcl-rs/src/expr/ser/mod.rs:11`. -/
def exprMarker : Str := c!"\x00$hcl::ExprHandle"
/-- `STRUCTURE_HANDLE_MARKER`, `crates/hcl-rs/src/structure/ser/mod.rs:21`. -/
def structMarker : Str := c!"\x00$hcl::StructureHandle"
/-- `BLOCK_MARKER`, `crates/hcl-rs/src/ser/blocks.rs:7`. -/
def blockMarker : Str := c!"$hcl::Block"
/-- `LABELED_BLOCK_MARKER`, `crates/hcl-rs/src/ser/blocks.rs:156`. -/
def labeledMarker : Str := c!"$hcl::LabeledBlock"

/-- What a value does with each serializer of the crate: `BodySerializer`, `StructureSerializer`,
`BlockSerializer`, `LabeledBlockSerializer` (`crates/hcl-rs/src/structure/ser/mod.rs`, the last three
with the identifier they carry), `ExpressionSerializer`, `ObjectKeySerializer`
(`crates/hcl-rs/src/expr/ser/mod.rs`), `IdentifierSerializer`, `StringSerializer`, `U64Serializer`
(`crates/hcl-rs/src/ser/mod.rs`) and `ValueSerializer` (`crates/hcl-rs/src/value/ser.rs`). `Structures`
(`crates/hcl-rs/src/structure/ser/mod.rs:76-115`) and `Body` are the list of the structures. -/
structure Sers where
  body : SM (List Struct)
  struct : Str → SM (List Struct)
  block : Str → SM (List Struct)
  labeled : Str → SM (List Struct)
  expr : SM Expr
  key : SM ObjKey
  ident : SM Str
  string : SM Str
  u64 : SM Nat
  value : SM Value

namespace Ser
open SM

variable (U : Uni)

/-- `Identifier::new`, `crates/hcl-rs/src/ident.rs:39-44`. -/
def newIdent (s : Str) : SM Str :=
  match Ident.tryNew U s with
  | some x => ret x
  | none => fail

/-- `StructureSerializer::into_attr`, `crates/hcl-rs/src/structure/ser/mod.rs:423-425`, after the
expression has been serialized (`.map(|expr| self.into_attr(expr))`). -/
def attr (id : Str) (m : SM Expr) : SM (List Struct) := chain m fun e => ret [.attr id e]

/-- A value that only the expression and value serializers take (besides keys): the other methods are
`serialize_unsupported!`, `crates/hcl-rs/src/structure/ser/mod.rs:131-134,828-831,1132-1135`. -/
def scalar (e : Expr) (v : Value) (key : SM ObjKey) (ident string : SM Str) (u64 : SM Nat) : Sers where
  body := fail
  struct id := attr id (ret e)
  block _ := fail
  labeled _ := fail
  expr := ret e
  key := key
  ident := ident
  string := string
  u64 := u64
  value := ret v

/-- `serialize_bool`: `crates/hcl-rs/src/expr/ser/mod.rs:96-98`, `crates/hcl-rs/src/value/ser.rs:39-41`;
not a key. -/
def bool (b : Bool) : Sers := scalar (.bool b) (.bool b) fail fail fail fail

/-- `serialize_i8` to `serialize_i64`: `crates/hcl-rs/src/expr/ser/mod.rs:100-114,441-455`,
`crates/hcl-rs/src/value/ser.rs:43-57`. -/
def int (i : Int) : Sers :=
  scalar (.number (N.ofI64 i)) (.number (N.ofI64 i)) (ret (.expr (.number (N.ofI64 i)))) fail fail fail

/-- `serialize_u8` to `serialize_u32`: `crates/hcl-rs/src/expr/ser/mod.rs:116-126,457-467`,
`crates/hcl-rs/src/value/ser.rs:59-69`; `U64Serializer` rejects them
(`crates/hcl-rs/src/ser/mod.rs:522-526`). -/
def uint (n : Nat) : Sers :=
  scalar (.number (.posInt n)) (.number (.posInt n)) (ret (.expr (.number (.posInt n)))) fail fail fail

/-- `serialize_u64`: `crates/hcl-rs/src/expr/ser/mod.rs:128-130,469-471`,
`crates/hcl-rs/src/value/ser.rs:71-73`, `crates/hcl-rs/src/ser/mod.rs:528-530`. -/
def u64 (n : Nat) : Sers :=
  scalar (.number (.posInt n)) (.number (.posInt n)) (ret (.expr (.number (.posInt n)))) fail fail
    (ret n)

/-- `serialize_f32`, `serialize_f64`: `crates/hcl-rs/src/expr/ser/mod.rs:132-138`,
`crates/hcl-rs/src/value/ser.rs:75-81`. -/
def f64 (x : F64) : Sers :=
  scalar (match N.fromF64 x with | some n => .number n | none => .null)
    (match N.fromF64 x with | some n => .number n | none => .null) fail fail fail fail

/-- `serialize_str` (and `collect_str`): `crates/hcl-rs/src/expr/ser/mod.rs:144-146,227-232,477-479`,
`crates/hcl-rs/src/value/ser.rs:87-89,175-180`, `crates/hcl-rs/src/ser/mod.rs:448-450,461-466,494-496`. -/
def str (s : Str) : Sers :=
  scalar (.string s) (.string s) (ret (.expr (.string s))) (newIdent U s) (ret s) fail

/-- `serialize_char`: `crates/hcl-rs/src/expr/ser/mod.rs:140-142,473-475`,
`crates/hcl-rs/src/value/ser.rs:83-85`, `crates/hcl-rs/src/ser/mod.rs:444-446,490-492`. -/
def char (c : Char) : Sers := str U [c]

/-- `serialize_bytes`: `crates/hcl-rs/src/expr/ser/mod.rs:148-154`,
`crates/hcl-rs/src/value/ser.rs:91-94`. -/
def bytes (bs : List Nat) : Sers :=
  scalar (.array (bs.map fun b => .number (.posInt b))) (.array (bs.map fun b => .number (.posInt b)))
    fail fail fail fail

/-- `serialize_unit`, `serialize_unit_struct` and `serialize_none`:
`crates/hcl-rs/src/expr/ser/mod.rs:156-162,191-193`, `crates/hcl-rs/src/value/ser.rs:96-102,128-130`. -/
def unit : Sers := scalar .null .null fail fail fail fail

/-- `serialize_unit_variant`: `crates/hcl-rs/src/expr/ser/mod.rs:164-171,481-488`,
`crates/hcl-rs/src/value/ser.rs:104-111`, `crates/hcl-rs/src/ser/mod.rs:452-459,498-505`. -/
def unitVariant (variant : Str) : Sers :=
  scalar (.string variant) (.string variant) (chain (newIdent U variant) fun x => ret (.ident x))
    (newIdent U variant) (ret variant) fail

/-- `serialize_some`: every serializer but `U64Serializer` forwards to the value (`serialize_self!`). -/
def some (v : Sers) : Sers := { v with u64 := fail }

/-- `serialize_newtype_struct`. `StructureSerializer`: `crates/hcl-rs/src/structure/ser/mod.rs:550-563`;
`BlockSerializer`: lines 835-844; every other serializer but `U64Serializer` forwards to the value
(`serialize_self!`). `BlockSerializer` also forwards, after looking for the other marker. -/
def newtypeStruct (name : Str) (v : Sers) : Sers where
  body := v.body
  struct id :=
    if name = blockMarker then v.block id
    else if name = labeledMarker then v.labeled id
    else attr id v.expr
  block id := if name = labeledMarker then v.labeled id else v.block id
  labeled id := v.labeled id
  expr := v.expr
  key := v.key
  ident := v.ident
  string := v.string
  u64 := fail
  value := v.value

/-- `Structure::into_block` with the label edit of `serialize_labeled_blocks` applied to the labels. -/
def relabel (f : List Label → List Label) : Struct → Option Struct
  | .attr _ _ => none
  | .block i ls b => Option.some (.block i (f ls) b)

/-- `serialize_labeled_blocks`, `crates/hcl-rs/src/structure/ser/mod.rs:1381-1401`. -/
def labeledBlocks (id : Str) (v : Sers) (f : List Label → List Label) : SM (List Struct) :=
  chain (v.block id) fun ss => ret (ss.filterMap (relabel f))

/-- `serialize_newtype_variant`. `BodySerializer`: `crates/hcl-rs/src/structure/ser/mod.rs:138-153`;
`StructureSerializer`: 565-578; `BlockSerializer`: 846-862; `LabeledBlockSerializer`: 1139-1156;
`ExpressionSerializer`: `crates/hcl-rs/src/expr/ser/mod.rs:173-189`; `ObjectKeySerializer` forwards to
the value (line 439); `ValueSerializer`: `crates/hcl-rs/src/value/ser.rs:113-126`. -/
def newtypeVariant (variant : Str) (v : Sers) : Sers :=
  let expr := chain (newIdent U variant) fun x => chain v.expr fun e => ret (.object [(.ident x, e)])
  { body := chain (newIdent U variant) fun x => v.struct x
    struct id := attr id expr
    block id := chain (newIdent U variant) fun x => chain (v.struct x) fun ss => ret [.block id [] ss]
    labeled id := labeledBlocks id v (fun ls => .string variant :: ls)
    expr := expr
    key := v.key
    ident := fail
    string := fail
    u64 := fail
    value := chain v.value fun w => ret (.object [(variant, w)]) }

/-- `serialize_seq`, `serialize_tuple` and `serialize_tuple_struct`. `SerializeBodySeq`:
`crates/hcl-rs/src/structure/ser/mod.rs:206-221`; `SerializeStructureSeq`: 646-661; `SerializeBlockSeq`:
919-935; `SerializeLabeledBlockSeq`: 1209-1225; `SerializeExpressionSeq`:
`crates/hcl-rs/src/expr/ser/mod.rs:247-262`; `SerializeSeq`: `crates/hcl-rs/src/value/ser.rs:187-202`;
unsupported elsewhere. -/
def seq (vs : List Sers) : Sers :=
  let expr := chain (each Sers.expr vs) fun es => ret (.array es)
  { body := chain (each Sers.body vs) fun bs => ret bs.flatten
    struct id := attr id expr
    block id := chain (each (fun v => v.block id) vs) fun bs => ret bs.flatten
    labeled id := chain (each (fun v => v.labeled id) vs) fun bs => ret bs.flatten
    expr := expr
    key := fail
    ident := fail
    string := fail
    u64 := fail
    value := chain (each Sers.value vs) fun xs => ret (.array xs) }

/-- `serialize_tuple_variant`. `BodySerializer` and `SerializeBodyTupleVariant`:
`crates/hcl-rs/src/structure/ser/mod.rs:159-170,245-260`; `SerializeStructureTupleVariant`: 685-701;
`BlockSerializer` and `SerializeBlockTupleVariant`: 868-880,961-980; `SerializeLabeledBlockTupleVariant`:
1251-1267; `SerializeExpressionTupleVariant`: `crates/hcl-rs/src/expr/ser/mod.rs:277-303`;
`SerializeTupleVariant`: `crates/hcl-rs/src/value/ser.rs:217-234`. -/
def tupleVariant (variant : Str) (vs : List Sers) : Sers :=
  let expr := chain (each Sers.expr vs) fun es => ret (.object [(.expr (.string variant), .array es)])
  { body := chain (newIdent U variant) fun x =>
      chain (each Sers.expr vs) fun es => ret [.attr x (.array es)]
    struct id := attr id expr
    block id := chain (newIdent U variant) fun x =>
      chain (each (fun v => v.block x) vs) fun bs => ret [.block id [] bs.flatten]
    labeled id :=
      chain (each (fun v => labeledBlocks id v (fun ls => .string variant :: ls)) vs) fun bs =>
        ret bs.flatten
    expr := expr
    key := fail
    ident := fail
    string := fail
    u64 := fail
    value := chain (each Sers.value vs) fun xs => ret (.object [(variant, .array xs)]) }

/-- One entry of a map: `serialize_key`, then `serialize_value`. -/
def entry {α β γ : Type} (k : SM α) (v : α → SM β) (f : α → β → γ) : SM γ :=
  chain k fun a => chain (v a) fun b => ret (f a b)

/-- `SerializeBodyMap`, `crates/hcl-rs/src/structure/ser/mod.rs:276-303`. -/
def bodyEntry (k : SM Str) (v : Sers) : SM (List Struct) := entry k (fun x => v.struct x) (fun _ ss => ss)

/-- `SerializeExpressionMap`, `crates/hcl-rs/src/expr/ser/mod.rs:319-345`, and the fields of
`SerializeExpressionStructVariant`, lines 404-411. -/
def exprEntry (k : SM ObjKey) (v : Sers) : SM (ObjKey × Expr) := entry k (fun _ => v.expr) Prod.mk

/-- `SerializeMap`, `crates/hcl-rs/src/value/ser.rs:241-266`. -/
def valueEntry (k : SM Str) (v : Sers) : SM (Str × Value) := entry k (fun _ => v.value) Prod.mk

/-- `SerializeLabeledBlockMap`, `crates/hcl-rs/src/structure/ser/mod.rs:1285-1312`. -/
def labeledEntry (id : Str) (k : SM Str) (v : Sers) : SM (List Struct) :=
  entry k (fun x => labeledBlocks id v (fun ls => .string x :: ls)) (fun _ ss => ss)

/-- `serialize_map`. `SerializeBodyMap`: `crates/hcl-rs/src/structure/ser/mod.rs:276-303`;
`SerializeStructureMap`: 717-740; `SerializeBlockMap`: 998-1028; `SerializeLabeledBlockMap`: 1285-1312;
`SerializeExpressionMap`: `crates/hcl-rs/src/expr/ser/mod.rs:319-345`; `SerializeMap`:
`crates/hcl-rs/src/value/ser.rs:241-266`; unsupported elsewhere. `serialize_value` before `serialize_key`
(a panic) is not modelled. -/
def map (es : List (Sers × Sers)) : Sers :=
  let expr := chain (each (fun p => exprEntry p.1.key p.2) es) fun xs => ret (.object (objCollect xs))
  let entries := chain (each (fun p => bodyEntry p.1.ident p.2) es) fun bs => ret bs.flatten
  { body := entries
    struct id := attr id expr
    block id := chain entries fun ss => ret [.block id [] ss]
    labeled id :=
      chain (each (fun p => labeledEntry id p.1.string p.2) es) fun bs => ret bs.flatten
    expr := expr
    key := fail
    ident := fail
    string := fail
    u64 := fail
    value := chain (each (fun p => valueEntry p.1.string p.2) es) fun xs =>
      ret (.object (Map.collect xs)) }

/-- The loop over the fields and `end` of `SerializeInternalHandleStruct`,
`crates/hcl-rs/src/ser/mod.rs:543-560`: a field with another name than `handle` and a missing field are
panics. -/
def handleFields : Option Nat → List (Str × Sers) → SM Nat
  | Option.some h, [] => ret h
  | none, [] => panic
  | _, (k, v) :: fs =>
    if k = c!"handle" then chain v.u64 fun h => handleFields (Option.some h) fs else panic

/-- The keys of the attributes of an object expression that is serialized as a body,
`crates/hcl-rs/src/structure/ser/mod.rs:349-364`. -/
def objectAttrs : List (ObjKey × Expr) → SM (List Struct)
  | [] => ret []
  | (.ident x, e) :: es => chain (objectAttrs es) fun ss => ret (.attr x e :: ss)
  | (.expr (.string s), e) :: es =>
    chain (objectAttrs es) fun ss => ret (.attr (Ident.newSanitized U s) e :: ss)
  | (.expr _, _) :: _ => fail

/-- `SerializeBodyStruct::end` for an expression handle,
`crates/hcl-rs/src/structure/ser/mod.rs:343-371`. -/
def exprBody : Expr → SM (List Struct)
  | .object es => objectAttrs U es
  | _ => fail

/-- `serialize_struct`. `SerializeBodyStruct`: `crates/hcl-rs/src/structure/ser/mod.rs:311-375`;
`SerializeStructureStruct`: 747-772; `BlockSerializer` (886-888, which does not look at the name) and
`SerializeBlockStruct`: 1044-1065; `LabeledBlockSerializer` (1178-1180, neither) and
`SerializeLabeledBlockStruct`: 1328-1344; `SerializeExpressionStruct`:
`crates/hcl-rs/src/expr/ser/mod.rs:352-384`; `ValueSerializer`: `crates/hcl-rs/src/value/ser.rs:158-160`,
neither; unsupported elsewhere. -/
def struct (name : Str) (fs : List (Str × Sers)) : Sers :=
  let entries := chain (each (fun p => bodyEntry (newIdent U p.1) p.2) fs) fun bs => ret bs.flatten
  let expr :=
    if name = exprMarker then chain (handleFields none fs) removeExpr
    else chain (each (fun p => exprEntry (ret (.expr (.string p.1))) p.2) fs) fun xs =>
      ret (.object (objCollect xs))
  { body :=
      if name = structMarker then
        chain (handleFields none fs) fun h => chain (removeStruct h) fun s => ret [s]
      else if name = exprMarker then
        chain (handleFields none fs) fun h => chain (removeExpr h) (exprBody U)
      else entries
    struct id := attr id expr
    block id := chain entries fun ss => ret [.block id [] ss]
    labeled id :=
      chain (each (fun p => labeledBlocks id p.2 (fun ls => .string p.1 :: ls)) fs) fun bs =>
        ret bs.flatten
    expr := expr
    key := fail
    ident := fail
    string := fail
    u64 := fail
    value := chain (each (fun p => valueEntry (ret p.1) p.2) fs) fun xs =>
      ret (.object (Map.collect xs)) }

/-- `serialize_struct_variant`. `BodySerializer` and `SerializeBodyStructVariant`:
`crates/hcl-rs/src/structure/ser/mod.rs:180-191,391-412`; `SerializeStructureStructVariant`: 779-804;
`SerializeBlockStructVariant`: 890-902,1083-1108; `SerializeLabeledBlockStructVariant`: 1362-1379;
`SerializeExpressionStructVariant`: `crates/hcl-rs/src/expr/ser/mod.rs:391-417`;
`SerializeStructVariant`: `crates/hcl-rs/src/value/ser.rs:289-306`; unsupported elsewhere. -/
def structVariant (variant : Str) (fs : List (Str × Sers)) : Sers :=
  let entries := chain (each (fun p => bodyEntry (newIdent U p.1) p.2) fs) fun bs => ret bs.flatten
  let expr := chain (each (fun p => exprEntry (ret (.expr (.string p.1))) p.2) fs) fun xs =>
    ret (.object [(.expr (.string variant), .object (objCollect xs))])
  { body := chain (newIdent U variant) fun x => chain entries fun ss => ret [.block x [] ss]
    struct id := attr id expr
    block id := chain (newIdent U variant) fun x =>
      chain entries fun ss => ret [.block id [] [.block x [] ss]]
    labeled id :=
      chain (each (fun p => labeledBlocks id p.2 (fun ls => .string variant :: .string p.1 :: ls)) fs)
        fun bs => ret bs.flatten
    expr := expr
    key := fail
    ident := fail
    string := fail
    u64 := fail
    value := chain (each (fun p => valueEntry (ret p.1) p.2) fs) fun xs =>
      ret (.object [(variant, .object (Map.collect xs))]) }

/-- The same computation with every serializer, given what to do with the mode. -/
def lift (m : {α : Type} → SM α) : Sers :=
  ⟨m, fun _ => m, fun _ => m, fun _ => m, m, m, m, m, m, m⟩

/-- `if in_internal_serialization() { a } else { b }`, `crates/hcl-rs/src/ser/mod.rs:286-288`. -/
def byMode (a b : Sers) : Sers where
  body st := if st.internal then a.body st else b.body st
  struct id st := if st.internal then a.struct id st else b.struct id st
  block id st := if st.internal then a.block id st else b.block id st
  labeled id st := if st.internal then a.labeled id st else b.labeled id st
  expr st := if st.internal then a.expr st else b.expr st
  key st := if st.internal then a.key st else b.key st
  ident st := if st.internal then a.ident st else b.ident st
  string st := if st.internal then a.string st else b.string st
  u64 st := if st.internal then a.u64 st else b.u64 st
  value st := if st.internal then a.value st else b.value st

/-- Run `m` first. -/
def after {α : Type} (m : SM α) (k : α → Sers) : Sers where
  body := chain m fun a => (k a).body
  struct id := chain m fun a => (k a).struct id
  block id := chain m fun a => (k a).block id
  labeled id := chain m fun a => (k a).labeled id
  expr := chain m fun a => (k a).expr
  key := chain m fun a => (k a).key
  ident := chain m fun a => (k a).ident
  string := chain m fun a => (k a).string
  u64 := chain m fun a => (k a).u64
  value := chain m fun a => (k a).value

/-- `InternalHandles::serialize`, `crates/hcl-rs/src/ser/mod.rs:584-593`: after the value has been put in
the registry its handle is serialized as a struct with one field (a `usize`, which serde serializes as a
`u64`). -/
def handle (marker : Str) (insert : SM Nat) : Sers :=
  after insert fun h => struct U marker [(c!"handle", u64 h)]

end Ser

open Ser in
mutual
/-- `Serialize for Expression` and for the types it is made of,
`crates/hcl-rs/src/expr/ser/mod.rs:17-75`. Outside of the internal mode, an object is serialized by
`Serialize for VecMap` (external), and its keys by the derived `Serialize for ObjectKey`
(`crates/hcl-rs/src/expr/mod.rs:290`), as newtype variants. -/
def exprSers (E : FmtEnv) : Expr → Sers
  | .null => byMode (handle E.U exprMarker (insertExpr .null)) unit
  | .bool b => byMode (handle E.U exprMarker (insertExpr (.bool b))) (bool b)
  | .number (.posInt n) =>
    byMode (handle E.U exprMarker (insertExpr (.number (.posInt n)))) (u64 n)
  | .number (.negInt i) =>
    byMode (handle E.U exprMarker (insertExpr (.number (.negInt i)))) (int i)
  | .number (.float x) =>
    byMode (handle E.U exprMarker (insertExpr (.number (.float x)))) (f64 x)
  | .string s => byMode (handle E.U exprMarker (insertExpr (.string s))) (str E.U s)
  | .array xs => byMode (handle E.U exprMarker (insertExpr (.array xs))) (seq (exprSersList E xs))
  | .object es =>
    byMode (handle E.U exprMarker (insertExpr (.object es))) (map (exprSersEntries E es))
  | .paren e => byMode (handle E.U exprMarker (insertExpr (.paren e))) (exprSers E e)
  | .template t => byMode (handle E.U exprMarker (insertExpr (.template t)))
    (str E.U (Fmt.toInterpolatedString (Fmt.expr E (.template t))))
  | .var x => byMode (handle E.U exprMarker (insertExpr (.var x)))
    (str E.U (Fmt.toInterpolatedString (Fmt.expr E (.var x))))
  | .traversal e os => byMode (handle E.U exprMarker (insertExpr (.traversal e os)))
    (str E.U (Fmt.toInterpolatedString (Fmt.expr E (.traversal e os))))
  | .call n as x => byMode (handle E.U exprMarker (insertExpr (.call n as x)))
    (str E.U (Fmt.toInterpolatedString (Fmt.expr E (.call n as x))))
  | .cond c t f => byMode (handle E.U exprMarker (insertExpr (.cond c t f)))
    (str E.U (Fmt.toInterpolatedString (Fmt.expr E (.cond c t f))))
  | .unary o e => byMode (handle E.U exprMarker (insertExpr (.unary o e)))
    (str E.U (Fmt.toInterpolatedString (Fmt.expr E (.unary o e))))
  | .binary l o r => byMode (handle E.U exprMarker (insertExpr (.binary l o r)))
    (str E.U (Fmt.toInterpolatedString (Fmt.expr E (.binary l o r))))
  | .forE k v c ke ve g ce => byMode (handle E.U exprMarker (insertExpr (.forE k v c ke ve g ce)))
    (str E.U (Fmt.toInterpolatedString (Fmt.expr E (.forE k v c ke ve g ce))))
termination_by structural x => x
/-- The elements of an array. -/
def exprSersList (E : FmtEnv) : List Expr → List Sers
  | [] => []
  | e :: es => exprSers E e :: exprSersList E es
termination_by structural x => x
/-- The entries of an object. -/
def exprSersEntries (E : FmtEnv) : List (ObjKey × Expr) → List (Sers × Sers)
  | [] => []
  | (k, e) :: es => (keySers E k, exprSers E e) :: exprSersEntries E es
termination_by structural x => x
/-- Derived `Serialize for ObjectKey`, `crates/hcl-rs/src/expr/mod.rs:290-297`. -/
def keySers (E : FmtEnv) : ObjKey → Sers
  | .ident x => newtypeVariant E.U c!"Identifier" (str E.U x)
  | .expr e => newtypeVariant E.U c!"Expression" (exprSers E e)
termination_by structural x => x
end

/-- Derived `Serialize for BlockLabel`, `crates/hcl-rs/src/structure/block.rs:115-121`. -/
def labelSers (U : Uni) : Label → Sers
  | .ident x => Ser.newtypeVariant U c!"Identifier" (Ser.str U x)
  | .string s => Ser.newtypeVariant U c!"String" (Ser.str U s)

open Ser in
mutual
/-- `Serialize for Structure`, `Attribute` and `Block`,
`crates/hcl-rs/src/structure/ser/mod.rs:27-73`. -/
def structSers (E : FmtEnv) : Struct → Sers
  | .attr k e => byMode (handle E.U structMarker (insertStruct (.attr k e)))
      (struct E.U c!"Attribute" [(c!"key", str E.U k), (c!"expr", exprSers E e)])
  | .block i ls b => byMode (handle E.U structMarker (insertStruct (.block i ls b)))
      (struct E.U c!"Block" [(c!"identifier", str E.U i), (c!"labels", seq (ls.map (labelSers E.U))),
        (c!"body", newtypeStruct c!"$hcl::Body" (seq (structSersList E b)))])
termination_by structural x => x
/-- The structures of a body. -/
def structSersList (E : FmtEnv) : List Struct → List Sers
  | [] => []
  | s :: ss => structSers E s :: structSersList E ss
termination_by structural x => x
end

/-- The functions that start a serialization: `Body::from_serializable`
(`crates/hcl-rs/src/structure/body.rs:22-27`; called by `to_string`, `to_vec`, `to_writer` and
`Serializer::serialize*`, `crates/hcl-rs/src/ser/mod.rs:324-421`), `Expression::from_serializable`
(`crates/hcl-rs/src/expr/mod.rs:76-81`; `to_expression`) and `to_value`
(`crates/hcl-rs/src/value/mod.rs:249-254`). -/
inductive Entry
  | body
  | expr
  | value
  deriving DecidableEq

/-- What such a function gives back. -/
inductive Got
  | body (b : List Struct)
  | expr (e : Expr)
  | value (v : Value)
  | err
  | panic

/-- Read the result of a serialization. -/
def SRes.got {α : Type} (f : α → Got) : SRes α → Got
  | .ok a => f a
  | .err => .err
  | .panic => .panic

/-- Start a serialization of a value with the given behaviours. -/
def Sers.enter (v : Sers) : Entry → SerSt → Got × SerSt
  | .body, st => ((withInternal v.body st).1.got .body, (withInternal v.body st).2)
  | .expr, st => ((withInternal v.expr st).1.got .expr, (withInternal v.expr st).2)
  | .value, st => ((v.value st).1.got .value, (v.value st).2)

/-- What a `Serialize` implementation can do. -/
inductive SVal
  | bool (b : Bool)
  /-- `serialize_i8`, `serialize_i16`, `serialize_i32`, `serialize_i64` -/
  | int (i : Int)
  /-- `serialize_u8`, `serialize_u16`, `serialize_u32` -/
  | uint (n : Nat)
  | u64 (n : Nat)
  /-- `serialize_f32`, `serialize_f64` -/
  | f64 (x : F64)
  | char (c : Char)
  /-- `serialize_str`, `collect_str` -/
  | str (s : Str)
  | bytes (bs : List Nat)
  /-- `serialize_unit`, `serialize_unit_struct`, `serialize_none` -/
  | unit
  | unitVariant (variant : Str)
  | some (v : SVal)
  | newtypeStruct (name : Str) (v : SVal)
  | newtypeVariant (variant : Str) (v : SVal)
  /-- `serialize_seq`, `serialize_tuple`, `serialize_tuple_struct` -/
  | seq (vs : List SVal)
  | tupleVariant (variant : Str) (vs : List SVal)
  | map (es : List (SVal × SVal))
  | struct (name : Str) (fs : List (Str × SVal))
  | structVariant (variant : Str) (fs : List (Str × SVal))
  /-- `Block<T>`, `crates/hcl-rs/src/ser/blocks.rs:83` -/
  | block (v : SVal)
  /-- `LabeledBlock<T>`, `crates/hcl-rs/src/ser/blocks.rs:231` -/
  | labeled (v : SVal)
  /-- `Expression` and the ten types serialized like it -/
  | hclExpr (e : Expr)
  /-- `Structure`, `Attribute`, `hcl::Block` -/
  | hclStruct (s : Struct)
  /-- the implementation returns an error of its own (or calls `serialize_i128`, which is
  unsupported everywhere) -/
  | fail
  /-- the implementation panics -/
  | panic
  /-- the implementation runs another serialization and goes on depending on what it gives -/
  | nested (entry : Entry) (v : SVal) (next : Got → SVal)

open Ser in
mutual
/-- `value.serialize(serializer)` for every serializer. `Block<T>` and `LabeledBlock<T>`:
`crates/hcl-rs/src/ser/blocks.rs:130-144,279-293`. -/
def SVal.run (E : FmtEnv) : SVal → Sers
  | .bool b => Ser.bool b
  | .int i => Ser.int i
  | .uint n => Ser.uint n
  | .u64 n => Ser.u64 n
  | .f64 x => Ser.f64 x
  | .char c => Ser.char E.U c
  | .str s => Ser.str E.U s
  | .bytes bs => Ser.bytes bs
  | .unit => Ser.unit
  | .unitVariant x => Ser.unitVariant E.U x
  | .some v => Ser.some (v.run E)
  | .newtypeStruct n v => Ser.newtypeStruct n (v.run E)
  | .newtypeVariant x v => Ser.newtypeVariant E.U x (v.run E)
  | .seq vs => Ser.seq (SVal.runs E vs)
  | .tupleVariant x vs => Ser.tupleVariant E.U x (SVal.runs E vs)
  | .map es => Ser.map (SVal.runEntries E es)
  | .struct n fs => Ser.struct E.U n (SVal.runFields E fs)
  | .structVariant x fs => Ser.structVariant E.U x (SVal.runFields E fs)
  | .block v => byMode (Ser.newtypeStruct blockMarker (v.run E)) (v.run E)
  | .labeled v => byMode (Ser.newtypeStruct labeledMarker (v.run E)) (v.run E)
  | .hclExpr e => exprSers E e
  | .hclStruct s => structSers E s
  | .fail => lift SM.fail
  | .panic => lift SM.panic
  | .nested en v k =>
    after (fun st => (.ok ((v.run E).enter en st).1, ((v.run E).enter en st).2)) fun g => (k g).run E
termination_by structural x => x
/-- The elements of a sequence. -/
def SVal.runs (E : FmtEnv) : List SVal → List Sers
  | [] => []
  | v :: vs => v.run E :: SVal.runs E vs
termination_by structural x => x
/-- The entries of a map. -/
def SVal.runEntries (E : FmtEnv) : List (SVal × SVal) → List (Sers × Sers)
  | [] => []
  | e :: es => SVal.runEntry E e :: SVal.runEntries E es
termination_by structural x => x
/-- One entry of a map. -/
def SVal.runEntry (E : FmtEnv) : SVal × SVal → Sers × Sers
  | (k, v) => (k.run E, v.run E)
termination_by structural x => x
/-- The fields of a struct. -/
def SVal.runFields (E : FmtEnv) : List (Str × SVal) → List (Str × Sers)
  | [] => []
  | f :: fs => SVal.runField E f :: SVal.runFields E fs
termination_by structural x => x
/-- One field of a struct. -/
def SVal.runField (E : FmtEnv) : Str × SVal → Str × Sers
  | (k, v) => (k, v.run E)
termination_by structural x => x
end

/-- Start a serialization. -/
def serialize (E : FmtEnv) (en : Entry) (v : SVal) (st : SerSt) : Got × SerSt := (v.run E).enter en st

/-- Derived `Serialize for Body`, `crates/hcl-rs/src/structure/body.rs:16-18`. -/
def bodySVal (b : List Struct) : SVal := .newtypeStruct c!"$hcl::Body" (.seq (b.map .hclStruct))

mutual
/-- `Serialize for Value`, `crates/hcl-rs/src/value/ser.rs:6-20`, and `Serialize for Number`,
`crates/hcl-primitives/src/number.rs:401-412`. -/
def Value.sval : Value → SVal
  | .null => .unit
  | .bool b => .bool b
  | .number (.posInt n) => .u64 n
  | .number (.negInt i) => .int i
  | .number (.float x) => .f64 x
  | .string s => .str s
  | .array vs => .seq (Value.svals vs)
  | .object es => .map (Value.svalEntries es)
termination_by structural x => x
/-- The elements of an array. -/
def Value.svals : List Value → List SVal
  | [] => []
  | v :: vs => v.sval :: Value.svals vs
termination_by structural x => x
/-- The entries of an object. -/
def Value.svalEntries : List (Str × Value) → List (SVal × SVal)
  | [] => []
  | (k, v) :: es => (.str k, v.sval) :: Value.svalEntries es
termination_by structural x => x
end

/-- `doubly_labeled_block`, `crates/hcl-rs/src/ser/blocks.rs:487-499`, for keys that are strings: the
entries are collected into a `VecMap`. -/
def doublyLabeled (es : List (Str × SVal)) : SVal :=
  .labeled (.map ((Map.collect es).map fun p => (.str p.1, .labeled p.2)))

end Verif
