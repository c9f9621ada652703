import Verif.Model.Expr
import Verif.Model.EditAst
/-!
Model of the iterators over bodies (`crates/hcl-rs/src/structure/iter.rs`), of the builders of `hcl-rs`
(`crates/hcl-rs/src/structure/body.rs`, `block.rs`) and of the label matching of `hcl-edit`
(`crates/hcl-edit/src/structure/block.rs`).

The iterators of the standard library over slices and vectors are the list of the items that are left.
Shared, mutable and owning iterators do the same and differ in what they give out: a reference, a mutable
reference or the item itself.
-/

namespace Verif.Iter

variable {α β : Type}

/-- `slice::Iter::next`, also `IterMut` and `vec::IntoIter` (standard library); `Iter::next`, `IterMut::next`,
`IntoIter::next`, `crates/hcl-rs/src/structure/iter.rs:42-44`. -/
def next : List α → Option α × List α
  | [] => (none, [])
  | x :: xs => (some x, xs)

/-- `slice::Iter::next_back` (standard library); `Iter::next_back`,
`crates/hcl-rs/src/structure/iter.rs:52-54`. -/
def nextBack (l : List α) : Option α × List α := (l.getLast?, l.dropLast)

/-- `ExactSizeIterator::len`, `crates/hcl-rs/src/structure/iter.rs:58-60`; also the two numbers of
`size_hint`, lines 46-48. -/
def len (l : List α) : Nat := l.length

/-- `Attributes::next` and the like, `self.iter.find_map($map)`,
`crates/hcl-rs/src/structure/iter.rs:13-15`. -/
def findNext (f : α → Option β) : List α → Option β × List α
  | [] => (none, [])
  | x :: xs =>
    match f x with
    | some y => (some y, xs)
    | none => findNext f xs

/-- `Attributes::next_back` and the like, `crates/hcl-rs/src/structure/iter.rs:19-30`. -/
def findNextBack (f : α → Option β) (l : List α) : Option β × List α :=
  match h : l.getLast? with
  | some x =>
    match f x with
    | some y => (some y, l.dropLast)
    | none => findNextBack f l.dropLast
  | none => (none, l)
termination_by l.length
decreasing_by
  rw [List.length_dropLast]
  cases l with
  | nil => cases h
  | cons => simp

/-- A call of a method of an iterator. -/
inductive Call | next | nextBack | len
deriving DecidableEq, Repr

/-- What a call returns. -/
inductive Ret (β : Type)
  | item (x : Option β)
  | len (n : Nat)

/-- Calls one after the other on `iter()`, `iter_mut()` or `into_iter()`. -/
def run : List Call → List α → List (Ret α)
  | [], _ => []
  | .next :: cs, l => .item (next l).1 :: run cs (next l).2
  | .nextBack :: cs, l => .item (nextBack l).1 :: run cs (nextBack l).2
  | .len :: cs, l => .len (len l) :: run cs l

/-- Calls one after the other on `attributes()`, `blocks()` and their variants; `true` is `next_back`. -/
def runFind (f : α → Option β) : List Bool → List α → List (Option β)
  | [], _ => []
  | false :: cs, l => (findNext f l).1 :: runFind f cs (findNext f l).2
  | true :: cs, l => (findNextBack f l).1 :: runFind f cs (findNextBack f l).2

/-- `Structure::as_attribute`, `as_attribute_mut`, `into_attribute`: the key and the expression,
`crates/hcl-rs/src/structure/mod.rs:92-113`. -/
def asAttribute : Struct → Option (Str × Expr)
  | .attr k e => some (k, e)
  | .block _ _ _ => none

/-- `Structure::as_block`, `as_block_mut`, `into_block`: the identifier, the labels and the body,
`crates/hcl-rs/src/structure/mod.rs:117-138`. -/
def asBlock : Struct → Option (Str × List Label × List Struct)
  | .block i ls b => some (i, ls, b)
  | .attr _ _ => none

/-- `Body::attributes`, `attributes_mut`, `into_attributes`, `crates/hcl-rs/src/structure/body.rs:114-166`,
with a sequence of calls. -/
def attributes (b : List Struct) (cs : List Bool) : List (Option (Str × Expr)) := runFind asAttribute cs b

/-- `Body::blocks`, `blocks_mut`, `into_blocks`, `crates/hcl-rs/src/structure/body.rs:185-237`,
with a sequence of calls. -/
def blocks (b : List Struct) (cs : List Bool) : List (Option (Str × List Label × List Struct)) :=
  runFind asBlock cs b

/-! ### Builders -/

/-- A call of a method of `BlockBuilder`; those of `BodyBuilder` are the ones without labels. -/
inductive BCall
  | label (l : Label)
  | labels (ls : List Label)
  | attribute (k : Str) (e : Expr)
  | attributes (as : List (Str × Expr))
  | block (i : Str) (ls : List Label) (b : List Struct)
  | blocks (bs : List (Str × List Label × List Struct))
  | structure (s : Struct)
  | structures (ss : List Struct)

/-- `Extend::extend`, `crates/hcl-rs/src/structure/iter.rs:71-76`, and `Vec::extend`. -/
def extend (b ss : List Struct) : List Struct := b ++ ss

/-- `FromIterator::from_iter`, `crates/hcl-rs/src/structure/iter.rs:83-92`. -/
def fromIter (ss : List Struct) : List Struct := extend [] ss

/-- A call of a method of `BodyBuilder`, `crates/hcl-rs/src/structure/body.rs:322-382`; calls for labels are
not possible. -/
def bodyCall (b : List Struct) : BCall → List Struct
  | .label _ | .labels _ => b
  | .attribute k e => b ++ [.attr k e]
  | .attributes as => extend b (as.map fun a => .attr a.1 a.2)
  | .block i ls x => b ++ [.block i ls x]
  | .blocks bs => extend b (bs.map fun x => .block x.1 x.2.1 x.2.2)
  | .structure s => b ++ [s]
  | .structures ss => extend b ss

/-- A call of a method of `BlockBuilder`, `crates/hcl-rs/src/structure/block.rs:220-307`. -/
def blockCall (s : List Label × List Struct) : BCall → List Label × List Struct
  | .label l => (s.1 ++ [l], s.2)
  | .labels ls => (s.1 ++ ls, s.2)
  | c => (s.1, bodyCall s.2 c)

/-- `Body::builder()…build()`, `crates/hcl-rs/src/structure/body.rs:35-37,385-387`. -/
def buildBody (cs : List BCall) : List Struct := fromIter (cs.foldl bodyCall [])

/-- `Block::builder(identifier)…build()`, `crates/hcl-rs/src/structure/block.rs:206-215,310-316`. -/
def buildBlock (i : Str) (cs : List BCall) : Struct :=
  let s := cs.foldl blockCall ([], [])
  .block i s.1 (fromIter s.2)

/-! ### Labels -/

/-- `BlockLabel::as_str`, `crates/hcl-edit/src/structure/block.rs:267-272`. -/
def labelStr : ELabel → Str
  | .ident d => d.name
  | .string _ s => s

/-- `Block::has_labels` for a block with the labels `ls`,
`crates/hcl-edit/src/structure/block.rs:145-157`. -/
def hasLabels (ls : List ELabel) (want : List Str) : Bool :=
  if ls.length < want.length then false
  else (ls.zip want).all fun p => labelStr p.1 == p.2

/-- `Block::has_exact_labels`, `crates/hcl-edit/src/structure/block.rs:207-212`. -/
def hasExactLabels (ls : List ELabel) (want : List Str) : Bool :=
  ls.length == want.length && hasLabels ls want

end Verif.Iter
