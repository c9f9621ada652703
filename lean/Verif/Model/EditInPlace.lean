import Verif.Model.EditBody
/-!
Model of the accessors of `Structure`, `crates/hcl-edit/src/structure/mod.rs:38-104`, and of the changes in place that
`StructureMut` (`crates/hcl-edit/src/structure/mod.rs:129-170`) and `AttributeMut`
(`crates/hcl-edit/src/structure/attribute.rs:75-98`) allow.
-/

namespace Verif.EStruct

/-- `Structure::as_attribute`, `crates/hcl-edit/src/structure/mod.rs:63-68`. -/
def asAttribute : EStruct → Option EAttr
  | .attr m k v => some (m, k, v)
  | .block .. => none

/-- `Structure::as_block`, `crates/hcl-edit/src/structure/mod.rs:91-96`. -/
def asBlock : EStruct → Option EBlock
  | .block m i ls b => some (m, i, ls, b)
  | .attr .. => none

/-- `Structure::is_attribute`, `crates/hcl-edit/src/structure/mod.rs:40-42`. -/
def isAttribute (s : EStruct) : Bool := s.asAttribute.isSome

/-- `Structure::is_block`, `crates/hcl-edit/src/structure/mod.rs:45-47`. -/
def isBlock (s : EStruct) : Bool := s.asBlock.isSome

/-- `Structure::into_attribute`, `crates/hcl-edit/src/structure/mod.rs:55-60`. -/
def intoAttribute : EStruct → Except EStruct EAttr
  | .attr m k v => .ok (m, k, v)
  | .block m i ls b => .error (.block m i ls b)

/-- `Structure::into_block`, `crates/hcl-edit/src/structure/mod.rs:83-88`. -/
def intoBlock : EStruct → Except EStruct EBlock
  | .block m i ls b => .ok (m, i, ls, b)
  | .attr m k v => .error (.attr m k v)

/-- `From<Attribute>` and `From<Block>`, `crates/hcl-edit/src/structure/mod.rs:114-124`. -/
def ofAttribute : EAttr → EStruct
  | (m, k, v) => .attr m k v

/-- `From<Block>`, `crates/hcl-edit/src/structure/mod.rs:120-124`. -/
def ofBlock : EBlock → EStruct
  | (m, i, ls, b) => .block m i ls b

end Verif.EStruct

namespace Verif

/-- What can be changed through a `StructureMut`, `crates/hcl-edit/src/structure/mod.rs:158-180`: the decor of the
structure; if it is an attribute the decor of its key and its value (`crates/hcl-edit/src/structure/attribute.rs:90-97`);
if it is a block all of it. -/
inductive StructEdit
  | decor (d : Decor)
  | keyDecor (d : Decor)
  | value (e : EExpr)
  | block (b : EBlock)

namespace StructEdit

/-- The change of one structure, `crates/hcl-edit/src/structure/mod.rs:158-180`; `as_attribute_mut` and `as_block_mut`
give nothing to change if it is of the other kind. -/
def apply : StructEdit → EStruct → EStruct
  | .decor d, .attr m k v => .attr { m with decor := d } k v
  | .decor d, .block m i ls b => .block { m with decor := d } i ls b
  | .keyDecor d, .attr m k v => .attr m { k with m := { k.m with decor := d } } v
  | .value e, .attr m k _ => .attr m k e
  | .block b, .block .. => EStruct.ofBlock b
  | _, s => s

end StructEdit

/-- A call on a body or a change of the structure that `Body::iter_mut`
(`crates/hcl-edit/src/structure/body.rs:560-562`) gives out at an index. `get_attribute_mut`, `get_blocks_mut`,
`attributes_mut` and `blocks_mut` give out some of the same. `get_mut`, which allows any change, is left out. -/
inductive BodyEdit
  | insert (i : Nat) (s : EStruct)
  | push (s : EStruct)
  | extend (ss : List EStruct)
  | pop
  | remove (i : Nat)
  | removeAttribute (key : Str)
  | removeBlocks (ident : Str)
  | clear
  | at (i : Nat) (e : StructEdit)

/-- One such change of a body, `crates/hcl-edit/src/structure/body.rs:126-130,340-548,560-562`. `none` is a panic. -/
def EBody.edit : BodyEdit → EBody → Option EBody
  | .insert i s, b => (b.step (.insert i s.split)).map Prod.fst
  | .push s, b => (b.step (.push s.split)).map Prod.fst
  | .extend ss, b => (b.step (.extend (ss.map EStruct.split))).map Prod.fst
  | .pop, b => (b.step .pop).map Prod.fst
  | .remove i, b => (b.step (.remove i)).map Prod.fst
  | .removeAttribute k, b => (b.step (.removeAttribute k)).map Prod.fst
  | .removeBlocks i, b => (b.step (.removeBlocks i)).map Prod.fst
  | .clear, b => (b.step .clear).map Prod.fst
  | .at i e, .mk m ss o om => some (.mk m (ss.modify i e.apply) o om)

/-- A history of changes of a body, `crates/hcl-edit/src/structure/body.rs:340-548,560-562`. -/
def EBody.edits : List BodyEdit → EBody → Option EBody
  | [], b => some b
  | e :: es, b => (b.edit e).bind (EBody.edits es)

end Verif
