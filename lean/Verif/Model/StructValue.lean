import Verif.Model.JsonSpec
import Verif.Model.Convert
/-!
Model of the conversion of attributes, blocks, structures and bodies into values.
-/

namespace Verif

/-- `From<Body> for Value`, `crates/hcl-rs/src/structure/json_spec.rs:105-112`. -/
def bodyToValue (E : FmtEnv) (b : List Struct) : Value := toValue E (bodyToJson b)

/-- `From<Attribute> for Value`, `crates/hcl-rs/src/structure/attribute.rs:51-55`, by
`FromIterator<(K, V)> for Value`, `crates/hcl-rs/src/value/from.rs:84-92`. -/
def attrToValue (E : FmtEnv) (k : Str) (e : Expr) : Value := .object (Map.collect [(k, toValue E e)])

/-- `From<Block> for Value`, `crates/hcl-rs/src/structure/json_spec.rs:105-112`: the map of `into_json_nodes`
(lines 46-65), with the node that is stored under the block's identifier, by `into_json_spec` (16-18). -/
def blockToValue (E : FmtEnv) (i : Str) (ls : List Label) (b : List Struct) : Value :=
  toValue E (.object (objCollect (JNode.entriesToExpr [(i, blockNode (bodyToJson b) ls)])))

/-- `From<Structure> for Value`, `crates/hcl-rs/src/structure/mod.rs:141-148`. -/
def structToValue (E : FmtEnv) : Struct → Value
  | .attr k e => attrToValue E k e
  | .block i ls b => blockToValue E i ls b

end Verif
