import Verif.Model.InPlace
/-!
Model of the conversion of a `Body` into an expression following the HCL JSON specification,
`crates/hcl-rs/src/structure/json_spec.rs`.

Simplification: the code keeps block bodies inside `JsonNode::Body` and converts them at the very end
(`From<JsonNode> for Expression`); the model converts a body when it is put into a node. Merging
nodes never looks into bodies, so the result is the same.
-/

namespace Verif

/-- `JsonNode`, `crates/hcl-rs/src/structure/json_spec.rs:67-71`. -/
inductive JNode
  | map (es : List (Str × JNode))
  | body (bs : List Expr)
  | expr (e : Expr)

mutual
/-- `JsonNode::deep_merge`, `crates/hcl-rs/src/structure/json_spec.rs:125-137`. -/
def JNode.merge : JNode → JNode → JNode
  | .map l, .map r => .map (JNode.mergeAll l r)
  | .body l, .body r => .body (l ++ r)
  | _, r => r
/-- The loop of `deep_merge`, `crates/hcl-rs/src/structure/json_spec.rs:128-130`, with
`deep_merge_into` (116-123) inlined. -/
def JNode.mergeAll (l : List (Str × JNode)) : List (Str × JNode) → List (Str × JNode)
  | [] => l
  | (k, n) :: rest =>
    JNode.mergeAll
      (match Map.get? k l with
        | some old => Map.insert k (JNode.merge old n) l
        | none => Map.insert k n l) rest
end

mutual
/-- `From<JsonNode> for Expression`, `crates/hcl-rs/src/structure/json_spec.rs:73-95`. -/
def JNode.toExpr : JNode → Expr
  | .map es => .object (objCollect (JNode.entriesToExpr es))
  | .body bs => match bs with
    | [b] => b
    | bs => .array bs
  | .expr e => e
/-- `Expression::from_iter(map)`, `crates/hcl-rs/src/expr/mod.rs:205-213`: keys become
`ObjectKey::Expression` of a string (302-309). -/
def JNode.entriesToExpr : List (Str × JNode) → List (ObjKey × Expr)
  | [] => []
  | (k, n) :: rest => (.expr (.string k), n.toExpr) :: JNode.entriesToExpr rest
end

/-- `IntoJsonSpec::into_json_nodes for Block`, `crates/hcl-rs/src/structure/json_spec.rs:46-65`: the
node stored under the block's identifier. -/
def blockNode (body : Expr) : List Label → JNode
  | [] => .body [body]
  | l :: ls => .map [(l.asStr, blockNode body ls)]

mutual
/-- `IntoJsonSpec::into_json_nodes for Body`, `crates/hcl-rs/src/structure/json_spec.rs:27-44`; `m`
is the map built so far. -/
def bodyNodes (m : List (Str × JNode)) : List Struct → List (Str × JNode)
  | [] => m
  | s :: ss => bodyNodes (structNodes m s) ss
/-- One step of the fold, `crates/hcl-rs/src/structure/json_spec.rs:30-39`. -/
def structNodes (m : List (Str × JNode)) : Struct → List (Str × JNode)
  | .attr k e => Map.insert k (.expr e) m
  | .block i ls b =>
    JNode.mergeAll m [(i, blockNode (JNode.map (bodyNodes [] b)).toExpr ls)]
end

/-- `From<Body> for Expression` (`crates/hcl-rs/src/structure/json_spec.rs:97-104`) by
`into_json_spec` (16-18). -/
def bodyToJson (b : List Struct) : Expr := (JNode.map (bodyNodes [] b)).toExpr

end Verif
