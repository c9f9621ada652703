import Verif.Model.Expr
/-!
Specification side of the JSON conversion: what a reader of the resulting tree sees, and what a body
contains. Nothing here refers to the conversion.
-/

namespace Verif.Spec

/-- The value of the first entry stored under the string key `k`. -/
def field (k : Str) : List (ObjKey × Expr) → Option Expr
  | [] => none
  | (.expr (.string k'), e) :: rest => if k' = k then some e else field k rest
  | _ :: rest => field k rest

/-- Follow a path of keys through nested objects. -/
def at? : List Str → Expr → Option Expr
  | [], e => some e
  | k :: ks, .object es => (field k es).bind (at? ks)
  | _ :: _, _ => none

/-- The path of a block in JSON: its identifier followed by its labels. -/
def blockPath (ident : Str) (labels : List Label) : List Str := ident :: labels.map Label.asStr

/-- The bodies of the blocks with the given path, in source order. -/
def blocksAt (p : List Str) : List Struct → List (List Struct)
  | [] => []
  | .attr _ _ :: rest => blocksAt p rest
  | .block i ls b :: rest => if blockPath i ls = p then b :: blocksAt p rest else blocksAt p rest

/-- The JSON form of the blocks at one path: an object for one block, an array for several. `conv`
is the JSON form of one body. -/
def blocksJson (conv : List Struct → Expr) : List (List Struct) → Expr
  | [b] => conv b
  | bs => .array (bs.map conv)

/-- Nothing else in the body competes for the path `p`: no attribute has its first segment as name
and no block's path is a proper prefix or a proper extension of `p`. -/
def NoClash (p : List Str) (b : List Struct) : Prop :=
  ∀ s ∈ b, match s with
    | .attr k _ => p.head? ≠ some k
    | .block i ls _ => blockPath i ls = p ∨ ¬ (blockPath i ls <+: p ∨ p <+: blockPath i ls)

/-- The name a structure has in the JSON object. -/
def structName : Struct → Str
  | .attr k _ => k
  | .block i _ _ => i

end Verif.Spec
