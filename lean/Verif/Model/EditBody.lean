import Verif.Model.Body
import Verif.Model.EditEncode
import Verif.Model.EditDespan
/-! The operations on bodies (`Model/Body.lean`) on the trees that are printed (`Model/EditEncode.lean`), and
the changes of numbers in place. -/

namespace Verif

/-- Everything in an attribute; the payload of `BStruct`. -/
abbrev EAttr := Meta × DIdent × EExpr

/-- Everything in a block; the payload of `BStruct`. -/
abbrev EBlock := Meta × DIdent × List ELabel × EBody

/-- A `Structure` (`crates/hcl-edit/src/structure/mod.rs`) with the text that `has_key` and `has_ident` compare
(`structure/attribute.rs`, `structure/block.rs`). -/
def EStruct.split : EStruct → BStruct EAttr EBlock
  | .attr m k v => .attr k.name (m, k, v)
  | .block m i ls b => .block i.name (m, i, ls, b)

/-- Back to the structure. -/
def EStruct.join : BStruct EAttr EBlock → EStruct
  | .attr _ (m, k, v) => .attr m k v
  | .block _ (m, i, ls, b) => .block m i ls b

/-- One of the operations of `Body`, `crates/hcl-edit/src/structure/body.rs:126-130,340-548`: the display hints,
decor and span of the body stay as they are. `none` is a panic. -/
def EBody.step (op : Body.Op EAttr EBlock) : EBody → Option (EBody × Body.Ret EAttr EBlock)
  | .mk m ss o om => (Body.step (ss.map EStruct.split) op).map fun r => (.mk m (r.1.map EStruct.join) o om, r.2)

/-- `*Formatted::value_mut() = n` for a number, `crates/hcl-edit/src/repr.rs:429-433` (also through `DerefMut`
and `AsMut`, 461-482): the text that was read stays. -/
def EExpr.setNumber (n : N) : EExpr → EExpr
  | .number m _ r => .number m n r
  | e => e

/-- `Formatted::format` for a number, `crates/hcl-edit/src/repr.rs:409-417`. -/
def EExpr.formatNumber (E : FmtEnv) : EExpr → EExpr
  | .number m n _ => .number m n (some (.ofStr (showNumber E n)))
  | e => e

end Verif
