import Verif.Model.ExprBuild
/-!
C92: what a sequence of calls of builder methods asks for.
-/

namespace Verif.Spec

/-- What the last of the steps that concern a part asks for, if any does. -/
def lastOf {α β : Type} (f : α → Option β) (steps : List α) : Option β := (steps.filterMap f).getLast?

/-- The argument a step adds. -/
def asArg : CallStep → Option Expr
  | .arg e => some e
  | .expandFinal _ => none

/-- Whether a step turns expansion on or off. -/
def asExpand : CallStep → Option Bool
  | .arg _ => none
  | .expandFinal b => some b

/-- The operator a step adds. -/
def asOp : TravStep → TravOp
  | .attr x => .getAttr x
  | .attrSplat => .attrSplat
  | .fullSplat => .fullSplat
  | .index e => .index e

/-- The key variable a step asks for. -/
def asKeyVar : ForStep → Option Str
  | .keyVar k => some k
  | _ => none

/-- The key expression a step asks for. -/
def asKeyExpr : ForStep → Option Expr
  | .keyExpr e => some e
  | _ => none

/-- The condition a step asks for. -/
def asCond : ForStep → Option Expr
  | .condExpr e => some e
  | _ => none

/-- Whether a step turns grouping on or off. -/
def asGrouping : ForStep → Option Bool
  | .grouping b => some b
  | _ => none

/-- The element a step adds. -/
def asElem : TmplStep → Elem
  | .element e => e
  | .literal s => .lit s
  | .interpolation e => .interp e .none

/-- The template for `else`. -/
def asFalse : IfStep → Option (List Elem)
  | .falseTemplate t => some t
  | _ => none

/-- The strip mode of `if`. -/
def asIfStrip : IfStep → Option Strip
  | .ifStrip s => some s
  | _ => none

/-- The strip mode of `else`. -/
def asElseStrip : IfStep → Option Strip
  | .elseStrip s => some s
  | _ => none

/-- The strip mode of `endif`. -/
def asEndifStrip : IfStep → Option Strip
  | .endifStrip s => some s
  | _ => none

/-- The key variable of a directive. -/
def asLoopKey : LoopStep → Option Str
  | .keyVar k => some k
  | _ => none

/-- The strip mode of `for`. -/
def asForStrip : LoopStep → Option Strip
  | .forStrip s => some s
  | _ => none

/-- The strip mode of `endfor`. -/
def asEndforStrip : LoopStep → Option Strip
  | .endforStrip s => some s
  | _ => none

end Verif.Spec
