import Verif.Model.EditEq
/-!
Model of the accessors of `Expression`, `crates/hcl-edit/src/expr/mod.rs:70-306`. Those that give a reference to a
struct give the parts of it that matter, or the expression itself if it is more than one part; those that give a mutable
reference find the same.
-/

namespace Verif.EExpr

/-- `Expression::null`, `crates/hcl-edit/src/expr/mod.rs:71-73`. -/
def mkNull : EExpr := .null {}

/-- `Expression::is_null`, `crates/hcl-edit/src/expr/mod.rs:76-78`. -/
def isNull : EExpr → Bool
  | .null _ => true
  | _ => false

/-- `Expression::as_bool`, `crates/hcl-edit/src/expr/mod.rs:86-91`. -/
def asBool : EExpr → Option Bool
  | .bool _ b => some b
  | _ => none

/-- `Expression::is_bool`, `crates/hcl-edit/src/expr/mod.rs:81-83`. -/
def isBool (e : EExpr) : Bool := e.asBool.isSome

/-- `Expression::as_number`, `crates/hcl-edit/src/expr/mod.rs:99-104`. -/
def asNumber : EExpr → Option N
  | .number _ n _ => some n
  | _ => none

/-- `Expression::is_number`, `crates/hcl-edit/src/expr/mod.rs:94-96`. -/
def isNumber (e : EExpr) : Bool := e.asNumber.isSome

/-- `Expression::as_str`, `crates/hcl-edit/src/expr/mod.rs:112-117`. -/
def asStr : EExpr → Option Str
  | .string _ s => some s
  | _ => none

/-- `Expression::is_str`, `crates/hcl-edit/src/expr/mod.rs:107-109`. -/
def isStr (e : EExpr) : Bool := e.asStr.isSome

/-- `Expression::as_array`, `crates/hcl-edit/src/expr/mod.rs:125-130`. -/
def asArray : EExpr → Option (List EExpr)
  | .array _ xs _ _ => some xs
  | _ => none

/-- `Expression::is_array`, `crates/hcl-edit/src/expr/mod.rs:120-122`. -/
def isArray (e : EExpr) : Bool := e.asArray.isSome

/-- `Expression::as_object`, `crates/hcl-edit/src/expr/mod.rs:146-151`. -/
def asObject : EExpr → Option (List EItem)
  | .object _ is _ => some is
  | _ => none

/-- `Expression::is_object`, `crates/hcl-edit/src/expr/mod.rs:141-143`. -/
def isObject (e : EExpr) : Bool := e.asObject.isSome

/-- `Expression::as_template`, `crates/hcl-edit/src/expr/mod.rs:169-175`. -/
def asTemplate : EExpr → Option (List EElem)
  | .strTmpl _ els => some els
  | .heredoc _ _ _ els _ _ => some els
  | _ => none

/-- `Expression::is_template`, `crates/hcl-edit/src/expr/mod.rs:163-165`. -/
def isTemplate (e : EExpr) : Bool := e.asTemplate.isSome

/-- `Expression::as_string_template`, `crates/hcl-edit/src/expr/mod.rs:183-188`. -/
def asStringTemplate : EExpr → Option (List EElem)
  | .strTmpl _ els => some els
  | _ => none

/-- `Expression::is_string_template`, `crates/hcl-edit/src/expr/mod.rs:178-180`. -/
def isStringTemplate (e : EExpr) : Bool := e.asStringTemplate.isSome

/-- `Expression::as_heredoc_template`, `crates/hcl-edit/src/expr/mod.rs:196-201`. -/
def asHeredocTemplate : EExpr → Option (Str × List EElem)
  | .heredoc _ d _ els _ _ => some (d, els)
  | _ => none

/-- `Expression::is_heredoc_template`, `crates/hcl-edit/src/expr/mod.rs:191-193`. -/
def isHeredocTemplate (e : EExpr) : Bool := e.asHeredocTemplate.isSome

/-- `Expression::as_parenthesis`, `crates/hcl-edit/src/expr/mod.rs:210-215`. -/
def asParenthesis : EExpr → Option EExpr
  | .paren _ e => some e
  | _ => none

/-- `Expression::is_parenthesis`, `crates/hcl-edit/src/expr/mod.rs:204-206`. -/
def isParenthesis (e : EExpr) : Bool := e.asParenthesis.isSome

/-- `Expression::as_variable`, `crates/hcl-edit/src/expr/mod.rs:223-228`. -/
def asVariable : EExpr → Option Str
  | .var _ x => some x
  | _ => none

/-- `Expression::is_variable`, `crates/hcl-edit/src/expr/mod.rs:218-220`. -/
def isVariable (e : EExpr) : Bool := e.asVariable.isSome

/-- `Expression::as_conditional`, `crates/hcl-edit/src/expr/mod.rs:236-241`. -/
def asConditional : EExpr → Option (EExpr × EExpr × EExpr)
  | .cond _ c t f => some (c, t, f)
  | _ => none

/-- `Expression::is_conditional`, `crates/hcl-edit/src/expr/mod.rs:231-233`. -/
def isConditional (e : EExpr) : Bool := e.asConditional.isSome

/-- `Expression::as_func_call`, `crates/hcl-edit/src/expr/mod.rs:249-254`. -/
def asFuncCall : EExpr → Option EExpr
  | .call m ns n am as c x t => some (.call m ns n am as c x t)
  | _ => none

/-- `Expression::is_func_call`, `crates/hcl-edit/src/expr/mod.rs:244-246`. -/
def isFuncCall (e : EExpr) : Bool := e.asFuncCall.isSome

/-- `Expression::as_traversal`, `crates/hcl-edit/src/expr/mod.rs:262-267`. -/
def asTraversal : EExpr → Option (EExpr × List ETrav)
  | .trav _ e ops => some (e, ops)
  | _ => none

/-- `Expression::is_traversal`, `crates/hcl-edit/src/expr/mod.rs:257-259`. -/
def isTraversal (e : EExpr) : Bool := e.asTraversal.isSome

/-- `Expression::as_unary_op`, `crates/hcl-edit/src/expr/mod.rs:275-280`. -/
def asUnaryOp : EExpr → Option (UnOp × EExpr)
  | .unary _ _ o e => some (o, e)
  | _ => none

/-- `Expression::is_unary_op`, `crates/hcl-edit/src/expr/mod.rs:270-272`. -/
def isUnaryOp (e : EExpr) : Bool := e.asUnaryOp.isSome

/-- `Expression::as_binary_op`, `crates/hcl-edit/src/expr/mod.rs:288-293`. -/
def asBinaryOp : EExpr → Option (EExpr × BinOp × EExpr)
  | .binary _ l _ o r => some (l, o, r)
  | _ => none

/-- `Expression::is_binary_op`, `crates/hcl-edit/src/expr/mod.rs:283-285`. -/
def isBinaryOp (e : EExpr) : Bool := e.asBinaryOp.isSome

/-- `Expression::as_for_expr`, `crates/hcl-edit/src/expr/mod.rs:301-306`. -/
def asForExpr : EExpr → Option EExpr
  | .forE m im k v c ke ve g cm co => some (.forE m im k v c ke ve g cm co)
  | _ => none

/-- `Expression::is_for_expr`, `crates/hcl-edit/src/expr/mod.rs:296-298`. -/
def isForExpr (e : EExpr) : Bool := e.asForExpr.isSome

end Verif.EExpr
