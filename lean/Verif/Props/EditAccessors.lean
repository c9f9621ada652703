import Verif.Model.EditAccessors
import Verif.Model.Convert
/-!
C94: the accessors of an `hcl-edit` expression.
-/

namespace Verif.Spec

/-- What all the tests for kinds answer. -/
def kinds (e : EExpr) : List Bool :=
  [e.isNull, e.isBool, e.isNumber, e.isStr, e.isArray, e.isObject, e.isStringTemplate, e.isHeredocTemplate, e.isParenthesis, e.isVariable, e.isConditional, e.isFuncCall, e.isTraversal, e.isUnaryOp, e.isBinaryOp, e.isForExpr]

end Verif.Spec

namespace Verif.Props
open Spec EExpr

/-- C94: an expression is of exactly one kind; string templates and heredocs, and nothing else, are templates too. -/
theorem C94_one_kind (e : EExpr) : (kinds e).count true = 1 ∧
    e.isTemplate = (e.isStringTemplate || e.isHeredocTemplate) := by
  cases e <;> simp [kinds, isNull, isBool, isNumber, isStr, isArray, isObject, isStringTemplate, isHeredocTemplate, isParenthesis, isVariable, isConditional, isFuncCall, isTraversal, isUnaryOp, isBinaryOp, isForExpr, isTemplate, asBool, asNumber, asStr, asArray, asObject, asTemplate, asStringTemplate, asHeredocTemplate, asParenthesis, asVariable, asConditional, asFuncCall, asTraversal, asUnaryOp, asBinaryOp, asForExpr]

/-- C94: the accessors give the contents, whatever whitespace and comments surround them and wherever they were found. -/
theorem C94_contents (e : EExpr) :
    (e.isNull = true ↔ ∃ m, e = .null m) ∧
    (∀ b, e.asBool = some b ↔ ∃ m, e = .bool m b) ∧
    (∀ n, e.asNumber = some n ↔ ∃ m r, e = .number m n r) ∧
    (∀ s, e.asStr = some s ↔ ∃ m, e = .string m s) ∧
    (∀ xs, e.asArray = some xs ↔ ∃ m c t, e = .array m xs c t) ∧
    (∀ is, e.asObject = some is ↔ ∃ m t, e = .object m is t) ∧
    (∀ els, e.asTemplate = some els ↔ (∃ m, e = .strTmpl m els) ∨ ∃ m d sp i t, e = .heredoc m d sp els i t) ∧
    (∀ els, e.asStringTemplate = some els ↔ ∃ m, e = .strTmpl m els) ∧
    (∀ d els, e.asHeredocTemplate = some (d, els) ↔ ∃ m sp i t, e = .heredoc m d sp els i t) ∧
    (∀ i, e.asParenthesis = some i ↔ ∃ m, e = .paren m i) ∧
    (∀ v, e.asVariable = some v ↔ ∃ m, e = .var m v) ∧
    (∀ c t f, e.asConditional = some (c, t, f) ↔ ∃ m, e = .cond m c t f) ∧
    (∀ i, e.asFuncCall = some i ↔ e = i ∧ ∃ m ns n am as c x t, e = .call m ns n am as c x t) ∧
    (∀ i ops, e.asTraversal = some (i, ops) ↔ ∃ m, e = .trav m i ops) ∧
    (∀ o i, e.asUnaryOp = some (o, i) ↔ ∃ m s, e = .unary m s o i) ∧
    (∀ l o r, e.asBinaryOp = some (l, o, r) ↔ ∃ m om, e = .binary m l om o r) ∧
    (∀ i, e.asForExpr = some i ↔ e = i ∧ ∃ m im k v c ke ve g cm co, e = .forE m im k v c ke ve g cm co) := by
  cases e <;> simp [isNull, isBool, isNumber, isStr, isArray, isObject, isStringTemplate, isHeredocTemplate, isParenthesis, isVariable, isConditional, isFuncCall, isTraversal, isUnaryOp, isBinaryOp, isForExpr, isTemplate, asBool, asNumber, asStr, asArray, asObject, asTemplate, asStringTemplate, asHeredocTemplate, asParenthesis, asVariable, asConditional, asFuncCall, asTraversal, asUnaryOp, asBinaryOp, asForExpr]

/-- C94: converted for `hcl-rs` an expression is of the same kind. -/
theorem C94_converted (E : FmtEnv) (e : EExpr) :
    (e.isNull = true ↔ toHcl E e = .null) ∧
    (e.isBool = true ↔ ∃ b, toHcl E e = .bool b) ∧
    (e.isNumber = true ↔ ∃ n, toHcl E e = .number n) ∧
    (e.isStr = true ↔ ∃ s, toHcl E e = .string s) ∧
    (e.isArray = true ↔ ∃ xs, toHcl E e = .array xs) ∧
    (e.isObject = true ↔ ∃ es, toHcl E e = .object es) ∧
    (e.isTemplate = true ↔ ∃ t, toHcl E e = .template t) ∧
    (e.isStringTemplate = true ↔ ∃ s, toHcl E e = .template (.quoted s)) ∧
    (e.isHeredocTemplate = true ↔ ∃ d s i, toHcl E e = .template (.heredoc d s i)) ∧
    (e.isParenthesis = true ↔ ∃ i, toHcl E e = .paren i) ∧
    (e.isVariable = true ↔ ∃ v, toHcl E e = .var v) ∧
    (e.isConditional = true ↔ ∃ c t f, toHcl E e = .cond c t f) ∧
    (e.isFuncCall = true ↔ ∃ n args b, toHcl E e = .call n args b) ∧
    (e.isTraversal = true ↔ ∃ i ops, toHcl E e = .traversal i ops) ∧
    (e.isUnaryOp = true ↔ ∃ o i, toHcl E e = .unary o i) ∧
    (e.isBinaryOp = true ↔ ∃ l o r, toHcl E e = .binary l o r) ∧
    (e.isForExpr = true ↔ ∃ k v c ke ve g ce, toHcl E e = .forE k v c ke ve g ce) := by
  cases e <;> simp [toHcl, isNull, isBool, isNumber, isStr, isArray, isObject, isStringTemplate, isHeredocTemplate, isParenthesis, isVariable, isConditional, isFuncCall, isTraversal, isUnaryOp, isBinaryOp, isForExpr, isTemplate, asBool, asNumber, asStr, asArray, asObject, asTemplate, asStringTemplate, asHeredocTemplate, asParenthesis, asVariable, asConditional, asFuncCall, asTraversal, asUnaryOp, asBinaryOp, asForExpr]

/-- C94: and so it is converted the other way. -/
theorem C94_converted_back (P : Gram.PEnv) (x : Expr) :
    ((toEdit P x).isNull = true ↔ x = .null) ∧
    ((toEdit P x).isBool = true ↔ ∃ b, x = .bool b) ∧
    ((toEdit P x).isNumber = true ↔ ∃ n, x = .number n) ∧
    ((toEdit P x).isStr = true ↔ ∃ s, x = .string s) ∧
    ((toEdit P x).isArray = true ↔ ∃ xs, x = .array xs) ∧
    ((toEdit P x).isObject = true ↔ ∃ es, x = .object es) ∧
    ((toEdit P x).isTemplate = true ↔ ∃ t, x = .template t) ∧
    ((toEdit P x).isStringTemplate = true ↔ ∃ s, x = .template (.quoted s)) ∧
    ((toEdit P x).isHeredocTemplate = true ↔ ∃ d s i, x = .template (.heredoc d s i)) ∧
    ((toEdit P x).isParenthesis = true ↔ ∃ e, x = .paren e) ∧
    ((toEdit P x).isVariable = true ↔ ∃ v, x = .var v) ∧
    ((toEdit P x).isConditional = true ↔ ∃ c t f, x = .cond c t f) ∧
    ((toEdit P x).isFuncCall = true ↔ ∃ n args b, x = .call n args b) ∧
    ((toEdit P x).isTraversal = true ↔ ∃ e ops, x = .traversal e ops) ∧
    ((toEdit P x).isUnaryOp = true ↔ ∃ o e, x = .unary o e) ∧
    ((toEdit P x).isBinaryOp = true ↔ ∃ l o r, x = .binary l o r) ∧
    ((toEdit P x).isForExpr = true ↔ ∃ k v c ke ve g ce, x = .forE k v c ke ve g ce) := by
  cases x with
  | template t => cases t <;> simp [toEdit, isNull, isBool, isNumber, isStr, isArray, isObject, isStringTemplate, isHeredocTemplate, isParenthesis, isVariable, isConditional, isFuncCall, isTraversal, isUnaryOp, isBinaryOp, isForExpr, isTemplate, asBool, asNumber, asStr, asArray, asObject, asTemplate, asStringTemplate, asHeredocTemplate, asParenthesis, asVariable, asConditional, asFuncCall, asTraversal, asUnaryOp, asBinaryOp, asForExpr]
  | _ => simp [toEdit, isNull, isBool, isNumber, isStr, isArray, isObject, isStringTemplate, isHeredocTemplate, isParenthesis, isVariable, isConditional, isFuncCall, isTraversal, isUnaryOp, isBinaryOp, isForExpr, isTemplate, asBool, asNumber, asStr, asArray, asObject, asTemplate, asStringTemplate, asHeredocTemplate, asParenthesis, asVariable, asConditional, asFuncCall, asTraversal, asUnaryOp, asBinaryOp, asForExpr]

/-- C94: booleans, numbers, strings and variables are the same after conversion, and elements of arrays are converted. -/
theorem C94_converted_contents (E : FmtEnv) (e : EExpr) :
    (∀ b, e.asBool = some b ↔ toHcl E e = .bool b) ∧ (∀ n, e.asNumber = some n ↔ toHcl E e = .number n) ∧
    (∀ s, e.asStr = some s ↔ toHcl E e = .string s) ∧ (∀ v, e.asVariable = some v ↔ toHcl E e = .var v) ∧
    (∀ xs, e.asArray = some xs → toHcl E e = .array (toHclList E xs)) := by
  cases e <;> simp [toHcl, asBool, asNumber, asStr, asVariable, asArray]

/-- C94: expressions that compare equal are of the same kind, and the same boolean, string or variable. -/
theorem C94_equal (a b : EExpr) (h : EExpr.beq a b = true) : kinds a = kinds b ∧ a.asBool = b.asBool ∧
    a.asStr = b.asStr ∧ a.asVariable = b.asVariable := by
  cases a <;> cases b <;> simp [EExpr.beq] at h <;>
    simp_all [kinds, isNull, isBool, isNumber, isStr, isArray, isObject, isStringTemplate, isHeredocTemplate, isParenthesis, isVariable, isConditional, isFuncCall, isTraversal, isUnaryOp, isBinaryOp, isForExpr, isTemplate, asBool, asNumber, asStr, asArray, asObject, asTemplate, asStringTemplate, asHeredocTemplate, asParenthesis, asVariable, asConditional, asFuncCall, asTraversal, asUnaryOp, asBinaryOp, asForExpr]

/-- C94: `null()` is null. -/
theorem C94_null : mkNull.isNull = true := rfl

/-- `# comment` and `true`. -/
example : (EExpr.bool {} true).asBool = some true ∧ (EExpr.bool {} true).isStr = false := ⟨rfl, rfl⟩
example : EExpr.beq (.array {} [.null {}] true .empty) (.array {} [.null {}] true .empty) = true := rfl

end Verif.Props
