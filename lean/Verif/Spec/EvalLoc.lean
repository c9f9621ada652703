import Verif.Model.Eval
/-!
What C73 talks about: the parts of an expression, and which expression can raise which error, stated without
the evaluator.
-/

namespace Verif.Spec
open Verif

/-- The expression stands directly in the template: in an interpolation or in the head of a directive,
possibly inside of other directives. -/
inductive InElems : Expr → List Elem → Prop
  | interp {e s els} : .interp e s ∈ els → InElems e els
  | ifCond {c t f a b z els} : .ifDir c t f a b z ∈ els → InElems c els
  | ifTrue {e c t f a b z els} : .ifDir c t f a b z ∈ els → InElems e t → InElems e els
  | ifFalse {e c t f a b z els} : .ifDir c t (some f) a b z ∈ els → InElems e f → InElems e els
  | forColl {k x coll t a b els} : .forDir k x coll t a b ∈ els → InElems coll els
  | forBody {e k x coll t a b els} : .forDir k x coll t a b ∈ els → InElems e t → InElems e els

/-- `Direct env e p`: the expression `e` stands directly in the expression `p`. Templates count with what they
parse to. -/
inductive Direct (env : Env) : Expr → Expr → Prop
  | array {xs x} : x ∈ xs → Direct env x (.array xs)
  | key {es k v} : (ObjKey.expr k, v) ∈ es → Direct env k (.object es)
  | value {es k v} : (k, v) ∈ es → Direct env v (.object es)
  | template {t els e} : env.parseTemplate t.asStr = .ok els → InElems e els → Direct env e (.template t)
  | traversal {e ops} : Direct env e (.traversal e ops)
  | index {e ops i} : .index i ∈ ops → Direct env i (.traversal e ops)
  | arg {f args x a} : a ∈ args → Direct env a (.call f args x)
  | paren {e} : Direct env e (.paren e)
  | cond {c t f} : Direct env c (.cond c t f)
  | whenTrue {c t f} : Direct env t (.cond c t f)
  | whenFalse {c t f} : Direct env f (.cond c t f)
  | unary {o e} : Direct env e (.unary o e)
  | lhs {l o r} : Direct env l (.binary l o r)
  | rhs {l o r} : Direct env r (.binary l o r)
  | forColl {k x coll ke ve g ce} : Direct env coll (.forE k x coll ke ve g ce)
  | forKey {k x coll ke ve g ce} : Direct env ke (.forE k x coll (some ke) ve g ce)
  | forValue {k x coll ke ve g ce} : Direct env ve (.forE k x coll ke ve g ce)
  | forCond {k x coll ke ve g ce} : Direct env ce (.forE k x coll ke ve g (some ce))

/-- `e` is `p` or stands, at any depth, in `p`. -/
inductive Part (env : Env) : Expr → Expr → Prop
  | self {e} : Part env e e
  | inside {e q p} : Part env e q → Direct env q p → Part env e p

/-- Expressions that evaluate parts of themselves repeatedly, with loop variables. -/
def Loops : Expr → Prop
  | .forE .. => True
  | .template _ => True
  | _ => False

/-- The expression can raise the error by itself: an undefined variable is reported for that variable, an
undefined function or a failed call for a call of this function, an operator that is not applicable for an
operation with this operator, and so on. -/
def Raises : Expr → EvalErr → Prop
  | .var x, .undefinedVar y => x = y
  | .call f _ _, .undefinedFunc g => f = g
  | .call f _ _, .funcCall g _ => f = g
  | .call _ args expand, .unexpected _ what => expand = true ∧ args ≠ [] ∧ what = c!"an array"
  | .unary o _, .unaryOp o' _ => o = o'
  | .binary _ o _, .binaryOp _ o' _ => o = o'
  | .traversal _ ops, .index _ => ops ≠ []
  | .traversal _ ops, .noSuchKey _ => ops ≠ []
  | .traversal _ ops, .unexpected _ what => ops ≠ [] ∧ (what = c!"an array" ∨ what = c!"an object" ∨
      what = c!"an unsigned integer" ∨ what = c!"an unsigned integer or string")
  | .cond .., .unexpected _ what => what = c!"a boolean"
  | .object _, .unexpected _ what => what = c!"a string, boolean or number"
  | .forE _ _ _ ke _ g ce, k => match k with
    | .keyExists _ => ke.isSome ∧ g = false
    | .unexpected _ what => what = c!"an array or object" ∨ (ce.isSome ∧ what = c!"a boolean") ∨
        (ke.isSome ∧ what = c!"a string, boolean or number")
    | _ => False
  | .template _, .unexpected _ what => what = c!"a boolean" ∨ what = c!"an array or object"
  | _, _ => False

end Verif.Spec
