import Verif.Model.EditAst
/-! The precedence of the binary operators (C17, C19), independent of the parser. -/

namespace Verif.Spec

/-- The comparison operators, which are the ones that do not chain. -/
def comparison (o : BinOp) : Prop :=
  o = .eq ∨ o = .notEq ∨ o = .less ∨ o = .lessEq ∨ o = .greater ∨ o = .greaterEq

instance : DecidablePred comparison := fun o => by unfold comparison; infer_instance

/-- How tight an operator binds: `* / %` tightest, then `+ -`, then `< <= > >=`, then `== !=`, then
`&&`, and `||` loosest. -/
def level : BinOp → Nat
  | .mul | .div | .mod => 6
  | .plus | .minus => 5
  | .less | .lessEq | .greater | .greaterEq => 4
  | .eq | .notEq => 3
  | .and => 2
  | .or => 1

/-- Neither a binary operation nor a conditional. -/
def isTerm : EExpr → Bool
  | .binary _ _ _ _ _ => false
  | .cond _ _ _ _ => false
  | _ => true

/-- What a traversal can be applied to without parentheses: not an operation, a conditional or another traversal. -/
def isHead : EExpr → Bool
  | .binary _ _ _ _ _ => false
  | .cond _ _ _ _ => false
  | .unary _ _ _ _ => false
  | .trav _ _ _ => false
  | _ => true

/-- Not a conditional. -/
def notCond : EExpr → Bool
  | .cond _ _ _ _ => false
  | _ => true

/-- The expression can be the left operand of the operator without parentheses: operators of the same
level associate to the left, comparisons not at all. -/
def LeftOf (o : BinOp) : EExpr → Prop
  | .binary _ _ _ x _ => level o < level x ∨ level o = level x ∧ ¬comparison o
  | e => isTerm e = true

/-- The expression can be the right operand of the operator without parentheses. -/
def RightOf (o : BinOp) : EExpr → Prop
  | .binary _ _ _ x _ => level o < level x
  | e => isTerm e = true

/-- The operator, after the expression, does not chain with a comparison in it, as the second one in
`a == b + 1 == c` and in `a || b == c == d`. -/
def Blocked (x : BinOp) : EExpr → Prop
  | .binary _ _ _ o r => (comparison o ∧ level o = level x) ∨ Blocked x r
  | _ => False

end Verif.Spec
