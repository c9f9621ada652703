import Verif.Model.EditParser
import Verif.Spec.Level
/-!
Operator chains (C19): a chain is an operand followed by pairs of an operator and an operand. An
`OpTree` is a way to put parentheses into a chain.
-/

namespace Verif.Spec
open Gram

/-- A tree of binary operators over operands. -/
inductive OpTree
  | operand (e : EExpr)
  | op (l : OpTree) (o : DBinOp) (r : OpTree)

namespace OpTree

/-- The leftmost operand. -/
def first : OpTree → EExpr
  | operand e => e
  | op l _ _ => l.first

/-- The operators from left to right, each with the operand after it. -/
def rest : OpTree → List (DBinOp × EExpr)
  | operand _ => []
  | op l o r => l.rest ++ (o, r.first) :: r.rest

/-- The operator at the top. -/
def top : OpTree → Option BinOp
  | operand _ => none
  | op _ o _ => some o.op

end OpTree

/-- The expression is the tree: its nodes are binary operations with these operators, down to the
operands. -/
inductive IsTree : OpTree → EExpr → Prop
  | operand {e} : IsTree (.operand e) e
  | op {l o r m el er} : IsTree l el → IsTree r er →
      IsTree (.op l o r) (.binary m el o.m o.op er)

/-- Operators of higher precedence are inside operators of lower precedence; operators of the same
precedence associate to the left, comparisons not at all. -/
inductive ByPrecedence : OpTree → Prop
  | operand {e} : ByPrecedence (.operand e)
  | op {l o r} : ByPrecedence l → ByPrecedence r →
      (∀ x ∈ l.top, level o.op < level x ∨
        (level o.op = level x ∧ ¬comparison o.op)) →
      (∀ x ∈ r.top, level o.op < level x) →
      ByPrecedence (.op l o r)

/-- Two comparisons of the same precedence such that all operators between them bind tighter, as in
`a == b + 1 != c`. -/
def Clash (ops : List (DBinOp × EExpr)) : Prop :=
  ∃ pre x mid y post, ops = pre ++ x :: (mid ++ y :: post) ∧ comparison x.1.op ∧
    level x.1.op = level y.1.op ∧ ∀ z ∈ mid, level x.1.op < level z.1.op

end Verif.Spec
