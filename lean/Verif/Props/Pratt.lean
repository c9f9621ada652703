import Verif.Lemmas.Pratt
import Verif.Props.Parse
/-! C19: operator chains. -/

namespace Verif.Props
open Gram Spec

/-- A chain without clashing comparisons: the expression is the tree over all its operands and
operators in their order, with parentheses by precedence and associativity, and there is only one
such tree. Missing from the full property: chains such as `a == b == c` (`C19_clash_drops`). -/
theorem C19_chain_partial (lhs : EExpr) (ops : List (DBinOp × EExpr)) (hc : ¬Clash ops) :
    ∃ t, IsTree t (parseBinaryOp lhs ops) ∧ t.first = lhs ∧ t.rest = ops ∧ ByPrecedence t ∧
      ∀ u, u.first = lhs → u.rest = ops → ByPrecedence u → u = t := by
  obtain ⟨t, drop, h1, h2, h3, h4, h5⟩ := parseBinaryOp_spec lhs ops
  have hd : drop = [] := by
    cases drop with
    | nil => rfl
    | cons p tl =>
      obtain ⟨x, e⟩ := p
      exfalso
      apply hc
      rw [h4]
      exact blocks_clash h2 (h5 x e tl rfl)
  subst hd
  rw [h1]
  rw [List.append_nil] at h4
  exact ⟨t, build_tree t, h3, h4.symm, h2, fun u h6 h7 h8 =>
    byPrec_unique h8 h2 (h6.trans h3.symm) (h7.trans h4)⟩

/-- A chain with clashing comparisons: the expression is the tree of a proper prefix of the chain,
and everything from a comparison on is lost. -/
theorem C19_clash_drops (lhs : EExpr) (ops : List (DBinOp × EExpr)) (hc : Clash ops) :
    ∃ t x e tl, IsTree t (parseBinaryOp lhs ops) ∧ t.first = lhs ∧ ByPrecedence t ∧
      ops = t.rest ++ (x, e) :: tl ∧ comparison x.op := by
  obtain ⟨t, drop, h1, h2, h3, h4, h5⟩ := parseBinaryOp_spec lhs ops
  cases drop with
  | nil =>
    exfalso
    rw [List.append_nil] at h4
    rw [h4] at hc
    exact byPrec_noClash h2 hc
  | cons p tl =>
    obtain ⟨x, e⟩ := p
    rw [h1]
    refine ⟨t, x, e, tl, build_tree t, h3, h2, h4, ?_⟩
    have hb := h5 x e tl rfl
    clear h1 h2 h3 h4 h5 hc
    induction t with
    | operand _ => exact hb.elim
    | op l o r _ ih =>
      rcases hb with ⟨h6, h7⟩ | hb
      · rw [comparison_iff, ← nonAssoc_prec h7]; exact h6
      · exact ih hb

private theorem leftOf_despan {o : BinOp} {e : EExpr} {s : Str} (h : LeftOf o e) :
    LeftOf o (e.despan s) := by
  cases e <;> rw [EExpr.despan] <;> exact h

private theorem rightOf_despan {o : BinOp} {e : EExpr} {s : Str} (h : RightOf o e) :
    RightOf o (e.despan s) := by
  cases e <;> rw [EExpr.despan] <;> exact h

/-- In a parsed operation the operands are terms or operations that bind tighter, or on the left as
tight if the operator is not a comparison. (For operations further inside, `Core` in `C17_expr_partial`
says the same.) -/
theorem C19_parsed (E : PEnv) (s : Str) (m om : Meta) (l r : EExpr) (o : BinOp)
    (h : parseExpr E s = .ok (.binary m l om o r)) : LeftOf o l ∧ RightOf o r := by
  obtain ⟨e₀, h1, -, h2⟩ := C17_expr_partial E s _ h
  cases h1 with
  | binary _ _ _ _ _ _ _ h3 h4 _ =>
    unfold EExpr.despan at h2
    injection h2 with _ h5 _ h6 h7
    subst h5 h6 h7
    exact ⟨leftOf_despan h3, rightOf_despan h4⟩
  | _ => unfold EExpr.despan at h2; cases h2

private def v (x : Char) : EExpr := .var {} [x]
private def o (b : BinOp) : DBinOp := { op := b }

/-- `a || b + c * d == e && f` -/
private def ex : List (DBinOp × EExpr) :=
  [(o .or, v 'b'), (o .plus, v 'c'), (o .mul, v 'd'), (o .eq, v 'e'), (o .and, v 'f')]

-- a chain without a clash, and its tree `a || (((b + (c * d)) == e) && f)`
example : ¬Clash ex := by
  have h : ByPrecedence (.op (.operand (v 'a')) (o .or) (.op (.op (.op (.operand (v 'b')) (o .plus)
      (.op (.operand (v 'c')) (o .mul) (.operand (v 'd')))) (o .eq) (.operand (v 'e'))) (o .and)
      (.operand (v 'f')))) := by
    refine .op .operand (.op (.op (.op .operand (.op .operand .operand ?_ ?_) ?_ ?_) .operand ?_ ?_)
      .operand ?_ ?_) ?_ ?_ <;> intro x hx <;> cases hx <;> decide
  exact byPrec_noClash h

-- a clash, and what is left of `a == b + c == d`
example : Clash [(o .eq, v 'b'), (o .plus, v 'c'), (o .eq, v 'd')] :=
  ⟨[], _, [_], _, [], rfl, by decide, rfl, by simp [o]; decide⟩
example : parseBinaryOp (v 'a') [(o .eq, v 'b'), (o .plus, v 'c'), (o .eq, v 'd')] =
    .binary {} (v 'a') {} .eq (.binary {} (v 'b') {} .plus (v 'c')) := rfl

end Verif.Props
