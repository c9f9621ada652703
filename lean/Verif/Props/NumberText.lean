import Verif.Lemmas.RunNum
import Verif.Model.EditParse
/-! C52: integers survive formatting and parsing. -/

namespace Verif.Props
open P Gram Spec

private def Er : PEnv := ⟨.ascii, .release⟩
private def Ed : PEnv := ⟨.ascii, .debug⟩
private def Ef : FmtEnv := ⟨.ascii, fun _ => []⟩

/-- What follows the number is not a digit, not a fraction and not an exponent. -/
def EndsNumber (r : Str) : Prop := ∀ c cs, r = c :: cs →
  ¬ ('0' ≤ c ∧ c ≤ '9') ∧ c ≠ 'e' ∧ c ≠ 'E' ∧ (c = '.' → ∀ d ds, cs = d :: ds → ¬ ('0' ≤ d ∧ d ≤ '9'))

theorem isDigit_iff (c : Char) : isDigit c = true ↔ '0' ≤ c ∧ c ≤ '9' := by
  unfold isDigit
  rw [decide_eq_true_iff]
  exact Iff.rfl

theorem endsNumber_numEnd {r : Str} (h : EndsNumber r) : NumEnd r := by
  intro c cs hc
  obtain ⟨h1, h2, h3, h4⟩ := h c cs hc
  have key : ∀ d : Char, ¬ ('0' ≤ d ∧ d ≤ '9') → isDigit d = false := fun d hd => by
    rw [Bool.eq_false_iff]; exact fun h => hd ((isDigit_iff d).mp h)
  exact ⟨key c h1, h2, h3, fun he d ds hd => key d (h4 he d ds hd)⟩

/-- **C52** for integers that are not negative: the text of the number is parsed as the number, and
what follows is left. -/
theorem C52_nonnegative (E : FmtEnv) (n : Nat) (hn : (N.posInt n).InRange) (r : Str)
    (hr : EndsNumber r) (pos : Nat) : num ⟨pos, showNumber E (.posInt n) ++ r⟩ =
      .ok (.posInt n) ⟨pos + (showNumber E (.posInt n)).length, r⟩ := by
  obtain ⟨v, h1, rfl⟩ := runs_num (r := r) hn (endsNumber_numEnd hr) pos
  exact h1

/-- **C52** for negative integers, which the expression parser reads, and which keep their text. The
smallest integer panics in a debug build; see `C52_smallest_panics`. -/
theorem C52_negative_partial (E : FmtEnv) (P : PEnv) (i : Int) (hi : (N.negInt i).InRange) (h0 : i < 0)
    (hd : P.bd = .debug → i ≠ -2 ^ 63) (r : Str) (hr : EndsNumber r) (pos : Nat) :
    negNumber P ⟨pos, showNumber E (.negInt i) ++ r⟩ =
      .ok (.number {} (.negInt i) (some (.explicit (showNumber E (.negInt i)))))
        ⟨pos + (showNumber E (.negInt i)).length, r⟩ := by
  obtain ⟨v, h1, rfl⟩ := runs_negNumber (r := r) h0 hi.1 hd (endsNumber_numEnd hr) pos
  exact h1

/-- The text of the smallest integer, and that reading it panics with overflow checks. -/
theorem C52_smallest_panics : ∃ E s, s = showNumber Ef (.negInt (-9223372036854775808)) ∧
    negNumber E ⟨0, s⟩ = .panic ∧ parseExpr E s = .panic :=
  ⟨Ed, c!"-9223372036854775808", by decide +kernel, rfl, rfl⟩

example : showNumber Ef (.negInt (-120)) = c!"-120" := by decide +kernel
example : negNumber Er ⟨0, showNumber Ef (.negInt (-120)) ++ c!".a"⟩ =
    .ok (.number {} (.negInt (-120)) (some (.explicit (showNumber Ef (.negInt (-120))))))
      ⟨0 + (showNumber Ef (.negInt (-120))).length, c!".a"⟩ :=
  C52_negative_partial Ef Er (-120) (by unfold N.InRange; omega) (by omega) nofun _ (by
    intro c cs h
    injection h with h1 h2
    subst h1 h2
    refine ⟨by decide, by decide, by decide, fun _ d ds h => ?_⟩
    injection h with h1 h2
    subst h1
    decide) 0
example : num ⟨0, c!"18446744073709551615]"⟩ = .ok (.posInt 18446744073709551615) ⟨20, c!"]"⟩ := by
  decide +kernel

end Verif.Props
