import Mathlib.Tactic.Linarith
import Mathlib.Tactic.Positivity
import Mathlib.Tactic.FieldSimp
import Mathlib.Tactic.Ring
import Mathlib.Tactic.NormNum
import Mathlib.Data.Nat.Log
import Verif.Spec.Number
/-! Lemmas about the model of `f64`. -/

namespace Verif
open Verif.Spec

namespace F64

/-- Value of a finite double (0 for the others). -/
def toRat : F64 → ℚ
  | fin s m e => (sm s m : ℚ) * (2 : ℚ) ^ e
  | _ => 0

theorem toRat?_fin (s m e) : F64.toRat? (fin s m e) = some (toRat (fin s m e)) := by
  cases s <;> simp [F64.toRat?, toRat, sm]

theorem toRat?_of_finite {x : F64} (h : x.isFinite = true) : F64.toRat? x = some (toRat x) := by
  cases x <;> simp [isFinite] at h
  exact toRat?_fin _ _ _

theorem zpow_toNat {e : Int} (h : 0 ≤ e) : (2 : ℚ) ^ e.toNat = (2 : ℚ) ^ e := by
  rw [← zpow_natCast, Int.toNat_of_nonneg h]

theorem align_val {s m e e0} (h : e0 ≤ e) :
    ((align s m e e0 : Int) : ℚ) * (2 : ℚ) ^ e0 = toRat (fin s m e) := by
  simp only [align, toRat, Int.cast_mul, Int.cast_pow, Int.cast_ofNat]
  rw [zpow_toNat (by omega), mul_assoc, ← zpow_add₀ (by norm_num)]
  congr 2; omega

theorem two_zpow_pos (e : Int) : (0 : ℚ) < 2 ^ e := by positivity

theorem eq_fin {s m e t n f} :
    eq (fin s m e) (fin t n f) = true ↔ toRat (fin s m e) = toRat (fin t n f) := by
  rw [← align_val (min_le_left e f), ← align_val (min_le_right e f)]
  simp only [eq, beq_iff_eq]
  constructor
  · intro h; rw [h]
  · intro h
    have := mul_right_cancel₀ (two_zpow_pos _).ne' h
    exact_mod_cast this

theorem lt_fin {s m e t n f} :
    lt (fin s m e) (fin t n f) = true ↔ toRat (fin s m e) < toRat (fin t n f) := by
  rw [← align_val (min_le_left e f), ← align_val (min_le_right e f)]
  simp only [lt, decide_eq_true_eq]
  rw [mul_lt_mul_iff_left₀ (two_zpow_pos _)]
  exact_mod_cast Iff.rfl

theorem eq_iff {x y : F64} (hx : x.isFinite = true) (hy : y.isFinite = true) :
    eq x y = true ↔ toRat x = toRat y := by
  cases x <;> cases y <;> simp [isFinite] at hx hy
  exact eq_fin

theorem lt_iff {x y : F64} (hx : x.isFinite = true) (hy : y.isFinite = true) :
    lt x y = true ↔ toRat x < toRat y := by
  cases x <;> cases y <;> simp [isFinite] at hx hy
  exact lt_fin

/-! ### rounding -/

theorem log2_bounds {n : Nat} (h : n ≠ 0) : 2 ^ n.log2 ≤ n ∧ n < 2 ^ (n.log2 + 1) :=
  ⟨Nat.log2_self_le h, Nat.lt_log2_self⟩

theorem div_pow_bounds {n d : Nat} (hn : 0 < n) (hd : 0 < d) :
    (2 : ℚ) ^ ((n.log2 : Int) - d.log2 - 1) < (n : ℚ) / d ∧
    (n : ℚ) / d < (2 : ℚ) ^ ((n.log2 : Int) - d.log2 + 1) := by
  obtain ⟨h1, h2⟩ := log2_bounds hn.ne'
  obtain ⟨h3, h4⟩ := log2_bounds hd.ne'
  have h1' : (2 : ℚ) ^ n.log2 ≤ n := by exact_mod_cast h1
  have h2' : (n : ℚ) < 2 ^ (n.log2 + 1) := by exact_mod_cast h2
  have h3' : (2 : ℚ) ^ d.log2 ≤ d := by exact_mod_cast h3
  have h4' : (d : ℚ) < 2 ^ (d.log2 + 1) := by exact_mod_cast h4
  have hd' : (0 : ℚ) < d := by exact_mod_cast hd
  have e1 : (2 : ℚ) ^ ((n.log2 : Int) - d.log2 - 1) = 2 ^ n.log2 / 2 ^ (d.log2 + 1) := by
    rw [show (n.log2 : Int) - d.log2 - 1 = (n.log2 : Int) - ((d.log2 + 1 : Nat) : Int) by
      push_cast; ring]
    rw [zpow_sub₀ (by norm_num)]; simp only [zpow_natCast]
  have e2 : (2 : ℚ) ^ ((n.log2 : Int) - d.log2 + 1) = 2 ^ (n.log2 + 1) / 2 ^ d.log2 := by
    rw [show (n.log2 : Int) - d.log2 + 1 = ((n.log2 + 1 : Nat) : Int) - (d.log2 : Int) by
      push_cast; ring]
    rw [zpow_sub₀ (by norm_num)]; simp only [zpow_natCast]
  constructor
  · rw [e1, div_lt_div_iff₀ (by positivity) hd']
    calc (2 : ℚ) ^ n.log2 * d < 2 ^ n.log2 * 2 ^ (d.log2 + 1) := by gcongr
      _ ≤ n * 2 ^ (d.log2 + 1) := by gcongr
  · rw [e2, div_lt_div_iff₀ hd' (by positivity)]
    calc (n : ℚ) * 2 ^ d.log2 < 2 ^ (n.log2 + 1) * 2 ^ d.log2 := by gcongr
      _ ≤ 2 ^ (n.log2 + 1) * d := by gcongr

/-- `max`-free description of the exponent chosen by `round`. -/
theorem ulpExp_spec {n d : Nat} (hn : 0 < n) (hd : 0 < d) :
    -1074 ≤ ulpExp n d ∧ (n : ℚ) / d < (2 : ℚ) ^ (53 + ulpExp n d) ∧
    (ulpExp n d = -1074 ∨ (2 : ℚ) ^ (52 + ulpExp n d) ≤ (n : ℚ) / d) := by
  obtain ⟨hlo, hhi⟩ := div_pow_bounds hn hd
  have hd' : (0 : ℚ) < d := by exact_mod_cast hd
  set k : Int := (n.log2 : Int) - d.log2 with hk
  have hge : (if 0 ≤ k then decide (d * 2 ^ k.toNat ≤ n) else decide (d ≤ n * 2 ^ (-k).toNat)) = true
      ↔ (2 : ℚ) ^ k ≤ (n : ℚ) / d := by
    by_cases h0 : 0 ≤ k
    · simp only [if_pos h0, decide_eq_true_eq]
      rw [le_div_iff₀ hd', ← zpow_toNat h0, mul_comm]
      exact_mod_cast Iff.rfl
    · simp only [if_neg h0, decide_eq_true_eq]
      rw [le_div_iff₀ hd']
      have : (2 : ℚ) ^ k = (2 ^ (-k).toNat)⁻¹ := by
        rw [zpow_toNat (by omega), zpow_neg, inv_inv]
      rw [this, inv_mul_le_iff₀ (by positivity), mul_comm]
      exact_mod_cast Iff.rfl
  have main : ulpExp n d = max (if (2 : ℚ) ^ k ≤ (n : ℚ) / d then k - 52 else k - 53) (-1074) := by
    simp only [ulpExp, ← hk]
    by_cases h : (2 : ℚ) ^ k ≤ (n : ℚ) / d
    · rw [if_pos h, if_pos (hge.2 h)]
    · rw [if_neg h, if_neg (fun h' => h (hge.1 h'))]
  have mono : ∀ {a b : Int}, a ≤ b → (2 : ℚ) ^ a ≤ 2 ^ b := fun h =>
    zpow_le_zpow_right₀ (by norm_num) h
  rw [main]
  by_cases h : (2 : ℚ) ^ k ≤ (n : ℚ) / d
  · rw [if_pos h]
    refine ⟨le_max_right _ _, ?_, ?_⟩
    · refine lt_of_lt_of_le hhi (mono ?_); omega
    · by_cases hm : k - 52 ≤ -1074
      · left; exact max_eq_right hm
      · right; rw [max_eq_left (by omega)]
        rw [show 52 + (k - 52) = k by ring]; exact h
  · rw [if_neg h]
    refine ⟨le_max_right _ _, ?_, ?_⟩
    · refine lt_of_lt_of_le (not_le.1 h) (mono ?_); omega
    · by_cases hm : k - 53 ≤ -1074
      · left; exact max_eq_right hm
      · right; rw [max_eq_left (by omega)]
        rw [show 52 + (k - 53) = k - 1 by ring]; exact hlo.le

/-- Distance of `divRound` to the quotient: at most one half. -/
theorem divRound_bounds {n d : Nat} (hd : 0 < d) :
    (n : ℚ) / d - 1 / 2 ≤ divRound n d ∧ (divRound n d : ℚ) ≤ (n : ℚ) / d + 1 / 2 := by
  have hd' : (0 : ℚ) < d := by exact_mod_cast hd
  have hq : (n : ℚ) / d = (n / d : Nat) + (n % d : Nat) / (d : ℚ) := by
    rw [div_eq_iff hd'.ne', add_mul, div_mul_cancel₀ _ hd'.ne', mul_comm]
    exact_mod_cast (Nat.div_add_mod n d).symm
  have hr : n % d < d := Nat.mod_lt _ hd
  rw [hq]
  set q := n / d
  set r := n % d
  have hr0 : (0 : ℚ) ≤ (r : ℚ) / d := by positivity
  have hr1 : (r : ℚ) / d < 1 := by rw [div_lt_one hd']; exact_mod_cast hr
  simp only [divRound]
  split
  · rename_i h
    have : (r : ℚ) / d ≤ 1 / 2 := by
      rw [div_le_iff₀ hd']
      have : (2 : ℚ) * r < d := by exact_mod_cast h
      linarith
    constructor <;> linarith
  · split
    · rename_i h1 h
      have : 1 / 2 ≤ (r : ℚ) / d := by
        rw [le_div_iff₀ hd']
        have : (d : ℚ) < 2 * r := by exact_mod_cast h
        linarith
      push_cast
      constructor <;> linarith
    · rename_i h1 h2
      have h3 : 2 * r = d := by omega
      have : (r : ℚ) / d = 1 / 2 := by
        rw [div_eq_iff hd'.ne']
        have : (2 : ℚ) * r = d := by exact_mod_cast h3
        linarith
      split <;> push_cast <;> constructor <;> linarith

theorem divRound_exact {n d m : Nat} (hd : 0 < d) (h : (n : ℚ) / d = m) : divRound n d = m := by
  obtain ⟨h1, h2⟩ := divRound_bounds (n := n) hd
  have hd' : (0 : ℚ) < d := by exact_mod_cast hd
  have hn : n = m * d := by
    rw [div_eq_iff hd'.ne'] at h; exact_mod_cast h
  subst hn
  simp [divRound, Nat.mul_div_cancel _ hd, Nat.mul_mod_left, hd]

/-- The quotient rounded by `scaleRound`. -/
theorem scaleRound_eq {n d : Nat} (hd : 0 < d) (e : Int) :
    ∃ n' d' : Nat, 0 < d' ∧ scaleRound n d e = divRound n' d' ∧
      (n' : ℚ) / d' = (n : ℚ) / d / 2 ^ e := by
  have hd' : (0 : ℚ) < d := by exact_mod_cast hd
  by_cases h : 0 ≤ e
  · refine ⟨n, d * 2 ^ e.toNat, by positivity, by simp [scaleRound, h], ?_⟩
    push_cast
    rw [zpow_toNat h, div_div]
  · refine ⟨n * 2 ^ (-e).toNat, d, hd, by simp [scaleRound, h], ?_⟩
    push_cast
    rw [zpow_toNat (by omega), zpow_neg]
    field_simp

theorem scaleRound_bounds {n d : Nat} (hd : 0 < d) (e : Int) :
    (n : ℚ) / d / 2 ^ e - 1 / 2 ≤ scaleRound n d e ∧
      (scaleRound n d e : ℚ) ≤ (n : ℚ) / d / 2 ^ e + 1 / 2 := by
  obtain ⟨n', d', h0, h1, h2⟩ := scaleRound_eq (n := n) hd e
  rw [h1, ← h2]; exact divRound_bounds h0

theorem scaleRound_exact {n d m : Nat} (hd : 0 < d) {e : Int} (h : (n : ℚ) / d / 2 ^ e = m) :
    scaleRound n d e = m := by
  obtain ⟨n', d', h0, h1, h2⟩ := scaleRound_eq (n := n) hd e
  rw [h1]; exact divRound_exact h0 (h2.trans h)

/-- `round` is exact on every number that has a representation `m · 2^k` with `m < 2^53`,
`-1074 ≤ k` and magnitude below `2^1024`. -/
theorem round_exact {n d : Nat} (hd : 0 < d) (neg : Bool) {m0 : Nat} {k : Int}
    (hv : (n : ℚ) / d = m0 * 2 ^ k) (hm : m0 < 2 ^ 53) (hk : -1074 ≤ k)
    (hb : (n : ℚ) / d < 2 ^ (1024 : Int)) :
    (round neg n d).isFinite = true ∧
      toRat (round neg n d) = (if neg then -1 else 1) * ((n : ℚ) / d) := by
  by_cases hn : n = 0
  · subst hn; simp [round, isFinite, toRat, sm]
  have hn' : 0 < n := Nat.pos_of_ne_zero hn
  have hd' : (0 : ℚ) < d := by exact_mod_cast hd
  have hq : (0 : ℚ) < (n : ℚ) / d := by positivity
  obtain ⟨h1, h2, h3⟩ := ulpExp_spec hn' hd
  set e := ulpExp n d with he
  have lt_of : ∀ {a b : Int}, (2 : ℚ) ^ a < 2 ^ b → a < b := fun h =>
    (zpow_lt_zpow_iff_right₀ (by norm_num)).1 h
  have hek : e ≤ k := by
    rcases h3 with h3 | h3
    · omega
    · have hm' : (m0 : ℚ) < 2 ^ (53 : Int) := by exact_mod_cast hm
      have : (2 : ℚ) ^ (52 + e) < 2 ^ (53 + k) := by
        calc (2 : ℚ) ^ (52 + e) ≤ m0 * 2 ^ k := hv ▸ h3
          _ < 2 ^ (53 : Int) * 2 ^ k := by
            apply mul_lt_mul_of_pos_right hm' (two_zpow_pos k)
          _ = 2 ^ (53 + k) := by rw [zpow_add₀ (by norm_num)]
      have := lt_of this
      omega
  obtain ⟨M, hM⟩ : ∃ M : Nat, (n : ℚ) / d / 2 ^ e = M := by
    refine ⟨m0 * 2 ^ (k - e).toNat, ?_⟩
    push_cast
    rw [zpow_toNat (by omega), hv, zpow_sub₀ (by norm_num)]; ring
  have hMe : (n : ℚ) / d = M * 2 ^ e := by
    rw [← hM]; field_simp
  have hMlt : M < 2 ^ 53 := by
    have : (M : ℚ) * 2 ^ e < 2 ^ (53 : Int) * 2 ^ e := by
      rw [← hMe, ← zpow_add₀ (by norm_num)]; exact h2
    have := lt_of_mul_lt_mul_right this (two_zpow_pos e).le
    exact_mod_cast this
  have he971 : e ≤ 971 := by
    rcases h3 with h3 | h3
    · omega
    · have := lt_of (lt_of_le_of_lt h3 hb); omega
  have hs : scaleRound n d e = M := scaleRound_exact hd hM
  have hr : round neg n d = fin neg M e := by
    simp only [round, if_neg hn, ← he, hs, if_neg hMlt.ne, if_neg (by omega : ¬ 971 < e)]
  rw [hr]
  refine ⟨rfl, ?_⟩
  rw [hMe]
  cases neg <;> simp [toRat, sm]

/-- General shape of a rounding result: canonical, and within half an ulp when finite; a value
below `2^1023` never rounds to infinity. -/
theorem round_finite {n d : Nat} (hd : 0 < d) (neg : Bool)
    (hb : (n : ℚ) / d < 2 ^ (1023 : Int)) : (round neg n d).isFinite = true := by
  by_cases hn : n = 0
  · subst hn; simp [round, isFinite]
  have hn' : 0 < n := Nat.pos_of_ne_zero hn
  obtain ⟨h1, h2, h3⟩ := ulpExp_spec hn' hd
  have lt_of : ∀ {a b : Int}, (2 : ℚ) ^ a < 2 ^ b → a < b := fun h =>
    (zpow_lt_zpow_iff_right₀ (by norm_num)).1 h
  set e := ulpExp n d with he
  have he970 : e ≤ 970 := by
    rcases h3 with h3 | h3
    · omega
    · have := lt_of (lt_of_le_of_lt h3 hb); omega
  simp only [round, if_neg hn, ← he]
  split
  · rw [if_neg (by simp; omega)]; rfl
  · rw [if_neg (by simp; omega)]; rfl

/-- Lower bound kept by rounding: a value of at least `2^k` (`k ≥ -1022`) rounds to at least
`2^k` in magnitude. -/
theorem round_ge {n d : Nat} (hn : 0 < n) (hd : 0 < d) (neg : Bool) {k : Int} (hk : -1022 ≤ k)
    (hv : (2 : ℚ) ^ k ≤ (n : ℚ) / d) (hfin : (round neg n d).isFinite = true) :
    (2 : ℚ) ^ k ≤ (if neg then -1 else 1) * toRat (round neg n d) := by
  obtain ⟨h1, h2, h3⟩ := ulpExp_spec hn hd
  have lt_of : ∀ {a b : Int}, (2 : ℚ) ^ a < 2 ^ b → a < b := fun h =>
    (zpow_lt_zpow_iff_right₀ (by norm_num)).1 h
  set e := ulpExp n d with he
  have hke : k - 52 ≤ e := by have := lt_of (lt_of_le_of_lt hv h2); omega
  -- the scaled value is at least the whole number `2^(max (k - e) ..)`
  have key : (2 : ℚ) ^ k ≤ (scaleRound n d e : ℚ) * 2 ^ e := by
    obtain ⟨hb1, hb2⟩ := scaleRound_bounds (n := n) hd e
    rcases h3 with h3 | h3
    · -- subnormal range: `k - e ≥ 52` so `2^(k-e)` is whole
      have hint : (2 : ℚ) ^ (k - e) ≤ scaleRound n d e := by
        have h4 : (2 : ℚ) ^ (k - e) ≤ (n : ℚ) / d / 2 ^ e := by
          rw [le_div_iff₀ (two_zpow_pos e), ← zpow_add₀ (by norm_num)]
          rw [show k - e + e = k by ring]; exact hv
        have h5 : (2 : ℚ) ^ (k - e) = ((2 ^ (k - e).toNat : Nat) : ℚ) := by
          push_cast; rw [zpow_toNat (by omega)]
        rw [h5] at h4 ⊢
        have h6 : ((2 ^ (k - e).toNat : Nat) : ℚ) < (scaleRound n d e : ℚ) + 1 := by linarith
        have h7 : 2 ^ (k - e).toNat < scaleRound n d e + 1 := by exact_mod_cast h6
        exact_mod_cast Nat.lt_succ_iff.1 h7
      calc (2 : ℚ) ^ k = 2 ^ (k - e) * 2 ^ e := by
            rw [← zpow_add₀ (by norm_num)]; congr 1; ring
        _ ≤ _ := by gcongr
    · -- normal range: the scaled value lies in `[2^52, 2^53)`
      by_cases hc : k ≤ 52 + e
      · have h4 : (2 : ℚ) ^ (52 : Int) ≤ (n : ℚ) / d / 2 ^ e := by
          rw [le_div_iff₀ (two_zpow_pos e), ← zpow_add₀ (by norm_num)]; exact h3
        have h5 : (2 : ℚ) ^ (52 : Int) = ((2 ^ 52 : Nat) : ℚ) := by norm_num
        rw [h5] at h4
        have h6 : ((2 ^ 52 : Nat) : ℚ) < (scaleRound n d e : ℚ) + 1 := by linarith
        have h7 : 2 ^ 52 < scaleRound n d e + 1 := by exact_mod_cast h6
        have h8 : ((2 ^ 52 : Nat) : ℚ) ≤ (scaleRound n d e : ℚ) := by
          exact_mod_cast Nat.lt_succ_iff.1 h7
        calc (2 : ℚ) ^ k ≤ 2 ^ (52 + e) := zpow_le_zpow_right₀ (by norm_num) hc
          _ = 2 ^ (52 : Int) * 2 ^ e := by rw [zpow_add₀ (by norm_num)]
          _ ≤ _ := by rw [h5]; gcongr
      · have := lt_of (lt_of_le_of_lt hv h2); omega
  have hn0 : n ≠ 0 := hn.ne'
  simp only [round, if_neg hn0, ← he] at hfin ⊢
  by_cases hm : scaleRound n d e = 2 ^ 53
  · rw [if_pos hm] at hfin ⊢
    simp only [] at hfin ⊢
    by_cases h971 : 971 < e + 1
    · rw [if_pos h971] at hfin; simp [isFinite] at hfin
    · rw [if_neg h971]
      rw [hm] at key
      have : (2 : ℚ) ^ k ≤ (2 ^ 52 : Nat) * 2 ^ (e + 1) := by
        refine key.trans (le_of_eq ?_)
        rw [zpow_add₀ (by norm_num)]; push_cast; ring
      cases neg <;> simpa [toRat, sm] using this
  · rw [if_neg hm] at hfin ⊢
    simp only [] at hfin ⊢
    by_cases h971 : 971 < e
    · rw [if_pos h971] at hfin; simp [isFinite] at hfin
    · rw [if_neg h971]
      cases neg <;> simpa [toRat, sm] using key

end F64
end Verif
