import Mathlib.Order.Compare
import Verif.Lemmas.F64
/-! Lemmas about the model of `Number`. -/

namespace Verif
open Verif.Spec

namespace F64

theorem two_zpow_nat (k : Nat) : (2 : ℚ) ^ (k : Int) = ((2 ^ k : Nat) : ℚ) := by
  rw [zpow_natCast]; push_cast; rfl

theorem round_le {n d : Nat} (hd : 0 < d) (neg : Bool) {k : Int} (hk : -1074 ≤ k)
    (hv : (n : ℚ) / d ≤ 2 ^ k) :
    |toRat (round neg n d)| ≤ (2 : ℚ) ^ k := by
  by_cases hn : n = 0
  · subst hn; simp [round, toRat, sm]; positivity
  have hn' : 0 < n := Nat.pos_of_ne_zero hn
  obtain ⟨h1, h2, h3⟩ := ulpExp_spec hn' hd
  set e := ulpExp n d with he
  have hek : e ≤ k := by
    rcases h3 with h3 | h3
    · omega
    · have := (zpow_le_zpow_iff_right₀ (by norm_num : (1:ℚ) < 2)).1 (h3.trans hv); omega
  have key : (scaleRound n d e : ℚ) * 2 ^ e ≤ 2 ^ k := by
    obtain ⟨hb1, hb2⟩ := scaleRound_bounds (n := n) hd e
    have h4 : (n : ℚ) / d / 2 ^ e ≤ (2 : ℚ) ^ (k - e) := by
      rw [div_le_iff₀ (two_zpow_pos e), ← zpow_add₀ (by norm_num)]
      rw [show k - e + e = k by ring]; exact hv
    have h5 : (2 : ℚ) ^ (k - e) = ((2 ^ (k - e).toNat : Nat) : ℚ) := by
      push_cast; rw [zpow_toNat (by omega)]
    have h6 : (scaleRound n d e : ℚ) < ((2 ^ (k - e).toNat : Nat) : ℚ) + 1 := by
      rw [← h5]; linarith
    have h7 : scaleRound n d e < 2 ^ (k - e).toNat + 1 := by exact_mod_cast h6
    have h8 : (scaleRound n d e : ℚ) ≤ (2 : ℚ) ^ (k - e) := by
      rw [h5]; exact_mod_cast Nat.lt_succ_iff.1 h7
    calc (scaleRound n d e : ℚ) * 2 ^ e ≤ 2 ^ (k - e) * 2 ^ e := by gcongr
      _ = 2 ^ k := by rw [← zpow_add₀ (by norm_num)]; congr 1; ring
  have hpos : (0 : ℚ) ≤ 2 ^ k := by positivity
  simp only [round, if_neg hn, ← he]
  split
  · rename_i hm
    simp only []
    rw [hm] at key
    split
    · simpa [toRat] using hpos
    · have : ((2 ^ 52 : Nat) : ℚ) * 2 ^ (e + 1) ≤ 2 ^ k := by
        refine le_trans (le_of_eq ?_) key
        rw [zpow_add₀ (by norm_num)]; push_cast; ring
      have h0 : (0 : ℚ) ≤ ((2 ^ 52 : Nat) : ℚ) * 2 ^ (e + 1) := by positivity
      cases neg
      · rw [abs_of_nonneg (by simpa [toRat, sm] using h0)]; simpa [toRat, sm] using this
      · simp only [toRat, sm, if_true, Int.cast_neg, neg_mul, abs_neg]
        rw [abs_of_nonneg (by simpa using h0)]; simpa using this
  · simp only []
    split
    · simpa [toRat] using hpos
    · have h0 : (0 : ℚ) ≤ (scaleRound n d e : ℚ) * 2 ^ e := by positivity
      cases neg
      · rw [abs_of_nonneg (by simpa [toRat, sm] using h0)]; simpa [toRat, sm] using key
      · simp only [toRat, sm, if_true, Int.cast_neg, neg_mul, abs_neg]
        rw [abs_of_nonneg (by simpa using h0)]; simpa using key

theorem round_canonical {n d : Nat} (hd : 0 < d) (neg : Bool) : (round neg n d).Canonical := by
  by_cases hn : n = 0
  · subst hn; simp [round, Canonical]
  have hn' : 0 < n := Nat.pos_of_ne_zero hn
  obtain ⟨h1, h2, h3⟩ := ulpExp_spec hn' hd
  simp only [round, if_neg hn]
  set e := ulpExp n d with he
  obtain ⟨hb1, hb2⟩ := scaleRound_bounds (n := n) hd e
  have hup : scaleRound n d e ≤ 2 ^ 53 := by
    have h4 : (n : ℚ) / d / 2 ^ e < ((2 ^ 53 : Nat) : ℚ) := by
      rw [div_lt_iff₀ (two_zpow_pos e), ← two_zpow_nat, ← zpow_add₀ (by norm_num)]
      exact h2
    have h6 : (scaleRound n d e : ℚ) < ((2 ^ 53 : Nat) : ℚ) + 1 := by
      refine lt_of_le_of_lt hb2 (add_lt_add h4 (by norm_num))
    have h7 : scaleRound n d e < 2 ^ 53 + 1 := by exact_mod_cast h6
    omega
  have hlow : e = -1074 ∨ 2 ^ 52 ≤ scaleRound n d e := by
    rcases h3 with h3 | h3
    · exact Or.inl h3
    · right
      have h4 : ((2 ^ 52 : Nat) : ℚ) ≤ (n : ℚ) / d / 2 ^ e := by
        rw [le_div_iff₀ (two_zpow_pos e), ← two_zpow_nat, ← zpow_add₀ (by norm_num)]
        exact h3
      have h6 : ((2 ^ 52 : Nat) : ℚ) < (scaleRound n d e : ℚ) + 1 := by
        have h5 : (n : ℚ) / d / 2 ^ e < (scaleRound n d e : ℚ) + 1 := by linarith
        exact lt_of_le_of_lt h4 h5
      have h7 : 2 ^ 52 < scaleRound n d e + 1 := by exact_mod_cast h6
      omega
  by_cases hm : scaleRound n d e = 2 ^ 53
  · rw [if_pos hm]; simp only []
    by_cases h : 971 < e + 1
    · rw [if_pos h]; trivial
    · rw [if_neg h]; exact ⟨by norm_num, by omega, by omega, Or.inl le_rfl⟩
  · rw [if_neg hm]; simp only []
    by_cases h : 971 < e
    · rw [if_pos h]; trivial
    · rw [if_neg h]; exact ⟨by omega, by omega, by omega, hlow.symm⟩

/-! ### integers as doubles -/

theorem natAbs_cast (i : Int) : ((i.natAbs : Nat) : ℚ) = |(i : ℚ)| := by
  rw [Nat.cast_natAbs, Int.cast_abs]

theorem sign_abs (i : Int) :
    (if (decide (i < 0)) = true then (-1 : ℚ) else 1) * |(i : ℚ)| = i := by
  by_cases h : i < 0
  · have : (i : ℚ) < 0 := by exact_mod_cast h
    simp [h, abs_of_neg this]
  · have : (0 : ℚ) ≤ i := by exact_mod_cast not_lt.1 h
    simp [h, abs_of_nonneg this]

/-- `n ≤ 2^53` is `m · 2^k` with `m < 2^53`. -/
theorem small_repr {n : Nat} (h : n ≤ 2 ^ 53) :
    ∃ (m : Nat) (k : Int), (n : ℚ) = m * 2 ^ k ∧ m < 2 ^ 53 ∧ -1074 ≤ k := by
  rcases Nat.lt_or_eq_of_le h with h | h
  · exact ⟨n, 0, by simp, h, by omega⟩
  · refine ⟨2 ^ 52, 1, ?_, by norm_num, by omega⟩
    rw [h]; norm_num

theorem ofInt_exact {i : Int} (h : i.natAbs ≤ 2 ^ 53) :
    (ofInt i).isFinite = true ∧ toRat (ofInt i) = i := by
  obtain ⟨m, k, h1, h2, h3⟩ := small_repr h
  have hb : ((i.natAbs : Nat) : ℚ) < 2 ^ (1024 : Int) := by
    calc ((i.natAbs : Nat) : ℚ) ≤ ((2 ^ 53 : Nat) : ℚ) := by exact_mod_cast h
      _ < 2 ^ (1024 : Int) := by
        rw [← two_zpow_nat]; exact zpow_lt_zpow_right₀ (by norm_num) (by norm_num)
  have := round_exact (n := i.natAbs) (d := 1) one_pos (decide (i < 0)) (m0 := m) (k := k)
    (by simpa using h1) h2 h3 (by simpa using hb)
  refine ⟨this.1, ?_⟩
  rw [ofInt, this.2]
  simp only [Nat.cast_one, div_one]
  rw [natAbs_cast]
  exact sign_abs i

theorem ofInt_finite {i : Int} (h : i.natAbs < 2 ^ 65) : (ofInt i).isFinite = true := by
  apply round_finite one_pos
  simp only [Nat.cast_one, div_one]
  calc ((i.natAbs : Nat) : ℚ) < ((2 ^ 65 : Nat) : ℚ) := by exact_mod_cast h
    _ ≤ 2 ^ (1023 : Int) := by
      rw [← two_zpow_nat]; exact zpow_le_zpow_right₀ (by norm_num) (by norm_num)

theorem ofInt_abs_le {i : Int} {k : Nat} (h : i.natAbs ≤ 2 ^ k) :
    |toRat (ofInt i)| ≤ (2 : ℚ) ^ (k : Int) := by
  apply round_le one_pos _ (by omega)
  simp only [Nat.cast_one, div_one, two_zpow_nat]
  exact_mod_cast h

theorem ofInt_ge {i : Int} {k : Nat} (h0 : (2 : Int) ^ k ≤ i) (h : i.natAbs < 2 ^ 65) :
    (2 : ℚ) ^ (k : Int) ≤ toRat (ofInt i) := by
  have hi : 0 < i := lt_of_lt_of_le (by positivity) h0
  have hneg : decide (i < 0) = false := by simp; omega
  have hf := ofInt_finite h
  have := round_ge (n := i.natAbs) (d := 1) (by omega) one_pos (decide (i < 0)) (k := (k : Int))
    (by omega) (by
      simp only [Nat.cast_one, div_one, two_zpow_nat]
      have : 2 ^ k ≤ i.natAbs := by zify; rw [abs_of_pos hi]; exact h0
      exact_mod_cast this) hf
  rw [hneg] at this
  simpa [ofInt, hneg] using this

theorem ofInt_le {i : Int} {k : Nat} (h0 : i ≤ -(2 : Int) ^ k) (h : i.natAbs < 2 ^ 65) :
    toRat (ofInt i) ≤ -(2 : ℚ) ^ (k : Int) := by
  have h2 : (0 : Int) < 2 ^ k := by positivity
  have hi : i < 0 := by omega
  have hneg : decide (i < 0) = true := by simp; omega
  have hf := ofInt_finite h
  have := round_ge (n := i.natAbs) (d := 1) (by omega) one_pos (decide (i < 0)) (k := (k : Int))
    (by omega) (by
      simp only [Nat.cast_one, div_one, two_zpow_nat]
      have : 2 ^ k ≤ i.natAbs := by zify; rw [abs_of_neg hi]; omega
      exact_mod_cast this) hf
  rw [hneg] at this
  have h3 : (2 : ℚ) ^ (k : Int) ≤ -1 * toRat (round true i.natAbs 1) := by simpa using this
  simp only [ofInt, hneg]; linarith

/-- Converting an integer to a double keeps its position relative to every number of magnitude
at most `2^53`. -/
theorem ofInt_lt_iff {i : Int} (h : i.natAbs < 2 ^ 65) {q : ℚ} (hq : |q| < 2 ^ 53) :
    (toRat (ofInt i) < q ↔ (i : ℚ) < q) ∧ (q < toRat (ofInt i) ↔ q < (i : ℚ)) ∧
      (toRat (ofInt i) = q ↔ (i : ℚ) = q) := by
  by_cases hs : i.natAbs ≤ 2 ^ 53
  · rw [(ofInt_exact hs).2]; simp
  · have hq' := abs_lt.1 hq
    rcases le_or_gt 0 i with h0 | h0
    · have h1 : (2 : Int) ^ 53 ≤ i := by omega
      have h2 := ofInt_ge h1 h
      have h3 : (2 : ℚ) ^ 53 ≤ i := by exact_mod_cast h1
      have h2' : (2 : ℚ) ^ 53 ≤ toRat (ofInt i) := by exact_mod_cast h2
      refine ⟨⟨fun h => ?_, fun h => ?_⟩, ⟨fun h => ?_, fun h => ?_⟩, ⟨fun h => ?_, fun h => ?_⟩⟩ <;>
        linarith
    · have h1 : i ≤ -(2 : Int) ^ 53 := by omega
      have h2 := ofInt_le h1 h
      have h3 : (i : ℚ) ≤ -2 ^ 53 := by exact_mod_cast h1
      have h2' : toRat (ofInt i) ≤ -2 ^ 53 := by exact_mod_cast h2
      refine ⟨⟨fun h => ?_, fun h => ?_⟩, ⟨fun h => ?_, fun h => ?_⟩, ⟨fun h => ?_, fun h => ?_⟩⟩ <;>
        linarith

theorem ofInt_nonneg {i : Int} (h : 0 ≤ i) : 0 ≤ toRat (ofInt i) := by
  have hneg : decide (i < 0) = false := by simp; omega
  rw [ofInt, hneg]
  generalize i.natAbs = n
  simp only [round]
  split
  · simp [toRat, sm]
  · split <;> simp only [] <;> split <;> simp only [toRat, sm, le_refl, Bool.false_eq_true, if_false] <;>
      push_cast <;> positivity

theorem ofInt_neg {i : Int} (h : i < 0) (hb : i.natAbs < 2 ^ 65) : toRat (ofInt i) < 0 := by
  have := ofInt_le (k := 0) (i := i) (by omega) hb
  simp at this; linarith

/-! ### whole numbers -/

theorem noFraction_iff {s : Bool} {m : Nat} {e : Int} :
    (fin s m e).noFraction = true ↔ ∃ z : Int, toRat (fin s m e) = z := by
  by_cases he : 0 ≤ e
  · simp only [noFraction, if_pos he, true_iff]
    refine ⟨sm s m * 2 ^ e.toNat, ?_⟩
    push_cast
    rw [toRat, zpow_toNat he]
  · simp only [noFraction, if_neg he, beq_iff_eq]
    have hv : toRat (fin s m e) = (sm s m : ℚ) / (2 ^ (-e).toNat : Nat) := by
      rw [toRat]; push_cast; rw [zpow_toNat (by omega), zpow_neg]; field_simp
    rw [hv]
    have hp : ((2 ^ (-e).toNat : Nat) : ℚ) ≠ 0 := by positivity
    constructor
    · intro h
      obtain ⟨q, hq⟩ := Nat.dvd_of_mod_eq_zero h
      refine ⟨sm s q, ?_⟩
      rw [div_eq_iff hp]
      have : sm s m = sm s q * (2 ^ (-e).toNat : Nat) := by
        cases s <;> simp only [sm, hq, if_true, Bool.false_eq_true, if_false] <;> push_cast <;> ring
      exact_mod_cast this
    · rintro ⟨z, hz⟩
      rw [div_eq_iff hp] at hz
      have h1 : sm s m = z * (2 ^ (-e).toNat : Nat) := by exact_mod_cast hz
      have h2 : ((2 ^ (-e).toNat : Nat) : Int) ∣ (m : Int) := by
        cases s <;> simp only [sm] at h1
        · exact ⟨z, by simpa [mul_comm] using h1⟩
        · refine ⟨-z, ?_⟩
          simp only [if_true] at h1
          rw [mul_comm, neg_mul]; omega
      exact Nat.mod_eq_zero_of_dvd (by exact_mod_cast h2)

theorem toI64_of_whole {s : Bool} {m : Nat} {e : Int} {z : Int}
    (h : toRat (fin s m e) = z) :
    toI64 (fin s m e) = if z < -2 ^ 63 then -2 ^ 63 else if 2 ^ 63 - 1 < z then 2 ^ 63 - 1 else z := by
  have : (if 0 ≤ e then sm s m * 2 ^ e.toNat else sm s (m / 2 ^ (-e).toNat)) = z := by
    by_cases he : 0 ≤ e
    · rw [if_pos he]
      rw [toRat, ← zpow_toNat he] at h
      exact_mod_cast h
    · rw [if_neg he]
      have hnf := noFraction_iff.2 ⟨z, h⟩
      simp only [noFraction, if_neg he, beq_iff_eq] at hnf
      obtain ⟨q, hq⟩ := Nat.dvd_of_mod_eq_zero hnf
      rw [hq, Nat.mul_div_cancel_left _ (by positivity)]
      have hv : toRat (fin s m e) = (sm s m : ℚ) / (2 ^ (-e).toNat : Nat) := by
        rw [toRat]; push_cast; rw [zpow_toNat (by omega), zpow_neg]; field_simp
      have hp : ((2 ^ (-e).toNat : Nat) : ℚ) ≠ 0 := by positivity
      rw [hv, div_eq_iff hp] at h
      have h1 : sm s m = z * (2 ^ (-e).toNat : Nat) := by exact_mod_cast h
      have h2 : sm s m = sm s q * (2 ^ (-e).toNat : Nat) := by
        cases s <;> simp only [sm, hq, if_true, Bool.false_eq_true, if_false] <;> push_cast <;> ring
      have h3 : ((2 ^ (-e).toNat : Nat) : Int) ≠ 0 := by positivity
      exact mul_right_cancel₀ h3 (h2.symm.trans h1)
  simp only [toI64, this]

/-- A double with a fractional part is smaller than `2^52` in magnitude. -/
theorem abs_lt_of_fraction {s : Bool} {m : Nat} {e : Int} (hc : (fin s m e).Canonical)
    (hf : (fin s m e).noFraction = false) : |toRat (fin s m e)| < 2 ^ 52 := by
  have he : ¬ 0 ≤ e := by
    intro he; simp [noFraction, he] at hf
  have hm : (m : ℚ) < 2 ^ (53 : Int) := by exact_mod_cast hc.1
  have hv : |toRat (fin s m e)| = m * 2 ^ e := by
    rw [toRat, abs_mul, abs_of_pos (two_zpow_pos e)]
    congr 1; cases s <;> simp [sm]
  rw [hv]
  calc (m : ℚ) * 2 ^ e < 2 ^ (53 : Int) * 2 ^ e := by
        apply mul_lt_mul_of_pos_right hm (two_zpow_pos e)
    _ = 2 ^ (53 + e) := by rw [zpow_add₀ (by norm_num)]
    _ ≤ 2 ^ (52 : Int) := zpow_le_zpow_right₀ (by norm_num) (by omega)
    _ = 2 ^ 52 := by norm_cast

theorem sm_cast_ne {s : Bool} {m : Nat} (h : m ≠ 0) : sm s m ≠ 0 := by
  cases s <;> simp [sm, h]

/-- Canonical nonzero doubles with the same value are the same double. -/
theorem canonical_unique {s t : Bool} {m n : Nat} {e f : Int}
    (h1 : (fin s m e).Canonical) (h2 : (fin t n f).Canonical)
    (h0 : toRat (fin s m e) ≠ 0) (h : toRat (fin s m e) = toRat (fin t n f)) :
    fin s m e = fin t n f := by
  have aux : ∀ {s t : Bool} {m n : Nat} {e f : Int}, (fin s m e).Canonical → (fin t n f).Canonical →
      toRat (fin s m e) ≠ 0 → toRat (fin s m e) = toRat (fin t n f) → ¬ e < f := by
    intro s t m n e f h1 h2 h0 h hlt
    have hn : 2 ^ 52 ≤ n := by
      rcases h2.2.2.2 with h | h
      · exact h
      · have := h1.2.1; omega
    have ha : |toRat (fin s m e)| = m * 2 ^ e := by
      rw [toRat, abs_mul, abs_of_pos (two_zpow_pos e)]; congr 1; cases s <;> simp [sm]
    have hb : |toRat (fin t n f)| = n * 2 ^ f := by
      rw [toRat, abs_mul, abs_of_pos (two_zpow_pos f)]; congr 1; cases t <;> simp [sm]
    rw [h, hb] at ha
    have hm : (m : ℚ) < 2 ^ (53 : Int) := by exact_mod_cast h1.1
    have hn' : (2 : ℚ) ^ (52 : Int) ≤ n := by exact_mod_cast hn
    have : (2 : ℚ) ^ (53 + e) < 2 ^ (53 + e) := by
      calc (2 : ℚ) ^ (53 + e) ≤ 2 ^ (52 + f) := zpow_le_zpow_right₀ (by norm_num) (by omega)
        _ = 2 ^ (52 : Int) * 2 ^ f := by rw [zpow_add₀ (by norm_num)]
        _ ≤ n * 2 ^ f := by gcongr
        _ = m * 2 ^ e := ha
        _ < 2 ^ (53 : Int) * 2 ^ e := by
          apply mul_lt_mul_of_pos_right hm (two_zpow_pos e)
        _ = 2 ^ (53 + e) := by rw [zpow_add₀ (by norm_num)]
    exact lt_irrefl _ this
  have hef : e = f := by
    have := aux h1 h2 h0 h
    have := aux h2 h1 (h ▸ h0) h.symm
    omega
  subst hef
  have hs : sm s m = sm t n := by
    have := mul_right_cancel₀ (two_zpow_pos e).ne' h
    exact_mod_cast this
  have hm0 : m ≠ 0 := by
    rintro rfl; apply h0; cases s <;> simp [toRat, sm]
  have hn0 : n ≠ 0 := by
    rintro rfl; apply h0; rw [h]; cases t <;> simp [toRat, sm]
  cases s <;> cases t <;> simp [sm] at hs ⊢ <;> omega

/-! ### arithmetic -/

theorem roundDyadic_finite {i : Int} {e : Int} {zs : Bool}
    (h : |(i : ℚ) * 2 ^ e| < 2 ^ (1023 : Int)) : (roundDyadic i e zs).isFinite = true := by
  have hval : |(i : ℚ) * 2 ^ e| = (i.natAbs : ℚ) * 2 ^ e := by
    rw [abs_mul, abs_of_pos (two_zpow_pos e), natAbs_cast]
  rw [hval] at h
  simp only [roundDyadic]
  split
  · rfl
  · split
    · rename_i he
      apply round_finite one_pos
      push_cast; rw [zpow_toNat he, div_one]; exact h
    · rename_i he
      apply round_finite (by positivity)
      push_cast; rw [zpow_toNat (by omega), zpow_neg, div_inv_eq_mul]; exact h

theorem roundDyadic_exact {i : Int} {e : Int} {zs : Bool} {z : Int}
    (hz : (i : ℚ) * 2 ^ e = z) (hb : z.natAbs ≤ 2 ^ 53) :
    (roundDyadic i e zs).isFinite = true ∧ toRat (roundDyadic i e zs) = z := by
  obtain ⟨m, k, h1, h2, h3⟩ := small_repr hb
  have hval : (i.natAbs : ℚ) * 2 ^ e = z.natAbs := by
    rw [natAbs_cast, natAbs_cast, ← hz, abs_mul, abs_of_pos (two_zpow_pos e)]
  have hlt : ((z.natAbs : Nat) : ℚ) < 2 ^ (1024 : Int) := by
    calc ((z.natAbs : Nat) : ℚ) ≤ ((2 ^ 53 : Nat) : ℚ) := by exact_mod_cast hb
      _ < 2 ^ (1024 : Int) := by
        rw [← two_zpow_nat]; exact zpow_lt_zpow_right₀ (by norm_num) (by norm_num)
  have hsign : ((if (decide (i < 0)) = true then (-1 : ℚ) else 1) * z.natAbs) = z := by
    rw [← hval, natAbs_cast, ← mul_assoc, sign_abs, hz]
  simp only [roundDyadic]
  split
  · rename_i hi
    subst hi
    simp at hz
    have : z = 0 := by exact_mod_cast hz.symm
    subst this
    exact ⟨rfl, by cases zs <;> simp [toRat, sm]⟩
  · split
    · rename_i he
      have hq : (((i.natAbs * 2 ^ e.toNat : Nat) : ℚ)) / (1 : Nat) = z.natAbs := by
        push_cast; rw [zpow_toNat he]; simpa using hval
      have := round_exact one_pos (decide (i < 0)) (hq.trans h1) h2 h3 (by rw [hq]; exact hlt)
      refine ⟨this.1, ?_⟩
      rw [this.2, hq]; exact hsign
    · rename_i he
      have hq : ((i.natAbs : ℚ)) / ((2 ^ (-e).toNat : Nat) : ℚ) = z.natAbs := by
        push_cast; rw [zpow_toNat (by omega), zpow_neg]; simpa using hval
      have := round_exact (by positivity) (decide (i < 0)) (hq.trans h1) h2 h3
        (by rw [hq]; exact hlt)
      refine ⟨this.1, ?_⟩
      rw [this.2, hq]; exact hsign

theorem neg_finite {x : F64} : x.neg.isFinite = x.isFinite := by cases x <;> rfl

theorem neg_toRat {x : F64} : toRat x.neg = -toRat x := by
  cases x with
  | fin s m e => cases s <;> simp [neg, toRat, sm]
  | _ => simp [neg, toRat]

/-- `x + y` is the rounded exact sum. -/
theorem add_repr {x y : F64} (hx : x.isFinite = true) (hy : y.isFinite = true) :
    ∃ i e zs, add x y = roundDyadic i e zs ∧ (i : ℚ) * 2 ^ e = toRat x + toRat y := by
  cases x <;> cases y <;> simp [isFinite] at hx hy
  rename_i s m e t n f
  refine ⟨_, _, _, rfl, ?_⟩
  push_cast
  rw [add_mul, align_val (min_le_left _ _), align_val (min_le_right _ _)]

theorem mul_repr {x y : F64} (hx : x.isFinite = true) (hy : y.isFinite = true) :
    ∃ i e zs, mul x y = roundDyadic i e zs ∧ (i : ℚ) * 2 ^ e = toRat x * toRat y := by
  cases x <;> cases y <;> simp [isFinite] at hx hy
  rename_i s m e t n f
  refine ⟨_, _, _, rfl, ?_⟩
  push_cast
  simp only [toRat]
  rw [zpow_add₀ (by norm_num)]; ring

end F64
end Verif
