import Verif.Lemmas.Number
/-! Properties C07 – C12 (`Number`). -/

namespace Verif
open Verif.Spec

/-! ### helper lemmas -/

theorem fromFinite_whole {bd : Build} {x : F64} {z : Int} (hf : x.isFinite = true)
    (hv : F64.toRat x = z) (hz : z.natAbs ≤ 2 ^ 53) : N.fromFiniteF64 bd x = some (N.ofI64 z) := by
  cases x <;> simp [F64.isFinite] at hf
  rename_i s m e
  have h1 := F64.noFraction_iff.2 ⟨z, hv⟩
  have h2 := F64.toI64_of_whole hv
  rw [if_neg (by omega), if_neg (by omega)] at h2
  simp [N.fromFiniteF64, F64.isFinite, h1, h2]

theorem value_ofI64 (z : Int) : value (N.ofI64 z) = some (z : ℚ) := by
  by_cases h : z < 0
  · simp [N.ofI64, h, value]
  · simp only [N.ofI64, h, if_false, value]
    congr 1
    have : ((z.toNat : Int) : ℚ) = z := by rw [Int.toNat_of_nonneg (by omega)]
    exact_mod_cast this

theorem value_posInt_toNat {z : Int} (h : 0 ≤ z) : value (N.posInt z.toNat) = some (z : ℚ) := by
  have := value_ofI64 z
  rwa [N.ofI64, if_neg (by omega)] at this

theorem value_ofInteger (z : Int) : value (ofInteger z) = some (z : ℚ) := value_ofI64 z

theorem toF64_ofInteger (z : Int) : (ofInteger z).toF64 = F64.ofInt z := by
  by_cases h : z < 0
  · simp [ofInteger, h, N.toF64]
  · simp only [ofInteger, h, if_false, N.toF64]
    rw [Int.toNat_of_nonneg (by omega)]

/-- Mixed-sign additions go through doubles. -/
theorem coerce_ofInteger (x y : Int) : N.coerce (ofInteger x) (ofInteger y) =
    if x < 0 then
      (if y < 0 then .negInt x y else .float (F64.ofInt x) (F64.ofInt y))
    else
      (if y < 0 then .float (F64.ofInt x) (F64.ofInt y) else .posInt x.toNat y.toNat) := by
  have hx := toF64_ofInteger x
  have hy := toF64_ofInteger y
  by_cases h1 : x < 0 <;> by_cases h2 : y < 0 <;>
    simp only [ofInteger, h1, h2, if_true, if_false] at hx hy ⊢ <;>
    simp only [N.coerce, hx, hy]

theorem u64Result_ok {bd : Build} {i : Int} (h0 : 0 ≤ i) (h1 : i < 2 ^ 64) :
    u64Result bd i = some i.toNat := by rw [u64Result.eq_def, if_pos ⟨h0, h1⟩]

theorem i64Result_ok {bd : Build} {i : Int} (h0 : -2 ^ 63 ≤ i) (h1 : i < 2 ^ 63) :
    i64Result bd i = some i := by rw [i64Result.eq_def, if_pos ⟨h0, h1⟩]

theorem wrapI64_small {i : Int} (h0 : 0 ≤ i) (h1 : i < 2 ^ 63) : wrapI64 i = i := by
  simp only [wrapI64]; rw [Int.emod_eq_of_lt (by omega) (by omega)]; ring

theorem wrapI64_big {i : Int} (h0 : 2 ^ 63 ≤ i) (h1 : i < 2 ^ 64) : wrapI64 i = i - 2 ^ 64 := by
  simp only [wrapI64]
  have : i + 2 ^ 63 = (i - 2 ^ 63) + 2 ^ 64 := by ring
  rw [this, Int.add_emod_right, Int.emod_eq_of_lt (by omega) (by omega)]; ring

end Verif

namespace Verif.Props
open Verif Verif.Spec

/-! ### C07 -/

/-- **C07 is false of the code** for a mixed-sign addition whose operands and result all fit in
`i64`: it is computed in `f64`. -/
theorem C07_add_inexact : ∃ x y : Int, Fits x ∧ Fits y ∧ Fits (x + y) ∧
    ∀ bd, N.add bd (ofInteger x) (ofInteger y) = some (ofInteger (x + y - 1)) := by
  refine ⟨9007199254740993, -1, by decide, by decide, by decide, ?_⟩
  intro bd; cases bd <;> decide +kernel

/-- **C07 is false of the code** for subtraction: `1 - 2^63` fits in `i64`, but panics with overflow
checks. -/
theorem C07_sub_panics : ∃ x y : Int, Fits x ∧ Fits y ∧ Fits (x - y) ∧
    N.sub .debug (ofInteger x) (ofInteger y) = none :=
  ⟨1, 2 ^ 63, by decide, by decide, by decide, by decide +kernel⟩

/-- **C07 is false of the code** for the product of two negative numbers: `2^63` fits in `u64`, but
is computed in `i64`; without overflow checks the product comes out negative. -/
theorem C07_mul_overflows : ∃ x y : Int, Fits x ∧ Fits y ∧ Fits (x * y) ∧
    N.mul .debug (ofInteger x) (ofInteger y) = none ∧
    N.mul .release (ofInteger x) (ofInteger y) = some (ofInteger (-(x * y))) :=
  ⟨-2 ^ 32, -2 ^ 31, by decide, by decide, by decide, by decide +kernel, by decide +kernel⟩

/-- **C07**, first proved part: addition, subtraction and multiplication are exact for all integers of
magnitude up to `2^53` with a result in that range, whatever the signs and the build.
Missing: larger operands, where the statement holds only in the cases below. -/
theorem C07_small_exact_partial (bd : Build) (x y : Int) (hx : |x| ≤ 2 ^ 53) (hy : |y| ≤ 2 ^ 53) :
    (|x + y| ≤ 2 ^ 53 → ∃ r, N.add bd (ofInteger x) (ofInteger y) = some r ∧
      value r = some ((x + y : Int) : ℚ)) ∧
    (|x - y| ≤ 2 ^ 53 → ∃ r, N.sub bd (ofInteger x) (ofInteger y) = some r ∧
      value r = some ((x - y : Int) : ℚ)) ∧
    (|x * y| ≤ 2 ^ 53 → ∃ r, N.mul bd (ofInteger x) (ofInteger y) = some r ∧
      value r = some ((x * y : Int) : ℚ)) := by
  have hxn : x.natAbs ≤ 2 ^ 53 := by zify; exact hx
  have hyn : y.natAbs ≤ 2 ^ 53 := by zify; exact hy
  obtain ⟨fx, vx⟩ := F64.ofInt_exact hxn
  obtain ⟨fy, vy⟩ := F64.ofInt_exact hyn
  rw [abs_le] at hx hy
  -- the double-based results
  have fadd : |x + y| ≤ 2 ^ 53 → N.fromFiniteF64 bd (F64.add (F64.ofInt x) (F64.ofInt y)) =
      some (N.ofI64 (x + y)) := by
    intro h
    obtain ⟨i, e, zs, h1, h2⟩ := F64.add_repr fx fy
    have hn : (x + y).natAbs ≤ 2 ^ 53 := by zify; exact h
    have := F64.roundDyadic_exact (i := i) (e := e) (zs := zs) (z := x + y)
      (by rw [h2, vx, vy]; push_cast; rfl) hn
    rw [h1]; exact fromFinite_whole this.1 this.2 hn
  have fsub : |x - y| ≤ 2 ^ 53 → N.fromFiniteF64 bd (F64.sub (F64.ofInt x) (F64.ofInt y)) =
      some (N.ofI64 (x - y)) := by
    intro h
    obtain ⟨i, e, zs, h1, h2⟩ := F64.add_repr fx (F64.neg_finite.trans fy)
    have hn : (x - y).natAbs ≤ 2 ^ 53 := by zify; exact h
    have := F64.roundDyadic_exact (i := i) (e := e) (zs := zs) (z := x - y)
      (by rw [h2, F64.neg_toRat, vx, vy]; push_cast; ring) hn
    rw [F64.sub, h1]; exact fromFinite_whole this.1 this.2 hn
  have fmul : |x * y| ≤ 2 ^ 53 → N.fromFiniteF64 bd (F64.mul (F64.ofInt x) (F64.ofInt y)) =
      some (N.ofI64 (x * y)) := by
    intro h
    obtain ⟨i, e, zs, h1, h2⟩ := F64.mul_repr fx fy
    have hn : (x * y).natAbs ≤ 2 ^ 53 := by zify; exact h
    have := F64.roundDyadic_exact (i := i) (e := e) (zs := zs) (z := x * y)
      (by rw [h2, vx, vy]; push_cast; rfl) hn
    rw [h1]; exact fromFinite_whole this.1 this.2 hn
  refine ⟨fun h => ?_, fun h => ?_, fun h => ?_⟩
  · have hb := abs_le.1 h
    simp only [N.add, coerce_ofInteger]
    by_cases h1 : x < 0 <;> by_cases h2 : y < 0 <;> simp only [h1, h2, if_true, if_false]
    · rw [i64Result_ok (by omega) (by omega)]; exact ⟨_, rfl, by simp [value]⟩
    · rw [fadd h]; exact ⟨_, rfl, value_ofI64 _⟩
    · rw [fadd h]; exact ⟨_, rfl, value_ofI64 _⟩
    · rw [Int.toNat_of_nonneg (by omega), Int.toNat_of_nonneg (by omega),
        u64Result_ok (by omega) (by omega)]
      exact ⟨_, rfl, value_posInt_toNat (by omega)⟩
  · have hb := abs_le.1 h
    simp only [N.sub, coerce_ofInteger]
    by_cases h1 : x < 0 <;> by_cases h2 : y < 0 <;> simp only [h1, h2, if_true, if_false]
    · rw [i64Result_ok (by omega) (by omega)]; exact ⟨_, rfl, value_ofI64 _⟩
    · rw [fsub h]; exact ⟨_, rfl, value_ofI64 _⟩
    · rw [fsub h]; exact ⟨_, rfl, value_ofI64 _⟩
    · rw [Int.toNat_of_nonneg (by omega), Int.toNat_of_nonneg (by omega)]
      rw [wrapI64_small (by omega) (by omega), wrapI64_small (by omega) (by omega)]
      split
      · rw [i64Result_ok (by omega) (by omega)]
        exact ⟨_, rfl, by simp [value]⟩
      · rw [u64Result_ok (by omega) (by omega)]
        exact ⟨_, rfl, value_posInt_toNat (by omega)⟩
  · have hb := abs_le.1 h
    simp only [N.mul, coerce_ofInteger]
    by_cases h1 : x < 0 <;> by_cases h2 : y < 0 <;> simp only [h1, h2, if_true, if_false]
    · rw [i64Result_ok (by omega) (by omega)]; exact ⟨_, rfl, value_ofI64 _⟩
    · rw [fmul h]; exact ⟨_, rfl, value_ofI64 _⟩
    · rw [fmul h]; exact ⟨_, rfl, value_ofI64 _⟩
    · rw [Int.toNat_of_nonneg (by omega), Int.toNat_of_nonneg (by omega)]
      have h3 : 0 ≤ x * y := Int.mul_nonneg (by omega) (by omega)
      rw [u64Result_ok h3 (by omega)]
      exact ⟨_, rfl, value_posInt_toNat h3⟩

-- hypotheses are met by a mixed-sign case
example : |(2 ^ 52 : Int)| ≤ 2 ^ 53 ∧ |(-7 : Int)| ≤ 2 ^ 53 ∧ |(2 ^ 52 : Int) + -7| ≤ 2 ^ 53 := by
  decide

/-- **C07**, second proved part: operands of the same sign over the whole 64-bit range.
Addition is exact whenever the sum fits; the product of two non-negative numbers whenever it fits;
the product of two negative numbers whenever it is below `2^63`; the difference of non-negative
numbers if it is non-negative or both operands are on the same side of `2^63`; the difference of
negative numbers always. -/
theorem C07_same_sign_exact_partial (bd : Build) (x y : Int) (fx : Fits x) (fy : Fits y)
    (hs : (0 ≤ x ∧ 0 ≤ y) ∨ (x < 0 ∧ y < 0)) :
    (Fits (x + y) → ∃ r, N.add bd (ofInteger x) (ofInteger y) = some r ∧
      value r = some ((x + y : Int) : ℚ)) ∧
    ((y ≤ x ∨ x < 0 ∨ y < 2 ^ 63 ∨ 2 ^ 63 ≤ x) →
      ∃ r, N.sub bd (ofInteger x) (ofInteger y) = some r ∧ value r = some ((x - y : Int) : ℚ)) ∧
    (Fits (x * y) → (x < 0 → x * y < 2 ^ 63) →
      ∃ r, N.mul bd (ofInteger x) (ofInteger y) = some r ∧ value r = some ((x * y : Int) : ℚ)) := by
  simp only [Fits] at *
  obtain ⟨fx1, fx2⟩ := fx
  obtain ⟨fy1, fy2⟩ := fy
  rcases hs with ⟨hx, hy⟩ | ⟨hx, hy⟩
  · have nx : ¬ x < 0 := by omega
    have ny : ¬ y < 0 := by omega
    simp only [N.add, N.sub, N.mul, coerce_ofInteger, nx, ny, if_false]
    rw [Int.toNat_of_nonneg hx, Int.toNat_of_nonneg hy]
    refine ⟨fun h => ?_, fun h => ?_, fun h _ => ?_⟩
    · rw [u64Result_ok (by omega) (by omega)]; exact ⟨_, rfl, value_posInt_toNat (by omega)⟩
    · by_cases hlt : y.toNat > x.toNat
      · rw [if_pos hlt]
        have : x < y := by omega
        by_cases hy63 : y < 2 ^ 63
        · rw [wrapI64_small hx (by omega), wrapI64_small hy hy63, i64Result_ok (by omega) (by omega)]
          exact ⟨_, rfl, by simp [value]⟩
        · have hx63 : 2 ^ 63 ≤ x := by
            rcases h with h | h | h | h
            · omega
            · exact h.elim
            · exact absurd h hy63
            · exact h
          rw [wrapI64_big hx63 fx2, wrapI64_big (by omega) fy2,
            i64Result_ok (by omega) (by omega)]
          exact ⟨_, rfl, by simp [value]⟩
      · rw [if_neg hlt, u64Result_ok (by omega) (by omega)]
        exact ⟨_, rfl, value_posInt_toNat (by omega)⟩
    · rw [u64Result_ok (Int.mul_nonneg hx hy) h.2]
      exact ⟨_, rfl, value_posInt_toNat (Int.mul_nonneg hx hy)⟩
  · simp only [N.add, N.sub, N.mul, coerce_ofInteger, hx, hy, if_true]
    refine ⟨fun h => ?_, fun _ => ?_, fun h h' => ?_⟩
    · rw [i64Result_ok (by omega) (by omega)]; exact ⟨_, rfl, by simp [value]⟩
    · rw [i64Result_ok (by omega) (by omega)]; exact ⟨_, rfl, value_ofI64 _⟩
    · rw [i64Result_ok h.1 (h' trivial)]; exact ⟨_, rfl, value_ofI64 _⟩

example : Fits (2 ^ 63) ∧ Fits (2 ^ 62) ∧ Fits (2 ^ 63 + 2 ^ 62) := by decide

/-! ### C08 -/

/-- **C08 is false of the code**: negating an integer above `2^63` yields a different number, in every
build. `-(2^64 - 1)` is `1`. -/
theorem C08_neg_wraps : ∃ n : Nat, n < 2 ^ 64 ∧ ∀ bd, N.neg bd (.posInt n) = some (.negInt 1) :=
  ⟨2 ^ 64 - 1, by decide, by intro bd; cases bd <;> decide +kernel⟩

/-- **C08**: negation panics with overflow checks at `2^63`. -/
theorem C08_neg_panics : N.neg .debug (.posInt (2 ^ 63)) = none ∧
    N.neg .debug (.negInt (-2 ^ 63)) = none := by decide +kernel

/-- **C08**, exact description: with overflow checks, negating a well-formed number yields the negated
value if and only if the number is neither an integer `≥ 2^63` nor `-2^63`.
Missing for the full property: exactly those numbers. -/
theorem C08_neg_partial (n : N) (hn : WellFormed n) :
    (∃ r, N.neg .debug n = some r ∧ value r = (value n).map (fun q => -q)) ↔
      ¬ (∃ i : Int, n = ofInteger i ∧ (2 ^ 63 ≤ i ∨ i = -2 ^ 63)) := by
  cases n with
  | posInt n =>
    simp only [WellFormed] at hn
    have hof : ∀ i : Int, N.posInt n = ofInteger i ↔ i = n := by
      intro i
      simp only [ofInteger]
      split
      · constructor
        · intro h; cases h
        · omega
      · constructor
        · intro h; injection h; omega
        · intro h; simp [h]
    simp only [hof, exists_eq_left]
    by_cases h : n < 2 ^ 63
    · rw [N.neg, wrapI64_small (by omega) (by omega), i64Result_ok (by omega) (by omega)]
      constructor
      · intro _ h'; omega
      · intro _; exact ⟨_, rfl, by simp [value]⟩
    · constructor
      · rintro ⟨r, h1, h2⟩
        exfalso
        rw [N.neg, wrapI64_big (by omega) (by omega)] at h1
        by_cases hb : n = 2 ^ 63
        · subst hb
          have : i64Result .debug (-((2 ^ 63 : Nat) - 2 ^ 64 : Int)) = none := by decide +kernel
          rw [this] at h1; cases h1
        · rw [i64Result_ok (by omega) (by omega)] at h1
          simp only [Option.map_some, Option.some.injEq] at h1
          subst h1
          simp only [value, Option.map_some, Option.some.injEq] at h2
          have : -((n : Int) - 2 ^ 64) = -(n : Int) := by exact_mod_cast h2
          omega
      · intro h'; omega
  | negInt i =>
    simp only [WellFormed] at hn
    have hof : ∀ j : Int, N.negInt i = ofInteger j ↔ j = i := by
      intro j
      simp only [ofInteger]
      split
      · constructor
        · intro h; injection h with h; exact h.symm
        · intro h; simp [h]
      · constructor
        · intro h; cases h
        · omega
    simp only [hof, exists_eq_left]
    by_cases h : i = -2 ^ 63
    · subst h
      constructor
      · rintro ⟨r, h1, _⟩; rw [C08_neg_panics.2] at h1; cases h1
      · intro h; exact absurd (Or.inr rfl) h
    · rw [N.neg, i64Result_ok (by omega) (by omega)]
      constructor
      · intro _ h'; omega
      · intro _; refine ⟨_, rfl, ?_⟩
        rw [value_ofI64]; simp [value]
  | float x =>
    simp only [WellFormed] at hn
    constructor
    · rintro - ⟨i, h, -⟩
      simp only [ofInteger] at h
      split at h <;> cases h
    · intro _
      refine ⟨_, rfl, ?_⟩
      simp only [value]
      rw [F64.toRat?_of_finite hn.2.1, F64.toRat?_of_finite (F64.neg_finite.trans hn.2.1),
        F64.neg_toRat]
      rfl

example : WellFormed (.posInt (2 ^ 63 - 1)) := by simp [WellFormed]

/-! ### C09 -/

/-- **C09 is false of the code**: whole doubles outside the `i64` range are silently clamped: `1e300`
becomes `i64::MAX`. -/
theorem C09_clamps : ∃ x : F64, x.isFinite = true ∧ x = F64.ofDecimal 1 300 ∧
    N.fromF64 x = some (.posInt (2 ^ 63 - 1)) :=
  ⟨F64.ofDecimal 1 300, by decide +kernel, rfl, by decide +kernel⟩

/-- **C09**, first half: `from_f64` is `None` exactly for NaN and the infinities. -/
theorem C09_none_iff (x : F64) : N.fromF64 x = none ↔ Spec.F64.toRat? x = none := by
  cases x <;> simp [N.fromF64, F64.isFinite, Spec.F64.toRat?]
  split <;> simp

/-- **C09**, second half, exact description: for a finite double denoting `q`, the `Number` denotes `q`
if and only if `-2^63 ≤ q < 2^63`; and it always satisfies the invariant of `Number`.
Missing for the full property: the doubles outside that range. -/
theorem C09_value_partial (x : F64) (q : ℚ) (hc : x.Canonical) (hx : Spec.F64.toRat? x = some q) :
    ∃ n, N.fromF64 x = some n ∧ WellFormed n ∧
      (value n = some q ↔ -2 ^ 63 ≤ q ∧ q < 2 ^ 63) := by
  cases x with
  | nan => simp [Spec.F64.toRat?] at hx
  | inf s => simp [Spec.F64.toRat?] at hx
  | fin s m e =>
    rw [F64.toRat?_fin] at hx
    simp only [Option.some.injEq] at hx
    by_cases hf : (F64.fin s m e).noFraction = true
    · obtain ⟨z, hz⟩ := F64.noFraction_iff.1 hf
      have hi := F64.toI64_of_whole hz
      refine ⟨_, by simp only [N.fromF64, F64.isFinite, hf, if_true]; rfl, ?_, ?_⟩
      · rw [hi]
        split_ifs <;> simp only [N.ofI64] <;> split_ifs <;> simp only [WellFormed] <;> omega
      · rw [value_ofI64, hi, ← hx, hz]
        simp only [Option.some.injEq, Int.cast_inj]
        have e1 : (-2 ^ 63 ≤ (z : ℚ)) ↔ -2 ^ 63 ≤ z := by exact_mod_cast Iff.rfl
        have e2 : ((z : ℚ) < 2 ^ 63) ↔ z < 2 ^ 63 := by exact_mod_cast Iff.rfl
        rw [e1, e2]
        split_ifs <;> omega
    · rw [Bool.not_eq_true] at hf
      refine ⟨.float (.fin s m e), by simp [N.fromF64, F64.isFinite, hf], ⟨hc, rfl, hf⟩, ?_⟩
      have := abs_lt.1 (F64.abs_lt_of_fraction hc hf)
      simp only [value, F64.toRat?_fin, hx, true_iff]
      rw [hx] at this
      constructor <;> linarith

example : (F64.ofDecimal 15 (-1)).Canonical ∧ Spec.F64.toRat? (F64.ofDecimal 15 (-1)) = some (3 / 2) := by
  constructor
  · exact ⟨by decide +kernel, by decide +kernel, by decide +kernel, by decide +kernel⟩
  · have : F64.ofDecimal 15 (-1) = .fin false (3 * 2 ^ 51) (-52) := by decide +kernel
    rw [this]; simp only [Spec.F64.toRat?]; norm_num

/-! ### C10 -/

/-- **C10 is false of the code** on numbers that arithmetic can produce: negating `2^64 - 2^53` gives a
number that is `==` to two different integers (so `==` is not transitive), and equal numbers get
different hashes. -/
theorem C10_not_transitive : ∃ a b c : N,
    (∀ bd, N.neg bd (.posInt (2 ^ 64 - 2 ^ 53)) = some b) ∧ WellFormed a ∧ WellFormed c ∧
    N.eq a b = true ∧ N.eq b c = true ∧ N.eq a c = false ∧ N.hashInput b ≠ N.hashInput c :=
  ⟨.posInt (2 ^ 53), .negInt (2 ^ 53), .posInt (2 ^ 53 + 1), by intro bd; cases bd <;> decide +kernel,
    by simp [WellFormed], by simp [WellFormed], by decide +kernel, by decide +kernel,
    by decide +kernel, by decide +kernel⟩

end Verif.Props
