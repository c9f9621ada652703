import Verif.Props.Number
/-! Properties C10 – C12 (`Number`: equality, order, hash; panics; accessors). -/

namespace Verif
open Verif.Spec

/-- Value of a number (0 for a non-finite float). -/
def N.rat : N → ℚ
  | .posInt n => n
  | .negInt i => i
  | .float x => F64.toRat x

theorem value_of_wf {n : N} (h : WellFormed n) : value n = some n.rat := by
  cases n with
  | posInt n => rfl
  | negInt i => rfl
  | float x => exact F64.toRat?_of_finite h.2.1

theorem wf_toF64_finite {n : N} (h : WellFormed n) : n.toF64.isFinite = true := by
  cases n with
  | posInt n => simp only [WellFormed] at h; exact F64.ofInt_finite (by omega)
  | negInt i => simp only [WellFormed] at h; exact F64.ofInt_finite (by omega)
  | float x => exact h.2.1

theorem F64.partialCmp_iff {x y : F64} (hx : x.isFinite = true) (hy : y.isFinite = true) :
    (F64.partialCmp x y = some .lt ↔ x.toRat < y.toRat) ∧
    (F64.partialCmp x y = some .gt ↔ y.toRat < x.toRat) ∧
    (F64.partialCmp x y = some .eq ↔ x.toRat = y.toRat) := by
  have h1 := F64.lt_iff hx hy
  have h2 := F64.lt_iff hy hx
  have h3 := F64.eq_iff hx hy
  simp only [F64.partialCmp]
  rcases lt_trichotomy x.toRat y.toRat with h | h | h
  · rw [if_pos (h1.2 h)]
    refine ⟨by simp [h], ?_, ?_⟩
    · constructor
      · intro h; cases h
      · intro h'; linarith
    · constructor
      · intro h; cases h
      · intro h'; linarith
  · rw [if_neg (fun h' => by have := h1.1 h'; linarith),
      if_neg (fun h' => by have := h2.1 h'; linarith), if_pos (h3.2 h)]
    refine ⟨?_, ?_, by simp [h]⟩
    · constructor
      · intro h; cases h
      · intro h'; linarith
    · constructor
      · intro h; cases h
      · intro h'; linarith
  · rw [if_neg (fun h' => by have := h1.1 h'; linarith), if_pos (h2.2 h)]
    refine ⟨?_, by simp [h], ?_⟩
    · constructor
      · intro h; cases h
      · intro h'; linarith
    · constructor
      · intro h; cases h
      · intro h'; linarith

theorem frac_abs {x : F64} (h : WellFormed (.float x)) : |x.toRat| < 2 ^ 53 := by
  obtain ⟨h1, h2, h3⟩ := h
  cases x <;> simp [F64.isFinite] at h2
  have := F64.abs_lt_of_fraction h1 h3
  have h4 : (2 : ℚ) ^ 52 < 2 ^ 53 := by norm_num
  linarith

/-- What the coercion to doubles preserves. -/
theorem toF64_cmp {a b : N} (ha : WellFormed a) (hb : WellFormed b)
    (hk : ¬ (∃ m n, a = .posInt m ∧ b = .posInt n) ∧ ¬ (∃ m n, a = .negInt m ∧ b = .negInt n)) :
    (a.toF64.toRat < b.toF64.toRat ↔ a.rat < b.rat) ∧
    (b.toF64.toRat < a.toF64.toRat ↔ b.rat < a.rat) ∧
    (a.toF64.toRat = b.toF64.toRat ↔ a.rat = b.rat) := by
  cases a with
  | posInt m =>
    simp only [WellFormed] at ha
    cases b with
    | posInt n => exact absurd ⟨m, n, rfl, rfl⟩ hk.1
    | negInt j =>
      simp only [WellFormed] at hb
      have h1 := F64.ofInt_nonneg (i := m) (by omega)
      have h2 := F64.ofInt_neg (i := j) hb.2 (by omega)
      have h3 : (0 : ℚ) ≤ m := by positivity
      have h4 : (j : ℚ) < 0 := by exact_mod_cast hb.2
      simp only [N.toF64, N.rat]
      refine ⟨⟨fun h => ?_, fun h => ?_⟩, ⟨fun h => ?_, fun h => ?_⟩, ⟨fun h => ?_, fun h => ?_⟩⟩ <;>
        linarith
    | float y =>
      have := F64.ofInt_lt_iff (i := m) (by omega) (frac_abs hb)
      simpa [N.toF64, N.rat] using this
  | negInt i =>
    simp only [WellFormed] at ha
    cases b with
    | posInt n =>
      simp only [WellFormed] at hb
      have h1 := F64.ofInt_nonneg (i := n) (by omega)
      have h2 := F64.ofInt_neg (i := i) ha.2 (by omega)
      have h3 : (0 : ℚ) ≤ n := by positivity
      have h4 : (i : ℚ) < 0 := by exact_mod_cast ha.2
      simp only [N.toF64, N.rat]
      refine ⟨⟨fun h => ?_, fun h => ?_⟩, ⟨fun h => ?_, fun h => ?_⟩, ⟨fun h => ?_, fun h => ?_⟩⟩ <;>
        linarith
    | negInt j => exact absurd ⟨i, j, rfl, rfl⟩ hk.2
    | float y =>
      have := F64.ofInt_lt_iff (i := i) (by omega) (frac_abs hb)
      simpa [N.toF64, N.rat] using this
  | float x =>
    cases b with
    | posInt n =>
      simp only [WellFormed] at hb
      have := F64.ofInt_lt_iff (i := n) (by omega) (frac_abs ha)
      simp only [N.toF64, N.rat]
      exact ⟨this.2.1, this.1, by rw [eq_comm, this.2.2, eq_comm]; norm_cast⟩
    | negInt j =>
      simp only [WellFormed] at hb
      have := F64.ofInt_lt_iff (i := j) (by omega) (frac_abs ha)
      simp only [N.toF64, N.rat]
      exact ⟨this.2.1, this.1, by rw [eq_comm, this.2.2, eq_comm]⟩
    | float y => exact ⟨Iff.rfl, Iff.rfl, Iff.rfl⟩

/-- Unfolding `coerce` in the cases that go through doubles. -/
theorem coerce_float {a b : N}
    (hk : ¬ (∃ m n, a = .posInt m ∧ b = .posInt n) ∧ ¬ (∃ m n, a = .negInt m ∧ b = .negInt n)) :
    N.coerce a b = .float a.toF64 b.toF64 := by
  cases a <;> cases b <;> simp_all [N.coerce, N.toF64]

theorem kinds (a b : N) : (∃ m n, a = .posInt m ∧ b = .posInt n) ∨
    (∃ m n, a = .negInt m ∧ b = .negInt n) ∨
    (¬ (∃ m n, a = .posInt m ∧ b = .posInt n) ∧ ¬ (∃ m n, a = .negInt m ∧ b = .negInt n)) := by
  by_cases h1 : ∃ m n, a = .posInt m ∧ b = .posInt n
  · exact Or.inl h1
  · by_cases h2 : ∃ m n, a = .negInt m ∧ b = .negInt n
    · exact Or.inr (Or.inl h2)
    · exact Or.inr (Or.inr ⟨h1, h2⟩)

theorem eq_iff_rat {a b : N} (ha : WellFormed a) (hb : WellFormed b) :
    N.eq a b = true ↔ a.rat = b.rat := by
  rcases kinds a b with ⟨m, n, rfl, rfl⟩ | ⟨m, n, rfl, rfl⟩ | hk
  · simp [N.eq, N.coerce, N.rat]
  · simp [N.eq, N.coerce, N.rat]
  · simp only [N.eq, coerce_float hk]
    rw [F64.eq_iff (wf_toF64_finite ha) (wf_toF64_finite hb)]
    exact (toF64_cmp ha hb hk).2.2

theorem cmp_iff_rat {a b : N} (ha : WellFormed a) (hb : WellFormed b) :
    (N.partialCmp a b = some .lt ↔ a.rat < b.rat) ∧
    (N.partialCmp a b = some .gt ↔ b.rat < a.rat) ∧
    (N.partialCmp a b = some .eq ↔ a.rat = b.rat) := by
  rcases kinds a b with ⟨m, n, rfl, rfl⟩ | ⟨m, n, rfl, rfl⟩ | hk
  · simp [N.partialCmp, N.coerce, N.rat, compare_lt_iff_lt, compare_gt_iff_gt]
  · simp [N.partialCmp, N.coerce, N.rat, compare_lt_iff_lt, compare_gt_iff_gt]
  · simp only [N.partialCmp, coerce_float hk]
    have h1 := F64.partialCmp_iff (wf_toF64_finite ha) (wf_toF64_finite hb)
    have h2 := toF64_cmp ha hb hk
    exact ⟨h1.1.trans h2.1, h1.2.1.trans h2.2.1, h1.2.2.trans h2.2.2⟩

end Verif

namespace Verif.Props
open Verif Verif.Spec

/-- **C10** on well-formed numbers: `==` is equality of the denoted values, hence reflexive, symmetric
and transitive. Missing: the ill-formed numbers arithmetic can create (`C10_not_transitive`). -/
theorem C10_equality_partial (a b : N) (ha : WellFormed a) (hb : WellFormed b) :
    N.eq a b = true ↔ value a = value b := by
  rw [eq_iff_rat ha hb, value_of_wf ha, value_of_wf hb, Option.some.injEq]

/-- **C10** on well-formed numbers: the order is the order of the denoted values; in particular every
two numbers are comparable and `partial_cmp` answers `Equal` exactly when `==` holds. -/
theorem C10_order_partial (a b : N) (p q : ℚ) (ha : WellFormed a) (hb : WellFormed b)
    (hp : value a = some p) (hq : value b = some q) :
    (N.partialCmp a b = some .lt ↔ p < q) ∧ (N.partialCmp a b = some .gt ↔ q < p) ∧
    (N.partialCmp a b = some .eq ↔ p = q) ∧ (N.partialCmp a b = some .eq ↔ N.eq a b = true) := by
  rw [value_of_wf ha] at hp
  rw [value_of_wf hb] at hq
  injection hp with hp
  injection hq with hq
  subst hp hq
  have h := cmp_iff_rat ha hb
  exact ⟨h.1, h.2.1, h.2.2, h.2.2.trans (eq_iff_rat ha hb).symm⟩

/-- **C10** on well-formed numbers: equal numbers feed the same data to the hasher. -/
theorem C10_hash_partial (a b : N) (ha : WellFormed a) (hb : WellFormed b)
    (h : N.eq a b = true) : N.hashInput a = N.hashInput b := by
  rw [eq_iff_rat ha hb] at h
  have frac : ∀ {x : F64} {z : Int}, WellFormed (.float x) → x.toRat ≠ z := by
    intro x z hx hz
    obtain ⟨h1, h2, h3⟩ := hx
    cases x <;> simp [F64.isFinite] at h2
    rw [F64.noFraction_iff.2 ⟨z, hz⟩] at h3; cases h3
  cases a with
  | posInt m =>
    cases b with
    | posInt n => simp [N.rat] at h; rw [h]
    | negInt j =>
      simp only [N.rat, WellFormed] at h hb
      have : (m : Int) = j := by exact_mod_cast h
      omega
    | float y => exact absurd h.symm (by simpa [N.rat] using frac (z := m) hb)
  | negInt i =>
    cases b with
    | posInt n =>
      simp only [N.rat, WellFormed] at h ha
      have : i = (n : Int) := by exact_mod_cast h
      omega
    | negInt j => simp [N.rat] at h; rw [h]
    | float y => exact absurd h.symm (by simpa [N.rat] using frac (z := i) hb)
  | float x =>
    cases b with
    | posInt n => exact absurd h (by simpa [N.rat] using frac (z := n) ha)
    | negInt j => exact absurd h (by simpa [N.rat] using frac (z := j) ha)
    | float y =>
      have h0 : x.toRat ≠ 0 := by simpa using frac (z := 0) ha
      obtain ⟨a1, a2, a3⟩ := ha
      obtain ⟨b1, b2, b3⟩ := hb
      cases x <;> simp [F64.isFinite] at a2
      cases y <;> simp [F64.isFinite] at b2
      rw [F64.canonical_unique a1 b1 h0 h]

/-- **C10** on floats stored as floats, whole ones and both zeros included: equal ones feed the same data
to the hasher. -/
theorem C10_hash_float (x y : F64) (hx : x.Canonical) (hy : y.Canonical)
    (hxf : x.isFinite = true) (hyf : y.isFinite = true) (h : N.eq (.float x) (.float y) = true) :
    N.hashInput (.float x) = N.hashInput (.float y) := by
  have hz : F64.isFinite (.fin false 0 (-1074)) = true := rfl
  have h0 : (F64.fin false 0 (-1074)).toRat = 0 := by simp [F64.toRat, F64.sm]
  have he : x.toRat = y.toRat := by
    rw [← F64.eq_iff hxf hyf]; simpa [N.eq, N.coerce] using h
  simp only [N.hashInput]
  by_cases hx0 : x.toRat = 0
  · rw [if_pos ((F64.eq_iff hxf hz).2 (by rw [hx0, h0])),
      if_pos ((F64.eq_iff hyf hz).2 (by rw [← he, hx0, h0]))]
  · rw [if_neg (fun hh => hx0 (by rw [(F64.eq_iff hxf hz).1 hh, h0])),
      if_neg (fun hh => hx0 (by rw [he, (F64.eq_iff hyf hz).1 hh, h0]))]
    cases x <;> simp [F64.isFinite] at hxf
    cases y <;> simp [F64.isFinite] at hyf
    rw [F64.canonical_unique hx hy hx0 he]

/-- The two zeros. -/
example : N.eq (.float (.fin true 0 (-1074))) (.float (.fin false 0 (-1074))) = true := by
  decide +kernel

example : WellFormed (.posInt (2 ^ 53 + 1)) ∧ WellFormed (.negInt (-5)) ∧
    WellFormed (.float (F64.ofDecimal 15 (-1))) := by
  refine ⟨by simp [WellFormed], by simp [WellFormed], ?_⟩
  exact ⟨⟨by decide +kernel, by decide +kernel, by decide +kernel, by decide +kernel⟩,
    by decide +kernel, by decide +kernel⟩

/-! ### C11 -/

/-- **C11 is false of the code**: remainder by zero panics in every build; with debug assertions division
by zero panics, and without them it creates a non-finite `Number`. -/
theorem C11_zero_divisor : (∀ bd, N.rem bd (.posInt 1) (.posInt 0) = none) ∧
    N.div .debug (.posInt 1) (.posInt 0) = none ∧
    N.div .release (.posInt 1) (.posInt 0) = some (.float (.inf false)) ∧
    N.div .release (.posInt 0) (.posInt 0) = some (.float .nan) := by
  refine ⟨by intro bd; cases bd <;> decide +kernel, by decide +kernel, by decide +kernel,
    by decide +kernel⟩

/-- **C11 is false of the code** also away from zero: a huge quotient overflows to infinity. -/
theorem C11_quotient_overflow : ∃ a b : N, WellFormed a ∧ WellFormed b ∧ value b ≠ some 0 ∧
    N.div .debug a b = none ∧ N.div .release a b = some (.float (.inf false)) := by
  refine ⟨.posInt (2 ^ 63), .float (.fin false 1 (-1074)), by simp [WellFormed], ?_, ?_,
    by decide +kernel, by decide +kernel⟩
  · exact ⟨⟨by decide, by decide, by decide, by decide⟩, rfl, by decide +kernel⟩
  · simp [value, Spec.F64.toRat?]

end Verif.Props

namespace Verif
open Verif.Spec

theorem fromFinite_finite {bd : Build} {x : F64} (h : x.isFinite = true) :
    ∃ r, N.fromFiniteF64 bd x = some r ∧ (value r).isSome = true := by
  simp only [N.fromFiniteF64, h, Bool.true_eq_false, and_false, if_false]
  split
  · exact ⟨_, rfl, by rw [value_ofI64]; rfl⟩
  · exact ⟨_, rfl, by simp only [value]; rw [F64.toRat?_of_finite h]; rfl⟩

/-- Well-formed numbers are at most `2^64` in magnitude as doubles. -/
theorem wf_abs_le {n : N} (h : WellFormed n) : |n.toF64.toRat| ≤ (2 : ℚ) ^ (64 : Int) := by
  cases n with
  | posInt n => simp only [WellFormed] at h; exact F64.ofInt_abs_le (k := 64) (by omega)
  | negInt i => simp only [WellFormed] at h; exact F64.ofInt_abs_le (k := 64) (by omega)
  | float x =>
    have := frac_abs h
    have h4 : (2 : ℚ) ^ 53 < 2 ^ (64 : Int) := by norm_num
    simp only [N.toF64]; linarith

theorem pow_lt_1023 : (2 : ℚ) ^ (128 : Int) < 2 ^ (1023 : Int) :=
  zpow_lt_zpow_right₀ (by norm_num) (by norm_num)

theorem add_finite {a b : N} (ha : WellFormed a) (hb : WellFormed b) :
    (F64.add a.toF64 b.toF64).isFinite = true := by
  obtain ⟨i, e, zs, h1, h2⟩ := F64.add_repr (wf_toF64_finite ha) (wf_toF64_finite hb)
  rw [h1]; apply F64.roundDyadic_finite; rw [h2]
  refine lt_of_le_of_lt ?_ pow_lt_1023
  have := wf_abs_le ha
  have := wf_abs_le hb
  have h3 := abs_add_le a.toF64.toRat b.toF64.toRat
  have h4 : (2 : ℚ) ^ (64 : Int) + 2 ^ (64 : Int) ≤ 2 ^ (128 : Int) := by norm_num
  linarith

theorem sub_finite {a b : N} (ha : WellFormed a) (hb : WellFormed b) :
    (F64.sub a.toF64 b.toF64).isFinite = true := by
  obtain ⟨i, e, zs, h1, h2⟩ := F64.add_repr (wf_toF64_finite ha)
    (F64.neg_finite.trans (wf_toF64_finite hb))
  rw [F64.sub, h1]; apply F64.roundDyadic_finite; rw [h2, F64.neg_toRat]
  refine lt_of_le_of_lt ?_ pow_lt_1023
  have := wf_abs_le ha
  have := wf_abs_le hb
  have h3 := abs_add_le a.toF64.toRat (-b.toF64.toRat)
  rw [abs_neg] at h3
  have h4 : (2 : ℚ) ^ (64 : Int) + 2 ^ (64 : Int) ≤ 2 ^ (128 : Int) := by norm_num
  linarith

theorem mul_finite {a b : N} (ha : WellFormed a) (hb : WellFormed b) :
    (F64.mul a.toF64 b.toF64).isFinite = true := by
  obtain ⟨i, e, zs, h1, h2⟩ := F64.mul_repr (wf_toF64_finite ha) (wf_toF64_finite hb)
  rw [h1]; apply F64.roundDyadic_finite; rw [h2, abs_mul]
  refine lt_of_le_of_lt ?_ pow_lt_1023
  have h5 := wf_abs_le ha
  have h6 := wf_abs_le hb
  calc _ ≤ (2 : ℚ) ^ (64 : Int) * 2 ^ (64 : Int) := by gcongr
    _ ≤ _ := by norm_num

theorem kinds_int {a b : N} (ha : WellFormed a) (hb : WellFormed b) :
    (∃ x y : Int, 0 ≤ x ∧ 0 ≤ y ∧ x < 2 ^ 64 ∧ y < 2 ^ 64 ∧ a = ofInteger x ∧ b = ofInteger y) ∨
    (∃ x y : Int, x < 0 ∧ y < 0 ∧ -2 ^ 63 ≤ x ∧ -2 ^ 63 ≤ y ∧ a = ofInteger x ∧ b = ofInteger y) ∨
    ((∀ x y : Int, a = ofInteger x → b = ofInteger y → ¬ ((0 ≤ x ∧ 0 ≤ y) ∨ (x < 0 ∧ y < 0))) ∧
      N.coerce a b = .float a.toF64 b.toF64) := by
  rcases kinds a b with ⟨m, n, rfl, rfl⟩ | ⟨m, n, rfl, rfl⟩ | hk
  · simp only [WellFormed] at ha hb
    exact Or.inl ⟨m, n, by omega, by omega, by omega, by omega, by simp [ofInteger],
      by simp [ofInteger]⟩
  · simp only [WellFormed] at ha hb
    exact Or.inr (Or.inl ⟨m, n, by omega, by omega, by omega, by omega, by simp [ofInteger, ha.2],
      by simp [ofInteger, hb.2]⟩)
  · refine Or.inr (Or.inr ⟨?_, coerce_float hk⟩)
    rintro x y rfl rfl (⟨h1, h2⟩ | ⟨h1, h2⟩)
    · exact hk.1 ⟨x.toNat, y.toNat, by simp [ofInteger, not_lt.2 h1], by simp [ofInteger, not_lt.2 h2]⟩
    · exact hk.2 ⟨x, y, by simp [ofInteger, h1], by simp [ofInteger, h2]⟩

theorem ofInteger_inj {x y : Int} (h : ofInteger x = ofInteger y) : x = y := by
  have h1 := value_ofInteger x
  rw [h, value_ofInteger] at h1
  simpa using h1.symm

theorem wf_bounds {x : Int} (h : WellFormed (ofInteger x)) : -2 ^ 63 ≤ x ∧ x < 2 ^ 64 := by
  simp only [ofInteger] at h
  split at h <;> simp only [WellFormed] at h <;> omega

theorem u64Result_none {bd : Build} {i : Int} :
    u64Result bd i = none ↔ bd = .debug ∧ ¬ (0 ≤ i ∧ i < 2 ^ 64) := by
  rw [u64Result.eq_def]
  split <;> cases bd <;> simp_all

theorem i64Result_none {bd : Build} {i : Int} :
    i64Result bd i = none ↔ bd = .debug ∧ ¬ (-2 ^ 63 ≤ i ∧ i < 2 ^ 63) := by
  rw [i64Result.eq_def]
  split <;> cases bd <;> simp_all

end Verif

namespace Verif.Props
open Verif Verif.Spec

/-- **C11** for addition of well-formed numbers, exact: it panics only with overflow checks and only if
both are integers whose sum does not fit in 64 bits; otherwise the result is finite. -/
theorem C11_add_partial (bd : Build) (a b : N) (ha : WellFormed a) (hb : WellFormed b) :
    (N.add bd a b = none ↔ bd = .debug ∧ ∃ x y : Int, a = ofInteger x ∧ b = ofInteger y ∧
      ¬ Fits (x + y)) ∧
    (∀ r, N.add bd a b = some r → (value r).isSome = true) := by
  rcases kinds_int ha hb with ⟨x, y, hx, hy, hx', hy', rfl, rfl⟩ | ⟨x, y, hx, hy, hx', hy', rfl, rfl⟩ | ⟨hk, hc⟩
  · constructor
    · simp only [N.add, coerce_ofInteger, not_lt.2 hx, not_lt.2 hy, if_false, Option.map_eq_none_iff,
        u64Result_none, Int.toNat_of_nonneg hx, Int.toNat_of_nonneg hy]
      constructor
      · rintro ⟨h1, h2⟩
        exact ⟨h1, x, y, rfl, rfl, by simp only [Fits]; omega⟩
      · rintro ⟨h1, x', y', h2, h3, h4⟩
        rw [← ofInteger_inj h2, ← ofInteger_inj h3] at h4
        exact ⟨h1, by simp only [Fits] at h4; omega⟩
    · simp only [N.add, coerce_ofInteger, not_lt.2 hx, not_lt.2 hy, if_false, Option.map_eq_some_iff]
      rintro r ⟨n, -, rfl⟩; rfl
  · constructor
    · simp only [N.add, coerce_ofInteger, hx, hy, if_true, Option.map_eq_none_iff, i64Result_none]
      constructor
      · rintro ⟨h1, h2⟩
        exact ⟨h1, x, y, rfl, rfl, by simp only [Fits]; omega⟩
      · rintro ⟨h1, x', y', h2, h3, h4⟩
        rw [← ofInteger_inj h2, ← ofInteger_inj h3] at h4
        exact ⟨h1, by simp only [Fits] at h4; omega⟩
    · simp only [N.add, coerce_ofInteger, hx, hy, if_true, Option.map_eq_some_iff]
      rintro r ⟨n, -, rfl⟩; rfl
  · obtain ⟨r, h1, h2⟩ := fromFinite_finite (bd := bd) (add_finite ha hb)
    simp only [N.add, hc, h1]
    refine ⟨⟨fun h => (Option.some_ne_none _ h).elim, ?_⟩, fun r' h => by cases h; exact h2⟩
    rintro ⟨-, x, y, rfl, rfl, h4⟩
    exfalso
    have := hk x y rfl rfl
    have := wf_bounds ha
    have := wf_bounds hb
    simp only [Fits] at h4; omega

/-- **C11** for subtraction of well-formed numbers, exact: it panics only with overflow checks and only
for integers `x < 2^63 ≤ y` with `y - x ≤ 2^63`; otherwise the result is finite. -/
theorem C11_sub_partial (bd : Build) (a b : N) (ha : WellFormed a) (hb : WellFormed b) :
    (N.sub bd a b = none ↔ bd = .debug ∧ ∃ x y : Int, a = ofInteger x ∧ b = ofInteger y ∧
      0 ≤ x ∧ x < 2 ^ 63 ∧ 2 ^ 63 ≤ y ∧ y - x ≤ 2 ^ 63) ∧
    (∀ r, N.sub bd a b = some r → (value r).isSome = true) := by
  rcases kinds_int ha hb with ⟨x, y, hx, hy, hx', hy', rfl, rfl⟩ | ⟨x, y, hx, hy, hx', hy', rfl, rfl⟩ | ⟨hk, hc⟩
  · constructor
    · have key : N.sub bd (ofInteger x) (ofInteger y) = none ↔
          bd = .debug ∧ x < 2 ^ 63 ∧ 2 ^ 63 ≤ y ∧ y - x ≤ 2 ^ 63 := by
        simp only [N.sub, coerce_ofInteger, not_lt.2 hx, not_lt.2 hy, if_false,
          Int.toNat_of_nonneg hx, Int.toNat_of_nonneg hy]
        by_cases hlt : y.toNat > x.toNat
        · rw [if_pos hlt, Option.map_eq_none_iff, i64Result_none]
          apply and_congr_right; intro _
          by_cases h1 : x < 2 ^ 63
          · rw [wrapI64_small hx h1]
            by_cases h2 : y < 2 ^ 63
            · rw [wrapI64_small hy h2]; omega
            · rw [wrapI64_big (by omega) hy']; omega
          · rw [wrapI64_big (by omega) hx', wrapI64_big (by omega) hy']; omega
        · rw [if_neg hlt, Option.map_eq_none_iff, u64Result_none]
          apply and_congr_right; intro _; omega
      rw [key]
      apply and_congr_right; intro _
      constructor
      · intro h; exact ⟨x, y, rfl, rfl, hx, h⟩
      · rintro ⟨x', y', h2, h3, h4⟩
        rw [← ofInteger_inj h2, ← ofInteger_inj h3] at h4
        exact h4.2
    · simp only [N.sub, coerce_ofInteger, not_lt.2 hx, not_lt.2 hy, if_false]
      intro r
      split <;> simp only [Option.map_eq_some_iff] <;> rintro ⟨n, -, rfl⟩ <;> rfl
  · constructor
    · simp only [N.sub, coerce_ofInteger, hx, hy, if_true, Option.map_eq_none_iff, i64Result_none]
      apply and_congr_right; intro _
      constructor
      · intro h; omega
      · rintro ⟨x', y', h2, h3, h4⟩
        rw [← ofInteger_inj h2, ← ofInteger_inj h3] at h4; omega
    · simp only [N.sub, coerce_ofInteger, hx, hy, if_true, Option.map_eq_some_iff]
      rintro r ⟨n, -, rfl⟩; rw [value_ofI64]; rfl
  · obtain ⟨r, h1, h2⟩ := fromFinite_finite (bd := bd) (sub_finite ha hb)
    simp only [N.sub, hc, h1]
    refine ⟨⟨fun h => (Option.some_ne_none _ h).elim, ?_⟩, fun r' h => by cases h; exact h2⟩
    rintro ⟨-, x, y, rfl, rfl, h4⟩
    exfalso
    have := hk x y rfl rfl
    omega

/-- **C11** for multiplication of well-formed numbers, exact: it panics only with overflow checks and only
for integers of the same sign whose product exceeds `u64` (both non-negative) or `i64` (both
negative); otherwise the result is finite. -/
theorem C11_mul_partial (bd : Build) (a b : N) (ha : WellFormed a) (hb : WellFormed b) :
    (N.mul bd a b = none ↔ bd = .debug ∧ ∃ x y : Int, a = ofInteger x ∧ b = ofInteger y ∧
      ((0 ≤ x ∧ 0 ≤ y ∧ 2 ^ 64 ≤ x * y) ∨ (x < 0 ∧ y < 0 ∧ 2 ^ 63 ≤ x * y))) ∧
    (∀ r, N.mul bd a b = some r → (value r).isSome = true) := by
  rcases kinds_int ha hb with ⟨x, y, hx, hy, hx', hy', rfl, rfl⟩ | ⟨x, y, hx, hy, hx', hy', rfl, rfl⟩ | ⟨hk, hc⟩
  · constructor
    · simp only [N.mul, coerce_ofInteger, not_lt.2 hx, not_lt.2 hy, if_false, Option.map_eq_none_iff,
        u64Result_none, Int.toNat_of_nonneg hx, Int.toNat_of_nonneg hy]
      have hp : 0 ≤ x * y := Int.mul_nonneg hx hy
      apply and_congr_right; intro _
      constructor
      · intro h2
        exact ⟨x, y, rfl, rfl, Or.inl ⟨hx, hy, by omega⟩⟩
      · rintro ⟨x', y', h2, h3, h4⟩
        rw [← ofInteger_inj h2, ← ofInteger_inj h3] at h4; omega
    · simp only [N.mul, coerce_ofInteger, not_lt.2 hx, not_lt.2 hy, if_false, Option.map_eq_some_iff]
      rintro r ⟨n, -, rfl⟩; rfl
  · constructor
    · simp only [N.mul, coerce_ofInteger, hx, hy, if_true, Option.map_eq_none_iff, i64Result_none]
      have hp : 0 ≤ x * y := (Int.mul_pos_of_neg_of_neg hx hy).le
      apply and_congr_right; intro _
      constructor
      · intro h2
        exact ⟨x, y, rfl, rfl, Or.inr ⟨hx, hy, by omega⟩⟩
      · rintro ⟨x', y', h2, h3, h4⟩
        rw [← ofInteger_inj h2, ← ofInteger_inj h3] at h4; omega
    · simp only [N.mul, coerce_ofInteger, hx, hy, if_true, Option.map_eq_some_iff]
      rintro r ⟨n, -, rfl⟩; rw [value_ofI64]; rfl
  · obtain ⟨r, h1, h2⟩ := fromFinite_finite (bd := bd) (mul_finite ha hb)
    simp only [N.mul, hc, h1]
    refine ⟨⟨fun h => (Option.some_ne_none _ h).elim, ?_⟩, fun r' h => by cases h; exact h2⟩
    rintro ⟨-, x, y, rfl, rfl, h4⟩
    exfalso
    have := hk x y rfl rfl
    omega

/-- **C11** for division of well-formed numbers: division by a nonzero *integer* never panics and is
finite. Missing: zero divisors, and fractional divisors so small that the quotient overflows
(both fail, see above). -/
theorem C11_div_partial (bd : Build) (a : N) (y : Int) (ha : WellFormed a) (hy : Fits y) (h0 : y ≠ 0) :
    ∃ r, N.div bd a (ofInteger y) = some r ∧ (value r).isSome = true := by
  simp only [Fits] at hy
  simp only [N.div, toF64_ofInteger]
  apply fromFinite_finite
  have hfa := wf_toF64_finite ha
  have hfy := F64.ofInt_finite (i := y) (by omega)
  have hy1 : 1 ≤ |(F64.ofInt y).toRat| := by
    rcases lt_or_gt_of_ne h0 with h | h
    · have := F64.ofInt_le (i := y) (k := 0) (by omega) (by omega)
      simp at this; rw [abs_of_nonpos (by linarith)]; linarith
    · have := F64.ofInt_ge (i := y) (k := 0) (by omega) (by omega)
      simp at this; exact this.trans (le_abs_self _)
  have hax := wf_abs_le ha
  generalize a.toF64 = x at *
  generalize F64.ofInt y = z at *
  cases x <;> simp [F64.isFinite] at hfa
  cases z <;> simp [F64.isFinite] at hfy
  rename_i s m e t n f
  have ax : |F64.toRat (.fin s m e)| = m * 2 ^ e := by
    rw [F64.toRat, abs_mul, abs_of_pos (F64.two_zpow_pos e)]; congr 1; cases s <;> simp [F64.sm]
  have az : |F64.toRat (.fin t n f)| = n * 2 ^ f := by
    rw [F64.toRat, abs_mul, abs_of_pos (F64.two_zpow_pos f)]; congr 1; cases t <;> simp [F64.sm]
  rw [ax] at hax
  rw [az] at hy1
  have hn : n ≠ 0 := by
    rintro rfl; simp at hy1; linarith
  have hn' : 0 < n := Nat.pos_of_ne_zero hn
  have hnq : (0 : ℚ) < n := by exact_mod_cast hn'
  simp only [F64.div, if_neg hn]
  have hq : (m : ℚ) * 2 ^ e / (n * 2 ^ f) < 2 ^ (1023 : Int) := by
    rw [div_lt_iff₀ (by positivity)]
    have h5 : (2 : ℚ) ^ (64 : Int) < 2 ^ (1023 : Int) := zpow_lt_zpow_right₀ (by norm_num) (by norm_num)
    have h6 : (0 : ℚ) < 2 ^ (1023 : Int) := by exact F64.two_zpow_pos _
    calc (m : ℚ) * 2 ^ e ≤ 2 ^ (64 : Int) := hax
      _ < 2 ^ (1023 : Int) := h5
      _ = 2 ^ (1023 : Int) * 1 := (mul_one _).symm
      _ ≤ 2 ^ (1023 : Int) * (n * 2 ^ f) := mul_le_mul_of_nonneg_left hy1 h6.le
  split
  · rename_i hef
    apply F64.round_finite hn'
    push_cast; rw [F64.zpow_toNat (by omega), zpow_sub₀ (by norm_num)]
    refine lt_of_eq_of_lt ?_ hq
    field_simp
  · rename_i hef
    apply F64.round_finite (by positivity)
    push_cast; rw [F64.zpow_toNat (by omega), zpow_sub₀ (by norm_num)]
    refine lt_of_eq_of_lt ?_ hq
    field_simp

/-- **C11** for the remainder of integers of the same sign, exact: it panics only for a zero divisor or
`-2^63 % -1`; otherwise the result is the remainder with the sign of the dividend. -/
theorem C11_rem_partial (bd : Build) (x y : Int) (fx : Fits x) (fy : Fits y)
    (hs : (0 ≤ x ∧ 0 ≤ y) ∨ (x < 0 ∧ y < 0)) :
    (N.rem bd (ofInteger x) (ofInteger y) = none ↔ y = 0 ∨ (x = -2 ^ 63 ∧ y = -1)) ∧
    (∀ r, N.rem bd (ofInteger x) (ofInteger y) = some r → value r = some ((Int.tmod x y : Int) : ℚ)) := by
  rcases hs with ⟨hx, hy⟩ | ⟨hx, hy⟩
  · simp only [N.rem, coerce_ofInteger, not_lt.2 hx, not_lt.2 hy, if_false]
    by_cases h : y = 0
    · subst h; simp
    · rw [if_neg (by omega)]
      constructor
      · constructor
        · intro h; cases h
        · omega
      · intro r hr; cases hr
        simp only [value, Option.some.injEq]
        have : ((x.toNat % y.toNat : Nat) : Int) = Int.tmod x y := by
          rw [Int.tmod_eq_emod_of_nonneg hx]; push_cast
          rw [Int.toNat_of_nonneg hx, Int.toNat_of_nonneg hy]
        rw [← this]; norm_cast
  · simp only [N.rem, coerce_ofInteger, hx, hy, if_true]
    rw [if_neg (by omega)]
    by_cases h : x = -2 ^ 63 ∧ y = -1
    · rw [if_pos h]
      refine ⟨⟨fun _ => Or.inr h, fun _ => rfl⟩, fun r h => by cases h⟩
    · rw [if_neg h]
      refine ⟨⟨fun h => (by cases h), ?_⟩, fun r h => (by cases h; rfl)⟩
      rintro (h' | h')
      · omega
      · exact absurd h' h

example : Fits 7 ∧ Fits (-7) ∧ WellFormed (ofInteger (-7)) := by
  refine ⟨by decide, by decide, by simp [ofInteger, WellFormed]⟩

/-! ### C12 -/

/-- **C12**: `as_u64` returns `k` only if the number denotes `k`, and only a `u64`. -/
theorem C12_as_u64 (n : N) (k : Nat) (hr : n.InRange) (h : N.asU64 n = some k) :
    value n = some (k : ℚ) ∧ k < 2 ^ 64 := by
  cases n with
  | posInt m => simp only [N.asU64, Option.some.injEq] at h; subst h; exact ⟨rfl, hr⟩
  | negInt i =>
    simp only [N.asU64] at h
    split at h
    · simp only [Option.some.injEq] at h
      simp only [N.InRange] at hr
      refine ⟨?_, by omega⟩
      simp only [value, Option.some.injEq]
      have : i = (k : Int) := by omega
      rw [this]; norm_cast
    · cases h
  | float x => cases h

/-- **C12**: `as_i64` returns `k` only if the number denotes `k`, and only an `i64`. -/
theorem C12_as_i64 (n : N) (k : Int) (hr : n.InRange) (h : N.asI64 n = some k) :
    value n = some (k : ℚ) ∧ -2 ^ 63 ≤ k ∧ k < 2 ^ 63 := by
  cases n with
  | posInt m =>
    simp only [N.asI64] at h
    split at h
    · simp only [Option.some.injEq] at h; subst h
      refine ⟨by simp [value], by omega, by omega⟩
    · cases h
  | negInt i => simp only [N.asI64, Option.some.injEq] at h; subst h; exact ⟨rfl, hr⟩
  | float x => cases h

/-- **C12**: every well-formed number denoting a whole number in range is returned by the accessor. -/
theorem C12_accessors_complete (n : N) (z : Int) (hn : WellFormed n) (hv : value n = some (z : ℚ)) :
    (0 ≤ z → N.asU64 n = some z.toNat) ∧ (z < 2 ^ 63 → N.asI64 n = some z) := by
  cases n with
  | posInt m =>
    simp only [value, Option.some.injEq] at hv
    have hm : (m : Int) = z := by exact_mod_cast hv
    subst hm
    refine ⟨fun _ => by simp [N.asU64], fun h => ?_⟩
    simp only [N.asI64]; rw [if_pos (by omega)]
  | negInt i =>
    simp only [value, Option.some.injEq, Int.cast_inj] at hv
    subst hv
    simp only [WellFormed] at hn
    exact ⟨fun h => by omega, fun _ => rfl⟩
  | float x =>
    exfalso
    obtain ⟨h1, h2, h3⟩ := hn
    cases x <;> simp [F64.isFinite] at h2
    simp only [value, F64.toRat?_fin, Option.some.injEq] at hv
    rw [F64.noFraction_iff.2 ⟨z, hv⟩] at h3; cases h3

/-- **C12**: `From<u64>`/`From<i64>` followed by the accessor returns the integer. -/
theorem C12_from_as (z : Int) :
    (0 ≤ z → N.asU64 (ofInteger z) = some z.toNat) ∧
    (z < 2 ^ 63 → N.asI64 (ofInteger z) = some z) := by
  by_cases h : z < 0
  · simp only [ofInteger, h, if_true]
    exact ⟨fun h => by omega, fun _ => rfl⟩
  · simp only [ofInteger, h, if_false]
    refine ⟨fun _ => rfl, fun h' => ?_⟩
    simp only [N.asI64]
    rw [if_pos (by omega), Int.toNat_of_nonneg (by omega)]

/-- Beyond C12: the documentation of `is_i64` ("true if the `Number` is an integer between `i64::MIN`
and `i64::MAX`", `number.rs:294-300`) is false of the code for every non-negative integer. -/
theorem C12_is_i64_doc_fails (z : Int) (h0 : 0 ≤ z) : N.isI64 (ofInteger z) = false := by
  simp [ofInteger, not_lt.2 h0, N.isI64]

example : WellFormed (ofInteger 42) ∧ value (ofInteger 42) = some ((42 : Int) : ℚ) := by
  exact ⟨by simp [ofInteger, WellFormed], value_ofInteger 42⟩

end Verif.Props
