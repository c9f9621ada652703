import Verif.Model.Accessors
import Verif.Spec.Ser
import Verif.Props.NumberOrder
/-!
C88: what the accessors of a value say about it.
-/

namespace Verif.Spec
open Verif.Value

/-- The value is a number and stands for `q`. -/
def Counts (v : Value) (q : ℚ) : Prop := ∃ n, v = .number n ∧ value n = some q

private theorem inRange {n : N} (h : WellFormed n) : n.InRange := by
  cases n <;> first | exact h | exact ⟨h.1, by have := h.2; omega⟩ | exact h.1

/-- **C88**: an accessor for a kind of value gives the contents of exactly the values of that kind. -/
theorem C88_contents (v : Value) :
    (∀ u, v.asNull = some u ↔ v = .null) ∧ (∀ b, v.asBool = some b ↔ v = .bool b) ∧
    (∀ n, v.asNumber = some n ↔ v = .number n) ∧ (∀ s, v.asStr = some s ↔ v = .string s) ∧
    (∀ xs, v.asArray = some xs ↔ v = .array xs) ∧ (∀ es, v.asObject = some es ↔ v = .object es) := by
  cases v <;> simp [asNull, asBool, asNumber, asStr, asArray, asObject]

/-- **C88**: a value is of exactly one kind, and of this kind there are contents. -/
theorem C88_one_kind (v : Value) :
    [v.isNull, v.isBoolean, v.isNumber, v.isString, v.isArray, v.isObject].count true = 1 ∧
    (v.isNull = true ↔ v = .null) ∧ (v.isBoolean = true ↔ ∃ b, v = .bool b) ∧
    (v.isNumber = true ↔ ∃ n, v = .number n) ∧ (v.isString = true ↔ ∃ s, v = .string s) ∧
    (v.isArray = true ↔ ∃ xs, v = .array xs) ∧ (v.isObject = true ↔ ∃ es, v = .object es) := by
  cases v <;> simp [isNull, isBoolean, isNumber, isString, isArray, isObject, asNull, asBool, asNumber,
    asStr, asArray, asObject]

/-- **C88**: `as_u64` gives `k` exactly if the value is the integer `k`, and `is_u64` is true exactly for the
integers from zero to `u64::MAX`. -/
theorem C88_u64 {v : Value} (h : NumbersOk v) :
    (∀ k : Nat, v.asU64 = some k ↔ Counts v k) ∧
    (v.isU64 = true ↔ ∃ k : Nat, k < 2 ^ 64 ∧ Counts v k) := by
  cases v with
  | number n =>
    have key : ∀ k : Nat, N.asU64 n = some k ↔ value n = some (k : ℚ) := fun k =>
      ⟨fun e => (Props.C12_as_u64 n k (inRange h) e).1, fun e => by
        have := (Props.C12_accessors_complete n (k : Int) h (by exact_mod_cast e)).1 (by omega)
        simpa using this⟩
    refine ⟨fun k => ?_, ?_⟩
    · simp only [asU64, asNumber, Option.bind_some, key, Counts, Value.number.injEq, exists_eq_left']
    · simp only [isU64, asNumber, Option.any_some, Counts, Value.number.injEq, exists_eq_left']
      constructor
      · intro e
        cases n <;> simp [N.isU64] at e
        exact ⟨_, h, rfl⟩
      · rintro ⟨k, -, e⟩
        have := (key k).mpr e
        cases n with
        | posInt _ => rfl
        | negInt i =>
          simp only [N.asU64] at this
          have := h.2
          rw [if_neg (by omega)] at *
          contradiction
        | float _ => cases this
  | _ => simp [asU64, isU64, asNumber, Counts]

/-- **C88**: `as_i64` gives `k` exactly if the value is the integer `k` and this is an `i64`. Where `is_i64`
is true, there is an integer to get. Missing from the full claim, which is false (see below): that `is_i64`
is true for the integers that are not negative. -/
theorem C88_i64_partial {v : Value} (h : NumbersOk v) :
    (∀ k : Int, v.asI64 = some k ↔ Counts v k ∧ -2 ^ 63 ≤ k ∧ k < 2 ^ 63) ∧
    (v.isI64 = true ↔ ∃ k : Int, k < 0 ∧ Counts v k) ∧
    (v.isI64 = true → ∃ k : Int, v.asI64 = some k) := by
  cases v with
  | number n =>
    have key : ∀ k : Int, N.asI64 n = some k ↔ value n = some (k : ℚ) ∧ -2 ^ 63 ≤ k ∧ k < 2 ^ 63 := fun k =>
      ⟨fun e => Props.C12_as_i64 n k (inRange h) e, fun e =>
        (Props.C12_accessors_complete n k h e.1).2 e.2.2⟩
    refine ⟨fun k => ?_, ?_, ?_⟩
    · simp only [asI64, asNumber, Option.bind_some, key, Counts, Value.number.injEq, exists_eq_left']
    · simp only [isI64, asNumber, Option.any_some, Counts, Value.number.injEq, exists_eq_left']
      constructor
      · intro e
        cases n <;> simp [N.isI64] at e
        exact ⟨_, h.2, rfl⟩
      · rintro ⟨k, hk, e⟩
        have := (Props.C12_accessors_complete n k h e).2 (by omega)
        cases n with
        | posInt m =>
          simp only [N.asI64] at this
          split at this
          · cases this; omega
          · cases this
        | negInt _ => rfl
        | float _ => cases this
    · simp only [isI64, asI64, asNumber, Option.any_some, Option.bind_some]
      intro e
      cases n <;> simp [N.isI64] at e
      exact ⟨_, rfl⟩
  | _ => simp [asI64, isI64, asNumber, Counts]

/-- The full claim is false: `is_i64` is false for every integer that is not negative, although `as_i64` gives
it. -/
theorem C88_i64_fails (k : Nat) (h : k < 2 ^ 63) : NumbersOk (.number (.posInt k)) ∧
    (Value.number (.posInt k)).asI64 = some (k : Int) ∧ (Value.number (.posInt k)).isI64 = false :=
  ⟨show k < 2 ^ 64 by omega, by simp only [asI64, asNumber, Option.bind_some, N.asI64, if_pos h], rfl⟩

/-- **C88**: `is_f64` is true exactly for the numbers that are not integers, and for those `as_f64` gives the
value. -/
theorem C88_f64 {v : Value} (h : NumbersOk v) :
    (v.isF64 = true ↔ ∃ q, Counts v q ∧ ¬ ∃ k : Int, q = k) ∧
    (v.isF64 = true → ∃ x q, v.asF64 = some x ∧ Spec.F64.toRat? x = some q ∧ Counts v q) := by
  cases v with
  | number n =>
    simp only [isF64, asF64, asNumber, Option.any_some, Option.map_some, Counts, Value.number.injEq,
      exists_eq_left']
    cases n with
    | posInt m =>
      refine ⟨⟨nofun, ?_⟩, nofun⟩
      rintro ⟨q, e, hq⟩
      cases e
      exact absurd ⟨(m : Int), by simp⟩ hq
    | negInt i =>
      refine ⟨⟨nofun, ?_⟩, nofun⟩
      rintro ⟨q, e, hq⟩
      cases e
      exact absurd ⟨i, rfl⟩ hq
    | float x =>
      obtain ⟨h1, h2, h3⟩ := h
      cases x with
      | nan => cases h2
      | inf _ => cases h2
      | fin s m e =>
        refine ⟨⟨fun _ => ⟨_, F64.toRat?_fin s m e, ?_⟩, fun _ => rfl⟩,
          fun _ => ⟨_, _, rfl, F64.toRat?_fin s m e, F64.toRat?_fin s m e⟩⟩
        rintro hk
        rw [F64.noFraction_iff.2 hk] at h3
        cases h3
  | _ => simp [asF64, isF64, asNumber, Counts]

/-- **C88**: `take` gives the value and leaves null. -/
theorem C88_take (v : Value) : v.take.1 = v ∧ v.take.2.isNull = true := ⟨rfl, rfl⟩

/-! ### Values of these kinds -/

example : NumbersOk (.number (.negInt (-5))) ∧ (Value.number (.negInt (-5))).isI64 = true ∧
    Counts (.number (.negInt (-5))) ((-5 : Int) : ℚ) := ⟨by simp [NumbersOk, WellFormed], rfl, _, rfl, rfl⟩

example : NumbersOk (.number (.posInt (2 ^ 63))) ∧ (Value.number (.posInt (2 ^ 63))).asI64 = none ∧
    (Value.number (.posInt (2 ^ 63))).asU64 = some (2 ^ 63) :=
  ⟨by simp [NumbersOk, WellFormed], by simp [asI64, asNumber, N.asI64], rfl⟩

example : NumbersOk (.number (.float (.fin false (2 ^ 52) (-53)))) ∧
    (Value.number (.float (.fin false (2 ^ 52) (-53)))).isF64 = true := by
  refine ⟨⟨by simp [F64.Canonical], rfl, by decide +kernel⟩, rfl⟩

end Verif.Spec
