import Mathlib.Data.Rat.Defs
import Mathlib.Algebra.Order.Field.Rat
import Mathlib.Algebra.Order.Field.Power
import Verif.Model.Number
/-! What a double and a `Number` denote: a rational number, or nothing. -/

namespace Verif.Spec
open Verif

/-- The rational number a finite double stands for. -/
def F64.toRat? : F64 → Option ℚ
  | .fin neg m e => some ((if neg then -1 else 1) * m * (2 : ℚ) ^ e)
  | _ => none

/-- The rational number a `Number` stands for. -/
def value : N → Option ℚ
  | .posInt n => some n
  | .negInt i => some i
  | .float x => F64.toRat? x

/-- The documented invariant of `Number` (`number.rs:33-39`): the negative variant is negative,
the float variant is finite; and, as established by `from_f64`, a float is never a whole number.
Every `Number` made by `From<integer>` or `from_f64` satisfies it. -/
def WellFormed : N → Prop
  | .posInt n => n < 2 ^ 64
  | .negInt i => -2 ^ 63 ≤ i ∧ i < 0
  | .float x => x.Canonical ∧ x.isFinite = true ∧ x.noFraction = false

/-- Representable in `u64` or `i64`. -/
def Fits (i : Int) : Prop := -2 ^ 63 ≤ i ∧ i < 2 ^ 64

instance (i : Int) : Decidable (Fits i) := by unfold Fits; infer_instance

/-- `Number::from(i)` for an `i64` or `u64` value `i`. -/
def ofInteger (i : Int) : N := if i < 0 then .negInt i else .posInt i.toNat

end Verif.Spec
