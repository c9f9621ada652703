import Verif.Model.From
import Verif.Spec.Ser
/-!
The specification of the conversions from Rust data: which data exists, and what object a list of pairs
stands for.
-/

namespace Verif.Spec

mutual
/-- The numbers in the data are numbers of their Rust types. -/
def Native.Ok : Native → Prop
  | .signed i => -2 ^ 63 ≤ i ∧ i < 2 ^ 63
  | .unsigned n => n < 2 ^ 64
  | .float x => x.Canonical
  | .number n => WellFormed n
  | .list xs => Native.OkAll xs
  | .pairs ps => Native.OkPairs ps
  | _ => True
termination_by structural x => x
/-- Those in the elements. -/
def Native.OkAll : List Native → Prop
  | [] => True
  | x :: xs => Native.Ok x ∧ Native.OkAll xs
termination_by structural x => x
/-- Those in the values of the pairs. -/
def Native.OkPairs : List (Str × Native) → Prop
  | [] => True
  | (_, x) :: ps => Native.Ok x ∧ Native.OkPairs ps
termination_by structural x => x
end

/-- `x` is the last of the pairs' values for the key `k`. -/
def LastFor {V : Type} (k : Str) (x : V) (ps : List (Str × V)) : Prop :=
  ∃ before after, ps = before ++ (k, x) :: after ∧ k ∉ after.map Prod.fst

/-- The names in the order in which each appears for the first time. -/
def firstSeen : List Str → List Str
  | [] => []
  | k :: ks => k :: (firstSeen ks).filter (· ≠ k)

end Verif.Spec
