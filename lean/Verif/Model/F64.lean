import Verif.Basic
/-!
A concrete model of IEEE-754 binary64 (`f64`), computed over integers. It stands for the hardware /
standard library operations used by `crates/hcl-primitives/src/number.rs` and by
`f64::from_str` (`crates/hcl-edit/src/parser/number.rs:27`): correctly rounded to nearest, ties to
even. NaN payloads are not modelled.
-/

namespace Verif

/-- A double: NaN, an infinity, or `±m·2^e`. Finite values are kept canonical: `m < 2^53`,
`-1074 ≤ e ≤ 971` and (`2^52 ≤ m` or `e = -1074`). -/
inductive F64
  | nan
  | inf (neg : Bool)
  | fin (neg : Bool) (m : Nat) (e : Int)
  deriving DecidableEq, Repr

namespace F64

/-- Canonical representation of finite doubles. -/
def Canonical : F64 → Prop
  | fin _ m e => m < 2 ^ 53 ∧ -1074 ≤ e ∧ e ≤ 971 ∧ (2 ^ 52 ≤ m ∨ e = -1074)
  | _ => True

/-- `f64::is_finite`. -/
def isFinite : F64 → Bool
  | fin .. => true
  | _ => false

/-- `n / d` rounded to the nearest natural number, ties to even (`d > 0`). -/
def divRound (n d : Nat) : Nat :=
  let q := n / d
  let r := n % d
  if 2 * r < d then q else if d < 2 * r then q + 1 else if q % 2 = 0 then q else q + 1

/-- `n · 2^(-e) / d` rounded to the nearest natural number. -/
def scaleRound (n d : Nat) (e : Int) : Nat :=
  if 0 ≤ e then divRound n (d * 2 ^ e.toNat) else divRound (n * 2 ^ (-e).toNat) d

/-- The exponent of the unit in the last place for a value `n / d` (`n, d > 0`). -/
def ulpExp (n d : Nat) : Int :=
  let k : Int := (Nat.log2 n : Int) - (Nat.log2 d : Int)
  -- is `n / d ≥ 2^k`?
  let ge : Bool := if 0 ≤ k then decide (d * 2 ^ k.toNat ≤ n) else decide (d ≤ n * 2 ^ (-k).toNat)
  max (if ge then k - 52 else k - 53) (-1074)

/-- The double nearest to `±n/d` (`d > 0`). -/
def round (neg : Bool) (n d : Nat) : F64 :=
  if n = 0 then fin neg 0 (-1074)
  else
    let e := ulpExp n d
    let m := scaleRound n d e
    let (m, e) := if m = 2 ^ 53 then (2 ^ 52, e + 1) else (m, e)
    if 971 < e then inf neg else fin neg m e

/-- The double nearest to the integer `i` (Rust `i as f64`). -/
def ofInt (i : Int) : F64 := round (decide (i < 0)) i.natAbs 1

/-- The double nearest to `mant · 10^exp` (`f64::from_str` on a decimal literal). -/
def ofDecimal (mant : Nat) (exp : Int) : F64 :=
  if 0 ≤ exp then round false (mant * 10 ^ exp.toNat) 1
  else round false mant (10 ^ (-exp).toNat)

/-- `-x`. -/
def neg : F64 → F64
  | nan => nan
  | inf s => inf (!s)
  | fin s m e => fin (!s) m e

/-- Signed mantissa. -/
def sm (s : Bool) (m : Nat) : Int := if s then -(m : Int) else m

/-- The integer `sm · 2^(e - e0)` for `e0 ≤ e`. -/
def align (s : Bool) (m : Nat) (e e0 : Int) : Int := sm s m * 2 ^ (e - e0).toNat

/-- The double nearest to `i · 2^e`; an exact zero gets sign `zs`. -/
def roundDyadic (i : Int) (e : Int) (zs : Bool) : F64 :=
  if i = 0 then fin zs 0 (-1074)
  else if 0 ≤ e then round (decide (i < 0)) (i.natAbs * 2 ^ e.toNat) 1
  else round (decide (i < 0)) i.natAbs (2 ^ (-e).toNat)

/-- `x + y`. -/
def add : F64 → F64 → F64
  | nan, _ => nan
  | _, nan => nan
  | inf s, inf t => if s = t then inf s else nan
  | inf s, fin .. => inf s
  | fin .., inf t => inf t
  | fin s m e, fin t n f =>
    let e0 := min e f
    roundDyadic (align s m e e0 + align t n f e0) e0 (s && t)

/-- `x - y`. -/
def sub (x y : F64) : F64 := add x (neg y)

/-- `x * y`. -/
def mul : F64 → F64 → F64
  | nan, _ => nan
  | _, nan => nan
  | inf s, inf t => inf (s != t)
  | inf s, fin t n _ => if n = 0 then nan else inf (s != t)
  | fin s m _, inf t => if m = 0 then nan else inf (s != t)
  | fin s m e, fin t n f => roundDyadic (sm s m * sm t n) (e + f) (s != t)

/-- `x / y`. -/
def div : F64 → F64 → F64
  | nan, _ => nan
  | _, nan => nan
  | inf _, inf _ => nan
  | inf s, fin t _ _ => inf (s != t)
  | fin s _ _, inf t => fin (s != t) 0 (-1074)
  | fin s m e, fin t n f =>
    if n = 0 then (if m = 0 then nan else inf (s != t))
    else if f ≤ e then round (s != t) (m * 2 ^ (e - f).toNat) n
    else round (s != t) m (n * 2 ^ (f - e).toNat)

/-- `x % y` (C `fmod`: exact, sign of the dividend). -/
def rem : F64 → F64 → F64
  | nan, _ => nan
  | _, nan => nan
  | inf _, _ => nan
  | fin s m e, inf _ => fin s m e
  | fin s m e, fin t n f =>
    if n = 0 then nan
    else
      let e0 := min e f
      roundDyadic (Int.tmod (align s m e e0) (align t n f e0)) e0 s

/-- IEEE `x == y`. -/
def eq : F64 → F64 → Bool
  | nan, _ => false
  | _, nan => false
  | inf s, inf t => s == t
  | inf _, fin .. => false
  | fin .., inf _ => false
  | fin s m e, fin t n f =>
    let e0 := min e f
    align s m e e0 == align t n f e0

/-- IEEE `x < y`. -/
def lt : F64 → F64 → Bool
  | nan, _ => false
  | _, nan => false
  | inf s, inf t => s && !t
  | inf s, fin .. => s
  | fin .., inf t => !t
  | fin s m e, fin t n f =>
    let e0 := min e f
    decide (align s m e e0 < align t n f e0)

/-- `f64::partial_cmp`. -/
def partialCmp (x y : F64) : Option Ordering :=
  if lt x y then some .lt else if lt y x then some .gt else if eq x y then some .eq else none

/-- `x.fract() == 0.0`: the value is a whole number (`fract` of NaN and infinities is NaN). -/
def noFraction : F64 → Bool
  | fin _ m e => if 0 ≤ e then true else m % 2 ^ (-e).toNat == 0
  | _ => false

/-- `x as i64`: truncation, saturating; NaN becomes 0. -/
def toI64 : F64 → Int
  | nan => 0
  | inf s => if s then -2 ^ 63 else 2 ^ 63 - 1
  | fin s m e =>
    let t : Int := if 0 ≤ e then sm s m * 2 ^ e.toNat else sm s (m / 2 ^ (-e).toNat)
    if t < -2 ^ 63 then -2 ^ 63 else if 2 ^ 63 - 1 < t then 2 ^ 63 - 1 else t

example : ofInt 9007199254740993 = ofInt 9007199254740992 := by decide +kernel
example : add (ofDecimal 1 (-1)) (ofDecimal 2 (-1)) ≠ ofDecimal 3 (-1) := by decide +kernel
example : ofDecimal 15 (-1) = fin false (3 * 2 ^ 51) (-52) := by decide +kernel
example : ofDecimal 1 400 = inf false := by decide +kernel
-- `0.1` has the well-known bit pattern 0x3FB999999999999A
example : ofDecimal 1 (-1) = fin false 0x1999999999999A (-56) := by decide +kernel
-- the smallest positive double is 4.94e-324
example : ofDecimal 494 (-326) = fin false 1 (-1074) := by decide +kernel
example : ofDecimal 17976931348623157 292 = fin false (2 ^ 53 - 1) 971 := by decide +kernel
example : rem (ofDecimal 41 (-1)) (ofInt 2) = ofDecimal 9999999999999964 (-17) := by decide +kernel

end F64
end Verif
