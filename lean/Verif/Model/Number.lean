import Verif.Model.F64
/-!
Model of `crates/hcl-primitives/src/number.rs`.

`u64` values are `Nat`, `i64` values are `Int`; the ranges are the separate predicate `N.InRange`.
Operations that can panic return `Option` (`none` = panic). Overflow of built-in integer
arithmetic panics when overflow checks are on (debug builds) and wraps otherwise, so the
operations take the build kind as a parameter.
-/

namespace Verif

/-- Build kind: with or without overflow checks and `debug_assert!`. -/
inductive Build
  | debug
  | release
  deriving DecidableEq, Repr

/-- `number.rs:33-39` `enum N` (and its wrapper `Number`, `number.rs:27-30`). -/
inductive N
  | posInt (n : Nat)
  | negInt (i : Int)
  | float (x : F64)
  deriving DecidableEq, Repr

/-- Reinterpretation of an integer as `i64` (two's complement wrap-around). -/
def wrapI64 (i : Int) : Int := (i + 2 ^ 63) % 2 ^ 64 - 2 ^ 63

/-- The result of a built-in `u64` operation whose mathematical result is `i`. -/
def u64Result (b : Build) (i : Int) : Option Nat :=
  if 0 ≤ i ∧ i < 2 ^ 64 then some i.toNat
  else match b with
    | .debug => none
    | .release => some (i % 2 ^ 64).toNat

/-- The result of a built-in `i64` operation whose mathematical result is `i`. -/
def i64Result (b : Build) (i : Int) : Option Int :=
  if -2 ^ 63 ≤ i ∧ i < 2 ^ 63 then some i
  else match b with
    | .debug => none
    | .release => some (wrapI64 i)

namespace N

/-- The values a Rust `N` can hold at all (`u64`, `i64`, `f64`). -/
def InRange : N → Prop
  | posInt n => n < 2 ^ 64
  | negInt i => -2 ^ 63 ≤ i ∧ i < 2 ^ 63
  | float x => x.Canonical

/-- `number.rs:153-162` `From<i64> for N`. -/
def ofI64 (i : Int) : N := if i < 0 then negInt i else posInt i.toNat

/-- `number.rs:42-59` `N::from_finite_f64` (with feature `std`). `none` = the `debug_assert!`
panics. -/
def fromFiniteF64 (b : Build) (x : F64) : Option N :=
  if b = .debug ∧ x.isFinite = false then none
  else if x.noFraction then some (ofI64 x.toI64) else some (float x)

/-- `number.rs:252-264` `Number::from_f64`. The outer `Option` is the returned `Option`. -/
def fromF64 (x : F64) : Option N :=
  if x.isFinite then (if x.noFraction then some (ofI64 x.toI64) else some (float x)) else none

/-- `number.rs:61-67` `N::as_i64` (`Number::as_i64`, `number.rs:274-276`). -/
def asI64 : N → Option Int
  | posInt n => if n < 2 ^ 63 then some n else none
  | negInt i => some i
  | float _ => none

/-- `number.rs:69-75` `N::as_u64` (`Number::as_u64`, `number.rs:280-282`). -/
def asU64 : N → Option Nat
  | posInt n => some n
  | negInt i => if 0 ≤ i then some i.toNat else none
  | float _ => none

/-- `number.rs:77-84` `N::to_f64` (`Number::as_f64`, `number.rs:268-270`). -/
def toF64 : N → F64
  | posInt n => F64.ofInt n
  | negInt i => F64.ofInt i
  | float x => x

/-- `number.rs:86-91` `N::is_f64`. -/
def isF64 : N → Bool
  | float _ => true
  | _ => false

/-- `number.rs:93-98` `N::is_i64`. -/
def isI64 : N → Bool
  | negInt _ => true
  | _ => false

/-- `number.rs:100-105` `N::is_u64`. -/
def isU64 : N → Bool
  | posInt _ => true
  | _ => false

/-- `number.rs:10-14` `CoerceResult`. -/
inductive Coerced
  | posInt (a b : Nat)
  | negInt (a b : Int)
  | float (a b : F64)

/-- `number.rs:17-24` `coerce`. -/
def coerce : N → N → Coerced
  | posInt a, posInt b => .posInt a b
  | negInt a, negInt b => .negInt a b
  | float a, float b => .float a b
  | a, b => .float a.toF64 b.toF64

/-- `number.rs:108-116` `PartialEq for N`. -/
def eq (a b : N) : Bool :=
  match coerce a b with
  | .posInt a b => a == b
  | .negInt a b => a == b
  | .float a b => F64.eq a b

/-- `number.rs:121-129` `PartialOrd for N`. -/
def partialCmp (a b : N) : Option Ordering :=
  match coerce a b with
  | .posInt a b => some (compare a b)
  | .negInt a b => some (compare a b)
  | .float a b => F64.partialCmp a b

/-- What `number.rs:131-151` feeds to the hasher: an 8-byte word, either the integer itself or the
bits of the float. The bits of a canonical finite float determine and are determined by its
representation, so they are modelled by the representation; `±0` are merged by the code. The
word of a `u64`, that of an `i64`, and that of a float could in principle coincide; they are kept
apart by a tag here, so equality of `hashInput` implies equality of hashes. -/
inductive HashInput
  | word (i : Int)
  | bits (x : F64)
  deriving DecidableEq, Repr

/-- `number.rs:131-151` `Hash for N`. `u64` and `i64` values hash as the same 64-bit word
(two's complement), here `i mod 2^64`. -/
def hashInput : N → HashInput
  | posInt n => .word (n % 2 ^ 64)
  | negInt i => .word (i % 2 ^ 64)
  | float x => if F64.eq x (F64.fin false 0 (-1074)) then .bits (F64.fin false 0 (-1074))
      else .bits x

/-- `number.rs:164-175` `Neg for N`. -/
def neg (b : Build) : N → Option N
  | posInt n => (i64Result b (-(wrapI64 n))).map negInt
  | negInt i => (i64Result b (-i)).map ofI64
  | float x => some (float x.neg)

/-- `number.rs:177-187` `Add for N`. -/
def add (bd : Build) (a b : N) : Option N :=
  match coerce a b with
  | .posInt a b => (u64Result bd (a + b)).map posInt
  | .negInt a b => (i64Result bd (a + b)).map negInt
  | .float a b => fromFiniteF64 bd (F64.add a b)

/-- `number.rs:189-206` `Sub for N`. -/
def sub (bd : Build) (a b : N) : Option N :=
  match coerce a b with
  | .posInt a b =>
    if b > a then (i64Result bd (wrapI64 a - wrapI64 b)).map negInt
    else (u64Result bd ((a : Int) - b)).map posInt
  | .negInt a b => (i64Result bd (a - b)).map ofI64
  | .float a b => fromFiniteF64 bd (F64.sub a b)

/-- `number.rs:208-218` `Mul for N`. -/
def mul (bd : Build) (a b : N) : Option N :=
  match coerce a b with
  | .posInt a b => (u64Result bd ((a : Int) * b)).map posInt
  | .negInt a b => (i64Result bd (a * b)).map ofI64
  | .float a b => fromFiniteF64 bd (F64.mul a b)

/-- `number.rs:220-226` `Div for N`. -/
def div (bd : Build) (a b : N) : Option N :=
  fromFiniteF64 bd (F64.div a.toF64 b.toF64)

/-- `number.rs:228-238` `Rem for N`. Integer remainder by zero panics in every build, and so does
`i64::MIN % -1` (built-in `%` always checks for it). -/
def rem (bd : Build) (a b : N) : Option N :=
  match coerce a b with
  | .posInt a b => if b = 0 then none else some (posInt (a % b))
  | .negInt a b =>
    if b = 0 then none
    else if a = -2 ^ 63 ∧ b = -1 then none
    else some (negInt (Int.tmod a b))
  | .float a b => fromFiniteF64 bd (F64.rem a b)

end N
end Verif
