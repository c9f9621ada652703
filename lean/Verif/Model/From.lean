import Verif.Model.InPlace
import Verif.Model.Ser
/-!
Model of the conversions of Rust data into `Value` and `Expression` with `From` and `FromIterator`
(`crates/hcl-rs/src/value/from.rs`, `crates/hcl-rs/src/expr/mod.rs`), and of how `serde` serializes the
same data.
-/

namespace Verif

/-- The Rust data that both `Value` and `Expression` have a conversion for:
`crates/hcl-rs/src/value/from.rs:4-99`, `crates/hcl-rs/src/expr/mod.rs:124-218`. A `&[T]` and an iterator
are a `Vec`; `f32` is the double it is widened to. -/
inductive Native
  | unit
  | bool (b : Bool)
  /-- `i8` to `i64`, `isize` -/
  | signed (i : Int)
  /-- `u8` to `u64`, `usize` -/
  | unsigned (n : Nat)
  | float (x : F64)
  | number (n : N)
  /-- `String`, `&str`, `Cow<str>` -/
  | str (s : Str)
  | list (xs : List Native)
  /-- an iterator of pairs, such as a map or a vector of pairs -/
  | pairs (ps : List (Str × Native))

mutual
/-- `From<_> for Value` and `FromIterator<_> for Value`, `crates/hcl-rs/src/value/from.rs:4-99`, with
`From<integer> for Number`, `crates/hcl-primitives/src/number.rs:324-355,372-373`. -/
def Native.intoValue : Native → Value
  | .unit => .null
  | .bool b => .bool b
  | .signed i => .number (N.ofI64 i)
  | .unsigned n => .number (.posInt n)
  | .float x => (N.fromF64 x).elim .null .number
  | .number n => .number n
  | .str s => .string s
  | .list xs => .array (Native.intoValues xs)
  | .pairs ps => .object (Map.collect (Native.intoEntries ps))
termination_by structural x => x
/-- `map(Into::into)`, `crates/hcl-rs/src/value/from.rs:69,75,81`. -/
def Native.intoValues : List Native → List Value
  | [] => []
  | x :: xs => x.intoValue :: Native.intoValues xs
termination_by structural x => x
/-- `map(|(k, v)| (k.into(), v.into()))`, `crates/hcl-rs/src/value/from.rs:89`. -/
def Native.intoEntries : List (Str × Native) → List (Str × Value)
  | [] => []
  | (k, x) :: ps => (k, x.intoValue) :: Native.intoEntries ps
termination_by structural x => x
end

mutual
/-- `From<_> for Expression` and `FromIterator<_> for Expression`,
`crates/hcl-rs/src/expr/mod.rs:124-218`. -/
def Native.intoExpr : Native → Expr
  | .unit => .null
  | .bool b => .bool b
  | .signed i => .number (N.ofI64 i)
  | .unsigned n => .number (.posInt n)
  | .float x => (N.fromF64 x).elim .null .number
  | .number n => .number n
  | .str s => .string s
  | .list xs => .array (Native.intoExprs xs)
  | .pairs ps => .object (objCollect (Native.intoItems ps))
termination_by structural x => x
/-- `map(Into::into)`, `crates/hcl-rs/src/expr/mod.rs:188,194,200`. -/
def Native.intoExprs : List Native → List Expr
  | [] => []
  | x :: xs => x.intoExpr :: Native.intoExprs xs
termination_by structural x => x
/-- `map(|(k, v)| (k.into(), v.into()))`, `crates/hcl-rs/src/expr/mod.rs:208`: the key by
`From<T> for ObjectKey`, lines 302-309. -/
def Native.intoItems : List (Str × Native) → List (ObjKey × Expr)
  | [] => []
  | (k, x) :: ps => (.expr (.string k), x.intoExpr) :: Native.intoItems ps
termination_by structural x => x
end

mutual
/-- What `Serialize` of the data does: the impls of `serde` (external) for the types of the standard
library, a map being serialized entry by entry, and `Serialize for Number`,
`crates/hcl-primitives/src/number.rs:401-412`. The serializers of this crate do not tell the widths of
signed integers apart. -/
def Native.sval : Native → SVal
  | .unit => .unit
  | .bool b => .bool b
  | .signed i => .int i
  | .unsigned n => .u64 n
  | .float x => .f64 x
  | .number n => (Value.number n).sval
  | .str s => .str s
  | .list xs => .seq (Native.svals xs)
  | .pairs ps => .map (Native.svalPairs ps)
termination_by structural x => x
/-- The elements of a sequence. -/
def Native.svals : List Native → List SVal
  | [] => []
  | x :: xs => x.sval :: Native.svals xs
termination_by structural x => x
/-- The entries of a map. -/
def Native.svalPairs : List (Str × Native) → List (SVal × SVal)
  | [] => []
  | (k, x) :: ps => (.str k, x.sval) :: Native.svalPairs ps
termination_by structural x => x
end

end Verif
