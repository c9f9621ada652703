import Verif.Model.Value
/-!
Model of the accessors of `Value`, `crates/hcl-rs/src/value/mod.rs:36-200`. Those that give a mutable
reference find the same part of the value as the others. `as_array` and `as_object` are in `Model/Value.lean`.
-/

namespace Verif.Value

/-- `Value::as_bool`, `crates/hcl-rs/src/value/mod.rs:56-61`. -/
def asBool : Value → Option Bool
  | .bool b => some b
  | _ => none

/-- `Value::as_null`, `crates/hcl-rs/src/value/mod.rs:76-81`. -/
def asNull : Value → Option Unit
  | .null => some ()
  | _ => none

/-- `Value::as_number`, `crates/hcl-rs/src/value/mod.rs:85-90`. -/
def asNumber : Value → Option N
  | .number n => some n
  | _ => none

/-- `Value::as_str`, `crates/hcl-rs/src/value/mod.rs:112-117`. -/
def asStr : Value → Option Str
  | .string s => some s
  | _ => none

/-- `Value::as_f64`, `crates/hcl-rs/src/value/mod.rs:65-67`; `Number::as_f64` is never `None`. -/
def asF64 (v : Value) : Option F64 := v.asNumber.map N.toF64

/-- `Value::as_i64`, `crates/hcl-rs/src/value/mod.rs:71-73`. -/
def asI64 (v : Value) : Option Int := v.asNumber.bind N.asI64

/-- `Value::as_u64`, `crates/hcl-rs/src/value/mod.rs:121-123`. -/
def asU64 (v : Value) : Option Nat := v.asNumber.bind N.asU64

/-- `Value::is_array`, `crates/hcl-rs/src/value/mod.rs:130-132`. -/
def isArray (v : Value) : Bool := v.asArray.isSome
/-- `Value::is_boolean`, `crates/hcl-rs/src/value/mod.rs:138-140`. -/
def isBoolean (v : Value) : Bool := v.asBool.isSome
/-- `Value::is_number`, `crates/hcl-rs/src/value/mod.rs:160-162`. -/
def isNumber (v : Value) : Bool := v.asNumber.isSome
/-- `Value::is_null`, `crates/hcl-rs/src/value/mod.rs:168-170`. -/
def isNull (v : Value) : Bool := v.asNull.isSome
/-- `Value::is_object`, `crates/hcl-rs/src/value/mod.rs:177-179`. -/
def isObject (v : Value) : Bool := v.asObject.isSome
/-- `Value::is_string`, `crates/hcl-rs/src/value/mod.rs:185-187`. -/
def isString (v : Value) : Bool := v.asStr.isSome
/-- `Value::is_f64`, `crates/hcl-rs/src/value/mod.rs:146-148`. -/
def isF64 (v : Value) : Bool := v.asNumber.any N.isF64
/-- `Value::is_i64`, `crates/hcl-rs/src/value/mod.rs:155-157`. -/
def isI64 (v : Value) : Bool := v.asNumber.any N.isI64
/-- `Value::is_u64`, `crates/hcl-rs/src/value/mod.rs:193-195`. -/
def isU64 (v : Value) : Bool := v.asNumber.any N.isU64

/-- `Value::take`, `crates/hcl-rs/src/value/mod.rs:198-200`: the result, and what is left in its place. -/
def take (v : Value) : Value × Value := (v, .null)

end Verif.Value
