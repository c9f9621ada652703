import Verif.Basic
/-!
Model of `crates/hcl-primitives/src/expr.rs` (operators) and of `Strip` in
`crates/hcl-primitives/src/template.rs`.
-/

namespace Verif

/-- `UnaryOperator`, `crates/hcl-primitives/src/expr.rs:12-17`. -/
inductive UnOp | neg | not
  deriving DecidableEq, Repr

/-- `BinaryOperator`, `crates/hcl-primitives/src/expr.rs:52-79`. -/
inductive BinOp
  | eq | notEq | lessEq | greaterEq | less | greater
  | plus | minus | mul | div | mod | and | or
  deriving DecidableEq, Repr

/-- `UnaryOperator::as_str`, `crates/hcl-primitives/src/expr.rs:21-26`. -/
def UnOp.asStr : UnOp → Str
  | .neg => c!"-"
  | .not => c!"!"

/-- `FromStr for UnaryOperator`, `crates/hcl-primitives/src/expr.rs:38-44`. -/
def UnOp.fromStr (s : Str) : Option UnOp :=
  if s = c!"-" then some .neg
  else if s = c!"!" then some .not
  else none

/-- `BinaryOperator::as_str`, `crates/hcl-primitives/src/expr.rs:83-99`. -/
def BinOp.asStr : BinOp → Str
  | .eq => c!"=="
  | .notEq => c!"!="
  | .lessEq => c!"<="
  | .greaterEq => c!">="
  | .less => c!"<"
  | .greater => c!">"
  | .plus => c!"+"
  | .minus => c!"-"
  | .mul => c!"*"
  | .div => c!"/"
  | .mod => c!"%"
  | .and => c!"&&"
  | .or => c!"||"

/-- `BinaryOperator::precedence`, `crates/hcl-primitives/src/expr.rs:102-114`. -/
def BinOp.precedence : BinOp → Nat
  | .mul | .div | .mod => 6
  | .plus | .minus => 5
  | .lessEq | .greaterEq | .less | .greater => 4
  | .eq | .notEq => 3
  | .and => 2
  | .or => 1

/-- `FromStr for BinaryOperator`, `crates/hcl-primitives/src/expr.rs:126-143`. -/
def BinOp.fromStr (s : Str) : Option BinOp :=
  if s = c!"==" then some .eq
  else if s = c!"!=" then some .notEq
  else if s = c!"<=" then some .lessEq
  else if s = c!">=" then some .greaterEq
  else if s = c!"<" then some .less
  else if s = c!">" then some .greater
  else if s = c!"+" then some .plus
  else if s = c!"-" then some .minus
  else if s = c!"*" then some .mul
  else if s = c!"/" then some .div
  else if s = c!"%" then some .mod
  else if s = c!"&&" then some .and
  else if s = c!"||" then some .or
  else none

/-- `Strip`, `crates/hcl-primitives/src/template.rs:24-36`. -/
inductive Strip | none | start | «end» | both
  deriving DecidableEq, Repr

/-- `Strip::strip_start`, `crates/hcl-primitives/src/template.rs:51-53`. -/
def Strip.stripStart : Strip → Bool
  | .start | .both => true
  | _ => false

/-- `Strip::strip_end`, `crates/hcl-primitives/src/template.rs:67-69`. -/
def Strip.stripEnd : Strip → Bool
  | .end | .both => true
  | _ => false

/-- `From<(bool, bool)> for Strip`, `crates/hcl-primitives/src/template.rs:73-80`. -/
def Strip.ofBools : Bool → Bool → Strip
  | true, true => .both
  | true, false => .start
  | false, true => .end
  | false, false => .none

end Verif
