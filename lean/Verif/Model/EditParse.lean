import Verif.Model.EditParser
import Verif.Model.EditDespan
import Verif.Model.EditEncode
/-!
Model of the entry points `parse_expr`, `parse_template` and `parse_body`,
`crates/hcl-edit/src/parser/mod.rs:34-76`, and of the error location, `parser/error.rs:118-166`.
-/

namespace Verif
open P Gram

/-- The outcome of parsing: a value, an error with its offset in the input, a panic, or the model
running out of fuel (impossible, `C16`). -/
inductive Outcome (α : Type) where
  | ok (a : α)
  | err (offset : Nat)
  | panic
  | oof
deriving DecidableEq, Repr

/-- `Result::is_ok`. -/
def Outcome.isOk : Outcome α → Bool
  | .ok _ => true
  | _ => false

/-- The offset of an error. -/
def Outcome.errAt : Outcome α → Option Nat
  | .err n => some n
  | _ => none

/-- `parse_complete` and `winnow::Parser::parse` (external): the parser followed by the end of the
input; the offset of an error is where the parser stopped. The spans are then resolved by `despan`,
which panics if one is not in the input. -/
def parseComplete (p : P α) (raws : α → List Raw) (despan : α → α) (s : Str) : Outcome α :=
  match terminated p eof ⟨0, s⟩ with
  | .ok a _ => if (raws a).all (Raw.inInput s) then .ok (despan a) else .panic
  | .back i => .err i.pos
  | .cut i => .err i.pos
  | .panic => .panic
  | .oof => .oof

/-- The parsers for an input: recursion as deep as the input is long suffices. -/
def parsersFor (E : PEnv) (s : Str) : PRec := parsers E (s.length + 1)

/-- `parse_expr`, `crates/hcl-edit/src/parser/mod.rs:50-54`. -/
def parseExpr (E : PEnv) (s : Str) : Outcome EExpr :=
  parseComplete ((parsersFor E s).expr false) EExpr.raws (EExpr.despan s) s

/-- `parse_template`, `crates/hcl-edit/src/parser/mod.rs:61-65`. -/
def parseTemplate (E : PEnv) (s : Str) : Outcome (List EElem) :=
  parseComplete (parsersFor E s).template EExpr.rawsElems (EExpr.despanElems s) s

/-- `parse_body`, `crates/hcl-edit/src/parser/mod.rs:39-43`. -/
def parseBody (E : PEnv) (s : Str) : Outcome EBody :=
  parseComplete (parsersFor E s).body EBody.raws (EBody.despan s) s

end Verif
