import Verif.Spec.Eval
import Verif.Spec.Ident
import Verif.Spec.Printable
/-!
Specification vocabulary for C85: which errors are told apart by their messages.
-/

namespace Verif.Spec
open Verif

/-- The value has a text that can be read back (`Spec/Printable.lean`; C29). -/
def Legible (E : FmtEnv) (v : Value) : Prop := PrintableValue E .release .default v

/-- The function's name is made of identifiers. -/
def NameOk (U : Uni) (f : FuncName) : Prop := (∀ n ∈ f.namespaces, IsIdentifier U n) ∧ IsIdentifier U f.name

/-- The error of a call is one of the checks of the arguments, not the function's own. -/
def DefiniteCall (E : FmtEnv) : CallErr → Prop
  | .arity _ _ => True
  | .argType _ _ v => Legible E v
  | .varArgType _ _ v => Legible E v
  | .user _ => False

/-- The error contains no text from elsewhere: names are identifiers, keys and expectations have no backtick in
them, values can be read back. -/
def Definite (E : FmtEnv) : EvalErr → Prop
  | .message _ => False
  | .undefinedVar x => IsIdentifier E.U x
  | .undefinedFunc f => NameOk E.U f
  | .unexpected v expected => Legible E v ∧ '`' ∉ expected
  | .index _ => True
  | .unaryOp _ v => Legible E v
  | .binaryOp l _ r => Legible E l ∧ Legible E r
  | .noSuchKey k => '`' ∉ k
  | .keyExists k => '`' ∉ k
  | .funcCall f e => NameOk E.U f ∧ DefiniteCall E e

/-- The types allow the same values. -/
def SameType (t t' : ParamType) : Prop := ∀ v, InType t v ↔ InType t' v

/-- The same check failed, for the same reason. -/
inductive SameCall : CallErr → CallErr → Prop
  | arity (params args : Nat) : SameCall (.arity params args) (.arity params args)
  | argType (pos : Nat) {t t' : ParamType} (v : Value) : SameType t t' → SameCall (.argType pos t v) (.argType pos t' v)
  | varArgType (pos : Nat) {t t' : ParamType} (v : Value) : SameType t t' →
      SameCall (.varArgType pos t v) (.varArgType pos t' v)

/-- The same error. -/
inductive SameError : EvalErr → EvalErr → Prop
  | same (k : EvalErr) : SameError k k
  | funcCall (f : FuncName) {e e' : CallErr} : SameCall e e' → SameError (.funcCall f e) (.funcCall f e')

/-- The text made of these lines. -/
def unlines (ls : List Str) : Str := ls.flatMap fun l => l ++ c!"\n"

end Verif.Spec
