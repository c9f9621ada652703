import Verif.Spec.EvalLoc
import Verif.Model.Convert
/-! What C76 talks about: the operations of numbers that panic, and an environment with the crate's parser. -/

namespace Verif.Spec
open Verif Gram

/-- The operation on two numbers panics: a sum, difference or product out of range, or a quotient that does not
exist or is out of range. -/
def Overflows (bd : Build) : BinOp → N → N → Prop
  | .plus, a, b => N.add bd a b = none
  | .minus, a, b => N.sub bd a b = none
  | .mul, a, b => N.mul bd a b = none
  | .div, a, b => N.div bd a b = none
  | .mod, a, b => N.rem bd a b = none
  | _, _, _ => False

/-- The expression is an operation on numbers that panics, in the given scope. -/
def Breaks (env : Env) (ctx : Ctx) : Expr → Prop
  | .unary .neg e => ∃ a, eval env ctx e = .ok (.number a) ∧ a.neg env.build = none
  | .binary l op r => ∃ a b, eval env ctx l = .ok (.number a) ∧ eval env ctx r = .ok (.number b) ∧
      Overflows env.build op a b
  | _ => False

/-- The templates are read by the crate's parser and converted as `Template::from_str` does. What the text of
an error is does not matter. -/
def ReadsTemplates (env : Env) (P : PEnv) (F : FmtEnv) : Prop :=
  ∀ t els, env.parseTemplate t = .ok els → ∃ es, parseTemplate P t = .ok es ∧ els = toHclElems F es

end Verif.Spec
