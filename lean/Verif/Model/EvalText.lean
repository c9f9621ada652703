import Verif.Model.Tool
import Verif.Model.Ser
/-!
Model of reading and writing documents with evaluation, `crates/hcl-rs/src/eval/mod.rs:439-476`, on top of the models of
the parser, of evaluation, of (de)serialization and of the formatter. Errors are not told apart.
-/

namespace Verif

/-- `eval::from_str`, `crates/hcl-rs/src/eval/mod.rs:452-459`, returns `Ok(d)` for the type `t`. -/
def EvalReads (L : Tool.Lib) (ctx : Ctx) (t : Ty) (text : Str) (d : Datum) : Prop :=
  ∃ b, parseBody ⟨L.E.U, L.build⟩ text = .ok b ∧
    ∃ b', evalBody ⟨eval L.env, evalTmpl L.env⟩ ctx (toHclBody L.E b) = .ok b' ∧ Spec.Deserializes L.E t (.doc b') d

/-- `hcl::to_string` of a body, `crates/hcl-rs/src/ser/mod.rs:396-404`, returns `Ok(text)`. `st` is the state of the
thread, which earlier calls have left behind. -/
def ToStringOf (L : Tool.Lib) (st : SerSt) (b : List Struct) (text : Str) : Prop :=
  ∃ ss, (serialize L.E .body (bodySVal b) st).1 = .body ss ∧ text = (Fmt.body L.E ss (Fmt.new .default)).out

/-- `eval::to_string` of a body, `crates/hcl-rs/src/eval/mod.rs:471-478`, returns `Ok(text)`. -/
def EvalWrites (L : Tool.Lib) (ctx : Ctx) (st : SerSt) (b : List Struct) (text : Str) : Prop :=
  ∃ b', evalBody ⟨eval L.env, evalTmpl L.env⟩ ctx b = .ok b' ∧ ToStringOf L st b' text

end Verif
