import Verif.Lemmas.OneLine
import Verif.Lemmas.Canon
import Verif.Props.Parse
/-! C69: outside of brackets a line break ends an expression. -/

namespace Verif.Props
open Gram Spec

/-- Example environment. -/
private def E₀ : PEnv := ⟨.ascii, .release⟩

/-! The full property: an expression that is accepted has line breaks only inside of brackets, strings,
heredocs and comments. It does not hold: the parser goes on over line breaks behind a tuple, a call or a
`for` expression, and behind the `.` of an attribute access (`C69_tuple_fails`, `C69_dot_fails`). What is
proved: without any brackets, quotes, heredocs and block comments (and without whitespace behind a `.`)
there are no line breaks. `Bracketless` and `OneLine` are in `Spec/OneLine.lean`. -/

/-- An expression outside of brackets is on one line. -/
theorem C69_expression_partial (E : PEnv) (s : Str) (e : EExpr) (h : parseExpr E s = .ok e)
    (hf : Bracketless s) : OneLine s := by
  obtain ⟨e₀, h1, -, -⟩ := C17_expr_partial E s e h
  have := (h1.flat rfl (by rw [slice_all]; exact hf)).1
  rwa [slice_all] at this

/-- An attribute outside of brackets is on one line, at any depth of a document: its value does not go on
behind a line break. -/
theorem C69_attribute_partial (E : PEnv) (s : Str) (bm : Meta) (ss : List EStruct) (o om : Bool)
    (h : parseBody E s = .ok (.mk bm ss o om)) (m : Meta) (k : DIdent) (v : EExpr) (ha : HasAttr ss m k v) :
    ∃ a b, m.span = some ⟨a, b⟩ ∧ (Bracketless (slice s a b) → OneLine (slice s a b)) := by
  obtain ⟨b₀, h1, h2⟩ := C17_body_partial E s _ h
  obtain ⟨h1, -, -⟩ := h1
  unfold EBody.despan at h2
  injection h2 with _ h2
  subst h2
  exact h1.attrs.despan s m k v ha

/-- The parser goes on behind a tuple. -/
theorem C69_tuple_fails : ∃ e, parseExpr E₀ c!"[1]\n+ 2" = .ok e := ⟨_, rfl⟩
/-- The parser goes on behind a `.`. -/
theorem C69_dot_fails : ∃ e, parseExpr E₀ c!"a.\nb" = .ok e := ⟨_, rfl⟩

-- the hypotheses are met
example : Bracketless c!"!a.b.0 == -1.5e3 ? x : y" := by unfold Bracketless; decide +kernel
example : (parseExpr E₀ c!"!a.b.0 == -1.5e3 ? x : y").isOk = true := by decide +kernel
example : (parseBody E₀ c!"b {\n  a = 1 + 2\n  c = 3\n}\n").isOk = true := by decide +kernel
-- and a line break in such a place is an error
example : (parseExpr E₀ c!"a\n+ 2").isOk = false := by decide +kernel
example : (parseExpr E₀ c!"(a\n+ 2)").isOk = true := by decide +kernel
example : (parseBody E₀ c!"b {\n  a = 1 +\n  2\n}\n").isOk = false := by decide +kernel

end Verif.Props
