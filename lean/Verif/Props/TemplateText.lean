import Verif.Lemmas.TemplateText
import Verif.Props.Roundtrip
import Verif.Props.EvalTmpl
/-! C83: a template that is displayed can be read again.

`Display for Template` (`formatTemplate` with the default configuration), `Serialize for Template` (the same text) and
`Template::from_str` (the parser and the conversion) are composed. `Spec/TemplateText.lean` says for which templates; each
exclusion there is a place where the full property fails, see the `_fails` theorems. -/

namespace Verif.Props
open P Gram Spec Syn

/-- The text of a template parses to the template. -/
theorem C83_display_partial (E : FmtEnv) (bd : Build) (cfg : FmtCfg) (tm : Bool) (hi : Gap false cfg.indent) (t : List Elem)
    (h : ShownTemplate E bd cfg tm t) :
    ∃ v, parseTemplate ⟨E.U, bd⟩ (formatTemplate E cfg t) = .ok v ∧ MeansElems E.U bd v t ∧
      ∀ F, noTemplateElems t = true → toHclElems F v = t := by
  have ht : formatTemplate E cfg t = Render.template E cfg false 0 t := by
    unfold formatTemplate
    rw [Fmt.template_eq]
    rfl
  rw [ht]
  exact C61_template_partial ⟨E.U, bd⟩ t _ (template_spell hi t none h false 0)

/-- So different templates are displayed differently. -/
theorem C83_injective_partial (E : FmtEnv) (bd : Build) (cfg : FmtCfg) (hi : Gap false cfg.indent) (t u : List Elem)
    (ht : ShownTemplate E bd cfg true t) (hu : ShownTemplate E bd cfg true u) (nt : noTemplateElems t = true)
    (nu : noTemplateElems u = true) (h : formatTemplate E cfg t = formatTemplate E cfg u) : t = u := by
  obtain ⟨v, h1, -, h2⟩ := C83_display_partial E bd cfg true hi t ht
  obtain ⟨w, h3, -, h4⟩ := C83_display_partial E bd cfg true hi u hu
  rw [h, h3] at h1
  cases h1
  rw [← h2 E nt, ← h4 E nu]

/-- A template expression whose text is a displayed template evaluates to what the template evaluates to: to the value
of the expression, if the template is just an interpolation, and otherwise to the string. -/
theorem C83_eval_partial (E : FmtEnv) (bd : Build) (cfg : FmtCfg) (tm : Bool) (hi : Gap false cfg.indent) (env : Env) (ctx : Ctx)
    (hp : ∀ s v, parseTemplate ⟨E.U, bd⟩ s = .ok v → env.parseTemplate s = .ok (toHclElems E v))
    (t : List Elem) (h : ShownTemplate E bd cfg tm t) (hn : noTemplateElems t = true) (x : TmplExpr)
    (hx : x.asStr = formatTemplate E cfg t) :
    (∀ e s, t = [.interp e s] → eval env ctx (.template x) = eval env ctx e) ∧
    ((∀ e s, t ≠ [.interp e s]) → ∀ s,
      eval env ctx (.template x) = .ok (.string s) ↔ evalTmpl env ctx t .none .none = .ok s) := by
  obtain ⟨v, h1, -, h2⟩ := C83_display_partial E bd cfg tm hi t h
  have hp' : env.parseTemplate x.asStr = .ok t := by
    rw [hx, hp _ _ h1, h2 E hn]
  constructor
  · rintro e s rfl
    exact C43_unwrap env ctx x e s hp'
  · intro hn' s
    exact C43_template_expr env ctx x t hp' hn' s

/-! ### The hypotheses hold -/

private theorem indent_default : Gap false FmtCfg.default.indent := .blank (.inl rfl) (.blank (.inl rfl) .nil)

private def Ea : FmtEnv := ⟨.ascii, fun _ => c!"1.5"⟩

private theorem safe_of (s : Str) (h : s.all (fun c => c ≠ '{') = true) : StringSafe s := by
  rintro a c d b rfl - - -
  simp at h

private theorem safe_one : StringSafe c!"a${" := by
  rintro a c d b h - - ⟨k, l, r, hk, -⟩
  have := congrArg List.length h
  rw [hk] at this
  simp at this
  omega

private theorem ident_x : IsIdentifier Uni.ascii c!"x" :=
  ⟨_, [], rfl, idFirst_iff.mp (by decide), nofun⟩

/-- `a$${` (which is the text `a${`), an interpolation, and directives in each other. -/
private def tmpl : List Elem := [.lit c!"a${", .interp (.array [.var c!"x", .number (.posInt 1)]) .start, .lit c!"%",
  .interp (.var c!"x") .none,
  .ifDir (.bool true) [.lit c!"$\n"] (some [.forDir (some c!"x") c!"x" (.var c!"x") [] .both .none]) .end .both .none]

private theorem tmpl_shown : ShownTemplate Ea .release FmtCfg.default true tmpl := by
  have hx : c!"x" ∉ keywords := by decide
  refine ⟨⟨by decide, safe_one⟩, ?_, ⟨⟨⟨ident_x, hx⟩, (by decide : 1 < 2 ^ 64), trivial⟩, rfl⟩, nofun,
    ⟨by decide, safe_of _ (by decide)⟩, ?_, ⟨ident_x, hx⟩, nofun, ⟨trivial, ⟨⟨by decide, safe_of _ (by decide)⟩, ?_, trivial⟩,
      ⟨⟨?_, ident_x, ⟨ident_x, hx⟩, trivial⟩, nofun, trivial⟩, nofun⟩, nofun, trivial⟩
  · rintro s ⟨⟩; exact ⟨_, rfl, by decide⟩
  · rintro s ⟨⟩; exact ⟨_, rfl, by decide⟩
  · rintro s ⟨⟩ c ⟨⟩; decide
  · rintro y ⟨⟩; exact ident_x

/-- The theorem applies to this template, whose text is as follows. -/
theorem C83_example : formatTemplate Ea .default tmpl =
      c!"a$${${~[\n  x,\n  1\n]}%${x}%{ if true ~}$\n%{~ else ~}%{~ for x, x in x ~}%{ endfor }%{ endif }" ∧
    ∃ v, parseTemplate ⟨.ascii, .release⟩ (formatTemplate Ea .default tmpl) = .ok v ∧ toHclElems Ea v = tmpl := by
  obtain ⟨v, h1, -, h2⟩ := C83_display_partial Ea .release .default true indent_default tmpl tmpl_shown
  exact ⟨by decide +kernel, v, h1, h2 Ea rfl⟩

/-- So does the theorem about evaluation, with an environment that uses the parser. -/
example : (∀ e s, tmpl ≠ [.interp e s]) ∧ noTemplateElems tmpl = true ∧
    ∃ env : Env, ∀ s v, parseTemplate ⟨.ascii, .release⟩ s = .ok v → env.parseTemplate s = .ok (toHclElems Ea v) :=
  ⟨nofun, rfl, ⟨.release, .ascii, fun t => match parseTemplate ⟨.ascii, .release⟩ t with
    | .ok es => .ok (toHclElems Ea es)
    | _ => .error c!"no", fun _ => c!"v", fun _ => c!"n"⟩, fun s v h => by simp only [h]⟩

/-! ### Where the full property fails -/

/-- What is read from the text of a template. -/
private def reread (t : List Elem) : Option (List Elem) :=
  match parseTemplate ⟨.ascii, .release⟩ (formatTemplate Ea .default t) with
  | .ok v => some (toHclElems Ea v)
  | _ => none

/-- A literal that ends in `$` in front of an interpolation: `$${x}` is read as the text `${x}`. -/
theorem C83_dollar_fails : (match reread [.lit c!"$", .interp (.var c!"x") .none] with
    | some [.lit s] => s == c!"${x}"
    | _ => false) = true := by
  decide +kernel

/-- Two literals are read as one. -/
theorem C83_literals_fails : (match reread [.lit c!"a", .lit c!"b"] with
    | some [.lit s] => s == c!"ab"
    | _ => false) = true := by
  decide +kernel

/-- The text of two literals can even be a control sequence: `$` and `{x}`. -/
theorem C83_inject_fails : (match reread [.lit c!"$", .lit c!"{x}"] with
    | some [.interp (.var x) _] => x == c!"x"
    | _ => false) = true := by
  decide +kernel

/-- An empty literal is lost. -/
theorem C83_empty_fails : (match reread [.lit c!"", .interp (.var c!"x") .none] with
    | some [.interp (.var x) _] => x == c!"x"
    | _ => false) = true := by
  decide +kernel

/-- The strip markers of an `else` that does not exist are lost. -/
theorem C83_else_fails : (match reread [.ifDir (.var c!"x") [] none .none .both .none] with
    | some [.ifDir _ _ none _ j _] => j == .none
    | _ => false) = true := by
  decide +kernel

/-- A literal with a marker that follows another `$`, after another marker: see C13. -/
theorem C83_markers_fails : (match reread [.lit c!"${$${"] with
    | some [.lit s] => s == c!"${$${"
    | _ => false) = false := by
  decide +kernel

end Verif.Props
