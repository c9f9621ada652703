import Verif.Lemmas.ReformatTmpl
import Verif.Props.TemplateText
/-! C82 for templates: reading a template, displaying what was read and reading the result gives the same template.

C83 requires of a template that is displayed that no literal is empty, next to another one, or ends in the first
character of what follows it. Here nothing of this is required, because it is shown of every template that can be read. -/

namespace Verif.Props
open P Gram Spec Syn

/-- Templates. -/
theorem C82_template_partial (E : FmtEnv) (bd : Build) (cfg : FmtCfg) (hi : Gap false cfg.indent) (s : Str) (t : List EElem)
    (h : parseTemplate ⟨E.U, bd⟩ s = .ok t) (ht : TameElems E bd cfg (toHclElems E t)) :
    ∃ t', parseTemplate ⟨E.U, bd⟩ (formatTemplate E cfg (toHclElems E t)) = .ok t' ∧ MeansElems E.U bd t' (toHclElems E t) ∧
      (noTemplateElems (toHclElems E t) = true → toHclElems E t' = toHclElems E t) := by
  obtain ⟨t₀, rfl, h1, h2⟩ := parseTemplate_apart h
  obtain ⟨t', h3, h4, h5⟩ := C83_display_partial E bd cfg true hi _ (h1.shown rfl none h2 nofun ht)
  exact ⟨t', h3, h4, h5 E⟩

/-- So a displayed template is not changed by reading and displaying it again. -/
theorem C82_template_idempotent_partial (E : FmtEnv) (bd : Build) (cfg : FmtCfg) (hi : Gap false cfg.indent) (s u : Str)
    (t : List EElem) (h : parseTemplate ⟨E.U, bd⟩ s = .ok t) (ht : TameElems E bd cfg (toHclElems E t))
    (hn : noTemplateElems (toHclElems E t) = true) (hf : u = formatTemplate E cfg (toHclElems E t)) :
    ∃ t', parseTemplate ⟨E.U, bd⟩ u = .ok t' ∧ formatTemplate E cfg (toHclElems E t') = u := by
  obtain ⟨t', h2, -, h4⟩ := C82_template_partial E bd cfg hi s t h ht
  exact ⟨t', hf ▸ h2, by rw [h4 hn, hf]⟩

/-! ### The hypotheses hold -/

private theorem indent_default : Gap false FmtCfg.default.indent := .blank (.inl rfl) (.blank (.inl rfl) .nil)

private def Ea : FmtEnv := ⟨.ascii, fun _ => c!"1.0"⟩

/-- What is read from a text. -/
private def content (text : Str) : Option (List Elem) :=
  match parseTemplate ⟨.ascii, .release⟩ text with
  | .ok b => some (toHclElems Ea b)
  | _ => none

private theorem content_some {text : Str} {es : List Elem} (h : content text = some es) :
    ∃ t, parseTemplate ⟨.ascii, .release⟩ text = .ok t ∧ toHclElems Ea t = es := by
  unfold content at h
  split at h
  · rename_i t ht
    exact ⟨t, ht, Option.some.inj h⟩
  · cases h

private def exText : Str := c!"x ${a . b/* c */} $%{~ if a~}$ $%{else}y%{ endif }"

private def exContent : List Elem :=
  [.lit c!"x ", .interp (.traversal (.var c!"a") [.getAttr c!"b"]) .none, .lit c!" $",
   .ifDir (.var c!"a") [.lit c!"$ $"] (some [.lit c!"y"]) .both .none .none]

private theorem exText_reads : content exText = some exContent := by
  have : (match content exText with
    | some [.lit a, .interp (.traversal (.var b) [.getAttr c]) .none, .lit d,
       .ifDir (.var e) [.lit f] (some [.lit g]) .both .none .none] =>
      a == c!"x " && b == c!"a" && c == c!"b" && d == c!" $" && e == c!"a" && f == c!"$ $" && g == c!"y"
    | _ => false) = true := by decide +kernel
  split at this
  · rename_i h
    rw [h]
    simp only [Bool.and_eq_true, beq_iff_eq] at this
    obtain ⟨⟨⟨⟨⟨⟨rfl, rfl⟩, rfl⟩, rfl⟩, rfl⟩, rfl⟩, rfl⟩ := this
    rfl
  · cases this

private theorem safe_of (s : Str) (h : s.all (fun c => c ≠ '{') = true) : StringSafe s := by
  rintro a c d b rfl - - -
  simp at h

private theorem exContent_tame : TameElems Ea .release FmtCfg.default exContent :=
  ⟨safe_of _ (by decide), ⟨trivial, ⟨trivial, trivial⟩, nofun⟩, safe_of _ (by decide),
    ⟨trivial, ⟨safe_of _ (by decide), trivial⟩, safe_of _ (by decide), trivial⟩, trivial⟩

/-- A template with a comment, an `else` and literals that end in `$`: it is displayed without the comment, and is the
same template. -/
theorem C82_template_example : ∃ t t', parseTemplate ⟨.ascii, .release⟩ exText = .ok t ∧
    formatTemplate Ea .default (toHclElems Ea t) = c!"x ${a.b} $%{~ if a ~}$ $%{ else }y%{ endif }" ∧
    parseTemplate ⟨.ascii, .release⟩ (formatTemplate Ea .default (toHclElems Ea t)) = .ok t' ∧
    toHclElems Ea t' = toHclElems Ea t := by
  obtain ⟨t, h1, h2⟩ := content_some exText_reads
  obtain ⟨t', h3, -, h4⟩ := C82_template_partial Ea .release .default indent_default exText t h1 (h2 ▸ exContent_tame)
  refine ⟨t, t', h1, ?_, h3, h4 ?_⟩
  · rw [h2]; decide +kernel
  · rw [h2]; rfl

/-! ### Where the full property fails -/

/-- A literal with a marker that follows another `$`, after another marker, is changed: see C13. -/
theorem C82_template_fails :
    (match content c!"$${$$${" with
      | some [.lit s] => s == c!"${$${" && (match content (formatTemplate Ea .default [.lit s]) with
        | some [.lit u] => u != s
        | _ => true)
      | _ => false) = true := by
  decide +kernel

end Verif.Props
