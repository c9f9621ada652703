import Verif.Lemmas.Reformat
import Verif.Props.Parse
import Verif.Props.Roundtrip
/-! C82: reading a document, formatting what was read and reading the result gives the same content.

`Spec/Reformat.lean` says which contents. C51 requires of what is formatted that it is well formed: that names are
identifiers, attributes are different, operands need no parentheses. Here nothing of this is required, because it is
shown of everything that can be read. What is left are the places where the formatter does not keep the content (see the
`_fails` theorems here and of C51). -/

namespace Verif.Props
open P Gram Spec Syn

/-- Documents. -/
theorem C82_body_partial (E : FmtEnv) (bd : Build) (cfg : FmtCfg) (hi : Gap false cfg.indent) (s : Str) (b : EBody)
    (h : parseBody ⟨E.U, bd⟩ s = .ok b) (ht : TameBody E bd cfg (toHclBody E b)) :
    ∃ b', parseBody ⟨E.U, bd⟩ (formatBody E cfg (toHclBody E b)) = .ok b' ∧ MeansBody E.U bd b' (toHclBody E b) ∧
      (noTemplateBody (toHclBody E b) = true → toHclBody E b' = toHclBody E b) := by
  obtain ⟨b₀, h1, rfl⟩ := C17_body_partial ⟨E.U, bd⟩ s b h
  obtain ⟨b', h2, h3, h4⟩ := C51_body_partial E bd cfg true hi _ (h1.tame ht)
  exact ⟨b', h2, h3, h4 E⟩

/-- Expressions. -/
theorem C82_expr_partial (E : FmtEnv) (bd : Build) (cfg : FmtCfg) (hi : Gap false cfg.indent) (s : Str) (e : EExpr)
    (h : parseExpr ⟨E.U, bd⟩ s = .ok e) (ht : Spec.Tame E bd cfg (toHcl E e)) :
    ∃ e', parseExpr ⟨E.U, bd⟩ (formatExpr E cfg (toHcl E e)) = .ok e' ∧ Means E.U bd e' (toHcl E e) ∧
      (noTemplate (toHcl E e) = true → toHcl E e' = toHcl E e) := by
  obtain ⟨e₀, h1, -, rfl⟩ := C17_expr_partial ⟨E.U, bd⟩ s e h
  obtain ⟨e', h2, h3, h4⟩ := C51_expr_partial E bd cfg true hi _ (h1.tame ht)
  exact ⟨e', h2, h3, h4 E⟩

/-- So a formatted document is not changed by formatting it again. -/
theorem C82_idempotent_partial (E : FmtEnv) (bd : Build) (cfg : FmtCfg) (hi : Gap false cfg.indent) (s t : Str) (b : EBody)
    (h : parseBody ⟨E.U, bd⟩ s = .ok b) (ht : TameBody E bd cfg (toHclBody E b)) (hn : noTemplateBody (toHclBody E b) = true)
    (hf : t = formatBody E cfg (toHclBody E b)) :
    ∃ b', parseBody ⟨E.U, bd⟩ t = .ok b' ∧ formatBody E cfg (toHclBody E b') = t := by
  obtain ⟨b', h2, -, h4⟩ := C82_body_partial E bd cfg hi s b h ht
  exact ⟨b', hf ▸ h2, by rw [h4 hn, hf]⟩

/-! ### The hypotheses hold -/

private theorem indent_default : Gap false FmtCfg.default.indent := .blank (.inl rfl) (.blank (.inl rfl) .nil)

private def Ea : FmtEnv := ⟨.ascii, fun _ => c!"1.0"⟩

/-- What is read from a text. -/
private def content (text : Str) : Option (List Struct) :=
  match parseBody ⟨.ascii, .release⟩ text with
  | .ok b => some (toHclBody Ea b)
  | _ => none

private theorem content_some {text : Str} {ss : List Struct} (h : content text = some ss) :
    ∃ b, parseBody ⟨.ascii, .release⟩ text = .ok b ∧ toHclBody Ea b = ss := by
  unfold content at h
  split at h
  · rename_i b hb
    exact ⟨b, hb, Option.some.inj h⟩
  · cases h

private def exText : Str := c!"/* c */ a = [ -1,\n x . y]# d\nb \"l\" { c = { d = !y } }"

private def exContent : List Struct :=
  [.attr c!"a" (.array [.number (.negInt (-1)), .traversal (.var c!"x") [.getAttr c!"y"]]),
   .block c!"b" [.string c!"l"] [.attr c!"c" (.object [(.ident c!"d", .unary .not (.var c!"y"))])]]

private theorem exText_reads : content exText = some exContent := by
  have : (match content exText with
    | some [.attr a (.array [.number (.negInt i), .traversal (.var x) [.getAttr y]]),
       .block b [.string l] [.attr c (.object [(.ident d, .unary .not (.var z))])]] =>
      a == c!"a" && i == -1 && x == c!"x" && y == c!"y" && b == c!"b" && l == c!"l" && c == c!"c" && d == c!"d" && z == c!"y"
    | _ => false) = true := by decide +kernel
  split at this
  · rename_i h
    rw [h]
    simp only [Bool.and_eq_true, beq_iff_eq] at this
    obtain ⟨⟨⟨⟨⟨⟨⟨⟨rfl, rfl⟩, rfl⟩, rfl⟩, rfl⟩, rfl⟩, rfl⟩, rfl⟩, rfl⟩ := this
    rfl
  · cases this

private theorem exContent_tame : TameBody Ea .release FmtCfg.default exContent := by
  have hs : StringSafe c!"l" := by
    rintro a c d b h - - -
    have : '{' ∈ c!"l" := by rw [h]; simp
    exact absurd this (by decide)
  have hn : NumberSafe Ea .release (.negInt (-1)) := ⟨by decide, by omega, nofun⟩
  refine ⟨⟨⟨hn, ⟨trivial, ⟨trivial, trivial⟩, fun _ => rfl⟩, trivial⟩, rfl⟩,
    ⟨?_, ⟨⟨⟨trivial, trivial, trivial⟩, rfl, ?_, trivial⟩, trivial⟩⟩, trivial⟩
  · intro s hs'
    simp only [List.mem_cons, List.not_mem_nil, or_false, Label.string.injEq] at hs'
    exact hs' ▸ hs
  · unfold KeysApart
    exact List.pairwise_singleton ..

/-- A document with comments, a line break in an array and a block on one line: it is formatted without comments and in
several lines, and has the same content. -/
theorem C82_example : ∃ b b', parseBody ⟨.ascii, .release⟩ exText = .ok b ∧
    formatBody Ea .default (toHclBody Ea b) = c!"a = [\n  -1,\n  x.y\n]\n\nb \"l\" {\n  c = {\n    d = !y\n  }\n}\n" ∧
    parseBody ⟨.ascii, .release⟩ (formatBody Ea .default (toHclBody Ea b)) = .ok b' ∧ toHclBody Ea b' = toHclBody Ea b := by
  obtain ⟨b, h1, h2⟩ := content_some exText_reads
  obtain ⟨b', h3, -, h4⟩ := C82_body_partial Ea .release .default indent_default exText b h1 (h2 ▸ exContent_tame)
  refine ⟨b, b', h1, ?_, h3, h4 ?_⟩
  · rw [h2]; decide +kernel
  · rw [h2]; rfl

/-! ### Where the full property fails -/

/-- What is read from the formatted text. -/
private def again (text : Str) : Option (List Struct) :=
  match parseBody ⟨.ascii, .release⟩ text with
  | .ok b => content (formatBody Ea .default (toHclBody Ea b))
  | _ => none

/-- A document whose content is changed: the element 0 of the number 1 becomes the number 1.0, which is read as 1. -/
theorem C82_changes_fails : (match content c!"a = 1 .0\n" with
      | some [.attr _ (.traversal (.number (.posInt m)) [.legacyIndex n])] => m == 1 && n == 0
      | _ => false) = true ∧
    (match again c!"a = 1 .0\n" with
      | some [.attr _ (.number (.posInt m))] => m == 1
      | _ => false) = true := by
  decide +kernel

/-- Another one: `- -0` is the negation of the number -0, is written as `-0` and is read as the number -0. -/
theorem C82_minus_fails : (match content c!"a = - -0\n" with
      | some [.attr _ (.unary .neg (.number (.negInt m)))] => m == 0
      | _ => false) = true ∧
    (match again c!"a = - -0\n" with
      | some [.attr _ (.number (.negInt m))] => m == 0
      | _ => false) = true := by
  decide +kernel

/-- A document that is not valid any more. -/
theorem C82_valid_fails : (content c!"a = {b = [1], -1 = 2}\n").isSome = true ∧ (again c!"a = {b = [1], -1 = 2}\n").isNone = true := by
  decide +kernel

end Verif.Props
