import Verif.Lemmas.PrintValue
import Verif.Props.Complete
import Verif.Props.Format
/-! C29 and C51: what the formatter writes is read back unchanged.

`Spec/Printable.lean` says for which expressions, bodies and values; each exclusion there is a place where
the full property fails or is not covered, see the `_fails` theorems. Missing from the full properties:
heredocs whose indentation was removed, and values with strings that look like templates. The text of a
template is compared by the elements it spells, see `Spec/Means.lean`. -/

namespace Verif.Props
open P Gram Spec Syn

/-- Expressions: the text of a printable expression parses to the same expression. -/
theorem C51_expr_partial (E : FmtEnv) (bd : Build) (cfg : FmtCfg) (tm : Bool) (hi : Gap false cfg.indent) (e : Expr)
    (h : Printable E bd cfg tm e) :
    ∃ v, parseExpr ⟨E.U, bd⟩ (formatExpr E cfg e) = .ok v ∧ Means E.U bd v e ∧
      ∀ F, noTemplate e = true → toHcl F v = e := by
  have ht : formatExpr E cfg e = Render.expr E cfg false 0 e := by
    unfold formatExpr
    rw [Fmt.expr_eq]
    rfl
  rw [ht]
  exact C61_expr_partial ⟨E.U, bd⟩ e _ (spell hi e h false false 0).full

/-- Bodies: the text of a printable body parses to the same body. -/
theorem C51_body_partial (E : FmtEnv) (bd : Build) (cfg : FmtCfg) (tm : Bool) (hi : Gap false cfg.indent) (ss : List Struct)
    (h : PrintableBody E bd cfg tm ss) :
    ∃ b, parseBody ⟨E.U, bd⟩ (formatBody E cfg ss) = .ok b ∧ MeansBody E.U bd b ss ∧
      ∀ F, noTemplateBody ss = true → toHclBody F b = ss := by
  have ht : formatBody E cfg ss = Render.body E cfg false 0 .initial ss ++ [] := by
    unfold formatBody
    rw [Fmt.body_eq]
    exact (List.append_nil _).symm
  rw [ht]
  exact C61_body_partial ⟨E.U, bd⟩ ss _ (.lines (body_text hi ss h.2 false 0 .initial .nil) h.1)

/-- Values: the text of a printable value parses to an expression that converts to the same value. -/
theorem C29_partial (E F : FmtEnv) (bd : Build) (cfg : FmtCfg) (hi : Gap false cfg.indent) (v : Value)
    (h : PrintableValue E bd cfg v) :
    ∃ w, parseExpr ⟨E.U, bd⟩ (formatValue E cfg v) = .ok w ∧ toValue E (toHcl F w) = v := by
  have ht : formatValue E cfg v = formatExpr E cfg (readBack E cfg v) := by
    unfold formatValue formatExpr
    rw [Fmt.value_eq, Fmt.expr_eq]
    exact readBack_text v h false 0
  rw [ht]
  obtain ⟨w, h1, -, h2⟩ := C51_expr_partial E bd cfg false hi _ (readBack_printable v h)
  exact ⟨w, h1, by rw [h2 F (printable_noTemplate _ (readBack_printable v h)), readBack_value v h]⟩

private theorem indent_default : Gap false FmtCfg.default.indent := .blank (.inl rfl) (.blank (.inl rfl) .nil)

private def Ea : FmtEnv := ⟨.ascii, fun _ => c!"1.5"⟩

private theorem safe_of (s : Str) (h : s.all (fun c => c ≠ '{') = true) : StringSafe s := by
  rintro a c d b rfl - - -
  simp at h

/-- The hypotheses hold: `{ "k\n" = [-1, x.y[0]], (a ? b : c) = f(1.5, !z...) }`. -/
example : Printable Ea .debug FmtCfg.default true (.object
    [(.expr (.string c!"k\n"), .array [.number (.negInt (-1)),
      .traversal (.var c!"x") [.getAttr c!"y", .index (.number (.posInt 0))]]),
     (.ident c!"l", .call ⟨[], c!"f"⟩ [.number (.float (F64.ofDecimal 15 (-1))), .unary .not (.var c!"z")] true)]) := by
  have hid : ∀ c : Char, isIdStart .ascii c = true → IsIdentifier .ascii [c] := fun c h => ⟨c, [], rfl, idFirst_iff.mp h, nofun⟩
  have hf : NumberSafe Ea .debug (.float (F64.ofDecimal 15 (-1))) := by
    refine .pos (.frac (i := c!"1") (f := c!"5") (x := []) (e := 0) ⟨nofun, by decide⟩ ⟨nofun, by decide⟩ (.inl ⟨rfl, rfl⟩) ?_)
    decide +kernel
  have hn : NumberSafe Ea .debug (.negInt (-1)) := ⟨by decide, by omega, fun _ => by omega⟩
  simp only [Printable, PrintableItems, PrintableList, PrintableKey, PrintableOps, PrintableOp]
  refine ⟨⟨⟨safe_of _ (by decide), rfl, nofun⟩, ⟨⟨hn, ⟨⟨hid _ rfl, by decide⟩, rfl, nofun, ⟨hid _ rfl, by unfold NumberSafe; omega, trivial⟩,
    fun _ => rfl⟩, trivial⟩, rfl⟩,
    ⟨hid _ rfl, by decide⟩, ⟨nofun, hid _ rfl, ⟨hf, ⟨⟨hid _ rfl, by decide⟩, rfl, nofun⟩, trivial⟩, nofun⟩, trivial⟩, rfl, ?_, ?_⟩
  · unfold KeysApart; decide
  · simp [ItemsSeparate, keyStartsOperator]

/-- A template: `["a${x}"]`. -/
example : Printable Ea .debug FmtCfg.default true (.array [.template (.quoted c!"a${x}")]) := by
  simp only [Printable, PrintableList]
  have h : ∀ q, Tmpl .ascii .debug q [.lit c!"a", .interp (.var c!"x") .none] c!"a${x}" := fun q => by
    refine .lit (x := c!"a") (v := c!"a") (t := c!"${x}") ?_ nofun (fun e he => by cases he; rfl) ?_ ?_
    · cases q
      · rfl
      · exact .char (by decide) (by decide) (by decide) .nil
    · rintro ⟨c, h1, h2, -⟩
      injection h2 with h2
      subst h2
      rcases h1 with h1 | h1 <;> cases h1
    · exact .control (x := c!"${x}") (t := []) (.interp (g := []) (t := c!"x") (h := []) .nil
        (.chain (.term (.atom (.var ⟨'x', [], rfl, idFirst_iff.mp rfl, nofun⟩ (by decide))))) .nil) .nil
  exact ⟨⟨⟨trivial, _, h false, h true, rfl⟩, trivial⟩, rfl⟩

/-- A heredoc in a function call. -/
example : Printable Ea .debug FmtCfg.default true (.call ⟨[], c!"f"⟩ [.template (.heredoc c!"E" c!"a\n b\n" .none), .null] false) := by
  simp only [Printable, PrintableList]
  have hid : ∀ c : Char, isIdStart .ascii c = true → IsIdentifier .ascii [c] := fun c h => ⟨c, [], rfl, idFirst_iff.mp h, nofun⟩
  refine ⟨nofun, hid _ rfl, ⟨⟨trivial, trivial, hid _ rfl, ⟨rfl, ?_⟩, [.lit c!"a\n b\n"], ?_⟩, trivial, trivial⟩, nofun⟩
  · rintro a l h - ⟨b, r, rfl, -⟩
    have : 'E' ∈ c!"a\n b\n" := by rw [h]; simp
    exact absurd this (by decide)
  · refine .lit (x := c!"a\n b\n") (t := []) rfl nofun nofun ?_ .nil
    rintro ⟨c, -, -, _, h⟩
    cases h

/-- A body with a nested block. -/
example : PrintableBody Ea .debug FmtCfg.default true
    [.attr c!"a" .null, .block c!"b" [.string c!"l", .ident c!"m"] [.attr c!"a" (.bool true), .block c!"b" [] []]] := by
  have hid : ∀ c : Char, isIdStart .ascii c = true → IsIdentifier .ascii [c] := fun c h => ⟨c, [], rfl, idFirst_iff.mp h, nofun⟩
  refine ⟨by decide, ?_⟩
  simp only [PrintableStructs, PrintableStruct, Printable]
  refine ⟨⟨hid _ rfl, trivial⟩, ⟨hid _ rfl, ?_, by decide, ⟨hid _ rfl, trivial⟩, ⟨hid _ rfl, nofun, by decide, trivial⟩, trivial⟩, trivial⟩
  intro l hl
  simp only [List.mem_cons, List.not_mem_nil, or_false] at hl
  rcases hl with rfl | rfl
  · exact safe_of _ (by decide)
  · exact hid _ rfl

/-- A value with keywords for keys and a string with a marker. -/
example : PrintableValue Ea .debug { FmtCfg.default with preferIdentKeys := true }
    (.object [(c!"null", .array [.number (.posInt 1), .string c!"$${\"\n"]), (c!"for", .object []), (c!"", .bool true)]) := by
  simp only [PrintableValue, PrintableValues, PrintableEntries, firstKeyFor]
  have h1 : StringSafe c!"$${\"\n" := by
    rintro a c d b h hc hd ⟨x, s, y, rfl, hs⟩
    have := congrArg List.length h
    have h2 : ((x ++ s :: '{' :: y) ++ c :: d :: '{' :: b).count '{' = 1 := by rw [← h]; rfl
    have h3 : ¬ c = '{' := by rintro rfl; rcases hc with hc | hc <;> cases hc
    simp [List.count_cons] at h2
    omega
  have h2 : ¬ LooksTemplated c!"$${\"\n" := by
    have : isTemplated c!"$${\"\n" = false := by decide
    rintro ⟨a, c, d, b, h, hc, hl⟩
    rw [Bool.eq_false_iff] at this
    exact this ((C33_is_templated_partial _).mpr ⟨d :: b, nofun, a, c, h, hc, hl⟩)
  exact ⟨by decide, fun _ => by decide, safe_of _ (by decide), ⟨by unfold NumberSafe; omega, ⟨h1, h2⟩, trivial⟩,
    safe_of _ (by decide), ⟨by decide, nofun, trivial⟩, safe_of _ (by decide), trivial, trivial⟩

/-! ### Where the full properties fail -/

private def E1 : FmtEnv := ⟨.ascii, fun _ => c!"1.0"⟩
private def P1 : PEnv := ⟨.ascii, .release⟩

/-- What happens to a text that is parsed, formatted and parsed again: `none` if it is not an expression,
otherwise whether the expression is the same. -/
private def survives (cfg : FmtCfg) (s : Str) : Option Bool :=
  match parseExpr P1 s with
  | .ok v =>
    match parseExpr P1 (formatExpr E1 cfg (toHcl E1 v)) with
    | .ok w => some ((toHcl E1 v).beq (toHcl E1 w))
    | _ => some false
  | _ => none

/-- An object may have the key `for`, but with the blank the formatter puts behind it it is taken for a
`for` expression. The same happens to a variable `for` in an array. -/
theorem C51_for_fails : survives .default c!"{for=1}" = some false ∧ survives .default c!"[for]" = some false := by
  decide +kernel

/-- The formatter replaces the comma after an object item by a line break, and then the next item is
taken for a continuation of the value. -/
theorem C51_items_fails : survives .default c!"{a = [1], -1 = 2}" = some false ∧
    survives .default c!"{a = [1] + x, (k) = v}" = some false := by
  decide +kernel

/-- The formatter writes no blank between a number and a legacy index. -/
theorem C51_legacy_index_fails : survives .default c!"1 .0" = some false := by
  decide +kernel

/-- The escapes in a quoted template are lost. -/
theorem C51_template_fails : survives .default c!"\"a\\\"${b}\"" = some false := by
  decide +kernel

/-- A heredoc with `<<-` is read back as one with `<<`. -/
theorem C51_heredoc_fails : survives .default c!"<<-A\n  x\n   y\n  A" = some false := by
  decide +kernel

/-- Not all markers are escaped, see `C13`. -/
theorem C51_markers_fail : survives .default c!"\"$${ $$${\"" = some false := by
  decide +kernel

/-- The value that is read back. -/
private def readValue (cfg : FmtCfg) (v : Value) : Option Value :=
  match parseExpr P1 (formatValue E1 cfg v) with
  | .ok w => some (toValue E1 (toHcl E1 w))
  | _ => none

/-- A string that looks like a template is written without escapes: the result may not be valid, or be
another string. -/
theorem C29_templated_fails : (readValue .default (.string c!"${ \"")).isNone = true ∧
    (match readValue .default (.string c!"${a}\\n") with
      | some (.string s) => decide (s = c!"${a}\n")
      | _ => false) = true := by
  decide +kernel

/-- With `prefer_ident_keys` an object cannot start with the key `for`. -/
theorem C29_for_fails : (readValue { FmtCfg.default with preferIdentKeys := true } (.object [(c!"for", .null)])).isNone = true := by
  decide +kernel

/-- The smallest integer is not read back in a debug build: the parser panics. -/
theorem C29_min_fails : (match parseExpr ⟨.ascii, .debug⟩ (formatValue E1 .default (.number (.negInt (-9223372036854775808)))) with
    | .panic => true
    | _ => false) = true := by
  decide +kernel

end Verif.Props
