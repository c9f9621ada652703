import Verif.Lemmas.RunBody
import Verif.Lemmas.ParseTop
/-! C61: every way to write an expression or a document is understood.

`Spec/Syntax.lean` says which texts spell which `hcl-rs` tree, with all the whitespace, comments, line
breaks, trailing commas and redundant parentheses the language allows. The theorems say that each such
text parses, and to the tree it spells. `Spec/Means.lean` says what it means for the tree of `hcl-edit`
that the parser returns to be that tree; without templates it is what the conversion to `hcl-rs` yields.
Missing from the full property: empty heredocs, lines that begin with the delimiter of a heredoc, heredocs
that start with `<<-` in which some lines are indented and others are not or in which there are carriage
returns, and escapes in literals between directives (the parser deviates in all of these).
-/

namespace Verif.Props
open P Gram Spec Syn

/-- A run of the parser over the whole input is a successful parse. -/
private theorem complete_of {pan : Prop} {s : Str} {p : P α} {Q : Nat → α → Nat → Prop} {raws : α → List Raw}
    {despan : α → α} {D : α → Prop} (h : Tri pan s 0 p Q) (hr : ∀ a, Q 0 a s.length → AllIn s (raws a))
    (hp : Runs p s [] D) : ∃ a, parseComplete p raws despan s = .ok (despan a) ∧ D a := by
  obtain ⟨v, h1, h2⟩ := hp 0
  rw [List.append_nil] at h1
  have ht : terminated p eof ⟨0, s⟩ = .ok v ⟨0 + s.length, []⟩ := by
    unfold terminated P.bind
    rw [h1]
    rfl
  refine ⟨v, ?_, h2⟩
  unfold parseComplete
  rw [ht]
  dsimp only
  rw [if_pos (List.all_eq_true.mpr (hr v (terminated_val h ht)))]

/-- Expressions: a text that spells an expression parses to it. -/
theorem C61_expr_partial (E : PEnv) (e : Expr) (t : Str) (h : Full E.U E.bd false e t) :
    ∃ v, parseExpr E t = .ok v ∧ Means E.U E.bd v e ∧ ∀ F, noTemplate e = true → toHcl F v = e := by
  have hrun : Runs ((parsersFor E t).expr false) t [] fun v => Means E.U E.bd v e :=
    (parsers_good E (t.length + 1)).expr h (Nat.lt_succ_self _) (b := false) nofun (folE_of .nil quiet_nil (.inl idEnd_nil))
  obtain ⟨v, h1, h2⟩ := complete_of (raws := EExpr.raws) (despan := EExpr.despan t) ((parsersFor_ok E t).expr false)
    (fun _ h => (h.1.good.node (Nat.le_of_lt h.1.bounds.1) h.2).2) hrun
  exact ⟨_, h1, h2.despan t, fun F => (h2.despan t).toHcl F⟩

/-- Templates: a text that spells the elements of a template parses to them. -/
theorem C61_template_partial (E : PEnv) (es : List Elem) (t : Str) (h : Tmpl E.U E.bd false es t) :
    ∃ v, parseTemplate E t = .ok v ∧ MeansElems E.U E.bd v es ∧
      ∀ F, noTemplateElems es = true → toHclElems F v = es := by
  have hrun : Runs (parsersFor E t).template t [] fun v => MeansElems E.U E.bd v es :=
    (parsers_good E (t.length + 1)).template h (Nat.lt_succ_self _) (.inl rfl) (by
      rintro ⟨c, _, _, k, hk⟩
      cases hk)
  obtain ⟨v, h1, h2⟩ := complete_of (raws := EExpr.rawsElems) (despan := EExpr.despanElems t) (parsersFor_ok E t).template
    (fun _ h => h.good.2) hrun
  exact ⟨_, h1, h2.despan t, fun F => (h2.despan t).toHcl F⟩

/-- The elements of a template with text, an interpolation and directives. -/
private def elems : List Elem :=
  [.lit c!"a$ ", .interp (.var c!"x") .start,
   .ifDir (.var c!"c") [.lit c!"${"] (some [.forDir (some c!"k") c!"v" (.var c!"l") [.interp (.var c!"v") .none] .none .both]) .end .none .none]

/-- The text of them, the same in quotes and outside. -/
private def text : Str := c!"a$ ${~x}%{if c ~}$${%{ else }%{for k, v in l}${v}%{~endfor~}%{endif}"

/-- They are spelled by the text. -/
private theorem spelled (q : Bool) : Tmpl .ascii .debug q elems text := by
  have gp : Gap true c!" " := .blank (.inl rfl) .nil
  have hid : ∀ c : Char, isIdStart .ascii c = true → IsIdentifier .ascii [c] := fun c h => ⟨c, [], rfl, idFirst_iff.mp h, nofun⟩
  have hv : ∀ (c : Char) nl, isIdStart .ascii c = true → [c] ∉ keywords → Full .ascii .debug nl (.var [c]) [c] :=
    fun c nl h h' => .chain (.term (.atom (.var (hid c h) h')))
  refine .lit (x := c!"a$ ") (v := c!"a$ ") (t := text.drop 3) ?_ nofun (fun e he => by cases he; rfl) ?_ ?_
  · cases q
    · rfl
    · exact .char (by decide) (by decide) (by decide) (.char (by decide) (by decide) (by decide) (.char (by decide) (by decide) (by decide) .nil))
  · rintro ⟨c, h1, h2, -⟩
    injection h2 with h2
    subst h2
    rcases h1 with h1 | h1 <;> cases h1
  refine .control (x := c!"${~x}") (t := text.drop 8) (.interp (g := []) (t := c!"x") (h := []) .nil (hv _ _ rfl (by decide)) .nil) ?_
  refine .control (x := text.drop 8) (t := []) ?_ .nil
  refine .ifDir (g := []) (g' := c!" ") (t := c!"c") (h := c!" ") (x := c!"$${") (y := c!"%{ else }%{for k, v in l}${v}%{~endfor~}")
    (z := c!"%{endif}") .nil gp (hv _ _ rfl (by decide)) gp ?_ ?_ ?_ ?_ ?_
  · refine .lit (x := c!"$${") (v := c!"${") (t := []) rfl nofun nofun ?_ .nil
    rintro ⟨c, -, -, _, h⟩
    cases h
  · refine .some (z := c!"%{ else }") (x := c!"%{for k, v in l}${v}%{~endfor~}") (.mk (g := c!" ") (h := c!" ") gp gp) ?_
    refine .control (t := []) (x := c!"%{for k, v in l}${v}%{~endfor~}") ?_ .nil
    refine .forDir (g := []) (w := c!" k, v ") (g' := c!" ") (t := c!"l") (h := []) (x := c!"${v}") (z := c!"%{~endfor~}") .nil ?_ gp nofun
      (hv _ _ rfl (by decide)) .nil ?_ (.mk (g := []) (h := []) .nil .nil) ?_
    · exact .keyValue (g := c!" ") (h := []) (g' := c!" ") (h' := c!" ") gp nofun (hid _ rfl) .nil gp (hid _ rfl) gp nofun
    · exact .control (x := c!"${v}") (t := []) (.interp (g := []) (t := c!"v") (h := []) .nil (hv _ _ rfl (by decide)) .nil) .nil
    · rintro ⟨c, h1, h2, -⟩
      injection h2 with h2
      subst h2
      rcases h1 with h1 | h1 <;> cases h1
  · exact .mk (g := []) (h := []) .nil .nil
  · rintro ⟨c, h1, h2, -⟩
    injection h2 with h2
    subst h2
    rcases h1 with h1 | h1 <;> cases h1
  · rintro ⟨c, h1, h2, -⟩
    injection h2 with h2
    subst h2
    rcases h1 with h1 | h1 <;> cases h1

/-- A template outside of quotes. -/
example : ∃ v, parseTemplate ⟨.ascii, .debug⟩ text = .ok v ∧ toHclElems ⟨.ascii, fun _ => []⟩ v = elems :=
  let ⟨v, h1, _, h2⟩ := C61_template_partial ⟨.ascii, .debug⟩ _ _ (spelled false)
  ⟨v, h1, h2 _ rfl⟩

/-- A template in quotes. -/
example : Full .ascii .debug false (.template (.quoted text)) (c!"\"" ++ text ++ c!"\"") :=
  .chain (.term (.atom (.template (spelled false) (spelled true) rfl)))

/-- A heredoc with indentation. -/
example : Full .ascii .debug false (.template (.heredoc c!"E" c!"${x}\n  b\n" .indent))
    c!"<<-E\n  ${x}\n    b\n  E" := by
  have hid : ∀ c : Char, isIdStart .ascii c = true → IsIdentifier .ascii [c] := fun c h => ⟨c, [], rfl, idFirst_iff.mp h, nofun⟩
  have ht : ∀ b : Str, readLiteral (c!"\n" ++ b) = some (c!"\n" ++ b) →
      Tmpl .ascii .debug false [.interp (.var c!"x") .none, .lit (c!"\n" ++ b)] (c!"${x}" ++ ((c!"\n" ++ b) ++ [])) := by
    intro b hb
    refine .control (.interp (g := []) (t := c!"x") (h := []) .nil
      (.chain (.term (.atom (.var (hid _ rfl) (by decide))))) .nil) ?_
    refine .lit hb nofun nofun ?_ .nil
    rintro ⟨c, -, -, _, h⟩
    cases h
  have hi : Indented .ascii 2 [.lit c!"  ", .interp (.var c!"x") .none, .lit c!"\n    b\n"] := by
    refine ⟨by decide, by decide +kernel, ⟨c!"  x", by decide +kernel, by decide, by decide +kernel⟩, ?_⟩
    intro v hv
    simp only [List.mem_cons, Elem.lit.injEq, List.not_mem_nil, or_false, reduceCtorEq, false_or] at hv
    rcases hv with rfl | rfl <;> decide
  refine .chain (.term (.atom (.indented (d := c!"E") (e := c!"\n") (t := c!"  ${x}\n    b\n") (b := c!"  ") (hid _ rfl) (.inl rfl) hi
    (ht c!"  b\n" rfl) (.lit (x := c!"  ") rfl nofun ?_ ?_ (ht c!"    b\n" rfl)) ⟨rfl, ?_⟩ (fun c hc => by revert c; decide))))
  · rintro e he
    cases he
    rfl
  · rintro ⟨c, h, h', -⟩
    cases h'
    exact absurd h (by rintro (h | h) <;> cases h)
  · rintro a l h - ⟨b, r, rfl, -⟩
    have : 'E' ∈ c!"  ${x}\n    b\n" := by rw [h]; simp
    exact absurd this (by decide)

/-- A heredoc with a line that begins like the delimiter. -/
example : Full .ascii .debug false (.template (.heredoc c!"E" c!"${x}\nEE\n" .none)) c!"<<E\n${x}\nEE\n  E" := by
  have hid : ∀ c : Char, isIdStart .ascii c = true → IsIdentifier .ascii [c] := fun c h => ⟨c, [], rfl, idFirst_iff.mp h, nofun⟩
  have ht : Tmpl .ascii .debug false [.interp (.var c!"x") .none, .lit c!"\nEE\n"] c!"${x}\nEE\n" := by
    refine .control (x := c!"${x}") (t := c!"\nEE\n") (.interp (g := []) (t := c!"x") (h := []) .nil
      (.chain (.term (.atom (.var (hid _ rfl) (by decide))))) .nil) ?_
    refine .lit (x := c!"\nEE\n") (t := []) rfl nofun nofun ?_ .nil
    rintro ⟨c, -, -, _, h⟩
    cases h
  refine .chain (.term (.atom (.heredoc (d := c!"E") (e := c!"\n") (t := c!"${x}\nEE\n") (b := c!"  ") (hid _ rfl) (.inl rfl) ht ht
    ⟨rfl, ?_⟩ (fun c hc => by revert c; decide))))
  rintro a l h1 h2 ⟨b, r, rfl, hb, hr⟩
  have hE : IdRest .ascii 'E' := idRest_iff.mp rfl
  have hb' : b = [] := by
    cases b with
    | nil => rfl
    | cons c b =>
      have : c ∈ c!"${x}\nEE\n" := by rw [h1]; simp
      rcases hb c (List.mem_cons_self ..) with rfl | rfl <;> exact absurd this (by decide)
  subst hb'
  match a, h1 with
  | [], h1 => cases h1
  | [_], h1 => cases h1
  | [_, _], h1 => cases h1
  | [_, _, _], h1 => cases h1
  | [_, _, _, _], h1 => cases h1
  | [_, _, _, _, _], h1 => cases h1; exact hr _ _ rfl hE
  | [_, _, _, _, _, _], h1 => cases h1; rcases h2 with h2 | h2 <;> cases h2
  | [_, _, _, _, _, _, _], h1 => cases h1
  | _ :: _ :: _ :: _ :: _ :: _ :: _ :: _ :: a, h1 => simp at h1

/-- `(a.b[0] /* c */ + -1) ? [x, "s",] : f(y...)` -/
example : Full .ascii .debug false
    (.cond (.paren (.binary (.traversal (.var c!"a") [.getAttr c!"b", .index (.number (.posInt 0))]) .plus
      (.number (.negInt (-1))))) (.array [.var c!"x", .string c!"s"]) (.call ⟨[], c!"f"⟩ [.var c!"y"] true))
    c!"(a.b[0] /* c */ + -1) ? [x, \"s\",] : f(y...)" := by
  have gp : Gap false c!" " := .blank (.inl rfl) .nil
  have gt : Gap true c!" " := .blank (.inl rfl) .nil
  have hid : ∀ c : Char, isIdStart .ascii c = true → IsIdentifier .ascii [c] := fun c h => ⟨c, [], rfl, idFirst_iff.mp h, nofun⟩
  have hd : ∀ c : Char, '0' ≤ c ∧ c ≤ '9' → DecDigits [c] := fun c h => ⟨nofun, fun d hd => by
    rw [List.mem_singleton.mp hd]; exact h⟩
  have n0 : UNumText c!"0" (.posInt 0) := .int (hd _ (by decide)) (by decide)
  have n1 : UNumText c!"1" (.posInt 1) := .int (hd _ (by decide)) (by decide)
  refine .cond (t₁ := c!"(a.b[0] /* c */ + -1)") (g₁ := c!" ") (g₂ := c!" ") (t₂ := c!"[x, \"s\",]") (g₃ := c!" ") (g₄ := c!" ")
    (t₃ := c!"f(y...)") (.term (.atom ?_)) gp gp (.chain (.term (.atom ?_))) gp gp (.chain (.term (.atom ?_)))
  · refine .paren (g := []) (t := c!"a.b[0] /* c */ + -1") (h := []) .nil (.chain ?_) .nil
    refine .binary (t₁ := c!"a.b[0]") (g := c!" /* c */ ") (h := c!" ") (t₂ := c!"-1") (.term ?_) ?_ nofun gt nofun
      (.term (.atom (.number (.neg (g := []) .nil n1 rfl)))) trivial trivial
    · refine .trav (t := c!"a") (u := c!".b[0]") (.var (hid _ rfl) (by decide)) ?_ nofun
      refine .cons (g := []) (t := c!".b") (u := c!"[0]") .nil (.getAttr (g := []) .nil (hid _ rfl)) ?_
      exact .one (g := []) .nil (.index (g := []) (t := c!"0") (h := []) .nil (.chain (.term (.atom (.number (.pos n0))))) .nil)
    · exact .blank (.inl rfl) (.block (x := c!"/* c */") ⟨c!" c ", rfl, by decide⟩ gt)
  · refine .arrayComma (t := c!"x, \"s\"") (g := []) ?_ ?_ .nil
    · refine .cons (g := []) (t := c!"x") (h := []) (u := c!" \"s\"") .nil
        (.chain (.term (.atom (.var (hid _ rfl) (by decide))))) .nil ?_
      exact .one (g := c!" ") (t := c!"\"s\"") (h := []) gt
        (.chain (.term (.atom (.string (.char (by decide) (by decide) (by decide) .nil))))) .nil
    · exact not_forStart (g := []) .nil (solid_starts rfl) nofun
  · exact .callExpand (x := c!"f") (xs := []) (g := []) (t := []) (u := c!"y") (h := []) (hid _ rfl) .nil .nil rfl
      (.one (g := []) (t := c!"y") (h := []) .nil (.chain (.term (.atom (.var (hid _ rfl) (by decide))))) .nil) .nil

/-- Documents: a text that spells a body parses to it. -/
theorem C61_body_partial (E : PEnv) (ss : List Struct) (t : Str) (h : Doc E.U E.bd ss t) :
    ∃ b, parseBody E t = .ok b ∧ MeansBody E.U E.bd b ss ∧ ∀ F, noTemplateBody ss = true → toHclBody F b = ss := by
  have hrun : Runs (parsersFor E t).body t [] fun v => MeansBody E.U E.bd v ss := by
    cases h with
    | lines h hn => exact run_body (parsers_goodB E _) h (Nat.le_refl _) hn (.inl rfl)
    | last h1 h2 h3 hn =>
      have := run_bodyLast (parsers_goodB E _) h1 h2 h3 (.inl rfl) (Nat.le_refl _) hn
      rwa [List.append_nil] at this
    | linesComment h hx hn =>
      refine run_bodyOver (parsers_goodB E _) h ?_ hn (.last rfl hx) (.inl rfl)
      rw [List.length_append]
      exact Nat.le_add_right ..
    | lastComment h1 h2 h3 hx hn =>
      rw [List.append_assoc]
      exact run_bodyLast (parsers_goodB E _) h1 h2 h3 (.inr hx) (Nat.le_refl _) hn
  obtain ⟨v, h1, h2⟩ := complete_of (raws := EBody.raws) (despan := EBody.despan t) (parsersFor_ok E t).body
    (fun _ h => (bodyQ_document h).good.2) hrun
  exact ⟨_, h1, h2.despan t, fun F => (h2.despan t).toHcl F⟩

/-- Two lines, the second one a block, without a line ending at the end. -/
example : Doc .ascii .debug [.attr c!"a" .null, .block c!"b" [.string c!"l"] [.attr c!"c" (.bool true)]]
    c!"a = null # x\n\nb \"l\" {\n  c=true\n}" := by
  have gp : Gap false c!" " := .blank (.inl rfl) .nil
  have hid : ∀ c : Char, isIdStart .ascii c = true → IsIdentifier .ascii [c] := fun c h => ⟨c, [], rfl, idFirst_iff.mp h, nofun⟩
  refine .last (ss := [.attr c!"a" .null]) (w := c!"a = null # x\n\n") (t := c!"b \"l\" {\n  c=true\n}") (h := []) ?_ ?_ .nil
    (by decide)
  · refine .cons (g := []) (t := c!"a = null") (e := c!" # x\n") (w := c!"\n") .nil ?_ ?_ (.nil (.newline (.inl rfl) .nil))
    · exact .attr (x := c!"a") (g := c!" ") (h := c!" ") (hid _ rfl) gp gp (.chain (.term (.atom .null)))
    · exact .line (g := c!" ") (x := c!"# x") gp ⟨c!" x", .inl rfl, by decide, by decide⟩ (.inl rfl)
  · refine .block (x := c!"b") (g := c!" ") (l := c!"\"l\" ") (e := c!"\n") (t := c!"  c=true\n") (hid _ rfl) gp
      (.string (q := c!"l") (g := c!" ") (.char (by decide) (by decide) (by decide) .nil) gp .nil) ?_
      (.plain (g := []) .nil (.inl rfl)) ?_ (by decide)
    · rintro c r h
      injection h with h _
      subst h
      exact fun h => by have := idRest_iff.mpr h; revert this; decide
    · refine .cons (g := c!"  ") (t := c!"c=true") (e := c!"\n") (w := []) (.blank (.inl rfl) (.blank (.inl rfl) .nil)) ?_
        (.plain (g := []) .nil (.inl rfl)) (.nil .nil)
      exact .attr (x := c!"c") (g := []) (h := []) (hid _ rfl) .nil .nil (.chain (.term (.atom (.bool (b := true)))))

/-- A comment ends with the input. -/
example : Doc .ascii .debug [.attr c!"a" .null] c!"a = null // x" := by
  have gp : Gap false c!" " := .blank (.inl rfl) .nil
  exact .lastComment (ss := []) (w := []) (t := c!"a = null") (h := c!" ") (x := c!"// x") (.nil .nil)
    (.attr (x := c!"a") (g := c!" ") (h := c!" ") ⟨'a', [], rfl, idFirst_iff.mp rfl, nofun⟩ gp gp (.chain (.term (.atom .null))))
    gp ⟨c!" x", .inr rfl, by decide, by decide⟩ (by decide)

/-- A document that is a comment. -/
example : Doc .ascii .debug [] c!" # x" :=
  .linesComment (t := c!" ") (x := c!"# x") (.nil (.blank (.inl rfl) .nil)) ⟨c!" x", .inl rfl, by decide, by decide⟩ (by decide)

/-- No text has two readings: two expressions with the same spelling are the same, except that the
templates in them may be written differently. -/
theorem C61_expr_unambiguous (U : Uni) (bd : Build) (e e' : Expr) (t : Str) (h : Full U bd false e t)
    (h' : Full U bd false e' t) :
    (∃ v, Means U bd v e ∧ Means U bd v e') ∧ (noTemplate e = true → noTemplate e' = true → e = e') := by
  obtain ⟨v, h1, h2, h3⟩ := C61_expr_partial ⟨U, bd⟩ e t h
  obtain ⟨v', h4, h5, h6⟩ := C61_expr_partial ⟨U, bd⟩ e' t h'
  rw [h1] at h4
  injection h4 with h4
  subst h4
  exact ⟨⟨v, h2, h5⟩, fun hn hn' => by rw [← h3 ⟨U, fun _ => []⟩ hn, h6 ⟨U, fun _ => []⟩ hn']⟩

/-- No document has two readings. -/
theorem C61_body_unambiguous (U : Uni) (bd : Build) (ss ss' : List Struct) (t : Str) (h : Doc U bd ss t)
    (h' : Doc U bd ss' t) :
    (∃ v, MeansBody U bd v ss ∧ MeansBody U bd v ss') ∧ (noTemplateBody ss = true → noTemplateBody ss' = true → ss = ss') := by
  obtain ⟨v, h1, h2, h3⟩ := C61_body_partial ⟨U, bd⟩ ss t h
  obtain ⟨v', h4, h5, h6⟩ := C61_body_partial ⟨U, bd⟩ ss' t h'
  rw [h1] at h4
  injection h4 with h4
  subst h4
  exact ⟨⟨v, h2, h5⟩, fun hn hn' => by rw [← h3 ⟨U, fun _ => []⟩ hn, h6 ⟨U, fun _ => []⟩ hn']⟩

/-- No template has two readings. -/
theorem C61_template_unambiguous (U : Uni) (bd : Build) (es es' : List Elem) (t : Str) (h : Tmpl U bd false es t)
    (h' : Tmpl U bd false es' t) :
    (∃ v, MeansElems U bd v es ∧ MeansElems U bd v es') ∧ (noTemplateElems es = true → noTemplateElems es' = true → es = es') := by
  obtain ⟨v, h1, h2, h3⟩ := C61_template_partial ⟨U, bd⟩ es t h
  obtain ⟨v', h4, h5, h6⟩ := C61_template_partial ⟨U, bd⟩ es' t h'
  rw [h1] at h4
  injection h4 with h4
  subst h4
  exact ⟨⟨v, h2, h5⟩, fun hn hn' => by rw [← h3 ⟨U, fun _ => []⟩ hn, h6 ⟨U, fun _ => []⟩ hn']⟩

private def Er : PEnv := ⟨.ascii, .release⟩

/-- A test for rejected expressions. -/
private def rejected (s : Str) : Bool :=
  match parseExpr Er s with
  | .err _ => true
  | _ => false

/-- A test for the number of structures of a document. -/
private def structures (s : Str) : Option Nat :=
  match parseBody Er s with
  | .ok b => some b.structs.length
  | _ => none

/-- The restriction on object items is needed: after a function call the next line is taken for a
continuation of the value, and a valid object is rejected. -/
theorem C61_items_fails : rejected c!"{a = f(x)\n -b = 2}" = true ∧ rejected c!"{a = x\n -b = 2}" = false := by
  decide +kernel

/-- For the same reason a document is accepted in which an operation is continued on the next line. -/
theorem C61_lines_fails : structures c!"a = f(x)\n + 2\n" = some 1 ∧ structures c!"a = x\n + 2\n" = none := by
  decide +kernel

/-- An empty heredoc is not understood: its content goes on to the next line with the same delimiter, here
the end of another heredoc. -/
theorem C61_emptyHeredoc_fails : structures c!"a = <<E\nE\nb = <<E\nx\nE\n" = some 1 ∧
    structures c!"a = <<E\ny\nE\nb = <<E\nx\nE\n" = some 2 := by
  decide +kernel

/-- A heredoc ends in front of a line that begins with the delimiter, even if the line goes on. -/
theorem C61_heredocLine_fails : structures c!"a = <<E\nx\nE, y\nE\n" = none ∧
    structures c!"a = <<E\nx\nF, y\nE\n" = some 1 := by
  decide +kernel

end Verif.Props
