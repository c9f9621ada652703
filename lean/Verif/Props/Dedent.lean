import Verif.Lemmas.Dedent
import Verif.Model.EditParse
/-! C23: dedenting and indenting heredocs. -/

namespace Verif.Props
open Gram Spec

/-- If every line that is not empty begins with whitespace, dedenting removes the same number of
characters from every line, all of them whitespace, and as many as the line with the least
indentation has. `f` is any one-line text for the interpolations and directives.

Missing: lines that begin with something other than whitespace, see `C23_content_lost`; carriage
returns, see `C23_crlf_lost`. -/
theorem C23_dedent_partial {U : Uni} {f : EElem → Str} (hf : ∀ e, Inline U (f e))
    {es es' : List EElem} {n : Nat} (hr : Regular es) (h : tmplDedent U es = (es', some n))
    (hs : ∀ l ∈ lines (outline f es), l ≠ [] → ∃ c r, l = c :: r ∧ U.isWs c = true) :
    lines (outline f es') = (lines (outline f es)).map (List.drop n) ∧
      (∀ l ∈ lines (outline f es), l ≠ [] → n ≤ l.length ∧ ∀ c ∈ l.take n, U.isWs c = true) ∧
      (∃ l ∈ lines (outline f es), l ≠ [] ∧ (l.takeWhile U.isWs).length = n) := by
  have hw0 : ∀ w ∈ widths U (appl false (lines (outline f es))), w ≠ 0 := by
    intro w hw
    obtain ⟨l, hl, hne, rfl⟩ := mem_widths.1 hw
    obtain ⟨c, r, rfl, hc⟩ := hs l hl hne
    simp [width, hc]
  unfold tmplDedent at h
  cases hi : tmplIndent U false none es with
  | none => rw [hi] at h; simp at h
  | some r =>
    have hr' := tmplIndent_eq hf es false none r hr hw0 hi
    rw [hi] at h
    cases r with
    | none => simp at h
    | some m =>
      simp only [Prod.mk.injEq, Option.some.injEq] at h
      obtain ⟨rfl, rfl⟩ := h
      obtain ⟨h1, -, h3⟩ := foldMin_spec hr'.symm
      refine ⟨?_, ?_, ?_⟩
      · rw [tmplStrip_eq hf m es false hr h1]
        obtain ⟨l, ls, e1, e2⟩ := lines_dl m (outline f es) m
        rw [e1]
        exact e2
      · intro l hl hne
        have := h1 _ (mem_widths.2 ⟨l, hl, hne, rfl⟩)
        refine ⟨Nat.le_trans this (width_le U l), fun c hc => ?_⟩
        have hp : l.takeWhile U.isWs <+: l := List.takeWhile_prefix _
        have hc' : c ∈ l.takeWhile U.isWs := by
          have ht : l.take m <+: l.takeWhile U.isWs :=
            List.prefix_of_prefix_length_le (List.take_prefix ..) hp (by
              rw [List.length_take]; exact Nat.le_trans (Nat.min_le_left ..) this)
          exact ht.subset hc
        exact mem_takeWhile hc'
      · rcases h3 with h3 | h3
        · obtain ⟨l, hl, hne, hw⟩ := mem_widths.1 h3
          exact ⟨l, hl, hne, hw⟩
        · cases h3

/-- If no indentation is removed, nothing is changed. -/
theorem C23_unchanged {U : Uni} {es es' : List EElem} (h : tmplDedent U es = (es', none)) :
    es' = es := by
  unfold tmplDedent at h
  split at h <;> simp at h <;> exact h.symm

/-- A template that begins with an interpolation or directive has no indentation: nothing is
removed. -/
theorem C23_hole_first {U : Uni} {e : EElem}
    {es : List EElem} (he : ∀ sp s, e ≠ .lit sp s) : tmplDedent U (e :: es) = (e :: es, none) := by
  cases e with
  | lit sp s => exact absurd rfl (he sp s)
  | _ => rfl

/-- Indenting a dedented template by the number of characters that were removed from its lines
restores it, if every line that is not empty begins with that many spaces and then has more. -/
theorem C23_reindent_partial {U : Uni} {f : EElem → Str} (hf : ∀ e, Inline U (f e))
    {es es' : List EElem} {n : Nat} (hr : Regular es) (h : tmplDedent U es = (es', some n))
    (hu : U.isWs ' ' = true) (hcr : '\r' ∉ outline f es)
    (hs : ∀ l ∈ lines (outline f es), l = [] ∨ ∃ r, r ≠ [] ∧ l = List.replicate n ' ' ++ r) :
    indentBy (outline f es') n false = outline f es := by
  unfold tmplDedent at h
  cases hi : tmplIndent U false none es with
  | none => rw [hi] at h; simp at h
  | some r =>
    rw [hi] at h
    cases r with
    | none => simp at h
    | some m =>
      simp only [Prod.mk.injEq, Option.some.injEq] at h
      obtain ⟨rfl, rfl⟩ := h
      rw [tmplStrip_eq hf m es false hr ?_]
      · exact indentBy_dl m _ hcr hs
      · intro w hw
        obtain ⟨l, hl, hne, rfl⟩ := mem_widths.1 hw
        rcases hs l hl with rfl | ⟨r, -, rfl⟩
        · exact absurd rfl hne
        · exact width_spaces hu m r

/-- The same for texts, whatever the indentation. -/
theorem C23_reindent_text (s : Str) (n : Nat) (hr : '\r' ∉ s)
    (hs : ∀ l ∈ lines s, l = [] ∨ ∃ r, r ≠ [] ∧ l = List.replicate n ' ' ++ r) :
    indentBy (dedentBy s n false) n false = s := by
  rw [dedentBy_eq hr]
  exact indentBy_dl n s hr hs

private def hole : EElem := .interp none (.var {} c!"x") .none
private def hf₀ (_ : EElem) : Str := c!"${x}"

example : (∀ e, Inline Uni.ascii (hf₀ e)) ∧
    Regular [.lit none c!"  a ", hole, .lit none c!"\n\n    b\n   ", hole, .lit none c!"\n"] ∧
    tmplDedent Uni.ascii [.lit none c!"  a ", hole, .lit none c!"\n\n    b\n   ", hole, .lit none c!"\n"] =
      ([.lit none c!"a ", hole, .lit none c!"\n\n  b\n ", hole, .lit none c!"\n"], some 2) ∧
    lines (outline hf₀ [.lit none c!"  a ", hole, .lit none c!"\n\n    b\n   ", hole, .lit none c!"\n"]) =
      [c!"  a ${x}", [], c!"    b", c!"   ${x}", []] := by
  refine ⟨fun _ => ?_, ?_, rfl, by decide +kernel⟩
  · simp only [hf₀, Inline]; decide
  · simp [Regular, hole]

/-- The text of a parsed expression when it is encoded again. -/
private def again (s : Str) : Option Str :=
  match parseExpr ⟨Uni.ascii, .debug⟩ s with
  | .ok e => some (e.show ⟨Uni.ascii, fun _ => []⟩)
  | _ => none

/-- The property fails in general: a line without indentation in a literal after an interpolation
does not count, and loses characters. -/
theorem C23_content_lost :
    tmplDedent Uni.ascii [.lit none c!"  a ", hole, .lit none c!"\nbc ", hole, .lit none c!"\n"] =
      ([.lit none c!"a ", hole, .lit none c!"\n ", hole, .lit none c!"\n"], some 2) ∧
    again c!"<<-E\n  a ${x}\nbc ${y}\nE" = some c!"<<-E\n  a ${x}\n   ${y}\nE" :=
  ⟨rfl, by decide +kernel⟩

/-- A line with as many spaces as are removed is not restored. -/
theorem C23_blank_line_lost :
    indentBy (dedentBy c!"  a\n  \n  b\n" 2 false) 2 false = c!"  a\n\n  b\n" ∧
    again c!"<<-E\n  a\n  \n  b\nE" = some c!"<<-E\n  a\n\n  b\nE" :=
  ⟨rfl, by decide +kernel⟩

/-- Tabs are restored as spaces. -/
theorem C23_tabs_lost :
    indentBy (dedentBy c!"\ta\n" 1 false) 1 false = c!" a\n" ∧
    again c!"<<-E\n\ta\nE" = some c!"<<-E\n a\nE" :=
  ⟨rfl, by decide +kernel⟩

/-- Carriage returns at the end of a line are removed by dedenting. -/
theorem C23_crlf_lost :
    tmplDedent Uni.ascii [.lit none c!"  a\r\n  b\r\n"] = ([.lit none c!"a\nb\n"], some 2) := rfl

/-- The literals inside of a directive are not dedented, but indented when encoded. -/
theorem C23_directive_indented :
    again c!"<<-E\n  a\n  %{ if x }\n  b\n  %{ endif }\nE" =
      some c!"<<-E\n  a\n  %{ if x }\n    b\n    %{ endif }\nE" := by decide +kernel

end Verif.Props
