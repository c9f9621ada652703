import Verif.Spec.TemplateText
import Verif.Lemmas.Printable
import Verif.Lemmas.EscapeFlag
import Verif.Lemmas.Decorated
/-! The text of a template that is displayed spells it (C83). -/

namespace Verif.Gram
open P Spec Syn Render

variable {E : FmtEnv} {bd : Build} {cfg : FmtCfg} {tm : Bool}

theorem strip_text (s : Strip) (t : Str) : Render.strip s t = openTilde s ++ t ++ closeTilde s := by
  cases s <;> rfl

theorem mark_text (kw : Str) (s : Strip) : Mark kw s (Render.directive s kw) := by
  have := Mark.mk (kw := kw) (i := s) (gap_blank (b := true)) (gap_blank (b := true))
  unfold Render.directive
  rw [strip_text]
  simpa using this

/-- How the text of elements starts. -/
theorem shown_head {cm : Bool} {ind : Nat} {e : Elem} {c : Char} (h : sigilOfElem e = some c) :
    ∃ r, Render.elem E cfg cm ind e = c :: '{' :: r := by
  cases e with
  | lit s => cases h
  | interp e s => cases h; exact ⟨_, rfl⟩
  | ifDir c t f i j k => cases h; cases f <;> (simp only [Render.elem, Render.directive, List.append_assoc]; exact ⟨_, rfl⟩)
  | forDir k v c t i j => cases h; simp only [Render.elem, Render.directive, List.append_assoc]; exact ⟨_, rfl⟩

theorem directive_head (s : Strip) (t : Str) : ∃ r, Render.directive s t = '%' :: '{' :: r := ⟨_, rfl⟩

/-- A text that starts with one sigil and a brace is not joined to one that ends in something else. -/
theorem not_joined_head {x y : Str} {c : Char} (hy : ∃ r, y = c :: '{' :: r) (hx : x.getLast? ≠ some c) : ¬ Joined x y := by
  rintro ⟨d, -, h1, ⟨k, h2⟩⟩
  obtain ⟨r, rfl⟩ := hy
  cases h2
  exact hx h1

theorem directive_last (s : Strip) (t : Str) : (Render.directive s t).getLast? = some '}' := by
  unfold Render.directive
  rw [List.getLast?_append]
  rfl

/-- The last character of the text. -/
theorem elem_last {cm : Bool} {ind : Nat} {e : Elem} (h : isText e = false) :
    (Render.elem E cfg cm ind e).getLast? = some '}' := by
  cases e with
  | lit s => cases h
  | interp e s =>
    simp only [Render.elem, Render.interpolation]
    rw [List.getLast?_append]
    rfl
  | ifDir c t f i j k => cases f <;> (simp only [Render.elem]; rw [List.getLast?_append, directive_last]; rfl)
  | forDir k v c t i j => simp only [Render.elem]; rw [List.getLast?_append, directive_last]; rfl

/-- The text of the elements in a branch is not joined to the directive behind it. -/
theorem template_last {cm : Bool} {ind : Nat} : ∀ (es : List Elem), ShownElems E bd cfg tm (some '%') es →
    (Render.template E cfg cm ind es).getLast? ≠ some '%'
  | [], _ => by simp [Render.template]
  | e :: es, h => by
    simp only [ShownElems] at h
    have ih := template_last (cm := cm) (ind := ind) es h.2.2
    rw [Render.template, List.getLast?_append]
    cases he : (Render.template E cfg cm ind es).getLast? with
    | some c => rw [he] at ih; exact ih
    | none =>
      cases ht : isText e with
      | false => rw [elem_last ht]; exact (by decide : some '}' ≠ some '%')
      | true =>
        obtain ⟨s, rfl⟩ : ∃ s, e = .lit s := by cases e <;> first | exact ⟨_, rfl⟩ | cases ht
        have hf := h.2.1 s rfl
        show (escapeMarkers s).getLast? ≠ some '%'
        rw [esc_last]
        cases es with
        | nil => exact hf _ rfl
        | cons e' es =>
          obtain ⟨c, hc, -⟩ := hf
          obtain ⟨r, hr⟩ := shown_head (E := E) (cfg := cfg) (cm := cm) (ind := ind) hc
          rw [Render.template, hr] at he
          cases List.getLast?_eq_none_iff.mp he

theorem lit_shown {s : Str} (h : StringSafe s) : LitText false (escapeMarkers s) s :=
  lit_text (q := false) (k := false) h (.inl rfl)

theorem lit_shown_ne {s : Str} (h : s ≠ []) : escapeMarkers s ≠ [] := lit_ne (k := false) h

variable (hi : Gap false cfg.indent)
include hi

mutual

/-- Control sequences. -/
theorem control_spell : ∀ (e : Elem), isText e = false → ShownElem E bd cfg tm e → ∀ cm ind,
    Control E.U bd e (Render.elem E cfg cm ind e)
  | .lit _, h, _, _, _ => by cases h
  | .interp e s, _, h, cm, ind => by
    have := Control.interp (U := E.U) (bd := bd) (i := s) (g := []) (h := []) .nil (spell hi e h true cm ind).full .nil
    simp only [Render.elem, Render.interpolation, strip_text]
    simpa using this
  | .ifDir c t none i j k, _, h, cm, ind => by
    simp only [ShownElem] at h
    obtain ⟨h1, h2, -, h4⟩ := h
    obtain rfl := h4 trivial
    have ht := template_last (cm := cm) (ind := ind) t h2
    have := Control.ifDir (U := E.U) (bd := bd) (i := i) (gap_blank (b := true)) (gap_blank (b := true))
      (spell hi c h1 false cm ind).full (gap_blank (b := true)) (template_spell t (some '%') h2 cm ind) .none
      (mark_text c!"endif" k) (not_joined_head (directive_head _ _) ht)
      (not_joined_head (directive_head _ _) (by simp))
    simp only [Render.elem, Render.directive, strip_text] at this ⊢
    simpa using this
  | .ifDir c t (some f) i j k, _, h, cm, ind => by
    simp only [ShownElem, ShownElse] at h
    obtain ⟨h1, h2, h3, -⟩ := h
    have ht := template_last (cm := cm) (ind := ind) t h2
    have hf := template_last (cm := cm) (ind := ind) f h3
    have hj : ¬ Joined (Render.directive j c!"else" ++ Render.template E cfg cm ind f) (Render.directive k c!"endif") := by
      refine not_joined_head (directive_head _ _) ?_
      rw [List.getLast?_append, directive_last]
      cases he : (Render.template E cfg cm ind f).getLast? with
      | none => exact (by decide : some '}' ≠ some '%')
      | some c => rw [he] at hf; exact hf
    have := Control.ifDir (U := E.U) (bd := bd) (i := i) (gap_blank (b := true)) (gap_blank (b := true))
      (spell hi c h1 false cm ind).full (gap_blank (b := true)) (template_spell t (some '%') h2 cm ind)
      (.some (mark_text c!"else" j) (template_spell f (some '%') h3 cm ind))
      (mark_text c!"endif" k) (not_joined_head ⟨_, rfl⟩ ht) hj
    simp only [Render.elem, Render.directive, strip_text] at this ⊢
    simpa using this
  | .forDir k v c t i j, _, h, cm, ind => by
    simp only [ShownElem] at h
    obtain ⟨h1, h2, h3, h4⟩ := h
    have ht := template_last (cm := cm) (ind := ind) t h4
    have hv : Vars E.U k v (c!" " ++ optKey k ++ v ++ c!" ") := by
      cases k with
      | none =>
        have := Vars.value (gap_blank (b := true)) nofun h2 (gap_blank (b := true)) nofun
        simpa [optKey] using this
      | some k =>
        have := Vars.keyValue (gap_blank (b := true)) nofun (h1 k rfl) .nil (gap_blank (b := true)) h2 (gap_blank (b := true)) nofun
        simpa [optKey] using this
    have := Control.forDir (U := E.U) (bd := bd) (i := i) (gap_blank (b := true)) hv (gap_blank (b := true)) nofun
      (spell hi c h3 false cm ind).full (gap_blank (b := true)) (template_spell t (some '%') h4 cm ind)
      (mark_text c!"endfor" j) (not_joined_head (directive_head _ _) ht)
    simp only [Render.elem, Render.directive, strip_text] at this ⊢
    simpa using this

/-- Elements of a template. -/
theorem template_spell : ∀ (es : List Elem) (next : Option Char), ShownElems E bd cfg tm next es → ∀ cm ind,
    Tmpl E.U bd false es (Render.template E cfg cm ind es)
  | [], _, _, _, _ => .nil
  | e :: es, next, h, cm, ind => by
    simp only [ShownElems] at h
    have ih := template_spell es next h.2.2 cm ind
    rw [Render.template]
    cases ht : isText e with
    | false => exact .control (control_spell e ht h.1 cm ind) ih
    | true =>
      obtain ⟨s, rfl⟩ : ∃ s, e = .lit s := by cases e <;> first | exact ⟨_, rfl⟩ | cases ht
      have hf := h.2.1 s rfl
      have hs := h.1
      simp only [ShownElem] at hs
      refine .lit (lit_shown hs.2) (lit_shown_ne hs.1) ?_ ?_ ih
      · cases es with
        | nil => nofun
        | cons e' es =>
          obtain ⟨c, hc, -⟩ := hf
          intro x hx
          cases hx
          cases e' <;> first | rfl | cases hc
      · cases es with
        | nil =>
          rintro ⟨c, -, -, ⟨r, hr⟩⟩
          cases hr
        | cons e' es =>
          obtain ⟨c, hc, hl⟩ := hf
          obtain ⟨r, hr⟩ := shown_head (E := E) (cfg := cfg) (cm := cm) (ind := ind) hc
          rw [Render.template, hr]
          exact not_joined_head ⟨_, rfl⟩ ((esc_last s).symm ▸ hl : (escapeMarkers s).getLast? ≠ some c)

end

end Verif.Gram
