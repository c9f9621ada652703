import Verif.Model.Templated
import Verif.Spec.Literal
/-! C33: detection of templates in strings. -/

namespace Verif.Props
open Verif Spec

/-- The string has a `${` or `%{` with `b` behind it that is not escaped, that is, not preceded by the
same sigil. -/
def UnescapedMarker (s b : Str) : Prop :=
  ∃ a c, s = a ++ c :: '{' :: b ∧ Sigil c ∧ a.getLast? ≠ some c

theorem sigil_ne {c : Char} (h : Sigil c) : c ≠ '{' := by rcases h with rfl | rfl <;> decide

theorem UnescapedMarker.cons {x : Char} {s b : Str} :
    UnescapedMarker (x :: s) b ↔
      (Sigil x ∧ s = '{' :: b) ∨ ∃ a c, s = a ++ c :: '{' :: b ∧ Sigil c ∧ (x :: a).getLast? ≠ some c := by
  constructor
  · rintro ⟨a, c, h, hc, hl⟩
    cases a with
    | nil => injection h with h1 h2; subst h1; exact .inl ⟨hc, h2⟩
    | cons y a => injection h with h1 h2; subst h1; exact .inr ⟨a, c, h2, hc, hl⟩
  · rintro (⟨hx, rfl⟩ | ⟨a, c, rfl, hc, hl⟩)
    · exact ⟨[], x, rfl, hx, by simp⟩
    · exact ⟨x :: a, c, rfl, hc, hl⟩

/-- Nothing changes by dropping a character that starts neither a marker nor an escape. -/
theorem UnescapedMarker.skip {x : Char} {s b : Str} (h1 : ¬ (Sigil x ∧ s.head? = some '{'))
    (h2 : ¬ (Sigil x ∧ ∃ r, s = x :: '{' :: r)) :
    UnescapedMarker (x :: s) b ↔ UnescapedMarker s b := by
  rw [UnescapedMarker.cons]
  constructor
  · rintro (⟨hx, rfl⟩ | ⟨a, c, rfl, hc, hl⟩)
    · exact absurd ⟨hx, rfl⟩ h1
    · refine ⟨a, c, rfl, hc, ?_⟩
      cases a with
      | nil => simp
      | cons y a => simpa using hl
  · rintro ⟨a, c, rfl, hc, hl⟩
    refine .inr ⟨a, c, rfl, hc, ?_⟩
    cases a with
    | nil =>
      intro he
      simp only [List.getLast?_singleton, Option.some.injEq] at he
      subst he
      exact h2 ⟨hc, b, rfl⟩
    | cons y a => simpa using hl

/-- An escape contributes nothing. -/
theorem UnescapedMarker.escape {x : Char} {r b : Str} (hx : Sigil x) :
    UnescapedMarker (x :: x :: '{' :: r) b ↔ UnescapedMarker ('{' :: r) b := by
  have hb := sigil_ne hx
  rw [UnescapedMarker.cons]
  constructor
  · rintro (⟨_, h⟩ | ⟨a, c, h, hc, hl⟩)
    · injection h with h _; exact absurd h hb
    · cases a with
      | nil =>
        injection h with h1 h2
        subst h1; simp at hl
      | cons y a =>
        injection h with h1 h2
        subst h1
        refine ⟨a, c, h2, hc, ?_⟩
        cases a with
        | nil => simp
        | cons z a => simpa using hl
  · rintro ⟨a, c, h, hc, hl⟩
    refine .inr ⟨x :: a, c, by rw [h]; rfl, hc, ?_⟩
    cases a with
    | nil =>
      injection h with h1 h2
      exact absurd h1.symm (sigil_ne hc)
    | cons z a => simpa using hl

theorem UnescapedMarker.nil {b : Str} : ¬ UnescapedMarker [] b := by
  rintro ⟨a, c, h, _⟩; cases a <;> cases h

theorem isTemplatedGo_iff : ∀ (n : Nat) (s : Str), s.length ≤ n →
    (isTemplatedGo false s = true ↔ ∃ b, b ≠ [] ∧ UnescapedMarker s b) := by
  intro n
  induction n with
  | zero =>
    intro s hs
    cases s with
    | nil => simp [isTemplatedGo, UnescapedMarker.nil]
    | cons => simp at hs
  | succ n ih =>
    intro s hs
    have short : s.length < 3 → ¬ ∃ b, b ≠ [] ∧ UnescapedMarker s b := by
      rintro hl ⟨b, hb, a, c, rfl, _⟩
      cases b with
      | nil => exact hb rfl
      | cons y b => simp at hl; omega
    match s, hs, short with
    | [], _, short => simp [isTemplatedGo, UnescapedMarker.nil]
    | [x], _, short => simpa [isTemplatedGo] using short (by simp)
    | [x, y], _, short => simpa [isTemplatedGo] using short (by simp)
    | x :: y :: z :: r, hs, _ =>
      simp only [List.length_cons] at hs
      simp only [isTemplatedGo]
      rw [if_neg (by simp)]
      by_cases he : (x = '$' ∧ y = '$' ∧ z = '{') ∨ (x = '%' ∧ y = '%' ∧ z = '{')
      · rw [if_pos he]
        have hx : Sigil x ∧ y = x ∧ z = '{' := by
          rcases he with ⟨rfl, rfl, rfl⟩ | ⟨rfl, rfl, rfl⟩
          · exact ⟨.inl rfl, rfl, rfl⟩
          · exact ⟨.inr rfl, rfl, rfl⟩
        obtain ⟨hx, rfl, rfl⟩ := hx
        simp only [UnescapedMarker.escape hx]
        rw [← ih ('{' :: r) (by simp; omega)]
        cases r with
        | nil => simp [isTemplatedGo]
        | cons w r =>
          rw [isTemplatedGo]
          simp
      · rw [if_neg he]
        by_cases hm : (x = '$' ∨ x = '%') ∧ y = '{'
        · rw [if_pos hm]
          obtain ⟨hx, rfl⟩ := hm
          simp only [true_iff]
          exact ⟨z :: r, by simp, UnescapedMarker.cons.2 (.inl ⟨hx, rfl⟩)⟩
        · rw [if_neg hm]
          have h1 : ¬ (Sigil x ∧ (y :: z :: r).head? = some '{') := by
            rintro ⟨hx, hy⟩; exact hm ⟨hx, by simpa using hy⟩
          have h2 : ¬ (Sigil x ∧ ∃ r', y :: z :: r = x :: '{' :: r') := by
            rintro ⟨hx, r', h⟩
            injection h with h3 h4
            injection h4 with h5 _
            subst h3; subst h5
            rcases hx with rfl | rfl
            · exact he (.inl ⟨rfl, rfl, rfl⟩)
            · exact he (.inr ⟨rfl, rfl, rfl⟩)
          simp only [UnescapedMarker.skip h1 h2]
          exact ih (y :: z :: r) (by simp; omega)

/-- C33 (partial): a string is treated as a template exactly if it contains an unescaped `${` or `%{`
that is not the very end of the string. Missing: strings whose only unescaped marker is at the very
end, which are not treated as templates (`C33_false`; such a marker cannot start a valid template). -/
theorem C33_is_templated_partial (s : Str) :
    isTemplated s = true ↔ ∃ b, b ≠ [] ∧ UnescapedMarker s b := by
  unfold isTemplated
  by_cases h : s.length < 3
  · rw [if_pos h]
    simp only [Bool.false_eq_true, false_iff]
    rintro ⟨b, hb, a, c, rfl, _⟩
    cases b with
    | nil => exact hb rfl
    | cons y b => simp at h; omega
  · rw [if_neg h]
    exact isTemplatedGo_iff s.length s (Nat.le_refl _)

example : isTemplated c!"$${ introduces an ${x}" = true ∧ isTemplated c!"%%{ if $$${ x" = false := by
  decide

/-- C33 fails for a marker at the very end. -/
theorem C33_false : UnescapedMarker c!"a ${" [] ∧ isTemplated c!"a ${" = false :=
  ⟨⟨c!"a ", '$', rfl, .inl rfl, by decide⟩, by decide⟩

theorem unescaped_iff_read : ∀ (n : Nat) (s : Str), s.length ≤ n →
    (readLiteral s = none ↔ ∃ b, UnescapedMarker s b) := by
  intro n
  induction n with
  | zero =>
    intro s hs
    cases s with
    | nil => simp [readLiteral, UnescapedMarker.nil]
    | cons => simp at hs
  | succ n ih =>
    intro s hs
    match s, hs with
    | [], _ => simp [readLiteral, UnescapedMarker.nil]
    | x :: s, hs =>
      simp only [List.length_cons] at hs
      by_cases hx : Sigil x
      · by_cases h1 : s.head? = some '{'
        · obtain ⟨b, rfl⟩ : ∃ b, s = '{' :: b := by
            cases s with
            | nil => simp at h1
            | cons y b => simp at h1; exact ⟨b, by rw [h1]⟩
          constructor
          · intro _; exact ⟨b, UnescapedMarker.cons.2 (.inl ⟨hx, rfl⟩)⟩
          · intro _
            rcases hx with rfl | rfl <;> simp [readLiteral]
        · by_cases h2 : ∃ r, s = x :: '{' :: r
          · obtain ⟨r, rfl⟩ := h2
            simp only [UnescapedMarker.escape hx]
            have : UnescapedMarker ('{' :: r) = UnescapedMarker r := by
              funext b
              exact propext (UnescapedMarker.skip (by rintro ⟨h, _⟩; exact sigil_ne h rfl)
                (by rintro ⟨h, _⟩; exact sigil_ne h rfl))
            rw [this, ← ih r (by simp at hs; omega)]
            rcases hx with rfl | rfl <;> simp [readLiteral]
          · have hs' := fun b => UnescapedMarker.skip (x := x) (s := s) (b := b) (fun h => h1 h.2)
              (fun h => h2 h.2)
            simp only [hs']
            rw [← ih s (by omega)]
            have : readLiteral (x :: s) = (readLiteral s).map (x :: ·) := by
              rw [readLiteral.eq_def]
              split
              · rename_i heq; injection heq with e1 e2; subst e1; exact absurd ⟨_, e2⟩ h2
              · rename_i heq; injection heq with e1 e2; subst e1; exact absurd ⟨_, e2⟩ h2
              · rename_i heq; injection heq with e1 e2; subst e2; simp at h1
              · rename_i heq; injection heq with e1 e2; subst e2; simp at h1
              · rename_i heq; injection heq with e1 e2; subst e1; subst e2; rfl
              · rename_i heq; cases heq
            rw [this]; simp
      · have hs' := fun b => UnescapedMarker.skip (x := x) (s := s) (b := b) (fun h => hx h.1) (fun h => hx h.1)
        simp only [hs']
        rw [← ih s (by omega)]
        have : readLiteral (x :: s) = (readLiteral s).map (x :: ·) := by
          rw [readLiteral.eq_def]
          split
          · rename_i heq; injection heq with e1 e2; subst e1; exact absurd (.inl rfl) hx
          · rename_i heq; injection heq with e1 e2; subst e1; exact absurd (.inr rfl) hx
          · rename_i heq; injection heq with e1 e2; subst e1; exact absurd (.inl rfl) hx
          · rename_i heq; injection heq with e1 e2; subst e1; exact absurd (.inr rfl) hx
          · rename_i heq; injection heq with e1 e2; subst e1; subst e2; rfl
          · rename_i heq; cases heq
        rw [this]; simp

/-- C33: what counts as an unescaped marker is what a left-to-right reader of the literal text finds:
a string without unescaped marker is plain text to the reader and never treated as a template; a
string that the reader finds a template sequence in is treated as a template, unless it ends with
the opening brace. -/
theorem C33_reader (s : Str) :
    (readLiteral s = none ↔ ∃ b, UnescapedMarker s b) ∧
    (isTemplated s = true → readLiteral s = none) ∧
    (readLiteral s = none → s.getLast? ≠ some '{' → isTemplated s = true) := by
  have h := unescaped_iff_read s.length s (Nat.le_refl _)
  refine ⟨h, fun ht => ?_, fun hr hl => ?_⟩
  · obtain ⟨b, _, hb⟩ := (C33_is_templated_partial s).1 ht
    exact h.2 ⟨b, hb⟩
  · obtain ⟨b, hb⟩ := h.1 hr
    refine (C33_is_templated_partial s).2 ⟨b, ?_, hb⟩
    rintro rfl
    obtain ⟨a, c, rfl, _⟩ := hb
    exact hl (by rw [List.getLast?_append]; rfl)

end Verif.Props
