import Verif.Model.Ident
import Verif.Spec.Ident
/-! Properties C01 and C02 (identifiers). -/

namespace Verif.Props
open Verif Verif.Spec

/-- **C01**: validation accepts exactly the identifier grammar. -/
theorem C01_isIdent_iff (U : Uni) (s : Str) : isIdent U s = true ↔ IsIdentifier U s := by
  unfold isIdent IsIdentifier IdFirst IdRest
  cases s with
  | nil => simp
  | cons c cs =>
    simp only [isIdStart, isIdContinue, Bool.and_eq_true, List.all_eq_true, Bool.or_eq_true,
      beq_iff_eq]
    constructor
    · rintro ⟨h1, h2⟩; exact ⟨c, cs, rfl, h1, h2⟩
    · rintro ⟨c', cs', heq, h1, h2⟩; cases heq; exact ⟨h1, h2⟩

/-- **C01**: `Ident::try_new` succeeds exactly on identifiers and then keeps the text. -/
theorem C01_tryNew (U : Uni) (s : Str) :
    (IsIdentifier U s → Ident.tryNew U s = some s) ∧
    (¬ IsIdentifier U s → Ident.tryNew U s = none) := by
  unfold Ident.tryNew
  rw [← C01_isIdent_iff]
  constructor <;> intro h <;> simp_all

example : IsIdentifier Uni.ascii c!"foo-1_x" :=
  (C01_isIdent_iff _ _).1 (by decide)
example : ¬ IsIdentifier Uni.ascii c!"1a" := by
  rw [← C01_isIdent_iff]; decide

private theorem sanitizeLoop_rest (U : Uni) (s : Str) (i : Nat) (hi : 0 < i) :
    ∀ d ∈ Ident.sanitizeLoop U i s, IdRest U d := by
  induction s generalizing i with
  | nil => simp [Ident.sanitizeLoop]
  | cons c cs ih =>
    intro d hd
    simp only [Ident.sanitizeLoop, List.mem_append] at hd
    rcases hd with hd | hd
    · have hi' : (i == 0) = false := by simp; omega
      simp only [Ident.sanitizeChar, hi', Bool.false_and, Bool.false_eq_true, if_false] at hd
      split at hd
      · simp at hd; subst hd
        unfold IdRest; simpa [isIdContinue] using ‹isIdContinue U _ = true›
      · simp at hd; subst hd
        left; rw [U.ascii_continue _ (by decide)]; decide
    · exact ih (i + 1) (by omega) d hd

private theorem sanitizeLoop_id (U : Uni) (s : Str) (i : Nat) (hi : 0 < i)
    (h : ∀ d ∈ s, IdRest U d) : Ident.sanitizeLoop U i s = s := by
  induction s generalizing i with
  | nil => simp [Ident.sanitizeLoop]
  | cons c cs ih =>
    have hc : isIdContinue U c = true := by
      simpa [isIdContinue, IdRest] using h c (by simp)
    have hi' : (i == 0) = false := by simp; omega
    simp only [Ident.sanitizeLoop, Ident.sanitizeChar, hi', hc]
    simp [ih (i + 1) (by omega) (fun d hd => h d (by simp [hd]))]

/-- **C02**: a sanitized identifier is always a valid identifier. -/
theorem C02_sanitized_valid (U : Uni) (s : Str) : IsIdentifier U (Ident.newSanitized U s) := by
  unfold Ident.newSanitized
  cases s with
  | nil => exact ⟨'_', [], rfl, Or.inr rfl, by simp⟩
  | cons c cs =>
    have hrest := sanitizeLoop_rest U cs 1 (by omega)
    simp only [List.isEmpty_cons, Bool.false_eq_true, if_false, Ident.sanitizeLoop,
      Ident.sanitizeChar]
    by_cases h1 : isIdStart U c = true
    · refine ⟨c, Ident.sanitizeLoop U 1 cs, by simp [h1], ?_, hrest⟩
      simpa [isIdStart, IdFirst] using h1
    · by_cases h2 : isIdContinue U c = true
      · refine ⟨'_', c :: Ident.sanitizeLoop U 1 cs, by simp [h1, h2], Or.inr rfl, ?_⟩
        intro d hd
        rcases List.mem_cons.1 hd with rfl | hd
        · simpa [isIdContinue, IdRest] using h2
        · exact hrest d hd
      · exact ⟨'_', Ident.sanitizeLoop U 1 cs, by simp [h1, h2], Or.inr rfl, hrest⟩

/-- **C02**: sanitizing a valid identifier changes nothing. -/
theorem C02_sanitize_valid_id (U : Uni) (s : Str) (h : IsIdentifier U s) :
    Ident.newSanitized U s = s := by
  obtain ⟨c, cs, rfl, hc, hcs⟩ := h
  have hc' : isIdStart U c = true := by simpa [isIdStart, IdFirst] using hc
  simp [Ident.newSanitized, Ident.sanitizeLoop, Ident.sanitizeChar, hc',
    sanitizeLoop_id U cs 1 (by omega) hcs]

/-- **C02**: sanitizing is idempotent. -/
theorem C02_sanitize_idempotent (U : Uni) (s : Str) :
    Ident.newSanitized U (Ident.newSanitized U s) = Ident.newSanitized U s :=
  C02_sanitize_valid_id U _ (C02_sanitized_valid U s)

/-- **C02**: the documented replacement rules, for a non-empty input `c :: cs`: every later character
is kept or replaced by one underscore; the first one is kept, prefixed or replaced. -/
theorem C02_sanitize_rules (U : Uni) (c : Char) (cs : Str) :
    Ident.newSanitized U (c :: cs) =
      (if isIdent U [c] then [c] else if isIdContinue U c then ['_', c] else ['_'])
      ++ cs.map (fun d => if isIdContinue U d then d else '_') := by
  have loop : ∀ (l : Str) (i : Nat), 0 < i → Ident.sanitizeLoop U i l =
      l.map (fun d => if isIdContinue U d then d else '_') := by
    intro l
    induction l with
    | nil => intros; rfl
    | cons d ds ih =>
      intro i hi
      have hi' : (i == 0) = false := by simp; omega
      simp only [Ident.sanitizeLoop, Ident.sanitizeChar, hi', ih (i+1) (by omega), List.map_cons]
      by_cases hd : isIdContinue U d = true <;> simp [hd]
  simp only [Ident.newSanitized, List.isEmpty_cons, Bool.false_eq_true, if_false,
    Ident.sanitizeLoop, loop cs 1 (by omega), Ident.sanitizeChar]
  by_cases h1 : isIdStart U c = true <;> simp [h1, isIdent]

example : Ident.newSanitized Uni.ascii c!"1 two" = c!"_1_two" := by decide

end Verif.Props
