import Verif.Spec.ErrorMessage
import Mathlib.Data.List.Infix
/-!
C93: the message of a parse error.
-/

namespace Verif.Props
open Spec

theorem expectations_rest : ∀ (es : List Str) (e : Str) (i n : Nat), i > 0 → i + es.length + 1 = n →
    es ≠ [] → expectations n i (e :: es) = c!", " ++ alternatives (e :: es)
  | [], _, _, _, _, _, h => absurd rfl h
  | [f], e, i, n, hi, hn, _ => by
    simp only [List.length_cons, List.length_nil] at hn
    have h1 : ¬ i = n - 1 := by omega
    have h2 : i + 1 = n - 1 := by omega
    simp only [expectations, if_neg h1, if_pos hi, if_pos h2, alternatives, List.append_assoc, List.append_nil]
  | f :: g :: es, e, i, n, hi, hn, _ => by
    simp only [List.length_cons] at hn
    have h1 : ¬ i = n - 1 := by omega
    have := expectations_rest (g :: es) f (i + 1) n (by omega) (by simp only [List.length_cons]; omega) (by simp)
    rw [expectations, if_neg h1, if_pos hi, this]
    simp only [alternatives, List.append_assoc]

theorem expectations_eq (a b : Str) (es : List Str) :
    expectations (a :: b :: es).length 0 (a :: b :: es) = alternatives (a :: b :: es) := by
  cases es with
  | nil => simp [expectations, alternatives]
  | cons c es =>
    rw [expectations, expectations_rest (c :: es) b 1 _ (by omega) (by simp only [List.length_cons]; omega) (by simp)]
    simp [alternatives]

theorem expectedIn_eq (notes : List ParseNote) : notes.filterMap ParseNote.asExpected = expectedIn notes := by
  induction notes with
  | nil => rfl
  | cons n ns ih => cases n <;> simp [List.filterMap_cons, ParseNote.asExpected, expectedIn, ih]

theorem labelIn_eq (notes : List ParseNote) : notes.findSome? ParseNote.asLabel = labelIn notes := by
  induction notes with
  | nil => rfl
  | cons n ns ih => cases n <;> simp [List.findSome?_cons, ParseNote.asLabel, labelIn, ih]

/-- C93: the message names what was parsed, if a label was noted, then lists everything that was expected, or says
that there was an unexpected token if nothing was noted, and ends with the cause, if there is one. -/
theorem C93_message (notes : List ParseNote) (cause : Option Str) :
    errorMessage notes cause =
      ((labelIn notes).elim [] fun l => c!"invalid " ++ l ++ c!"; ") ++
      (if expectedIn notes = [] then c!"unexpected token"
        else c!"expected " ++ alternatives (expectedIn notes)) ++
      cause.elim [] fun c => c!"; " ++ c := by
  rw [← expectedIn_eq, ← labelIn_eq]
  unfold errorMessage
  have h : ∀ es : List Str, (if es.isEmpty then c!"unexpected token"
      else c!"expected " ++ match es with
        | [] => []
        | [e] => e
        | es => expectations es.length 0 es) =
      if es = [] then c!"unexpected token" else c!"expected " ++ alternatives es := by
    rintro (_ | ⟨a, _ | ⟨b, es⟩⟩)
    · rfl
    · rfl
    · simp only [expectations_eq]; rfl
  refine congrArg₂ (· ++ ·) (congrArg₂ (· ++ ·) ?_ (h _)) ?_
  · cases notes.findSome? ParseNote.asLabel <;> rfl
  · cases cause <;> rfl

/-- C93: every expectation is in the list, in full. -/
theorem C93_alternatives (es : List Str) (e : Str) (h : e ∈ es) : e <:+: alternatives es := by
  induction es with
  | nil => cases h
  | cons a es ih =>
    rcases es with _ | ⟨b, es⟩
    · rw [List.mem_singleton.1 h]; exact List.infix_rfl
    · rcases List.mem_cons.1 h with rfl | h
      · cases es with
        | nil => exact ⟨[], c!" or " ++ b, by simp [alternatives]⟩
        | cons f fs => exact ⟨[], c!", " ++ alternatives (b :: f :: fs), by simp [alternatives]⟩
      · obtain ⟨p, q, hpq⟩ := ih h
        cases es with
        | nil => exact ⟨a ++ c!" or " ++ p, q, by simp only [alternatives] at hpq ⊢; rw [← hpq]; simp⟩
        | cons f fs =>
          refine ⟨a ++ c!", " ++ p, q, ?_⟩
          rw [show alternatives (a :: b :: f :: fs) = a ++ c!", " ++ alternatives (b :: f :: fs) from rfl, ← hpq]
          simp

/-- C93: everything that was expected is in the message, and so are the first label and the cause. -/
theorem C93_mentions (notes : List ParseNote) (cause : Option Str) :
    (∀ s, .expected s ∈ notes → s <:+: errorMessage notes cause) ∧
    (∀ l, labelIn notes = some l → l <:+: errorMessage notes cause) ∧
    (∀ c, cause = some c → c <:+: errorMessage notes cause) := by
  rw [C93_message]
  refine ⟨fun s hs => ?_, fun l hl => ?_, fun c hc => ?_⟩
  · have hm : s ∈ expectedIn notes := by rw [← expectedIn_eq]; exact List.mem_filterMap.2 ⟨_, hs, rfl⟩
    rw [if_neg (List.ne_nil_of_mem hm)]
    exact (C93_alternatives _ _ hm).trans ((List.suffix_append _ _).isInfix.trans
      ((List.suffix_append _ _).isInfix.trans (List.prefix_append _ _).isInfix))
  · rw [hl]
    have : l <:+: c!"invalid " ++ l ++ c!"; " := ⟨c!"invalid ", c!"; ", rfl⟩
    exact this.trans ((List.prefix_append _ _).isInfix.trans (List.prefix_append _ _).isInfix)
  · subst hc
    exact (List.suffix_append (c!"; ") c).isInfix.trans (List.suffix_append _ _).isInfix

theorem alternatives_line (es : List Str) (h : ∀ e ∈ es, '\n' ∉ e) : '\n' ∉ alternatives es := by
  induction es with
  | nil => nofun
  | cons a es ih =>
    have ha := h a (List.mem_cons_self ..)
    have ih := ih fun e he => h e (List.mem_cons_of_mem _ he)
    rcases es with _ | ⟨b, _ | ⟨c, es⟩⟩
    · exact ha
    · have hb := h b (by simp)
      simp [alternatives, ha, hb]
    · rw [show alternatives (a :: b :: c :: es) = a ++ c!", " ++ alternatives (b :: c :: es) from rfl]
      simp [ha, ih]

/-- C93: the message is one line, if the notes and the cause are. -/
theorem C93_one_line (notes : List ParseNote) (cause : Option Str) (hl : ∀ s, .label s ∈ notes → '\n' ∉ s)
    (he : ∀ s, .expected s ∈ notes → '\n' ∉ s) (hc : ∀ s, cause = some s → '\n' ∉ s) :
    '\n' ∉ errorMessage notes cause := by
  rw [C93_message]
  simp only [List.mem_append, not_or]
  refine ⟨⟨?_, ?_⟩, ?_⟩
  · rw [← labelIn_eq]
    cases hf : notes.findSome? ParseNote.asLabel with
    | none => nofun
    | some l =>
      obtain ⟨n, hn, hnl⟩ := List.exists_of_findSome?_eq_some hf
      cases n with
      | expected s => cases hnl
      | label s => cases hnl; simp [hl _ hn]
  · split
    · decide
    · simp only [List.mem_append, not_or]
      refine ⟨by decide, alternatives_line _ fun e hm => ?_⟩
      rw [← expectedIn_eq] at hm
      obtain ⟨n, hn, hne⟩ := List.mem_filterMap.1 hm
      cases n with
      | label s => cases hne
      | expected s => cases hne; exact he _ hn
  · cases cause with
    | none => nofun
    | some c => simp [hc c rfl]

/-- C93: a message is never empty. -/
theorem C93_nonempty (notes : List ParseNote) (cause : Option Str) : errorMessage notes cause ≠ [] := by
  rw [C93_message]
  split <;> simp

/-- The message for an object item that is followed by something else. -/
example : errorMessage [.label c!"object item", .expected c!"`}`", .expected c!"`,`", .expected c!"newline"] none =
    c!"invalid object item; expected `}`, `,` or newline" := rfl
example : errorMessage [.expected c!"`]`"] (some c!"why") = c!"expected `]`; why" := rfl
example : errorMessage [] none = c!"unexpected token" := rfl

end Verif.Props
