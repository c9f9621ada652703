import Verif.Model.Markers
import Verif.Spec.Literal
/-! Helper lemmas about marker escaping. -/

namespace Verif.Markers
open Verif Verif.Spec

/-- The text starts with a sigil directly followed by `{`. -/
def StartsLive (s : Str) : Prop := ∃ c b, s = c :: '{' :: b ∧ Sigil c

/-- The text starts with `{`. -/
def StartsBrace (s : Str) : Prop := ∃ b, s = '{' :: b

theorem sigil_ne_brace {c : Char} (h : Sigil c) : c ≠ '{' := by
  rcases h with rfl | rfl <;> decide

theorem not_sigil_iff {c : Char} : ¬ Sigil c ↔ (c ≠ '$' ∧ c ≠ '%') := by
  simp [Sigil]

theorem startsMarker_iff (s : Str) : startsMarker s = true ↔ StartsLive s := by
  constructor
  · intro h
    unfold startsMarker at h
    split at h
    · exact ⟨_, _, rfl, Or.inl rfl⟩
    · exact ⟨_, _, rfl, Or.inr rfl⟩
    · exact absurd h (by decide)
  · rintro ⟨c, b, rfl, rfl | rfl⟩ <;> rfl

theorem startsEscapedMarker_iff (s : Str) :
    startsEscapedMarker s = true ↔ ∃ c b, s = c :: c :: '{' :: b ∧ Sigil c := by
  constructor
  · intro h
    unfold startsEscapedMarker at h
    split at h
    · exact ⟨_, _, rfl, Or.inl rfl⟩
    · exact ⟨_, _, rfl, Or.inr rfl⟩
    · exact absurd h (by decide)
  · rintro ⟨c, b, rfl, rfl | rfl⟩ <;> rfl

theorem readLiteral_esc {c : Char} (h : Sigil c) (r : Str) :
    readLiteral (c :: c :: '{' :: r) = (readLiteral r).map (fun t => c :: '{' :: t) := by
  rcases h with rfl | rfl <;> rfl

theorem readLiteral_live {c : Char} (h : Sigil c) (r : Str) :
    readLiteral (c :: '{' :: r) = none := by
  rcases h with rfl | rfl <;> rfl

/-- Reading a character that does not start a marker or an escaped marker. -/
theorem readLiteral_cons (c : Char) (r : Str)
    (h1 : Sigil c → ¬ StartsBrace r)
    (h2 : Sigil c → ∀ b, r ≠ c :: '{' :: b) :
    readLiteral (c :: r) = (readLiteral r).map (c :: ·) := by
  rw [readLiteral.eq_def]
  split
  · rename_i heq; cases heq; exact absurd rfl (h2 (Or.inl rfl) _)
  · rename_i heq; cases heq; exact absurd rfl (h2 (Or.inr rfl) _)
  · rename_i heq; cases heq; exact absurd ⟨_, rfl⟩ (h1 (Or.inl rfl))
  · rename_i heq; cases heq; exact absurd ⟨_, rfl⟩ (h1 (Or.inr rfl))
  · rename_i heq; cases heq; rfl
  · rename_i heq; cases heq

theorem escOwned_nonsigil {c : Char} (h : ¬ Sigil c) (r : Str) :
    escapeMarkersOwned (c :: r) = c :: escapeMarkersOwned r := by
  rw [escapeMarkersOwned.eq_def]; simp only []; rw [if_pos (not_sigil_iff.1 h)]

theorem escOwned_marker {c : Char} (h : Sigil c) (r : Str) :
    escapeMarkersOwned (c :: '{' :: r) = c :: c :: '{' :: escapeMarkersOwned r := by
  have : ¬ (c ≠ '$' ∧ c ≠ '%') := fun hh => not_sigil_iff.2 hh h
  rw [escapeMarkersOwned, if_neg this]; simp

theorem escOwned_sigil {c d : Char} (h : Sigil c) (hd : d ≠ '{') (r : Str) :
    escapeMarkersOwned (c :: d :: r) = c :: d :: escapeMarkersOwned r := by
  have : ¬ (c ≠ '$' ∧ c ≠ '%') := fun hh => not_sigil_iff.2 hh h
  rw [escapeMarkersOwned, if_neg this]; simp [hd]

theorem escOwned_sigil_nil {c : Char} (h : Sigil c) : escapeMarkersOwned [c] = [c] := by
  have : ¬ (c ≠ '$' ∧ c ≠ '%') := fun hh => not_sigil_iff.2 hh h
  rw [escapeMarkersOwned, if_neg this]

/-- Recursion scheme of `escapeMarkersOwned`. -/
theorem owned_induction {P : Str → Prop} (hnil : P [])
    (hns : ∀ c r, ¬ Sigil c → P r → P (c :: r))
    (hm : ∀ c r, Sigil c → P r → P (c :: '{' :: r))
    (hs : ∀ c d r, Sigil c → d ≠ '{' → P r → P (c :: d :: r))
    (h1 : ∀ c, Sigil c → P [c]) : ∀ s, P s := by
  intro s
  induction hn : s.length using Nat.strongRecOn generalizing s with
  | ind n ih =>
    match s with
    | [] => exact hnil
    | c :: r =>
      simp only [List.length_cons] at hn
      by_cases hc : Sigil c
      · match r with
        | [] => exact h1 c hc
        | d :: r' =>
          simp only [List.length_cons] at hn
          have := ih r'.length (by omega) r' rfl
          by_cases hd : d = '{'
          · subst hd; exact hm c r' hc this
          · exact hs c d r' hc hd this
      · exact hns c r hc (ih r.length (by omega) r rfl)

/-- The slow path never puts a sigil directly followed by `{` first. -/
theorem escOwned_not_live (s : Str) : ¬ StartsLive (escapeMarkersOwned s) := by
  rintro ⟨c, b, h, hc⟩
  revert h
  induction s using owned_induction with
  | hnil => simp [escapeMarkersOwned]
  | hns d r hd _ => rw [escOwned_nonsigil hd]; intro h; injection h with h1 _; exact hd (h1 ▸ hc)
  | hm d r hd _ => rw [escOwned_marker hd]; intro h; cases h; exact sigil_ne_brace hd rfl
  | hs d e r hd he _ => rw [escOwned_sigil hd he]; intro h; cases h; exact he rfl
  | h1 d hd => rw [escOwned_sigil_nil hd]; intro h; cases h

/-- The slow path keeps the first character. -/
theorem escOwned_brace (s : Str) : StartsBrace (escapeMarkersOwned s) ↔ StartsBrace s := by
  unfold StartsBrace
  induction s using owned_induction with
  | hnil => simp [escapeMarkersOwned]
  | hns d r hd _ => rw [escOwned_nonsigil hd]; simp
  | hm d r hd _ => rw [escOwned_marker hd]; simp
  | hs d e r hd he _ => rw [escOwned_sigil hd he]; simp
  | h1 d hd => rw [escOwned_sigil_nil hd]

theorem esc_live {s : Str} (h : StartsLive s) : escapeMarkers s = escapeMarkersOwned s := by
  obtain ⟨c, b, rfl, hc⟩ := h
  rw [escapeMarkers, if_pos ((startsMarker_iff _).2 ⟨c, b, rfl, hc⟩)]

theorem esc_cons {c : Char} {r : Str} (h : ¬ StartsLive (c :: r)) :
    escapeMarkers (c :: r) = c :: escapeMarkers r := by
  rw [escapeMarkers, if_neg (fun hh => h ((startsMarker_iff _).1 hh))]

theorem esc_brace (s : Str) : StartsBrace (escapeMarkers s) ↔ StartsBrace s := by
  cases s with
  | nil => simp [escapeMarkers]
  | cons c r =>
    by_cases h : StartsLive (c :: r)
    · rw [esc_live h]; exact escOwned_brace _
    · rw [esc_cons h]; unfold StartsBrace; simp

theorem esc_not_live (s : Str) : ¬ StartsLive (escapeMarkers s) := by
  cases s with
  | nil => rintro ⟨c, b, h, _⟩; simp [escapeMarkers] at h
  | cons c r =>
    by_cases h : StartsLive (c :: r)
    · rw [esc_live h]; exact escOwned_not_live _
    · rw [esc_cons h]
      rintro ⟨d, b, heq, hd⟩
      injection heq with h1 h2
      apply h
      obtain ⟨b', rfl⟩ := (esc_brace r).1 ⟨b, h2⟩
      exact ⟨c, b', rfl, h1 ▸ hd⟩

/-- No marker in the text is directly preceded by a sigil. -/
def NoSigilBeforeMarker (s : Str) : Prop :=
  ∀ a c d b, s = a ++ c :: d :: '{' :: b → Sigil c → ¬ Sigil d

theorem NoSigilBeforeMarker.tail {c : Char} {s : Str} (h : NoSigilBeforeMarker (c :: s)) :
    NoSigilBeforeMarker s := by
  intro a x d b heq hx
  exact h (c :: a) x d b (by simp [heq]) hx

theorem read_escOwned (s : Str) (h : NoSigilBeforeMarker s) :
    readLiteral (escapeMarkersOwned s) = some s := by
  induction s using owned_induction with
  | hnil => rfl
  | hns c r hc ih =>
    rw [escOwned_nonsigil hc, readLiteral_cons _ _ (fun h => absurd h hc) (fun h => absurd h hc),
      ih h.tail]
    rfl
  | hm c r hc ih =>
    rw [escOwned_marker hc, readLiteral_esc hc, ih h.tail.tail]; rfl
  | hs c d r hc hd ih =>
    have hbr : Sigil d → ¬ StartsBrace r := by
      rintro hsd ⟨b, rfl⟩
      exact h [] c d b rfl hc hsd
    have hlive := escOwned_not_live r
    rw [escOwned_sigil hc hd]
    rw [readLiteral_cons c]
    · rw [readLiteral_cons d]
      · rw [ih h.tail.tail]; rfl
      · intro hsd hb; exact hbr hsd ((escOwned_brace r).1 hb)
      · intro hsd b hb; exact hlive ⟨d, b, hb, hsd⟩
    · rintro _ ⟨b, hb⟩; injection hb with h1 _; exact hd h1
    · intro _ b hb
      injection hb with h1 h2
      exact hbr (h1 ▸ hc) ((escOwned_brace r).1 ⟨b, h2⟩)
  | h1 c hc =>
    rw [escOwned_sigil_nil hc, readLiteral_cons]
    · rfl
    · rintro _ ⟨b, hb⟩; cases hb
    · intro _ b hb; cases hb

theorem HasMarker.cons {s : Str} (c : Char) (h : HasMarker s) : HasMarker (c :: s) := by
  obtain ⟨a, d, b, rfl, hd⟩ := h
  exact ⟨c :: a, d, b, rfl, hd⟩

/-- Once a text starts with a marker, a condition "after the first marker" becomes unconditional. -/
theorem noSigil_of_live {s : Str} (hl : StartsLive s)
    (h : ∀ a c d b, s = a ++ c :: d :: '{' :: b → Sigil c → Sigil d → ¬ HasMarker a) :
    NoSigilBeforeMarker s := by
  obtain ⟨x, t, rfl, hx⟩ := hl
  intro a c d b heq hc hd
  match a, heq with
  | [], heq => cases heq; exact sigil_ne_brace hd rfl
  | [y], heq => cases heq; exact sigil_ne_brace hc rfl
  | y :: z :: a', heq =>
    refine h (y :: z :: a') c d b heq hc hd ?_
    cases heq
    exact ⟨[], _, _, rfl, hx⟩

theorem read_esc (s : Str)
    (h : ∀ a c d b, s = a ++ c :: d :: '{' :: b → Sigil c → Sigil d → ¬ HasMarker a) :
    readLiteral (escapeMarkers s) = some s := by
  induction s with
  | nil => rfl
  | cons c r ih =>
    by_cases hl : StartsLive (c :: r)
    · rw [esc_live hl]; exact read_escOwned _ (noSigil_of_live hl h)
    · rw [esc_cons hl, readLiteral_cons]
      · rw [ih]
        · rfl
        · intro a x d b heq hx hd hm
          exact h (c :: a) x d b (by simp [heq]) hx hd (HasMarker.cons c hm)
      · rintro hc hb
        obtain ⟨b, rfl⟩ := (esc_brace r).1 hb
        exact hl ⟨c, b, rfl, hc⟩
      · intro hc b hb; exact esc_not_live r ⟨c, b, hb, hc⟩

/-! Texts without markers are left alone by all functions. -/

theorem not_hasMarker_tail {c : Char} {s : Str} (h : ¬ HasMarker (c :: s)) : ¬ HasMarker s :=
  fun hh => h (HasMarker.cons c hh)

theorem escOwned_id (s : Str) (h : ¬ HasMarker s) : escapeMarkersOwned s = s := by
  induction s using owned_induction with
  | hnil => rfl
  | hns c r hc ih => rw [escOwned_nonsigil hc, ih (not_hasMarker_tail h)]
  | hm c r hc ih => exact absurd ⟨[], c, r, rfl, hc⟩ h
  | hs c d r hc hd ih =>
    rw [escOwned_sigil hc hd, ih (not_hasMarker_tail (not_hasMarker_tail h))]
  | h1 c hc => exact escOwned_sigil_nil hc

theorem unescOwned_nonsigil {c : Char} (h : ¬ Sigil c) (r : Str) :
    unescapeMarkersOwned (c :: r) = c :: unescapeMarkersOwned r := by
  rw [unescapeMarkersOwned.eq_def]; simp only []; rw [if_pos (not_sigil_iff.1 h)]

theorem unescOwned_esc {c : Char} (h : Sigil c) (r : Str) :
    unescapeMarkersOwned (c :: c :: '{' :: r) = c :: '{' :: unescapeMarkersOwned r := by
  have : ¬ (c ≠ '$' ∧ c ≠ '%') := fun hh => not_sigil_iff.2 hh h
  rw [unescapeMarkersOwned, if_neg this]; simp

theorem unescOwned_id (s : Str) (h : ¬ HasMarker s) : unescapeMarkersOwned s = s := by
  induction hn : s.length using Nat.strongRecOn generalizing s with
  | ind n ih =>
    match s, h, hn with
    | [], _, _ => rfl
    | c :: r, h, hn =>
      simp only [List.length_cons] at hn
      by_cases hc : Sigil c
      · have hc' : ¬ (c ≠ '$' ∧ c ≠ '%') := fun hh => not_sigil_iff.2 hh hc
        rw [unescapeMarkersOwned.eq_def]; simp only []; rw [if_neg hc']
        match r with
        | [] => rfl
        | [_] => rfl
        | d :: e :: r' =>
          simp only [List.length_cons] at hn
          have hne : ¬ (d = c ∧ e = '{') := by
            rintro ⟨rfl, rfl⟩
            exact h ⟨[d], d, r', rfl, hc⟩
          simp only [hne, if_false]
          rw [ih r'.length (by omega) r'
            (not_hasMarker_tail (not_hasMarker_tail (not_hasMarker_tail h))) rfl]
      · rw [unescOwned_nonsigil hc, ih r.length (by omega) r (not_hasMarker_tail h) rfl]

theorem unescOwned_escOwned (s : Str)
    (h : ∀ a c b, s = a ++ c :: b → Sigil c → HasMarker (c :: b) → StartsBrace b) :
    unescapeMarkersOwned (escapeMarkersOwned s) = s := by
  induction s using owned_induction with
  | hnil => rfl
  | hns c r hc ih =>
    rw [escOwned_nonsigil hc, unescOwned_nonsigil hc, ih]
    intro a d b heq hd hm
    exact h (c :: a) d b (by simp [heq]) hd hm
  | hm c r hc ih =>
    rw [escOwned_marker hc, unescOwned_esc hc, ih]
    intro a d b heq hd hm
    exact h (c :: '{' :: a) d b (by simp [heq]) hd hm
  | hs c d r hc hd ih =>
    have : ¬ HasMarker (c :: d :: r) := by
      intro hm
      obtain ⟨b, hb⟩ := h [] c (d :: r) rfl hc hm
      cases hb; exact hd rfl
    rw [escOwned_id _ this, unescOwned_id _ this]
  | h1 c hc =>
    have : ¬ HasMarker [c] := by
      rintro ⟨a, d, b, heq, _⟩
      have := congrArg List.length heq
      simp at this; omega
    rw [escOwned_id _ this, unescOwned_id _ this]

theorem unesc_esc (s : Str)
    (h : ∀ a c b, s = a ++ c :: b → HasMarker a → Sigil c → HasMarker (c :: b) → StartsBrace b) :
    unescapeMarkers (escapeMarkers s) = s := by
  induction s with
  | nil => rfl
  | cons c r ih =>
    by_cases hl : StartsLive (c :: r)
    · rw [esc_live hl]
      obtain ⟨x, t, heq, hx⟩ := hl
      rw [heq, escOwned_marker hx, unescapeMarkers,
        if_pos ((startsEscapedMarker_iff _).2 ⟨x, _, rfl, hx⟩), unescOwned_esc hx,
        unescOwned_escOwned]
      intro a d b ht hd hm
      refine h (x :: '{' :: a) d b (by rw [heq, ht]; rfl) ⟨[], x, a, rfl, hx⟩ hd hm
    · rw [esc_cons hl, unescapeMarkers, if_neg, ih]
      · intro a d b heq hma hd hm
        exact h (c :: a) d b (by simp [heq]) (HasMarker.cons c hma) hd hm
      · intro hh
        obtain ⟨d, b, heq, hd⟩ := (startsEscapedMarker_iff _).1 hh
        injection heq with h1 h2
        exact esc_not_live r ⟨d, b, h2, hd⟩

end Verif.Markers
