import Verif.Lemmas.Run
import Verif.Lemmas.ParseLex
/-! Forward runs of the parsers for whitespace and comments. -/

namespace Verif.Gram
open P Spec

theorem tillLineEnding_run {t r : Str} (h1 : '\n' ∉ t) (h2 : '\r' ∉ t) (h3 : AtLineEnd r) :
    Runs tillLineEnding t r fun v => v = t := by
  intro pos
  refine ⟨t, ?_, rfl⟩
  have hr : ∀ c cs, r = c :: cs → (c != '\n' && c != '\r') = false := by
    rintro c cs rfl
    rcases h3 with h3 | ⟨k, h3⟩ | ⟨k, h3⟩
    · cases h3
    · injection h3 with h3 _; subst h3; rfl
    · injection h3 with h3 _; subst h3; rfl
  obtain ⟨v, h4, rfl⟩ := runs_takeWhile (f := fun c => c != '\n' && c != '\r') (t := t) (r := r) (by
    intro c hc
    have e1 : c ≠ '\n' := fun h => h1 (h ▸ hc)
    have e2 : c ≠ '\r' := fun h => h2 (h ▸ hc)
    simp [e1, e2]) hr pos
  unfold tillLineEnding
  rw [h4]
  dsimp only
  rcases h3 with rfl | ⟨k, rfl⟩ | ⟨k, rfl⟩ <;> rfl

/-- A text is a line up to its end, or it has a lone `\r`. -/
theorem tillLineEnding_cases (u : Str) :
    (∃ t r, u = t ++ r ∧ '\n' ∉ t ∧ '\r' ∉ t ∧ AtLineEnd r) ∨ Backs tillLineEnding u := by
  let f : Char → Bool := fun c => c != '\n' && c != '\r'
  have h1 : u = u.takeWhile f ++ u.dropWhile f := List.takeWhile_append_dropWhile.symm
  have h2 : ∀ c ∈ u.takeWhile f, f c = true := fun c hc => by
    have := List.all_takeWhile (p := f) (l := u)
    rw [List.all_eq_true] at this
    exact this c hc
  have h3 : '\n' ∉ u.takeWhile f := fun h => by cases h2 _ h
  have h4 : '\r' ∉ u.takeWhile f := fun h => by cases h2 _ h
  by_cases h5 : AtLineEnd (u.dropWhile f)
  · exact .inl ⟨_, _, h1, h3, h4, h5⟩
  · refine .inr fun pos => ?_
    unfold tillLineEnding P.takeWhile
    dsimp only
    cases h6 : u.dropWhile f with
    | nil => exact absurd (.inl h6) h5
    | cons c r =>
      have h7 : f c = false := by
        have := List.head?_dropWhile_not f u
        rw [h6] at this
        simpa using this
      have h8 : c = '\n' ∨ c = '\r' := by
        have : c = '\n' ∨ c = '\r' := by
          by_cases e1 : c = '\n'
          · exact .inl e1
          · by_cases e2 : c = '\r'
            · exact .inr e2
            · simp [f, e1, e2] at h7
        exact this
      rcases h8 with rfl | rfl
      · exact absurd (.inr (.inl ⟨r, h6.symm⟩)) h5
      · show ∃ j, (match List.dropWhile f u with | _ => _) = Res.back j
        rw [h6]
        cases r with
        | nil => exact ⟨_, rfl⟩
        | cons d r =>
          by_cases hd : d = '\n'
          · subst hd; exact absurd (.inr (.inr ⟨r, h6.symm⟩)) h5
          · refine ⟨⟨pos + (u.takeWhile f).length, '\r' :: d :: r⟩, ?_⟩
            dsimp only
            split
            · rename_i heq; injection heq with _ heq; injection heq with heq _; exact absurd heq hd
            · rfl
            · rename_i _ h; exact absurd rfl (h _)

theorem splitAtTag_run {tg t r : Str} (hne : tg ≠ []) (h : ¬ tg <:+: t ++ tg.dropLast) :
    splitAtTag tg (t ++ (tg ++ r)) = some (t, tg ++ r) := by
  induction t with
  | nil =>
    cases tg with
    | nil => exact absurd rfl hne
    | cons c tg =>
      show (match dropPrefix (c :: tg) (c :: tg ++ r) with | some _ => _ | none => _) = _
      rw [dropPrefix_append]; rfl
  | cons c t ih =>
    have h1 : ¬ tg <+: c :: t ++ (tg ++ r) := by
      rintro ⟨k, hk⟩
      apply h
      have hlen : tg.length ≤ (c :: t ++ tg.dropLast).length := by
        simp; omega
      have h2 : tg <+: c :: t ++ tg.dropLast := by
        have h3 : c :: t ++ tg.dropLast <+: c :: t ++ (tg ++ r) := by
          refine ⟨[tg.getLast hne] ++ r, ?_⟩
          rw [List.append_assoc, ← List.append_assoc tg.dropLast,
            List.dropLast_concat_getLast hne]
        exact List.prefix_of_prefix_length_le ⟨k, hk⟩ h3 hlen
      exact h2.isInfix
    show (match dropPrefix tg (c :: (t ++ (tg ++ r))) with | some _ => _ | none => _) = _
    rw [show c :: (t ++ (tg ++ r)) = c :: t ++ (tg ++ r) from rfl, dropPrefix_none h1]
    dsimp only
    have := ih fun h' => h (h'.trans (List.suffix_cons c _).isInfix)
    show Option.map _ (splitAtTag tg (t ++ (tg ++ r))) = _
    rw [this]
    rfl

theorem splitAtTag_none {tg u : Str} (hne : tg ≠ []) (h : splitAtTag tg u = none) : ¬ tg <:+: u := by
  induction u with
  | nil => rw [List.infix_nil]; exact hne
  | cons c u ih =>
    unfold splitAtTag at h
    cases h1 : dropPrefix tg (c :: u) with
    | some w => rw [h1] at h; cases h
    | none =>
      rw [h1] at h
      rw [List.infix_cons_iff]
      rintro (⟨k, hk⟩ | h2)
      · rw [← hk, dropPrefix_append] at h1; cases h1
      · refine ih ?_ h2
        cases h3 : splitAtTag tg u with
        | none => rfl
        | some w => rw [h3] at h; cases h

theorem splitAtTag_tag {tg u a b : Str} (hne : tg ≠ []) (h : splitAtTag tg u = some (a, b)) :
    ∃ k, b = tg ++ k := by
  induction u generalizing a with
  | nil =>
    unfold splitAtTag at h
    cases tg with
    | nil => exact absurd rfl hne
    | cons => cases h
  | cons c u ih =>
    unfold splitAtTag at h
    cases h1 : dropPrefix tg (c :: u) with
    | some w =>
      rw [h1] at h
      cases h
      exact ⟨w, dropPrefix_some h1⟩
    | none =>
      rw [h1] at h
      cases h3 : splitAtTag tg u with
      | none => rw [h3] at h; cases h
      | some w =>
        rw [h3] at h
        cases h
        exact ih h3

/-- A text without `*/` does not get one from a `*` after it. -/
theorem star_infix {t : Str} (h : ¬ c!"*/" <:+: t) : ¬ c!"*/" <:+: t ++ c!"*" := by
  rintro ⟨a, b, hab⟩
  rcases List.eq_nil_or_concat b with rfl | ⟨b, x, rfl⟩
  · rw [List.append_nil, show c!"*/" = c!"*" ++ c!"/" from rfl, ← List.append_assoc] at hab
    have := (List.append_inj' hab rfl).2
    cases this
  · rw [List.concat_eq_append, ← List.append_assoc] at hab
    exact h ⟨a, b, (List.append_inj' hab rfl).1⟩

theorem inlineComment_run {x r : Str} (h : BlockComment x) : Runs inlineComment x r fun _ => True := by
  obtain ⟨t, rfl, h⟩ := h
  rw [List.append_assoc]
  refine Runs.bind runs_tag fun _ _ => ?_
  refine Runs.bind (Q := fun _ => True) ?_ fun _ _ => runs_tag
  intro pos
  refine ⟨t, ?_, trivial⟩
  unfold takeUntil
  dsimp only
  rw [splitAtTag_run (by simp) (star_infix h)]

theorem inlineComment_cases (u : Str) :
    (∃ x r, u = x ++ r ∧ BlockComment x) ∨ Backs inlineComment u := by
  by_cases h : c!"/*" <+: u
  · obtain ⟨w, rfl⟩ := h
    cases h1 : splitAtTag c!"*/" w with
    | none =>
      refine .inr (runs_tag.bind_backs fun _ _ => Backs.bind fun pos => ⟨⟨pos, w⟩, ?_⟩)
      unfold takeUntil
      dsimp only
      rw [h1]
    | some ab =>
      obtain ⟨a, b⟩ := ab
      have h2 := splitAtTag_not_infix (by simp) h1
      obtain ⟨k, rfl⟩ := splitAtTag_tag (by simp) h1
      have h3 := splitAtTag_some h1
      refine .inl ⟨c!"/*" ++ a ++ c!"*/", k, ?_, a, rfl, h2⟩
      rw [h3, List.append_assoc, List.append_assoc]
  · exact .inr (backs_tag h).bind


/-! ### Comments and blanks -/

theorem hashComment_run {t r : Str} (h1 : '\n' ∉ t) (h2 : '\r' ∉ t) (h3 : AtLineEnd r) :
    Runs hashComment ('#' :: t) r fun _ => True :=
  Runs.bind (t := ['#']) runs_chr fun _ _ => (tillLineEnding_run h1 h2 h3).bind_last fun _ _ =>
    .pure trivial

theorem slashComment_run {t r : Str} (h1 : '\n' ∉ t) (h2 : '\r' ∉ t) (h3 : AtLineEnd r) :
    Runs slashComment ('/' :: '/' :: t) r fun _ => True :=
  Runs.bind (t := ['/', '/']) runs_tag fun _ _ => (tillLineEnding_run h1 h2 h3).bind_last fun _ _ =>
    .pure trivial

/-- The text starts with a comment. -/
def StartsComment (nl : Bool) (x r : Str) : Prop :=
  BlockComment x ∨ nl = true ∧ LineComment x ∧ AtLineEnd r

theorem hashComment_cases (u : Str) :
    (∃ x r, u = x ++ r ∧ LineComment x ∧ AtLineEnd r) ∨ Backs hashComment u := by
  by_cases h : c!"#" <+: u
  · obtain ⟨w, rfl⟩ := h
    rcases tillLineEnding_cases w with ⟨t, r, rfl, h1, h2, h3⟩ | h
    · exact .inl ⟨'#' :: t, r, rfl, ⟨t, .inl rfl, h1, h2⟩, h3⟩
    · exact .inr (Runs.bind_backs (t := ['#']) runs_chr fun _ _ => h.bind)
  · exact .inr (backs_chr fun cs he => h ⟨cs, he.symm⟩).bind

theorem slashComment_cases (u : Str) :
    (∃ x r, u = x ++ r ∧ LineComment x ∧ AtLineEnd r) ∨ Backs slashComment u := by
  by_cases h : c!"//" <+: u
  · obtain ⟨w, rfl⟩ := h
    rcases tillLineEnding_cases w with ⟨t, r, rfl, h1, h2, h3⟩ | h
    · exact .inl ⟨'/' :: '/' :: t, r, rfl, ⟨t, .inr rfl, h1, h2⟩, h3⟩
    · exact .inr (Runs.bind_backs (t := ['/', '/']) runs_tag fun _ _ => h.bind)
  · exact .inr (backs_tag h).bind

/-- The comment parser of `ws` and of `sp`. -/
def commentP (nl : Bool) : P Unit := if nl then comment else inlineComment

theorem comment_run {nl : Bool} {x r : Str} (h : StartsComment nl x r) :
    Runs (commentP nl) x r fun _ => True := by
  cases nl with
  | false =>
    rcases h with h | ⟨h, -⟩
    · exact inlineComment_run h
    · cases h
  | true =>
    show Runs comment x r fun _ => True
    unfold comment
    rcases h with h | ⟨-, ⟨t, h, h1, h2⟩, h3⟩
    · have hi := inlineComment_run (r := r) h
      obtain ⟨t, rfl, h⟩ := h
      refine Runs.bind_nil (Runs.peek (t := ['/'])
        (r := '*' :: (t ++ c!"*/" ++ r)) runs_any) ?_
      rintro _ rfl
      rw [if_neg (by decide), if_pos rfl]
      refine .alt_right ?_ hi
      exact (backs_tag (by rintro ⟨k, hk⟩; injection hk with _ hk; injection hk with hk _; cases hk)).bind
    · rcases h with rfl | rfl
      · refine Runs.bind_nil (Runs.peek (t := ['#']) (r := t ++ r) runs_any) ?_
        rintro _ rfl
        rw [if_pos rfl]
        exact hashComment_run h1 h2 h3
      · refine Runs.bind_nil (Runs.peek (t := ['/']) (r := '/' :: (t ++ r)) runs_any) ?_
        rintro _ rfl
        rw [if_neg (by decide), if_pos rfl]
        exact (slashComment_run h1 h2 h3).alt_left

theorem comment_cases (nl : Bool) (u : Str) :
    (∃ x r, u = x ++ r ∧ StartsComment nl x r) ∨ Backs (commentP nl) u := by
  cases nl with
  | false =>
    rcases inlineComment_cases u with ⟨x, r, h, h1⟩ | h
    · exact .inl ⟨x, r, h, .inl h1⟩
    · exact .inr h
  | true =>
    by_cases hs : ∃ x r, u = x ++ r ∧ StartsComment true x r
    · exact .inl hs
    · refine .inr ?_
      have h1 : Backs hashComment u := (hashComment_cases u).resolve_left fun ⟨x, r, h, h1, h2⟩ =>
        hs ⟨x, r, h, .inr ⟨rfl, h1, h2⟩⟩
      have h2 : Backs slashComment u := (slashComment_cases u).resolve_left fun ⟨x, r, h, h1, h2⟩ =>
        hs ⟨x, r, h, .inr ⟨rfl, h1, h2⟩⟩
      have h3 : Backs inlineComment u := (inlineComment_cases u).resolve_left fun ⟨x, r, h, h1⟩ =>
        hs ⟨x, r, h, .inl h1⟩
      show Backs comment u
      unfold comment
      cases u with
      | nil => exact Backs.bind fun pos => ⟨_, rfl⟩
      | cons c u =>
        refine Runs.bind_backs (t := []) (r := c :: u) (Runs.peek (t := [c]) (r := u) runs_any) ?_
        rintro _ rfl
        split
        · exact h1
        · split
          · exact h2.alt h3
          · exact backs_fail

theorem startsComment_ne {nl : Bool} {x r : Str} (h : StartsComment nl x r) : x ≠ [] := by
  rcases h with ⟨t, rfl, -⟩ | ⟨-, ⟨t, rfl | rfl, -⟩, -⟩ <;> simp

/-- Blanks and, with `nl`, line breaks. -/
def blanksP (nl : Bool) : P Str := if nl then multispace0 else space0

theorem blanks_run {nl : Bool} {t r : Str} (h1 : ∀ c ∈ t, isBlank nl c = true)
    (h2 : ∀ c cs, r = c :: cs → isBlank nl c = false) : Runs (blanksP nl) t r fun _ => True := by
  cases nl with
  | false =>
    exact (runs_takeWhile (fun c hc => by simpa [isBlank] using h1 c hc)
      fun c cs hc => by simpa [isBlank] using h2 c cs hc).conseq fun _ _ => trivial
  | true =>
    exact (runs_takeWhile (fun c hc => by simpa [isBlank, Bool.or_assoc] using h1 c hc)
      fun c cs hc => by simpa [isBlank, Bool.or_assoc, and_assoc] using h2 c cs hc).conseq
        fun _ _ => trivial

theorem blanks_split (nl : Bool) (u : Str) : ∃ t r, u = t ++ r ∧ (∀ c ∈ t, isBlank nl c = true) ∧
    ∀ c cs, r = c :: cs → isBlank nl c = false := by
  refine ⟨u.takeWhile (isBlank nl), u.dropWhile (isBlank nl), List.takeWhile_append_dropWhile.symm,
    fun c hc => ?_, fun c cs hc => ?_⟩
  · have := List.all_takeWhile (p := isBlank nl) (l := u)
    rw [List.all_eq_true] at this
    exact this c hc
  · have := List.head?_dropWhile_not (isBlank nl) u
    rw [hc] at this
    simpa using this

/-- A comment with the blanks after it. -/
def stepP (nl : Bool) : P Unit := P.bind (commentP nl) fun _ => P.bind (blanksP nl) fun _ => P.pure ()

/-- `triviaP` in terms of its parts. -/
theorem triviaP_eq (nl : Bool) : triviaP nl =
    P.bind (blanksP nl) fun _ => P.bind (P.repeat0 (stepP nl)) fun _ => P.pure () := by
  cases nl <;> rfl

theorem steps_split (nl : Bool) (n : Nat) : ∀ u : Str, u.length < n →
    (∀ c cs, u = c :: cs → isBlank nl c = false) →
    ∃ x r, u = x ++ r ∧ Reps (stepP nl) (fun _ => True) x r ∧ Trivia nl x ∧ ¬ StartsTrivia nl r ∧
      (x = [] ∨ ∃ x' x'', x = x' ++ x'' ∧ StartsComment nl x' (x'' ++ r)) := by
  induction n with
  | zero => intro u h; omega
  | succ n ih =>
    intro u hn hu
    rcases comment_cases nl u with ⟨x, v, rfl, h1⟩ | h
    · obtain ⟨bl, w, rfl, h2, h3⟩ := blanks_split nl v
      have hne := startsComment_ne h1
      have hlen : 0 < x.length := List.length_pos_iff.mpr hne
      obtain ⟨y, r, rfl, h4, h5, h6, -⟩ := ih w (by simp at hn; omega) h3
      refine ⟨(x ++ bl) ++ y, r, by simp, ?_, ?_, h6, .inr ⟨x, bl ++ y, by simp, by simpa using h1⟩⟩
      · refine Reps.cons (Q := fun _ => True) (by simp [hne]) ?_ fun _ _ => h4.conseq fun _ _ => trivial
        refine Runs.bind (comment_run h1) fun _ _ => ?_
        exact (blanks_run h2 h3).bind_last fun _ _ => .pure trivial
      · rw [List.append_assoc]
        have hb := Trivia.blanks h2 h5
        rcases h1 with h1 | ⟨rfl, h1, h7⟩
        · exact .block h1 hb
        · refine .line h1 ?_ hb
          rw [← List.append_assoc] at h7
          generalize hz : bl ++ y = z at h7
          cases z with
          | nil => exact .inl rfl
          | cons c z =>
            rcases h7 with h7 | ⟨k, h7⟩ | ⟨k, h7⟩
            · cases h7
            · injection h7 with h7 _; subst h7; exact .inr (.inl rfl)
            · injection h7 with h7 _; subst h7; exact .inr (.inr rfl)
    · refine ⟨[], u, rfl, .nil h.bind trivial, .nil, ?_, .inl rfl⟩
      rintro (⟨c, r, rfl, hc⟩ | ⟨x, r, rfl, hx⟩)
      · have := hu c r rfl
        rcases hc with rfl | rfl | ⟨rfl, rfl | rfl⟩
        · cases nl <;> cases this
        · cases nl <;> cases this
        · cases this
        · cases this
      · obtain ⟨v, h1, -⟩ := comment_run (nl := nl) (x := x) (r := r) hx 0
        obtain ⟨j, h2⟩ := h 0
        rw [h1] at h2; cases h2

theorem trivia_run (nl : Bool) (u : Str) : ∃ x r, u = x ++ r ∧ Trivia nl x ∧ ¬ StartsTrivia nl r ∧
    Runs (triviaP nl) x r fun _ => True := by
  obtain ⟨bl, w, rfl, h1, h2⟩ := blanks_split nl u
  obtain ⟨x, r, rfl, h3, h4, h5, -⟩ := steps_split nl _ w (Nat.lt_succ_self _) h2
  refine ⟨bl ++ x, r, by simp, Trivia.blanks h1 h4, h5, ?_⟩
  rw [triviaP_eq]
  exact Runs.bind (blanks_run h1 h2) fun _ _ => h3.runs.bind_last fun _ _ => .pure trivial

/-- Blanks in front of something that is not trivia. -/
theorem runs_blanks {nl : Bool} {t r : Str} (h1 : ∀ c ∈ t, isBlank nl c = true)
    (h2 : ¬ StartsTrivia nl r) : Runs (triviaP nl) t r fun _ => True := by
  have h3 : ∀ c cs, r = c :: cs → isBlank nl c = false := by
    rintro c cs rfl
    cases hb : isBlank nl c with
    | false => rfl
    | true =>
      refine absurd (.inl ⟨c, cs, rfl, ?_⟩) h2
      cases nl <;> simp [isBlank] at hb ⊢
      · exact hb
      · rcases hb with (rfl | rfl) | rfl | rfl <;> decide
  rw [triviaP_eq]
  refine (blanks_run h1 h3).bind_last fun _ _ => Runs.bind_last (Q := fun _ => True) ?_ fun _ _ => .pure trivial
  refine Reps.runs (.nil (Backs.bind ?_) trivial)
  rcases comment_cases nl r with ⟨x, y, rfl, h⟩ | h
  · exact absurd (.inr ⟨x, y, rfl, h⟩) h2
  · exact h

end Verif.Gram
