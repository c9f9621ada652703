import Verif.Lemmas.RunLex
import Verif.Spec.Syntax
/-! Running the parser on the literal text of templates. -/

namespace Verif.Gram
open P Spec Syn

/-- The parser of what ends literal text succeeds exactly on the texts with `Stop`. -/
structure Ends (e : P Unit) (Stop : Str → Prop) : Prop where
  runs : ∀ {u}, Stop u → ∃ t r, u = t ++ r ∧ Runs e t r fun _ => True
  backs : ∀ {u}, ¬ Stop u → Backs e u
  nil : ¬ Stop []

/-- `quotedFragment` and `templateFragment` in one. -/
def litFragment (q : Bool) (e : P Unit) : P Str :=
  P.alt escapedMarker (bif q then P.alt (anyUntil e) (P.map (fun c => [c]) escapedChar) else anyUntil e)

theorem quotedFragment_eq : quotedFragment = litFragment true quotedEnd := rfl

theorem templateFragment_eq (e : P Unit) : templateFragment e = litFragment false e := rfl

/-- The text starts with a marker. -/
def StartsMark (u : Str) : Prop := ∃ c r, Sigil c ∧ u = c :: '{' :: r

theorem ends_quoted : Ends quotedEnd StartsEnd := by
  refine ⟨runs_quotedEnd, backs_quotedEnd, ?_⟩
  rintro (⟨r, h⟩ | ⟨r, h⟩ | ⟨c, r, -, h⟩) <;> cases h

theorem ends_template : Ends templateEnd StartsMark := by
  refine ⟨?_, ?_, ?_⟩
  · rintro u ⟨c, r, hc | hc, rfl⟩ <;> subst hc
    · exact ⟨c!"${", r, rfl, Runs.alt_left runs_tag⟩
    · exact ⟨c!"%{", r, rfl, Runs.alt_right (backs_tag (by rintro ⟨k, hk⟩; injection hk with hk _; cases hk)) runs_tag⟩
  · intro u h
    refine Backs.alt (backs_tag ?_) (backs_tag ?_)
    · rintro ⟨k, rfl⟩; exact h ⟨'$', k, .inl rfl, rfl⟩
    · rintro ⟨k, rfl⟩; exact h ⟨'%', k, .inr rfl, rfl⟩
  · rintro ⟨c, r, -, h⟩; cases h

/-- Literal text in front of `r`. -/
inductive LitRun (q : Bool) (Stop : Str → Prop) (r : Str) : Str → Str → Prop
  | nil : LitRun q Stop r [] []
  | marker {c t v} : Sigil c → LitRun q Stop r t v → LitRun q Stop r (c :: c :: '{' :: t) (c :: '{' :: v)
  | esc {e c t v} : q = true → Escape e c → LitRun q Stop r t v → LitRun q Stop r (e ++ t) (c :: v)
  | char {c t v} : ¬ StartsEsc (c :: (t ++ r)) → ¬ Stop (c :: (t ++ r)) → LitRun q Stop r t v →
      LitRun q Stop r (c :: t) (c :: v)

/-- Literal text ends in front of `r`. -/
structure LitStop (q : Bool) (Stop : Str → Prop) (r : Str) : Prop where
  esc : ¬ StartsEsc r
  stop : Stop r ∨ r = []
  back : q = true → ∀ k, r ≠ '\\' :: k
  slash : q = true → ∀ k, Stop ('\\' :: k)

/-- One character of literal text. -/
def litChar (e : P Unit) : P Char := preceded (notP (P.alt (P.map (fun _ => ()) escapedMarker) e)) any

variable {q : Bool} {e : P Unit} {Stop : Str → Prop}

theorem runs_litChar (H : Ends e Stop) {c : Char} {r : Str} (h1 : ¬ StartsEsc (c :: r)) (h2 : ¬ Stop (c :: r)) :
    Runs (litChar e) [c] r fun v => v = c :=
  (((backs_escapedMarker h1).map).alt (H.backs h2)).notP.bind_nil fun _ _ => runs_any

/-- A failure that leaves the input as it is. -/
def Stays {α : Type} (p : P α) (u : Str) : Prop := ∀ pos, p ⟨pos, u⟩ = .back ⟨pos, u⟩

theorem Stays.backs {α : Type} {p : P α} {u : Str} (h : Stays p u) : Backs p u := fun pos => ⟨_, h pos⟩

theorem stays_litChar (H : Ends e Stop) {u : Str} (h : StartsEsc u ∨ Stop u ∨ u = []) : Stays (litChar e) u := by
  intro pos
  unfold litChar preceded P.bind
  have hit : ∀ {t r : Str}, Runs (P.alt (P.map (fun _ => ()) escapedMarker) e) t r (fun _ => True) →
      notP (P.alt (P.map (fun _ => ()) escapedMarker) e) ⟨pos, t ++ r⟩ = .back ⟨pos, t ++ r⟩ := by
    intro t r h
    obtain ⟨v, h1, -⟩ := h pos
    unfold notP
    rw [h1]
  by_cases he : StartsEsc u
  · obtain ⟨c, r, hc, rfl⟩ := he
    rw [show c :: c :: '{' :: r = [c, c, '{'] ++ r from rfl, hit (Runs.alt_left (.map ((runs_escapedMarker hc).conseq fun _ _ => trivial)))]
  · rcases h with h | h | h
    · exact absurd h he
    · obtain ⟨t, r, rfl, h1⟩ := H.runs h
      rw [hit (Runs.alt_right (backs_escapedMarker he).map h1)]
    · subst h
      obtain ⟨v, h1, -⟩ := (((backs_escapedMarker he).map (f := fun _ => ())).alt (H.backs H.nil)).notP pos
      rw [List.nil_append] at h1
      rw [h1]
      rfl

theorem stays_anyUntil (H : Ends e Stop) {u : Str} (h : StartsEsc u ∨ Stop u ∨ u = []) : Stays (anyUntil e) u := by
  intro pos
  have := stays_litChar H h pos
  show P.map _ (withTaken (repeat1 (litChar e))) _ = _
  unfold P.map withTaken repeat1
  simp only [P.bind, this]

theorem stays_escapedChar {u : Str} (h : ∀ k, u ≠ '\\' :: k) : Stays (P.map (fun c => [c]) escapedChar) u := by
  intro pos
  have : chr '\\' ⟨pos, u⟩ = .back ⟨pos, u⟩ := by
    cases u with
    | nil => rfl
    | cons c u =>
      show (if (c == '\\') = true then _ else _) = _
      rw [if_neg]
      intro hc
      exact h u (by rw [beq_iff_eq.mp hc])
  show P.bind (P.bind (chr '\\') _) _ _ = _
  unfold P.bind
  rw [this]

theorem stays_litFragment (H : Ends e Stop) {r : Str} (hr : LitStop q Stop r) : Stays (litFragment q e) r := by
  intro pos
  obtain ⟨j, hj⟩ := backs_escapedMarker hr.esc pos
  have h1 := stays_anyUntil H (u := r) (.inr hr.stop) pos
  cases q with
  | false =>
    show P.alt escapedMarker (anyUntil e) _ = _
    unfold P.alt
    rw [hj]
    exact h1
  | true =>
    show P.alt escapedMarker (P.alt (anyUntil e) (P.map (fun c => [c]) escapedChar)) _ = _
    unfold P.alt
    rw [hj]
    dsimp only
    rw [h1]
    exact stays_escapedChar (hr.back rfl) pos

/-- A run of literal characters at the start of the text. -/
theorem litRun_chars (H : Ends e Stop) {r t v : Str} (hr : LitStop q Stop r) (h : LitRun q Stop r t v) :
    ∃ t₁ t₂ v₂, t = t₁ ++ t₂ ∧ v = t₁ ++ v₂ ∧ LitRun q Stop r t₂ v₂ ∧
      Reps (litChar e) (fun _ => True) t₁ (t₂ ++ r) ∧
      ((StartsEsc (t ++ r) ∨ Stop (t ++ r) ∨ t ++ r = []) ∨ t₁ ≠ []) := by
  induction h with
  | nil =>
    exact ⟨[], [], [], rfl, rfl, .nil, .nil (stays_litChar H (.inr hr.stop)).backs trivial, .inl (.inr hr.stop)⟩
  | @marker c t v hc h _ =>
    have hs : StartsEsc (c :: c :: '{' :: t ++ r) := ⟨c, _, hc, rfl⟩
    exact ⟨[], _, _, rfl, rfl, .marker hc h, .nil (stays_litChar H (.inl hs)).backs trivial, .inl (.inl hs)⟩
  | @esc e c t v hq he h _ =>
    have hs : Stop (e ++ t ++ r) := by
      obtain ⟨e', rfl⟩ := escape_cons he
      exact hr.slash hq _
    exact ⟨[], _, _, rfl, rfl, .esc hq he h, .nil (stays_litChar H (.inr (.inl hs))).backs trivial, .inl (.inr (.inl hs))⟩
  | @char c t v h1 h2 h ih =>
    obtain ⟨t₁, t₂, v₂, rfl, rfl, k1, k2, -⟩ := ih
    refine ⟨c :: t₁, t₂, v₂, rfl, rfl, k1, ?_, .inr (by simp)⟩
    refine Reps.cons (t := [c]) (Q := fun v => v = c) (by simp) ?_ fun _ _ => k2.conseq fun _ _ => trivial
    have := runs_litChar H h1 h2
    rwa [List.append_assoc] at this

/-- The first fragment of a text that is not empty. -/
theorem litFragment_run (H : Ends e Stop) {r t v : Str} (hr : LitStop q Stop r) (h : LitRun q Stop r t v)
    (hne : t ≠ []) : ∃ t₁ t₂ w v₂, t = t₁ ++ t₂ ∧ t₁ ≠ [] ∧ v = w ++ v₂ ∧ LitRun q Stop r t₂ v₂ ∧
      Runs (litFragment q e) t₁ (t₂ ++ r) fun x => x = w := by
  have hl := litRun_chars H hr h
  cases h with
  | nil => exact absurd rfl hne
  | @marker c t v hc h =>
    exact ⟨[c, c, '{'], t, [c, '{'], v, rfl, by simp, rfl, h, (runs_escapedMarker hc).alt_left⟩
  | @esc x c t v hq he h =>
    subst hq
    refine ⟨x, t, [c], v, rfl, ?_, rfl, h, ?_⟩
    · obtain ⟨e', rfl⟩ := escape_cons he; simp
    · have h1 : ¬ StartsEsc (x ++ (t ++ r)) := by
        obtain ⟨e', rfl⟩ := escape_cons he
        rintro ⟨c, k, hc, hk⟩
        injection hk with h1 _
        exact (sigil_ne hc).2 h1.symm
      have h2 : Stop (x ++ (t ++ r)) := by
        obtain ⟨e', rfl⟩ := escape_cons he
        exact hr.slash rfl _
      exact .alt_right (backs_escapedMarker h1) (.alt_right (stays_anyUntil H (.inr (.inl h2))).backs
        (.map ((runs_escapedChar he).conseq fun _ h => by rw [h])))
  | @char c t v h1 h2 h =>
    obtain ⟨t₁, t₂, v₂, k1, k2, k3, k4, k5⟩ := hl
    have hne : t₁ ≠ [] := by
      rcases k5 with (k5 | k5 | k5) | k5
      · exact absurd k5 h1
      · exact absurd k5 h2
      · cases k5
      · exact k5
    refine ⟨t₁, t₂, t₁, v₂, k1, hne, k2, k3, ?_⟩
    rw [← List.cons_append, k1, List.append_assoc] at h1
    refine .alt_right (backs_escapedMarker h1) ?_
    have : Runs (anyUntil e) t₁ (t₂ ++ r) fun x => x = t₁ := by
      refine Runs.taken (Q := fun _ => True) ?_
      cases k4 with
      | nil _ _ => exact absurd rfl hne
      | cons g1 g2 g3 => exact Reps.runs1 g2 g3
    cases q with
    | false => exact this
    | true => exact .alt_left this

theorem litRun_nil {r t v : Str} (h : LitRun q Stop r t v) (ht : t = []) : v = [] := by
  cases h with
  | nil => rfl
  | esc _ h _ => obtain ⟨e', rfl⟩ := escape_cons h; cases ht
  | _ => cases ht

theorem litLoop_run (H : Ends e Stop) {r : Str} (hr : LitStop q Stop r) (n : Nat) :
    ∀ {t v : Str}, LitRun q Stop r t v → ∀ (pos : Nat), t.length + r.length < n →
      buildLoop (litFragment q e) n ⟨pos, t ++ r⟩ = .ok v ⟨pos + t.length, r⟩ := by
  induction n with
  | zero => intro t v _ pos hn; omega
  | succ n ih =>
    intro t v h pos hn
    by_cases hne : t = []
    · rw [litRun_nil h hne]
      subst hne
      unfold buildLoop
      rw [List.nil_append, stays_litFragment H hr pos]; rfl
    · obtain ⟨t₁, t₂, w, v₂, rfl, k1, rfl, k2, k3⟩ := litFragment_run H hr h hne
      obtain ⟨x, h1, rfl⟩ := k3 pos
      have hlen : 0 < t₁.length := List.length_pos_iff.mpr k1
      have := ih k2 (pos + t₁.length) (by rw [List.length_append] at hn; omega)
      unfold buildLoop
      rw [List.append_assoc, h1]
      dsimp only
      rw [if_pos (by rw [List.length_append (as := t₁)]; omega)]
      unfold P.map P.bind
      rw [this]
      dsimp only [P.pure]
      rw [List.length_append, Nat.add_assoc]

/-- Literal text. -/
theorem run_lit (H : Ends e Stop) {r t v : Str} (hr : LitStop q Stop r) (h : LitRun q Stop r t v) (hne : t ≠ []) :
    Runs (buildString (litFragment q e)) t r fun x => x = v := by
  intro pos
  obtain ⟨t₁, t₂, w, v₂, rfl, k1, rfl, k2, k3⟩ := litFragment_run H hr h hne
  obtain ⟨x, h1, rfl⟩ := k3 pos
  refine ⟨_, ?_, rfl⟩
  unfold buildString P.bind
  rw [List.append_assoc, h1]
  dsimp only
  unfold P.map P.bind
  rw [litLoop_run H hr _ k2 _ (by rw [List.length_append]; omega)]
  dsimp only [P.pure]
  rw [List.length_append, Nat.add_assoc]

/-- No literal text. -/
theorem backs_lit (H : Ends e Stop) {r : Str} (hr : LitStop q Stop r) : Backs (buildString (litFragment q e)) r :=
  Backs.bind (stays_litFragment H hr).backs

/-! ### From the specification -/

theorem joined_cons {c : Char} {t r : Str} (h : ¬ Joined (c :: t) r) : ¬ Joined t r := by
  rintro ⟨d, h1, h2, h3⟩
  refine h ⟨d, h1, ?_, h3⟩
  cases t with
  | nil => cases h2
  | cons a t => exact h2

theorem joined_append {x t r : Str} (h : ¬ Joined (x ++ t) r) : ¬ Joined t r := by
  induction x with
  | nil => exact h
  | cons c x ih => exact ih (joined_cons h)

theorem not_esc_of {c : Char} {t r : Str} (h : Sigil c → ¬ c!"{" <+: t ∧ ¬ [c, '{'] <+: t)
    (hj : ¬ Joined (c :: t) r) (hr : ∀ k, r ≠ '{' :: k) : ¬ StartsEsc (c :: (t ++ r)) := by
  rintro ⟨d, k, hd, he⟩
  injection he with h1 h2
  subst h1
  cases t with
  | nil => exact hj ⟨c, hd, rfl, k, h2.symm⟩
  | cons a t =>
    injection h2 with h3 h4
    subst h3
    cases t with
    | nil => exact hr _ h4
    | cons b t =>
      injection h4 with h5 _
      subst h5
      exact (h hd).2 ⟨t, rfl⟩

theorem not_mark_of {c : Char} {t r : Str} (h : Sigil c → ¬ c!"{" <+: t ∧ ¬ [c, '{'] <+: t)
    (hr : ∀ k, r ≠ '{' :: k) : ¬ StartsMark (c :: (t ++ r)) := by
  rintro ⟨d, k, hd, he⟩
  injection he with h3 h4
  subst h3
  cases t with
  | nil => exact hr _ h4
  | cons a t => injection h4 with h5 _; subst h5; exact (h hd).1 ⟨t, rfl⟩

theorem litRun_quoted {t v r : Str} (h : QuotedText t v) (hj : ¬ Joined t r) (hr : ∀ k, r ≠ '{' :: k) :
    LitRun true StartsEnd r t v := by
  induction h with
  | nil => exact .nil
  | marker hc _ ih => exact .marker hc (ih (joined_cons (joined_cons (joined_cons hj))))
  | esc he _ ih => exact .esc rfl he (ih (joined_append hj))
  | @char c t v h1 h2 h3 h ih =>
    refine .char (not_esc_of h3 hj hr) ?_ (ih (joined_cons hj))
    rintro (⟨k, he⟩ | ⟨k, he⟩ | hm)
    · injection he with h3 _; exact h1 h3
    · injection he with h3 _; exact h2 h3
    · exact not_mark_of h3 hr hm

theorem litRun_plain (t : Str) : ∀ {v r : Str}, readLiteral t = some v → ¬ Joined t r → (∀ k, r ≠ '{' :: k) →
    LitRun false StartsMark r t v := by
  fun_induction readLiteral t with
  | case1 x ih =>
    intro v r h hj hr
    obtain ⟨w, h1, rfl⟩ := Option.map_eq_some_iff.mp h
    exact .marker (.inl rfl) (ih h1 (joined_cons (joined_cons (joined_cons hj))) hr)
  | case2 x ih =>
    intro v r h hj hr
    obtain ⟨w, h1, rfl⟩ := Option.map_eq_some_iff.mp h
    exact .marker (.inr rfl) (ih h1 (joined_cons (joined_cons (joined_cons hj))) hr)
  | case3 => nofun
  | case4 => nofun
  | case5 c x n1 n2 n3 n4 ih =>
    intro v r h hj hr
    obtain ⟨w, h1, rfl⟩ := Option.map_eq_some_iff.mp h
    have hs : Sigil c → ¬ c!"{" <+: x ∧ ¬ [c, '{'] <+: x := by
      rintro (rfl | rfl)
      · exact ⟨fun ⟨k, hk⟩ => n3 k rfl hk.symm, fun ⟨k, hk⟩ => n1 k rfl hk.symm⟩
      · exact ⟨fun ⟨k, hk⟩ => n4 k rfl hk.symm, fun ⟨k, hk⟩ => n2 k rfl hk.symm⟩
    exact .char (not_esc_of hs hj hr) (not_mark_of hs hr) (ih h1 (joined_cons hj) hr)
  | case6 =>
    intro v r h _ _
    cases h
    exact .nil

end Verif.Gram
