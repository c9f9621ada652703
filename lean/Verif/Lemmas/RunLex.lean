import Verif.Lemmas.Run
import Verif.Lemmas.ParseLex
import Verif.Lemmas.Markers
import Verif.Model.EditEncode
/-! Forward runs of the lexical parsers. -/

namespace Verif.Gram
open P Spec

theorem runs_takeN {t r : Str} : Runs (takeN t.length) t r fun v => v = t := by
  intro pos
  refine ⟨t, ?_, rfl⟩
  unfold takeN
  dsimp only
  rw [if_neg (by rw [List.length_append]; omega), List.take_left, List.drop_left]

theorem backs_takeN {n : Nat} {u : Str} (h : u.length < n) : Backs (takeN n) u := by
  intro pos
  exact ⟨⟨pos, u⟩, by unfold takeN; dsimp only; rw [if_pos h]⟩

/-! ### Quoted strings -/

theorem runs_escapedMarker {c : Char} {r : Str} (h : Sigil c) :
    Runs escapedMarker [c, c, '{'] r fun v => v = [c, '{'] := by
  unfold escapedMarker
  refine (runs_takeN (t := [c, c, '{'])).bind_last ?_
  rintro _ rfl
  rcases h with rfl | rfl
  · exact .pure rfl
  · exact .pure rfl

/-- The text starts with an escaped marker. -/
def StartsEsc (u : Str) : Prop := ∃ c r, Sigil c ∧ u = c :: c :: '{' :: r

theorem backs_escapedMarker {u : Str} (h : ¬ StartsEsc u) : Backs escapedMarker u := by
  unfold escapedMarker
  match u, h with
  | [], _ => exact (backs_takeN (by simp)).bind
  | [_], _ => exact (backs_takeN (by simp)).bind
  | [_, _], _ => exact (backs_takeN (by simp)).bind
  | a :: b :: d :: r, h =>
    refine Runs.bind_backs (t := [a, b, d]) (r := r) runs_takeN ?_
    rintro _ rfl
    rw [if_neg, if_neg]
    · exact backs_fail
    · intro he; cases he; exact h ⟨'%', r, .inr rfl, rfl⟩
    · intro he; cases he; exact h ⟨'$', r, .inl rfl, rfl⟩

/-- What ends literal text in a quoted string. -/
def StartsEnd (u : Str) : Prop :=
  (∃ r, u = '"' :: r) ∨ (∃ r, u = '\\' :: r) ∨ ∃ c r, Sigil c ∧ u = c :: '{' :: r

theorem runs_quotedEnd {u : Str} (h : StartsEnd u) : ∃ t r, u = t ++ r ∧
    Runs quotedEnd t r fun _ => True := by
  unfold quotedEnd
  rcases h with ⟨r, rfl⟩ | ⟨r, rfl⟩ | ⟨c, r, hc, rfl⟩
  · refine ⟨['"'], r, rfl, runs_any.bind_last ?_⟩
    rintro _ rfl
    exact .pure trivial
  · refine ⟨['\\'], r, rfl, runs_any.bind_last ?_⟩
    rintro _ rfl
    exact .pure trivial
  · refine ⟨[c] ++ ['{'], r, rfl, runs_any.bind ?_⟩
    rintro _ rfl
    rcases hc with rfl | rfl
    · rw [if_neg (by decide), if_pos (by decide)]
      exact runs_chr.bind_last fun _ _ => .pure trivial
    · rw [if_neg (by decide), if_pos (by decide)]
      exact runs_chr.bind_last fun _ _ => .pure trivial

theorem backs_quotedEnd {u : Str} (h : ¬ StartsEnd u) : Backs quotedEnd u := by
  unfold quotedEnd
  cases u with
  | nil => exact backs_any.bind
  | cons c r =>
    refine Runs.bind_backs (t := [c]) (r := r) runs_any ?_
    rintro _ rfl
    split
    · rename_i hc
      rcases hc with rfl | rfl
      · exact absurd (.inl ⟨r, rfl⟩) h
      · exact absurd (.inr (.inl ⟨r, rfl⟩)) h
    · split
      · rename_i hc
        exact (backs_chr fun cs hr => h (.inr (.inr ⟨_, cs, hc, by rw [hr]⟩))).bind
      · exact backs_fail

/-- One character of literal text. -/
def litStep : P Char := preceded (notP (P.alt (P.map (fun _ => ()) escapedMarker) quotedEnd)) any

theorem runs_litStep {c : Char} {r : Str} (h1 : ¬ StartsEsc (c :: r)) (h2 : ¬ StartsEnd (c :: r)) :
    Runs litStep [c] r fun v => v = c :=
  (((backs_escapedMarker h1).map).alt (backs_quotedEnd h2)).notP.bind_nil fun _ _ => runs_any

theorem backs_litStep {u : Str} (h : StartsEsc u ∨ StartsEnd u) : Backs litStep u := by
  unfold litStep
  refine Backs.bind ?_
  rcases h with ⟨c, r, hc, rfl⟩ | h
  · exact Runs.notP (t := [c, c, '{']) (r := r)
      (Q := fun _ => True) (.alt_left (.map ((runs_escapedMarker hc).conseq fun _ _ => trivial)))
  · by_cases he : StartsEsc u
    · obtain ⟨c, r, hc, rfl⟩ := he
      exact Runs.notP (t := [c, c, '{']) (r := r)
        (Q := fun _ => True) (.alt_left (.map ((runs_escapedMarker hc).conseq fun _ _ => trivial)))
    · obtain ⟨t, r, rfl, h1⟩ := runs_quotedEnd h
      exact Runs.notP (.alt_right (backs_escapedMarker he).map h1)

theorem runs_escapedChar {e : Str} {c : Char} {r : Str} (h : Escape e c) :
    Runs escapedChar e r fun v => v = c := by
  unfold escapedChar
  cases h with
  | @simple k c h =>
    refine Runs.bind (t := ['\\']) (u := [k]) runs_chr fun _ _ => ?_
    refine runs_any.bind_last ?_
    rintro _ rfl
    simp only [escapeTable, List.mem_cons, Prod.mk.injEq, List.not_mem_nil, or_false] at h
    rcases h with ⟨rfl, rfl⟩ | ⟨rfl, rfl⟩ | ⟨rfl, rfl⟩ | ⟨rfl, rfl⟩ | ⟨rfl, rfl⟩ | ⟨rfl, rfl⟩ |
      ⟨rfl, rfl⟩ | ⟨rfl, rfl⟩ <;> exact .pure rfl
  | @unicode k ds c h1 h2 =>
    refine Runs.bind (t := ['\\']) (u := k :: ds) runs_chr fun _ _ => ?_
    refine Runs.bind (t := [k]) (u := ds) runs_any ?_
    rintro _ rfl
    have key : ds ≠ [] → Runs (cutErr (hexEscape ds.length)) ds r fun v => v = c := by
      intro hne
      refine Runs.cutErr fun pos => ⟨c, ?_, rfl⟩
      obtain ⟨h3, h4⟩ := hexText_inv h2
      unfold hexEscape P.verifyMap takeWhileUpTo
      dsimp only
      rw [prefixUpTo_all h3, if_neg (by simpa using hne)]
      dsimp only
      have hv : (hexNum ds).isValidChar := by rw [← h4]; exact c.valid
      rw [if_pos ⟨rfl, hv⟩, ← h4, Char.ofNat_toNat, List.drop_left]
    rcases h1 with ⟨rfl, h1⟩ | ⟨rfl, h1⟩
    · rw [← h1]
      exact key (by intro h; rw [h] at h1; cases h1)
    · rw [← h1]
      exact key (by intro h; rw [h] at h1; cases h1)

theorem escape_cons {e : Str} {c : Char} (h : Escape e c) : ∃ e', e = '\\' :: e' := by
  cases h <;> exact ⟨_, rfl⟩

theorem sigil_ne {c : Char} (h : Sigil c) : c ≠ '"' ∧ c ≠ '\\' := by
  rcases h with rfl | rfl <;> decide

theorem startsEsc_append {c : Char} {t r : Str}
    (h : Sigil c → ¬ c!"{" <+: t ∧ ¬ [c, '{'] <+: t) : ¬ StartsEsc (c :: (t ++ '"' :: r)) := by
  rintro ⟨d, k, hd, he⟩
  injection he with h1 h2
  subst h1
  cases t with
  | nil => injection h2 with h3 _; exact (sigil_ne hd).1 h3.symm
  | cons a t =>
    injection h2 with h3 h4
    subst h3
    cases t with
    | nil => injection h4 with h5 _; cases h5
    | cons b t =>
      injection h4 with h5 _
      subst h5
      exact (h hd).2 ⟨t, rfl⟩

theorem startsEnd_append {c : Char} {t r : Str} (h1 : c ≠ '"') (h2 : c ≠ '\\')
    (h : Sigil c → ¬ c!"{" <+: t ∧ ¬ [c, '{'] <+: t) : ¬ StartsEnd (c :: (t ++ '"' :: r)) := by
  rintro (⟨k, he⟩ | ⟨k, he⟩ | ⟨d, k, hd, he⟩)
  · injection he with h3 _; exact h1 h3
  · injection he with h3 _; exact h2 h3
  · injection he with h3 h4
    subst h3
    cases t with
    | nil => injection h4 with h5 _; cases h5
    | cons a t => injection h4 with h5 _; subst h5; exact (h hd).1 ⟨t, rfl⟩

/-- A run of literal characters at the start of the text of a quoted string. -/
theorem litRun {t v : Str} (h : QuotedText t v) (r : Str) : ∃ t₁ t₂ v₂, t = t₁ ++ t₂ ∧
    v = t₁ ++ v₂ ∧ QuotedText t₂ v₂ ∧ Reps litStep (fun _ => True) t₁ (t₂ ++ '"' :: r) ∧
    ((StartsEsc (t ++ '"' :: r) ∨ StartsEnd (t ++ '"' :: r)) ∨ t₁ ≠ []) := by
  induction h with
  | nil =>
    exact ⟨[], [], [], rfl, rfl, .nil, .nil (backs_litStep (.inr (.inl ⟨r, rfl⟩))) trivial,
      .inl (.inr (.inl ⟨r, rfl⟩))⟩
  | @marker c t v hc h _ =>
    have hs : StartsEsc (c :: c :: '{' :: t ++ '"' :: r) := ⟨c, _, hc, rfl⟩
    exact ⟨[], _, _, rfl, rfl, .marker hc h, .nil (backs_litStep (.inl hs)) trivial, .inl (.inl hs)⟩
  | @esc e c t v he h _ =>
    have hs : StartsEnd (e ++ t ++ '"' :: r) := by
      obtain ⟨e', rfl⟩ := escape_cons he
      exact .inr (.inl ⟨_, rfl⟩)
    exact ⟨[], _, _, rfl, rfl, .esc he h, .nil (backs_litStep (.inr hs)) trivial, .inl (.inr hs)⟩
  | @char c t v h1 h2 h3 h ih =>
    obtain ⟨t₁, t₂, v₂, rfl, rfl, k1, k2, -⟩ := ih
    refine ⟨c :: t₁, t₂, v₂, rfl, rfl, k1, ?_, .inr (by simp)⟩
    refine Reps.cons (t := [c]) (Q := fun v => v = c) (by simp) ?_ fun _ _ => k2.conseq fun _ _ => trivial
    have := runs_litStep (r := t₁ ++ t₂ ++ '"' :: r) (startsEsc_append h3) (startsEnd_append h1 h2 h3)
    rwa [List.append_assoc] at this

/-- The first fragment of a text that is not empty. -/
theorem quotedFragment_run {t v : Str} (h : QuotedText t v) (hne : t ≠ []) (r : Str) :
    ∃ t₁ t₂ w v₂, t = t₁ ++ t₂ ∧ t₁ ≠ [] ∧ v = w ++ v₂ ∧ QuotedText t₂ v₂ ∧
      Runs quotedFragment t₁ (t₂ ++ '"' :: r) fun x => x = w := by
  have hl := litRun h r
  cases h with
  | nil => exact absurd rfl hne
  | @marker c t v hc h =>
    exact ⟨[c, c, '{'], t, [c, '{'], v, rfl, by simp, rfl, h, (runs_escapedMarker hc).alt_left⟩
  | @esc e c t v he h =>
    refine ⟨e, t, [c], v, rfl, ?_, rfl, h, ?_⟩
    · obtain ⟨e', rfl⟩ := escape_cons he; simp
    · have h1 : ¬ StartsEsc (e ++ (t ++ '"' :: r)) := by
        obtain ⟨e', rfl⟩ := escape_cons he
        rintro ⟨c, k, hc, hk⟩
        injection hk with h1 _
        exact (sigil_ne hc).2 h1.symm
      have h2 : StartsEnd (e ++ (t ++ '"' :: r)) := by
        obtain ⟨e', rfl⟩ := escape_cons he
        exact .inr (.inl ⟨_, rfl⟩)
      exact .alt_right (backs_escapedMarker h1) (.alt_right (backs_litStep (.inr h2)).repeat1.taken
        (.map ((runs_escapedChar he).conseq fun _ h => by rw [h])))
  | @char c t v h1 h2 h3 h =>
    have hesc := startsEsc_append (r := r) h3
    have hend := startsEnd_append (r := r) h1 h2 h3
    obtain ⟨t₁, t₂, v₂, k1, k2, k3, k4, k5⟩ := hl
    have hne : t₁ ≠ [] := by
      rcases k5 with (k5 | k5) | k5
      · exact absurd k5 hesc
      · exact absurd k5 hend
      · exact k5
    refine ⟨t₁, t₂, t₁, v₂, k1, hne, k2, k3, ?_⟩
    rw [← List.cons_append, k1, List.append_assoc] at hesc
    refine .alt_right (backs_escapedMarker hesc) (.alt_left ?_)
    refine Runs.taken (Q := fun _ => True) ?_
    cases k4 with
    | nil _ _ => exact absurd rfl hne
    | cons g1 g2 g3 => exact Reps.runs1 g2 g3

theorem quotedText_nil {v : Str} (h : QuotedText [] v) : v = [] := by
  generalize he : ([] : Str) = t at h
  cases h with
  | nil => rfl
  | esc h _ => obtain ⟨e', rfl⟩ := escape_cons h; cases he
  | _ => cases he

theorem buildLoop_run (n : Nat) : ∀ {t v : Str}, QuotedText t v → ∀ (r : Str) (pos : Nat),
    t.length + r.length + 1 < n → buildLoop quotedFragment n ⟨pos, t ++ '"' :: r⟩ =
      .ok v ⟨pos + t.length, '"' :: r⟩ := by
  induction n with
  | zero => intro t v _ r pos hn; omega
  | succ n ih =>
    intro t v h r pos hn
    by_cases hne : t = []
    · subst hne
      rw [quotedText_nil h]
      have h1 : quotedFragment ⟨pos, '"' :: r⟩ = .back ⟨pos, '"' :: r⟩ := by
        unfold quotedFragment P.alt
        obtain ⟨j, hj⟩ := backs_escapedMarker (u := '"' :: r) (by
          rintro ⟨c, k, hc, hk⟩; injection hk with h1 _; exact (sigil_ne hc).1 h1.symm) pos
        rw [hj]
        obtain ⟨j, hj⟩ := (backs_litStep (u := '"' :: r) (.inr (.inl ⟨r, rfl⟩))).repeat1.taken pos
        dsimp only
        rw [show stringLiteral ⟨pos, '"' :: r⟩ = .back j from hj]
        rfl
      unfold buildLoop
      rw [List.nil_append, h1]; rfl
    · obtain ⟨t₁, t₂, w, v₂, rfl, k1, rfl, k2, k3⟩ := quotedFragment_run h hne r
      obtain ⟨x, h1, rfl⟩ := k3 pos
      have hlen : 0 < t₁.length := List.length_pos_iff.mpr k1
      have := ih k2 r (pos + t₁.length) (by rw [List.length_append] at hn; omega)
      unfold buildLoop
      rw [List.append_assoc, h1]
      dsimp only
      rw [if_pos (by rw [List.length_append (as := t₁)]; omega)]
      unfold P.map P.bind
      rw [this]
      dsimp only [P.pure]
      rw [List.length_append, Nat.add_assoc]

theorem runs_quotedString {t v : Str} (h : QuotedText t v) (r : Str) :
    Runs quotedString ('"' :: (t ++ ['"'])) r fun x => x = v := by
  unfold quotedString
  refine Runs.bind (t := ['"']) (u := t ++ ['"']) runs_chr fun _ _ => ?_
  by_cases hne : t = []
  · subst hne
    have hb : Backs (buildString quotedFragment) ('"' :: r) := by
      refine Backs.bind (Backs.alt (backs_escapedMarker ?_) (Backs.alt
        (backs_litStep (.inr (.inl ⟨r, rfl⟩))).repeat1.taken
        (Backs.map (Backs.bind (backs_chr fun cs h => by injection h with h _; cases h)))))
      rintro ⟨c, k, hc, hk⟩; injection hk with h1 _; exact (sigil_ne hc).1 h1.symm
    refine Runs.bind_nil (hb.opt (R := fun o => o = none) rfl) ?_
    rintro _ rfl
    exact runs_chr.bind_last fun _ _ => .pure (quotedText_nil h).symm
  · refine Runs.bind (t := t) (u := ['"']) (Q := fun o => o = some v) (.opt (Q := fun x => x = v) ?_ fun _ h => by rw [h]) ?_
    · intro pos
      obtain ⟨t₁, t₂, w, v₂, rfl, k1, rfl, k2, k3⟩ := quotedFragment_run h hne r
      obtain ⟨x, h1, rfl⟩ := k3 pos
      refine ⟨_, ?_, rfl⟩
      unfold buildString P.bind
      rw [show t₁ ++ t₂ ++ (['"'] ++ r) = t₁ ++ (t₂ ++ '"' :: r) from List.append_assoc .., h1]
      dsimp only
      unfold P.map P.bind
      rw [buildLoop_run _ k2 r _ (by rw [List.length_append, List.length_cons]; omega)]
      dsimp only [P.pure]
      rw [List.length_append, Nat.add_assoc]
      rfl
    · rintro _ rfl
      exact runs_chr.bind_last fun _ _ => .pure rfl


/-! ### Encoded strings -/

theorem hexText_small : ∀ n < 128,
    HexText ['0', '0', hexUpper (n / 16), hexUpper (n % 16)] n := by
  intro n hn
  refine ⟨[0, 0, n / 16, n % 16], ?_, ?_⟩
  · revert n; decide
  · simp only [List.foldl_cons, List.foldl_nil]; omega

theorem encEscChar_cases (c : Char) :
    (encEscChar c = [c] ∧ c ≠ '"' ∧ c ≠ '\\') ∨ Escape (encEscChar c) c := by
  have ofN : ∀ n : Nat, c.toNat = n → c = Char.ofNat n := fun n h => by rw [← h, Char.ofNat_toNat]
  unfold encEscChar
  by_cases h : c.toNat = 0x08
  · rw [if_pos h, ofN _ h]; exact .inr (.simple (by decide))
  rw [if_neg h]; clear h
  by_cases h : c.toNat = 0x09
  · rw [if_pos h, ofN _ h]; exact .inr (.simple (by decide))
  rw [if_neg h]; clear h
  by_cases h : c.toNat = 0x0a
  · rw [if_pos h, ofN _ h]; exact .inr (.simple (by decide))
  rw [if_neg h]; clear h
  by_cases h : c.toNat = 0x0c
  · rw [if_pos h, ofN _ h]; exact .inr (.simple (by decide))
  rw [if_neg h]; clear h
  by_cases h : c.toNat = 0x0d
  · rw [if_pos h, ofN _ h]; exact .inr (.simple (by decide))
  rw [if_neg h]; clear h
  by_cases h1 : c.toNat = 0x22
  · rw [if_pos h1, ofN _ h1]; exact .inr (.simple (by decide))
  rw [if_neg h1]
  by_cases h2 : c.toNat = 0x5c
  · rw [if_pos h2, ofN _ h2]; exact .inr (.simple (by decide))
  rw [if_neg h2]
  by_cases h : c.toNat ≤ 0x1f ∨ c.toNat = 0x7f
  · rw [if_pos h]
    exact .inr (.unicode (.inl ⟨rfl, rfl⟩) (hexText_small _ (by omega)))
  · rw [if_neg h]
    exact .inl ⟨rfl, fun he => h1 (by rw [he]; rfl), fun he => h2 (by rw [he]; rfl)⟩

theorem encEscaped_head {k : Char} {x r : Str} (hk : k ≠ '\\') (h : k :: x = encEscaped r) :
    ∃ r', r = k :: r' ∧ x = encEscaped r' := by
  cases r with
  | nil => cases h
  | cons d r =>
    unfold encEscaped at h
    rcases encEscChar_cases d with ⟨h1, -⟩ | h1
    · rw [h1] at h
      injection h with h2 h3
      subst h2
      exact ⟨r, rfl, h3⟩
    · obtain ⟨e, he⟩ := escape_cons h1
      rw [he] at h
      injection h with h2 _
      exact absurd h2 hk

/-- Escaping the special characters of a literal without live markers gives the text of a quoted
string. -/
theorem encEscaped_text (t : Str) : ∀ v, readLiteral t = some v → QuotedText (encEscaped t) v := by
  fun_induction readLiteral t with
  | case1 r ih =>
    intro v h
    obtain ⟨w, h1, rfl⟩ := Option.map_eq_some_iff.mp h
    exact .marker (.inl rfl) (ih _ h1)
  | case2 r ih =>
    intro v h
    obtain ⟨w, h1, rfl⟩ := Option.map_eq_some_iff.mp h
    exact .marker (.inr rfl) (ih _ h1)
  | case3 => nofun
  | case4 => nofun
  | case5 c r n1 n2 n3 n4 ih =>
    intro v h
    obtain ⟨w, h1, rfl⟩ := Option.map_eq_some_iff.mp h
    unfold encEscaped
    rcases encEscChar_cases c with ⟨h2, h3, h4⟩ | h2
    · rw [h2]
      refine .char h3 h4 ?_ (ih _ h1)
      have nb : Sigil c → ∀ x, r ≠ '{' :: x := by
        rintro (rfl | rfl) x rfl
        · exact n3 _ rfl rfl
        · exact n4 _ rfl rfl
      have ne : Sigil c → ∀ x, r ≠ c :: '{' :: x := by
        rintro (rfl | rfl) x rfl
        · exact n1 _ rfl rfl
        · exact n2 _ rfl rfl
      intro hc
      constructor
      · rintro ⟨k, hk⟩
        obtain ⟨r', rfl, -⟩ := encEscaped_head (by decide) hk
        exact nb hc _ rfl
      · rintro ⟨k, hk⟩
        obtain ⟨r', rfl, h5⟩ := encEscaped_head (sigil_ne hc).2 hk
        obtain ⟨r'', rfl, -⟩ := encEscaped_head (by decide) h5
        exact ne hc _ rfl
    · exact .esc h2 (ih _ h1)
  | case6 => intro v h; cases h; exact .nil

/-- A literal of the source is the text of a quoted string. -/
theorem litAt_text {s v : Str} {a b : Nat} (h : LitAt true s v a b) : QuotedText (slice s a b) v := by
  induction h with
  | nil => rw [slice_self]; exact .nil
  | marker hc h1 h2 ih =>
    rw [← slice_append h1.le h2.le, h1.text]
    exact .marker hc ih
  | esc _ h1 h2 h3 ih =>
    rw [← slice_append h1.le h3.le, h1.text]
    exact .esc h2 ih
  | @char c v a x b h1 h2 h3 h4 ih =>
    rw [← slice_append h1.le h4.le, h1.text]
    refine .char (h2 rfl).1 (h2 rfl).2 (fun hc => ?_) ih
    obtain ⟨k1, k2⟩ := h3 hc
    have hle := h4.le
    have hx := h1.1
    have hbl := h1.2.1
    simp only [List.length_singleton] at hx
    have tk : ∀ t : Str, t <+: slice s x b → Tok s t x (x + t.length) := by
      intro t ht
      have h5 : t <+: s.drop x := ht.trans (List.take_prefix ..)
      obtain ⟨k, hk⟩ := h5
      have hlen := congrArg List.length hk
      rw [List.length_append, List.length_drop] at hlen
      refine ⟨rfl, by omega, ?_⟩
      unfold slice
      rw [← hk, Nat.add_sub_cancel_left, List.take_left]
    refine ⟨fun ht => k1 ⟨_, tk _ ht⟩, fun ht => k2 ⟨_, h1.append (tk _ ht)⟩⟩

end Verif.Gram
