import Verif.Lemmas.ParseWp
/-! Triples for the lexical parsers: trivia, numbers, strings, identifiers. -/

namespace Verif.Gram
open P Spec

variable {pan : Prop} {s : Str}

/-! ### Trivia -/

theorem Trivia.widen {nl : Bool} {t : Str} (h : Trivia nl t) : Trivia true t := by
  induction h with
  | nil => exact .nil
  | blank h _ ih => exact .blank h ih
  | newline h _ ih => exact .newline h ih
  | line h1 h2 _ ih => exact .line h1 h2 ih
  | block h _ ih => exact .block h ih

theorem _root_.Verif.Spec.Triv.le {nl : Bool} {a b : Nat} (h : Triv s nl a b) : a ≤ b := h.1
theorem _root_.Verif.Spec.Triv.bound {nl : Bool} {a b : Nat} (h : Triv s nl a b) : b ≤ s.length := h.2.1
theorem _root_.Verif.Spec.Triv.widen {nl : Bool} {a b : Nat} (h : Triv s nl a b) : Triv s true a b :=
  ⟨h.1, h.2.1, Trivia.widen h.2.2⟩

theorem triv_self {nl : Bool} {a : Nat} (h : a ≤ s.length) : Triv s nl a a :=
  ⟨Nat.le_refl _, h, by rw [slice_self]; exact .nil⟩

/-- The blanks that `space0` (or, with line breaks, `multispace0`) skips. -/
def isBlank (nl : Bool) (c : Char) : Bool :=
  c == ' ' || c == '\t' || (nl && (c == '\r' || c == '\n'))

theorem Trivia.blanks {nl : Bool} {t u : Str} (ht : ∀ c ∈ t, isBlank nl c = true) (hu : Trivia nl u) :
    Trivia nl (t ++ u) := by
  induction t with
  | nil => exact hu
  | cons c t ih =>
    have h1 := ih fun d hd => ht d (List.mem_cons_of_mem _ hd)
    have h2 := ht c (List.mem_cons_self ..)
    simp only [isBlank, Bool.or_eq_true, beq_iff_eq, Bool.and_eq_true] at h2
    rcases h2 with (h2 | h2) | ⟨rfl, h2 | h2⟩
    · exact .blank (.inl h2) h1
    · exact .blank (.inr h2) h1
    · exact .newline (.inr h2) h1
    · exact .newline (.inl h2) h1

/-- A line comment at offsets `a` to `b`, up to the end of the line. -/
def LineCommentAt (s : Str) (a b : Nat) : Prop :=
  a < b ∧ b ≤ s.length ∧ LineComment (slice s a b) ∧
    ∀ c cs, s.drop b = c :: cs → c = '\n' ∨ c = '\r'

/-- A block comment at offsets `a` to `b`. -/
def BlockCommentAt (s : Str) (a b : Nat) : Prop :=
  a < b ∧ b ≤ s.length ∧ BlockComment (slice s a b)

theorem tri_hashComment {lo : Nat} : Tri pan s lo hashComment fun a _ b => LineCommentAt s a b := by
  intro a h1 h2
  refine tri_chr.step h1 h2 (Nat.le_refl _) fun c x h3 h4 h5 => ?_
  refine tri_tillLineEnding.step (by omega) h4 h3 fun t y h6 h7 h8 => ?_
  obtain ⟨h8, h9, h10, h11⟩ := h8
  have h12 := (h5.append h8)
  refine wp_pure (by omega) h7 ⟨?_, h7, ⟨t, .inl ?_, h9, h10⟩, h11⟩
  · have := h5.1; simp at this; omega
  · exact h12.text

theorem tri_slashComment {lo : Nat} : Tri pan s lo slashComment fun a _ b => LineCommentAt s a b := by
  intro a h1 h2
  refine tri_tag.step h1 h2 (Nat.le_refl _) fun c x h3 h4 h5 => ?_
  refine tri_tillLineEnding.step (by omega) h4 h3 fun t y h6 h7 h8 => ?_
  obtain ⟨h8, h9, h10, h11⟩ := h8
  have h12 := (h5.append h8)
  refine wp_pure (by omega) h7 ⟨?_, h7, ⟨t, .inr ?_, h9, h10⟩, h11⟩
  · have := h5.1; simp at this; omega
  · exact h12.text

theorem splitAtTag_not_infix {t u x y : Str} (ht : t ≠ []) (h : splitAtTag t u = some (x, y)) :
    ¬ t <:+: x := by
  induction u generalizing x with
  | nil =>
    unfold splitAtTag at h
    split at h
    · rename_i h'; simp at h'; exact absurd h' ht
    · cases h
  | cons c u ih =>
    unfold splitAtTag at h
    split at h
    · cases h
      rw [List.infix_nil]; exact ht
    · rename_i hn
      cases h1 : splitAtTag t u with
      | none => rw [h1] at h; cases h
      | some p =>
        obtain ⟨x', y'⟩ := p
        rw [h1] at h
        simp only [Option.map_some, Option.some.injEq, Prod.mk.injEq] at h
        obtain ⟨rfl, rfl⟩ := h
        intro hinf
        rcases List.infix_cons_iff.mp hinf with hpre | hinf
        · obtain ⟨r, hr⟩ := hpre
          rw [splitAtTag_some h1, ← List.cons_append, ← hr, List.append_assoc,
            dropPrefix_append] at hn
          cases hn
        · exact ih h1 hinf

theorem tri_inlineComment {lo : Nat} :
    Tri pan s lo inlineComment fun a _ b => BlockCommentAt s a b := by
  intro a h1 h2
  refine tri_tag.step h1 h2 (Nat.le_refl _) fun c x h3 h4 h5 => ?_
  refine tri_takeUntil.step (by omega) h4 h3 fun t y h6 h7 h8 => ?_
  refine tri_tag.fin (by omega) h7 (by omega) fun u z h9 h10 h11 => ?_
  obtain ⟨h8, h12⟩ := h8
  have h13 := (h5.append h8).append h11
  refine ⟨?_, h10, t, h13.text, splitAtTag_not_infix (by simp) h12⟩
  have := h5.1; simp at this; omega

theorem tri_comment {lo : Nat} : Tri pan s lo comment fun a _ b =>
    LineCommentAt s a b ∨ BlockCommentAt s a b := by
  intro a h1 h2
  refine tri_any.peek.step h1 h2 (Nat.le_refl _) fun c x h3 h4 h5 => ?_
  obtain ⟨rfl, -⟩ := h5
  split
  · exact tri_hashComment.fin h1 h2 (Nat.le_refl _) fun _ _ _ _ h => .inl h
  · split
    · exact (Tri.alt (T := fun a _ b => LineCommentAt s a b ∨ BlockCommentAt s a b)
        tri_slashComment tri_inlineComment (fun _ _ _ h => Or.inl h)
        (fun _ _ _ h => Or.inr h)) x h1 h2
    · exact wp_fail h3 h4

theorem tri_lineComment {lo : Nat} : Tri pan s lo lineComment fun a _ b => LineCommentAt s a b := by
  intro a h1 h2
  refine tri_any.peek.step h1 h2 (Nat.le_refl _) fun c x h3 h4 h5 => ?_
  obtain ⟨rfl, -⟩ := h5
  split
  · exact tri_hashComment x h1 h2
  · split
    · exact tri_slashComment x h1 h2
    · exact wp_fail h3 h4

/-- What comes after the trivia that was skipped does not start with a blank. -/
def NoBlank (s : Str) (nl : Bool) (b : Nat) : Prop :=
  ∀ c cs, s.drop b = c :: cs → isBlank nl c = false

theorem tri_blanks {lo : Nat} (nl : Bool) : Tri pan s lo (if nl then multispace0 else space0)
    fun a t b => Tok s t a b ∧ (∀ c ∈ t, isBlank nl c = true) ∧ NoBlank s nl b := by
  cases nl
  · exact tri_takeWhile.conseq fun a t b _ _ _ h =>
      ⟨h.1, fun c hc => by simpa [isBlank] using h.2.1 c hc, fun c cs hc => by
        simpa [isBlank] using h.2.2 c cs hc⟩
  · exact tri_takeWhile.conseq fun a t b _ _ _ h =>
      ⟨h.1, fun c hc => by simpa [isBlank, Bool.or_assoc] using h.2.1 c hc, fun c cs hc => by
        simpa [isBlank, Bool.or_assoc, and_assoc] using h.2.2 c cs hc⟩

/-- A comment followed by blanks. -/
def CommentBlanks (s : Str) (nl : Bool) (a : Nat) (_ : Unit) (b : Nat) : Prop :=
  ∃ m t, (nl = true ∧ LineCommentAt s a m ∨ BlockCommentAt s a m) ∧ Tok s t m b ∧
    (∀ c ∈ t, isBlank nl c = true) ∧ NoBlank s nl b

theorem chain_triv {nl : Bool} {xs : List Unit} {a b : Nat} (hb : b ≤ s.length)
    (h : Chain (CommentBlanks s nl) xs a b) : Trivia nl (slice s a b) := by
  induction h with
  | nil => rw [slice_self]; exact .nil
  | @cons x xs a b c hab hQ hch ih =>
    have hbc := hch.le
    have ih := ih hb
    obtain ⟨m, t, hc, ht, hbl, -⟩ := hQ
    have hmb : Trivia nl (slice s m c) := by
      rw [← slice_append ht.le hbc, ht.text]
      exact Trivia.blanks hbl ih
    rcases hc with ⟨rfl, hc⟩ | hc
    · obtain ⟨h1, h2, h3, h4⟩ := hc
      have hmc : m ≤ c := by have := ht.le; omega
      rw [← slice_append (by omega : a ≤ m) hmc]
      refine .line h3 ?_ hmb
      rcases Nat.lt_or_ge m c with hlt | hge
      · right
        cases hd : s.drop m with
        | nil => rw [List.drop_eq_nil_iff] at hd; omega
        | cons d ds =>
          have h5 := h4 d ds hd
          have h6 : slice s m c = d :: ds.take (c - m - 1) := by
            unfold slice
            rw [hd]
            obtain ⟨k, hk⟩ : ∃ k, c - m = k + 1 := ⟨c - m - 1, by omega⟩
            rw [hk]; rfl
          rw [h6]
          rcases h5 with rfl | rfl
          · exact .inl rfl
          · exact .inr rfl
      · left
        have : m = c := by omega
        rw [this, slice_self]
    · obtain ⟨h1, h2, h3⟩ := hc
      have hmc : m ≤ c := by have := ht.le; omega
      rw [← slice_append (by omega : a ≤ m) hmc]
      exact .block h3 hmb

theorem chain_end {Q : Nat → α → Nat → Prop} {M : Nat → Prop} {xs : List α} {a b : Nat}
    (h : Chain Q xs a b) (ha : M a) (hQ : ∀ a x b, Q a x b → M b) : M b := by
  induction h with
  | nil => exact ha
  | cons _ h2 _ ih => exact ih (hQ _ _ _ h2)

theorem takeWhile_noop {f : Char → Bool} {b : Nat} (h : ∀ c cs, s.drop b = c :: cs → f c = false) :
    takeWhile f (inp s b) = .ok [] (inp s b) := by
  unfold takeWhile
  show Res.ok ((s.drop b).takeWhile f) _ = _
  cases hd : s.drop b with
  | nil =>
    simp only [inp, hd, List.takeWhile_nil, List.dropWhile_nil, List.length_nil, Nat.add_zero]
  | cons c cs =>
    have := h c cs hd
    simp only [inp, hd, List.takeWhile_cons, List.dropWhile_cons, this, List.length_nil, Nat.add_zero,
      Bool.false_eq_true, if_false]

theorem repeat0_noop {p : P α} {i j : Input} (h : p i = .back j) : repeat0 p i = .ok [] i := by
  unfold P.repeat0 repeatF
  rw [h]

theorem tri_commentStep {lo : Nat} : Tri pan s lo
    (do comment; let _ ← multispace0; return () : P Unit) (CommentBlanks s true) := by
  intro a h1 h2
  refine tri_comment.step h1 h2 (Nat.le_refl _) fun c x h3 h4 h5 => ?_
  refine (tri_blanks true).step (by omega) h4 h3 fun t y h6 h7 h8 => ?_
  refine wp_pure (by omega) h7 ⟨x, t, ?_, h8⟩
  rcases h5 with h5 | h5
  · exact .inl ⟨rfl, h5⟩
  · exact .inr h5

theorem tri_inlineStep {lo : Nat} : Tri pan s lo
    (do inlineComment; let _ ← space0; return () : P Unit) (CommentBlanks s false) := by
  intro a h1 h2
  refine tri_inlineComment.step h1 h2 (Nat.le_refl _) fun c x h3 h4 h5 => ?_
  refine (tri_blanks false).step (by omega) h4 h3 fun t y h6 h7 h8 => ?_
  exact wp_pure (by omega) h7 ⟨x, t, .inr h5, h8⟩

theorem commentBlanks_lt {nl : Bool} {a : Nat} {x : Unit} {b : Nat} (h : CommentBlanks s nl a x b) :
    a < b := by
  obtain ⟨m, t, h1, h2, -⟩ := h
  have := h2.le
  rcases h1 with ⟨-, h1, -⟩ | ⟨h1, -⟩ <;> omega

/-- The parser behind `ws` and `sp`. -/
def triviaP (nl : Bool) : P Unit := if nl then ws else sp

theorem tri_trivia {lo : Nat} (nl : Bool) : Tri pan s lo (triviaP nl) fun a _ b =>
    Triv s nl a b ∧ triviaP nl (inp s b) = .ok () (inp s b) := by
  intro a h1 h2
  cases nl
  · show Wp pan s a _ (sp (inp s a))
    unfold sp
    refine (tri_blanks false).step h1 h2 (Nat.le_refl _) fun t x h3 h4 h5 => ?_
    refine (tri_inlineStep.repeat0 fun _ _ _ _ _ h => commentBlanks_lt h).step (by omega) h4 h3
      fun us y h6 h7 h8 => ?_
    obtain ⟨h8, i, h9⟩ := h8
    have hnb : NoBlank s false y := chain_end h8 h5.2.2 fun _ _ _ h => by
      obtain ⟨m, t, -, -, -, h⟩ := h; exact h
    refine wp_pure (by omega) h7 ⟨⟨by omega, h7, ?_⟩, ?_⟩
    · rw [← slice_append h3 h6, h5.1.text]
      exact Trivia.blanks h5.2.1 (chain_triv h7 h8)
    · show sp (inp s y) = _
      unfold sp
      have e1 : space0 (inp s y) = .ok [] (inp s y) :=
        takeWhile_noop fun c cs hc => by simpa [isBlank] using hnb c cs hc
      show P.bind space0 _ _ = _
      unfold P.bind
      rw [e1]
      show P.bind (P.repeat0 _) _ _ = _
      unfold P.bind
      rw [repeat0_noop h9]; rfl
  · show Wp pan s a _ (ws (inp s a))
    unfold ws
    refine (tri_blanks true).step h1 h2 (Nat.le_refl _) fun t x h3 h4 h5 => ?_
    refine (tri_commentStep.repeat0 fun _ _ _ _ _ h => commentBlanks_lt h).step (by omega) h4 h3
      fun us y h6 h7 h8 => ?_
    obtain ⟨h8, i, h9⟩ := h8
    have hnb : NoBlank s true y := chain_end h8 h5.2.2 fun _ _ _ h => by
      obtain ⟨m, t, -, -, -, h⟩ := h; exact h
    refine wp_pure (by omega) h7 ⟨⟨by omega, h7, ?_⟩, ?_⟩
    · rw [← slice_append h3 h6, h5.1.text]
      exact Trivia.blanks h5.2.1 (chain_triv h7 h8)
    · show ws (inp s y) = _
      unfold ws
      have e1 : multispace0 (inp s y) = .ok [] (inp s y) :=
        takeWhile_noop fun c cs hc => by
          simpa [isBlank, Bool.or_assoc, and_assoc] using hnb c cs hc
      show P.bind multispace0 _ _ = _
      unfold P.bind
      rw [e1]
      show P.bind (P.repeat0 _) _ _ = _
      unfold P.bind
      rw [repeat0_noop h9]; rfl

theorem tri_ws {lo : Nat} : Tri pan s lo ws fun a _ b => Triv s true a b ∧
    ws (inp s b) = .ok () (inp s b) := tri_trivia true

theorem tri_sp {lo : Nat} : Tri pan s lo sp fun a _ b => Triv s false a b ∧
    sp (inp s b) = .ok () (inp s b) := tri_trivia false

theorem tri_wsOrSp {lo : Nat} {nl : Bool} : Tri pan s lo (wsOrSp nl) fun a _ b => Triv s nl a b := by
  cases nl
  · exact tri_sp.conseq fun _ _ _ _ _ _ h => h.1
  · exact tri_ws.conseq fun _ _ _ _ _ _ h => h.1

theorem tri_lineEnd {lo : Nat} : Tri pan s lo lineEnd fun a _ b => LineTail s a b := by
  intro a h1 h2
  refine tri_sp.step h1 h2 (Nat.le_refl _) fun _ x h3 h4 h5 => ?_
  refine tri_lineComment.opt.step (by omega) h4 h3 fun c y h6 h7 h8 => ?_
  refine wp_pure (by omega) h7 ⟨x, h5.1, ?_⟩
  cases c with
  | none => exact .inl h8.symm
  | some c => exact .inr ⟨h6, h7, h8.2.2.1⟩

/-! ### Numbers -/

theorem decVal_eq (t : Str) : decVal t = digitsVal t := rfl

theorem tri_digit1 {lo : Nat} : Tri pan s lo digit1 fun a t b => Tok s t a b ∧ DecDigits t :=
  tri_takeWhile1.conseq fun _ _ _ _ _ _ h => ⟨h.1, h.2.2.1, fun c hc => by
    simpa [isDigit] using h.2.1 c hc⟩

theorem tri_exponent {lo : Nat} : Tri pan s lo exponent fun a e b =>
    ∃ x, Tok s x a b ∧ ExpText x (expVal e) := by
  intro a h1 h2
  refine tri_oneOf.step h1 h2 (Nat.le_refl _) fun c x h3 h4 h5 => ?_
  refine tri_oneOf.opt.step (by omega) h4 h3 fun sg y h6 h7 h8 => ?_
  refine tri_digit1.cutErr.step (by omega) h7 (by omega) fun t z h9 h10 h11 => ?_
  have hc : c = 'e' ∨ c = 'E' := by simpa using h5.2
  cases sg with
  | none =>
    obtain rfl : y = x := h8
    exact wp_pure (by omega) h10 ⟨_, h5.1.append h11.1, c, t, hc, h11.2, .inl ⟨rfl, rfl⟩⟩
  | some g =>
    have hg : g = '+' ∨ g = '-' := by simpa using h8.2
    refine wp_pure (by omega) h10 ⟨_, (h5.1.append h8.1).append h11.1, c, t, hc, h11.2, .inr ?_⟩
    rcases hg with rfl | rfl
    · exact .inl ⟨rfl, rfl⟩
    · exact .inr ⟨rfl, rfl⟩

theorem expText_ne {x : Str} {e : Int} (h : ExpText x e) : x ≠ [] := by
  obtain ⟨c, ds, -, -, ⟨rfl, -⟩ | ⟨rfl, -⟩ | ⟨rfl, -⟩⟩ := h <;> simp

theorem uNumText_ne {t : Str} {n : N} (h : UNumText t n) : t ≠ [] := by
  cases h with
  | int h _ => exact h.1
  | frac h => simp
  | exp h1 h2 => simp [h1.1]

theorem numText_ne {t : Str} {n : N} (h : NumText t n) : t ≠ [] := by
  cases h with
  | pos h => exact uNumText_ne h
  | neg => simp

/-- A number without a sign. -/
def NumVal (s : Str) (n : N) (a b : Nat) : Prop := ∃ t, Tok s t a b ∧ UNumText t n

theorem NumVal.lt {n : N} {a b : Nat} (h : NumVal s n a b) : a < b := by
  obtain ⟨t, h1, h2⟩ := h
  have := h1.1; have := List.length_pos_iff.mpr (uNumText_ne h2); omega

theorem tri_float {lo : Nat} : Tri pan s lo float fun a x b =>
    ∃ t, Tok s t a b ∧ ∀ n, N.fromF64 x = some n → UNumText t n := by
  intro a h1 h2
  refine tri_digit1.step h1 h2 (Nat.le_refl _) fun ds x h3 h4 h5 => ?_
  refine Tri.step (lo := lo) (Q := fun a (y : Str × Option (Bool × Str)) b => ∃ t, Tok s t a b ∧
      ((DecDigits y.1 ∧ ∃ x, t = '.' :: y.1 ++ x ∧
          (x = [] ∧ y.2 = none ∨ ∃ e, y.2 = some e ∧ ExpText x (expVal e))) ∨
        (y.1 = [] ∧ ∃ e, y.2 = some e ∧ ExpText t (expVal e)))) ?_ (by omega) h4 h3
    fun p y h6 h7 h8 => ?_
  · refine Tri.alt' ?_ ?_
    · intro b h1 h2
      refine tri_chr.step h1 h2 (Nat.le_refl _) fun c x h3 h4 h5 => ?_
      refine tri_digit1.step (by omega) h4 h3 fun fs y h6 h7 h8 => ?_
      refine tri_exponent.opt.step (by omega) h7 (by omega) fun e z h9 h10 h11 => ?_
      cases e with
      | none =>
        obtain rfl : z = y := h11
        exact wp_pure (by omega) h10 ⟨_, h5.append h8.1, .inl ⟨h8.2, [], by simp, .inl ⟨rfl, rfl⟩⟩⟩
      | some e =>
        obtain ⟨x', hx, he⟩ := h11
        exact wp_pure (by omega) h10 ⟨_, (h5.append h8.1).append hx,
          .inl ⟨h8.2, x', rfl, .inr ⟨e, rfl, he⟩⟩⟩
    · intro b h1 h2
      refine tri_exponent.step h1 h2 (Nat.le_refl _) fun e z h9 h10 h11 => ?_
      obtain ⟨x', hx, he⟩ := h11
      exact wp_pure (by omega) h10 ⟨_, hx, .inr ⟨rfl, e, rfl, he⟩⟩
  · obtain ⟨frac, e⟩ := p
    obtain ⟨t, ht, h8⟩ := h8
    refine wp_pure (by omega) h7 ⟨ds ++ t, h5.1.append ht, fun n hn => ?_⟩
    rcases h8 with ⟨hf, x, rfl, ⟨rfl, he⟩ | ⟨e', he, hx⟩⟩ | ⟨hf, e', he, hx⟩
    · dsimp only at hf he
      subst he
      have := UNumText.frac h5.2 hf (.inl ⟨rfl, rfl⟩) hn
      simpa using this
    · dsimp only at hf he
      subst he
      have := UNumText.frac h5.2 hf (.inr hx) hn
      simpa using this
    · dsimp only at hf he
      subst hf he
      refine UNumText.exp h5.2 hx ?_
      simpa [decVal_eq] using hn

theorem tri_num {lo : Nat} : Tri pan s lo num fun a n b => NumVal s n a b := by
  have hint : Tri pan s lo integer fun a n b => ∃ t, Tok s t a b ∧ DecDigits t ∧
      n = digitsVal t ∧ digitsVal t < 2 ^ 64 := by
    refine tri_digit1.verifyMap.conseq fun a n b _ _ _ h => ?_
    obtain ⟨t, h1, h2⟩ := h
    split at h1
    · cases h1; exact ⟨t, h2.1, h2.2, rfl, by assumption⟩
    · cases h1
  refine Tri.alt tri_float.verifyMap hint.map ?_ ?_
  · rintro a n b ⟨x, h1, t, h2, h3⟩
    exact ⟨t, h2, h3 n h1⟩
  · rintro a n b ⟨v, rfl, t, h1, h2, rfl, h4⟩
    exact ⟨t, h1, .int h2 h4⟩

theorem round_pos (n d : Nat) : F64.round false n d = .inf false ∨
    ∃ m e, F64.round false n d = .fin false m e := by
  unfold F64.round
  dsimp only
  repeat' split
  all_goals first | exact .inl rfl | exact .inr ⟨_, _, rfl⟩

theorem toI64_nonneg {x : F64} (h : x = .inf false ∨ ∃ m e, x = .fin false m e) :
    0 ≤ x.toI64 ∧ x.toI64 < 2 ^ 63 := by
  rcases h with rfl | ⟨m, e, rfl⟩
  · decide
  · unfold F64.toI64
    dsimp only
    generalize ht : (if 0 ≤ e then F64.sm false m * 2 ^ e.toNat
      else F64.sm false (m / 2 ^ (-e).toNat)) = t
    have h0 : 0 ≤ t := by
      rw [← ht]
      split
      · exact Int.mul_nonneg (Int.natCast_nonneg m) (Int.pow_nonneg (by decide))
      · exact Int.natCast_nonneg (m / 2 ^ (-e).toNat)
    repeat' split
    all_goals omega

theorem neg_fromF64 {bd : Build} {m : Nat} {e : Int} {n : N}
    (h1 : N.fromF64 (F64.ofDecimal m e) = some n) : n.neg bd ≠ none := by
  intro hn
  unfold N.fromF64 at h1
  have hp : F64.ofDecimal m e = .inf false ∨ ∃ m' e', F64.ofDecimal m e = .fin false m' e' := by
    unfold F64.ofDecimal
    split <;> exact round_pos _ _
  have h4 := toI64_nonneg hp
  split at h1
  · split at h1
    · cases h1
      unfold N.ofI64 at hn
      rw [if_neg (by omega)] at hn
      simp only [N.neg, Option.map_eq_none_iff, i64Result] at hn
      split at hn
      · cases hn
      · rename_i hr
        unfold wrapI64 at hr
        omega
    · cases h1; cases hn
  · cases h1

/-- The only literal whose negation can panic is the integer 2^63, in a build with overflow checks. -/
theorem neg_none {bd : Build} {n : N} {a b : Nat} (h : NumVal s n a b) (hn : n.neg bd = none) :
    bd = .debug ∧ ∃ t, Tok s t a b ∧ (∀ c ∈ t, isDigit c = true) ∧ digitsVal t = 2 ^ 63 := by
  obtain ⟨t, h1, h⟩ := h
  cases h with
  | int h2 h3 =>
    simp only [N.neg, Option.map_eq_none_iff, i64Result] at hn
    rw [decVal_eq] at h3 hn
    split at hn
    · cases hn
    · rename_i hr
      cases bd
      · refine ⟨rfl, t, h1, fun c hc => by simpa [isDigit] using h2.2 c hc, ?_⟩
        unfold wrapI64 at hr
        omega
      · cases hn
  | frac _ _ _ h => exact absurd hn (neg_fromF64 h)
  | exp _ _ h => exact absurd hn (neg_fromF64 h)

/-- Without an overflow the build does not matter. -/
theorem neg_release {bd : Build} {n m : N} (h : n.neg bd = some m) : n.neg .release = some m := by
  cases n with
  | float x => exact h
  | posInt k =>
    simp only [N.neg, i64Result] at h ⊢
    split at h
    · rename_i hr; rw [if_pos hr]; exact h
    · rename_i hr
      rw [if_neg hr]
      cases bd
      · cases h
      · exact h
  | negInt k =>
    simp only [N.neg, i64Result] at h ⊢
    split at h
    · rename_i hr; rw [if_pos hr]; exact h
    · rename_i hr
      rw [if_neg hr]
      cases bd
      · cases h
      · exact h

/-! ### Strings and identifiers -/

theorem inp_pos {s : Str} {a b : Nat} (h : inp s a = inp s b) : a = b := congrArg Input.pos h

theorem tok_drop {t : Str} {a b : Nat} (h : Tok s t a b) : s.drop a = t ++ s.drop b := by
  obtain ⟨h1, h2, h3⟩ := h
  unfold slice at h3
  have : s.drop b = (s.drop a).drop (b - a) := by rw [List.drop_drop]; congr 1; omega
  rw [this, ← h3, List.take_append_drop]

theorem tok_of_drop {t r : Str} {a : Nat} (h : s.drop a = t ++ r) (ht : t ≠ []) :
    Tok s t a (a + t.length) := by
  refine (drop_append h ?_).1
  rcases Nat.lt_or_ge a s.length with h' | h'
  · omega
  · rw [List.drop_eq_nil_of_le h'] at h
    simp at h
    exact absurd h.1 ht

theorem _root_.Verif.Spec.LitAt.append {q : Bool} {v w : Str} {a b c : Nat} (h1 : LitAt q s v a b)
    (h2 : LitAt q s w b c) : LitAt q s (v ++ w) a c := by
  induction h1 with
  | nil => exact h2
  | marker h3 h4 _ ih => exact .marker h3 h4 (ih h2)
  | esc h3 h4 h5 _ ih => exact .esc h3 h4 h5 (ih h2)
  | char h3 h4 h5 _ ih => exact .char h3 h4 h5 (ih h2)

theorem escape_len {e : Str} {c : Char} (h : Escape e c) : 2 ≤ e.length := by cases h <;> simp

theorem _root_.Verif.Spec.LitAt.le {q : Bool} {v : Str} {a b : Nat} (h : LitAt q s v a b) : a ≤ b := by
  induction h with
  | nil => exact Nat.le_refl _
  | marker _ h _ ih => have := h.le; omega
  | esc _ h _ _ ih => have := h.le; omega
  | char h _ _ _ ih => have := h.le; omega

theorem tri_escapedMarker {lo : Nat} {q : Bool} :
    Tri pan s lo escapedMarker fun a v b => a < b ∧ LitAt q s v a b := by
  intro a h1 h2
  refine tri_takeN.step h1 h2 (Nat.le_refl _) fun t x h3 h4 h5 => ?_
  have hx : x = a + 3 := by have := h5.1.1; have := h5.2; omega
  split
  · rename_i h; subst h
    exact wp_pure h3 h4 ⟨by omega, .marker (.inl rfl) h5.1 .nil⟩
  · split
    · rename_i h; subst h
      exact wp_pure h3 h4 ⟨by omega, .marker (.inr rfl) h5.1 .nil⟩
    · exact wp_fail h3 h4

/-- What the end of a literal guarantees about the characters in front of it. -/
def EndOK (q : Bool) (s : Str) (p : P Unit) : Prop :=
  ∀ a i, a ≤ s.length → p (inp s a) = .back i → ∀ c b, Tok s [c] a b →
    (q = true → c ≠ '"' ∧ c ≠ '\\') ∧ (Sigil c → ¬ ∃ y, Tok s c!"{" b y)

/-- The parser stops with an error at `j`. -/
def Fails (r : Res α) (j : Input) : Prop := r = .back j ∨ r = .cut j

theorem bind_back {p : P α} {f : α → P β} {i j : Input} (h : P.bind p f i = .back j) :
    p i = .back j ∨ ∃ x k, p i = .ok x k ∧ f x k = .back j := by
  unfold P.bind at h
  cases hp : p i with
  | ok x k => rw [hp] at h; exact .inr ⟨x, k, rfl, h⟩
  | back k => rw [hp] at h; cases h; exact .inl rfl
  | cut k => rw [hp] at h; cases h
  | panic => rw [hp] at h; cases h
  | oof => rw [hp] at h; cases h

theorem bind_fails {p : P α} {f : α → P β} {i j : Input} (h : Fails (P.bind p f i) j) :
    Fails (p i) j ∨ ∃ x k, p i = .ok x k ∧ Fails (f x k) j := by
  unfold P.bind at h
  cases hp : p i with
  | ok x k => rw [hp] at h; exact .inr ⟨x, k, rfl, h⟩
  | back k => rw [hp] at h; rcases h with h | h <;> cases h; exact .inl (.inl rfl)
  | cut k => rw [hp] at h; rcases h with h | h <;> cases h; exact .inl (.inr rfl)
  | panic => rw [hp] at h; rcases h with h | h <;> cases h
  | oof => rw [hp] at h; rcases h with h | h <;> cases h

theorem map_fails {p : P α} {f : α → β} {i j : Input} (h : Fails (P.map f p i) j) :
    Fails (p i) j := by
  rcases bind_fails h with h | ⟨x, k, -, h⟩
  · exact h
  · rcases h with h | h <;> cases h

theorem alt_back {p q : P α} {i j : Input} (h : P.alt p q i = .back j) :
    (∃ k, p i = .back k) ∧ q i = .back j := by
  unfold P.alt at h
  cases hp : p i with
  | back k => rw [hp] at h; exact ⟨⟨k, rfl⟩, h⟩
  | ok x k => rw [hp] at h; cases h
  | cut k => rw [hp] at h; cases h
  | panic => rw [hp] at h; cases h
  | oof => rw [hp] at h; cases h

theorem escapedMarker_back {a : Nat} {i : Input} (h : escapedMarker (inp s a) = .back i) (c : Char)
    (hc : Sigil c) : ¬ ∃ y, Tok s [c, c, '{'] a y := by
  rintro ⟨y, hy⟩
  have hd : s.drop a = c :: c :: '{' :: s.drop y := tok_drop hy
  have ht : takeN 3 (inp s a) = .ok [c, c, '{'] (inp s y) := by
    have : y = a + 3 := by have := hy.1; simpa using this
    unfold takeN
    show (if (s.drop a).length < 3 then Res.back (inp s a)
      else .ok ((s.drop a).take 3) ⟨a + 3, (s.drop a).drop 3⟩) = _
    rw [hd, if_neg (by simp)]
    subst this
    rfl
  unfold escapedMarker at h
  rcases bind_back h with h | ⟨x, k, h1, h⟩
  · rw [ht] at h; cases h
  · rw [ht] at h1
    cases h1
    rcases hc with rfl | rfl <;> cases h

theorem tri_anyUntil {lo : Nat} {q : Bool} {p : P Unit} {Q : Nat → Unit → Nat → Prop}
    (hp : Tri pan s lo p Q) (he : EndOK q s p) :
    Tri pan s lo (anyUntil p) fun a v b => a < b ∧ LitAt q s v a b := by
  have hstep : Tri pan s lo (preceded (notP (P.alt (P.map (fun _ => ()) escapedMarker) p)) any)
      fun a c b => a < b ∧ Tok s [c] a b ∧ (∃ i, p (inp s a) = .back i) ∧
        ∃ i, escapedMarker (inp s a) = .back i := by
    intro a h1 h2
    refine Tri.step (Tri.notP (Tri.alt (T := fun _ _ _ => True)
      (tri_escapedMarker (q := q)).map hp
      (fun _ _ _ _ => trivial) (fun _ _ _ _ => trivial))) h1 h2 (Nat.le_refl _)
      fun _ x h3 h4 h5 => ?_
    obtain ⟨rfl, i, hi⟩ := h5
    refine tri_any.fin (by omega) h4 h3 fun c y h6 h7 h8 => ⟨?_, h8, ?_⟩
    · have := h8.1; simp at this; omega
    · obtain ⟨⟨k, hk⟩, hi⟩ := alt_back hi
      refine ⟨⟨_, hi⟩, k, ?_⟩
      rcases bind_back hk with h | ⟨x, j, -, h⟩
      · exact h
      · cases h
  refine (hstep.repeat1 fun _ _ _ _ _ h => h.1).taken.conseq fun a t b h1 h2 h3 h => ?_
  obtain ⟨rfl, xs, h4, h5⟩ := h
  have key : LitAt q s (slice s a b) a b := by
    clear h1 h2 h4 hstep
    induction h5 with
    | nil => rw [slice_self]; exact .nil
    | @cons c cs a x b hlt h6 h7 ih =>
      obtain ⟨-, h8, ⟨i, hi⟩, j, hj⟩ := h6
      rw [← slice_append (b := x) (by omega) h7.le, h8.text]
      obtain ⟨k1, k2⟩ := he a i (by have := h8.bound; omega) hi c x h8
      exact .char h8 k1 (fun hs => ⟨k2 hs, escapedMarker_back hj c hs⟩) (ih h3)
  refine ⟨?_, key⟩
  cases h5 with
  | nil => exact absurd rfl h4
  | cons h6 _ h7 => have := h7.le; omega

theorem tri_quotedEnd {lo : Nat} : Tri pan s lo quotedEnd fun _ _ _ => True := by
  intro a h1 h2
  refine tri_any.step h1 h2 (Nat.le_refl _) fun c x h3 h4 h5 => ?_
  split
  · exact wp_pure h3 h4 trivial
  · split
    · exact tri_chr.step (by omega) h4 h3 fun _ y h6 h7 h8 => wp_pure (by omega) h7 trivial
    · exact wp_fail h3 h4

theorem any_tok {c : Char} {a b : Nat} (h : Tok s [c] a b) : any (inp s a) = .ok c (inp s b) := by
  have hd : s.drop a = c :: s.drop b := tok_drop h
  have hb : b = a + 1 := by have := h.1; simpa using this
  unfold any
  show (match s.drop a with | [] => _ | c :: cs => _) = _
  rw [hd]
  subst hb
  rfl

theorem oneOf_spec {f : Char → Bool} {a : Nat} {r : Res Char} (h : P.oneOf f (inp s a) = r) :
    r = .back (inp s a) ∧ (∀ c b, Tok s [c] a b → f c = false) ∨
    ∃ c, r = .ok c (inp s (a + 1)) ∧ Tok s [c] a (a + 1) ∧ f c = true := by
  unfold P.oneOf at h
  change (match s.drop a with
    | [] => Res.back (inp s a)
    | c :: cs => if f c then .ok c ⟨a + 1, cs⟩ else .back (inp s a)) = r at h
  cases hd : s.drop a with
  | nil =>
    rw [hd] at h
    refine .inl ⟨h.symm, fun c b hc => ?_⟩
    have := tok_drop hc
    rw [hd] at this; cases this
  | cons c cs =>
    rw [hd] at h
    obtain ⟨h1, h2, h3⟩ := drop_cons hd
    dsimp only at h
    by_cases hc : f c = true
    · rw [if_pos hc] at h
      exact .inr ⟨c, by rw [← h, ← h2], ⟨rfl, h1, h3⟩, hc⟩
    · rw [if_neg hc] at h
      refine .inl ⟨h.symm, fun d b hd' => ?_⟩
      have := tok_drop hd'
      rw [hd] at this
      cases this
      simpa using hc

theorem any_spec {a : Nat} {r : Res Char} (h : any (inp s a) = r) :
    r = .back (inp s a) ∧ s.drop a = [] ∨
    ∃ c, r = .ok c (inp s (a + 1)) ∧ Tok s [c] a (a + 1) := by
  unfold P.any at h
  change (match s.drop a with
    | [] => Res.back (inp s a)
    | c :: cs => .ok c ⟨a + 1, cs⟩) = r at h
  cases hd : s.drop a with
  | nil => rw [hd] at h; exact .inl ⟨h.symm, rfl⟩
  | cons c cs =>
    rw [hd] at h
    obtain ⟨h1, h2, h3⟩ := drop_cons hd
    exact .inr ⟨c, by rw [← h, ← h2], ⟨rfl, h1, h3⟩⟩

theorem chr_back {c : Char} {a : Nat} {i : Input} (h : chr c (inp s a) = .back i) :
    ¬ ∃ b, Tok s [c] a b := by
  rintro ⟨b, hb⟩
  rcases oneOf_spec h with ⟨-, h⟩ | ⟨d, h, -⟩
  · have := h c b hb
    simp at this
  · cases h

theorem endOK_quoted : EndOK true s quotedEnd := by
  intro a i ha h c b hc
  rcases bind_back h with h | ⟨x, k, h1, h⟩
  · rw [any_tok hc] at h; cases h
  · rw [any_tok hc] at h1
    cases h1
    have h1 : ¬ (c = '"' ∨ c = '\\') := by
      intro hc'
      rw [if_pos hc'] at h; cases h
    rw [if_neg h1] at h
    refine ⟨fun _ => ⟨fun h => h1 (.inl h), fun h => h1 (.inr h)⟩, fun hs => ?_⟩
    rw [if_pos (show c = '$' ∨ c = '%' from hs)] at h
    rcases bind_back h with h | ⟨x, k, h1, h⟩
    · exact chr_back h
    · cases h

theorem tag_back {t : Str} {a : Nat} {i : Input} (h : tag t (inp s a) = .back i) :
    ¬ ∃ b, Tok s t a b := by
  rintro ⟨b, hb⟩
  have := tok_drop hb
  unfold tag at h
  rw [show (inp s a).rest = s.drop a from rfl, this, dropPrefix_append] at h
  cases h

theorem endOK_tags {p : P Unit} (h1 : ∀ a i, p (inp s a) = .back i → ∃ j, tag c!"${" (inp s a) = .back j)
    (h2 : ∀ a i, p (inp s a) = .back i → ∃ j, tag c!"%{" (inp s a) = .back j) : EndOK false s p := by
  intro a i ha h c b hc
  refine ⟨nofun, fun hs => ?_⟩
  rintro ⟨y, hy⟩
  rcases hs with rfl | rfl
  · obtain ⟨j, hj⟩ := h1 a i h
    exact tag_back hj ⟨y, hc.append hy⟩
  · obtain ⟨j, hj⟩ := h2 a i h
    exact tag_back hj ⟨y, hc.append hy⟩

theorem hexVal_some {c : Char} (h : isHexDigit c = true) : hexDigitVal c = some (hexVal c) := by
  unfold isHexDigit isDigit at h
  unfold hexDigitVal hexVal isDigit
  simp only [Bool.or_eq_true, decide_eq_true_eq] at h
  have e0 : '0'.toNat = 48 := rfl
  have e9 : '9'.toNat = 57 := rfl
  have ea : 'a'.toNat = 97 := rfl
  have ef : 'f'.toNat = 102 := rfl
  have eA : 'A'.toNat = 65 := rfl
  have eF : 'F'.toNat = 70 := rfl
  rw [e0, e9, ea, ef, eA, eF]
  by_cases h1 : 48 ≤ c.toNat ∧ c.toNat ≤ 57
  · rw [if_pos h1, if_pos (by simpa using h1)]
  · have h1' : ¬ decide (48 ≤ c.toNat ∧ c.toNat ≤ 57) = true := by simpa using h1
    rw [if_neg h1, if_neg h1']
    by_cases h2 : 97 ≤ c.toNat ∧ c.toNat ≤ 102
    · rw [if_pos h2, if_pos h2.1]; congr 1; omega
    · rw [if_neg h2, if_pos (by omega), if_neg (by omega)]; congr 1; omega

theorem hexVal_none {c : Char} (h : isHexDigit c = false) : hexDigitVal c = none := by
  unfold isHexDigit isDigit at h
  unfold hexDigitVal
  simp only [Bool.or_eq_false_iff, decide_eq_false_iff_not] at h
  have e0 : '0'.toNat = 48 := rfl
  have e9 : '9'.toNat = 57 := rfl
  have ea : 'a'.toNat = 97 := rfl
  have ef : 'f'.toNat = 102 := rfl
  have eA : 'A'.toNat = 65 := rfl
  have eF : 'F'.toNat = 70 := rfl
  rw [e0, e9, ea, ef, eA, eF, if_neg (by omega), if_neg (by omega), if_neg (by omega)]

theorem foldl_hexVal (ds : Str) (n : Nat) :
    (ds.map hexVal).foldl (fun n v => 16 * n + v) n = ds.foldl (fun n c => 16 * n + hexVal c) n := by
  induction ds generalizing n with
  | nil => rfl
  | cons d ds ih => exact ih _

theorem hexText_of {ds : Str} (h : ∀ c ∈ ds, isHexDigit c = true) : HexText ds (hexNum ds) := by
  refine ⟨ds.map hexVal, ?_, (foldl_hexVal ds 0).symm⟩
  rw [List.map_map]
  exact List.map_congr_left fun c hc => hexVal_some (h c hc)

theorem hexText_inv {ds : Str} {n : Nat} (h : HexText ds n) :
    (∀ c ∈ ds, isHexDigit c = true) ∧ n = hexNum ds := by
  obtain ⟨vs, h1, h2⟩ := h
  have key : ∀ c ∈ ds, isHexDigit c = true := by
    intro c hc
    cases hh : isHexDigit c with
    | true => rfl
    | false =>
      have hm : hexDigitVal c ∈ ds.map hexDigitVal := List.mem_map_of_mem hc
      rw [h1, hexVal_none hh] at hm
      simp at hm
  refine ⟨key, ?_⟩
  obtain ⟨vs', h3, h4⟩ := hexText_of key
  have h5 : vs = vs' := by
    have := h1.symm.trans h3
    exact (List.map_inj_right fun _ _ h => Option.some.inj h).mp this
  rw [h2, h4, h5]

theorem tri_hexEscape {lo n : Nat} : Tri pan s lo (hexEscape n) fun a c b =>
    ∃ ds, Tok s ds a b ∧ ds.length = n ∧ HexText ds c.toNat :=
  tri_takeWhileUpTo.verifyMap.conseq fun a c b _ _ _ h => by
    obtain ⟨ds, h1, h2, h3, -⟩ := h
    split at h1
    · rename_i hv
      cases h1
      refine ⟨ds, h2, hv.1, ?_⟩
      have : (Char.ofNat (hexNum ds)).toNat = hexNum ds := by
        unfold Char.ofNat; rw [dif_pos hv.2]; rfl
      rw [this]
      exact hexText_of h3
    · cases h1

theorem tri_escapedChar {lo : Nat} : Tri pan s lo escapedChar fun a c b =>
    ∃ e, Tok s e a b ∧ Escape e c := by
  intro a h1 h2
  refine tri_chr.step h1 h2 (Nat.le_refl _) fun _ x h3 h4 h5 => ?_
  have h6 := h5.1
  simp at h6
  refine tri_any.step (by omega) h4 h3 fun c y h7 h8 h9 => ?_
  have hay : a ≤ y := by omega
  have htok := h5.append h9
  have hret : ∀ d : Char, (c, d) ∈ escapeTable →
      Wp pan s a (fun c b => ∃ e, Tok s e a b ∧ Escape e c) ((Pure.pure d : P Char) (inp s y)) :=
    fun d hd => wp_pure hay h8 ⟨_, htok, .simple hd⟩
  have hhex : ∀ n, c = 'u' ∧ n = 4 ∨ c = 'U' ∧ n = 8 →
      Wp pan s a (fun c b => ∃ e, Tok s e a b ∧ Escape e c) (cutErr (hexEscape n) (inp s y)) := by
    intro n hn
    refine tri_hexEscape.cutErr.fin (by omega : lo ≤ y) h8 hay fun d z h _ h' => ?_
    obtain ⟨ds, k1, k2, k3⟩ := h'
    refine ⟨_, htok.append k1, Escape.unicode (ds := ds) ?_ k3⟩
    rw [k2]; exact hn
  by_cases hc : c = 'n'
  · rw [if_pos hc]; exact hret _ (by subst hc; decide)
  rw [if_neg hc]; clear hc
  by_cases hc : c = 'r'
  · rw [if_pos hc]; exact hret _ (by subst hc; decide)
  rw [if_neg hc]; clear hc
  by_cases hc : c = 't'
  · rw [if_pos hc]; exact hret _ (by subst hc; decide)
  rw [if_neg hc]; clear hc
  by_cases hc : c = '\\'
  · rw [if_pos hc]; exact hret _ (by subst hc; decide)
  rw [if_neg hc]; clear hc
  by_cases hc : c = '"'
  · rw [if_pos hc]; exact hret _ (by subst hc; decide)
  rw [if_neg hc]; clear hc
  by_cases hc : c = '/'
  · rw [if_pos hc]; exact hret _ (by subst hc; decide)
  rw [if_neg hc]; clear hc
  by_cases hc : c = 'b'
  · rw [if_pos hc]; exact hret _ (by subst hc; decide)
  rw [if_neg hc]; clear hc
  by_cases hc : c = 'f'
  · rw [if_pos hc]; exact hret _ (by subst hc; decide)
  rw [if_neg hc]; clear hc
  by_cases hc : c = 'u'
  · rw [if_pos hc]; exact hhex 4 (.inl ⟨hc, rfl⟩)
  rw [if_neg hc]; clear hc
  by_cases hc : c = 'U'
  · rw [if_pos hc]; exact hhex 8 (.inr ⟨hc, rfl⟩)
  rw [if_neg hc]; clear hc
  exact wp_cutFail hay h8

theorem tri_quotedFragment {lo : Nat} :
    Tri pan s lo quotedFragment fun a v b => a < b ∧ LitAt true s v a b :=
  tri_escapedMarker.alt'
    (Tri.alt (tri_anyUntil tri_quotedEnd endOK_quoted) tri_escapedChar.map
      (fun _ _ _ h => h) (fun _ _ _ h => by
        obtain ⟨c, rfl, e, h1, h2⟩ := h
        refine ⟨?_, .esc rfl h1 h2 .nil⟩
        have := h1.1; have := escape_len h2; omega))

theorem tri_templateFragment {lo : Nat} {p : P Unit} {Q : Nat → Unit → Nat → Prop}
    (hp : Tri pan s lo p Q) (he : EndOK false s p) :
    Tri pan s lo (templateFragment p) fun a v b => a < b ∧ LitAt false s v a b :=
  tri_escapedMarker.alt' (tri_anyUntil hp he)

/-! Where a fragment parser leaves the input when it fails. -/

/-- A parser that does not fail with a cut. -/
def NoCut (p : P α) : Prop := ∀ i j, p i ≠ .cut j

theorem noCut_bind {p : P α} {f : α → P β} (h1 : NoCut p) (h2 : ∀ a, NoCut (f a)) :
    NoCut (P.bind p f) := by
  intro i j h
  unfold P.bind at h
  cases hp : p i with
  | ok x k => rw [hp] at h; exact h2 x k j h
  | cut k => exact h1 i k hp
  | _ => rw [hp] at h; cases h

theorem noCut_alt {p q : P α} (h1 : NoCut p) (h2 : NoCut q) : NoCut (P.alt p q) := by
  intro i j h
  unfold P.alt at h
  cases hp : p i with
  | back k => rw [hp] at h; exact h2 i j h
  | cut k => exact h1 i k hp
  | _ => rw [hp] at h; cases h

theorem noCut_notP {p : P α} (h1 : NoCut p) : NoCut (P.notP p) := by
  intro i j h
  unfold P.notP at h
  cases hp : p i with
  | cut k => exact h1 i k hp
  | _ => rw [hp] at h; cases h

theorem noCut_any : NoCut P.any := by
  intro i j h
  unfold P.any at h
  split at h <;> cases h

theorem noCut_oneOf {f : Char → Bool} : NoCut (P.oneOf f) := by
  intro i j h
  unfold P.oneOf at h
  split at h
  · cases h
  · split at h <;> cases h

theorem noCut_tag {t : Str} : NoCut (P.tag t) := by
  intro i j h
  unfold P.tag at h
  split at h <;> cases h

theorem noCut_pure {x : α} : NoCut (Pure.pure x : P α) := by intro i j h; cases h

theorem noCut_fail : NoCut (P.fail : P α) := by intro i j h; cases h

theorem noCut_takeN {n : Nat} : NoCut (P.takeN n) := by
  intro i j h
  unfold P.takeN at h
  split at h <;> cases h

theorem noCut_escapedMarker : NoCut escapedMarker := by
  refine noCut_bind noCut_takeN fun t => ?_
  by_cases h1 : t = c!"$${"
  · rw [if_pos h1]; exact noCut_pure
  · rw [if_neg h1]
    by_cases h2 : t = c!"%%{"
    · rw [if_pos h2]; exact noCut_pure
    · rw [if_neg h2]; exact noCut_fail

theorem repeatF_err {p : P α} (h : NoCut p) (n : Nat) (i : Input) :
    (∀ j, repeatF p n i ≠ .cut j) ∧ ∀ j, repeatF p n i ≠ .back j := by
  induction n generalizing i with
  | zero => exact ⟨nofun, nofun⟩
  | succ n ih =>
    unfold repeatF
    cases hp : p i with
    | ok x k =>
      dsimp only
      split
      · cases hr : repeatF p n k with
        | cut l => exact absurd hr ((ih k).1 l)
        | back l => exact absurd hr ((ih k).2 l)
        | _ => exact ⟨nofun, nofun⟩
      · exact ⟨nofun, nofun⟩
    | cut k => exact absurd hp (h i k)
    | _ => exact ⟨nofun, nofun⟩

theorem repeat1_err {p : P α} (h : NoCut p) (hb : ∀ i j, p i = .back j → j = i) (i j : Input)
    (hf : Fails (repeat1 p i) j) : p i = .back j ∧ j = i := by
  rcases bind_fails hf with h1 | ⟨x, k, h1, h2⟩
  · rcases h1 with h1 | h1
    · exact ⟨h1, hb i j h1⟩
    · exact absurd h1 (h i j)
  · rcases map_fails h2 with h2 | h2
    · exact absurd h2 ((repeatF_err h _ k).2 j)
    · exact absurd h2 ((repeatF_err h _ k).1 j)

theorem withTaken_fails {p : P α} {i j : Input} (h : Fails (withTaken p i) j) : Fails (p i) j := by
  unfold P.withTaken at h
  cases hp : p i with
  | ok x k => rw [hp] at h; rcases h with h | h <;> cases h
  | back k => rw [hp] at h; rcases h with h | h <;> cases h; exact .inl rfl
  | cut k => rw [hp] at h; rcases h with h | h <;> cases h; exact .inr rfl
  | panic => rw [hp] at h; rcases h with h | h <;> cases h
  | oof => rw [hp] at h; rcases h with h | h <;> cases h

theorem anyUntil_err {p : P Unit} (h : NoCut p) (i j : Input) (hf : Fails (anyUntil p i) j) :
    j = i := by
  have hstep : NoCut (preceded (notP (P.alt (P.map (fun _ => ()) escapedMarker) p)) any) :=
    noCut_bind (noCut_notP (noCut_alt (noCut_bind noCut_escapedMarker fun _ => noCut_pure) h))
      fun _ => noCut_any
  refine (repeat1_err hstep ?_ i j (withTaken_fails (map_fails hf))).2
  intro i j hj
  rcases bind_back hj with hj | ⟨_, k, h1, h2⟩
  · unfold P.notP at hj
    split at hj <;> cases hj
    rfl
  · have hk : k = i := by
      unfold P.notP at h1
      split at h1 <;> cases h1
      rfl
    subst hk
    unfold P.any at h2
    split at h2 <;> cases h2
    rfl

theorem anyUntil_noCut {p : P Unit} (h : NoCut p) : NoCut (anyUntil p) := by
  have hstep : NoCut (preceded (notP (P.alt (P.map (fun _ => ()) escapedMarker) p)) any) :=
    noCut_bind (noCut_notP (noCut_alt (noCut_bind noCut_escapedMarker fun _ => noCut_pure) h))
      fun _ => noCut_any
  refine noCut_bind ?_ fun _ => noCut_pure
  intro i j hj
  unfold P.withTaken at hj
  have : NoCut (repeat1 (preceded (notP (P.alt (P.map (fun _ => ()) escapedMarker) p)) any)) :=
    noCut_bind hstep fun _ => noCut_bind (fun i j => (repeatF_err hstep _ i).1 j) fun _ => noCut_pure
  split at hj
  · cases hj
  · cases hj
  · rename_i k hk; exact this _ _ hk
  · cases hj
  · cases hj

/-- The offsets at which a failing parser leaves the input. -/
def ErrAt (s : Str) (p : P α) (J : Nat → Nat → Prop) : Prop :=
  ∀ a i, a ≤ s.length → Fails (p (inp s a)) i → ∃ b, i = inp s b ∧ J a b

theorem templateFragment_err {p : P Unit} (h : NoCut p) :
    ErrAt s (templateFragment p) fun a b => b = a := by
  intro a i ha hi
  refine ⟨a, ?_, rfl⟩
  unfold templateFragment at hi
  rcases hi with hi | hi
  · exact anyUntil_err h _ _ (.inl (alt_back hi).2)
  · exact absurd hi (noCut_alt noCut_escapedMarker (anyUntil_noCut h) _ _)

theorem noCut_quotedEnd : NoCut quotedEnd := by
  refine noCut_bind noCut_any fun c => ?_
  by_cases h1 : c = '"' ∨ c = '\\'
  · rw [if_pos h1]; exact noCut_pure
  · rw [if_neg h1]
    by_cases h2 : c = '$' ∨ c = '%'
    · rw [if_pos h2]; exact noCut_bind noCut_oneOf fun _ => noCut_pure
    · rw [if_neg h2]; exact noCut_fail

theorem prefixUpTo_all {f : Char → Bool} {ds r : Str} (h : ∀ c ∈ ds, f c = true) :
    prefixUpTo f ds.length (ds ++ r) = ds := by
  induction ds with
  | nil => rfl
  | cons d ds ih =>
    show (if f d = true then d :: prefixUpTo f ds.length (ds ++ r) else []) = _
    rw [if_pos (h d (List.mem_cons_self ..)), ih fun c hc => h c (List.mem_cons_of_mem _ hc)]

theorem hexEscape_ok {ds : Str} {c : Char} {a b : Nat} (h1 : Tok s ds a b) (hne : ds ≠ [])
    (h2 : HexText ds c.toNat) : hexEscape ds.length (inp s a) = .ok c (inp s b) := by
  obtain ⟨h3, h4⟩ := hexText_inv h2
  unfold hexEscape P.verifyMap takeWhileUpTo
  dsimp only
  rw [tok_drop h1, prefixUpTo_all h3, if_neg (by simpa using hne)]
  dsimp only
  have hv : (hexNum ds).isValidChar := by rw [← h4]; exact c.valid
  rw [if_pos ⟨rfl, hv⟩, ← h4, Char.ofNat_toNat, List.drop_left]
  have := h1.1
  subst this
  rfl

theorem hexEscape_err {n : Nat} {i j : Input} :
    (hexEscape n i = .back j → j = i) ∧ hexEscape n i ≠ .cut j := by
  unfold hexEscape P.verifyMap takeWhileUpTo
  dsimp only
  by_cases h : (prefixUpTo isHexDigit n i.rest).isEmpty
  · rw [if_pos h]; exact ⟨fun h => by cases h; rfl, nofun⟩
  · rw [if_neg h]
    dsimp only
    split
    · exact ⟨nofun, nofun⟩
    · exact ⟨fun h => by cases h; rfl, nofun⟩

theorem escapedChar_err : ErrAt s escapedChar fun a b => b = a ∨ BadEscape s a b := by
  intro a i ha hi
  rcases bind_fails hi with hi | ⟨x, k, h1, hi⟩
  · rcases oneOf_spec (r := chr '\\' (inp s a)) rfl with ⟨h, -⟩ | ⟨c, h, -⟩
    · refine ⟨a, ?_, .inl rfl⟩
      rw [h] at hi; rcases hi with hi | hi <;> cases hi
      rfl
    · rw [h] at hi; rcases hi with hi | hi <;> cases hi
  have ht : Tok s c!"\\" a (a + 1) ∧ k = inp s (a + 1) := by
    rcases oneOf_spec h1 with ⟨h, -⟩ | ⟨c, h, h2, h3⟩
    · cases h
    · injection h with _ hk
      have : c = '\\' := by simpa using h3
      subst this
      exact ⟨h2, hk⟩
  obtain ⟨ht, rfl⟩ := ht
  clear h1
  rcases bind_fails hi with hi | ⟨k, j, h1, hi⟩
  · rcases any_spec (r := any (inp s (a + 1))) rfl with ⟨h, h'⟩ | ⟨c, h, -⟩
    · refine ⟨a + 1, ?_, .inr ⟨by omega, by omega, ht.bound, ht, ?_⟩⟩
      · rw [h] at hi; rcases hi with hi | hi <;> cases hi
        rfl
      · intro e c y he hesc
        have hl : s.length ≤ a + 1 := List.drop_eq_nil_iff.mp h'
        have := he.bound; have := he.1; have := escape_len hesc; omega
    · rw [h] at hi; rcases hi with hi | hi <;> cases hi
  have htk : Tok s [k] (a + 1) (a + 2) ∧ j = inp s (a + 2) := by
    rcases any_spec h1 with ⟨h, -⟩ | ⟨c, h, h2⟩
    · cases h
    · cases h; exact ⟨h2, rfl⟩
  obtain ⟨htk, rfl⟩ := htk
  clear h1
  have h4 := htk.bound
  have hd : s.drop a = '\\' :: k :: s.drop (a + 2) := tok_drop (ht.append htk)
  have inv : ∀ e c y, Tok s e a y → Escape e c → (k, c) ∈ escapeTable ∨
      ∃ ds, (k = 'u' ∧ ds.length = 4 ∨ k = 'U' ∧ ds.length = 8) ∧ Tok s ds (a + 2) y ∧
        HexText ds c.toNat := by
    intro e c y he hesc
    have hdr := tok_drop he
    rw [hd] at hdr
    cases hesc with
    | simple hm =>
      simp only [List.cons_append, List.nil_append, List.cons.injEq, true_and] at hdr
      rw [hdr.1]; exact .inl hm
    | @unicode k' ds c hk hx =>
      simp only [List.cons_append, List.cons.injEq, true_and] at hdr
      obtain ⟨rfl, hdr⟩ := hdr
      refine .inr ⟨ds, hk, ?_, hx⟩
      have := (drop_append hdr h4).1
      have hy : y = a + 2 + ds.length := by have := he.1; simp at this; omega
      rw [hy]; exact this
  have bad : (∀ c, (k, c) ∉ escapeTable) →
      (∀ ds c y, (k = 'u' ∧ ds.length = 4 ∨ k = 'U' ∧ ds.length = 8) → Tok s ds (a + 2) y →
        ¬ HexText ds (Char.toNat c)) → BadEscape s a (a + 2) := by
    intro h7 h8
    refine ⟨by omega, by omega, h4, ht, fun e c y he hesc => ?_⟩
    rcases inv e c y he hesc with h | ⟨ds, g1, g2, g3⟩
    · exact h7 c h
    · exact h8 ds c y g1 g2 g3
  have ok : ∀ {d : Char}, ¬ Fails ((Pure.pure d : P Char) (inp s (a + 2))) i := by
    intro d h; rcases h with h | h <;> cases h
  by_cases hk : k = 'n'
  · rw [if_pos hk] at hi; exact absurd hi ok
  rw [if_neg hk] at hi
  by_cases hk2 : k = 'r'
  · rw [if_pos hk2] at hi; exact absurd hi ok
  rw [if_neg hk2] at hi
  by_cases hk3 : k = 't'
  · rw [if_pos hk3] at hi; exact absurd hi ok
  rw [if_neg hk3] at hi
  by_cases hk4 : k = '\\'
  · rw [if_pos hk4] at hi; exact absurd hi ok
  rw [if_neg hk4] at hi
  by_cases hk5 : k = '"'
  · rw [if_pos hk5] at hi; exact absurd hi ok
  rw [if_neg hk5] at hi
  by_cases hk6 : k = '/'
  · rw [if_pos hk6] at hi; exact absurd hi ok
  rw [if_neg hk6] at hi
  by_cases hk7 : k = 'b'
  · rw [if_pos hk7] at hi; exact absurd hi ok
  rw [if_neg hk7] at hi
  by_cases hk8 : k = 'f'
  · rw [if_pos hk8] at hi; exact absurd hi ok
  rw [if_neg hk8] at hi
  have htab : ∀ c, (k, c) ∉ escapeTable := by
    intro c hm
    simp only [escapeTable, List.mem_cons, Prod.mk.injEq, List.not_mem_nil, or_false] at hm
    rcases hm with h | h | h | h | h | h | h | h
    · exact hk h.1
    · exact hk2 h.1
    · exact hk3 h.1
    · exact hk4 h.1
    · exact hk5 h.1
    · exact hk6 h.1
    · exact hk7 h.1
    · exact hk8 h.1
  have hexCase : ∀ n, (∀ m, k = 'u' ∧ m = 4 ∨ k = 'U' ∧ m = 8 → m = n ∧ m ≠ 0) →
      Fails (cutErr (hexEscape n) (inp s (a + 2))) i →
      ∃ b, i = inp s b ∧ (b = a ∨ BadEscape s a b) := by
    intro n hn hh
    have hback : ∃ j, hexEscape n (inp s (a + 2)) = .back j ∧ i = j := by
      unfold P.cutErr at hh
      cases hx : hexEscape n (inp s (a + 2)) with
      | back j =>
        rw [hx] at hh
        rcases hh with h | h
        · cases h
        · cases h; exact ⟨_, rfl, rfl⟩
      | cut j => exact absurd hx hexEscape_err.2
      | _ => rw [hx] at hh; rcases hh with h | h <;> cases h
    obtain ⟨j, hj, rfl⟩ := hback
    have := hexEscape_err.1 hj
    subst this
    refine ⟨a + 2, rfl, .inr (bad htab ?_)⟩
    intro ds c y g1 g2 g3
    have := hn ds.length g1
    have hok := hexEscape_ok g2 (by intro h; rw [h] at this; exact this.2 rfl) g3
    rw [this.1, hj] at hok
    cases hok
  by_cases hk9 : k = 'u'
  · rw [if_pos hk9] at hi
    exact hexCase 4 (fun m hm => by
      rcases hm with h | h
      · omega
      · rw [hk9] at h; exact absurd h.1 (by decide)) hi
  rw [if_neg hk9] at hi
  by_cases hk10 : k = 'U'
  · rw [if_pos hk10] at hi
    exact hexCase 8 (fun m hm => by
      rcases hm with h | h
      · rw [hk10] at h; exact absurd h.1 (by decide)
      · omega) hi
  rw [if_neg hk10] at hi
  have : i = inp s (a + 2) := by
    rcases hi with h | h
    · cases h
    · cases h; rfl
  refine ⟨a + 2, this, .inr (bad htab ?_)⟩
  intro ds c y g1
  rcases g1 with h | h
  · exact absurd h.1 hk9
  · exact absurd h.1 hk10

theorem quotedFragment_err : ErrAt s quotedFragment fun a b => b = a ∨ BadEscape s a b := by
  intro a i ha hi
  unfold quotedFragment stringLiteral at hi
  refine escapedChar_err a i ha (map_fails (f := fun c => [c]) ?_)
  rcases hi with hi | hi
  · exact .inl (alt_back (alt_back hi).2).2
  · unfold P.alt at hi
    cases h1 : escapedMarker (inp s a) with
    | cut j => exact absurd h1 (noCut_escapedMarker _ _)
    | back j =>
      rw [h1] at hi
      dsimp only at hi
      cases h2 : anyUntil quotedEnd (inp s a) with
      | cut j => exact absurd h2 (anyUntil_noCut noCut_quotedEnd _ _)
      | back j => rw [h2] at hi; exact .inr hi
      | _ => rw [h2] at hi; cases hi
    | _ => rw [h1] at hi; cases hi

theorem buildLoop_tri {q : Bool} {J : Nat → Nat → Prop} {p : P Str} {lo : Nat}
    (hp : Tri pan s lo p fun a v b => a < b ∧ LitAt q s v a b) (hJ : ErrAt s p J) (n a : Nat)
    (h1 : lo ≤ a) (h2 : a ≤ s.length) (hn : s.length - a < n) :
    Wp pan s a (fun v b => ∃ x, LitAt q s v a x ∧ J x b) (buildLoop p n (inp s a)) := by
  induction n generalizing a with
  | zero => omega
  | succ n ih =>
    have h := hp a h1 h2
    unfold buildLoop
    revert h
    cases hpa : p (inp s a) with
    | ok t i =>
      rintro ⟨r, rfl, h3, h4, h5⟩
      simp only
      rw [if_pos ((rest_lt h2 h4).mpr h5.1)]
      refine wp_bind (Q := fun v b => ∃ x, LitAt q s v r x ∧ J x b)
        ((ih r (by omega) h4 (by omega)).mono h3 fun _ _ _ _ h => h) fun x c h6 h7 h8 => ?_
      obtain ⟨y, h8, h9⟩ := h8
      exact wp_pure h6 h7 ⟨y, h5.2.append h8, h9⟩
    | back i =>
      rintro ⟨r, rfl, h3, h4⟩
      obtain ⟨b, hb, hj⟩ := hJ a _ h2 (.inl hpa)
      have : r = b := inp_pos hb
      subst this
      exact ⟨r, rfl, h3, h4, a, .nil, hj⟩
    | cut i =>
      rintro ⟨r, rfl, h3, h4⟩
      obtain ⟨b, hb, hj⟩ := hJ a _ h2 (.inr hpa)
      have : r = b := inp_pos hb
      subst this
      exact ⟨r, rfl, h3, h4, a, .nil, hj⟩
    | panic => exact id
    | oof => exact id

theorem tri_buildString {q : Bool} {J : Nat → Nat → Prop} {p : P Str} {lo : Nat}
    (hp : Tri pan s lo p fun a v b => a < b ∧ LitAt q s v a b) (hJ : ErrAt s p J) :
    Tri pan s lo (buildString p) fun a v b => a < b ∧ ∃ x, a < x ∧ LitAt q s v a x ∧ J x b := by
  intro a h1 h2
  refine hp.step h1 h2 (Nat.le_refl _) fun t x h3 h4 h5 => ?_
  refine wp_bind (Q := fun v b => x ≤ b ∧ ∃ y, LitAt q s v x y ∧ J y b)
    ((buildLoop_tri hp hJ _ x (by omega) h4
    (by simp only [List.length_drop]; omega)).mono h3 fun _ _ h _ h' => ⟨h, h'⟩)
    fun u y h6 h7 h8 => ?_
  obtain ⟨h8, z, h9, h10⟩ := h8
  have := h9.le
  exact wp_pure h6 h7 ⟨by omega, z, by omega, h5.2.append h9, h10⟩

theorem tri_quotedLit {lo : Nat} : Tri pan s lo (buildString quotedFragment) fun a v b =>
    a < b ∧ QuotedLit s v a b :=
  (tri_buildString tri_quotedFragment quotedFragment_err).conseq fun a v b _ _ _ h => by
    obtain ⟨h0, x, h1, h2, rfl | h3⟩ := h
    · exact ⟨h0, _, h2, .inl rfl⟩
    · exact ⟨h0, x, h2, .inr ⟨h1, h3⟩⟩

theorem tri_plainLit {lo : Nat} {p : P Unit} {Q : Nat → Unit → Nat → Prop}
    (hp : Tri pan s lo p Q) (he : EndOK false s p) (hc : NoCut p) :
    Tri pan s lo (buildString (templateFragment p)) fun a v b => a < b ∧ LitAt false s v a b :=
  (tri_buildString (tri_templateFragment hp he) (templateFragment_err hc)).conseq
    fun a v b _ _ _ h => by
    obtain ⟨h0, x, h1, h2, rfl⟩ := h
    exact ⟨h0, h2⟩

theorem _root_.Verif.Spec.QuotedLit.le {v : Str} {a b : Nat} (h : QuotedLit s v a b) : a ≤ b := by
  obtain ⟨x, h1, rfl | ⟨h2, h3⟩⟩ := h
  · exact h1.le
  · have := h3.1; omega

theorem _root_.Verif.Spec.QuotedAt.bounds {v : Str} {a b : Nat} (h : QuotedAt s v a b) :
    a < b ∧ b ≤ s.length := by
  obtain ⟨p, q, h1, h2, h3⟩ := h
  have := h1.1; simp at this
  have := h2.le; have := h3.le
  exact ⟨by omega, h3.bound⟩

theorem tri_quotedString {lo : Nat} : Tri pan s lo quotedString fun a v b => QuotedAt s v a b := by
  intro a h1 h2
  refine tri_chr.step h1 h2 (Nat.le_refl _) fun _ x h3 h4 h5 => ?_
  refine tri_quotedLit.opt.step (by omega) h4 h3 fun t y h6 h7 h8 => ?_
  refine tri_chr.step (by omega) h7 (by omega) fun _ z h9 h10 h11 => ?_
  refine wp_pure (by omega) h10 ⟨x, y, h5, ?_, h11⟩
  cases t with
  | none =>
    obtain rfl : y = x := h8
    exact ⟨_, .nil, .inl rfl⟩
  | some v => exact h8.2

theorem Tri.rawString {Q : Nat → α → Nat → Prop} {p : P α} {lo : Nat} (h : Tri pan s lo p Q) :
    Tri pan s lo (rawString p) fun a r b => r = .fromSpan ⟨a, b⟩ ∧ ∃ x, Q a x b :=
  h.spanOf.map.conseq fun a r b _ _ _ h => by
    obtain ⟨x, rfl, rfl, h2⟩ := h
    exact ⟨rfl, h2⟩

theorem tri_strIdent {U : Uni} {lo : Nat} : Tri pan s lo (strIdent U) fun a x b =>
    IdentAt U s x a b := by
  intro a h1 h2
  refine tri_oneOf.step h1 h2 (Nat.le_refl _) fun c x h3 h4 h5 => ?_
  refine tri_takeWhile.step (by omega) h4 h3 fun t y h6 h7 h8 => ?_
  refine wp_pure (by omega) h7 ⟨h5.1.append h8.1, c, t, rfl, ?_, ?_⟩
  · simpa [isIdStart, IdFirst] using h5.2
  · intro d hd
    simpa [isIdContinue, IdRest] using h8.2.1 d hd

theorem tri_ident {U : Uni} {lo : Nat} : Tri pan s lo (ident U) fun a d b =>
    IdentAt U s d.name a b ∧ d.m = {} :=
  tri_strIdent.map.conseq fun a d b _ _ _ h => by
    obtain ⟨x, rfl, h⟩ := h
    exact ⟨h, rfl⟩

theorem identAt_lt {U : Uni} {x : Str} {a b : Nat} (h : IdentAt U s x a b) : a < b := by
  obtain ⟨h1, c, cs, rfl, -⟩ := h
  have := h1.1
  simp at this; omega

theorem tri_cutChar {lo : Nat} {c : Char} : Tri pan s lo (cutChar c) fun a _ b => Tok s [c] a b :=
  tri_chr.cutErr

theorem tri_cutTag {lo : Nat} {t : Str} : Tri pan s lo (cutTag t) fun a _ b => Tok s t a b :=
  tri_tag.cutErr

theorem tri_cutIdent {U : Uni} {lo : Nat} : Tri pan s lo (cutIdent U) fun a d b =>
    IdentAt U s d.name a b ∧ d.m = {} := tri_ident.cutErr

end Verif.Gram
