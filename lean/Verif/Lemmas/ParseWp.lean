import Verif.Spec.Source
import Verif.Model.EditParser
/-!
A calculus for parsers: what a parser does when it is run at an offset of a fixed source text.
-/

namespace Verif.Gram
open P Spec

/-- The input at an offset of the source. -/
abbrev inp (s : Str) (p : Nat) : Input := ⟨p, s.drop p⟩

/-- The result is at an offset not before `lo`; a value satisfies `Q`; a panic implies `pan`; the model
did not run out of fuel. -/
def Wp (pan : Prop) (s : Str) (lo : Nat) (Q : α → Nat → Prop) : Res α → Prop
  | .ok a i => ∃ q, i = inp s q ∧ lo ≤ q ∧ q ≤ s.length ∧ Q a q
  | .back i => ∃ q, i = inp s q ∧ lo ≤ q ∧ q ≤ s.length
  | .cut i => ∃ q, i = inp s q ∧ lo ≤ q ∧ q ≤ s.length
  | .panic => pan
  | .oof => False

/-- `Wp` for every offset from `lo`. -/
def Tri (pan : Prop) (s : Str) (lo : Nat) (p : P α) (Q : Nat → α → Nat → Prop) : Prop :=
  ∀ a, lo ≤ a → a ≤ s.length → Wp pan s a (Q a) (p (inp s a))

variable {pan : Prop} {s : Str}

theorem Wp.mono {Q R : α → Nat → Prop} {r : Res α} {a b : Nat} (h : Wp pan s b Q r) (hab : a ≤ b)
    (hQ : ∀ x c, b ≤ c → c ≤ s.length → Q x c → R x c) : Wp pan s a R r := by
  cases r with
  | ok x i =>
    obtain ⟨q, h1, h2, h3, h4⟩ := h
    exact ⟨q, h1, by omega, h3, hQ x q h2 h3 h4⟩
  | back i => obtain ⟨q, h1, h2, h3⟩ := h; exact ⟨q, h1, by omega, h3⟩
  | cut i => obtain ⟨q, h1, h2, h3⟩ := h; exact ⟨q, h1, by omega, h3⟩
  | panic => exact h
  | oof => exact h

theorem wp_bind {Q : α → Nat → Prop} {R : β → Nat → Prop} {p : P α} {f : α → P β} {i : Input}
    {a : Nat} (hp : Wp pan s a Q (p i))
    (hf : ∀ x c, a ≤ c → c ≤ s.length → Q x c → Wp pan s a R (f x (inp s c))) :
    Wp pan s a R ((p >>= f) i) := by
  show Wp pan s a R (P.bind p f i)
  unfold P.bind
  revert hp
  cases p i with
  | ok x j =>
    rintro ⟨q, rfl, h2, h3, h4⟩
    exact hf x q h2 h3 h4
  | back j => exact id
  | cut j => exact id
  | panic => exact id
  | oof => exact id

/-- The main rule: a parser that satisfies a triple, followed by a continuation. -/
theorem Tri.step {Q : Nat → α → Nat → Prop} {R : β → Nat → Prop} {p : P α} {f : α → P β} {lo a b : Nat}
    (h : Tri pan s lo p Q) (hlo : lo ≤ b) (hb : b ≤ s.length) (hab : a ≤ b)
    (hf : ∀ x c, b ≤ c → c ≤ s.length → Q b x c → Wp pan s a R (f x (inp s c))) :
    Wp pan s a R ((p >>= f) (inp s b)) := by
  refine wp_bind (Q := fun x c => b ≤ c ∧ Q b x c) ?_ ?_
  · exact (h b hlo hb).mono hab fun x c h1 _ h3 => ⟨h1, h3⟩
  · rintro x c - h2 ⟨h3, h4⟩
    exact hf x c h3 h2 h4

theorem wp_pure {R : α → Nat → Prop} {x : α} {a b : Nat} (hab : a ≤ b) (hb : b ≤ s.length)
    (hR : R x b) : Wp pan s a R ((Pure.pure x : P α) (inp s b)) := ⟨b, rfl, hab, hb, hR⟩

/-- The last parser of a sequence. -/
theorem Tri.fin {Q : Nat → α → Nat → Prop} {R : α → Nat → Prop} {p : P α} {lo a b : Nat}
    (h : Tri pan s lo p Q) (hlo : lo ≤ b) (hb : b ≤ s.length) (hab : a ≤ b)
    (hf : ∀ x c, b ≤ c → c ≤ s.length → Q b x c → R x c) :
    Wp pan s a R (p (inp s b)) := (h b hlo hb).mono hab hf

theorem Tri.weaken {Q : Nat → α → Nat → Prop} {p : P α} {lo lo' : Nat} (h : Tri pan s lo p Q)
    (hl : lo ≤ lo') : Tri pan s lo' p Q := fun a h1 h2 => h a (by omega) h2

theorem Tri.conseq {Q R : Nat → α → Nat → Prop} {p : P α} {lo : Nat} (h : Tri pan s lo p Q)
    (hQ : ∀ a x b, lo ≤ a → a ≤ b → b ≤ s.length → Q a x b → R a x b) : Tri pan s lo p R :=
  fun a h1 h2 => (h a h1 h2).mono (Nat.le_refl _) fun x c h3 h4 h5 => hQ a x c h1 h3 h4 h5

theorem Tri.map {Q : Nat → α → Nat → Prop} {p : P α} {lo : Nat} {f : α → β} (h : Tri pan s lo p Q) :
    Tri pan s lo (P.map f p) fun a y b => ∃ x, y = f x ∧ Q a x b := by
  intro a h1 h2
  refine h.step h1 h2 (Nat.le_refl _) fun x c h3 h4 h5 => ?_
  exact wp_pure h3 h4 ⟨x, rfl, h5⟩

theorem wp_back {Q : α → Nat → Prop} {a b : Nat} (hab : a ≤ b) (hb : b ≤ s.length) :
    Wp pan s a Q (.back (inp s b)) := ⟨b, rfl, hab, hb⟩

theorem wp_cut {Q : α → Nat → Prop} {a b : Nat} (hab : a ≤ b) (hb : b ≤ s.length) :
    Wp pan s a Q (.cut (inp s b)) := ⟨b, rfl, hab, hb⟩

theorem wp_fail {Q : α → Nat → Prop} {a b : Nat} (hab : a ≤ b) (hb : b ≤ s.length) :
    Wp pan s a Q ((P.fail : P α) (inp s b)) := ⟨b, rfl, hab, hb⟩

theorem wp_cutFail {Q : α → Nat → Prop} {a b : Nat} (hab : a ≤ b) (hb : b ≤ s.length) :
    Wp pan s a Q ((P.cutFail : P α) (inp s b)) := ⟨b, rfl, hab, hb⟩

theorem tri_fail {Q : Nat → α → Nat → Prop} {lo : Nat} : Tri pan s lo (P.fail : P α) Q :=
  fun _ _ h2 => wp_back (Nat.le_refl _) h2

theorem tri_cutFail {Q : Nat → α → Nat → Prop} {lo : Nat} : Tri pan s lo (P.cutFail : P α) Q :=
  fun _ _ h2 => wp_cut (Nat.le_refl _) h2

theorem tri_pure {x : α} {lo : Nat} : Tri pan s lo (Pure.pure x : P α) fun a y b => y = x ∧ b = a :=
  fun _ _ h2 => wp_pure (Nat.le_refl _) h2 ⟨rfl, rfl⟩

/-! ### Source positions -/

theorem drop_cons {s : Str} {a : Nat} {c : Char} {cs : Str} (h : s.drop a = c :: cs) :
    a < s.length ∧ s.drop (a + 1) = cs ∧ slice s a (a + 1) = [c] := by
  refine ⟨?_, ?_, ?_⟩
  · rcases Nat.lt_or_ge a s.length with h' | h'
    · exact h'
    · rw [List.drop_eq_nil_of_le h'] at h; cases h
  · rw [← List.drop_drop, h]; rfl
  · unfold slice
    rw [h, show a + 1 - a = 1 by omega]; rfl

theorem drop_append {s : Str} {a : Nat} {t r : Str} (h : s.drop a = t ++ r) (ha : a ≤ s.length) :
    Tok s t a (a + t.length) ∧ s.drop (a + t.length) = r := by
  have hl : (s.drop a).length = (t ++ r).length := by rw [h]
  rw [List.length_drop, List.length_append] at hl
  refine ⟨⟨rfl, by omega, ?_⟩, ?_⟩
  · unfold slice
    rw [h, show a + t.length - a = t.length by omega, List.take_left]
  · rw [← List.drop_drop, h, List.drop_left]

theorem _root_.Verif.Spec.Tok.len {s t : Str} {a b : Nat} (h : Tok s t a b) : b = a + t.length := h.1
theorem _root_.Verif.Spec.Tok.le {s t : Str} {a b : Nat} (h : Tok s t a b) : a ≤ b := by have := h.1; omega
theorem _root_.Verif.Spec.Tok.bound {s t : Str} {a b : Nat} (h : Tok s t a b) : b ≤ s.length := h.2.1
theorem _root_.Verif.Spec.Tok.text {s t : Str} {a b : Nat} (h : Tok s t a b) : slice s a b = t := h.2.2

theorem slice_self (s : Str) (a : Nat) : slice s a a = [] := by simp [slice]

theorem slice_append {s : Str} {a b c : Nat} (h1 : a ≤ b) (h2 : b ≤ c) :
    slice s a b ++ slice s b c = slice s a c := by
  unfold slice
  rw [show s.drop b = (s.drop a).drop (b - a) by rw [List.drop_drop]; congr 1; omega]
  rw [show c - a = (b - a) + (c - b) by omega, List.take_add]

theorem _root_.Verif.Spec.Tok.append {s t u : Str} {a b c : Nat} (h1 : Tok s t a b) (h2 : Tok s u b c) :
    Tok s (t ++ u) a c := by
  refine ⟨?_, h2.2.1, ?_⟩
  · have := h1.1; have := h2.1; rw [List.length_append]; omega
  · rw [← slice_append h1.le h2.le, h1.2.2, h2.2.2]

theorem tok_nil {s : Str} {a : Nat} (h : a ≤ s.length) : Tok s [] a a :=
  ⟨rfl, h, slice_self s a⟩

theorem slice_drop {s : Str} {a b : Nat} (h : a ≤ b) : slice s a b ++ s.drop b = s.drop a := by
  unfold slice
  rw [show s.drop b = (s.drop a).drop (b - a) by rw [List.drop_drop, Nat.add_sub_cancel' h]]
  exact List.take_append_drop ..

theorem slice_length {s : Str} {a b : Nat} (h : b ≤ s.length) : (slice s a b).length = b - a := by
  unfold slice
  rw [List.length_take, List.length_drop]; omega

theorem tok_slice {s : Str} {a b : Nat} (h1 : a ≤ b) (h2 : b ≤ s.length) :
    Tok s (slice s a b) a b := ⟨by rw [slice_length h2]; omega, h2, rfl⟩

/-! ### Token parsers -/

theorem tri_any {lo : Nat} : Tri pan s lo any fun a c b => Tok s [c] a b := by
  intro a _ h2
  unfold any
  show Wp pan s a _ (match s.drop a with | [] => _ | c :: cs => _)
  cases h : s.drop a with
  | nil => simp only; rw [← h]; exact wp_back (Nat.le_refl _) h2
  | cons c cs =>
    obtain ⟨h3, h4, h5⟩ := drop_cons h
    simp only
    exact ⟨a + 1, by rw [← h4], by omega, h3, rfl, h3, h5⟩

theorem tri_oneOf {lo : Nat} {f : Char → Bool} :
    Tri pan s lo (oneOf f) fun a c b => Tok s [c] a b ∧ f c = true := by
  intro a _ h2
  unfold oneOf
  show Wp pan s a _ (match s.drop a with | [] => _ | c :: cs => _)
  cases h : s.drop a with
  | nil => simp only; rw [← h]; exact wp_back (Nat.le_refl _) h2
  | cons c cs =>
    obtain ⟨h3, h4, h5⟩ := drop_cons h
    simp only
    split
    · exact ⟨a + 1, by rw [← h4], by omega, h3, ⟨rfl, h3, h5⟩, by assumption⟩
    · exact wp_back (Nat.le_refl _) h2

theorem tri_chr {lo : Nat} {c : Char} : Tri pan s lo (chr c) fun a _ b => Tok s [c] a b :=
  tri_oneOf.conseq fun a x b _ _ _ h => by
    have : x = c := by simpa using h.2
    exact this ▸ h.1

theorem dropPrefix_some {t u r : Str} (h : dropPrefix t u = some r) : u = t ++ r := by
  induction t generalizing u with
  | nil => simp only [dropPrefix, Option.some.injEq] at h; exact h
  | cons c t ih =>
    cases u with
    | nil => cases h
    | cons d u =>
      unfold dropPrefix at h
      split at h
      · rename_i hcd
        rw [ih h, hcd]; rfl
      · cases h

theorem dropPrefix_append (t r : Str) : dropPrefix t (t ++ r) = some r := by
  induction t with
  | nil => rfl
  | cons c t ih => simp only [List.cons_append, dropPrefix, if_true, ih]

theorem tri_tag {lo : Nat} {t : Str} : Tri pan s lo (tag t) fun a _ b => Tok s t a b := by
  intro a _ h2
  unfold tag
  show Wp pan s a _ (match dropPrefix t (s.drop a) with | some r => _ | none => _)
  cases h : dropPrefix t (s.drop a) with
  | none => exact wp_back (Nat.le_refl _) h2
  | some r =>
    obtain ⟨h3, h4⟩ := drop_append (dropPrefix_some h) h2
    exact ⟨a + t.length, by simp only; rw [← h4], by omega, h3.2.1, h3⟩

theorem tri_takeN {lo n : Nat} :
    Tri pan s lo (takeN n) fun a t b => Tok s t a b ∧ t.length = n := by
  intro a _ h2
  unfold takeN
  split
  · exact wp_back (Nat.le_refl _) h2
  · rename_i h
    simp only [List.length_drop] at h
    refine ⟨a + n, by simp only [List.drop_drop], by omega, by omega, ⟨?_, by omega, ?_⟩, ?_⟩
    · simp only [List.length_take, List.length_drop]; omega
    · unfold slice; rw [show a + n - a = n by omega]
    · simp only [List.length_take, List.length_drop]; omega

theorem tri_takeWhile {lo : Nat} {f : Char → Bool} :
    Tri pan s lo (takeWhile f) fun a t b => Tok s t a b ∧ (∀ c ∈ t, f c = true) ∧
      ∀ c cs, s.drop b = c :: cs → f c = false := by
  intro a _ h2
  unfold takeWhile
  have hsplit : s.drop a = (s.drop a).takeWhile f ++ (s.drop a).dropWhile f :=
    List.takeWhile_append_dropWhile.symm
  obtain ⟨h3, h4⟩ := drop_append hsplit h2
  refine ⟨a + ((s.drop a).takeWhile f).length, by simp only; rw [← h4], by omega, h3.2.1, h3, ?_, ?_⟩
  · intro c hc; exact List.all_eq_true.mp List.all_takeWhile c hc
  · intro c cs hc
    rw [h4] at hc
    have := List.head?_dropWhile_not f (s.drop a)
    rw [hc] at this
    simpa using this

theorem tri_takeWhile1 {lo : Nat} {f : Char → Bool} :
    Tri pan s lo (takeWhile1 f) fun a t b => Tok s t a b ∧ (∀ c ∈ t, f c = true) ∧ t ≠ [] ∧
      ∀ c cs, s.drop b = c :: cs → f c = false := by
  intro a hlo h2
  unfold takeWhile1
  show Wp pan s a _ (match s.drop a with | [] => _ | c :: _ => _)
  cases h : s.drop a with
  | nil => simp only; rw [← h]; exact wp_back (Nat.le_refl _) h2
  | cons c cs =>
    simp only
    split
    · rename_i hc
      have h3 : a < s.length := (drop_cons h).1
      refine tri_takeWhile.fin hlo h2 (Nat.le_refl _) fun t b h4 h5 h6 => ⟨h6.1, h6.2.1, ?_, h6.2.2⟩
      rintro rfl
      have h7 := h6.1.1
      simp only [List.length_nil, Nat.add_zero] at h7
      subst h7
      have := h6.2.2 c cs h
      rw [hc] at this; cases this
    · exact wp_back (Nat.le_refl _) h2

theorem prefixUpTo_spec (f : Char → Bool) (n : Nat) (u : Str) :
    ∃ r, u = prefixUpTo f n u ++ r ∧ ∀ c ∈ prefixUpTo f n u, f c = true := by
  induction n generalizing u with
  | zero => exact ⟨u, rfl, by simp [prefixUpTo]⟩
  | succ n ih =>
    cases u with
    | nil => exact ⟨[], rfl, by simp [prefixUpTo]⟩
    | cons c u =>
      unfold prefixUpTo
      split
      · obtain ⟨r, h1, h2⟩ := ih u
        refine ⟨r, ?_, ?_⟩
        · rw [List.cons_append, ← h1]
        · intro d hd
          rcases List.mem_cons.mp hd with rfl | hd
          · assumption
          · exact h2 d hd
      · exact ⟨c :: u, rfl, by simp⟩

theorem tri_takeWhileUpTo {lo n : Nat} {f : Char → Bool} :
    Tri pan s lo (takeWhileUpTo f n) fun a t b => Tok s t a b ∧ (∀ c ∈ t, f c = true) ∧ t ≠ [] := by
  intro a hlo h2
  unfold takeWhileUpTo
  dsimp only
  obtain ⟨r, h3, h4⟩ := prefixUpTo_spec f n (s.drop a)
  split
  · exact wp_back (Nat.le_refl _) h2
  · rename_i he
    obtain ⟨h5, h6⟩ := drop_append h3 h2
    refine ⟨a + (prefixUpTo f n (s.drop a)).length, by simp only [List.drop_drop], by omega, h5.2.1,
      h5, h4, ?_⟩
    intro hn; rw [hn] at he; simp at he

theorem splitAtTag_some {t u x y : Str} (h : splitAtTag t u = some (x, y)) : u = x ++ y := by
  induction u generalizing x with
  | nil =>
    unfold splitAtTag at h
    split at h
    · cases h; rfl
    · cases h
  | cons c u ih =>
    unfold splitAtTag at h
    split at h
    · cases h; rfl
    · cases h1 : splitAtTag t u with
      | none => rw [h1] at h; cases h
      | some p =>
        obtain ⟨x', y'⟩ := p
        rw [h1] at h
        simp only [Option.map_some, Option.some.injEq, Prod.mk.injEq] at h
        obtain ⟨rfl, rfl⟩ := h
        rw [ih h1]; rfl

theorem tri_takeUntil {lo : Nat} {t : Str} :
    Tri pan s lo (takeUntil t) fun a x b => Tok s x a b ∧
      splitAtTag t (s.drop a) = some (x, s.drop b) := by
  intro a _ h2
  unfold takeUntil
  show Wp pan s a _ (match splitAtTag t (s.drop a) with | some (x, y) => _ | none => _)
  cases h : splitAtTag t (s.drop a) with
  | none => exact wp_back (Nat.le_refl _) h2
  | some p =>
    obtain ⟨x, y⟩ := p
    obtain ⟨h3, h4⟩ := drop_append (splitAtTag_some h) h2
    exact ⟨a + x.length, by simp only; rw [← h4], by omega, h3.2.1, h3, by rw [h4]; exact h⟩

theorem tri_eof {lo : Nat} : Tri pan s lo eof fun a _ b => b = a ∧ a = s.length := by
  intro a _ h2
  unfold eof
  split
  · rename_i h
    refine ⟨a, rfl, Nat.le_refl _, h2, rfl, ?_⟩
    have h : s.drop a = [] := by simpa using h
    have := List.drop_eq_nil_iff.mp h
    omega
  · exact wp_back (Nat.le_refl _) h2

theorem tri_lineEnding {lo : Nat} :
    Tri pan s lo lineEnding fun a t b => Tok s t a b ∧ (t = c!"\n" ∨ t = c!"\r\n") := by
  intro a _ h2
  unfold lineEnding
  split
  · rename_i cs h
    obtain ⟨h3, h4⟩ := drop_append (t := c!"\n") (r := cs) h h2
    exact ⟨a + 1, by rw [← h4]; rfl, by omega, h3.2.1, h3, .inl rfl⟩
  · rename_i cs h
    obtain ⟨h3, h4⟩ := drop_append (t := c!"\r\n") (r := cs) h h2
    exact ⟨a + 2, by rw [← h4]; rfl, by omega, h3.2.1, h3, .inr rfl⟩
  · exact wp_back (Nat.le_refl _) h2

theorem tri_tillLineEnding {lo : Nat} :
    Tri pan s lo tillLineEnding fun a t b => Tok s t a b ∧ '\n' ∉ t ∧ '\r' ∉ t ∧
      ∀ c cs, s.drop b = c :: cs → c = '\n' ∨ c = '\r' := by
  intro a hlo h2
  have h := tri_takeWhile (pan := pan) (s := s) (f := fun c => c != '\n' && c != '\r') a hlo h2
  unfold tillLineEnding
  revert h
  cases takeWhile (fun c => c != '\n' && c != '\r') (inp s a) with
  | ok t i =>
    rintro ⟨q, rfl, h3, h4, h5, h6, h7⟩
    simp only
    have key : Tok s t a q ∧ '\n' ∉ t ∧ '\r' ∉ t ∧
        ∀ c cs, s.drop q = c :: cs → c = '\n' ∨ c = '\r' := by
      refine ⟨h5, fun hm => by simpa using h6 _ hm, fun hm => by simpa using h6 _ hm, ?_⟩
      intro c cs hc
      have := h7 c cs hc
      by_cases h8 : c = '\n'
      · exact .inl h8
      · by_cases h9 : c = '\r'
        · exact .inr h9
        · simp [h8, h9] at this
    split
    · exact ⟨q, rfl, h3, h4, key⟩
    · exact wp_back h3 h4
    · exact ⟨q, rfl, h3, h4, key⟩
  | back i => exact id
  | cut i => exact id
  | panic => exact id
  | oof => exact id

/-! ### Combinators -/

theorem Tri.cutErr {Q : Nat → α → Nat → Prop} {p : P α} {lo : Nat} (h : Tri pan s lo p Q) :
    Tri pan s lo (cutErr p) Q := by
  intro a h1 h2
  have := h a h1 h2
  unfold P.cutErr
  revert this
  cases p (inp s a) <;> exact id

theorem Tri.opt {Q : Nat → α → Nat → Prop} {p : P α} {lo : Nat} (h : Tri pan s lo p Q) :
    Tri pan s lo (opt p) fun a x b => match x with | some x => Q a x b | none => b = a := by
  intro a h1 h2
  have := h a h1 h2
  unfold P.opt
  revert this
  cases p (inp s a) with
  | ok x i => exact id
  | back i => intro _; exact ⟨a, rfl, Nat.le_refl _, h2, rfl⟩
  | cut i => exact id
  | panic => exact id
  | oof => exact id

theorem Tri.peek {Q : Nat → α → Nat → Prop} {p : P α} {lo : Nat} (h : Tri pan s lo p Q) :
    Tri pan s lo (peek p) fun a x b => b = a ∧ ∃ c, a ≤ c ∧ c ≤ s.length ∧ Q a x c := by
  intro a h1 h2
  have := h a h1 h2
  unfold P.peek
  revert this
  cases p (inp s a) with
  | ok x i =>
    rintro ⟨q, rfl, h3, h4, h5⟩
    exact ⟨a, rfl, Nat.le_refl _, h2, rfl, q, h3, h4, h5⟩
  | back i => intro _; exact wp_back (Nat.le_refl _) h2
  | cut i => intro _; exact wp_cut (Nat.le_refl _) h2
  | panic => exact id
  | oof => exact id

theorem Tri.notP {Q : Nat → α → Nat → Prop} {p : P α} {lo : Nat} (h : Tri pan s lo p Q) :
    Tri pan s lo (notP p) fun a _ b => b = a ∧ ∃ i, p (inp s a) = .back i := by
  intro a h1 h2
  have := h a h1 h2
  unfold P.notP
  revert this
  cases hp : p (inp s a) with
  | ok x i => intro _; exact wp_back (Nat.le_refl _) h2
  | back i => intro _; exact ⟨a, rfl, Nat.le_refl _, h2, rfl, i, hp⟩
  | cut i => intro _; exact wp_cut (Nat.le_refl _) h2
  | panic => exact id
  | oof => exact id

theorem Tri.alt {Q R T : Nat → α → Nat → Prop} {p q : P α} {lo : Nat} (hp : Tri pan s lo p Q)
    (hq : Tri pan s lo q R) (h1 : ∀ a x b, Q a x b → T a x b) (h2 : ∀ a x b, R a x b → T a x b) :
    Tri pan s lo (alt p q) T := by
  intro a h3 h4
  have hp' := (hp a h3 h4).mono (Nat.le_refl _) fun x c _ _ h => h1 a x c h
  have hq' := (hq a h3 h4).mono (Nat.le_refl _) fun x c _ _ h => h2 a x c h
  unfold P.alt
  revert hp'
  cases p (inp s a) with
  | ok x i => exact id
  | back i => intro _; exact hq'
  | cut i => exact id
  | panic => exact id
  | oof => exact id

theorem Tri.alt' {Q : Nat → α → Nat → Prop} {p q : P α} {lo : Nat} (hp : Tri pan s lo p Q)
    (hq : Tri pan s lo q Q) : Tri pan s lo (P.alt p q) Q :=
  hp.alt hq (fun _ _ _ h => h) (fun _ _ _ h => h)

theorem Tri.verifyMap {Q : Nat → α → Nat → Prop} {p : P α} {lo : Nat} {f : α → Option β}
    (h : Tri pan s lo p Q) :
    Tri pan s lo (verifyMap f p) fun a y b => ∃ x, f x = some y ∧ Q a x b := by
  intro a h1 h2
  have := h a h1 h2
  unfold P.verifyMap
  revert this
  cases p (inp s a) with
  | ok x i =>
    rintro ⟨q, rfl, h3, h4, h5⟩
    simp only
    split
    · rename_i y hy
      exact ⟨q, rfl, h3, h4, x, hy, h5⟩
    · exact wp_back (Nat.le_refl _) h2
  | back i => exact id
  | cut i => exact id
  | panic => exact id
  | oof => exact id

theorem Tri.withSpan {Q : Nat → α → Nat → Prop} {p : P α} {lo : Nat} (h : Tri pan s lo p Q) :
    Tri pan s lo (withSpan p) fun a x b => x.2 = ⟨a, b⟩ ∧ Q a x.1 b := by
  intro a h1 h2
  have := h a h1 h2
  unfold P.withSpan
  revert this
  cases p (inp s a) with
  | ok x i =>
    rintro ⟨q, rfl, h3, h4, h5⟩
    exact ⟨q, rfl, h3, h4, rfl, h5⟩
  | back i => exact id
  | cut i => exact id
  | panic => exact id
  | oof => exact id

theorem Tri.spanOf {Q : Nat → α → Nat → Prop} {p : P α} {lo : Nat} (h : Tri pan s lo p Q) :
    Tri pan s lo (spanOf p) fun a x b => x = ⟨a, b⟩ ∧ ∃ y, Q a y b :=
  h.withSpan.map.conseq fun a x b _ _ _ h => by
    obtain ⟨y, rfl, h1, h2⟩ := h
    exact ⟨h1, y.1, h2⟩

theorem Tri.withTaken {Q : Nat → α → Nat → Prop} {p : P α} {lo : Nat} (h : Tri pan s lo p Q) :
    Tri pan s lo (withTaken p) fun a x b => x.2 = slice s a b ∧ Q a x.1 b := by
  intro a h1 h2
  have := h a h1 h2
  unfold P.withTaken
  revert this
  cases p (inp s a) with
  | ok x i =>
    rintro ⟨q, rfl, h3, h4, h5⟩
    exact ⟨q, rfl, h3, h4, rfl, h5⟩
  | back i => exact id
  | cut i => exact id
  | panic => exact id
  | oof => exact id

theorem Tri.taken {Q : Nat → α → Nat → Prop} {p : P α} {lo : Nat} (h : Tri pan s lo p Q) :
    Tri pan s lo (taken p) fun a x b => x = slice s a b ∧ ∃ y, Q a y b :=
  h.withTaken.map.conseq fun a x b _ _ _ h => by
    obtain ⟨y, rfl, h1, h2⟩ := h
    exact ⟨h1, y.1, h2⟩

theorem tri_getInput {lo : Nat} : Tri pan s lo getInput fun a x b => b = a ∧ x = inp s a :=
  fun a _ h2 => ⟨a, rfl, Nat.le_refl _, h2, rfl, rfl⟩

theorem tri_peek2 {lo : Nat} : Tri pan s lo peek2 fun a x b => b = a ∧
    ∀ c d, x = some (c, d) → Tok s [c, d] a (a + 2) := by
  intro a _ h2
  unfold peek2
  split
  · rename_i c d cs h
    refine ⟨a, rfl, Nat.le_refl _, h2, rfl, ?_⟩
    intro c' d' h'
    cases h'
    exact (drop_append (t := [c, d]) (r := cs) h h2).1
  · refine ⟨a, rfl, Nat.le_refl _, h2, rfl, ?_⟩
    intro c d h; cases h

/-- Resetting the input to an earlier position. -/
theorem wp_setInput {R : β → Nat → Prop} {f : Unit → P β} {a b c : Nat}
    (hf : Wp pan s a R (f () (inp s c))) : Wp pan s a R ((setInput (inp s c) >>= f) (inp s b)) := hf

/-- A list of adjacent pieces. -/
inductive Chain (Q : Nat → α → Nat → Prop) : List α → Nat → Nat → Prop
  | nil {a} : Chain Q [] a a
  | cons {x xs a b c} : a < b → Q a x b → Chain Q xs b c → Chain Q (x :: xs) a c

theorem Chain.imp {Q R : Nat → α → Nat → Prop} {xs : List α} {a b : Nat} (h : Chain Q xs a b)
    (hQ : ∀ a x b, Q a x b → R a x b) : Chain R xs a b := by
  induction h with
  | nil => exact .nil
  | cons h1 h2 _ ih => exact .cons h1 (hQ _ _ _ h2) ih

theorem Chain.le {Q : Nat → α → Nat → Prop} {xs : List α} {a b : Nat} (h : Chain Q xs a b) :
    a ≤ b := by
  induction h with
  | nil => exact Nat.le_refl _
  | cons h1 _ _ ih => omega

theorem rest_lt {s : Str} {a b : Nat} (ha : a ≤ s.length) (hb : b ≤ s.length) :
    (inp s b).rest.length < (inp s a).rest.length ↔ a < b := by
  simp only [List.length_drop]; omega

theorem repeatF_tri {Q : Nat → α → Nat → Prop} {p : P α} {lo : Nat} (h : Tri pan s lo p Q)
    (hprog : ∀ a x b, lo ≤ a → b ≤ s.length → Q a x b → a < b) (n : Nat) (a : Nat) (h1 : lo ≤ a)
    (h2 : a ≤ s.length) (hn : s.length - a < n) :
    Wp pan s a (fun xs b => Chain Q xs a b ∧ ∃ i, p (inp s b) = .back i)
      (repeatF p n (inp s a)) := by
  induction n generalizing a with
  | zero => omega
  | succ n ih =>
    have := h a h1 h2
    unfold repeatF
    revert this
    cases hp : p (inp s a) with
    | ok x i =>
      rintro ⟨q, rfl, h3, h4, h5⟩
      have h6 := hprog a x q h1 h4 h5
      simp only
      rw [if_pos ((rest_lt h2 h4).mpr h6)]
      have h7 := ih q (by omega) h4 (by omega)
      revert h7
      cases repeatF p n (inp s q) with
      | ok xs j =>
        rintro ⟨r, rfl, h8, h9, h10, h11⟩
        exact ⟨r, rfl, by omega, h9, .cons h6 h5 h10, h11⟩
      | back j => rintro ⟨r, rfl, h8, h9⟩; exact ⟨r, rfl, by omega, h9⟩
      | cut j => rintro ⟨r, rfl, h8, h9⟩; exact ⟨r, rfl, by omega, h9⟩
      | panic => exact id
      | oof => exact id
    | back i => intro _; exact ⟨a, rfl, Nat.le_refl _, h2, .nil, i, hp⟩
    | cut i => exact id
    | panic => exact id
    | oof => exact id

theorem Tri.repeat0 {Q : Nat → α → Nat → Prop} {p : P α} {lo : Nat} (h : Tri pan s lo p Q)
    (hprog : ∀ a x b, lo ≤ a → b ≤ s.length → Q a x b → a < b) :
    Tri pan s lo (repeat0 p) fun a xs b => Chain Q xs a b ∧ ∃ i, p (inp s b) = .back i := by
  intro a h1 h2
  unfold P.repeat0
  exact repeatF_tri h hprog _ a h1 h2 (by simp only [List.length_drop]; omega)

theorem Tri.repeat1 {Q : Nat → α → Nat → Prop} {p : P α} {lo : Nat} (h : Tri pan s lo p Q)
    (hprog : ∀ a x b, lo ≤ a → b ≤ s.length → Q a x b → a < b) :
    Tri pan s lo (repeat1 p) fun a xs b => xs ≠ [] ∧ Chain Q xs a b := by
  intro a h1 h2
  refine h.step h1 h2 (Nat.le_refl _) fun x c h3 h4 h5 => ?_
  refine (h.repeat0 hprog).map.fin (by omega) h4 h3 fun ys d h6 h7 h8 => ?_
  obtain ⟨xs, rfl, h9, _⟩ := h8
  exact ⟨by simp, .cons (hprog _ _ _ h1 h4 h5) h5 h9⟩

theorem Tri.repeat1_stop {Q : Nat → α → Nat → Prop} {p : P α} {lo : Nat} (h : Tri pan s lo p Q)
    (hprog : ∀ a x b, lo ≤ a → b ≤ s.length → Q a x b → a < b) :
    Tri pan s lo (P.repeat1 p) fun a xs b => (xs ≠ [] ∧ Chain Q xs a b) ∧
      ∃ i, p (inp s b) = .back i := by
  intro a h1 h2
  refine h.step h1 h2 (Nat.le_refl _) fun x c h3 h4 h5 => ?_
  refine (h.repeat0 hprog).map.fin (by omega) h4 h3 fun ys d h6 h7 h8 => ?_
  obtain ⟨xs, rfl, h9, h10⟩ := h8
  exact ⟨⟨by simp, .cons (hprog _ _ _ h1 h4 h5) h5 h9⟩, h10⟩

theorem sepF_tri {Q : Nat → α → Nat → Prop} {S : Nat → β → Nat → Prop} {p : P α} {sep : P β}
    {lo : Nat} (h : Tri pan s lo p Q) (hs : Tri pan s lo sep S)
    (hprog : ∀ a x b, lo ≤ a → b ≤ s.length → S a x b → a < b) (n : Nat) (a : Nat) (h1 : lo ≤ a)
    (h2 : a ≤ s.length) (hn : s.length - a < n) :
    Wp pan s a (fun xs b => Chain (fun a x b => ∃ y c, S a y c ∧ c ≤ b ∧ Q c x b) xs a b)
      (sepF p sep n (inp s a)) := by
  induction n generalizing a with
  | zero => omega
  | succ n ih =>
    have : Wp pan s a (fun x b => ∃ y c, a < c ∧ S a y c ∧ c ≤ b ∧ Q c x b)
        (P.bind sep (fun _ => p) (inp s a)) := by
      refine hs.step h1 h2 (Nat.le_refl _) fun y c h3 h4 h5 => ?_
      have hac := hprog _ _ _ h1 h4 h5
      exact h.fin (by omega) h4 h3 fun x b h6 h7 h8 => ⟨y, c, hac, h5, h6, h8⟩
    unfold sepF
    revert this
    cases hp : P.bind sep (fun _ => p) (inp s a) with
    | ok x i =>
      rintro ⟨q, rfl, h3, h4, y, c, h5, h6, h7, h8⟩
      simp only
      rw [if_pos ((rest_lt h2 h4).mpr (by omega))]
      have h9 := ih q (by omega) h4 (by omega)
      revert h9
      cases sepF p sep n (inp s q) with
      | ok xs j =>
        rintro ⟨r, rfl, h10, h11, h12⟩
        exact ⟨r, rfl, by omega, h11, .cons (by omega) ⟨y, c, h6, h7, h8⟩ h12⟩
      | back j => rintro ⟨r, rfl, h8, h9⟩; exact ⟨r, rfl, by omega, h9⟩
      | cut j => rintro ⟨r, rfl, h8, h9⟩; exact ⟨r, rfl, by omega, h9⟩
      | panic => exact id
      | oof => exact id
    | back i => intro _; exact ⟨a, rfl, Nat.le_refl _, h2, .nil⟩
    | cut i => exact id
    | panic => exact id
    | oof => exact id

theorem Tri.separated1 {Q : Nat → α → Nat → Prop} {S : Nat → β → Nat → Prop} {p : P α} {sep : P β}
    {lo : Nat} (h : Tri pan s lo p Q) (hs : Tri pan s lo sep S)
    (hprog : ∀ a x b, lo ≤ a → b ≤ s.length → S a x b → a < b) :
    Tri pan s lo (separated1 p sep) fun a xs b => ∃ x tl c, xs = x :: tl ∧ a ≤ c ∧ Q a x c ∧
      Chain (fun a x b => ∃ y c, S a y c ∧ c ≤ b ∧ Q c x b) tl c b := by
  intro a h1 h2
  refine h.step h1 h2 (Nat.le_refl _) fun x c h3 h4 h5 => ?_
  have h6 := sepF_tri h hs hprog ((inp s c).rest.length + 1) c (by omega) h4
    (by simp only [List.length_drop]; omega)
  exact wp_bind (h6.mono h3 (R := fun tl b => c ≤ b ∧ Chain _ tl c b) fun _ _ h7 _ h8 => ⟨h7, h8⟩)
    fun tl b h7 h8 h9 => wp_pure (by omega) h8 ⟨x, tl, c, rfl, h3, h5, h9.2⟩

theorem Tri.separated0 {Q : Nat → α → Nat → Prop} {S : Nat → β → Nat → Prop} {p : P α} {sep : P β}
    {lo : Nat} (h : Tri pan s lo p Q) (hs : Tri pan s lo sep S)
    (hprog : ∀ a x b, lo ≤ a → b ≤ s.length → S a x b → a < b) :
    Tri pan s lo (separated0 p sep) fun a xs b => (xs = [] ∧ b = a ∧ ∃ i, p (inp s a) = .back i) ∨
      ∃ x tl c, xs = x :: tl ∧ a ≤ c ∧ Q a x c ∧
        Chain (fun a x b => ∃ y c, S a y c ∧ c ≤ b ∧ Q c x b) tl c b := by
  intro a h1 h2
  have := h a h1 h2
  unfold P.separated0
  revert this
  cases hp : p (inp s a) with
  | ok x i =>
    rintro ⟨c, rfl, h3, h4, h5⟩
    have h6 := sepF_tri h hs hprog ((inp s c).rest.length + 1) c (by omega) h4
      (by simp only [List.length_drop]; omega)
    exact wp_bind (h6.mono h3 (R := fun tl b => c ≤ b ∧ Chain _ tl c b) fun _ _ h7 _ h8 => ⟨h7, h8⟩)
      fun tl b h7 h8 h9 => wp_pure (by omega) h8 (.inr ⟨x, tl, c, rfl, h3, h5, h9.2⟩)
  | back i => intro _; exact ⟨a, rfl, Nat.le_refl _, h2, .inl ⟨rfl, rfl, i, hp⟩⟩
  | cut i => exact id
  | panic => exact id
  | oof => exact id

end Verif.Gram
