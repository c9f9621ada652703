import Verif.Model.EditParser
/-! Forward reasoning about parsers: on a text `t ++ r` a parser succeeds, consumes exactly `t`, and
returns a value with a property. -/

namespace Verif.Gram
open P

variable {α β γ : Type}

/-- The parser consumes `t` of `t ++ r` and returns a value with `Q`. -/
def Runs (p : P α) (t r : Str) (Q : α → Prop) : Prop :=
  ∀ pos, ∃ v, p ⟨pos, t ++ r⟩ = .ok v ⟨pos + t.length, r⟩ ∧ Q v

/-- The parser backtracks on the text. -/
def Backs (p : P α) (u : Str) : Prop := ∀ pos, ∃ j, p ⟨pos, u⟩ = .back j

theorem Runs.conseq {p : P α} {t r : Str} {Q R : α → Prop} (h : Runs p t r Q) (hR : ∀ v, Q v → R v) :
    Runs p t r R := fun pos => by
  obtain ⟨v, h1, h2⟩ := h pos
  exact ⟨v, h1, hR v h2⟩

theorem Runs.bind {p : P α} {f : α → P β} {t u r : Str} {Q : α → Prop} {R : β → Prop}
    (h : Runs p t (u ++ r) Q) (hf : ∀ v, Q v → Runs (f v) u r R) : Runs (P.bind p f) (t ++ u) r R := by
  intro pos
  obtain ⟨v, h1, h2⟩ := h pos
  obtain ⟨w, h3, h4⟩ := hf v h2 (pos + t.length)
  refine ⟨w, ?_, h4⟩
  unfold P.bind
  rw [List.append_assoc, h1]
  dsimp only
  rw [h3, List.length_append, Nat.add_assoc]

theorem Runs.pure {a : α} {r : Str} {Q : α → Prop} (h : Q a) : Runs (P.pure a) [] r Q :=
  fun _ => ⟨a, rfl, h⟩

/-- A step that consumes nothing. -/
theorem Runs.bind_nil {p : P α} {f : α → P β} {u r : Str} {Q : α → Prop} {R : β → Prop}
    (h : Runs p [] (u ++ r) Q) (hf : ∀ v, Q v → Runs (f v) u r R) : Runs (P.bind p f) u r R := by
  have := Runs.bind (t := []) h hf
  exact this

/-- A last step that consumes nothing. -/
theorem Runs.bind_last {p : P α} {f : α → P β} {u r : Str} {Q : α → Prop} {R : β → Prop}
    (h : Runs p u r Q) (hf : ∀ v, Q v → Runs (f v) [] r R) : Runs (P.bind p f) u r R := by
  have := Runs.bind (t := u) (u := []) h hf
  rwa [List.append_nil] at this

theorem Runs.map {p : P α} {f : α → β} {t r : Str} {Q : β → Prop} (h : Runs p t r fun v => Q (f v)) :
    Runs (P.map f p) t r Q := h.bind_last fun _ hv => .pure hv

theorem Runs.alt_left {p q : P α} {t r : Str} {Q : α → Prop} (h : Runs p t r Q) :
    Runs (P.alt p q) t r Q := fun pos => by
  obtain ⟨v, h1, h2⟩ := h pos
  exact ⟨v, by unfold P.alt; rw [h1], h2⟩

theorem Runs.alt_right {p q : P α} {t r : Str} {Q : α → Prop} (hp : Backs p (t ++ r))
    (h : Runs q t r Q) : Runs (P.alt p q) t r Q := fun pos => by
  obtain ⟨v, h1, h2⟩ := h pos
  obtain ⟨j, h3⟩ := hp pos
  exact ⟨v, by unfold P.alt; rw [h3]; exact h1, h2⟩

theorem Backs.alt {p q : P α} {u : Str} (hp : Backs p u) (hq : Backs q u) : Backs (P.alt p q) u :=
  fun pos => by
  obtain ⟨j, h1⟩ := hp pos
  obtain ⟨k, h2⟩ := hq pos
  exact ⟨k, by unfold P.alt; rw [h1]; exact h2⟩

theorem Backs.bind {p : P α} {f : α → P β} {u : Str} (hp : Backs p u) : Backs (P.bind p f) u :=
  fun pos => by
  obtain ⟨j, h1⟩ := hp pos
  exact ⟨j, by unfold P.bind; rw [h1]⟩

theorem Runs.bind_backs {p : P α} {f : α → P β} {t r : Str} {Q : α → Prop} (h : Runs p t r Q)
    (hf : ∀ v, Q v → Backs (f v) r) : Backs (P.bind p f) (t ++ r) := fun pos => by
  obtain ⟨v, h1, h2⟩ := h pos
  obtain ⟨j, h3⟩ := hf v h2 (pos + t.length)
  exact ⟨j, by unfold P.bind; rw [h1]; exact h3⟩

theorem Backs.map {p : P α} {f : α → β} {u : Str} (hp : Backs p u) : Backs (P.map f p) u := hp.bind

theorem backs_fail {u : Str} : Backs (P.fail : P α) u := fun _ => ⟨_, rfl⟩

theorem Runs.opt {p : P α} {t r : Str} {Q : α → Prop} {R : Option α → Prop} (h : Runs p t r Q)
    (hR : ∀ v, Q v → R (some v)) : Runs (P.opt p) t r R := fun pos => by
  obtain ⟨v, h1, h2⟩ := h pos
  exact ⟨some v, by unfold P.opt; rw [h1], hR v h2⟩

theorem Backs.opt {p : P α} {r : Str} {R : Option α → Prop} (h : Backs p r) (hR : R none) :
    Runs (P.opt p) [] r R := fun pos => by
  obtain ⟨j, h1⟩ := h pos
  exact ⟨none, by unfold P.opt; rw [List.nil_append, h1]; rfl, hR⟩

theorem Runs.peek {p : P α} {t r : Str} {Q : α → Prop} (h : Runs p t r Q) :
    Runs (P.peek p) [] (t ++ r) Q := fun pos => by
  obtain ⟨v, h1, h2⟩ := h pos
  exact ⟨v, by unfold P.peek; rw [List.nil_append, h1]; rfl, h2⟩

theorem Backs.notP {p : P α} {r : Str} (h : Backs p r) : Runs (P.notP p) [] r fun _ => True :=
  fun pos => by
  obtain ⟨j, h1⟩ := h pos
  exact ⟨(), by unfold P.notP; rw [List.nil_append, h1]; rfl, trivial⟩

theorem Runs.notP {p : P α} {t r : Str} {Q : α → Prop} (h : Runs p t r Q) :
    Backs (P.notP p) (t ++ r) := fun pos => by
  obtain ⟨v, h1, -⟩ := h pos
  exact ⟨_, by unfold P.notP; rw [h1]⟩

theorem Runs.cutErr {p : P α} {t r : Str} {Q : α → Prop} (h : Runs p t r Q) :
    Runs (P.cutErr p) t r Q := fun pos => by
  obtain ⟨v, h1, h2⟩ := h pos
  exact ⟨v, by unfold P.cutErr; rw [h1], h2⟩

theorem Runs.withSpan {p : P α} {t r : Str} {Q : α → Prop} (h : Runs p t r Q) :
    Runs (P.withSpan p) t r fun v => Q v.1 := fun pos => by
  obtain ⟨v, h1, h2⟩ := h pos
  exact ⟨(v, _), by unfold P.withSpan; rw [h1], h2⟩

theorem Runs.spanOf {p : P α} {t r : Str} {Q : α → Prop} (h : Runs p t r Q) :
    Runs (P.spanOf p) t r fun _ => True := Runs.map (f := Prod.snd) (h.withSpan.conseq fun _ _ => trivial)

theorem Runs.withTaken {p : P α} {t r : Str} {Q : α → Prop} (h : Runs p t r Q) :
    Runs (P.withTaken p) t r fun v => Q v.1 ∧ v.2 = t := fun pos => by
  obtain ⟨v, h1, h2⟩ := h pos
  refine ⟨(v, t), ?_, h2, rfl⟩
  unfold P.withTaken
  rw [h1]
  dsimp only
  rw [Nat.add_sub_cancel_left, List.take_left]

theorem Backs.withTaken {p : P α} {u : Str} (h : Backs p u) : Backs (P.withTaken p) u := fun pos => by
  obtain ⟨j, h1⟩ := h pos
  exact ⟨j, by unfold P.withTaken; rw [h1]⟩

theorem Backs.withSpan {p : P α} {u : Str} (h : Backs p u) : Backs (P.withSpan p) u := fun pos => by
  obtain ⟨j, h1⟩ := h pos
  exact ⟨j, by unfold P.withSpan; rw [h1]⟩

theorem Runs.taken {p : P α} {t r : Str} {Q : α → Prop} (h : Runs p t r Q) :
    Runs (P.taken p) t r fun v => v = t :=
  Runs.map (f := Prod.snd) (h.withTaken.conseq fun _ hv => hv.2)

theorem Backs.taken {p : P α} {u : Str} (h : Backs p u) : Backs (P.taken p) u := h.withTaken.map

theorem Runs.verifyMap {p : P α} {f : α → Option β} {t r : Str} {Q : α → Prop} {R : β → Prop}
    (h : Runs p t r Q) (hf : ∀ v, Q v → ∃ w, f v = some w ∧ R w) : Runs (P.verifyMap f p) t r R :=
  fun pos => by
  obtain ⟨v, h1, h2⟩ := h pos
  obtain ⟨w, h3, h4⟩ := hf v h2
  exact ⟨w, by unfold P.verifyMap; rw [h1]; dsimp only; rw [h3], h4⟩

theorem Runs.verifyMap_backs {p : P α} {f : α → Option β} {t r : Str} {Q : α → Prop}
    (h : Runs p t r Q) (hf : ∀ v, Q v → f v = none) : Backs (P.verifyMap f p) (t ++ r) :=
  fun pos => by
  obtain ⟨v, h1, h2⟩ := h pos
  exact ⟨_, by unfold P.verifyMap; rw [h1]; dsimp only; rw [hf v h2]⟩

theorem Backs.verifyMap {p : P α} {f : α → Option β} {u : Str} (h : Backs p u) :
    Backs (P.verifyMap f p) u := fun pos => by
  obtain ⟨j, h1⟩ := h pos
  exact ⟨j, by unfold P.verifyMap; rw [h1]⟩

/-! ### Tokens -/

theorem runs_any {c : Char} {r : Str} : Runs P.any [c] r fun v => v = c := fun _ => ⟨c, rfl, rfl⟩

theorem backs_any : Backs P.any [] := fun _ => ⟨_, rfl⟩

theorem runs_oneOf {f : Char → Bool} {c : Char} {r : Str} (h : f c = true) :
    Runs (P.oneOf f) [c] r fun v => v = c := fun pos => ⟨c, by
  show (if f c then _ else _) = _
  rw [if_pos h]; rfl, rfl⟩

theorem backs_oneOf {f : Char → Bool} {u : Str} (h : ∀ c cs, u = c :: cs → f c = false) :
    Backs (P.oneOf f) u := fun pos => by
  cases u with
  | nil => exact ⟨_, rfl⟩
  | cons c cs =>
    refine ⟨⟨pos, c :: cs⟩, ?_⟩
    show (if f c then _ else _) = _
    rw [if_neg (by rw [h c cs rfl]; decide)]

theorem runs_chr {c : Char} {r : Str} : Runs (P.chr c) [c] r fun v => v = c :=
  runs_oneOf (by simp)

theorem backs_chr {c : Char} {u : Str} (h : ∀ cs, u ≠ c :: cs) : Backs (P.chr c) u :=
  backs_oneOf fun d cs hu => by
    have : d ≠ c := fun he => h cs (by rw [hu, he])
    simpa using this

theorem dropPrefix_append (t r : Str) : P.dropPrefix t (t ++ r) = some r := by
  induction t with
  | nil => rfl
  | cons c t ih => show (if c = c then _ else _) = _; rw [if_pos rfl]; exact ih

theorem dropPrefix_none {t u : Str} (h : ¬ t <+: u) : P.dropPrefix t u = none := by
  induction t generalizing u with
  | nil => exact absurd List.nil_prefix h
  | cons c t ih =>
    cases u with
    | nil => rfl
    | cons d u =>
      show (if c = d then _ else _) = _
      by_cases hc : c = d
      · rw [if_pos hc]
        subst hc
        exact ih fun h' => h (by obtain ⟨k, rfl⟩ := h'; exact ⟨k, rfl⟩)
      · rw [if_neg hc]

theorem runs_tag {t r : Str} : Runs (P.tag t) t r fun _ => True := fun pos =>
  ⟨(), by unfold P.tag; rw [dropPrefix_append], trivial⟩

theorem backs_tag {t u : Str} (h : ¬ t <+: u) : Backs (P.tag t) u := fun pos =>
  ⟨_, by unfold P.tag; rw [dropPrefix_none h]⟩

theorem takeWhile_run {f : Char → Bool} {t r : Str} (ht : ∀ c ∈ t, f c = true)
    (hr : ∀ c cs, r = c :: cs → f c = false) :
    (t ++ r).takeWhile f = t ∧ (t ++ r).dropWhile f = r := by
  induction t with
  | nil =>
    cases r with
    | nil => exact ⟨rfl, rfl⟩
    | cons c cs => simp [hr c cs rfl]
  | cons c t ih =>
    have h1 := ht c (List.mem_cons_self ..)
    obtain ⟨h2, h3⟩ := ih fun d hd => ht d (List.mem_cons_of_mem _ hd)
    simp [h1, h2, h3]

theorem runs_takeWhile {f : Char → Bool} {t r : Str} (ht : ∀ c ∈ t, f c = true)
    (hr : ∀ c cs, r = c :: cs → f c = false) : Runs (P.takeWhile f) t r fun v => v = t :=
  fun pos => by
  obtain ⟨h1, h2⟩ := takeWhile_run ht hr
  exact ⟨t, by unfold P.takeWhile; dsimp only; rw [h1, h2], rfl⟩

theorem runs_takeWhile1 {f : Char → Bool} {t r : Str} (hne : t ≠ []) (ht : ∀ c ∈ t, f c = true)
    (hr : ∀ c cs, r = c :: cs → f c = false) : Runs (P.takeWhile1 f) t r fun v => v = t :=
  fun pos => by
  obtain ⟨v, h1, h2⟩ := runs_takeWhile ht hr pos
  refine ⟨v, ?_, h2⟩
  cases t with
  | nil => exact absurd rfl hne
  | cons c t =>
    show (if f c then _ else _) = _
    rw [if_pos (ht c (List.mem_cons_self ..))]
    exact h1

theorem backs_takeWhile1 {f : Char → Bool} {u : Str} (h : ∀ c cs, u = c :: cs → f c = false) :
    Backs (P.takeWhile1 f) u := fun pos => by
  cases u with
  | nil => exact ⟨_, rfl⟩
  | cons c cs =>
    refine ⟨⟨pos, c :: cs⟩, ?_⟩
    show (if f c then _ else _) = _
    rw [if_neg (by rw [h c cs rfl]; decide)]

/-! ### Repetition -/

/-- The texts that the iterations of a repetition consume, the values they return, and the text
after them. -/
inductive Reps (p : P α) : (List α → Prop) → Str → Str → Prop
  | nil {R r} : Backs p r → R [] → Reps p R [] r
  | cons {R t u r} {Q : α → Prop} : t ≠ [] → Runs p t (u ++ r) Q →
      (∀ v, Q v → Reps p (fun vs => R (v :: vs)) u r) → Reps p R (t ++ u) r

theorem Reps.repeatF {p : P α} {R : List α → Prop} {t r : Str} (h : Reps p R t r) (n : Nat)
    (hn : (t ++ r).length < n) (pos : Nat) :
    ∃ vs, P.repeatF p n ⟨pos, t ++ r⟩ = .ok vs ⟨pos + t.length, r⟩ ∧ R vs := by
  induction h generalizing n pos with
  | nil h1 h2 =>
    obtain ⟨j, h3⟩ := h1 pos
    cases n with
    | zero => omega
    | succ n =>
      refine ⟨[], ?_, h2⟩
      unfold P.repeatF
      rw [List.nil_append, h3]; rfl
  | @cons R t u r Q hne h1 h2 ih =>
    cases n with
    | zero => omega
    | succ n =>
      obtain ⟨v, h3, h4⟩ := h1 pos
      have hlen : 0 < t.length := List.length_pos_iff.mpr hne
      rw [List.append_assoc, List.length_append] at hn
      obtain ⟨vs, h5, h6⟩ := ih v h4 n (by omega) (pos + t.length)
      refine ⟨v :: vs, ?_, h6⟩
      unfold P.repeatF
      rw [List.append_assoc, h3]
      dsimp only
      rw [if_pos (by rw [List.length_append (as := t)]; omega), h5, List.length_append,
        Nat.add_assoc]

theorem Reps.runs {p : P α} {R : List α → Prop} {t r : Str} (h : Reps p R t r) :
    Runs (P.repeat0 p) t r R := fun pos => h.repeatF _ (Nat.lt_succ_self _) pos

theorem Reps.runs1 {p : P α} {R : List α → Prop} {t u r : Str} {Q : α → Prop}
    (h1 : Runs p t (u ++ r) Q) (h2 : ∀ v, Q v → Reps p (fun vs => R (v :: vs)) u r) :
    Runs (P.repeat1 p) (t ++ u) r R := h1.bind fun v hv => ((h2 v hv).runs).map

theorem Backs.repeat1 {p : P α} {u : Str} (h : Backs p u) : Backs (P.repeat1 p) u := h.bind

/-- A repetition whose result does not matter or is known. -/
theorem Reps.conseq {p : P α} {R S : List α → Prop} {t r : Str} (h : Reps p R t r)
    (hS : ∀ vs, R vs → S vs) : Reps p S t r := by
  induction h generalizing S with
  | nil h1 h2 => exact .nil h1 (hS _ h2)
  | cons hne h1 _ ih => exact .cons hne h1 fun v hv => ih v hv fun vs h => hS _ h

end Verif.Gram
