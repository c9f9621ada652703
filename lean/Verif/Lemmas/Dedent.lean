import Verif.Model.EditDedent
import Verif.Spec.Dedent
/-! Lemmas about dedenting and indenting. -/

set_option linter.unusedSimpArgs false

namespace Verif.Spec

/-! ### Lines -/

theorem lines_ne_nil (s : Str) : lines s ≠ [] := by
  cases s with
  | nil => simp [lines]
  | cons c r =>
    rw [lines]
    split
    · simp
    · split <;> simp

theorem lines_noNl : ∀ {l : Str}, '\n' ∉ l → lines l = [l]
  | [], _ => rfl
  | c :: r, h => by
    have hc : c ≠ '\n' := fun e => h (e ▸ List.mem_cons_self ..)
    rw [lines, if_neg hc, lines_noNl fun hr => h (List.mem_cons_of_mem _ hr)]

theorem lines_append_nl (s : Str) : ∀ {l : Str}, '\n' ∉ l → lines (l ++ '\n' :: s) = l :: lines s
  | [], _ => by simp [lines]
  | c :: r, h => by
    have hc : c ≠ '\n' := fun e => h (e ▸ List.mem_cons_self ..)
    rw [List.cons_append, lines, if_neg hc, lines_append_nl s fun hr => h (List.mem_cons_of_mem _ hr)]

/-- A text is one line, or a line, a newline and a text. -/
theorem line_cases (s : Str) : ('\n' ∉ s) ∨ ∃ l t, s = l ++ '\n' :: t ∧ '\n' ∉ l := by
  induction s with
  | nil => exact .inl (by simp)
  | cons c r ih =>
    by_cases hc : c = '\n'
    · exact .inr ⟨[], r, by simp [hc], by simp⟩
    · rcases ih with h | ⟨l, t, rfl, h⟩
      · exact .inl (by simp [hc, h, Ne.symm hc])
      · exact .inr ⟨c :: l, t, rfl, by simp [h, Ne.symm hc]⟩

theorem line_induction {P : Str → Prop} (one : ∀ l, '\n' ∉ l → P l)
    (more : ∀ l s, '\n' ∉ l → P s → P (l ++ '\n' :: s)) (s : Str) : P s := by
  induction hn : s.length using Nat.strongRecOn generalizing s with
  | _ k ih =>
    rcases line_cases s with h | ⟨l, t, rfl, h⟩
    · exact one s h
    · refine more l t h (ih t.length ?_ t rfl)
      rw [← hn]
      simp only [List.length_append, List.length_cons]
      omega

theorem strLines_cur : ∀ {l : Str} (cur : Str), '\n' ∉ l →
    strLines cur l = if cur.isEmpty && l.isEmpty then [] else [cur.reverse ++ l]
  | [], cur, _ => by cases cur <;> simp [strLines]
  | c :: r, cur, h => by
    have hc : c ≠ '\n' := fun e => h (e ▸ List.mem_cons_self ..)
    rw [strLines, strLines_cur _ fun hr => h (List.mem_cons_of_mem _ hr)]
    · simp
    · exact hc

theorem strLines_cur_nl (s : Str) : ∀ {l : Str} (cur : Str), '\n' ∉ l → '\r' ∉ cur → '\r' ∉ l →
    strLines cur (l ++ '\n' :: s) = (cur.reverse ++ l) :: strLines [] s
  | [], cur, _, hr, _ => by
    cases cur with
    | nil => simp [strLines]
    | cons c cur =>
      have : c ≠ '\r' := fun e => hr (e ▸ List.mem_cons_self ..)
      rw [List.nil_append, strLines, List.append_nil]
      intro cur' h
      injection h with h1 h2
      exact this h1
  | c :: r, cur, h, hcur, hr => by
    have hc : c ≠ '\n' := fun e => h (e ▸ List.mem_cons_self ..)
    have hc' : c ≠ '\r' := fun e => hr (e ▸ List.mem_cons_self ..)
    rw [List.cons_append, strLines, strLines_cur_nl s _ (fun hx => h (List.mem_cons_of_mem _ hx))
      (by simp [hcur, Ne.symm hc']) fun hx => hr (List.mem_cons_of_mem _ hx)]
    · simp
    · exact hc

theorem strLines_noNl {l : Str} (h : '\n' ∉ l) : strLines [] l = if l.isEmpty then [] else [l] := by
  rw [strLines_cur [] h]; simp

theorem strLines_nl {l : Str} (s : Str) (h : '\n' ∉ l) (hr : '\r' ∉ l) :
    strLines [] (l ++ '\n' :: s) = l :: strLines [] s := by
  rw [strLines_cur_nl s [] h (by simp) hr]; simp

/-! ### Dropping `n` characters of every line -/

/-- Drop `k` characters of the current line and `n` of every following one. -/
def dl (n : Nat) : Nat → Str → Str
  | _, [] => []
  | k, c :: r => if c = '\n' then '\n' :: dl n n r else if k = 0 then c :: dl n 0 r else dl n (k - 1) r

theorem getLast?_nl (l : Str) {s : Str} (h : s ≠ []) :
    (l ++ '\n' :: s).getLast? = s.getLast? := by
  have : l ++ '\n' :: s = (l ++ ['\n']) ++ s := by simp
  rw [this, List.getLast?_append]
  cases hs : s.getLast? with
  | none => exact absurd (List.getLast?_eq_none_iff.1 hs) h
  | some c => rfl

theorem dl_noNl (n : Nat) : ∀ (k : Nat) {l : Str}, '\n' ∉ l → dl n k l = l.drop k
  | _, [], _ => by simp [dl]
  | k, c :: r, h => by
    have hc : c ≠ '\n' := fun e => h (e ▸ List.mem_cons_self ..)
    have hr : '\n' ∉ r := fun hx => h (List.mem_cons_of_mem _ hx)
    rw [dl, if_neg hc]
    cases k with
    | zero => simp [dl_noNl n 0 hr]
    | succ k => simp [dl_noNl n k hr]

theorem dl_append (n : Nat) (t : Str) : ∀ (k : Nat) {l : Str}, '\n' ∉ l →
    dl n k (l ++ t) = l.drop k ++ dl n (k - l.length) t
  | _, [], _ => by simp
  | k, c :: r, h => by
    have hc : c ≠ '\n' := fun e => h (e ▸ List.mem_cons_self ..)
    have hr : '\n' ∉ r := fun hx => h (List.mem_cons_of_mem _ hx)
    rw [List.cons_append, dl, if_neg hc]
    cases k with
    | zero => simp [dl_append n t 0 hr]
    | succ k => simp [dl_append n t k hr]

theorem dl_nl (n : Nat) (k : Nat) (s : Str) {l : Str} (h : '\n' ∉ l) :
    dl n k (l ++ '\n' :: s) = l.drop k ++ '\n' :: dl n n s := by
  rw [dl_append n _ k h, dl, if_pos rfl]

theorem drop_noNl {l : Str} (h : '\n' ∉ l) (k : Nat) : '\n' ∉ l.drop k :=
  fun hx => h (List.mem_of_mem_drop hx)

/-- Line by line. -/
theorem lines_dl (n : Nat) (s : Str) : ∀ k, ∃ l ls, lines s = l :: ls ∧
    lines (dl n k s) = l.drop k :: ls.map (List.drop n) := by
  induction s using line_induction with
  | one l h =>
    intro k
    exact ⟨l, [], lines_noNl h, by rw [dl_noNl n k h, lines_noNl (drop_noNl h k)]; rfl⟩
  | more l s h ih =>
    intro k
    obtain ⟨l', ls', h1, h2⟩ := ih n
    refine ⟨l, l' :: ls', by rw [lines_append_nl s h, h1], ?_⟩
    rw [dl_nl n k s h, lines_append_nl _ (drop_noNl h k), h2]
    rfl

theorem dedentLines_eq (n : Nat) (s : Str) : '\r' ∉ s → ∀ skip, s ≠ [] →
    dedentLines n skip (strLines [] s) =
      dl n (if skip then 0 else n) s ++ (if s.getLast? = some '\n' then [] else ['\n']) := by
  induction s using line_induction with
  | one l h =>
    intro _ skip hne
    have hg : l.getLast? ≠ some '\n' := fun hx => h (List.mem_of_getLast? hx)
    have he : l.isEmpty = false := by cases l <;> simp_all
    rw [strLines_noNl h, he, dl_noNl n _ h, if_neg hg]
    cases skip <;> simp [dedentLines, he]
  | more l s h ih =>
    intro hr skip _
    have hl : '\r' ∉ l := fun hx => hr (List.mem_append_left _ hx)
    have hs : '\r' ∉ s := fun hx => hr (List.mem_append_right _ (List.mem_cons_of_mem _ hx))
    rw [strLines_nl s h hl, dl_nl n _ s h, dedentLines]
    have hfirst : (if skip = true then l else if l.isEmpty = true then [] else l.drop n) =
        l.drop (if skip = true then 0 else n) := by
      cases skip
      · cases l <;> simp
      · simp
    rw [hfirst]
    by_cases hse : s = []
    · subst hse
      simp [strLines, dedentLines, dl]
    · rw [ih hs false hse]
      have hg : (l ++ '\n' :: s).getLast? = s.getLast? := getLast?_nl l hse
      rw [hg]
      simp

theorem dl_getLast (n : Nat) (s : Str) : ∀ k, s.getLast? = some '\n' →
    (dl n k s).getLast? = some '\n' := by
  induction s using line_induction with
  | one l h => intro k hg; exact absurd (List.mem_of_getLast? hg) h
  | more l s h ih =>
    intro k hg
    rw [dl_nl n k s h]
    by_cases hse : s = []
    · subst hse; simp [dl]
    · have hg' : (l ++ '\n' :: s).getLast? = s.getLast? := getLast?_nl l hse
      rw [hg'] at hg
      have := ih n hg
      cases hd : dl n n s with
      | nil => rw [hd] at this; cases this
      | cons a d =>
        rw [hd] at this
        simp [List.getLast?_append, List.getLast?_cons_cons, this]

theorem dedentBy_eq {n : Nat} {s : Str} {skip : Bool} (h : '\r' ∉ s) :
    dedentBy s n skip = dl n (if skip then 0 else n) s := by
  by_cases hs : s = []
  · subst hs
    simp [dedentBy, strLines, dedentLines, dl]
  · rw [dedentBy, dedentLines_eq n s h skip hs]
    by_cases hg : s.getLast? = some '\n'
    · simp [hg]
    · simp [hg]

/-! ### The last line -/

/-- Everything about the last line of a text: `u` is the last line, `i` the lines before it. -/
theorem last_line (s : Str) : ∃ i u, lines s = i ++ [u] ∧
    (∀ t t0 ts, lines t = t0 :: ts → lines (s ++ t) = i ++ (u ++ t0) :: ts) ∧
    (u = [] ↔ s = [] ∨ s.getLast? = some '\n') ∧
    (∀ n k t, dl n k (s ++ t) = dl n k s ++ dl n ((if i = [] then k else n) - u.length) t) := by
  induction s using line_induction with
  | one l h =>
    refine ⟨[], l, lines_noNl h, ?_, ?_, ?_⟩
    · intro t t0 ts ht
      induction l with
      | nil => simpa using ht
      | cons c r ih =>
        have hc : c ≠ '\n' := fun e => h (e ▸ List.mem_cons_self ..)
        have := ih fun hx => h (List.mem_cons_of_mem _ hx)
        rw [List.cons_append, lines, if_neg hc, this]
        rfl
    · constructor
      · exact .inl
      · rintro (h' | h')
        · exact h'
        · exact absurd (List.mem_of_getLast? h') h
    · intro n k t
      rw [dl_append n t k h, dl_noNl n k h]
      simp
  | more l s h ih =>
    obtain ⟨i, u, h1, h2, h3, h4⟩ := ih
    refine ⟨l :: i, u, by rw [lines_append_nl s h, h1]; rfl, ?_, ?_, ?_⟩
    · intro t t0 ts ht
      rw [List.append_assoc, List.cons_append, lines_append_nl _ h, h2 t t0 ts ht]
      rfl
    · rw [h3]
      by_cases hs : s = []
      · subst hs; simp
      · rw [getLast?_nl l hs]; simp [hs]
    · intro n k t
      rw [List.append_assoc, List.cons_append, dl_nl n k _ h, dl_nl n k s h, h4]
      simp

/-! ### Widths -/

/-- The number of leading whitespace characters. -/
def width (U : Uni) (l : Str) : Nat := (l.takeWhile U.isWs).length

/-- The widths of the lines that are not empty. -/
def widths (U : Uni) (ls : List Str) : List Nat := (ls.filter (fun l => !l.isEmpty)).map (width U)

/-- Without the first one. -/
def appl (skip : Bool) (ls : List Str) : List Str := if skip then ls.tail else ls

/-- The least of an accumulator and a list. -/
def foldMin : Option Nat → List Nat → Option Nat
  | acc, [] => acc
  | acc, w :: ws => foldMin (some (match acc with | none => w | some a => min a w)) ws

theorem foldMin_append (acc : Option Nat) (a b : List Nat) :
    foldMin acc (a ++ b) = foldMin (foldMin acc a) b := by
  induction a generalizing acc with
  | nil => rfl
  | cons w a ih => exact ih _

theorem foldMin_some (a : Nat) (ws : List Nat) :
    foldMin (some a) ws = some (match foldMin none ws with | none => a | some w => min a w) := by
  induction ws generalizing a with
  | nil => rfl
  | cons w ws ih =>
    show foldMin (some (min a w)) ws = _
    rw [ih, foldMin, ih]
    cases foldMin none ws with
    | none => rfl
    | some v => simp [Nat.min_assoc]

theorem foldMin_acc (acc : Option Nat) (ws : List Nat) :
    foldMin acc ws = match foldMin none ws with
      | some w => some (match acc with | none => w | some a => min a w)
      | none => acc := by
  cases acc with
  | none => cases foldMin none ws <;> rfl
  | some a => rw [foldMin_some]; cases foldMin none ws <;> rfl

theorem foldMin_spec {ws : List Nat} {n : Nat} : ∀ {acc : Option Nat}, foldMin acc ws = some n →
    (∀ w ∈ ws, n ≤ w) ∧ (∀ a, acc = some a → n ≤ a) ∧ (n ∈ ws ∨ acc = some n) := by
  induction ws with
  | nil => intro acc h; refine ⟨nofun, ?_, .inr h⟩; intro a ha; cases ha.symm.trans h; exact Nat.le_refl _
  | cons w ws ih =>
    intro acc h
    obtain ⟨h1, h2, h3⟩ := ih h
    have h2' := h2 _ rfl
    cases acc with
    | none =>
      refine ⟨?_, nofun, ?_⟩
      · intro v hv
        rcases List.mem_cons.1 hv with rfl | hv
        · exact h2'
        · exact h1 v hv
      · rcases h3 with h3 | h3
        · exact .inl (List.mem_cons_of_mem _ h3)
        · cases h3; exact .inl (List.mem_cons_self ..)
    | some a =>
      have h2'' : n ≤ min a w := h2'
      refine ⟨?_, ?_, ?_⟩
      · intro v hv
        rcases List.mem_cons.1 hv with rfl | hv
        · exact Nat.le_trans h2'' (Nat.min_le_right _ _)
        · exact h1 v hv
      · intro b hb; cases hb; exact Nat.le_trans h2'' (Nat.min_le_left _ _)
      · rcases h3 with h3 | h3
        · exact .inl (List.mem_cons_of_mem _ h3)
        · have h3' : min a w = n := Option.some.inj h3
          rcases Nat.le_total a w with h | h
          · rw [Nat.min_eq_left h] at h3'; exact .inr (by rw [h3'])
          · rw [Nat.min_eq_right h] at h3'; exact .inl (by rw [h3']; exact List.mem_cons_self ..)

theorem widths_cons_nil (U : Uni) (ls : List Str) : widths U ([] :: ls) = widths U ls := rfl

theorem widths_cons (U : Uni) {l : Str} (h : l ≠ []) (ls : List Str) :
    widths U (l :: ls) = width U l :: widths U ls := by
  cases l with
  | nil => exact absurd rfl h
  | cons c r => rfl

theorem widths_append (U : Uni) (a b : List Str) : widths U (a ++ b) = widths U a ++ widths U b := by
  simp [widths]

theorem mem_widths {U : Uni} {ls : List Str} {w : Nat} :
    w ∈ widths U ls ↔ ∃ l ∈ ls, l ≠ [] ∧ width U l = w := by
  simp [widths, and_assoc]

theorem minWsLines_false (U : Uni) : ∀ (ls : List Str) (acc : Option Nat),
    (∀ w ∈ widths U ls, w ≠ 0) → minWsLines U false acc ls = some (foldMin acc (widths U ls))
  | [], _, _ => rfl
  | [] :: ls, acc, h => by
    rw [minWsLines, widths_cons_nil]
    exact minWsLines_false U ls acc h
  | (c :: r) :: ls, acc, h => by
    have hne : (c :: r : Str) ≠ [] := by simp
    rw [widths_cons U hne] at h ⊢
    have hw : ((c :: r).takeWhile U.isWs).length ≠ 0 := h _ (List.mem_cons_self ..)
    rw [minWsLines, if_neg (by simp)]
    simp only [if_neg hw]
    rw [minWsLines_false U ls _ fun w hx => h w (List.mem_cons_of_mem _ hx)]
    rfl

theorem minWsLines_eq (U : Uni) (skip : Bool) (ls : List Str) (acc : Option Nat)
    (h : ∀ w ∈ widths U (appl skip ls), w ≠ 0) :
    minWsLines U skip acc ls = some (foldMin acc (widths U (appl skip ls))) := by
  cases skip with
  | false => exact minWsLines_false U ls acc h
  | true =>
    cases ls with
    | nil => rfl
    | cons l ls => rw [minWsLines, if_pos (by simp)]; exact minWsLines_false U ls acc h

/-- `str::lines` leaves out the last line if it is empty. -/
theorem lines_eq_strLines {s : Str} (hr : '\r' ∉ s) (hne : s ≠ []) :
    lines s = strLines [] s ++ (if s.getLast? = some '\n' then [[]] else []) ∧ strLines [] s ≠ [] := by
  induction s using line_induction with
  | one l h =>
    have hg : l.getLast? ≠ some '\n' := fun hx => h (List.mem_of_getLast? hx)
    have he : l.isEmpty = false := by cases l <;> simp_all
    rw [strLines_noNl h, he, lines_noNl h, if_neg hg]
    simp
  | more l s h ih =>
    have hl : '\r' ∉ l := fun hx => hr (List.mem_append_left _ hx)
    have hs : '\r' ∉ s := fun hx => hr (List.mem_append_right _ (List.mem_cons_of_mem _ hx))
    rw [strLines_nl s h hl, lines_append_nl s h]
    refine ⟨?_, by simp⟩
    by_cases hse : s = []
    · subst hse; simp [strLines, lines]
    · rw [getLast?_nl l hse, (ih hs hse).1]; rfl

theorem minLeadingWs_eq {U : Uni} {s : Str} {skip : Bool} (hr : '\r' ∉ s) (hne : s ≠ [])
    (h : ∀ w ∈ widths U (appl skip (lines s)), w ≠ 0) :
    minLeadingWs U s skip = foldMin none (widths U (appl skip (lines s))) := by
  obtain ⟨h1, h2⟩ := lines_eq_strLines hr hne
  have he : s.isEmpty = false := by cases s <;> simp_all
  have hw : widths U (appl skip (lines s)) = widths U (appl skip (strLines [] s)) := by
    rw [h1]
    cases hsl : strLines [] s with
    | nil => exact absurd hsl h2
    | cons l ls =>
      have tail : ∀ a : List Str,
          widths U (a ++ if s.getLast? = some '\n' then [[]] else []) = widths U a := by
        intro a
        rw [widths_append]
        split <;> simp [widths]
      cases skip
      · exact tail (l :: ls)
      · exact tail ls
  rw [hw] at h ⊢
  rw [minLeadingWs, he, minWsLines_eq U skip _ none h]
  simp

/-! ### Templates -/

/-- The template does not begin with a literal. -/
def NoLit (es : List EElem) : Prop := ∀ sp t es', es ≠ .lit sp t :: es'

theorem noLit_first {U : Uni} {f : EElem → Str} (hf : ∀ e, Inline U (f e)) {es : List EElem}
    (h : NoLit es) : ∃ t0 ts, lines (outline f es) = t0 :: ts ∧
      (t0 = [] ∨ ∃ c r, t0 = c :: r ∧ U.isWs c = false) := by
  have other : ∀ e es, ∃ t0 ts, lines (f e ++ outline f es) = t0 :: ts ∧
      (t0 = [] ∨ ∃ c r, t0 = c :: r ∧ U.isWs c = false) := by
    intro e es
    have := hf e
    cases he : f e with
    | nil => rw [he] at this; exact absurd this id
    | cons c r =>
      rw [he] at this
      obtain ⟨h1, h2, h3⟩ := this
      rw [List.cons_append, lines, if_neg h2]
      cases hl : lines (r ++ outline f es) with
      | nil => exact absurd hl (lines_ne_nil _)
      | cons l ls => exact ⟨c :: l, ls, rfl, .inr ⟨c, l, rfl, h1⟩⟩
  cases es with
  | nil => exact ⟨[], [], rfl, .inl rfl⟩
  | cons e es =>
    cases e with
    | lit sp t => exact absurd rfl (h sp t es)
    | _ => rw [outline]; exact other _ es; exact fun _ _ => nofun

theorem width_append {U : Uni} {u t0 : Str}
    (h : t0 = [] ∨ ∃ c r, t0 = c :: r ∧ U.isWs c = false) : width U (u ++ t0) = width U u := by
  induction u with
  | nil =>
    rcases h with rfl | ⟨c, r, rfl, hc⟩
    · rfl
    · simp [width, hc]
  | cons c u ih =>
    simp only [width, List.cons_append, List.takeWhile_cons] at ih ⊢
    cases U.isWs c
    · rfl
    · simpa using ih

/-- The lines of a literal followed by more, and their widths. -/
theorem widths_lit {U : Uni} {f : EElem → Str} (hf : ∀ e, Inline U (f e)) {s : Str} {es : List EElem}
    (hne : s ≠ []) (hes : NoLit es) (skip : Bool) :
    widths U (appl skip (lines (s ++ outline f es))) =
      widths U (appl skip (lines s)) ++
        widths U (appl (s.getLast? != some '\n') (lines (outline f es))) := by
  obtain ⟨i, u, h1, h2, h3, _⟩ := last_line s
  obtain ⟨t0, ts, ht, ht0⟩ := noLit_first hf hes
  rw [h2 _ t0 ts ht, h1, ht]
  by_cases hg : s.getLast? = some '\n'
  · have hu : u = [] := h3.2 (.inr hg)
    subst hu
    have hi : i ≠ [] := by
      rintro rfl
      rcases line_cases s with h | ⟨l, t, rfl, h⟩
      · exact h (List.mem_of_getLast? hg)
      · rw [lines_append_nl t h] at h1
        have := lines_ne_nil t
        simp_all
    rw [hg]
    cases i with
    | nil => exact absurd rfl hi
    | cons l i =>
      have key : ∀ a : List Str, widths U (a ++ ([] ++ t0) :: ts) =
          widths U (a ++ [[]]) ++ widths U (t0 :: ts) := by
        intro a
        rw [widths_append, widths_append]
        simp [widths]
      cases skip
      · exact key (l :: i)
      · exact key i
  · have hu : u ≠ [] := fun h => (h3.1 h).elim hne hg
    have hb : (s.getLast? != some '\n') = true := by simp [bne_iff_ne, hg]
    rw [hb]
    have hut : u ++ t0 ≠ [] := by simp [hu]
    have key : ∀ a : List Str, widths U (a ++ (u ++ t0) :: ts) = widths U (a ++ [u]) ++ widths U ts := by
      intro a
      rw [widths_append, widths_append, widths_cons U hut, widths_cons U hu, width_append ht0]
      simp [widths]
    cases skip with
    | false => exact key i
    | true =>
      cases i with
      | nil => simp [appl, widths]
      | cons l i => exact key i

theorem tmplIndent_eq {U : Uni} {f : EElem → Str} (hf : ∀ e, Inline U (f e)) :
    ∀ (es : List EElem) (skip : Bool) (acc r : Option Nat), Regular es →
      (∀ w ∈ widths U (appl skip (lines (outline f es))), w ≠ 0) →
      tmplIndent U skip acc es = some r →
      r = foldMin acc (widths U (appl skip (lines (outline f es)))) := by
  intro es
  induction es with
  | nil =>
    intro skip acc r _ _ h
    have h' : some acc = some r := h
    cases skip <;> exact (Option.some.inj h').symm
  | cons e es ih =>
    intro skip acc r hr hw h
    have other : (if skip then tmplIndent U skip acc es else none) = some r → Regular es →
        (∀ w ∈ widths U (appl skip (lines (f e ++ outline f es))), w ≠ 0) →
        r = foldMin acc (widths U (appl skip (lines (f e ++ outline f es)))) := by
      intro h hr hw
      cases skip with
      | false => cases h
      | true =>
        have hl : lines (f e ++ outline f es) = (f e ++ (lines (outline f es)).head!) ::
            (lines (outline f es)).tail := by
          have h0 : '\n' ∉ f e := by
            have := hf e
            cases he : f e with
            | nil => simp
            | cons c r => rw [he] at this; obtain ⟨_, h2, h3⟩ := this; simp [h3, Ne.symm h2]
          obtain ⟨i, u, h1, h2, -, -⟩ := last_line (f e)
          rw [lines_noNl h0] at h1
          cases i with
          | nil =>
            cases hl : lines (outline f es) with
            | nil => exact absurd hl (lines_ne_nil _)
            | cons l ls =>
              rw [h2 _ l ls hl]
              simp at h1
              rw [h1]
              rfl
          | cons _ _ => simp at h1
        rw [hl] at hw ⊢
        exact ih true acc r hr hw h
    cases e with
    | lit sp s =>
      obtain ⟨h1, h2, h3, h4⟩ := hr
      rw [outline] at hw ⊢
      rw [widths_lit hf h1 h4] at hw ⊢
      rw [tmplIndent, minLeadingWs_eq h2 h1 fun w hx => hw w (List.mem_append_left _ hx)] at h
      rw [foldMin_append]
      have := ih _ _ r h3 (fun w hx => hw w (List.mem_append_right _ hx)) h
      rw [this, foldMin_acc acc (widths U (appl skip (lines s)))]
      rfl
    | _ =>
      rw [tmplIndent] at h
      · rw [outline] at hw ⊢
        · exact other h hr hw
        · exact fun _ _ => nofun
        · exact fun _ _ => nofun
      · exact fun _ _ => nofun

/-- If every line is indented, the first loop does not end early. -/
theorem tmplIndent_some {U : Uni} {f : EElem → Str} (hf : ∀ e, Inline U (f e)) :
    ∀ (es : List EElem) (skip : Bool) (acc : Option Nat), Regular es →
      (∀ w ∈ widths U (appl skip (lines (outline f es))), w ≠ 0) →
      ∃ r, tmplIndent U skip acc es = some r := by
  intro es
  induction es with
  | nil => exact fun _ acc _ _ => ⟨acc, rfl⟩
  | cons e es ih =>
    intro skip acc hr hw
    have other : Regular es → (∀ w ∈ widths U (appl skip (lines (f e ++ outline f es))), w ≠ 0) →
        ∃ r, (if skip then tmplIndent U skip acc es else none) = some r := by
      intro hr hw
      have hi := hf e
      cases he : f e with
      | nil => rw [he] at hi; exact hi.elim
      | cons c r =>
        rw [he] at hi hw
        obtain ⟨h1, h2, h3⟩ := hi
        have h0 : '\n' ∉ c :: r := by simp [h3, Ne.symm h2]
        obtain ⟨i, u, hl, hl', -, -⟩ := last_line (c :: r)
        rw [lines_noNl h0] at hl
        cases i with
        | cons _ _ => simp at hl
        | nil =>
          simp at hl
          subst hl
          cases hls : lines (outline f es) with
          | nil => exact absurd hls (lines_ne_nil _)
          | cons l ls =>
            rw [hl' _ l ls hls] at hw
            cases skip with
            | false =>
              refine absurd rfl (hw 0 (mem_widths.2 ⟨c :: r ++ l, ?_, by simp, ?_⟩))
              · exact List.mem_cons_self ..
              · simp [width, h1]
            | true =>
              refine ih true acc hr ?_
              rw [hls]
              exact hw
    cases e with
    | lit sp s =>
      obtain ⟨h1, h2, h3, h4⟩ := hr
      rw [outline, widths_lit hf h1 h4] at hw
      rw [tmplIndent]
      exact ih _ _ h3 fun w hx => hw w (List.mem_append_right _ hx)
    | _ =>
      rw [outline] at hw
      · rw [tmplIndent]
        · exact other hr hw
        · exact fun _ _ => nofun
      · exact fun _ _ => nofun

/-- A line without indentation ends the loop early. -/
theorem minWsLines_zero (U : Uni) : ∀ (ls : List Str) (acc : Option Nat),
    (∃ l ∈ ls, l ≠ [] ∧ width U l = 0) → minWsLines U false acc ls = none
  | [], _, ⟨_, h, _⟩ => (List.not_mem_nil h).elim
  | l :: ls, acc, ⟨k, hk, hne, h0⟩ => by
    rw [minWsLines]
    rcases List.mem_cons.mp hk with rfl | hk
    · have : k.isEmpty = false := by cases k <;> simp_all
      rw [this]
      exact if_pos h0
    · split
      · exact minWsLines_zero U ls acc ⟨k, hk, hne, h0⟩
      · dsimp only
        split
        · rfl
        · exact minWsLines_zero U ls _ ⟨k, hk, hne, h0⟩

theorem tmplStrip_noLit (n : Nat) {es : List EElem} (h : NoLit es) (a b : Bool) :
    tmplStrip n a es = tmplStrip n b es := by
  cases es with
  | nil => rfl
  | cons e es =>
    cases e with
    | lit sp t => exact absurd rfl (h sp t es)
    | _ => simp [tmplStrip]

theorem width_le (U : Uni) (l : Str) : width U l ≤ l.length := by
  unfold width
  exact (List.takeWhile_sublist _).length_le

theorem mem_takeWhile {p : Char → Bool} {c : Char} : ∀ {l : Str}, c ∈ l.takeWhile p → p c = true
  | [], h => nomatch h
  | d :: l, h => by
    rw [List.takeWhile_cons] at h
    cases hd : p d with
    | false => rw [hd] at h; nomatch h
    | true =>
      rw [hd] at h
      rcases List.mem_cons.1 h with rfl | h
      · exact hd
      · exact mem_takeWhile h

theorem width_spaces {U : Uni} (hu : U.isWs ' ' = true) (m : Nat) (r : Str) :
    m ≤ width U (List.replicate m ' ' ++ r) := by
  induction m with
  | zero => exact Nat.zero_le _
  | succ m ih =>
    rw [List.replicate_succ, List.cons_append, width, List.takeWhile_cons, hu]
    exact Nat.succ_le_succ ih

theorem tmplStrip_eq {U : Uni} {f : EElem → Str} (hf : ∀ e, Inline U (f e)) (n : Nat) :
    ∀ (es : List EElem) (skip : Bool), Regular es →
      (∀ w ∈ widths U (appl skip (lines (outline f es))), n ≤ w) →
      outline f (tmplStrip n skip es) = dl n (if skip then 0 else n) (outline f es) := by
  intro es
  induction es with
  | nil => intro skip _ _; rfl
  | cons e es ih =>
    intro skip hr hw
    have other : Regular es → (∀ w ∈ widths U (appl skip (lines (f e ++ outline f es))), n ≤ w) →
        f e ++ outline f (tmplStrip n true es) =
          dl n (if skip then 0 else n) (f e ++ outline f es) := by
      intro hr hw
      have h0 : '\n' ∉ f e := by
        have := hf e
        cases he : f e with
        | nil => simp
        | cons c r => rw [he] at this; obtain ⟨_, h2, h3⟩ := this; simp [h3, Ne.symm h2]
      obtain ⟨l, ls, hl⟩ : ∃ l ls, lines (outline f es) = l :: ls := by
        cases hl : lines (outline f es) with
        | nil => exact absurd hl (lines_ne_nil _)
        | cons l ls => exact ⟨l, ls, rfl⟩
      have hl' : lines (f e ++ outline f es) = (f e ++ l) :: ls := by
        obtain ⟨i, u, h1, h2, -, -⟩ := last_line (f e)
        rw [lines_noNl h0] at h1
        cases i with
        | nil => simp at h1; rw [h2 _ l ls hl, ← h1]; rfl
        | cons _ _ => simp at h1
      have hk : (if skip then 0 else n) = 0 := by
        cases skip with
        | true => rfl
        | false =>
          have hne : f e ++ l ≠ [] := by
            have := hf e
            cases he : f e with
            | nil => rw [he] at this; exact absurd this id
            | cons c r => simp
          have := hw (width U (f e ++ l)) (by
            rw [hl']; simp only [appl]; rw [if_neg (by simp), widths_cons U hne]
            exact List.mem_cons_self ..)
          have hz : width U (f e ++ l) = 0 := by
            have := hf e
            cases he : f e with
            | nil => rw [he] at this; exact absurd this id
            | cons c r => rw [he] at this; simp [width, this.1]
          simp only [Bool.false_eq_true, if_false]
          omega
      have hw' : ∀ w ∈ widths U (appl true (lines (outline f es))), n ≤ w := by
        intro w hx
        rw [hl] at hx
        apply hw
        rw [hl']
        cases skip with
        | true => exact hx
        | false =>
          simp only [appl, List.tail_cons, if_true] at hx ⊢
          rw [if_neg (by simp)]
          rw [show (f e ++ l) :: ls = [f e ++ l] ++ ls from rfl, widths_append]
          exact List.mem_append_right _ hx
      rw [hk, dl_append n _ 0 h0, ih true hr hw']
      simp
    cases e with
    | lit sp s =>
      obtain ⟨h1, h2, h3, h4⟩ := hr
      rw [outline] at hw ⊢
      rw [widths_lit hf h1 h4] at hw
      rw [tmplStrip, outline, dedentBy_eq h2]
      obtain ⟨i, u, g1, g2, g3, g4⟩ := last_line s
      rw [g4]
      congr 1
      by_cases hg : s.getLast? = some '\n'
      · have hu : u = [] := g3.2 (.inr hg)
        have hi : i ≠ [] := by
          rintro rfl
          rcases line_cases s with h | ⟨l, t, rfl, h⟩
          · exact h (List.mem_of_getLast? hg)
          · rw [lines_append_nl t h] at g1
            have := lines_ne_nil t
            simp_all
        have hd := dl_getLast n s (if skip then 0 else n) hg
        rw [hd, if_neg hi, hu]
        have := ih false h3 fun w hx => hw w (List.mem_append_right _ (by rw [hg]; exact hx))
        simpa using this
      · have hu : u ≠ [] := fun h => (g3.1 h).elim h1 hg
        have hb : (s.getLast? != some '\n') = true := by simp [bne_iff_ne, hg]
        rw [hb] at hw
        rw [tmplStrip_noLit n h4 _ true,
          ih true h3 fun w hx => hw w (List.mem_append_right _ hx)]
        have hz : (if i = [] then (if skip then 0 else n) else n) - u.length = 0 := by
          have hle := width_le U u
          by_cases hs : skip = true ∧ i = []
          · simp [hs.1, hs.2]
          · have : n ≤ width U u := by
              apply hw _ (List.mem_append_left _ _)
              rw [g1]
              cases skip with
              | false =>
                simp only [appl]
                rw [if_neg (by simp), widths_append, widths_cons U hu]
                exact List.mem_append_right _ (List.mem_cons_self ..)
              | true =>
                cases i with
                | nil => simp at hs
                | cons l i =>
                  simp only [appl, List.cons_append, List.tail_cons, if_true]
                  rw [widths_append, widths_cons U hu]
                  exact List.mem_append_right _ (List.mem_cons_self ..)
            split
            · split <;> omega
            · omega
        rw [hz]
        rfl
    | _ =>
      rw [tmplStrip]
      · rw [outline] at hw ⊢
        · rw [outline]
          · exact other hr hw
          · exact fun _ _ => nofun
        · exact fun _ _ => nofun
        · exact fun _ _ => nofun
      · exact fun _ _ => nofun

/-! ### Indenting -/

/-- A line with indentation, unless it is empty. -/
def ind (n : Nat) (l : Str) : Str := (if l.isEmpty then [] else List.replicate n ' ') ++ l

theorem indentBy_noNl (n : Nat) {l : Str} (h : '\n' ∉ l) : indentBy l n false = ind n l := by
  have hg : l.getLast? ≠ some '\n' := fun hx => h (List.mem_of_getLast? hx)
  rw [indentBy, strLines_noNl h, if_neg hg]
  cases l <;> simp [ind, indentRest]

theorem indentBy_nl (n : Nat) {l s : Str} (h : '\n' ∉ l) (hr : '\r' ∉ l) (hs : '\r' ∉ s) :
    indentBy (l ++ '\n' :: s) n false = ind n l ++ '\n' :: indentBy s n false := by
  rw [indentBy, strLines_nl s h hr]
  by_cases hse : s = []
  · subst hse
    rw [List.getLast?_concat]
    cases l <;> simp [ind, indentRest, indentBy, strLines]
  · rw [getLast?_nl l hse, indentBy]
    obtain ⟨_, h2⟩ := lines_eq_strLines hs hse
    cases hl : strLines [] s with
    | nil => exact absurd hl h2
    | cons a b =>
      cases l <;> cases a <;> simp [ind, indentRest]

theorem dl_sub {n : Nat} {c : Char} (s : Str) : ∀ k, c ∈ dl n k s → c ∈ s := by
  induction s with
  | nil => intro k h; exact h
  | cons d r ih =>
    intro k h
    rw [dl] at h
    split at h
    · rename_i hd
      rcases List.mem_cons.1 h with h | h
      · rw [h, hd]; exact List.mem_cons_self ..
      · exact List.mem_cons_of_mem _ (ih _ h)
    · split at h
      · rcases List.mem_cons.1 h with h | h
        · rw [h]; exact List.mem_cons_self ..
        · exact List.mem_cons_of_mem _ (ih _ h)
      · exact List.mem_cons_of_mem _ (ih _ h)

theorem ind_drop {n : Nat} {l : Str}
    (h : l = [] ∨ ∃ r, r ≠ [] ∧ l = List.replicate n ' ' ++ r) : ind n (l.drop n) = l := by
  rcases h with rfl | ⟨r, hr, rfl⟩
  · simp [ind]
  · have : (List.replicate n ' ' ++ r).drop n = r := by simp
    rw [this]
    cases r with
    | nil => exact absurd rfl hr
    | cons c r => rfl

theorem indentBy_dl (n : Nat) (s : Str) : '\r' ∉ s →
    (∀ l ∈ lines s, l = [] ∨ ∃ r, r ≠ [] ∧ l = List.replicate n ' ' ++ r) →
    indentBy (dl n n s) n false = s := by
  induction s using line_induction with
  | one l h =>
    intro _ hl
    rw [dl_noNl n n h, indentBy_noNl n (drop_noNl h n)]
    exact ind_drop (hl l (by rw [lines_noNl h]; exact List.mem_cons_self ..))
  | more l s h ih =>
    intro hr hl
    rw [lines_append_nl s h] at hl
    have hl' : '\r' ∉ l := fun hx => hr (List.mem_append_left _ hx)
    have hs : '\r' ∉ s := fun hx => hr (List.mem_append_right _ (List.mem_cons_of_mem _ hx))
    rw [dl_nl n n s h, indentBy_nl n (drop_noNl h n) (fun hx => hl' (List.mem_of_mem_drop hx))
      (fun hx => hs (dl_sub s _ hx)), ih hs fun m hm => hl m (List.mem_cons_of_mem _ hm),
      ind_drop (hl l (List.mem_cons_self ..))]

end Verif.Spec
