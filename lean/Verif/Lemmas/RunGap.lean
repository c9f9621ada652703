import Verif.Lemmas.RunTrivia
import Verif.Lemmas.RunNum
import Verif.Lemmas.RunLex
import Verif.Spec.Syntax
/-! Forward runs of the parsers over whitespace, identifiers and numbers as `Spec.Syn` writes them. -/

namespace Verif.Gram
open P Spec Syn

theorem _root_.Verif.Spec.Syn.Gap.mono {a b : Bool} {g : Str} (h : Gap a g) (hab : a = true → b = true) : Gap b g := by
  induction h with
  | nil => exact .nil
  | blank h _ ih => exact .blank h (ih hab)
  | newline h _ ih => have hb := hab rfl; subst hb; exact .newline h (ih hab)
  | line h1 h2 _ ih => have hb := hab rfl; subst hb; exact .line h1 h2 (ih hab)
  | block h _ ih => exact .block h (ih hab)

theorem _root_.Verif.Spec.Syn.Gap.append {b : Bool} {g h : Str} (h1 : Gap b g) (h2 : Gap b h) : Gap b (g ++ h) := by
  induction h1 with
  | nil => exact h2
  | blank h _ ih => exact .blank h (ih h2)
  | newline h _ ih => exact .newline h (ih h2)
  | line a b _ ih => rw [List.append_assoc]; exact .line a b (ih h2)
  | block h _ ih => rw [List.append_assoc]; exact .block h (ih h2)

theorem backs_step {b : Bool} {u : Str} (h : ¬ StartsTrivia b u) : Backs (stepP b) u := by
  refine Backs.bind ?_
  rcases comment_cases b u with ⟨x, y, rfl, h'⟩ | h'
  · exact absurd (.inr ⟨x, y, rfl, h'⟩) h
  · exact h'

theorem blank_of_starts {b : Bool} {c : Char} (h : c = ' ' ∨ c = '\t' ∨ b = true ∧ (c = '\n' ∨ c = '\r')) :
    isBlank b c = true := by
  rcases h with rfl | rfl | ⟨rfl, rfl | rfl⟩ <;> first | rfl | (cases b <;> rfl)

theorem not_blank {b : Bool} {u : Str} (h : ¬ StartsTrivia b u) : ∀ c cs, u = c :: cs → isBlank b c = false := by
  rintro c cs rfl
  cases hb : isBlank b c with
  | false => rfl
  | true =>
    refine absurd (.inl ⟨c, cs, rfl, ?_⟩) h
    cases b <;> simp [isBlank] at hb ⊢
    · exact hb
    · rcases hb with (rfl | rfl) | rfl | rfl <;> decide

theorem lineComment_head {x : Str} (h : LineComment x) : ∃ c t, x = c :: t ∧ (c = '#' ∨ c = '/') := by
  obtain ⟨t, rfl | rfl, -⟩ := h
  · exact ⟨_, _, rfl, .inl rfl⟩
  · exact ⟨_, _, rfl, .inr rfl⟩

theorem blockComment_head {x : Str} (h : BlockComment x) : ∃ t, x = '/' :: t := by
  obtain ⟨t, rfl, -⟩ := h
  exact ⟨_, rfl⟩

theorem nil_starts {b : Bool} : ¬ StartsTrivia b [] := by
  rintro (⟨d, k, hk, _⟩ | ⟨x, k, hk, hx⟩)
  · cases hk
  · obtain ⟨rfl, rfl⟩ := List.nil_eq_append_iff.mp hk
    rcases hx with hx | ⟨_, hx, _⟩
    · obtain ⟨t, h⟩ := blockComment_head hx; cases h
    · obtain ⟨d, t, h, _⟩ := lineComment_head hx; cases h

/-- Whitespace and comments in front of `u`. A line comment may end with the input. -/
inductive Over (u : Str) : Bool → Str → Prop
  | nil {nl} : Over u nl []
  | blank {nl c t} : c = ' ' ∨ c = '\t' → Over u nl t → Over u nl (c :: t)
  | newline {c t} : c = '\n' ∨ c = '\r' → Over u true t → Over u true (c :: t)
  | line {x e t} : LineComment x → e = c!"\n" ∨ e = c!"\r\n" → Over u true t → Over u true (x ++ e ++ t)
  | block {nl x t} : BlockComment x → Over u nl t → Over u nl (x ++ t)
  | last {x} : u = [] → LineComment x → Over u true x

theorem _root_.Verif.Spec.Syn.Gap.overAppend {b : Bool} {g h u : Str} (h1 : Gap b g) (h2 : Over u b h) :
    Over u b (g ++ h) := by
  induction h1 with
  | nil => exact h2
  | blank h _ ih => exact .blank h (ih h2)
  | newline h _ ih => exact .newline h (ih h2)
  | line a b _ ih => rw [List.append_assoc]; exact .line a b (ih h2)
  | block h _ ih => rw [List.append_assoc]; exact .block h (ih h2)

theorem _root_.Verif.Spec.Syn.Gap.over {b : Bool} {g : Str} (h : Gap b g) (u : Str) : Over u b g := by
  have := h.overAppend (h := []) (u := u) .nil
  rwa [List.append_nil] at this

/-- A gap is blanks and then comments with blanks after them. -/
theorem over_steps {b : Bool} {g u : Str} (h : Over u b g) (hu : ¬ StartsTrivia b u) : ∃ bl x, g = bl ++ x ∧
    (∀ c ∈ bl, isBlank b c = true) ∧ (∀ c cs, x ++ u = c :: cs → isBlank b c = false) ∧
    Reps (stepP b) (fun _ => True) x u := by
  induction h with
  | nil => exact ⟨[], [], rfl, nofun, not_blank hu, .nil (backs_step hu) trivial⟩
  | @blank nl c t h _ ih =>
    obtain ⟨bl, x, rfl, h1, h2, h3⟩ := ih hu
    refine ⟨c :: bl, x, rfl, ?_, h2, h3⟩
    intro d hd
    rcases List.mem_cons.mp hd with rfl | hd
    · exact blank_of_starts (h.imp id .inl)
    · exact h1 d hd
  | @newline c t h _ ih =>
    obtain ⟨bl, x, rfl, h1, h2, h3⟩ := ih hu
    refine ⟨c :: bl, x, rfl, ?_, h2, h3⟩
    intro d hd
    rcases List.mem_cons.mp hd with rfl | hd
    · exact blank_of_starts (.inr (.inr ⟨rfl, h⟩))
    · exact h1 d hd
  | @line x e t hx he _ ih =>
    obtain ⟨bl, y, rfl, h1, h2, h3⟩ := ih hu
    refine ⟨[], x ++ (e ++ bl) ++ y, by simp, nofun, ?_, ?_⟩
    · obtain ⟨c, t, rfl, hc⟩ := lineComment_head hx
      intro d ds hd
      injection hd with hd _
      subst hd
      rcases hc with rfl | rfl <;> rfl
    · refine .cons (Q := fun _ => True) ?_ ?_ fun _ _ => h3.conseq fun _ h => h
      · obtain ⟨c, t, rfl, hc⟩ := lineComment_head hx
        exact List.cons_ne_nil _ _
      · refine Runs.bind (t := x) (u := e ++ bl) (Q := fun _ => True) (comment_run (.inr ⟨rfl, hx, ?_⟩)) fun _ _ => ?_
        · rcases he with rfl | rfl
          · exact .inr (.inl ⟨bl ++ (y ++ u), by simp⟩)
          · exact .inr (.inr ⟨bl ++ (y ++ u), by simp⟩)
        · refine (blanks_run (nl := true) ?_ h2).bind_last fun _ _ => .pure trivial
          intro c hc
          rcases List.mem_append.mp hc with hc | hc
          · rcases he with rfl | rfl
            · rw [List.mem_singleton.mp hc]; rfl
            · rcases List.mem_cons.mp hc with rfl | hc
              · rfl
              · rw [List.mem_singleton.mp hc]; rfl
          · exact h1 c hc
  | @block nl x t hx _ ih =>
    obtain ⟨bl, y, rfl, h1, h2, h3⟩ := ih hu
    refine ⟨[], x ++ bl ++ y, by simp, nofun, ?_, ?_⟩
    · obtain ⟨t, rfl⟩ := blockComment_head hx
      intro d ds hd
      injection hd with hd _
      subst hd
      cases nl <;> rfl
    · refine .cons (Q := fun _ => True) ?_ ?_ fun _ _ => h3.conseq fun _ h => h
      · obtain ⟨t, rfl⟩ := blockComment_head hx
        exact List.cons_ne_nil _ _
      · refine Runs.bind (t := x) (u := bl) (Q := fun _ => True) (comment_run (.inl hx)) fun _ _ => ?_
        exact (blanks_run h1 h2).bind_last fun _ _ => .pure trivial
  | @last x hnil hx =>
    subst hnil
    refine ⟨[], x, rfl, nofun, ?_, ?_⟩
    · obtain ⟨c, t, rfl, hc⟩ := lineComment_head hx
      intro d ds hd
      injection hd with hd _
      subst hd
      rcases hc with rfl | rfl <;> rfl
    · rw [← List.append_nil x]
      refine .cons (Q := fun _ => True) ?_ ?_ fun _ _ => .nil (backs_step nil_starts) trivial
      · obtain ⟨c, t, rfl, hc⟩ := lineComment_head hx
        exact List.cons_ne_nil _ _
      · refine Runs.bind_last (Q := fun _ => True) (comment_run (.inr ⟨rfl, hx, .inl rfl⟩)) fun _ _ => ?_
        exact (blanks_run (nl := true) (t := []) (r := []) (fun _ h => (List.not_mem_nil h).elim) nofun).bind_last fun _ _ => .pure trivial

theorem runs_over {b : Bool} {g u : Str} (h : Over u b g) (hu : ¬ StartsTrivia b u) :
    Runs (wsOrSp b) g u fun _ => True := by
  obtain ⟨bl, x, rfl, h1, h2, h3⟩ := over_steps h hu
  show Runs (triviaP b) _ _ _
  rw [triviaP_eq]
  exact Runs.bind (blanks_run h1 h2) fun _ _ => h3.runs.bind_last fun _ _ => .pure trivial

theorem runs_gap {b : Bool} {g u : Str} (h : Gap b g) (hu : ¬ StartsTrivia b u) :
    Runs (wsOrSp b) g u fun _ => True := runs_over (h.over u) hu

/-- There is one way to split off the whitespace. -/
theorem gap_unique {b : Bool} {g u g' u' : Str} (h : Gap b g) (hu : ¬ StartsTrivia b u) (h' : Gap b g')
    (hu' : ¬ StartsTrivia b u') (e : g ++ u = g' ++ u') : g = g' ∧ u = u' := by
  obtain ⟨v, h1, -⟩ := runs_gap h hu 0
  obtain ⟨v', h2, -⟩ := runs_gap h' hu' 0
  rw [e, h2] at h1
  injection h1 with _ h1
  injection h1 with h1 _
  exact List.append_inj e (by omega)

theorem runs_ws {g u : Str} (h : Gap true g) (hu : ¬ StartsTrivia true u) : Runs ws g u fun _ => True :=
  runs_gap h hu

theorem runs_sp {g u : Str} (h : Gap false g) (hu : ¬ StartsTrivia false u) : Runs sp g u fun _ => True :=
  runs_gap h hu

/-- Characters that start no trivia. -/
def solid (c : Char) : Bool := !(c == ' ' || c == '\t' || c == '\n' || c == '\r' || c == '#' || c == '/')

theorem solid_starts {b : Bool} {c : Char} {r : Str} (h : solid c = true) : ¬ StartsTrivia b (c :: r) := by
  rintro (⟨d, k, hk, hd⟩ | ⟨x, k, hk, hx⟩)
  · injection hk with hk _
    subst hk
    rcases hd with rfl | rfl | ⟨_, rfl | rfl⟩ <;> cases h
  · rcases hx with hx | ⟨_, hx, _⟩
    · obtain ⟨t, rfl⟩ := blockComment_head hx
      injection hk with hk _; subst hk; cases h
    · obtain ⟨d, t, rfl, hd⟩ := lineComment_head hx
      injection hk with hk _; subst hk
      rcases hd with rfl | rfl <;> cases h

/-- `/` that starts no comment. -/
theorem slash_starts {b : Bool} {r : Str} (h1 : ∀ x, r ≠ '/' :: x) (h2 : ∀ x, r ≠ '*' :: x) :
    ¬ StartsTrivia b ('/' :: r) := by
  rintro (⟨d, k, hk, hd⟩ | ⟨x, k, hk, hx⟩)
  · injection hk with hk _
    subst hk
    rcases hd with h | h | ⟨_, h | h⟩ <;> cases h
  · rcases hx with ⟨t, rfl, _⟩ | ⟨_, ⟨t, rfl | rfl, _⟩, _⟩
    · injection hk with _ hk; exact h2 _ hk
    · injection hk with hk _; cases hk
    · injection hk with _ hk; exact h1 _ hk

/-- Line breaks start no trivia when they are not whitespace. -/
theorem newline_starts {c : Char} {r : Str} (h : c = '\n' ∨ c = '\r') : ¬ StartsTrivia false (c :: r) := by
  rintro (⟨d, k, hk, hd⟩ | ⟨x, k, hk, hx⟩)
  · injection hk with hk _
    subst hk
    rcases h with rfl | rfl <;> rcases hd with h | h | ⟨h, _⟩ <;> cases h
  · rcases hx with ⟨t, rfl, _⟩ | ⟨h, _⟩
    · injection hk with hk _; subst hk; rcases h with h | h <;> cases h
    · cases h

theorem lineComment_starts {x r : Str} (h : LineComment x) : ¬ StartsTrivia false (x ++ r) := by
  rintro (⟨d, k, hk, hd⟩ | ⟨y, k, hk, hx⟩)
  · obtain ⟨c, t, rfl, hc⟩ := lineComment_head h
    injection hk with hk _
    subst hk
    rcases hc with rfl | rfl <;> rcases hd with h | h | ⟨h, _⟩ <;> cases h
  · rcases hx with ⟨t, rfl, _⟩ | ⟨h, _⟩
    · obtain ⟨t, rfl | rfl, -⟩ := h
      · injection hk with hk _; cases hk
      · injection hk with _ hk; injection hk with hk _; cases hk
    · cases h

theorem starts_mono {b : Bool} {u : Str} (h : ¬ StartsTrivia true u) : ¬ StartsTrivia b u := by
  rintro (⟨d, k, hk, hd⟩ | ⟨x, k, hk, hx⟩)
  · exact h (.inl ⟨d, k, hk, hd.imp id (Or.imp id fun h => ⟨rfl, h.2⟩)⟩)
  · exact h (.inr ⟨x, k, hk, hx.imp id fun h => ⟨rfl, h.2⟩⟩)

theorem over_head {u : Str} {b : Bool} {g : Str} (h : Over u b g) (c : Char) (r : Str) (hg : g = c :: r) :
    c = ' ' ∨ c = '\t' ∨ c = '\n' ∨ c = '\r' ∨ c = '#' ∨ c = '/' := by
  cases h with
  | nil => cases hg
  | blank h _ => injection hg with hg _; subst hg; exact h.imp id .inl
  | newline h _ => injection hg with hg _; subst hg; exact .inr (.inr (h.imp id .inl))
  | line h _ _ =>
    obtain ⟨d, t, rfl, hd⟩ := lineComment_head h
    injection hg with hg _; subst hg; exact .inr (.inr (.inr (.inr hd)))
  | block h _ =>
    obtain ⟨t, rfl⟩ := blockComment_head h
    injection hg with hg _; subst hg; simp
  | last _ h =>
    obtain ⟨d, t, rfl, hd⟩ := lineComment_head h
    injection hg with hg _; subst hg; exact .inr (.inr (.inr (.inr hd)))

theorem gap_head {b : Bool} {g : Str} (h : Gap b g) (c : Char) (r : Str) (hg : g = c :: r) :
    c = ' ' ∨ c = '\t' ∨ c = '\n' ∨ c = '\r' ∨ c = '#' ∨ c = '/' := over_head (h.over []) c r hg

/-! ### Identifiers -/

/-- No character that continues an identifier. -/
def IdEnd (U : Uni) (r : Str) : Prop := ∀ c cs, r = c :: cs → isIdContinue U c = false

theorem idFirst_iff {U : Uni} {c : Char} : isIdStart U c = true ↔ IdFirst U c := by
  simp [isIdStart, IdFirst]

theorem idRest_iff {U : Uni} {c : Char} : isIdContinue U c = true ↔ IdRest U c := by
  simp [isIdContinue, IdRest]

theorem runs_strIdent {U : Uni} {x r : Str} (h : IsIdentifier U x) (hr : IdEnd U r) :
    Runs (strIdent U) x r fun v => v = x := by
  obtain ⟨c, cs, rfl, h1, h2⟩ := h
  unfold strIdent
  refine Runs.bind (t := [c]) (runs_oneOf (idFirst_iff.mpr h1)) ?_
  rintro _ rfl
  refine (runs_takeWhile (fun d hd => idRest_iff.mpr (h2 d hd)) hr).bind_last ?_
  rintro _ rfl
  exact .pure rfl

theorem runs_ident {U : Uni} {x r : Str} (h : IsIdentifier U x) (hr : IdEnd U r) :
    Runs (ident U) x r fun v => v.name = x := (runs_strIdent h hr).map

theorem runs_cutIdent {U : Uni} {x r : Str} (h : IsIdentifier U x) (hr : IdEnd U r) :
    Runs (cutIdent U) x r fun v => v.name = x := (runs_ident h hr).cutErr

/-- The ASCII characters that do not continue an identifier. -/
def nonId (c : Char) : Bool := decide (c.toNat < 128) && !(c.isAlphanum || c == '_' || c == '-')

theorem nonId_continue {U : Uni} {c : Char} (h : nonId c = true) : isIdContinue U c = false := by
  unfold nonId at h
  unfold isIdContinue
  simp only [Bool.and_eq_true, decide_eq_true_eq, Bool.not_eq_true', Bool.or_eq_false_iff] at h
  rw [U.ascii_continue c h.1, h.2.1.1, h.2.1.2, h.2.2]
  rfl

theorem nonId_start {U : Uni} {c : Char} (h : nonId c = true) : isIdStart U c = false := by
  have h' := h
  unfold nonId at h
  unfold isIdStart
  simp only [Bool.and_eq_true, decide_eq_true_eq, Bool.not_eq_true', Bool.or_eq_false_iff] at h
  rw [U.ascii_start c h.1, h.2.1.2]
  have := h.2.1.1
  unfold Char.isAlphanum at this
  rw [Bool.or_eq_false_iff] at this
  rw [this.1]
  rfl

theorem idEnd_cons {U : Uni} {c : Char} {r : Str} (h : nonId c = true) : IdEnd U (c :: r) := by
  intro d ds hd
  injection hd with hd _
  subst hd
  exact nonId_continue h

theorem idEnd_nil {U : Uni} : IdEnd U [] := nofun

theorem over_idEnd {U : Uni} {b : Bool} {g u : Str} (h : Over u b g) (hu : IdEnd U u ∨ g ≠ []) : IdEnd U (g ++ u) := by
  cases g with
  | nil => exact hu.resolve_right (fun h => h rfl)
  | cons c r =>
    refine idEnd_cons ?_
    rcases over_head h c r rfl with rfl | rfl | rfl | rfl | rfl | rfl <;> rfl

theorem gap_idEnd {U : Uni} {b : Bool} {g u : Str} (h : Gap b g) (hu : IdEnd U u ∨ g ≠ []) : IdEnd U (g ++ u) :=
  over_idEnd (h.over u) hu

theorem isDigit_continue {U : Uni} {c : Char} (h : isDigit c = true) : isIdContinue U c = true := by
  have h1 : c.toNat < 128 := by
    unfold isDigit at h
    have := of_decide_eq_true h
    have : c.toNat ≤ 57 := this.2
    omega
  unfold isIdContinue
  rw [U.ascii_continue c h1]
  have : c.isAlphanum = true := by
    unfold isDigit at h
    have := of_decide_eq_true h
    unfold Char.isAlphanum Char.isDigit
    have h3 : 48 ≤ c.toNat := this.1
    have h4 : c.toNat ≤ 57 := this.2
    rw [Bool.or_eq_true]
    right
    rw [Bool.and_eq_true, decide_eq_true_eq, decide_eq_true_eq]
    exact ⟨h3, h4⟩
  rw [this]; rfl

theorem e_continue {U : Uni} {c : Char} (h : c = 'e' ∨ c = 'E') : isIdContinue U c = true := by
  unfold isIdContinue
  rcases h with rfl | rfl <;> rw [U.ascii_continue _ (by decide)] <;> rfl

/-- What may follow an operand directly, also if it is a number. -/
theorem numEnd_of {U : Uni} {r : Str} (h : IdEnd U r)
    (h' : ∀ d ds, r = '.' :: d :: ds → isDigit d = false) : NumEnd r := by
  rintro c cs rfl
  refine ⟨?_, ?_, ?_, ?_⟩
  · cases hd : isDigit c with
    | false => rfl
    | true => have := h c cs rfl; rw [isDigit_continue hd] at this; cases this
  · rintro rfl; have := h _ _ rfl; rw [e_continue (.inl rfl)] at this; cases this
  · rintro rfl; have := h _ _ rfl; rw [e_continue (.inr rfl)] at this; cases this
  · rintro rfl d ds rfl; exact h' d ds rfl

/-! ### Numbers -/

theorem decDigits_iff {t : Str} (h : DecDigits t) : t ≠ [] ∧ ∀ c ∈ t, isDigit c = true :=
  ⟨h.1, fun c hc => by unfold isDigit; exact decide_eq_true (h.2 c hc)⟩

theorem runs_exponent {x r : Str} {e : Int} (h : ExpText x e)
    (hr : ∀ c cs, r = c :: cs → isDigit c = false) : Runs exponent x r fun v => expVal v = e := by
  obtain ⟨c, ds, hc, hds, h⟩ := h
  obtain ⟨d1, d2⟩ := decDigits_iff hds
  unfold exponent
  have key : ∀ s : Option Char, Runs (P.bind (cutErr digit1) fun ds => P.pure (s == some '-', ds)) ds r
      fun v => v = (s == some '-', ds) := fun s => by
    refine (runs_takeWhile1 d1 d2 hr).cutErr.bind_last ?_
    rintro _ rfl
    exact .pure rfl
  have hcc : (c == 'e' || c == 'E') = true := by rcases hc with rfl | rfl <;> rfl
  rcases h with ⟨rfl, rfl⟩ | ⟨rfl, rfl⟩ | ⟨rfl, rfl⟩
  · refine Runs.bind (t := [c]) (runs_oneOf hcc) fun _ _ => ?_
    refine Runs.bind_nil (Backs.opt (R := fun o => o = none) (backs_oneOf ?_) rfl) ?_
    · intro d k hk
      cases ds with
      | nil => exact absurd rfl d1
      | cons d' ds' =>
        injection hk with hk _
        subst hk
        have := d2 _ (List.mem_cons_self ..)
        cases hp : (d' == '+' || d' == '-') with
        | false => rfl
        | true =>
          rw [Bool.or_eq_true, beq_iff_eq, beq_iff_eq] at hp
          rcases hp with rfl | rfl <;> cases this
    · rintro _ rfl
      exact (key none).conseq fun v hv => by rw [hv]; rfl
  · refine Runs.bind (t := [c]) (u := '+' :: ds) (runs_oneOf hcc) fun _ _ => ?_
    refine Runs.bind (t := ['+']) (u := ds) (Runs.opt (R := fun o => o = some '+') (runs_oneOf rfl) fun _ h => by rw [h]) ?_
    rintro _ rfl
    exact (key (some '+')).conseq fun v hv => by rw [hv]; rfl
  · refine Runs.bind (t := [c]) (u := '-' :: ds) (runs_oneOf hcc) fun _ _ => ?_
    refine Runs.bind (t := ['-']) (u := ds) (Runs.opt (R := fun o => o = some '-') (runs_oneOf rfl) fun _ h => by rw [h]) ?_
    rintro _ rfl
    exact (key (some '-')).conseq fun v hv => by rw [hv]; rfl

theorem expText_head {x : Str} {e : Int} (h : ExpText x e) : ∃ c t, x = c :: t ∧ (c = 'e' ∨ c = 'E') := by
  obtain ⟨c, ds, hc, _, h⟩ := h
  rcases h with ⟨rfl, _⟩ | ⟨rfl, _⟩ | ⟨rfl, _⟩ <;> exact ⟨c, _, rfl, hc⟩

theorem runs_uNum {t r : Str} {n : N} (h : UNumText t n) (hr : NumEnd r) : Runs num t r fun v => v = n := by
  have hdig : ∀ c cs, r = c :: cs → isDigit c = false := fun c cs h => (hr c cs h).1
  cases h with
  | int hd hlt =>
    obtain ⟨d1, d2⟩ := decDigits_iff hd
    exact runs_digits d2 d1 rfl hlt hr
  | @frac i f x e n hi hf hx hn =>
    obtain ⟨i1, i2⟩ := decDigits_iff hi
    obtain ⟨f1, f2⟩ := decDigits_iff hf
    refine Runs.alt_left (Runs.verifyMap (Q := fun v => v = F64.ofDecimal (decVal (i ++ f)) (e - f.length)) ?_
      fun v hv => ⟨n, by rw [hv]; exact hn, rfl⟩)
    unfold float
    rw [List.append_assoc]
    refine Runs.bind (t := i) (u := '.' :: f ++ x) (runs_takeWhile1 i1 i2 ?_) ?_
    · intro c cs h; injection h with h _; subst h; rfl
    rintro _ rfl
    refine Runs.bind_last (Q := fun p => p.1 = f ∧ (match p.2 with | some e => expVal e | none => 0) = e)
      (Runs.alt_left ?_) ?_
    · refine Runs.bind (t := ['.']) (u := f ++ x) runs_chr fun _ _ => ?_
      refine Runs.bind (t := f) (u := x) (Q := fun v => v = f) (runs_takeWhile1 f1 f2 ?_) ?_
      · rintro c cs h
        rcases hx with ⟨rfl, _⟩ | hx
        · exact hdig c cs h
        · obtain ⟨d, k, rfl, hd⟩ := expText_head hx
          injection h with h _; subst h
          rcases hd with rfl | rfl <;> rfl
      rintro _ rfl
      rcases hx with ⟨rfl, rfl⟩ | hx
      · refine Runs.bind_nil (Backs.opt (R := fun o => o = none) (Backs.bind (backs_oneOf ?_)) rfl) ?_
        · intro c cs h
          obtain ⟨_, h1, h2, _⟩ := hr c cs h
          simp [h1, h2]
        · rintro _ rfl; exact .pure ⟨rfl, rfl⟩
      · refine Runs.bind_last (Runs.opt (R := fun o => ∃ v, o = some v ∧ expVal v = e) (runs_exponent hx hdig)
          fun v hv => ⟨v, rfl, hv⟩) ?_
        rintro _ ⟨v, rfl, hv⟩
        exact .pure ⟨rfl, hv⟩
    · rintro ⟨f', e'⟩ ⟨h1, h2⟩
      dsimp only at h1 h2
      subst h1
      refine .pure ?_
      cases e' <;> (dsimp only at h2; subst h2; rfl)
  | @exp i x e n hi hx hn =>
    obtain ⟨i1, i2⟩ := decDigits_iff hi
    refine Runs.alt_left (Runs.verifyMap (Q := fun v => v = F64.ofDecimal (decVal i) e) ?_
      fun v hv => ⟨n, by rw [hv]; exact hn, rfl⟩)
    unfold float
    obtain ⟨c, k, rfl, hc⟩ := expText_head hx
    refine Runs.bind (t := i) (u := c :: k) (runs_takeWhile1 i1 i2 ?_) ?_
    · intro d cs h; injection h with h _; subst h; rcases hc with rfl | rfl <;> rfl
    rintro _ rfl
    refine Runs.bind_last (Q := fun p => p.1 = [] ∧ (match p.2 with | some e => expVal e | none => 0) = e)
      (Runs.alt_right (Backs.bind (backs_chr ?_)) ?_) ?_
    · rintro cs h; injection h with h _; subst h; rcases hc with h | h <;> cases h
    · refine (runs_exponent hx hdig).bind_last fun v hv => .pure ⟨rfl, hv⟩
    · rintro ⟨f', e'⟩ ⟨h1, h2⟩
      dsimp only at h1 h2
      subst h1
      refine .pure ?_
      rw [List.append_nil]
      cases e' <;> (dsimp only at h2; subst h2; exact congrArg _ (Int.sub_zero _))

theorem uNum_head {t : Str} {n : N} (h : UNumText t n) : ∃ c cs, t = c :: cs ∧ isDigit c = true := by
  have key : ∀ i : Str, DecDigits i → ∀ x, ∃ c cs, i ++ x = c :: cs ∧ isDigit c = true := fun i hi x => by
    obtain ⟨i1, i2⟩ := decDigits_iff hi
    cases i with
    | nil => exact absurd rfl i1
    | cons c cs => exact ⟨c, cs ++ x, rfl, i2 c (List.mem_cons_self ..)⟩
  cases h with
  | int hd _ => have := key _ hd []; rwa [List.append_nil] at this
  | frac hi _ _ _ => rw [List.append_assoc]; exact key _ hi _
  | exp hi _ _ => exact key _ hi _

theorem digit_solid {c : Char} (h : isDigit c = true) : solid c = true := by
  unfold solid
  rw [Bool.not_eq_true']
  cases hs : (c == ' ' || c == '\t' || c == '\n' || c == '\r' || c == '#' || c == '/') with
  | false => rfl
  | true =>
    simp only [Bool.or_eq_true, beq_iff_eq] at hs
    rcases hs with ((((rfl | rfl) | rfl) | rfl) | rfl) | rfl <;> cases h

theorem runs_neg {E : PEnv} {g t r : Str} {n m : N} (hg : Gap false g) (h : UNumText t n) (hr : NumEnd r)
    (hm : n.neg E.bd = some m) :
    Runs (negNumber E) ('-' :: (g ++ t)) r fun v => ∃ s, v = .number {} m s := by
  unfold negNumber
  have h1 : Runs (P.bind (chr '-') fun _ => P.bind sp fun _ => num) ('-' :: (g ++ t)) r fun v => v = n := by
    refine Runs.bind (t := ['-']) (u := g ++ t) runs_chr fun _ _ => ?_
    refine Runs.bind (t := g) (u := t) (runs_sp hg ?_) fun _ _ => runs_uNum h hr
    obtain ⟨c, cs, rfl, hc⟩ := uNum_head h
    exact solid_starts (digit_solid hc)
  refine h1.withTaken.bind_last ?_
  rintro ⟨v, s⟩ ⟨hv, _⟩
  dsimp only at hv ⊢
  rw [hv, hm]
  exact .pure ⟨_, rfl⟩

theorem runs_pos {t r : Str} {n : N} (h : UNumText t n) (hr : NumEnd r) :
    Runs numberTerm t r fun v => ∃ s, v = .number {} n s := by
  unfold numberTerm
  refine (runs_uNum h hr).withTaken.bind_last ?_
  rintro ⟨v, s⟩ ⟨hv, _⟩
  dsimp only at hv ⊢
  subst hv
  exact .pure ⟨_, rfl⟩

end Verif.Gram
