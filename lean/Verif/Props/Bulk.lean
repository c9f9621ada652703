import Verif.Model.Bulk
/-! C50: bulk conversion keeps the input order under every schedule. -/

namespace Verif.Props
open Verif Bulk
variable {P E β : Type}

/-- The results of the files that can be processed, in order. -/
def okResults (f : P → Except E β) : List P → List β
  | [] => []
  | p :: ps => match f p with
    | .ok b => b :: okResults f ps
    | .error _ => okResults f ps

/-- The slot of an item that was processed with success. -/
def slotOf (f : P → Except E β) (paths : List P) (i : Nat) : Option β :=
  match paths[i]? with
  | none => none
  | some p => match f p with
    | .ok b => some b
    | .error _ => none

theorem collect_slots (f : P → Except E β) (paths : List P) (s : Nat → Option β)
    (h : ∀ i, i < paths.length → s i = slotOf f paths i) :
    (List.range paths.length).filterMap s = okResults f paths := by
  induction paths generalizing s with
  | nil => rfl
  | cons p ps ih =>
    rw [List.length_cons, List.range_succ_eq_map, List.filterMap_cons, List.filterMap_map]
    have h0 := h 0 (by simp)
    have hs := ih (s ∘ Nat.succ) (fun i hi => by
      have := h (i + 1) (by simpa using hi)
      simpa [slotOf] using this)
    rw [hs]
    simp only [slotOf, List.getElem?_cons_zero] at h0
    rw [h0]
    simp only [okResults]
    cases f p <;> rfl

/-- What is known about a state reached by a run under `collect::<Result<_>>()`. -/
structure Reached (f : P → Except E β) (paths : List P) (es : List Event) (s : State E β) : Prop where
  slot : ∀ i, s.slot i = none ∨ s.slot i = slotOf f paths i
  done : ∀ i, Event.process i ∈ es → s.slot i = slotOf f paths i
  saved : ∀ e, s.saved = some e → ∃ p ∈ paths, f p = .error e
  clean : s.saved = none → (∀ i, Event.process i ∈ es → ∃ b, slotOf f paths i = some b) ∧
    ∀ i, Event.skip i ∉ es

theorem reached_step (f : P → Except E β) (paths : List P) {es : List Event} {s s' : State E β} {ev : Event}
    (h : Reached f paths es s) (hs : stepResult f paths s ev = some s') :
    Reached f paths (es ++ [ev]) s' := by
  cases ev with
  | skip i =>
    simp only [stepResult] at hs
    split at hs
    · rename_i hsv
      injection hs with hs; subst hs
      refine ⟨h.slot, ?_, h.saved, ?_⟩
      · intro j hj; simp at hj; exact h.done j hj
      · intro hn; rw [hn] at hsv; cases hsv
    · cases hs
  | process i =>
    simp only [stepResult] at hs
    cases hp : paths[i]? with
    | none => simp [hp] at hs
    | some p =>
      simp only [hp] at hs
      have hsl : slotOf f paths i = match f p with | .ok b => some b | .error _ => none := by
        simp only [slotOf, hp]
      cases hf : f p with
      | ok b =>
        simp only [hf, Option.some.injEq] at hs
        subst hs
        rw [hf] at hsl
        refine ⟨?_, ?_, h.saved, ?_⟩
        · intro j
          simp only
          split
          · rename_i e; subst e; right; rw [hsl]
          · exact h.slot j
        · intro j hj
          simp only
          split
          · rename_i e; subst e; rw [hsl]
          · rename_i e
            simp only [List.mem_append, List.mem_singleton, Event.process.injEq] at hj
            rcases hj with hj | hj
            · exact h.done j hj
            · exact absurd hj e
        · intro hn
          obtain ⟨h1, h2⟩ := h.clean hn
          refine ⟨?_, ?_⟩
          · intro j hj
            simp only [List.mem_append, List.mem_singleton, Event.process.injEq] at hj
            rcases hj with hj | rfl
            · exact h1 j hj
            · exact ⟨b, hsl⟩
          · intro j hj; simp at hj; exact h2 j hj
      | error e =>
        simp only [hf, Option.some.injEq] at hs
        subst hs
        rw [hf] at hsl
        refine ⟨h.slot, ?_, ?_, ?_⟩
        · intro j hj
          simp only [List.mem_append, List.mem_singleton, Event.process.injEq] at hj
          rcases hj with hj | rfl
          · exact h.done j hj
          · rcases h.slot j with hh | hh
            · simp only; rw [hh, hsl]
            · exact hh
        · intro e' he'
          cases hsv : s.saved with
          | some e2 => simp only [hsv] at he'; exact h.saved e' (by rw [hsv, he'])
          | none =>
            simp only [hsv, Option.some.injEq] at he'
            subst he'
            exact ⟨p, List.mem_of_getElem? hp, hf⟩
        · intro hn
          cases hsv : s.saved with
          | some e2 => simp [hsv] at hn
          | none => simp [hsv] at hn

theorem reached_run (f : P → Except E β) (paths : List P) : ∀ (es₂ es₁ : List Event) (s s' : State E β),
    Reached f paths es₁ s → runEvents (stepResult f paths) s es₂ = some s' →
    Reached f paths (es₁ ++ es₂) s' := by
  intro es₂
  induction es₂ with
  | nil =>
    intro es₁ s s' h hr
    injection hr with hr; subst hr; simpa using h
  | cons ev es₂ ih =>
    intro es₁ s s' h hr
    simp only [runEvents] at hr
    cases hs : stepResult f paths s ev with
    | none => simp [hs] at hr
    | some t =>
      simp only [hs] at hr
      have := ih (es₁ ++ [ev]) t s' (reached_step f paths h hs) hr
      simpa using this

theorem reached_init (f : P → Except E β) (paths : List P) : Reached f paths [] State.init :=
  ⟨fun _ => .inl rfl, fun _ h => (by cases h), fun _ h => (by cases h),
    fun _ => ⟨fun _ h => (by cases h), fun _ h => (by cases h)⟩⟩

/-- C50: without `--continue-on-error`, whatever the schedule, the conversion succeeds exactly if all
files can be processed, and then the results are those of the files in the order of the paths; if it
fails, the error is that of one of the files. -/
theorem C50_all_or_error (f : P → Except E β) (paths : List P) (es : List Event)
    (hc : Complete paths.length es) (r : Except E (List β)) (h : bulk false f paths es = some r) :
    (∀ rs, r = .ok rs ↔ paths.map f = rs.map .ok) ∧
    (∀ e, r = .error e → ∃ p ∈ paths, f p = .error e) := by
  simp only [bulk, Bool.false_eq_true, if_false, Option.map_eq_some_iff] at h
  obtain ⟨s, hr, hs⟩ := h
  have hi := reached_run f paths es [] _ s (reached_init f paths) hr
  rw [List.nil_append] at hi
  have allok : ∀ ps : List P, (∀ p ∈ ps, ∃ b, f p = .ok b) → ps.map f = (okResults f ps).map .ok := by
    intro ps
    induction ps with
    | nil => intro _; rfl
    | cons p ps ih =>
      intro h
      obtain ⟨b, hb⟩ := h p (by simp)
      simp only [List.map_cons, okResults, hb]
      rw [ih (fun q hq => h q (by simp [hq]))]
  have inj : ∀ a b : List β, a.map (Except.ok (ε := E)) = b.map .ok → a = b := by
    intro a
    induction a with
    | nil => intro b hb; cases b with | nil => rfl | cons => cases hb
    | cons x a ih =>
      intro b hb
      cases b with
      | nil => cases hb
      | cons y b =>
        simp only [List.map_cons, List.cons.injEq, Except.ok.injEq] at hb
        rw [hb.1, ih b hb.2]
  cases hsv : s.saved with
  | some e =>
    simp only [hsv] at hs
    subst hs
    obtain ⟨p, hp, hf⟩ := hi.saved e hsv
    refine ⟨fun rs => ⟨fun h => (by cases h), fun h => ?_⟩, fun e' he' => ?_⟩
    · have : (Except.error e : Except E β) ∈ rs.map .ok := by
        rw [← h, ← hf]; exact List.mem_map_of_mem hp
      simp at this
    · injection he' with he'; subst he'; exact ⟨p, hp, hf⟩
  | none =>
    simp only [hsv] at hs
    subst hs
    obtain ⟨h1, h2⟩ := hi.clean hsv
    have hp : ∀ i, i < paths.length → Event.process i ∈ es := fun i hlt =>
      (hc i hlt).resolve_right (h2 i)
    have hcol : s.collect paths.length = okResults f paths :=
      collect_slots f paths s.slot (fun i hlt => hi.done i (hp i hlt))
    rw [hcol]
    have hall : ∀ p ∈ paths, ∃ b, f p = .ok b := by
      intro p hpm
      obtain ⟨i, hlt, hg⟩ := List.getElem_of_mem hpm
      obtain ⟨b, hb⟩ := h1 i (hp i hlt)
      simp only [slotOf, List.getElem?_eq_getElem hlt, hg] at hb
      cases hfp : f p with
      | ok c => exact ⟨c, rfl⟩
      | error e => simp [hfp] at hb
    refine ⟨fun rs => ?_, fun e he => (by cases he)⟩
    rw [allok paths hall]
    constructor
    · intro h; injection h with h; rw [h]
    · intro h; rw [inj _ _ h]

/-- C50: with `--continue-on-error`, whatever the schedule, the results are those of exactly the files
that can be processed, in the order of the paths. -/
theorem C50_continue_on_error (f : P → Except E β) (paths : List P) (es : List Event)
    (hc : Complete paths.length es) (r : Except E (List β)) (h : bulk true f paths es = some r) :
    r = .ok (okResults f paths) := by
  simp only [bulk, if_true, Option.map_eq_some_iff] at h
  obtain ⟨s, hr, hs⟩ := h
  subst hs
  have key : ∀ (es₂ es₁ : List Event) (s s' : State E β),
      ((∀ i, s.slot i = none ∨ s.slot i = slotOf f paths i) ∧
        (∀ i, Event.process i ∈ es₁ → s.slot i = slotOf f paths i) ∧ ∀ i, Event.skip i ∉ es₁) →
      runEvents (stepFilter f paths) s es₂ = some s' →
      (∀ i, Event.process i ∈ es₁ ++ es₂ → s'.slot i = slotOf f paths i) ∧
        ∀ i, Event.skip i ∉ es₁ ++ es₂ := by
    intro es₂
    induction es₂ with
    | nil =>
      intro es₁ s s' h hr
      injection hr with hr; subst hr; simpa using h.2
    | cons ev es₂ ih =>
      intro es₁ s s' h hr
      simp only [runEvents] at hr
      cases hs : stepFilter f paths s ev with
      | none => simp [hs] at hr
      | some t =>
        simp only [hs] at hr
        have ht : ((∀ i, t.slot i = none ∨ t.slot i = slotOf f paths i) ∧
            (∀ i, Event.process i ∈ es₁ ++ [ev] → t.slot i = slotOf f paths i) ∧
            ∀ i, Event.skip i ∉ es₁ ++ [ev]) := by
          obtain ⟨g1, g2, g3⟩ := h
          cases ev with
          | skip i => simp [stepFilter] at hs
          | process i =>
            simp only [stepFilter] at hs
            cases hp : paths[i]? with
            | none => simp [hp] at hs
            | some p =>
              simp only [hp] at hs
              have hsl : slotOf f paths i = match f p with | .ok b => some b | .error _ => none := by
                simp only [slotOf, hp]
              cases hf : f p with
              | ok b =>
                simp only [hf, Option.some.injEq] at hs
                subst hs
                rw [hf] at hsl
                refine ⟨?_, ?_, ?_⟩
                · intro j
                  simp only
                  split
                  · rename_i e; subst e; right; rw [hsl]
                  · exact g1 j
                · intro j hj
                  simp only
                  split
                  · rename_i e; subst e; rw [hsl]
                  · rename_i e
                    simp only [List.mem_append, List.mem_singleton, Event.process.injEq] at hj
                    rcases hj with hj | hj
                    · exact g2 j hj
                    · exact absurd hj e
                · intro j hj; simp at hj; exact g3 j hj
              | error e =>
                simp only [hf, Option.some.injEq] at hs
                subst hs
                rw [hf] at hsl
                refine ⟨g1, ?_, ?_⟩
                · intro j hj
                  simp only [List.mem_append, List.mem_singleton, Event.process.injEq] at hj
                  rcases hj with hj | rfl
                  · exact g2 j hj
                  · rcases g1 j with hh | hh
                    · rw [hh, hsl]
                    · exact hh
                · intro j hj; simp at hj; exact g3 j hj
        have := ih (es₁ ++ [ev]) t s' ht hr
        simpa using this
  obtain ⟨h1, h2⟩ := key es [] _ s ⟨fun _ => .inl rfl, fun _ h => (by cases h), fun _ h => (by cases h)⟩ hr
  rw [List.nil_append] at h1 h2
  have hcol : s.collect paths.length = okResults f paths :=
    collect_slots f paths s.slot (fun i hlt => h1 i ((hc i hlt).resolve_right (h2 i)))
  rw [hcol]

/-- C50: two schedules never disagree on the results. -/
theorem C50_schedule_independent (c : Bool) (f : P → Except E β) (paths : List P) (es es' : List Event)
    (hc : Complete paths.length es) (hc' : Complete paths.length es') (rs : List β)
    (r' : Except E (List β)) (h : bulk c f paths es = some (.ok rs)) (h' : bulk c f paths es' = some r') :
    r' = .ok rs := by
  cases c with
  | true =>
    rw [C50_continue_on_error f paths es' hc' r' h', ← C50_continue_on_error f paths es hc _ h]
  | false =>
    have h1 := (C50_all_or_error f paths es hc _ h).1 rs
    exact ((C50_all_or_error f paths es' hc' r' h').1 rs).2 (h1.1 rfl)

/-- Files 0 and 2 are fine, file 1 is broken; the pool processes them in the order 2, 1, 0. -/
example :
    let f : Nat → Except String Nat := fun p => if p = 1 then .error "bad" else .ok (p * 10)
    Complete 3 [.process 2, .process 1, .process 0] ∧
    bulk true f [0, 1, 2] [.process 2, .process 1, .process 0] = some (.ok [0, 20]) ∧
    bulk false f [0, 1, 2] [.process 2, .process 1, .skip 0] = some (.error "bad") ∧
    bulk false f [0, 2] [.process 1, .process 0] = some (.ok [0, 20]) := by
  refine ⟨?_, rfl, rfl, rfl⟩
  intro i hi
  have : i = 0 ∨ i = 1 ∨ i = 2 := by omega
  rcases this with rfl | rfl | rfl <;> simp

end Verif.Props
