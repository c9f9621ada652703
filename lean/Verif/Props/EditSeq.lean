import Verif.Model.EditSeq
/-!
C95: histories of changes to an array or to the arguments of a function call.
-/

namespace Verif.Spec

/-- Calls that change how the sequence is written only. -/
def SeqOp.isLayout : SeqOp → Bool
  | .setTrailing _ | .setComma _ | .setExpand _ => true
  | _ => false

/-- What a call sets the trailing comma to. -/
def SeqOp.comma? : SeqOp → Option Bool
  | .setComma b => some b
  | _ => none

/-- What a call sets the expansion of the final argument to. -/
def SeqOp.expand? : SeqOp → Option Bool
  | .setExpand b => some b
  | _ => none

/-- What a call sets the trailing text to. -/
def SeqOp.trailing? : SeqOp → Option Raw
  | .setTrailing t => some t
  | _ => none

/-- How many elements there are if the call succeeds, given how many there were. -/
def SeqOp.lengthAfter (n : Nat) : SeqOp → Nat
  | .clear => 0
  | .insert _ _ | .push _ => n + 1
  | .pop | .remove _ => n - 1
  | .extend es => n + es.length
  | _ => n

/-- Whether the call panics, given how many elements there are. -/
def SeqOp.panics (n : Nat) : SeqOp → Bool
  | .insert i _ => n < i
  | .remove i => n ≤ i
  | _ => false

/-- Whether some call of a history panics. -/
def historyPanics (n : Nat) : List SeqOp → Bool
  | [] => false
  | o :: os => SeqOp.panics n o || historyPanics (SeqOp.lengthAfter n o) os

end Verif.Spec

namespace Verif.Props
open Spec

theorem EditSeq.pushAll_eq (s : ESeq) (es : List EExpr) : s.pushAll es = { s with values := s.values ++ es } := by
  induction es generalizing s with
  | nil => simp [ESeq.pushAll]
  | cons e es ih => simp [ESeq.pushAll, ih]

theorem EditSeq.step_spec (s : ESeq) (o : SeqOp) :
    (SeqOp.panics s.values.length o = true → s.step o = none) ∧
    (SeqOp.panics s.values.length o = false →
      ∃ t r, s.step o = some (t, r) ∧ t.values.length = SeqOp.lengthAfter s.values.length o) := by
  cases o with
  | set i e =>
    refine ⟨by simp [SeqOp.panics], fun _ => ?_⟩
    simp only [ESeq.step]
    cases h : s.values[i]? <;> simp [SeqOp.lengthAfter]
  | insert i e =>
    refine ⟨fun h => ?_, fun h => ?_⟩
    · simp [SeqOp.panics] at h
      simp [ESeq.step, h]
    · simp [SeqOp.panics] at h
      simp [ESeq.step, h, SeqOp.lengthAfter]
      omega
  | remove i =>
    refine ⟨fun h => ?_, fun h => ?_⟩
    · simp [SeqOp.panics] at h
      simp [ESeq.step, h]
    · simp [SeqOp.panics] at h
      simp [ESeq.step, h, SeqOp.lengthAfter]
      omega
  | _ => simp [SeqOp.panics, ESeq.step, SeqOp.lengthAfter, EditSeq.pushAll_eq]

/-- C95: a history of calls panics exactly if at some call an index is out of bounds, counting the elements as a vector
does. -/
theorem C95_panics (s : ESeq) (os : List SeqOp) :
    s.run os = none ↔ historyPanics s.values.length os = true := by
  induction os generalizing s with
  | nil => simp [ESeq.run, historyPanics]
  | cons o os ih =>
    have hs := EditSeq.step_spec s o
    cases hp : SeqOp.panics s.values.length o with
    | true => simp [ESeq.run, hs.1 hp, historyPanics, hp]
    | false =>
      obtain ⟨t, r, h, hl⟩ := hs.2 hp
      have := ih t
      simp only [ESeq.run, h, historyPanics, hp, ← hl, Bool.false_or, ← this]
      cases t.run os <;> simp

/-- C95: after `insert` the elements before the index are where they were, the new one is at the index and the others
are one further. -/
theorem C95_insert (s : ESeq) (i : Nat) (e : EExpr) (h : i ≤ s.values.length) :
    ∃ t, s.step (.insert i e) = some (t, none) ∧ t.values.length = s.values.length + 1 ∧
      (∀ j, j < i → t.values[j]? = s.values[j]?) ∧ t.values[i]? = some e ∧
      ∀ j, i ≤ j → t.values[j + 1]? = s.values[j]? := by
  have hm : min i s.values.length = i := by omega
  refine ⟨_, by simp [ESeq.step, h]; rfl, by simp; omega, fun j hj => ?_, ?_, fun j hj => ?_⟩
  · rw [List.getElem?_append_left (by simp; omega)]
    simp [hj]
  · rw [List.getElem?_append_right (by simp; omega)]
    simp [hm]
  · rw [List.getElem?_append_right (by simp; omega)]
    simp only [List.length_take, hm]
    rw [show j + 1 - i = (j - i) + 1 by omega, List.getElem?_cons_succ, List.getElem?_drop]
    congr 1
    omega

/-- C95: `remove` gives the element at the index; those before it are where they were and the others one closer. -/
theorem C95_remove (s : ESeq) (i : Nat) (h : i < s.values.length) :
    ∃ t e, s.step (.remove i) = some (t, some e) ∧ s.values[i]? = some e ∧
      t.values.length + 1 = s.values.length ∧
      (∀ j, j < i → t.values[j]? = s.values[j]?) ∧ ∀ j, i ≤ j → t.values[j]? = s.values[j + 1]? := by
  have hm : min i s.values.length = i := by omega
  refine ⟨_, s.values[i], by simp [ESeq.step, h]; rfl, by simp [h], by simp; omega, fun j hj => ?_, fun j hj => ?_⟩
  · rw [List.getElem?_append_left (by simp; omega)]
    simp [hj]
  · rw [List.getElem?_append_right (by simp; omega)]
    simp only [List.length_take, hm, List.getElem?_drop]
    congr 1
    omega

/-- C95: `remove` undoes `insert` at the same index, `pop` undoes `push`, and pushing one after the other is
`extend`. -/
theorem C95_undo (s : ESeq) (e : EExpr) (es : List EExpr) :
    (∀ i, i ≤ s.values.length → s.run [.insert i e, .remove i] = some (s, [none, some e])) ∧
    s.run [.push e, .pop] = some (s, [none, some e]) ∧
    (∃ t, s.step (.extend es) = some (t, none) ∧ t.values = s.values ++ es ∧
      s.run (es.map .push) = some (t, es.map fun _ => none)) ∧
    s.step (.insert s.values.length e) = s.step (.push e) := by
  refine ⟨fun i h => ?_, by simp [ESeq.run, ESeq.step], ⟨_, rfl, by simp [EditSeq.pushAll_eq], ?_⟩,
    by simp [ESeq.step]⟩
  · have hm : min i s.values.length = i := by omega
    have h1 : (s.values.take i ++ e :: s.values.drop i)[i]? = some e := by
      rw [List.getElem?_append_right (by simp; omega)]
      simp [hm]
    have h2 : (s.values.take i ++ e :: s.values.drop i).take i ++
        (s.values.take i ++ e :: s.values.drop i).drop (i + 1) = s.values := by
      simp [List.drop_append, hm, List.drop_eq_nil_of_le]
    simp only [ESeq.run, ESeq.step, h, if_true, h1, h2]
  · induction es generalizing s with
    | nil => simp [ESeq.run, ESeq.pushAll]
    | cons x es ih =>
      have := ih { s with values := s.values ++ [x] }
      simp [ESeq.run, ESeq.step, ESeq.pushAll, this]

/-- C95: `get_mut` finds what is at the index, and a change through it changes only that; out of bounds there is
nothing to change. `clear` leaves nothing and `pop` of nothing gives nothing. -/
theorem C95_set (s : ESeq) (i : Nat) (e : EExpr) :
    (∃ t, s.step (.set i e) = some (t, s.values[i]?) ∧ t.values.length = s.values.length ∧
      (∀ j, j ≠ i → t.values[j]? = s.values[j]?) ∧ (i < s.values.length → t.values[i]? = some e)) ∧
    (∃ t, s.step .clear = some (t, none) ∧ t.values = []) ∧
    (s.values = [] → s.step .pop = some (s, none)) := by
  refine ⟨?_, ⟨_, rfl, rfl⟩, fun h => ?_⟩
  · cases h : s.values[i]? with
    | none =>
      refine ⟨s, by simp [ESeq.step, h], rfl, fun _ _ => rfl, fun hi => ?_⟩
      simp at h
      omega
    | some old =>
      refine ⟨{ s with values := s.values.set i e }, by simp [ESeq.step, h], by simp, fun j hj => ?_, fun hi => ?_⟩
      · simp [List.getElem?_set, Ne.symm hj]
      · simp [hi]
  · cases s
    simp_all [ESeq.step]

/-- C95: how a sequence is to be written does not depend on changes to its elements: after a history without calls of
the setters for it, it is as before. -/
theorem C95_layout_kept (s t : ESeq) (os : List SeqOp) (rs : List (Option EExpr)) (h : s.run os = some (t, rs))
    (hl : ∀ o ∈ os, SeqOp.isLayout o = false) :
    t.trailing = s.trailing ∧ t.comma = s.comma ∧ t.expand = s.expand := by
  induction os generalizing s rs with
  | nil => simp [ESeq.run] at h; simp [h.1]
  | cons o os ih =>
    have hstep : ∀ u r, s.step o = some (u, r) →
        u.trailing = s.trailing ∧ u.comma = s.comma ∧ u.expand = s.expand := by
      intro u r hu
      have ho := hl o (by simp)
      cases o <;> simp [SeqOp.isLayout] at ho <;> simp only [ESeq.step] at hu <;>
        (try split at hu) <;> simp [EditSeq.pushAll_eq] at hu <;> simp [← hu.1]
    simp only [ESeq.run] at h
    split at h
    · cases h
    · rename_i u r hu
      split at h
      · cases h
      · rename_i v rs' hv
        cases h
        have h1 := ih u rs' hv (fun o ho => hl o (by simp [ho]))
        have h2 := hstep u r hu
        simp [h1, h2]

/-- C95: after any history the trailing comma, the expansion of the final argument and the trailing text are what the
last call of their setter gave, and as at the start if there was none. -/
theorem C95_last_setter (s t : ESeq) (os : List SeqOp) (rs : List (Option EExpr)) (h : s.run os = some (t, rs)) :
    t.comma = ((os.filterMap SeqOp.comma?).getLast?.getD s.comma) ∧
    t.expand = ((os.filterMap SeqOp.expand?).getLast?.getD s.expand) ∧
    t.trailing = ((os.filterMap SeqOp.trailing?).getLast?.getD s.trailing) := by
  induction os generalizing s rs with
  | nil => simp [ESeq.run] at h; simp [h.1]
  | cons o os ih =>
    have hstep : ∀ u r, s.step o = some (u, r) →
        u.comma = (SeqOp.comma? o).getD s.comma ∧ u.expand = (SeqOp.expand? o).getD s.expand ∧
        u.trailing = (SeqOp.trailing? o).getD s.trailing := by
      intro u r hu
      cases o <;> simp only [ESeq.step] at hu <;>
        (try split at hu) <;> simp [EditSeq.pushAll_eq] at hu <;>
        simp [← hu.1, SeqOp.comma?, SeqOp.expand?, SeqOp.trailing?]
    have hlast : ∀ {α : Type} (f : SeqOp → Option α) (d : α),
        (((o :: os).filterMap f).getLast?.getD d) = ((os.filterMap f).getLast?.getD ((f o).getD d)) := by
      intro α f d
      cases hf : f o with
      | none => simp [hf]
      | some x => simp [hf, List.getLast?_cons]
    simp only [ESeq.run] at h
    split at h
    · cases h
    · rename_i u r hu
      split at h
      · cases h
      · rename_i v rs' hv
        cases h
        have h1 := ih u rs' hv
        have h2 := hstep u r hu
        rw [hlast SeqOp.comma?, hlast SeqOp.expand?, hlast SeqOp.trailing?, ← h2.1, ← h2.2.1, ← h2.2.2]
        exact h1

/-- C95: the elements do not depend on how the sequence is written: leaving out the calls of the setters for that
changes neither the elements nor what the other calls give back, nor whether one panics. -/
theorem C95_elements (s u : ESeq) (os : List SeqOp) (hv : s.values = u.values) :
    ((s.run os).map fun p =>
      (p.1.values, ((os.zip p.2).filter fun q => !SeqOp.isLayout q.1).map fun q => q.2)) =
      (u.run (os.filter fun o => !SeqOp.isLayout o)).map fun p => (p.1.values, p.2) := by
  induction os generalizing s u with
  | nil => simp [ESeq.run, hv]
  | cons o os ih =>
    cases hl : SeqOp.isLayout o with
    | true =>
      rw [List.filter_cons_of_neg (by simp [hl])]
      have hstep : ∃ s', s.step o = some (s', none) ∧ s'.values = u.values := by
        cases o <;> simp [SeqOp.isLayout] at hl <;> simp [ESeq.step, hv]
      obtain ⟨s', h1, h2⟩ := hstep
      rw [← ih s' u h2]
      simp only [ESeq.run, h1]
      cases ha : s'.run os <;> simp [hl]
    | false =>
      rw [List.filter_cons_of_pos (by simp [hl])]
      have hstep : (s.step o = none ∧ u.step o = none) ∨
          ∃ s' u' r, s.step o = some (s', r) ∧ u.step o = some (u', r) ∧ s'.values = u'.values := by
        cases o <;> simp [SeqOp.isLayout] at hl <;> simp only [ESeq.step, ← hv] <;> (try split) <;>
          first
          | exact .inl ⟨rfl, rfl⟩
          | exact .inr ⟨_, _, _, rfl, rfl, by simp [EditSeq.pushAll_eq, hv]⟩
      rcases hstep with ⟨h1, h2⟩ | ⟨s', u', r, h1, h2, h3⟩
      · simp [ESeq.run, h1, h2]
      · have := ih s' u' h3
        simp only [ESeq.run, h1, h2]
        cases ha : s'.run os <;> cases hb : u'.run (os.filter fun o => !SeqOp.isLayout o) <;> simp_all

-- two insertions, a removal and a setter; an index out of bounds panics
example (a b : EExpr) : (ESeq.run {} [.push a, .insert 0 b, .setComma true, .remove 1]) =
    some ({ values := [b], comma := true }, [none, none, none, some a]) := by
  simp [ESeq.run, ESeq.step]
example (a b : EExpr) : ESeq.run {} [.push a, .pop, .insert 1 b] = none := by
  simp [ESeq.run, ESeq.step]
example (a b : EExpr) : historyPanics 0 [.push a, .insert 0 b, .remove 1] = false := by
  simp [historyPanics, SeqOp.panics, SeqOp.lengthAfter]

end Verif.Props
