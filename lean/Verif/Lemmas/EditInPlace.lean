import Verif.Model.EditInPlace
import Verif.Lemmas.Body
/-! Operations on bodies give no structures but those there were and those they were given (C96). -/

namespace Verif.Spec
open Body

variable {A B : Type}

theorem vecRemove_mem {α : Type} {i : Nat} {l r : List α} {z : α} (h : vecRemove i l = some (z, r)) :
    ∀ x ∈ r, x ∈ l := by
  unfold vecRemove at h
  split at h
  · cases h
    intro x hx
    rcases List.mem_append.1 hx with h | h
    · exact List.mem_of_mem_take h
    · exact List.mem_of_mem_drop h
  · cases h

theorem vecInsert_mem {α : Type} {i : Nat} {l r : List α} {z : α} (h : vecInsert i z l = some r) :
    ∀ x ∈ r, x ∈ l ∨ x = z := by
  unfold vecInsert at h
  split at h
  · cases h
    intro x hx
    rcases List.mem_append.1 hx with h | h
    · exact .inl (List.mem_of_mem_take h)
    · rcases List.mem_cons.1 h with h | h
      · exact .inr h
      · exact .inl (List.mem_of_mem_drop h)
  · cases h

theorem tryPush_mem (s : BStruct A B) (b : List (BStruct A B)) : ∀ x ∈ (tryPush s b).1, x ∈ b ∨ x = s := by
  intro x hx
  cases s <;> simp only [tryPush] at hx
  · split at hx
    · exact .inl hx
    · simpa using hx
  · simpa using hx

theorem extend_mem (ss b : List (BStruct A B)) : ∀ x ∈ extend b ss, x ∈ b ∨ x ∈ ss := by
  induction ss generalizing b with
  | nil => intro x hx; exact .inl hx
  | cons s ss ih =>
    intro x hx
    rcases ih (tryPush s b).1 x hx with h | h
    · rcases tryPush_mem s b x h with h | h
      · exact .inl h
      · exact .inr (by simp [h])
    · exact .inr (by simp [h])

theorem removeBlocksF_mem {i : Str} {n : Nat} {b b' : List (BStruct A B)} {xs : List (Str × B)}
    (h : removeBlocksF i n b = some (b', xs)) : ∀ x ∈ b', x ∈ b := by
  induction n generalizing b xs with
  | zero => simp [removeBlocksF] at h
  | succ n ih =>
    have hb : ∀ c y, removeBlock i b = some (c, y) → ∀ x ∈ c, x ∈ b := by
      intro c y hc
      unfold removeBlock at hc
      split at hc
      · cases hc
        exact fun _ h => h
      · split at hc
        · rename_i hv
          cases hc
          exact vecRemove_mem hv
        · cases hc
    simp only [removeBlocksF] at h
    split at h
    · cases h
    · rename_i hc
      cases h
      exact hb _ _ hc
    · rename_i hc
      split at h
      · cases h
      · rename_i hr
        cases h
        exact fun x hx => hb _ _ hc x (ih hr x hx)

/-- What an operation was given. -/
def broughtIn : Op A B → List (BStruct A B)
  | .insert _ s | .push s => [s]
  | .extend ss => ss
  | _ => []

theorem step_mem {b b' : List (BStruct A B)} {op : Op A B} {r : Ret A B} (h : step b op = some (b', r))
    (hop : ∀ k a, op ≠ .setAttribute k a) : ∀ x ∈ b', x ∈ b ∨ x ∈ broughtIn op := by
  cases op with
  | insert i s =>
    have key : ∀ (o : Option (List (BStruct A B))), o.map (·, (Ret.unit : Ret A B)) = some (b', r) → o = some b' := by
      intro o ho
      cases o <;> simp at ho
      simp [ho.1]
    cases s <;> simp only [step, tryInsert] at h
    · split at h
      · cases h
        exact fun x hx => .inl hx
      · simpa [broughtIn] using vecInsert_mem (key _ h)
    · simpa [broughtIn] using vecInsert_mem (key _ h)
  | push s =>
    simp only [step] at h
    intro x hx
    have := tryPush_mem s b x
    simp at h
    rw [h] at this
    simpa [broughtIn] using this hx
  | extend ss =>
    simp only [step] at h
    cases h
    exact extend_mem ss b
  | pop =>
    simp only [step, pop] at h
    cases h
    exact fun x hx => .inl (List.dropLast_subset b hx)
  | remove i =>
    simp only [step] at h
    cases hv : vecRemove i b with
    | none => simp [hv] at h
    | some p =>
      simp [hv] at h
      obtain ⟨z, l⟩ := p
      simp at h
      rw [← h.1]
      exact fun x hx => .inl (vecRemove_mem hv x hx)
  | removeAttribute k =>
    simp only [step, removeAttribute] at h
    split at h
    · cases h
      exact fun x hx => .inl hx
    · split at h
      · rename_i hv
        cases h
        exact fun x hx => .inl (vecRemove_mem hv x hx)
      · cases h
  | removeBlocks i =>
    simp only [step] at h
    cases hv : removeBlocks i b with
    | none => simp [hv] at h
    | some p =>
      obtain ⟨l, xs⟩ := p
      simp [hv] at h
      rw [← h.1]
      exact fun x hx => .inl (removeBlocksF_mem hv x hx)
  | setAttribute k a => exact absurd rfl (hop k a)
  | clear =>
    simp only [step] at h
    cases h
    simp

end Verif.Spec
