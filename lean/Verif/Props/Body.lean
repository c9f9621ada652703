import Verif.Lemmas.Body
/-! C21, C22: the body container of `hcl-edit`. -/

namespace Verif.Props
open Verif Verif.Spec Body
variable {A B : Type}

/-- C21: whatever sequence of operations is applied to an empty body, no two attributes of the result
have the same key. -/
theorem C21_unique_keys (ops : List (Op A B)) (b : List (BStruct A B)) (rs : List (Ret A B))
    (h : run [] ops = some (b, rs)) : (attrKeys b).Nodup :=
  (run_inv ops (by simp [attrKeys]) h).1

/-- C21: the same from any body with unique keys. -/
theorem C21_keeps_unique_keys (b₀ : List (BStruct A B)) (ops : List (Op A B)) (b : List (BStruct A B))
    (rs : List (Ret A B)) (h₀ : (attrKeys b₀).Nodup) (h : run b₀ ops = some (b, rs)) :
    (attrKeys b).Nodup :=
  (run_inv ops h₀ h).1

/-- C21: adding an attribute whose key is present changes nothing and hands the attribute back, at
any position; adding one whose key is absent succeeds (`push`: at the end; `insert`: at the
position, unless that is past the end). -/
theorem C21_rejection (b : List (BStruct A B)) (k : Str) (a : A) (i : Nat) :
    (k ∈ attrKeys b → step b (.push (.attr k a)) = some (b, .rejected k a) ∧
      step b (.insert i (.attr k a)) = some (b, .rejected k a)) ∧
    (k ∉ attrKeys b → step b (.push (.attr k a)) = some (b ++ [.attr k a], .unit) ∧
      (i ≤ b.length →
        step b (.insert i (.attr k a)) = some (b.take i ++ .attr k a :: b.drop i, .unit)) ∧
      (b.length < i → step b (.insert i (.attr k a)) = none)) := by
  constructor
  · intro h
    have h := hasAttribute_iff.2 h
    simp [step, tryPush, tryInsert, h]
  · intro h
    have h : ¬ hasAttribute k b = true := fun e => h (hasAttribute_iff.1 e)
    refine ⟨by simp [step, tryPush, h], fun hi => ?_, fun hi => ?_⟩
    · simp [step, tryInsert, h, vecInsert, hi]
    · have : ¬ i ≤ b.length := by omega
      simp [step, tryInsert, h, vecInsert, this]

/-- A history in which every operation occurs and one insertion is rejected. -/
example : run ([] : List (BStruct Nat Nat))
    [.push (.attr c!"a" 1), .push (.block c!"x" 7), .insert 0 (.attr c!"a" 2),
      .extend [.attr c!"b" 3, .attr c!"b" 4, .block c!"x" 8], .setAttribute c!"b" 9,
      .removeAttribute c!"a", .removeBlocks c!"x", .push (.attr c!"c" 5), .remove 0, .pop, .clear] =
    some ([], [.unit, .unit, .rejected c!"a" 2, .unit, .unit, .attribute (some (c!"a", 1)),
      .blocks [(c!"x", 7), (c!"x", 8)], .unit, .structure (some (.attr c!"b" 9)),
      .structure (some (.attr c!"c" 5)), .unit]) := by
  rfl

/-- C21 does not extend to `get_mut`, which hands out `&mut Structure`: overwriting a structure through
it can duplicate a key (`List.set` models the assignment). -/
theorem C21_get_mut_false : ∃ (b : List (BStruct Nat Nat)) (i : Nat) (s : BStruct Nat Nat),
    (attrKeys b).Nodup ∧ i < b.length ∧ ¬ (attrKeys (b.set i s)).Nodup :=
  ⟨[.attr c!"a" 1, .attr c!"b" 2], 1, .attr c!"a" 3, by decide, by decide, by decide⟩

/-- C22: in a body with unique keys, looking up a key finds an attribute exactly if the body contains
it. -/
theorem C22_get_attribute_iff (b : List (BStruct A B)) (h : (attrKeys b).Nodup) (k : Str) (a : A) :
    getAttribute k b = some (k, a) ↔ BStruct.attr k a ∈ b := by
  rw [getAttribute_eq, ← lookup_mem h]
  cases lookup k b <;> simp

/-- C22: a lookup never returns an attribute with another key, and fails exactly if no attribute has
the key. -/
theorem C22_get_attribute_none (b : List (BStruct A B)) (k : Str) :
    (getAttribute k b = none ↔ ∀ a, BStruct.attr k a ∉ b) ∧
    (∀ r, getAttribute k b = some r → r.1 = k) ∧
    (hasAttribute k b = true ↔ ∃ a, BStruct.attr k a ∈ b) := by
  refine ⟨?_, ?_, ?_⟩
  · rw [getAttribute_eq, Option.map_eq_none_iff, lookup_none, mem_attrKeys]
    simp
  · intro r hr
    rw [getAttribute_eq] at hr
    cases hl : lookup k b with
    | none => simp [hl] at hr
    | some a => simp [hl] at hr; rw [← hr]
  · rw [hasAttribute_iff, mem_attrKeys]

/-- C22: after any history starting with an empty body, a lookup returns exactly what the operations
added (and did not reject) and no later operation removed or replaced. -/
theorem C22_history (ops : List (Op A B)) (b : List (BStruct A B)) (rs : List (Ret A B))
    (h : run [] ops = some (b, rs)) (k : Str) :
    getAttribute k b = (Table.history (fun _ => none) ops rs k).map (k, ·) := by
  have := (run_inv ops (by simp [attrKeys]) h).2
  have hk : lookup k b = _ := congrFun this k
  rw [getAttribute_eq, hk]
  rfl

/-- C22: removing an attribute by key returns what the lookup returns; if there is one, exactly the
first attribute with the key is taken out of the body and everything else keeps content and order. -/
theorem C22_remove_attribute (b : List (BStruct A B)) (k : Str) :
    ∃ b', removeAttribute k b = some (b', getAttribute k b) ∧
      ((getAttribute k b = none ∧ b' = b) ∨
        ∃ p a q, getAttribute k b = some (k, a) ∧ b = p ++ .attr k a :: q ∧ b' = p ++ q ∧
          k ∉ attrKeys p) := by
  rcases removeAttribute_cases k b with ⟨hr, hn⟩ | ⟨p, a, q, rfl, hp, hr⟩
  · have : getAttribute k b = none := by rw [getAttribute_eq, lookup_none.2 hn]; rfl
    exact ⟨b, by rw [this]; exact hr, .inl ⟨this, rfl⟩⟩
  · have : getAttribute k (p ++ BStruct.attr k a :: q) = some (k, a) := by
      rw [getAttribute_eq, lookup_append, lookup_none.2 hp]
      simp [lookup]
    exact ⟨p ++ q, by rw [this]; exact hr, .inr ⟨p, a, q, this, rfl, rfl, hp⟩⟩

/-- C22: after removing a key from a body with unique keys, the key is gone and every other lookup is
as before. -/
theorem C22_remove_attribute_lookup (b b' : List (BStruct A B)) (r : Option (Str × A)) (k : Str)
    (h : (attrKeys b).Nodup) (hr : removeAttribute k b = some (b', r)) (k' : Str) :
    getAttribute k' b' = if k' = k then none else getAttribute k' b := by
  have hs : step b (.removeAttribute k) = some (b', .attribute r) := by simp [step, hr]
  have := congrFun (step_inv h hs).2 k'
  simp only [Table.after, Table.drop] at this
  rw [getAttribute_eq, getAttribute_eq, this]
  split <;> rfl

/-- C22: selecting blocks by identifier yields exactly the blocks with the identifier, in order. -/
theorem C22_get_blocks (b : List (BStruct A B)) (i : Str) :
    getBlocks i b = (blocksNamed i b).map (i, ·) ∧
    (hasBlocks i b = true ↔ ∃ x, BStruct.block i x ∈ b) := by
  have key : getBlocks i b = (blocksNamed i b).map (i, ·) := by
    unfold getBlocks
    induction b with
    | nil => rfl
    | cons s b ih =>
      cases s with
      | attr k a => exact ih
      | block j x =>
        simp only [asBlock, List.filterMap_cons, List.filter_cons, blocksNamed]
        by_cases h : j = i
        · simp [h, ih]
        · simp [h, ih]
  refine ⟨key, ?_⟩
  unfold hasBlocks
  rw [key]
  clear key
  induction b with
  | nil => simp [blocksNamed]
  | cons s b ih =>
    cases s with
    | attr => simpa [blocksNamed] using ih
    | block j x =>
      by_cases h : j = i
      · subst h
        simp only [blocksNamed, if_true, List.map_cons, List.head?_cons, Option.isSome_some, true_iff]
        exact ⟨x, by simp⟩
      · simp only [blocksNamed, if_neg h, ih, List.mem_cons]
        constructor
        · rintro ⟨y, hy⟩; exact ⟨y, .inr hy⟩
        · rintro ⟨y, hy | hy⟩
          · injection hy with h1 _; exact absurd h1.symm h
          · exact ⟨y, hy⟩

/-- C22: removing blocks by identifier returns exactly the blocks with the identifier, in order, and
leaves everything else in place and in order. -/
theorem C22_remove_blocks (b : List (BStruct A B)) (i : Str) :
    ∃ b', removeBlocks i b = some (b', (blocksNamed i b).map (i, ·)) ∧ b'.Sublist b ∧
      (∀ s, s ∈ b' ↔ s ∈ b ∧ ∀ x, s ≠ .block i x) ∧
      b'.length + (blocksNamed i b).length = b.length := by
  refine ⟨b.filter (fun s => !isBlock i s), removeBlocksF_eq i _ b (by omega), List.filter_sublist,
    ?_, ?_⟩
  · intro s
    rw [List.mem_filter]
    refine and_congr_right fun _ => ?_
    simp only [Bool.not_eq_true', ne_eq]
    constructor
    · rintro h x rfl
      rw [isBlock_iff.2 ⟨x, rfl⟩] at h; cases h
    · intro h
      cases hb : isBlock i s with
      | false => rfl
      | true => obtain ⟨x, hx⟩ := isBlock_iff.1 hb; exact absurd hx (h x)
  · induction b with
    | nil => rfl
    | cons s b ih =>
      cases s with
      | attr k a =>
        rw [List.filter_cons, if_pos (by rfl)]
        simp only [blocksNamed, List.length_cons]; omega
      | block j x =>
        rw [List.filter_cons]
        by_cases h : j = i
        · subst h
          rw [if_neg (by rw [isBlock_iff.2 ⟨x, rfl⟩]; simp)]
          simp only [blocksNamed, if_true, List.length_cons]; omega
        · rw [if_pos (by
            cases hb : isBlock i (BStruct.block j x : BStruct A B) with
            | false => rfl
            | true =>
              obtain ⟨y, hy⟩ := isBlock_iff.1 hb
              injection hy with h1 _; exact absurd h1 h)]
          simp only [blocksNamed, if_neg h, List.length_cons]; omega

/-- A body with unique keys, two blocks of one kind and one of another. -/
example :
    let b : List (BStruct Nat Nat) := [.block c!"x" 1, .attr c!"a" 2, .block c!"y" 3, .block c!"x" 4]
    (attrKeys b).Nodup ∧ getAttribute c!"a" b = some (c!"a", 2) ∧
      removeBlocks c!"x" b = some ([.attr c!"a" 2, .block c!"y" 3], [(c!"x", 1), (c!"x", 4)]) := by
  refine ⟨by decide, by rfl, by rfl⟩

end Verif.Props
