import Verif.Spec.Body
/-! Helper lemmas for the body container. -/

namespace Verif
open Verif.Spec Body
variable {A B : Type}

theorem attrKeys_append (a b : List (BStruct A B)) : attrKeys (a ++ b) = attrKeys a ++ attrKeys b := by
  induction a with
  | nil => rfl
  | cons s a ih => cases s <;> simp [attrKeys, ih]

theorem blocksNamed_append (i : Str) (a b : List (BStruct A B)) :
    blocksNamed i (a ++ b) = blocksNamed i a ++ blocksNamed i b := by
  induction a with
  | nil => rfl
  | cons s a ih =>
    cases s with
    | attr => simp [blocksNamed, ih]
    | block j x => simp only [List.cons_append, blocksNamed, ih]; split <;> rfl

theorem mem_attrKeys {k : Str} {b : List (BStruct A B)} :
    k ∈ attrKeys b ↔ ∃ a, BStruct.attr k a ∈ b := by
  induction b with
  | nil => simp [attrKeys]
  | cons s b ih => cases s <;> simp [attrKeys, ih, exists_or]

/-- The value stored for a key: the first attribute with that key. -/
def lookup (k : Str) : List (BStruct A B) → Option A
  | [] => none
  | .attr k' a :: rest => if k' = k then some a else lookup k rest
  | .block _ _ :: rest => lookup k rest

theorem getAttribute_eq (k : Str) (b : List (BStruct A B)) :
    getAttribute k b = (lookup k b).map (k, ·) := by
  unfold getAttribute
  induction b with
  | nil => rfl
  | cons s b ih =>
    cases s with
    | attr k' a =>
      simp only [asAttribute, List.filterMap_cons, List.find?_cons, lookup]
      by_cases h : k' = k
      · simp [h]
      · simp [h, ih]
    | block j x => simpa only [asAttribute, List.filterMap_cons, lookup] using ih

theorem lookup_none {k : Str} {b : List (BStruct A B)} : lookup k b = none ↔ k ∉ attrKeys b := by
  induction b with
  | nil => simp [lookup, attrKeys]
  | cons s b ih =>
    cases s with
    | attr k' a =>
      simp only [lookup, attrKeys, List.mem_cons]
      by_cases h : k' = k
      · simp [h]
      · rw [if_neg h, ih]
        have : k ≠ k' := fun e => h e.symm
        simp [this]
    | block j x => simpa only [lookup, attrKeys] using ih

theorem hasAttribute_iff {k : Str} {b : List (BStruct A B)} :
    hasAttribute k b = true ↔ k ∈ attrKeys b := by
  unfold hasAttribute
  rw [getAttribute_eq]
  cases h : lookup k b with
  | none => simpa using lookup_none.1 h
  | some a =>
    simp only [Option.map_some, Option.isSome_some, true_iff]
    by_cases hm : k ∈ attrKeys b
    · exact hm
    · rw [lookup_none.2 hm] at h; cases h

theorem lookup_append (k : Str) (a b : List (BStruct A B)) :
    lookup k (a ++ b) = (lookup k a).or (lookup k b) := by
  induction a with
  | nil => simp [lookup]
  | cons s a ih =>
    cases s with
    | attr k' x =>
      simp only [List.cons_append, lookup]
      by_cases h : k' = k
      · simp [h]
      · simp [h, ih]
    | block j x => simpa only [List.cons_append, lookup] using ih

theorem lookup_mem {k : Str} {a : A} {b : List (BStruct A B)} (h : (attrKeys b).Nodup) :
    lookup k b = some a ↔ BStruct.attr k a ∈ b := by
  induction b with
  | nil => simp [lookup]
  | cons s b ih =>
    cases s with
    | attr k' x =>
      simp only [attrKeys, List.nodup_cons] at h
      simp only [lookup, List.mem_cons, BStruct.attr.injEq]
      by_cases hk : k' = k
      · subst hk
        rw [if_pos rfl]
        constructor
        · intro e; injection e with e; exact .inl ⟨rfl, e.symm⟩
        · rintro (⟨_, rfl⟩ | hm)
          · rfl
          · exact absurd (mem_attrKeys.2 ⟨a, hm⟩) h.1
      · rw [if_neg hk, ih h.2]
        constructor
        · exact .inr
        · rintro (⟨e, _⟩ | hm)
          · exact absurd e.symm hk
          · exact hm
    | block j x =>
      simp only [attrKeys] at h
      simp [lookup, ih h]

/-- Inserting in the middle. -/
theorem vecInsert_some {α : Type} {i : Nat} {x : α} {l l' : List α} (h : vecInsert i x l = some l') :
    ∃ p q, l = p ++ q ∧ l' = p ++ x :: q := by
  unfold vecInsert at h
  split at h
  · injection h with h
    exact ⟨l.take i, l.drop i, (List.take_append_drop i l).symm, h.symm⟩
  · cases h

theorem vecRemove_some {α : Type} {i : Nat} {x : α} {l l' : List α} (h : vecRemove i l = some (x, l')) :
    ∃ p q, l = p ++ x :: q ∧ l' = p ++ q ∧ p.length = i := by
  unfold vecRemove at h
  split at h
  · rename_i y hy
    injection h with h
    injection h with h1 h2
    subst h1
    have hlt : i < l.length := by
      rcases Nat.lt_or_ge i l.length with h | h
      · exact h
      · rw [List.getElem?_eq_none h] at hy; cases hy
    refine ⟨l.take i, l.drop (i + 1), ?_, h2.symm, by simp; omega⟩
    rw [List.getElem?_eq_getElem hlt] at hy
    injection hy with hy
    rw [← hy, ← List.drop_eq_getElem_cons hlt, List.take_append_drop]
  · cases h

theorem isAttr_iff {k : Str} {s : BStruct A B} : isAttr k s = true ↔ ∃ a, s = .attr k a := by
  cases s with
  | attr k' a =>
    simp only [isAttr, asAttribute, decide_eq_true_eq, BStruct.attr.injEq]
    constructor
    · rintro rfl; exact ⟨a, rfl, rfl⟩
    · rintro ⟨_, h, _⟩; exact h
  | block => simp [isAttr, asAttribute]

theorem isBlock_iff {i : Str} {s : BStruct A B} : isBlock i s = true ↔ ∃ x, s = .block i x := by
  cases s with
  | attr => simp [isBlock, asBlock]
  | block k' a =>
    simp only [isBlock, asBlock, decide_eq_true_eq, BStruct.block.injEq]
    constructor
    · rintro rfl; exact ⟨a, rfl, rfl⟩
    · rintro ⟨_, h, _⟩; exact h

/-- `position` splits the list at the first match. -/
theorem findIdx_split {α : Type} {p : α → Bool} {l : List α} {i : Nat} (h : l.findIdx? p = some i) :
    ∃ a x b, l = a ++ x :: b ∧ a.length = i ∧ p x = true ∧ ∀ y ∈ a, p y = false := by
  induction l generalizing i with
  | nil => simp at h
  | cons y l ih =>
    rw [List.findIdx?_cons] at h
    by_cases hy : p y = true
    · rw [if_pos hy] at h
      injection h with h
      exact ⟨[], y, l, rfl, h, hy, by simp⟩
    · rw [if_neg hy] at h
      cases hf : l.findIdx? p with
      | none => simp [hf] at h
      | some j =>
        simp only [hf, Option.map_some, Option.some.injEq] at h
        obtain ⟨a, x, b, rfl, hl, hx, ha⟩ := ih hf
        refine ⟨y :: a, x, b, rfl, by simp; omega, hx, ?_⟩
        intro z hz
        simp only [List.mem_cons] at hz
        rcases hz with rfl | hz
        · simpa using hy
        · exact ha z hz

theorem vecRemove_append {α : Type} (a : List α) (x : α) (b : List α) :
    vecRemove a.length (a ++ x :: b) = some (x, a ++ b) := by
  unfold vecRemove
  have h1 : (a ++ x :: b)[a.length]? = some x := by simp
  have h2 : (a ++ x :: b).drop (a.length + 1) = b := by
    rw [← List.drop_drop, List.drop_left]; rfl
  simp only [h1, List.take_left, h2]

theorem removeAttribute_cases (k : Str) (b : List (BStruct A B)) :
    (removeAttribute k b = some (b, none) ∧ k ∉ attrKeys b) ∨
    ∃ p a q, b = p ++ .attr k a :: q ∧ k ∉ attrKeys p ∧
      removeAttribute k b = some (p ++ q, some (k, a)) := by
  unfold removeAttribute
  cases h : b.findIdx? (isAttr k) with
  | none =>
    left
    refine ⟨rfl, fun hm => ?_⟩
    obtain ⟨a, ha⟩ := mem_attrKeys.1 hm
    rw [List.findIdx?_eq_none_iff] at h
    have := h _ ha
    rw [isAttr_iff.2 ⟨a, rfl⟩] at this
    cases this
  | some i =>
    right
    obtain ⟨p, x, q, rfl, hl, hx, hp⟩ := findIdx_split h
    obtain ⟨a, rfl⟩ := isAttr_iff.1 hx
    refine ⟨p, a, q, rfl, fun hm => ?_, ?_⟩
    · obtain ⟨a', ha⟩ := mem_attrKeys.1 hm
      have := hp _ ha
      rw [isAttr_iff.2 ⟨a', rfl⟩] at this
      cases this
    · subst hl
      simp only [vecRemove_append, asAttribute]

theorem removeBlock_cases (i : Str) (b : List (BStruct A B)) :
    (removeBlock i b = some (b, none) ∧ ∀ s ∈ b, isBlock i s = false) ∨
    ∃ p x q, b = p ++ .block i x :: q ∧ (∀ s ∈ p, isBlock i s = false) ∧
      removeBlock i b = some (p ++ q, some (i, x)) := by
  unfold removeBlock
  cases h : b.findIdx? (isBlock i) with
  | none =>
    left
    exact ⟨rfl, fun s hs => by simpa using List.findIdx?_eq_none_iff.1 h s hs⟩
  | some n =>
    right
    obtain ⟨p, x, q, rfl, hl, hx, hp⟩ := findIdx_split h
    obtain ⟨a, rfl⟩ := isBlock_iff.1 hx
    refine ⟨p, a, q, rfl, hp, ?_⟩
    subst hl
    simp only [vecRemove_append, asBlock]

theorem blocksNamed_none {i : Str} {b : List (BStruct A B)} (h : ∀ s ∈ b, isBlock i s = false) :
    blocksNamed i b = [] := by
  induction b with
  | nil => rfl
  | cons s b ih =>
    have hs := h s (by simp)
    have ih := ih (fun t ht => h t (by simp [ht]))
    cases s with
    | attr => simpa [blocksNamed] using ih
    | block j x =>
      have : j ≠ i := by rintro rfl; rw [isBlock_iff.2 ⟨x, rfl⟩] at hs; cases hs
      simp [blocksNamed, this, ih]

theorem removeBlocksF_eq (i : Str) : ∀ (n : Nat) (b : List (BStruct A B)), b.length < n →
    removeBlocksF i n b =
      some (b.filter (fun s => !isBlock i s), (blocksNamed i b).map (i, ·)) := by
  intro n
  induction n with
  | zero => intro b h; omega
  | succ n ih =>
    intro b h
    simp only [removeBlocksF]
    rcases removeBlock_cases i b with ⟨hr, hb⟩ | ⟨p, x, q, rfl, hp, hr⟩
    · rw [hr]
      simp only [Option.some.injEq, Prod.mk.injEq]
      refine ⟨?_, ?_⟩
      · symm; rw [List.filter_eq_self]; intro s hs; rw [hb s hs]; rfl
      · rw [blocksNamed_none hb]; rfl
    · rw [hr]
      simp only
      rw [ih (p ++ q) (by simp at h ⊢; omega)]
      simp only [List.filter_append, List.filter_cons, isBlock_iff.2 ⟨x, rfl⟩, blocksNamed_append,
        blocksNamed, if_true, blocksNamed_none hp]
      simp

theorem attrKeys_filter (i : Str) (b : List (BStruct A B)) :
    attrKeys (b.filter (fun s => !isBlock i s)) = attrKeys b := by
  induction b with
  | nil => rfl
  | cons s b ih =>
    cases s with
    | attr k a =>
      rw [List.filter_cons, if_pos (by rfl)]; simp only [attrKeys, ih]
    | block j x =>
      rw [List.filter_cons]
      split <;> simp [attrKeys, ih]

theorem lookup_filter (i k : Str) (b : List (BStruct A B)) :
    lookup k (b.filter (fun s => !isBlock i s)) = lookup k b := by
  induction b with
  | nil => rfl
  | cons s b ih =>
    cases s with
    | attr k a =>
      rw [List.filter_cons, if_pos (by rfl)]; simp only [lookup, ih]
    | block j x =>
      rw [List.filter_cons]
      split <;> simp [lookup, ih]

theorem attrKeys_setAttribute (k : Str) (a : A) (b : List (BStruct A B)) :
    attrKeys (setAttribute k a b) = attrKeys b := by
  induction b with
  | nil => rfl
  | cons s b ih =>
    simp only [setAttribute]
    split
    · cases s <;> rfl
    · cases s <;> simp [attrKeys, ih]

theorem lookup_setAttribute (k k' : Str) (a : A) (b : List (BStruct A B)) :
    lookup k' (setAttribute k a b) =
      if k' = k ∧ (lookup k b).isSome then some a else lookup k' b := by
  induction b with
  | nil => simp [setAttribute, lookup]
  | cons s b ih =>
    simp only [setAttribute]
    cases s with
    | attr j x =>
      by_cases hj : j = k
      · subst hj
        rw [if_pos (isAttr_iff.2 ⟨x, rfl⟩)]
        simp only [lookup, if_true, Option.isSome_some, and_true]
        by_cases h : j = k'
        · subst h; simp
        · have : ¬ k' = j := fun e => h e.symm
          simp [h, this]
      · have : isAttr k (BStruct.attr j x : BStruct A B) = false := by
          cases h : isAttr k (BStruct.attr j x : BStruct A B) with
          | false => rfl
          | true =>
            obtain ⟨y, hy⟩ := isAttr_iff.1 h
            injection hy with h1 _; exact absurd h1 hj
        rw [if_neg (by rw [this]; simp)]
        simp only [lookup, if_neg hj, ih]
        by_cases h : j = k'
        · subst h; simp [hj]
        · simp [h]
    | block j x =>
      rw [if_neg (by simp [isAttr, asAttribute])]
      simp only [lookup]
      exact ih.trans (by congr)

/-- Adding a structure somewhere. -/
theorem lookup_add {p q : List (BStruct A B)} {s : BStruct A B} {k : Str}
    (h : ∀ k a, s = .attr k a → k ∉ attrKeys (p ++ q)) :
    lookup k (p ++ s :: q) = Table.addStruct (fun k => lookup k (p ++ q)) s k := by
  cases s with
  | block j x => simp only [Table.addStruct, lookup_append, lookup]
  | attr j a =>
    have hj := h j a rfl
    have hn := lookup_none.2 hj
    simp only [Table.addStruct, Table.addIfNew, hn, and_true]
    rw [lookup_append]
    simp only [lookup]
    by_cases hk : k = j
    · subst hk
      rw [lookup_append] at hn
      simp only [Option.or_eq_none_iff] at hn
      simp [hn.1]
    · have : ¬ j = k := fun e => hk e.symm
      simp [this, hk, lookup_append]

/-- Removing a structure somewhere. -/
theorem lookup_remove {p q : List (BStruct A B)} {s : BStruct A B} {k : Str}
    (h : (attrKeys (p ++ s :: q)).Nodup) :
    lookup k (p ++ q) = Table.dropStruct (fun k => lookup k (p ++ s :: q)) (some s) k := by
  cases s with
  | block j x => simp only [Table.dropStruct, lookup_append, lookup]
  | attr j a =>
    simp only [Table.dropStruct, Table.drop]
    rw [attrKeys_append] at h
    simp only [attrKeys] at h
    rw [List.nodup_append] at h
    obtain ⟨_, h2, h3⟩ := h
    rw [List.nodup_cons] at h2
    by_cases hk : k = j
    · subst hk
      rw [if_pos rfl, lookup_none, attrKeys_append, List.mem_append]
      rintro (hm | hm)
      · exact h3 k hm k (by simp) rfl
      · exact h2.1 hm
    · rw [if_neg hk, lookup_append, lookup_append]
      have : ¬ j = k := fun e => hk e.symm
      simp [lookup, this]

theorem tryPush_nodup {b : List (BStruct A B)} {s : BStruct A B} (h : (attrKeys b).Nodup) :
    (attrKeys (tryPush s b).1).Nodup := by
  unfold tryPush
  cases s with
  | attr k a =>
    simp only
    split
    · exact h
    · rename_i hk
      rw [hasAttribute_iff] at hk
      simp only [attrKeys_append, attrKeys]
      rw [List.nodup_append]
      refine ⟨h, by simp, ?_⟩
      intro x hx y hy
      simp only [List.mem_singleton] at hy
      subst hy
      rintro rfl
      exact hk hx
  | block j x => simpa [attrKeys_append, attrKeys] using h

theorem tryPush_lookup {b : List (BStruct A B)} {s : BStruct A B} :
    (fun k => lookup k (tryPush s b).1) = Table.addStruct (fun k => lookup k b) s := by
  unfold tryPush
  funext k'
  cases s with
  | attr k a =>
    simp only
    by_cases hk : hasAttribute k b = true
    · rw [if_pos hk]
      rw [hasAttribute_iff] at hk
      have : lookup k b ≠ none := fun e => lookup_none.1 e hk
      simp [Table.addStruct, Table.addIfNew, this]
    · rw [if_neg hk]
      rw [hasAttribute_iff] at hk
      have := lookup_add (p := b) (q := []) (s := .attr k a) (k := k')
        (by intro k2 a2 e; injection e with e1 e2; subst e1; simpa using hk)
      simpa using this
  | block j x =>
    have := lookup_add (p := b) (q := []) (s := .block j x) (k := k')
        (by intro k2 a2 e; cases e)
    simpa using this

theorem extend_nodup (ss : List (BStruct A B)) : ∀ {b : List (BStruct A B)}, (attrKeys b).Nodup →
    (attrKeys (extend b ss)).Nodup := by
  induction ss with
  | nil => intro b h; exact h
  | cons s ss ih => intro b h; exact ih (tryPush_nodup h)

theorem extend_lookup (ss : List (BStruct A B)) : ∀ {b : List (BStruct A B)},
    (fun k => lookup k (extend b ss)) = ss.foldl Table.addStruct (fun k => lookup k b) := by
  induction ss with
  | nil => intro b; rfl
  | cons s ss ih =>
    intro b
    have h := ih (b := (tryPush s b).1)
    rw [tryPush_lookup] at h
    exact h

theorem nodup_remove {p q : List (BStruct A B)} {s : BStruct A B}
    (h : (attrKeys (p ++ s :: q)).Nodup) : (attrKeys (p ++ q)).Nodup := by
  rw [attrKeys_append] at h ⊢
  cases s with
  | block j x => exact h
  | attr j a =>
    simp only [attrKeys] at h
    exact h.sublist (List.Sublist.append_left (List.sublist_cons_self _ _) _)

/-- Each operation keeps keys unique and changes the lookups as specified. -/
theorem step_inv {b b' : List (BStruct A B)} {op : Op A B} {r : Ret A B} (h : (attrKeys b).Nodup)
    (hs : step b op = some (b', r)) :
    (attrKeys b').Nodup ∧
      (fun k => lookup k b') = Table.after (fun k => lookup k b) op r := by
  cases op with
  | insert i s =>
    cases s with
    | attr k a =>
      simp only [step, tryInsert] at hs
      by_cases hk : hasAttribute k b = true
      · rw [if_pos hk] at hs
        injection hs with hs; injection hs with h1 h2; subst h1; subst h2
        refine ⟨h, ?_⟩
        funext k'
        rw [hasAttribute_iff] at hk
        have : lookup k b ≠ none := fun e => lookup_none.1 e hk
        simp [Table.after, Table.addStruct, Table.addIfNew, this]
      · rw [if_neg hk] at hs
        rw [hasAttribute_iff] at hk
        cases hv : vecInsert i (BStruct.attr k a) b with
        | none => simp [hv] at hs
        | some l =>
          simp only [hv, Option.map_some, Option.some.injEq, Prod.mk.injEq] at hs
          obtain ⟨rfl, rfl⟩ := hs
          obtain ⟨p, q, rfl, rfl⟩ := vecInsert_some hv
          refine ⟨?_, ?_⟩
          · rw [attrKeys_append] at h hk ⊢
            simp only [attrKeys]
            rw [List.perm_middle.nodup_iff]
            exact List.nodup_cons.2 ⟨hk, h⟩
          · funext k'
            exact lookup_add (by intro k2 a2 e; injection e with e1 _; subst e1; exact hk)
    | block j x =>
      simp only [step, tryInsert] at hs
      cases hv : vecInsert i (BStruct.block j x) b with
      | none => simp [hv] at hs
      | some l =>
        simp only [hv, Option.map_some, Option.some.injEq, Prod.mk.injEq] at hs
        obtain ⟨rfl, rfl⟩ := hs
        obtain ⟨p, q, rfl, rfl⟩ := vecInsert_some hv
        refine ⟨?_, ?_⟩
        · rw [attrKeys_append] at h ⊢
          exact h
        · funext k'
          exact lookup_add (by intro k2 a2 e; cases e)
  | push s =>
    simp only [step, Option.some.injEq] at hs
    have h1 : b' = (tryPush s b).1 := by rw [hs]
    subst h1
    exact ⟨tryPush_nodup h, tryPush_lookup⟩
  | extend ss =>
    simp only [step, Option.some.injEq, Prod.mk.injEq] at hs
    obtain ⟨rfl, rfl⟩ := hs
    exact ⟨extend_nodup ss h, extend_lookup ss⟩
  | pop =>
    simp only [step, pop, Option.some.injEq, Prod.mk.injEq] at hs
    obtain ⟨rfl, rfl⟩ := hs
    rcases List.eq_nil_or_concat b with rfl | ⟨l, s, rfl⟩
    · exact ⟨by simpa using h, rfl⟩
    · rw [List.concat_eq_append] at h ⊢
      have e1 : (l ++ [s]).dropLast = l := by simp
      have e2 : (l ++ [s]).getLast? = some s := by simp
      rw [e1, e2]
      refine ⟨?_, ?_⟩
      · have := nodup_remove (p := l) (q := []) h; simpa using this
      · funext k'
        have := lookup_remove (p := l) (q := []) (k := k') h
        simpa [Table.after] using this
  | remove i =>
    simp only [step] at hs
    cases hv : vecRemove i b with
    | none => simp [hv] at hs
    | some x =>
      obtain ⟨s, l⟩ := x
      simp only [hv, Option.map_some, Option.some.injEq, Prod.mk.injEq] at hs
      obtain ⟨rfl, rfl⟩ := hs
      obtain ⟨p, q, rfl, rfl, _⟩ := vecRemove_some hv
      exact ⟨nodup_remove h, by funext k'; exact lookup_remove h⟩
  | removeAttribute k =>
    simp only [step] at hs
    rcases removeAttribute_cases k b with ⟨hr, hn⟩ | ⟨p, a, q, rfl, hp, hr⟩
    · rw [hr] at hs
      simp only [Option.map_some, Option.some.injEq, Prod.mk.injEq] at hs
      obtain ⟨rfl, rfl⟩ := hs
      refine ⟨h, ?_⟩
      funext k'
      simp only [Table.after, Table.drop]
      by_cases hk : k' = k
      · subst hk; rw [if_pos rfl, lookup_none.2 hn]
      · rw [if_neg hk]
    · rw [hr] at hs
      simp only [Option.map_some, Option.some.injEq, Prod.mk.injEq] at hs
      obtain ⟨rfl, rfl⟩ := hs
      exact ⟨nodup_remove h, by funext k'; exact lookup_remove h⟩
  | removeBlocks i =>
    simp only [step, removeBlocks] at hs
    rw [removeBlocksF_eq i _ b (by omega)] at hs
    simp only [Option.map_some, Option.some.injEq, Prod.mk.injEq] at hs
    obtain ⟨rfl, rfl⟩ := hs
    refine ⟨by rw [attrKeys_filter]; exact h, ?_⟩
    funext k'
    simp only [lookup_filter, Table.after]
  | setAttribute k a =>
    simp only [step, Option.some.injEq, Prod.mk.injEq] at hs
    obtain ⟨rfl, rfl⟩ := hs
    refine ⟨by rw [attrKeys_setAttribute]; exact h, ?_⟩
    funext k'
    rw [lookup_setAttribute]
    rfl
  | clear =>
    simp only [step, Option.some.injEq, Prod.mk.injEq] at hs
    obtain ⟨rfl, rfl⟩ := hs
    exact ⟨by simp [attrKeys], rfl⟩

theorem run_inv (ops : List (Op A B)) : ∀ {b b' : List (BStruct A B)} {rs : List (Ret A B)},
    (attrKeys b).Nodup → run b ops = some (b', rs) →
    (attrKeys b').Nodup ∧
      (fun k => lookup k b') = Table.history (fun k => lookup k b) ops rs := by
  induction ops with
  | nil =>
    intro b b' rs h hr
    simp only [run, Option.some.injEq, Prod.mk.injEq] at hr
    obtain ⟨rfl, rfl⟩ := hr
    exact ⟨h, rfl⟩
  | cons op ops ih =>
    intro b b' rs h hr
    simp only [run] at hr
    cases hs : step b op with
    | none => simp [hs] at hr
    | some x =>
      obtain ⟨b1, r⟩ := x
      simp only [hs] at hr
      cases h2 : run b1 ops with
      | none => simp [h2] at hr
      | some y =>
        obtain ⟨b2, rs2⟩ := y
        simp only [h2, Option.some.injEq, Prod.mk.injEq] at hr
        obtain ⟨rfl, rfl⟩ := hr
        have h3 := step_inv h hs
        have h4 := ih h3.1 h2
        refine ⟨h4.1, ?_⟩
        rw [h4.2, h3.2]
        rfl

end Verif
