import Verif.Spec.Iter
/-! C72: iterators over a body give out its attributes, blocks or structures once each, from both ends. -/

namespace Verif.Props
open Spec Iter

variable {α β : Type}

private theorem findNext_eq (f : α → Option β) : ∀ l : List α,
    (findNext f l).1 = (l.filterMap f).head? ∧ (findNext f l).2.filterMap f = (l.filterMap f).tail
  | [] => ⟨rfl, rfl⟩
  | x :: xs => by
    rw [findNext, List.filterMap_cons]
    cases hf : f x with
    | some y => exact ⟨rfl, rfl⟩
    | none => exact findNext_eq f xs

private theorem findNextBack_eq (f : α → Option β) (l : List α) :
    (findNextBack f l).1 = (l.filterMap f).getLast? ∧
      (findNextBack f l).2.filterMap f = (l.filterMap f).dropLast := by
  induction hn : l.length generalizing l with
  | zero =>
    obtain rfl := List.length_eq_zero_iff.mp hn
    rw [findNextBack]
    exact ⟨rfl, rfl⟩
  | succ n ih =>
    have hne : l ≠ [] := fun h => by subst h; cases hn
    have hl : l.dropLast ++ [l.getLast hne] = l := List.dropLast_concat_getLast hne
    have hg : l.getLast? = some (l.getLast hne) := List.getLast?_eq_some_getLast hne
    have hfm : l.filterMap f = l.dropLast.filterMap f ++ (f (l.getLast hne)).toList := by
      conv => lhs; rw [← hl]
      rw [List.filterMap_append]
      cases hf : f (l.getLast hne) <;> simp [hf]
    rw [findNextBack]
    split
    · rename_i x hx
      rw [hg] at hx
      injection hx with hx
      subst hx
      cases hf : f (l.getLast hne) with
      | some y =>
        rw [hf] at hfm
        simp [hfm]
      | none =>
        rw [hf] at hfm
        simp only [Option.toList_none, List.append_nil] at hfm
        rw [hfm]
        exact ih _ (by simp [hn])
    · rename_i hx
      rw [hg] at hx
      cases hx

private theorem runFind_eq (f : α → Option β) : ∀ (cs : List Bool) (l : List α),
    runFind f cs l = taken cs (l.filterMap f)
  | [], _ => rfl
  | false :: cs, l => by
    rw [runFind, taken, runFind_eq f cs, (findNext_eq f l).1, (findNext_eq f l).2]
  | true :: cs, l => by
    rw [runFind, taken, runFind_eq f cs, (findNextBack_eq f l).1, (findNextBack_eq f l).2]

/-- However `next` and `next_back` are called on an iterator over attributes, it gives out the attributes of
the body as if taken from the two ends of the row of attributes; when none are left it gives out nothing. -/
theorem C72_attributes (b : List Struct) (cs : List Bool) : attributes b cs = taken cs (attrRow b) := by
  have : attrRow b = b.filterMap asAttribute := by
    induction b with
    | nil => rfl
    | cons s b ih => cases s <;> simp [attrRow, asAttribute, ih, List.filterMap_cons]
  rw [this]
  exact runFind_eq _ _ _

/-- The same for blocks. -/
theorem C72_blocks (b : List Struct) (cs : List Bool) : blocks b cs = taken cs (blockRow b) := by
  have : blockRow b = b.filterMap asBlock := by
    induction b with
    | nil => rfl
    | cons s b ih => cases s <;> simp [blockRow, asBlock, ih, List.filterMap_cons]
  rw [this]
  exact runFind_eq _ _ _

/-- Calling `next` until the end gives the row itself, calling `next_back` the row backwards. -/
theorem C72_taken (l : List β) :
    taken (List.replicate l.length false) l = l.map some ∧
      taken (List.replicate l.length true) l = l.reverse.map some := by
  constructor
  · induction l with
    | nil => rfl
    | cons x l ih => simp [List.replicate_succ, taken, ih]
  · rw [← List.length_reverse]
    suffices h : ∀ r : List β, taken (List.replicate r.length true) r.reverse = r.map some by
      simpa using h l.reverse
    intro r
    induction r with
    | nil => rfl
    | cons x r ih => simp [List.replicate_succ, taken, ih]

/-- An iterator over all structures does the same, and its length is at any time the number of the
structures that are left. -/
theorem C72_structures (cs : List Call) : ∀ l : List α,
    (run cs l).filterMap given = taken (cs.filterMap direction) l ∧
      run (cs ++ [.len]) l = run cs l ++ [.len (l.length - (cs.filterMap direction).length)] := by
  induction cs with
  | nil => exact fun l => ⟨rfl, rfl⟩
  | cons c cs ih =>
    intro l
    cases c with
    | next =>
      obtain ⟨h1, h2⟩ := ih l.tail
      have : next l = (l.head?, l.tail) := by cases l <;> rfl
      simp only [List.cons_append, run, this, List.filterMap_cons, given, direction, taken, h1, h2, true_and,
        List.length_tail, List.length_cons, List.cons.injEq]
      rw [Nat.sub_sub, Nat.add_comm]
    | nextBack =>
      obtain ⟨h1, h2⟩ := ih l.dropLast
      simp only [List.cons_append, run, nextBack, List.filterMap_cons, given, direction, taken, h1, h2,
        true_and, List.length_dropLast, List.length_cons, List.cons.injEq]
      rw [Nat.sub_sub, Nat.add_comm]
    | len =>
      obtain ⟨h1, h2⟩ := ih l
      simp only [List.cons_append, run, List.filterMap_cons, given, direction, h1, h2, and_self]

/-- A builder builds the body with the structures that were added, in that order. -/
theorem C72_buildBody (cs : List BCall) : buildBody cs = cs.flatMap added := by
  have h : ∀ b : List Struct, cs.foldl bodyCall b = b ++ cs.flatMap added := by
    induction cs with
    | nil => simp
    | cons c cs ih =>
      intro b
      rw [List.foldl_cons, ih, List.flatMap_cons, ← List.append_assoc]
      cases c <;> simp [bodyCall, added, extend]
  simp [buildBody, fromIter, extend, h]

/-- The builder of blocks likewise, with the labels that were added. -/
theorem C72_buildBlock (i : Str) (cs : List BCall) :
    buildBlock i cs = .block i (cs.flatMap addedLabels) (cs.flatMap added) := by
  have h : ∀ s : List Label × List Struct,
      cs.foldl blockCall s = (s.1 ++ cs.flatMap addedLabels, s.2 ++ cs.flatMap added) := by
    induction cs with
    | nil => simp
    | cons c cs ih =>
      intro s
      rw [List.foldl_cons, ih, List.flatMap_cons, List.flatMap_cons, ← List.append_assoc,
        ← List.append_assoc]
      cases c <;> simp [blockCall, bodyCall, added, addedLabels, extend]
  simp [buildBlock, fromIter, extend, h]

/-- A block has the wanted labels if they are the first of its labels, whether those are written as
identifiers or as strings. -/
theorem C72_has_labels (ls : List ELabel) (want : List Str) :
    hasLabels ls want = true ↔ want <+: ls.map labelStr := by
  induction ls generalizing want with
  | nil => cases want <;> simp [hasLabels]
  | cons l ls ih =>
    cases want with
    | nil => simp [hasLabels]
    | cons w want =>
      have := ih want
      simp only [hasLabels] at this ⊢
      simp only [List.length_cons, Nat.add_lt_add_iff_right, List.zip_cons_cons, List.all_cons, List.map_cons,
        List.cons_prefix_cons, ← this]
      by_cases hl : ls.length < want.length
      · simp [hl]
      · simp [hl, @eq_comm _ w]

/-- It has exactly the wanted labels if they are its labels. -/
theorem C72_has_exact_labels (ls : List ELabel) (want : List Str) :
    hasExactLabels ls want = true ↔ ls.map labelStr = want := by
  rw [hasExactLabels, Bool.and_eq_true, C72_has_labels, beq_iff_eq]
  constructor
  · rintro ⟨h1, h2⟩
    exact (h2.eq_of_length (by simp [h1])).symm
  · rintro rfl
    exact ⟨by simp, List.prefix_refl _⟩

-- attributes around a block, taken from both ends
example : attributes [.attr c!"a" .null, .block c!"b" [] [], .attr c!"c" .null, .block c!"d" [] []]
    [true, false, false] = [some (c!"c", .null), some (c!"a", .null), none] := by
  rw [C72_attributes]; rfl

example : hasLabels [.ident { name := c!"a" }, .string {} c!"b"] [c!"a"] = true ∧
    hasExactLabels [.ident { name := c!"a" }, .string {} c!"b"] [c!"a"] = false := ⟨rfl, rfl⟩

example : buildBlock c!"b" [.label (.string c!"l"), .attribute c!"a" .null, .structures [.attr c!"a" .null]] =
    .block c!"b" [.string c!"l"] [.attr c!"a" .null, .attr c!"a" .null] := rfl

end Verif.Props
