import Verif.Lemmas.EditInPlace
/-!
C96: the accessors of attributes and blocks, and changes of a body in place.
-/

namespace Verif.Spec

/-- The key, if the structure is an attribute. -/
def keyOf : EStruct → Option Str
  | .attr _ k _ => some k.name
  | .block .. => none

/-- The structures of a body. -/
def structsOf : EBody → List EStruct
  | .mk _ ss _ _ => ss

/-- The keys of the attributes of a body. -/
def keysOf (b : EBody) : List Str := (structsOf b).filterMap keyOf

end Verif.Spec

namespace Verif.Props
open Spec

/-- C96: a structure is either an attribute or a block, the accessors give all of it, and `into_attribute` and
`into_block` give it back unchanged if it is the other. -/
theorem C96_accessors (s : EStruct) :
    (s.isAttribute = !s.isBlock) ∧
    (∀ a, s.asAttribute = some a ↔ s = EStruct.ofAttribute a) ∧ (∀ b, s.asBlock = some b ↔ s = EStruct.ofBlock b) ∧
    (∀ a, s.intoAttribute = .ok a ↔ s = EStruct.ofAttribute a) ∧ (∀ b, s.intoBlock = .ok b ↔ s = EStruct.ofBlock b) ∧
    (∀ t, s.intoAttribute = .error t ↔ s = t ∧ s.isBlock = true) ∧
    (∀ t, s.intoBlock = .error t ↔ s = t ∧ s.isAttribute = true) := by
  cases s <;> simp [EStruct.isAttribute, EStruct.isBlock, EStruct.asAttribute, EStruct.asBlock, EStruct.intoAttribute,
    EStruct.intoBlock, EStruct.ofAttribute, EStruct.ofBlock]

theorem EditInPlace.keyOf_apply (e : StructEdit) (s : EStruct) : keyOf (e.apply s) = keyOf s := by
  cases e <;> cases s <;> rfl

/-- C96: changes in place, in any number, keep the structures where they are: at every index there is an attribute with
the same key as before, or a block if there was one. -/
theorem C96_in_place (b b' : EBody) (es : List (Nat × StructEdit))
    (h : EBody.edits (es.map fun e => .at e.1 e.2) b = some b') :
    (structsOf b').map keyOf = (structsOf b).map keyOf := by
  induction es generalizing b with
  | nil => simp [EBody.edits] at h; rw [h]
  | cons e es ih =>
    obtain ⟨m, ss, o, om⟩ := b
    simp only [List.map_cons, EBody.edits, EBody.edit, Option.bind_some] at h
    rw [ih _ h]
    simp only [structsOf]
    apply List.ext_getElem?
    intro j
    simp only [List.getElem?_map, List.getElem?_modify]
    split
    · cases ss[j]? <;> simp [EditInPlace.keyOf_apply]
    · simp

/-- C96: a change in place never panics and changes nothing at other indices. A new value for an attribute is its value
afterwards, and everything else about it stays; of a block it changes nothing, and neither does a new block of an
attribute. -/
theorem C96_one_change (b : EBody) (i : Nat) (c : StructEdit) :
    ∃ b', EBody.edit (.at i c) b = some b' ∧
      (∀ j, j ≠ i → (structsOf b')[j]? = (structsOf b)[j]?) ∧
      (∀ m k v, (structsOf b)[i]? = some (.attr m k v) →
        (∀ e, c = .value e → (structsOf b')[i]? = some (.attr m k e)) ∧
        (∀ x, c = .block x → (structsOf b')[i]? = some (.attr m k v)) ∧
        (∀ d, c = .keyDecor d → (structsOf b')[i]? = some (.attr m ⟨⟨d, k.m.span⟩, k.name⟩ v)) ∧
        ∀ d, c = .decor d → (structsOf b')[i]? = some (.attr ⟨d, m.span⟩ k v)) ∧
      ∀ m n ls x, (structsOf b)[i]? = some (.block m n ls x) →
        (∀ e, c = .value e → (structsOf b')[i]? = some (.block m n ls x)) ∧
        (∀ y, c = .block y → (structsOf b')[i]? = some (EStruct.ofBlock y)) ∧
        (∀ d, c = .keyDecor d → (structsOf b')[i]? = some (.block m n ls x)) ∧
        ∀ d, c = .decor d → (structsOf b')[i]? = some (.block ⟨d, m.span⟩ n ls x) := by
  obtain ⟨m, ss, o, om⟩ := b
  refine ⟨_, rfl, fun j hj => ?_, fun m k v h => ?_, fun m n ls x h => ?_⟩
  · simp [structsOf, List.getElem?_modify, Ne.symm hj]
  · simp only [structsOf] at h
    refine ⟨?_, ?_, ?_, ?_⟩ <;> (rintro y rfl; simp [structsOf, h, StructEdit.apply])
  · simp only [structsOf] at h
    refine ⟨?_, ?_, ?_, ?_⟩ <;> (rintro y rfl; simp [structsOf, h, StructEdit.apply])

theorem EditInPlace.split_join (s : EStruct) : EStruct.join s.split = s := by cases s <;> rfl

theorem EditInPlace.attrKeys_split (ss : List EStruct) : attrKeys (ss.map EStruct.split) = ss.filterMap keyOf := by
  induction ss with
  | nil => rfl
  | cons s ss ih => cases s <;> simp [EStruct.split, attrKeys, keyOf, ih, List.filterMap_cons]

theorem EditInPlace.step_keys {b b' : EBody} {op : Body.Op EAttr EBlock}
    (hg : ∀ x ∈ broughtIn op, ∃ s : EStruct, s.split = x) (hop : ∀ k a, op ≠ .setAttribute k a)
    (h : (b.step op).map Prod.fst = some b') (hn : (keysOf b).Nodup) : (keysOf b').Nodup := by
  obtain ⟨m, ss, o, om⟩ := b
  simp only [EBody.step, Option.map_map] at h
  cases hs : Body.step (ss.map EStruct.split) op with
  | none => simp [hs] at h
  | some p =>
    obtain ⟨l, r⟩ := p
    simp [hs] at h
    subst h
    have hl : (l.map EStruct.join).map EStruct.split = l := by
      rw [List.map_map]
      refine (List.map_congr_left ?_).trans (List.map_id l)
      intro x hx
      have : ∃ s : EStruct, s.split = x := by
        rcases step_mem hs hop x hx with h | h
        · obtain ⟨s, _, hs⟩ := List.mem_map.1 h
          exact ⟨s, hs⟩
        · exact hg x h
      obtain ⟨s, rfl⟩ := this
      simp [EditInPlace.split_join]
    simp only [keysOf, structsOf] at hn ⊢
    rw [← EditInPlace.attrKeys_split] at hn ⊢
    rw [hl]
    exact (step_inv hn hs).1

/-- C96: no history of insertions, removals and changes in place, mixed in any way, gives a body two attributes with the
same key, if it had no two before. -/
theorem C96_unique_keys (b b' : EBody) (es : List BodyEdit) (h : b.edits es = some b') (hn : (keysOf b).Nodup) :
    (keysOf b').Nodup := by
  induction es generalizing b with
  | nil => simp [EBody.edits] at h; exact h ▸ hn
  | cons e es ih =>
    simp only [EBody.edits] at h
    cases hc : b.edit e with
    | none => simp [hc] at h
    | some c =>
      simp [hc] at h
      refine ih c h ?_
      cases e with
      | «at» i e =>
        have h1 := C96_in_place b c [(i, e)] (by simp [EBody.edits, hc])
        have h2 : ∀ x : EBody, keysOf x = ((structsOf x).map keyOf).filterMap id := by
          intro x
          simp [keysOf, List.filterMap_map]
        rw [h2, h1, ← h2]
        exact hn
      | insert i s => exact EditInPlace.step_keys (by simp [broughtIn]) (by simp) hc hn
      | push s => exact EditInPlace.step_keys (by simp [broughtIn]) (by simp) hc hn
      | extend ss => exact EditInPlace.step_keys (by simp [broughtIn]) (by simp) hc hn
      | _ => exact EditInPlace.step_keys (by simp [broughtIn]) (by simp) hc hn

-- an attribute is added, its value changed, and the same key is not added again
example : ∃ b, EBody.edits [.push (.attr {} ⟨{}, c!"a"⟩ (.null {})), .at 0 (.value (.bool {} true)),
    .push (.attr {} ⟨{}, c!"a"⟩ (.null {}))] (.mk {} [] false false) = some b ∧
    structsOf b = [.attr {} ⟨{}, c!"a"⟩ (.bool {} true)] := ⟨_, rfl, rfl⟩

end Verif.Props
