import Verif.Lemmas.ObjectMap
/-! C74: an object of `hcl-edit` is a map that keeps the order of its entries. -/

namespace Verif.Props
open Spec Obj

/-- **C74**: whatever is done with an object that starts empty, no key is in it twice. -/
theorem C74_distinct_keys (ops : List Op) (ho : ∀ op ∈ ops, op.ProperKeys) :
    (run [] ops).1.Pairwise fun i j => EExpr.beqKey i.key j.key = false := by
  have h := (run_inv ho (t := fun _ => none) (is := []) (fun _ _ => rfl) ⟨nofun, .nil⟩).1
  refine h.2.imp_of_mem fun {a b} ha hb hn => ?_
  rw [Bool.eq_false_iff]
  exact fun e => hn ((beqKey_iff (h.1 a ha) (h.1 b hb)).mp e)

/-- **C74**: after any history of operations, `get_key_value`, `get` and `contains_key` tell what the history
stored last for the key. -/
theorem C74_history (ops : List Op) (ho : ∀ op ∈ ops, op.ProperKeys) (k : EKey) (hk : ProperKey k) :
    getKeyValue k (run [] ops).1 = Known.history (fun _ => none) ops k ∧
    Obj.get k (run [] ops).1 = (Known.history (fun _ => none) ops k).map (·.2) ∧
    containsKey k (run [] ops).1 = (Known.history (fun _ => none) ops k).isSome := by
  have h := run_inv ho (t := fun _ => none) (is := []) (fun _ _ => rfl) ⟨nofun, .nil⟩
  have h1 := h.2 k hk
  refine ⟨h1.symm, by rw [Obj.get, h1], ?_⟩
  rw [h1, containsKey, getKeyValue]
  rcases indexOf_cases hk h.1.1 with ⟨h2, _⟩ | ⟨p, i, q, h2, h3, _⟩
  · rw [h2]; rfl
  · rw [h3, h2]; simp

/-- **C74**: the returned values are those that were known before: `insert`, `remove` and an assignment
through `get_mut` have the value of the key, `remove_entry` the entry. -/
theorem C74_returned (ops : List Op) (ho : ∀ op ∈ ops, op.ProperKeys) (k : EKey) (hk : ProperKey k) (v : Val) :
    (insert k v (run [] ops).1).2 = (Known.history (fun _ => none) ops k).map (·.2) ∧
    (remove k (run [] ops).1).2 = (Known.history (fun _ => none) ops k).map (·.2) ∧
    (setValue k v (run [] ops).1).2 = (Known.history (fun _ => none) ops k).map (·.2) ∧
    (removeEntry k (run [] ops).1).2 = Known.history (fun _ => none) ops k := by
  obtain ⟨h1, h2, -⟩ := C74_history ops ho k hk
  have hd := (run_inv ho (t := fun _ => none) (is := []) (fun _ _ => rfl) ⟨nofun, .nil⟩).1
  have h3 : (removeEntry k (run [] ops).1).2 = getKeyValue k (run [] ops).1 := by
    rcases removeEntry_cases hk hd.1 with ⟨e1, _, e2⟩ | ⟨p, i, q, _, e1, _, _, e2⟩ <;> rw [e1, e2]
  refine ⟨h2, by rw [remove, h3, h1], ?_, by rw [h3, h1]⟩
  rcases setValue_cases hk v hd.1 with ⟨e1, e2⟩ | ⟨p, i, q, _, e1, _, e2⟩
  · rw [e2, ← h1, e1]; rfl
  · rw [e2, ← h1, e1]; rfl

/-- **C74**: `insert` replaces the value of an entry where it is, with its key, or appends an entry. -/
theorem C74_insert (is : List EItem) (hd : DistinctKeys is) (k : EKey) (hk : ProperKey k) (v : Val) :
    (∃ p i q, is = p ++ i :: q ∧ EqualKey i.key k ∧
      insert k v is = (p ++ entry i.key v :: q, some (val i))) ∨
    (∀ i ∈ is, ¬ EqualKey i.key k) ∧ insert k v is = (is ++ [entry k v], none) := by
  rcases itemInsert_cases hk v hd.1 with ⟨h1, h2, h3⟩ | ⟨p, i, q, h1, h2, h3, _, h5⟩
  · refine .inr ⟨h2, ?_⟩
    rw [Obj.insert, h3, Obj.get, h1]; rfl
  · refine .inl ⟨p, i, q, h1, h3, ?_⟩
    rw [Obj.insert, h5, Obj.get, h2]; rfl

/-- **C74**: `remove_entry` and `remove` take out the entry and leave the others in their order. -/
theorem C74_remove (is : List EItem) (hd : DistinctKeys is) (k : EKey) (hk : ProperKey k) :
    (∃ p i q, is = p ++ i :: q ∧ EqualKey i.key k ∧ removeEntry k is = (p ++ q, some (i.key, val i)) ∧
      remove k is = (p ++ q, some (val i))) ∨
    (∀ i ∈ is, ¬ EqualKey i.key k) ∧ removeEntry k is = (is, none) ∧ remove k is = (is, none) := by
  rcases removeEntry_cases hk hd.1 with ⟨_, h2, h3⟩ | ⟨p, i, q, h1, _, h3, _, h5⟩
  · exact .inr ⟨h2, h3, by rw [remove, h3]; rfl⟩
  · exact .inl ⟨p, i, q, h1, h3, h5, by rw [remove, h5]; rfl⟩

/-- **C74**: `get_mut`, `get_key_value_mut` and `iter_mut` reach the value of the key, the entry of the key
and all entries; what a key says and the order of the entries cannot be changed. -/
theorem C74_change (is : List EItem) (hd : DistinctKeys is) (k : EKey) (hk : ProperKey k) (v : Val)
    (f : EKey → Val → Decor × Val) :
    ((∃ p i q, is = p ++ i :: q ∧ EqualKey i.key k ∧ (setValue k v is).1 = p ++ entry i.key v :: q ∧
        ∃ d, changeEntry k f is = p ++ entry (setDecor d i.key) (f i.key (val i)).2 :: q) ∨
      (∀ i ∈ is, ¬ EqualKey i.key k) ∧ (setValue k v is).1 = is ∧ changeEntry k f is = is) ∧
    (∀ js, js = (setValue k v is).1 ∨ js = changeEntry k f is ∨ js = changeAll f is →
      js.map (fun i => keyContent i.key) = is.map fun i => keyContent i.key) ∧
    (changeAll f is).map val = is.map fun i => (f i.key (val i)).2 := by
  have h1 : ((∃ p i q, is = p ++ i :: q ∧ EqualKey i.key k ∧ (setValue k v is).1 = p ++ entry i.key v :: q ∧
        ∃ d, changeEntry k f is = p ++ entry (setDecor d i.key) (f i.key (val i)).2 :: q) ∨
      (∀ i ∈ is, ¬ EqualKey i.key k) ∧ (setValue k v is).1 = is ∧ changeEntry k f is = is) := by
    rcases indexOf_cases hk hd.1 with ⟨h1, h2⟩ | ⟨p, i, q, h1, h2, h3, _⟩
    · exact .inr ⟨h2, by simp only [setValue, h1], by simp only [changeEntry, h1]⟩
    · refine .inl ⟨p, i, q, h1, h3, ?_, (f i.key (val i)).1, ?_⟩
      · simp only [setValue, h2]; rw [h1, modify_at]
      · simp only [changeEntry, h2]; rw [h1, modify_at]; rfl
  refine ⟨h1, fun js hj => ?_, ?_⟩
  · rcases hj with rfl | rfl | rfl
    · rcases h1 with ⟨p, i, q, e1, _, e2, _⟩ | ⟨_, e, _⟩
      · rw [e2, e1]; simp [key_entry]
      · rw [e]
    · rcases h1 with ⟨p, i, q, e1, _, _, d, e2⟩ | ⟨_, _, e⟩
      · rw [e2, e1]; simp [key_entry, keyContent_setDecor]
      · rw [e]
    · simp [changeAll, change_key]
  · simp [changeAll, change, val_entry]

/-- **C74**: `len`, `is_empty` and `iter` are those of the entries in order, and an entry that `iter` gives
out is found under its key. -/
theorem C74_iter (is : List EItem) (hd : DistinctKeys is) :
    len is = (Obj.iter is).length ∧ (Obj.isEmpty is = true ↔ Obj.iter is = []) ∧
    (∀ e ∈ Obj.iter is, getKeyValue e.1 is = some e) ∧
    (∀ k e, getKeyValue k is = some e → e ∈ Obj.iter is) := by
  refine ⟨by simp [len, Obj.iter], by simp [Obj.isEmpty, Obj.iter], fun e he => ?_, fun k e he => ?_⟩
  · obtain ⟨i, hi, rfl⟩ := List.mem_map.mp he
    exact getKeyValue_mem (hd.1 i hi) hd hi (EqualKey.refl _)
  · simp only [getKeyValue] at he
    split at he
    · obtain ⟨i, hi, rfl⟩ := Option.map_eq_some_iff.mp he
      exact List.mem_map.mpr ⟨i, List.mem_of_getElem? hi, rfl⟩
    · cases he

/-- **C74**: the order of the entries is that of the first insertions: `extend` and `collect` with keys that
are pairwise different give the entries as they are. -/
theorem C74_collect (es : List (EKey × Val)) (hp : ∀ e ∈ es, ProperKey e.1)
    (hd : es.Pairwise fun a b => ¬ EqualKey a.1 b.1) : Obj.iter (extend es []) = es := by
  have key : ∀ (es : List (EKey × Val)) (is : List EItem), (∀ e ∈ es, ProperKey e.1) →
      (∀ i ∈ is, ProperKey i.key) → (es.Pairwise fun a b => ¬ EqualKey a.1 b.1) →
      (∀ i ∈ is, ∀ e ∈ es, ¬ EqualKey i.key e.1) → Obj.iter (extend es is) = Obj.iter is ++ es := by
    intro es
    induction es with
    | nil => intro is _ _ _ _; simp [extend]
    | cons e es ih =>
      intro is h1 h2 h3 h4
      obtain ⟨h5, h6⟩ := List.pairwise_cons.mp h3
      have hi : (insert e.1 e.2 is).1 = is ++ [entry e.1 e.2] := by
        rcases itemInsert_cases (h1 e (List.mem_cons_self ..)) e.2 h2 with ⟨_, _, h⟩ | ⟨p, i, q, h, _, h', _⟩
        · exact h
        · exact absurd h' (h4 i (by rw [h]; simp) e (List.mem_cons_self ..))
      have := ih (is ++ [entry e.1 e.2]) (fun x hx => h1 x (List.mem_cons_of_mem _ hx)) (by
          intro i hi
          rcases List.mem_append.mp hi with hi | hi
          · exact h2 i hi
          · rw [List.mem_singleton.mp hi]; exact h1 e (List.mem_cons_self ..)) h6 (by
          intro i hi x hx
          rcases List.mem_append.mp hi with hi | hi
          · exact h4 i hi x (List.mem_cons_of_mem _ hx)
          · rw [List.mem_singleton.mp hi]; exact h5 x hx)
      rw [extend, List.foldl_cons, hi]
      rw [extend] at this
      rw [this]
      simp [Obj.iter, key_entry, val_entry]
  simpa [Obj.iter] using key es [] hp nofun hd nofun

/-! ### A history -/

private def ka : EKey := .ident ⟨{}, c!"a"⟩
private def kb : EKey := .ident ⟨{ decor := ⟨some (.explicit c!" "), none⟩ }, c!"b"⟩
private def one : Val := { expr := .number {} (.posInt 1) none }
private def two : Val := { expr := .bool {} true, term := .newline }
private def history : List Op :=
  [.insert ka one, .extend [(kb, one), (ka, two)], .changeAll fun _ v => (⟨none, none⟩, v),
    .setValue kb two, .removeEntry ka, .changeEntry kb fun _ _ => (⟨some .empty, none⟩, one)]

private theorem proper_ident (d : DIdent) : ProperKey (.ident d) := by
  unfold ProperKey
  rw [keyContent]
  exact .node (by simp) (by simp)

-- the history is one with well-formed keys
example : ∀ op ∈ history, op.ProperKeys := by
  simp only [history, List.mem_cons, List.not_mem_nil, or_false]
  rintro op (rfl | rfl | rfl | rfl | rfl | rfl)
  · exact proper_ident _
  · intro e he
    simp only [List.mem_cons, List.not_mem_nil, or_false] at he
    rcases he with rfl | rfl <;> exact proper_ident _
  · trivial
  all_goals exact proper_ident _

-- one entry is left, with the key that was inserted first and other decor
example : Obj.iter (run [] history).1 = [(.ident ⟨{ decor := ⟨some .empty, none⟩ }, c!"b"⟩, one)] := rfl
example : (run [] history).2 = [.value none, .unit, .unit, .value (some one), .entry (some (ka, two)), .unit] :=
  rfl

-- the hypothesis of `C74_insert` and its first case
example : DistinctKeys [entry ka one, entry kb two] ∧
    (insert ka two [entry ka one, entry kb two]).1 = [entry ka two, entry kb two] := by
  refine ⟨⟨by simp [key_entry, ka, kb, proper_ident], ?_⟩, rfl⟩
  refine List.pairwise_cons.mpr ⟨fun j hj => ?_, List.pairwise_singleton ..⟩
  rw [List.mem_singleton.mp hj]
  show ¬ EqualKey ka kb
  rw [← beqKey_iff (a := ka) (b := kb) (proper_ident _) (proper_ident _)]
  decide

end Verif.Props
