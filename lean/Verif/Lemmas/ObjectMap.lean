import Verif.Spec.ObjectMap
import Verif.Lemmas.Content
/-! Helper lemmas for C74. -/

namespace Verif.Obj
open Spec

theorem beqKey_iff {a b : EKey} (ha : ProperKey a) (hb : ProperKey b) :
    EExpr.beqKey a b = true ↔ EqualKey a b := by
  rw [beqKey_content]; exact Content.beq_iff _ ha hb

theorem EqualKey.refl (a : EKey) : EqualKey a a := Same.refl _
theorem EqualKey.symm {a b : EKey} (h : EqualKey a b) : EqualKey b a := Same.symm h
theorem EqualKey.trans {a b c : EKey} (h : EqualKey a b) (k : EqualKey b c) : EqualKey a c := Same.trans h k

theorem content_mapMeta (g : Meta → Meta) (e : EExpr) : content (e.mapMeta g) = content e := by
  cases e <;> simp [EExpr.mapMeta, content]

theorem keyContent_setDecor (d : Decor) (k : EKey) : keyContent (setDecor d k) = keyContent k := by
  cases k with
  | ident => rfl
  | expr e => simp only [setDecor, EKey.mapMeta, keyContent, content_mapMeta]

theorem entry_val (i : EItem) : entry i.key (val i) = i := by cases i; rfl
theorem key_entry (k : EKey) (v : Val) : (entry k v).key = k := rfl
theorem val_entry (k : EKey) (v : Val) : val (entry k v) = v := rfl

/-- The entry with the key is at a position, or there is none. -/
theorem indexOf_cases {k : EKey} (hk : ProperKey k) {is : List EItem} (hp : ∀ i ∈ is, ProperKey i.key) :
    (indexOf k is = none ∧ ∀ i ∈ is, ¬ EqualKey i.key k) ∨
      ∃ p i q, is = p ++ i :: q ∧ indexOf k is = some p.length ∧ EqualKey i.key k ∧
        ∀ j ∈ p, ¬ EqualKey j.key k := by
  induction is with
  | nil => exact .inl ⟨rfl, nofun⟩
  | cons i is ih =>
    have hi := beqKey_iff (hp i (List.mem_cons_self ..)) hk
    by_cases hb : EqualKey i.key k
    · refine .inr ⟨[], i, is, rfl, ?_, hb, nofun⟩
      simp [indexOf, List.findIdx?_cons, hi.mpr hb]
    · have hf : EExpr.beqKey i.key k = false := by
        cases h : EExpr.beqKey i.key k with
        | true => exact absurd (hi.mp h) hb
        | false => rfl
      rcases ih fun j hj => hp j (List.mem_cons_of_mem _ hj) with ⟨h1, h2⟩ | ⟨p, j, q, h1, h2, h3, h4⟩
      · refine .inl ⟨?_, ?_⟩
        · simp only [indexOf] at h1 ⊢
          simp [List.findIdx?_cons, hf, h1]
        · intro j hj
          rcases List.mem_cons.mp hj with rfl | hj
          · exact hb
          · exact h2 j hj
      · refine .inr ⟨i :: p, j, q, by rw [h1]; rfl, ?_, h3, ?_⟩
        · simp only [indexOf] at h2 ⊢
          simp [List.findIdx?_cons, hf, h2]
        · intro j hj
          rcases List.mem_cons.mp hj with rfl | hj
          · exact hb
          · exact h4 j hj

/-- A lookup finds nothing, or the entry with the key. -/
theorem getKeyValue_cases {k : EKey} (hk : ProperKey k) {is : List EItem}
    (hp : ∀ i ∈ is, ProperKey i.key) :
    (getKeyValue k is = none ∧ ∀ i ∈ is, ¬ EqualKey i.key k) ∨
      ∃ p i q, is = p ++ i :: q ∧ getKeyValue k is = some (i.key, val i) ∧ EqualKey i.key k ∧
        ∀ j ∈ p, ¬ EqualKey j.key k := by
  rcases indexOf_cases hk hp with ⟨h1, h2⟩ | ⟨p, i, q, rfl, h2, h3, h4⟩
  · exact .inl ⟨by simp [getKeyValue, h1], h2⟩
  · exact .inr ⟨p, i, q, rfl, by simp [getKeyValue, h2], h3, h4⟩

/-- A lookup finds the entry with the key. -/
theorem getKeyValue_mem {k : EKey} (hk : ProperKey k) {is : List EItem} (hd : DistinctKeys is)
    {i : EItem} (hi : i ∈ is) (hs : EqualKey i.key k) : getKeyValue k is = some (i.key, val i) := by
  rcases getKeyValue_cases hk hd.1 with ⟨_, h2⟩ | ⟨p, j, q, h1, h2, h3, h4⟩
  · exact absurd hs (h2 i hi)
  · subst h1
    rw [h2]
    rcases List.mem_append.mp hi with hi | hi
    · exact absurd hs (h4 i hi)
    · rcases List.mem_cons.mp hi with rfl | hi
      · rfl
      · have := (List.pairwise_append.mp hd.2).2.1
        exact absurd (EqualKey.trans h3 (EqualKey.symm hs)) ((List.pairwise_cons.mp this).1 i hi)

theorem getKeyValue_none {k : EKey} (hk : ProperKey k) {is : List EItem}
    (hp : ∀ i ∈ is, ProperKey i.key) (h : ∀ i ∈ is, ¬ EqualKey i.key k) : getKeyValue k is = none := by
  rcases getKeyValue_cases hk hp with ⟨h1, _⟩ | ⟨p, j, q, rfl, _, h3, _⟩
  · exact h1
  · exact absurd h3 (h j (by simp))

/-- What an insertion does. -/
theorem itemInsert_cases {k : EKey} (hk : ProperKey k) (v : Val) {is : List EItem}
    (hp : ∀ i ∈ is, ProperKey i.key) :
    (getKeyValue k is = none ∧ (∀ i ∈ is, ¬ EqualKey i.key k) ∧
        itemInsert k v.expr v.assign v.term is = is ++ [entry k v]) ∨
      ∃ p i q, is = p ++ i :: q ∧ getKeyValue k is = some (i.key, val i) ∧ EqualKey i.key k ∧
        (∀ j ∈ p, ¬ EqualKey j.key k) ∧
        itemInsert k v.expr v.assign v.term is = p ++ entry i.key v :: q := by
  have key : ∀ p : List EItem, (∀ j ∈ p, ProperKey j.key) → (∀ j ∈ p, ¬ EqualKey j.key k) → ∀ r,
      itemInsert k v.expr v.assign v.term (p ++ r) = p ++ itemInsert k v.expr v.assign v.term r := by
    intro p h1 h2 r
    induction p with
    | nil => rfl
    | cons j p ih =>
      have hb := beqKey_iff (h1 j (List.mem_cons_self ..)) hk
      have hf : ¬ EExpr.beqKey j.key k = true := fun h => h2 j (List.mem_cons_self ..) (hb.mp h)
      cases j with
      | mk k' v' a t =>
        simp only [EItem.key] at hf
        simp only [List.cons_append, itemInsert]
        rw [if_neg hf, ih (fun j hj => h1 j (List.mem_cons_of_mem _ hj))
          (fun j hj => h2 j (List.mem_cons_of_mem _ hj))]
  rcases getKeyValue_cases hk hp with ⟨h1, h2⟩ | ⟨p, i, q, rfl, h2, h3, h4⟩
  · refine .inl ⟨h1, h2, ?_⟩
    have := key is hp h2 []
    rw [List.append_nil] at this
    rw [this]; rfl
  · refine .inr ⟨p, i, q, rfl, h2, h3, h4, ?_⟩
    rw [key p (fun j hj => hp j (by simp [hj])) h4]
    have hb := (beqKey_iff (hp i (by simp)) hk).mpr h3
    cases i with
    | mk k' v' a t =>
      simp only [EItem.key] at hb
      simp [itemInsert, hb, entry, EItem.key]

/-- The keys of a list whose entries were replaced by ones with the same keys. -/
theorem distinct_congr {is js : List EItem} (h : DistinctKeys is)
    (e : js.map (fun i => keyContent i.key) = is.map fun i => keyContent i.key) : DistinctKeys js := by
  have aux : ∀ ks : List EItem, DistinctKeys ks ↔ (∀ c ∈ ks.map (fun i => keyContent i.key), Proper c) ∧
      (ks.map fun i => keyContent i.key).Pairwise fun a b => ¬ Same a b := by
    intro ks
    rw [List.pairwise_map, List.forall_mem_map]
    rfl
  rw [aux, e, ← aux]
  exact h

theorem distinct_insert {k : EKey} (hk : ProperKey k) (v : Val) {is : List EItem} (hd : DistinctKeys is) :
    DistinctKeys (itemInsert k v.expr v.assign v.term is) := by
  rcases itemInsert_cases hk v hd.1 with ⟨_, h2, h3⟩ | ⟨p, i, q, rfl, _, _, _, h5⟩
  · rw [h3]
    refine ⟨fun j hj => ?_, ?_⟩
    · rcases List.mem_append.mp hj with hj | hj
      · exact hd.1 j hj
      · rw [List.mem_singleton.mp hj]; exact hk
    · refine List.pairwise_append.mpr ⟨hd.2, List.pairwise_singleton .., fun i hi j hj => ?_⟩
      rw [List.mem_singleton.mp hj]
      exact h2 i hi
  · rw [h5]
    exact distinct_congr hd (by simp [key_entry])

theorem get_insert {k k' : EKey} (hk : ProperKey k) (hk' : ProperKey k') (v : Val) {is : List EItem}
    (hd : DistinctKeys is) : getKeyValue k' (itemInsert k v.expr v.assign v.term is) =
      Known.put (fun x => getKeyValue x is) k v k' := by
  have hn := distinct_insert hk v hd
  by_cases hs : EqualKey k k'
  · rw [Known.put, if_pos hs]
    rcases itemInsert_cases hk v hd.1 with ⟨h1, _, h3⟩ | ⟨p, i, q, rfl, h2, h3, _, h5⟩
    · rw [getKeyValue_mem (i := entry k v) hk' hn (by rw [h3]; simp) hs, h1]; rfl
    · rw [getKeyValue_mem (i := entry i.key v) hk' hn (by rw [h5]; simp) (EqualKey.trans h3 hs), h2]; rfl
  · rw [Known.put, if_neg hs]
    rcases getKeyValue_cases hk' hd.1 with ⟨h1, h2⟩ | ⟨p, i, q, h1, h2, h3, _⟩
    · rw [h1]
      refine getKeyValue_none hk' hn.1 fun j hj => ?_
      rcases itemInsert_cases hk v hd.1 with ⟨_, _, h4⟩ | ⟨p, i, q, rfl, _, h3, _, h5⟩
      · rw [h4] at hj
        rcases List.mem_append.mp hj with hj | hj
        · exact h2 j hj
        · rw [List.mem_singleton.mp hj]; exact hs
      · rw [h5] at hj
        rcases List.mem_append.mp hj with hj | hj
        · exact h2 j (by simp [hj])
        · rcases List.mem_cons.mp hj with rfl | hj
          · exact fun h => hs (EqualKey.trans (EqualKey.symm h3) h)
          · exact h2 j (by simp [hj])
    · rw [h2]
      refine getKeyValue_mem hk' hn ?_ h3
      have hi : i ∈ is := by rw [h1]; simp
      rcases itemInsert_cases hk v hd.1 with ⟨_, _, h4⟩ | ⟨p', i', q', h4, _, h6, _, h5⟩
      · rw [h4]; simp [hi]
      · rw [h5]
        rw [h4] at hi
        rcases List.mem_append.mp hi with hi | hi
        · simp [hi]
        · rcases List.mem_cons.mp hi with rfl | hi
          · exact absurd (EqualKey.trans (EqualKey.symm h6) h3) hs
          · simp [hi]

/-- What a removal does. -/
theorem removeEntry_cases {k : EKey} (hk : ProperKey k) {is : List EItem}
    (hp : ∀ i ∈ is, ProperKey i.key) :
    (getKeyValue k is = none ∧ (∀ i ∈ is, ¬ EqualKey i.key k) ∧ removeEntry k is = (is, none)) ∨
      ∃ p i q, is = p ++ i :: q ∧ getKeyValue k is = some (i.key, val i) ∧ EqualKey i.key k ∧
        (∀ j ∈ p, ¬ EqualKey j.key k) ∧ removeEntry k is = (p ++ q, some (i.key, val i)) := by
  rcases indexOf_cases hk hp with ⟨h1, h2⟩ | ⟨p, i, q, rfl, h2, h3, h4⟩
  · exact .inl ⟨by simp [getKeyValue, h1], h2, by simp [removeEntry, h1]⟩
  · refine .inr ⟨p, i, q, rfl, by simp [getKeyValue, h2], h3, h4, ?_⟩
    simp [removeEntry, h2, Body.vecRemove]

theorem distinct_remove {k : EKey} (hk : ProperKey k) {is : List EItem} (hd : DistinctKeys is) :
    DistinctKeys (removeEntry k is).1 := by
  rcases removeEntry_cases hk hd.1 with ⟨_, _, h3⟩ | ⟨p, i, q, rfl, _, _, _, h5⟩
  · rw [h3]; exact hd
  · rw [h5]
    refine ⟨fun j hj => hd.1 j ?_, hd.2.sublist (List.Sublist.append_left (List.sublist_cons_self ..) _)⟩
    rcases List.mem_append.mp hj with h | h <;> simp [h]

theorem get_remove {k k' : EKey} (hk : ProperKey k) (hk' : ProperKey k') {is : List EItem}
    (hd : DistinctKeys is) : getKeyValue k' (removeEntry k is).1 =
      Known.drop (fun x => getKeyValue x is) k k' := by
  have hn := distinct_remove hk hd
  rcases removeEntry_cases hk hd.1 with ⟨h1, h2, h3⟩ | ⟨p, i, q, rfl, h2, h3, h4, h5⟩
  · rw [h3, Known.drop]
    split
    · rename_i hs
      exact getKeyValue_none hk' hd.1 fun j hj h => h2 j hj (EqualKey.trans h (EqualKey.symm hs))
    · rfl
  · rw [h5] at hn ⊢
    simp only at hn
    rw [Known.drop]
    have hpq := List.pairwise_cons.mp (List.pairwise_append.mp hd.2).2.1
    split
    · rename_i hs
      refine getKeyValue_none hk' hn.1 fun j hj h => ?_
      rcases List.mem_append.mp hj with hj | hj
      · exact h4 j hj (EqualKey.trans h (EqualKey.symm hs))
      · exact hpq.1 j hj (EqualKey.trans h3 (EqualKey.trans hs (EqualKey.symm h)))
    · rename_i hs
      rcases getKeyValue_cases hk' hd.1 with ⟨g1, g2⟩ | ⟨p', i', q', g1, g2, g3, _⟩
      · rw [g1]
        refine getKeyValue_none hk' hn.1 fun j hj => g2 j ?_
        rcases List.mem_append.mp hj with h | h <;> simp [h]
      · rw [g2]
        refine getKeyValue_mem hk' hn ?_ g3
        have hi : i' ∈ p ++ i :: q := by rw [g1]; simp
        rcases List.mem_append.mp hi with hi | hi
        · simp [hi]
        · rcases List.mem_cons.mp hi with rfl | hi
          · exact absurd (EqualKey.trans (EqualKey.symm h3) g3) hs
          · simp [hi]

/-- Replacing the entry at a position by one with the same key. -/
theorem modify_at {p q : List EItem} {i : EItem} (g : EItem → EItem) :
    (p ++ i :: q).modify p.length g = p ++ g i :: q := by
  induction p with
  | nil => rfl
  | cons x p ih => simpa using ih

theorem get_replace {p q : List EItem} {i j : EItem} {k' : EKey} (hk' : ProperKey k')
    (hd : DistinctKeys (p ++ i :: q)) (hj : keyContent j.key = keyContent i.key) :
    DistinctKeys (p ++ j :: q) ∧ (EqualKey i.key k' → getKeyValue k' (p ++ j :: q) = some (j.key, val j)) ∧
      (¬ EqualKey i.key k' → getKeyValue k' (p ++ j :: q) = getKeyValue k' (p ++ i :: q)) := by
  have hn : DistinctKeys (p ++ j :: q) := distinct_congr hd (by simp [hj])
  refine ⟨hn, fun h => getKeyValue_mem hk' hn (by simp) (by unfold EqualKey; rw [hj]; exact h), fun h => ?_⟩
  rcases getKeyValue_cases hk' hd.1 with ⟨g1, g2⟩ | ⟨p', i', q', g1, g2, g3, _⟩
  · rw [g1]
    refine getKeyValue_none hk' hn.1 fun x hx => ?_
    rcases List.mem_append.mp hx with hx | hx
    · exact g2 x (by simp [hx])
    · rcases List.mem_cons.mp hx with rfl | hx
      · unfold EqualKey; rw [hj]; exact h
      · exact g2 x (by simp [hx])
  · rw [g2]
    refine getKeyValue_mem hk' hn ?_ g3
    have hi : i' ∈ p ++ i :: q := by rw [g1]; simp
    rcases List.mem_append.mp hi with hi | hi
    · simp [hi]
    · rcases List.mem_cons.mp hi with rfl | hi
      · exact absurd g3 h
      · simp [hi]

theorem setValue_cases {k : EKey} (hk : ProperKey k) (v : Val) {is : List EItem}
    (hp : ∀ i ∈ is, ProperKey i.key) :
    (getKeyValue k is = none ∧ setValue k v is = (is, none)) ∨
      ∃ p i q, is = p ++ i :: q ∧ getKeyValue k is = some (i.key, val i) ∧ EqualKey i.key k ∧
        setValue k v is = (p ++ entry i.key v :: q, some (val i)) := by
  rcases indexOf_cases hk hp with ⟨h1, _⟩ | ⟨p, i, q, rfl, h2, h3, _⟩
  · exact .inl ⟨by simp [getKeyValue, h1], by simp [setValue, h1]⟩
  · have hg : getKeyValue k (p ++ i :: q) = some (i.key, val i) := by simp [getKeyValue, h2]
    refine .inr ⟨p, i, q, rfl, hg, h3, ?_⟩
    simp [setValue, h2, modify_at, get, hg]

theorem changeEntry_cases {k : EKey} (hk : ProperKey k) (f : EKey → Val → Decor × Val) {is : List EItem}
    (hp : ∀ i ∈ is, ProperKey i.key) :
    (getKeyValue k is = none ∧ (∀ i ∈ is, ¬ EqualKey i.key k) ∧ changeEntry k f is = is) ∨
      ∃ p i q, is = p ++ i :: q ∧ getKeyValue k is = some (i.key, val i) ∧ EqualKey i.key k ∧
        changeEntry k f is = p ++ change f i :: q := by
  rcases indexOf_cases hk hp with ⟨h1, h2⟩ | ⟨p, i, q, rfl, h2, h3, _⟩
  · exact .inl ⟨by simp [getKeyValue, h1], h2, by simp [changeEntry, h1]⟩
  · exact .inr ⟨p, i, q, rfl, by simp [getKeyValue, h2], h3, by simp [changeEntry, h2, modify_at]⟩

theorem change_key (f : EKey → Val → Decor × Val) (i : EItem) :
    keyContent (change f i).key = keyContent i.key := by
  rw [change, key_entry, keyContent_setDecor]

theorem change_pair (f : EKey → Val → Decor × Val) (i : EItem) :
    ((change f i).key, val (change f i)) = changed f (i.key, val i) := rfl

/-- Knowing what is stored for all well-formed keys. -/
def Knows (t : Known) (is : List EItem) : Prop := ∀ k, ProperKey k → t k = getKeyValue k is

theorem Knows.put {t : Known} {is : List EItem} (h : Knows t is) (hd : DistinctKeys is) {k : EKey}
    (hk : ProperKey k) (v : Val) : Knows (t.put k v) (itemInsert k v.expr v.assign v.term is) := by
  intro k' hk'
  rw [get_insert hk hk' v hd, Known.put, Known.put, h k hk, h k' hk']

theorem extend_inv {es : List (EKey × Val)} (he : ∀ e ∈ es, ProperKey e.1) : ∀ {t : Known} {is : List EItem},
    Knows t is → DistinctKeys is → DistinctKeys (extend es is) ∧
      Knows (es.foldl (fun t e => t.put e.1 e.2) t) (extend es is) := by
  induction es with
  | nil => intro t is h hd; exact ⟨hd, h⟩
  | cons e es ih =>
    intro t is h hd
    have hk := he e (List.mem_cons_self ..)
    exact ih (fun x hx => he x (List.mem_cons_of_mem _ hx)) (h.put hd hk e.2) (distinct_insert hk e.2 hd)

theorem step_inv {t : Known} {is : List EItem} {op : Op} (h : Knows t is) (hd : DistinctKeys is)
    (hop : op.ProperKeys) : DistinctKeys (step is op).1 ∧ Knows (t.after op) (step is op).1 := by
  cases op with
  | insert k v => exact ⟨distinct_insert hop v hd, h.put hd hop v⟩
  | extend es => exact extend_inv hop h hd
  | remove k =>
    refine ⟨distinct_remove hop hd, fun k' hk' => ?_⟩
    simp only [step, remove, Known.after]
    rw [get_remove hop hk' hd, Known.drop, Known.drop, h k' hk']
  | removeEntry k =>
    refine ⟨distinct_remove hop hd, fun k' hk' => ?_⟩
    simp only [step, Known.after]
    rw [get_remove hop hk' hd, Known.drop, Known.drop, h k' hk']
  | clear => exact ⟨⟨nofun, List.Pairwise.nil⟩, fun _ _ => rfl⟩
  | setValue k v =>
    simp only [step, Known.after]
    rw [h k hop]
    rcases setValue_cases hop v hd.1 with ⟨h1, h2⟩ | ⟨p, i, q, rfl, h2, h3, h4⟩
    · rw [h2, h1]; exact ⟨hd, h⟩
    · rw [h4, h2, Option.isSome_some, if_pos rfl]
      refine ⟨(get_replace hop hd (j := entry i.key v) rfl).1, fun k' hk' => ?_⟩
      obtain ⟨-, g1, g2⟩ := get_replace hk' hd (j := entry i.key v) rfl
      rw [Known.put, h k hop, h2]
      split
      · rename_i hs; rw [g1 (EqualKey.trans h3 hs)]; rfl
      · rename_i hs; rw [g2 fun x => hs (EqualKey.trans (EqualKey.symm h3) x), h k' hk']
  | changeEntry k f =>
    simp only [step]
    rcases changeEntry_cases hop f hd.1 with ⟨h1, h2, h3⟩ | ⟨p, i, q, rfl, h2, h3, h4⟩
    · rw [h3]
      refine ⟨hd, fun k' hk' => ?_⟩
      simp only [Known.after]
      split
      · rename_i hs
        rw [h k hop, h1, getKeyValue_none hk' hd.1 fun j hj x => h2 j hj (EqualKey.trans x (EqualKey.symm hs))]
        rfl
      · exact h k' hk'
    · rw [h4]
      refine ⟨(get_replace hop hd (change_key f i)).1, fun k' hk' => ?_⟩
      obtain ⟨-, g1, g2⟩ := get_replace hk' hd (change_key f i)
      simp only [Known.after]
      split
      · rename_i hs
        rw [g1 (EqualKey.trans h3 hs), h k hop, h2]; rfl
      · rename_i hs
        rw [g2 fun x => hs (EqualKey.trans (EqualKey.symm h3) x), h k' hk']
  | changeAll f =>
    have hn : DistinctKeys (changeAll f is) := distinct_congr hd (by
      simp only [changeAll, List.map_map]
      exact List.map_congr_left fun i _ => change_key f i)
    refine ⟨hn, fun k' hk' => ?_⟩
    simp only [Known.after, step]
    rw [h k' hk']
    rcases getKeyValue_cases hk' hd.1 with ⟨g1, g2⟩ | ⟨p, i, q, g1, g2, g3, _⟩
    · rw [g1, getKeyValue_none hk' hn.1]
      · rfl
      · intro j hj
        obtain ⟨i, hi, rfl⟩ := List.mem_map.mp hj
        unfold EqualKey
        rw [change_key]
        exact g2 i hi
    · rw [g2, getKeyValue_mem (i := change f i) hk' hn]
      · rfl
      · rw [g1]; simp [changeAll]
      · unfold EqualKey; rw [change_key]; exact g3

theorem run_inv {ops : List Op} (ho : ∀ op ∈ ops, op.ProperKeys) : ∀ {t : Known} {is : List EItem},
    Knows t is → DistinctKeys is → DistinctKeys (run is ops).1 ∧ Knows (t.history ops) (run is ops).1 := by
  induction ops with
  | nil => intro t is h hd; exact ⟨hd, h⟩
  | cons op ops ih =>
    intro t is h hd
    obtain ⟨h1, h2⟩ := step_inv h hd (ho op (List.mem_cons_self ..))
    exact ih (fun x hx => ho x (List.mem_cons_of_mem _ hx)) h2 h1

end Verif.Obj
