import Verif.Lemmas.EvalWF
/-! Lemmas about `ofValue`, object insertion and in-place evaluation. -/

namespace Verif

/-! ### Values as expressions evaluate to themselves -/

theorem ofEntries_eq (es : List (Str × Value)) :
    ofEntries es = es.map (fun e => (ObjKey.expr (.string e.1), ofValue e.2)) := by
  induction es with
  | nil => rfl
  | cons e es ih => obtain ⟨k, v⟩ := e; simp [ofEntries, ih]

theorem ofValues_eq (xs : List Value) : ofValues xs = xs.map ofValue := by
  induction xs with
  | nil => rfl
  | cons e es ih => simp [ofValues, ih]

theorem beq_strKey (a b : Str) :
    ObjKey.beq (.expr (.string a)) (.expr (.string b)) = decide (a = b) := by
  simp [ObjKey.beq, Expr.beq]

/-- A map that turns `objInsert` into `Map.insert`. -/
theorem objInsert_map {tx : ObjKey → Str} {vl : Expr → Value} (k : ObjKey) (v : Expr)
    (m : List (ObjKey × Expr)) (h : ∀ p ∈ m, ObjKey.beq p.1 k = decide (tx p.1 = tx k)) :
    (objInsert k v m).map (fun p => (tx p.1, vl p.2)) =
      Map.insert (tx k) (vl v) (m.map fun p => (tx p.1, vl p.2)) := by
  induction m with
  | nil => rfl
  | cons p m ih =>
    obtain ⟨k', v'⟩ := p
    have hk := h _ (List.mem_cons_self ..)
    simp only at hk
    rw [objInsert.eq_def, List.map_cons, Map.insert.eq_def]
    simp only [hk]
    by_cases hd : tx k' = tx k
    · simp [hd]
    · simp only [hd, decide_false, Bool.false_eq_true, if_false, List.map_cons]
      rw [ih fun p hp => h p (List.mem_cons_of_mem _ hp)]

theorem mem_objInsert {k : ObjKey} {v : Expr} {m : List (ObjKey × Expr)} {p : ObjKey × Expr}
    (h : p ∈ objInsert k v m) :
    (p.1 = k ∨ p.1 ∈ m.map Prod.fst) ∧ (p.2 = v ∨ p.2 ∈ m.map Prod.snd) := by
  induction m with
  | nil => simp [objInsert] at h; simp [h]
  | cons q m ih =>
    obtain ⟨k', v'⟩ := q
    rw [objInsert.eq_def] at h
    simp only at h
    split at h
    · rcases List.mem_cons.1 h with h | h
      · simp [h]
      · have := List.mem_map_of_mem (f := Prod.fst) h
        have h2 := List.mem_map_of_mem (f := Prod.snd) h
        exact ⟨.inr (List.mem_cons_of_mem _ this), .inr (List.mem_cons_of_mem _ h2)⟩
    · rcases List.mem_cons.1 h with h | h
      · simp [h]
      · obtain ⟨h1, h2⟩ := ih h
        exact ⟨h1.imp id (List.mem_cons_of_mem _), h2.imp id (List.mem_cons_of_mem _)⟩

/-- Inserting entries one after the other. -/
def objInsertAll (es : List (ObjKey × Expr)) (m : List (ObjKey × Expr)) : List (ObjKey × Expr) :=
  es.foldl (fun m e => objInsert e.1 e.2 m) m

def mapInsertAll (es : List (Str × Value)) (m : List (Str × Value)) : List (Str × Value) :=
  es.foldl (fun m e => Map.insert e.1 e.2 m) m

theorem mem_objInsertAll {es m : List (ObjKey × Expr)} {p : ObjKey × Expr}
    (h : p ∈ objInsertAll es m) :
    (p.1 ∈ es.map Prod.fst ∨ p.1 ∈ m.map Prod.fst) ∧ (p.2 ∈ es.map Prod.snd ∨ p.2 ∈ m.map Prod.snd) := by
  induction es generalizing m with
  | nil =>
    exact ⟨.inr (List.mem_map_of_mem h), .inr (List.mem_map_of_mem h)⟩
  | cons e es ih =>
    obtain ⟨h1, h2⟩ := ih h
    constructor
    · rcases h1 with h1 | h1
      · exact .inl (List.mem_cons_of_mem _ h1)
      · obtain ⟨q, hq, hq'⟩ := List.mem_map.1 h1
        rw [← hq']
        rcases (mem_objInsert hq).1 with h | h
        · exact .inl (by rw [h]; exact List.mem_cons_self ..)
        · exact .inr h
    · rcases h2 with h1 | h1
      · exact .inl (List.mem_cons_of_mem _ h1)
      · obtain ⟨q, hq, hq'⟩ := List.mem_map.1 h1
        rw [← hq']
        rcases (mem_objInsert hq).2 with h | h
        · exact .inl (by rw [h]; exact List.mem_cons_self ..)
        · exact .inr h

theorem objInsertAll_map {tx : ObjKey → Str} {vl : Expr → Value} (es m : List (ObjKey × Expr))
    (h : ∀ a ∈ es.map Prod.fst ++ m.map Prod.fst, ∀ b ∈ es.map Prod.fst,
      ObjKey.beq a b = decide (tx a = tx b)) :
    (objInsertAll es m).map (fun p => (tx p.1, vl p.2)) =
      mapInsertAll (es.map fun p => (tx p.1, vl p.2)) (m.map fun p => (tx p.1, vl p.2)) := by
  induction es generalizing m with
  | nil => rfl
  | cons e es ih =>
    simp only [objInsertAll, mapInsertAll, List.foldl_cons, List.map_cons] at ih ⊢
    rw [ih, objInsert_map]
    · intro p hp
      exact h _ (List.mem_append_right _ (List.mem_map_of_mem hp)) _ (List.mem_cons_self ..)
    · intro a ha b hb
      refine h a ?_ b (List.mem_cons_of_mem _ hb)
      rcases List.mem_append.1 ha with ha | ha
      · exact List.mem_append_left _ (List.mem_cons_of_mem _ ha)
      · obtain ⟨q, hq, rfl⟩ := List.mem_map.1 ha
        rcases (mem_objInsert hq).1 with h' | h'
        · rw [h']; exact List.mem_append_left _ (List.mem_cons_self ..)
        · exact List.mem_append_right _ h'

theorem Map.insert_append {K V : Type} [DecidableEq K] {k : K} {v : V} {m : List (K × V)}
    (h : k ∉ m.map Prod.fst) : Map.insert k v m = m ++ [(k, v)] := by
  induction m with
  | nil => rfl
  | cons p m ih =>
    obtain ⟨k', v'⟩ := p
    simp only [List.map_cons, List.mem_cons, not_or] at h
    rw [Map.insert.eq_def]
    simp only [Ne.symm h.1, if_false, List.cons_append]
    rw [ih h.2]

theorem mapInsertAll_nodup {es m : List (Str × Value)} (h : ((m ++ es).map Prod.fst).Nodup) :
    mapInsertAll es m = m ++ es := by
  induction es generalizing m with
  | nil => simp [mapInsertAll]
  | cons e es ih =>
    simp only [mapInsertAll, List.foldl_cons] at ih ⊢
    have hn : e.1 ∉ m.map Prod.fst := by
      intro hm
      rw [List.map_append, List.map_cons] at h
      exact (List.nodup_append.1 h).2.2 _ hm _ (List.mem_cons_self ..) rfl
    rw [Map.insert_append hn, ih]
    · simp
    · simpa using h

theorem Map.collect_nodup {es : List (Str × Value)} (h : (es.map Prod.fst).Nodup) :
    Map.collect es = es := mapInsertAll_nodup (m := []) (by simpa using h)

theorem Map.nodup_collect (es : List (Str × Value)) : ((Map.collect es).map Prod.fst).Nodup := by
  have : ∀ (es m : List (Str × Value)), (m.map Prod.fst).Nodup →
      ((es.foldl (fun m e => Map.insert e.1 e.2 m) m).map Prod.fst).Nodup := by
    intro es
    induction es with
    | nil => intro m h; exact h
    | cons e es ih => intro m h; exact ih _ (Map.nodup_insert h)
  exact this es [] (by simp)

/-- The object expression of a map with unique keys lists its entries in order. -/
theorem objCollect_ofEntries {es : List (Str × Value)} (h : (es.map Prod.fst).Nodup) :
    objCollect (ofEntries es) = ofEntries es := by
  have key : ∀ (es m : List (Str × Value)), ((m ++ es).map Prod.fst).Nodup →
      objInsertAll (ofEntries es) (ofEntries m) = ofEntries (m ++ es) := by
    intro es
    induction es with
    | nil => intro m _; simp [objInsertAll, ofEntries]
    | cons e es ih =>
      intro m h
      obtain ⟨k, v⟩ := e
      have hn : k ∉ m.map Prod.fst := by
        intro hm
        rw [List.map_append, List.map_cons] at h
        exact (List.nodup_append.1 h).2.2 _ hm _ (List.mem_cons_self ..) rfl
      have hins : ∀ m : List (Str × Value), k ∉ m.map Prod.fst →
          objInsert (.expr (.string k)) (ofValue v) (ofEntries m) = ofEntries (m ++ [(k, v)]) := by
        intro m
        induction m with
        | nil => intro _; rfl
        | cons p m ih =>
          intro h
          obtain ⟨k', v'⟩ := p
          simp only [List.map_cons, List.mem_cons, not_or] at h
          simp only [ofEntries, List.cons_append, objInsert, beq_strKey, Ne.symm h.1, decide_false,
            Bool.false_eq_true, if_false]
          rw [ih h.2]
      have := ih (m ++ [(k, v)]) (by simpa using h)
      simp only [objInsertAll, ofEntries, List.foldl_cons] at this ⊢
      rw [hins m hn, this]
      simp
  exact key es [] (by simpa using h)

theorem mapR_ok {α β : Type} {f : α → R β} {g : α → β} {l : List α}
    (h : ∀ a ∈ l, f a = .ok (g a)) : mapR f l = .ok (l.map g) := by
  induction l with
  | nil => rfl
  | cons a l ih =>
    simp only [mapR, h a (List.mem_cons_self ..), R.bind,
      ih fun b hb => h b (List.mem_cons_of_mem _ hb), List.map_cons]

theorem mapR_map {α β γ : Type} {f : α → R β} {g : γ → α} {l : List γ} :
    mapR f (l.map g) = mapR (fun x => f (g x)) l := by
  induction l with
  | nil => rfl
  | cons a l ih => simp only [mapR, List.map_cons, ih]

theorem evalEntry_strKey {env : Env} {c : Ctx} {k : Str} {e : Expr} {v : Value}
    (h : eval env c e = .ok v) :
    evalEntry env (evalRec env) c (.expr (.string k), e) = .ok (k, v) := by
  have hk : (evalRec env).expr c (.string k) = .ok (.string k) := eval_string k
  have hv : (evalRec env).expr c e = .ok v := h
  simp only [evalEntry, evalKey, evalObjectKey, hk, hv, R.bind, keyOfValue]

mutual
/-- Evaluating the expression form of a value yields the value. -/
theorem eval_ofValue {env : Env} {c : Ctx} : ∀ v : Value, v.WF → eval env c (ofValue v) = .ok v
  | .null, _ => eval_null
  | .bool b, _ => eval_bool b
  | .number n, _ => eval_number n
  | .string s, _ => eval_string s
  | .array xs, h => by
    rw [ofValue, eval_array, eval_ofValues xs (by simpa [Value.WF] using h)]; rfl
  | .object es, h => by
    simp only [Value.WF] at h
    rw [ofValue, objCollect_ofEntries h.1, eval_object, eval_ofEntries es h.2]
    simp only [R.bind, Map.collect_nodup h.1]
theorem eval_ofValues {env : Env} {c : Ctx} : ∀ xs : List Value, Value.WFList xs →
    mapR (eval env c) (ofValues xs) = .ok xs
  | [], _ => rfl
  | v :: vs, h => by
    simp only [Value.WFList] at h
    simp only [ofValues, mapR, eval_ofValue v h.1, eval_ofValues vs h.2, R.bind]
theorem eval_ofEntries {env : Env} {c : Ctx} : ∀ es : List (Str × Value), Value.WFObj es →
    mapR (evalEntry env (evalRec env) c) (ofEntries es) = .ok es
  | [], _ => rfl
  | (k, v) :: es, h => by
    simp only [Value.WFObj] at h
    simp only [ofEntries, mapR, evalEntry_strKey (eval_ofValue v h.1), eval_ofEntries es h.2, R.bind]
end

end Verif
