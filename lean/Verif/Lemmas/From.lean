import Verif.Spec.From
import Verif.Lemmas.Ser
import Verif.Lemmas.EvalWF
import Verif.Props.Number
/-! Lemmas about the conversions from Rust data. -/

namespace Verif.Spec

variable (E : FmtEnv)

/-! ### Serialization -/

theorem number_value {n : N} (h : WellFormed n) : ((Value.number n).sval.run E).value = SM.ret (.number n) :=
  value_sval E (.number n) trivial h

theorem number_expr {n : N} (h : WellFormed n) : ((Value.number n).sval.run E).expr = SM.ret (.number n) :=
  expr_sval E (.number n) h

mutual
theorem native_value : ∀ x : Native, Native.Ok x → (x.sval.run E).value = SM.ret x.intoValue
  | .unit, _ => rfl
  | .bool _, _ => rfl
  | .signed _, _ => rfl
  | .unsigned _, _ => rfl
  | .float x, _ => by
    show SM.ret (match N.fromF64 x with | some n => Value.number n | none => Value.null) = _
    rw [Native.intoValue]
    cases N.fromF64 x <;> rfl
  | .number n, h => number_value E h
  | .str _, _ => rfl
  | .list xs, h => by
    simp only [Native.sval, SVal.run, Ser.seq, native_values xs h, SM.ret_chain, Native.intoValue]
  | .pairs ps, h => by
    simp only [Native.sval, SVal.run, Ser.map, native_entries ps h, SM.ret_chain, Native.intoValue]
theorem native_values : ∀ xs : List Native, Native.OkAll xs →
    SM.each Sers.value (SVal.runs E (Native.svals xs)) = SM.ret (Native.intoValues xs)
  | [], _ => rfl
  | x :: xs, h => by
    simp only [Native.svals, SVal.runs, SM.each, native_value x h.1, native_values xs h.2, SM.ret_chain,
      Native.intoValues]
theorem native_entries : ∀ ps : List (Str × Native), Native.OkPairs ps →
    SM.each (fun p => Ser.valueEntry p.1.string p.2) (SVal.runEntries E (Native.svalPairs ps)) =
      SM.ret (Native.intoEntries ps)
  | [], _ => rfl
  | (k, x) :: ps, h => by
    simp only [Native.svalPairs, SVal.runEntries, SVal.runEntry, SM.each, Ser.valueEntry, Ser.entry,
      SVal.run, Ser.str, Ser.scalar, native_value x h.1, SM.ret_chain]
    have := native_entries ps h.2
    simp only [Ser.valueEntry, Ser.entry] at this
    simp only [this, SM.ret_chain, Native.intoEntries]
end

mutual
theorem native_expr : ∀ x : Native, Native.Ok x → (x.sval.run E).expr = SM.ret x.intoExpr
  | .unit, _ => rfl
  | .bool _, _ => rfl
  | .signed _, _ => rfl
  | .unsigned _, _ => rfl
  | .float x, _ => by
    show SM.ret (match N.fromF64 x with | some n => Expr.number n | none => Expr.null) = _
    rw [Native.intoExpr]
    cases N.fromF64 x <;> rfl
  | .number n, h => number_expr E h
  | .str _, _ => rfl
  | .list xs, h => by
    simp only [Native.sval, SVal.run, Ser.seq, native_exprs xs h, SM.ret_chain, Native.intoExpr]
  | .pairs ps, h => by
    simp only [Native.sval, SVal.run, Ser.map, native_items ps h, SM.ret_chain, Native.intoExpr]
theorem native_exprs : ∀ xs : List Native, Native.OkAll xs →
    SM.each Sers.expr (SVal.runs E (Native.svals xs)) = SM.ret (Native.intoExprs xs)
  | [], _ => rfl
  | x :: xs, h => by
    simp only [Native.svals, SVal.runs, SM.each, native_expr x h.1, native_exprs xs h.2, SM.ret_chain,
      Native.intoExprs]
theorem native_items : ∀ ps : List (Str × Native), Native.OkPairs ps →
    SM.each (fun p => Ser.exprEntry p.1.key p.2) (SVal.runEntries E (Native.svalPairs ps)) =
      SM.ret (Native.intoItems ps)
  | [], _ => rfl
  | (k, x) :: ps, h => by
    simp only [Native.svalPairs, SVal.runEntries, SVal.runEntry, SM.each, Ser.exprEntry, Ser.entry,
      SVal.run, Ser.str, Ser.scalar, native_expr x h.1, SM.ret_chain]
    have := native_items ps h.2
    simp only [Ser.exprEntry, Ser.entry] at this
    simp only [this, SM.ret_chain, Native.intoItems]
end

/-! ### The expression and the value -/

theorem intoItems_map : ∀ ps : List (Str × Native), Native.intoItems ps =
    (ps.map fun p => (p.1, p.2.intoExpr)).map fun p => (.expr (.string p.1), p.2)
  | [] => rfl
  | (k, x) :: ps => by rw [Native.intoItems, intoItems_map ps]; rfl

theorem intoEntries_map : ∀ ps : List (Str × Native), Native.intoEntries ps =
    ps.map fun p => (p.1, p.2.intoValue)
  | [] => rfl
  | (k, x) :: ps => by rw [Native.intoEntries, intoEntries_map ps]; rfl

mutual
theorem native_toValue : ∀ x : Native, toValue E x.intoExpr = x.intoValue
  | .unit => rfl
  | .bool _ => rfl
  | .signed _ => rfl
  | .unsigned _ => rfl
  | .float x => by
    rw [Native.intoValue, Native.intoExpr]
    cases N.fromF64 x <;> rfl
  | .number _ => rfl
  | .str _ => rfl
  | .list xs => by rw [Native.intoValue, Native.intoExpr, toValue, native_toValues xs]
  | .pairs ps => by
    rw [Native.intoValue, Native.intoExpr, toValue, intoItems_map, toValueEntries_objCollect, List.map_map]
    have := native_toPairs ps
    simp only [Function.comp_def] at this ⊢
    rw [this, collect_collect]
theorem native_toValues : ∀ xs : List Native, toValues E (Native.intoExprs xs) = Native.intoValues xs
  | [] => rfl
  | x :: xs => by
    rw [Native.intoExprs, toValues, native_toValue x, native_toValues xs, Native.intoValues]
theorem native_toPairs : ∀ ps : List (Str × Native),
    (ps.map fun p => (p.1, toValue E p.2.intoExpr)) = Native.intoEntries ps
  | [] => rfl
  | (k, x) :: ps => by
    rw [List.map_cons, native_toPairs ps, native_toValue x, Native.intoEntries]
end

/-! ### The objects -/

theorem map_keys_insert {V : Type} {k : Str} {v : V} : ∀ m : List (Str × V),
    (Map.insert k v m).map Prod.fst =
      if k ∈ m.map Prod.fst then m.map Prod.fst else m.map Prod.fst ++ [k]
  | [] => rfl
  | (k', v') :: m => by
    rw [Map.insert]
    by_cases h : k' = k
    · simp [h]
    · simp only [if_neg h, List.map_cons, map_keys_insert m, List.mem_cons, Ne.symm h, false_or]
      split <;> simp

theorem map_mem_insert {V : Type} {k : Str} {v : V} : ∀ {m : List (Str × V)}, (m.map Prod.fst).Nodup →
    ∀ {p : Str × V}, p ∈ Map.insert k v m → p = (k, v) ∨ (p ∈ m ∧ p.1 ≠ k)
  | [], _, p, h => by simpa [Map.insert] using h
  | (k', v') :: m, hn, p, h => by
    obtain ⟨h1, h2⟩ := List.nodup_cons.mp hn
    rw [Map.insert] at h
    by_cases e : k' = k
    · rw [if_pos e] at h
      subst e
      rcases List.mem_cons.mp h with h | h
      · exact .inl h
      · exact .inr ⟨by simp [h], fun hp => h1 (List.mem_map.mpr ⟨p, h, hp⟩)⟩
    · rw [if_neg e] at h
      rcases List.mem_cons.mp h with rfl | h
      · exact .inr ⟨by simp, e⟩
      · rcases map_mem_insert h2 h with h | ⟨h, h'⟩
        · exact .inl h
        · exact .inr ⟨by simp [h], h'⟩

theorem collect_append {V : Type} (es : List (Str × V)) (e : Str × V) :
    Map.collect (es ++ [e]) = Map.insert e.1 e.2 (Map.collect es) := by
  simp [Map.collect, List.foldl_append]

theorem mem_firstSeen {k : Str} : ∀ {ks : List Str}, k ∈ firstSeen ks ↔ k ∈ ks
  | [] => Iff.rfl
  | a :: ks => by
    simp only [firstSeen, List.mem_cons, List.mem_filter, mem_firstSeen (ks := ks), decide_eq_true_eq]
    tauto

theorem firstSeen_append {k : Str} : ∀ {ks : List Str}, firstSeen (ks ++ [k]) =
    if k ∈ ks then firstSeen ks else firstSeen ks ++ [k]
  | [] => rfl
  | a :: ks => by
    simp only [List.cons_append, firstSeen, firstSeen_append (ks := ks), List.mem_cons]
    by_cases h : k ∈ ks
    · simp [h]
    · by_cases e : k = a
      · simp [e, List.filter_append, show a ∉ ks from e ▸ h]
      · simp [h, e, List.filter_append]

theorem collect_keys {V : Type} (es : List (Str × V)) :
    (Map.collect es).map Prod.fst = firstSeen (es.map Prod.fst) := by
  induction es using List.reverseRecOn with
  | nil => rfl
  | append_singleton es e ih =>
    rw [collect_append, map_keys_insert, List.map_append, List.map_singleton, firstSeen_append, ih]
    simp only [mem_firstSeen]

theorem nodup_firstSeen : ∀ ks : List Str, (firstSeen ks).Nodup
  | [] => .nil
  | a :: ks => List.nodup_cons.mpr ⟨by simp, (nodup_firstSeen ks).filter _⟩

theorem collect_last {V : Type} (es : List (Str × V)) : ∀ p ∈ Map.collect es, LastFor p.1 p.2 es := by
  induction es using List.reverseRecOn with
  | nil => nofun
  | append_singleton es e ih =>
    intro p hp
    rw [collect_append] at hp
    rcases map_mem_insert (by rw [collect_keys]; exact nodup_firstSeen _) hp with rfl | ⟨h, hk⟩
    · exact ⟨es, [], by simp, by simp⟩
    · obtain ⟨a, b, h1, h2⟩ := ih p h
      refine ⟨a, b ++ [e], by rw [h1]; simp, ?_⟩
      simp only [List.map_append, List.mem_append, List.map_singleton, List.mem_singleton, not_or]
      exact ⟨h2, hk⟩

/-! ### Well-formed values -/

theorem numbersOkEntries_iff : ∀ {es : List (Str × Value)}, NumbersOkEntries es ↔ ∀ e ∈ es, NumbersOk e.2
  | [] => by simp [NumbersOkEntries]
  | (k, v) :: es => by
    simp [NumbersOkEntries, NumbersOkEntry, numbersOkEntries_iff (es := es)]

theorem numbersOk_collect {es : List (Str × Value)} (h : ∀ e ∈ es, NumbersOk e.2) :
    NumbersOk (.object (Map.collect es)) := by
  rw [NumbersOk, numbersOkEntries_iff]
  intro e he
  obtain ⟨a, b, h1, -⟩ := collect_last es e he
  exact h e (by rw [h1]; simp)

theorem ofI64_ok {i : Int} (h : -2 ^ 63 ≤ i ∧ i < 2 ^ 63) : WellFormed (N.ofI64 i) := by
  unfold N.ofI64
  split
  · exact ⟨h.1, by assumption⟩
  · show i.toNat < 2 ^ 64
    omega

theorem fromF64_wellFormed {x : F64} (hc : x.Canonical) {n : N} (h : N.fromF64 x = some n) : WellFormed n := by
  cases hx : Spec.F64.toRat? x with
  | none => rw [(Props.C09_none_iff x).mpr hx] at h; cases h
  | some q =>
    obtain ⟨n', h1, h2, -⟩ := Props.C09_value_partial x q hc hx
    rw [h1] at h
    cases h
    exact h2

mutual
theorem native_wf : ∀ x : Native, Native.Ok x → x.intoValue.WF ∧ NumbersOk x.intoValue
  | .unit, _ => ⟨trivial, trivial⟩
  | .bool _, _ => ⟨trivial, trivial⟩
  | .signed _, h => ⟨trivial, ofI64_ok h⟩
  | .unsigned _, h => ⟨trivial, h⟩
  | .float x, h => by
    rw [Native.intoValue]
    cases hx : N.fromF64 x with
    | none => exact ⟨trivial, trivial⟩
    | some n => exact ⟨trivial, fromF64_wellFormed h hx⟩
  | .number _, h => ⟨trivial, h⟩
  | .str _, _ => ⟨trivial, trivial⟩
  | .list xs, h => native_wfs xs h
  | .pairs ps, h => by
    rw [Native.intoValue]
    exact ⟨wf_collect fun e he => (native_wfPairs ps h e he).1,
      numbersOk_collect fun e he => (native_wfPairs ps h e he).2⟩
theorem native_wfs : ∀ xs : List Native, Native.OkAll xs →
    Value.WFList (Native.intoValues xs) ∧ NumbersOkAll (Native.intoValues xs)
  | [], _ => ⟨trivial, trivial⟩
  | x :: xs, h => ⟨⟨(native_wf x h.1).1, (native_wfs xs h.2).1⟩, (native_wf x h.1).2, (native_wfs xs h.2).2⟩
theorem native_wfPairs : ∀ ps : List (Str × Native), Native.OkPairs ps → ∀ e ∈ Native.intoEntries ps,
    e.2.WF ∧ NumbersOk e.2
  | [], _ => nofun
  | (k, x) :: ps, h => by
    intro e he
    rcases List.mem_cons.mp he with rfl | he
    · exact native_wf x h.1
    · exact native_wfPairs ps h.2 e he
end

end Verif.Spec
