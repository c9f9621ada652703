import Verif.Lemmas.ReadsValue
/-!
From values: what the specification accepts is accepted, and every deserialization ends.
-/

namespace Verif
open Spec De DRes Filter

variable {E : FmtEnv}

/-! ### Completeness -/

theorem enum_complete {r : Ty → Src → DRes Datum} {vs : List (Str × VTy)} (hn : (vs.map Prod.fst).Nodup) {i : Nat}
    {x : Str} {v : VTy} {acc : VAcc} {d : Datum} (hv : vs[i]? = some (x, v))
    (h : variantContent E r i acc v = .ok d) : visitEnum E r vs (.str x) acc = .ok d := by
  simp only [visitEnum, dbind_ok]
  refine ⟨i, ofOption_ok.2 ((findIdx_iff hn).2 ?_), ?_⟩
  · rw [List.getElem?_map, hv]; rfl
  · rw [hv]; exact h

theorem struct_complete {fs : List (Str × Ty)} (hf : (fs.map Prod.fst).Nodup) {es : List (Str × Value)}
    (hw : (es.map Prod.fst).Nodup) {ds : List Datum}
    (h : ∀ᶠ n in atTop, List.Forall₂ (FieldFrom (de E n) (valueKS es)) fs ds) :
    ∀ᶠ n in atTop, visitStruct E (de E n) fs (.map (valueEntries es)) = .ok (.list ds) := by
  filter_upwards [h, eventually_list fun p hp => (des_ignored_entries (E := E) es p hp).eventually] with n h hi
  rw [← valueKS_entries, visitStruct_map_iff hf (by rw [valueKS_names]; exact hw) (valueKS_ask es)]
  refine ⟨fun q hq _ => ?_, ds, rfl, h⟩
  obtain ⟨p, hp, rfl⟩ := List.mem_map.1 hq
  exact ⟨_, hi p hp⟩

theorem elements_tuple {r : Ty → Src → DRes Datum} {ts : List Ty} {vs : List Value} {ds : List Datum}
    (h : ∃ rest, elements r ts (vs.map .value) = .ok (ds, rest)) :
    visitTuple r ts (.seq (vs.map .value) false) = .ok (.list ds) := by
  obtain ⟨rest, h⟩ := h
  simp only [visitTuple, dbind_ok]
  exact ⟨_, h, by simp⟩

theorem option_complete {t : Ty} {v : Value} {d : Datum} (hv : v ≠ .null) (h : Deserializes E t (.value v) d) :
    Deserializes E (.option t) (.value v) (.some d) := by
  refine .of_eventually ?_
  filter_upwards [h.eventually] with n h
  have ha : valueAsk v .option = .some (.value v) := by
    cases v with
    | null => exact absurd rfl hv
    | _ => rfl
  show visit E (de E n) (.option t) (valueAsk v .option) = _
  rw [ha, visit, h]; rfl

mutual
theorem reads_complete : ∀ {t : Ty} {v : Value} {d : Datum}, Reads E.U t v d → UserTy t → v.WF → NumbersOk v →
    Deserializes E t (.value v) d
  | _, _, _, .bool b, _, _, _ => ⟨1, rfl⟩
  | _, _, _, .sint h1 h2 h3, _, _, _ => ⟨1, visitInt_iff.2 ⟨_, h1, h2, h3, rfl⟩⟩
  | _, _, _, .uint h1 h2 h3, _, _, _ => ⟨1, visitInt_iff.2 ⟨_, h1, h2, h3, rfl⟩⟩
  | _, _, _, .f64 m, _, _, _ => ⟨1, by cases m <;> rfl⟩
  | _, _, _, .char c, _, _, _ => ⟨1, rfl⟩
  | _, _, _, .string s, _, _, _ => ⟨1, rfl⟩
  | _, _, _, .unit, _, _, _ => ⟨1, rfl⟩
  | _, _, _, .none, _, _, _ => ⟨1, rfl⟩
  | _, _, _, .some hv h, hu, hw, hn => option_complete hv (reads_complete h hu hw hn)
  | _, _, _, .seq (t := t) (vs := vs) h, hu, hw, hn => by
    refine .of_eventually ?_
    filter_upwards [all_complete h hu hw hn] with n h
    show (DRes.each (de E n t) (vs.map .value)).map Datum.list = _
    rw [h]; rfl
  | _, _, _, .tuple (ts := ts) h, hu, hw, hn => by
    refine .of_eventually ?_
    filter_upwards [each_complete h hu hw hn] with n h
    exact elements_tuple h
  | _, _, _, .tupleStruct (ts := ts) h, hu, hw, hn => by
    refine .of_eventually ?_
    filter_upwards [each_complete h hu hw hn] with n h
    exact elements_tuple h
  | _, _, _, .map (k := k) (t := t) (es := es) h, hu, hw, hn => by
    refine .of_eventually ?_
    filter_upwards [entries_complete h hu.1 hu.2 hw.2 hn] with n h
    show (DRes.each _ (valueEntries es)).map Datum.map = _
    rw [h]; rfl
  | _, _, _, .newtype (t := t) (v := v) (vs := vs) h, hu, hw, hn => by
    refine .of_eventually ?_
    filter_upwards [(reads_complete h hu.2 hw.1 hn.1).eventually] with n h
    show (visitTuple (de E n) [t] (valueAny (.array (v :: vs)))).bind _ = _
    simp only [valueAny, visitTuple, List.map_cons, elements, h, DRes.bind]
    rfl
  | _, _, _, .struct (fs := fs) (es := es) h, hu, hw, hn => by
    refine .of_eventually ?_
    filter_upwards [struct_complete hu.1 hw.1 (fields_complete' h hu.2 hw.2 hn)] with n h
    exact h
  | _, _, _, .structSeq (fs := fs) h, hu, hw, hn => by
    refine .of_eventually ?_
    filter_upwards [each_complete h (userFields_tys hu.2) hw hn] with n h
    exact elements_tuple h
  | _, _, _, .unitVar hv, hu, _, _ => ⟨1, enum_complete hu.1 hv rfl⟩
  | _, _, _, .newtypeVar hv h, hu, hw, hn => by
    refine .of_eventually ?_
    filter_upwards [(reads_complete h (userVariants_get hu.2.2 _ (List.mem_of_getElem? hv)) hw.2.1 hn.1).eventually]
      with n h
    exact enum_complete hu.1 hv (dmap_ok.2 ⟨_, h, rfl⟩)
  | _, _, _, .tupleVar hv h, hu, hw, hn => by
    refine .of_eventually ?_
    filter_upwards [each_complete h (userVariants_get hu.2.2 _ (List.mem_of_getElem? hv)) hw.2.1 hn.1] with n h
    exact enum_complete hu.1 hv (dmap_ok.2 ⟨_, elements_tuple h, rfl⟩)
  | _, _, _, .structVar hv h, hu, hw, hn => by
    have hu' := userVariants_get hu.2.2 _ (List.mem_of_getElem? hv)
    refine .of_eventually ?_
    filter_upwards [struct_complete hu'.1 hw.2.1.1 (fields_complete' h hu'.2 hw.2.1.2 hn.1)] with n h
    exact enum_complete hu.1 hv (dmap_ok.2 ⟨_, h, rfl⟩)
  | _, _, _, .structVarSeq hv h, hu, hw, hn => by
    have hu' := userVariants_get hu.2.2 _ (List.mem_of_getElem? hv)
    refine .of_eventually ?_
    filter_upwards [each_complete h (userFields_tys hu'.2) hw.2.1 hn.1] with n h
    exact enum_complete hu.1 hv (dmap_ok.2 ⟨_, elements_tuple h, rfl⟩)
  | _, _, _, .ignored v, _, _, _ => des_ignored v
  | _, _, _, .value v, _, hw, hn => des_value_same hw hn
  | _, _, _, .number m, _, _, hn => des_number_of (s := .value (.number m)) hn rfl
  | _, _, _, .ident (x := x) h, _, _, _ => by
    obtain ⟨n, hn⟩ := des_ident (E := E) h
    cases n with
    | zero => cases hn
    | succ n => exact ⟨n + 1, hn⟩

theorem all_complete : ∀ {t : Ty} {vs : List Value} {ds : List Datum}, ReadsAll E.U t vs ds → UserTy t →
    Value.WFList vs → NumbersOkAll vs → ∀ᶠ n in atTop, DRes.each (de E n t) (vs.map .value) = .ok ds
  | _, _, _, .nil, _, _, _ => .of_forall fun _ => rfl
  | _, _, _, .cons h hr, hu, hw, hn => by
    filter_upwards [(reads_complete h hu hw.1 hn.1).eventually, all_complete hr hu hw.2 hn.2] with n h1 h2
    simp only [List.map_cons, DRes.each, h1, h2, DRes.bind]

theorem each_complete : ∀ {ts : List Ty} {vs : List Value} {ds : List Datum}, ReadsEach E.U ts vs ds → UserTys ts →
    Value.WFList vs → NumbersOkAll vs →
    ∀ᶠ n in atTop, ∃ rest, elements (de E n) ts (vs.map .value) = .ok (ds, rest)
  | _, _, _, .nil, _, _, _ => .of_forall fun _ => ⟨_, rfl⟩
  | _, _, _, .cons h hr, hu, hw, hn => by
    filter_upwards [(reads_complete h hu.1 hw.1 hn.1).eventually, each_complete hr hu.2 hw.2 hn.2] with n h1 h2
    obtain ⟨rest, h2⟩ := h2
    exact ⟨rest, by simp only [List.map_cons, elements, h1, h2, DRes.bind]⟩

theorem entries_complete : ∀ {k t : Ty} {es : List (Str × Value)} {ds : List (Datum × Datum)},
    ReadsEntries E.U k t es ds → UserTy k → UserTy t → Value.WFObj es → NumbersOkEntries es →
    ∀ᶠ n in atTop, DRes.each (fun p : Src × Src => (de E n k p.1).bind fun x => (de E n t p.2).bind fun y => .ok (x, y))
      (valueEntries es) = .ok ds
  | _, _, _, _, .nil, _, _, _, _ => .of_forall fun _ => rfl
  | _, _, _, _, .cons hk h hr, huk, hu, hw, hn => by
    filter_upwards [(key_complete huk hk).eventually, (reads_complete h hu hw.1 hn.1).eventually,
      entries_complete hr huk hu hw.2 hn.2] with n h1 h2 h3
    simp only [valueEntries] at h3
    simp only [valueEntries, List.map_cons, DRes.each, h1, h2, h3, dbind_ok]
    exact ⟨_, ⟨_, rfl, _, rfl, rfl⟩, _, rfl, rfl⟩

theorem fields_complete' : ∀ {fs : List (Str × Ty)} {es : List (Str × Value)} {ds : List Datum},
    ReadsFields E.U fs es ds → UserFields fs → Value.WFObj es → NumbersOkEntries es →
    ∀ᶠ n in atTop, List.Forall₂ (FieldFrom (de E n) (valueKS es)) fs ds
  | _, _, _, .nil, _, _, _ => .of_forall fun _ => .nil
  | _, es, _, .found (f := f) (v := v) hm h hr, hu, hw, hn => by
    filter_upwards [(reads_complete h hu.1 (wfObj_mem hw _ hm) (numbersEntries_mem hn _ hm)).eventually,
      fields_complete' hr hu.2 hw hn] with n h1 h2
    exact .cons (.inl ⟨⟨.str f, .value v, f⟩, List.mem_map.2 ⟨_, hm, rfl⟩, rfl, h1⟩) h2
  | _, es, _, .missing (t := t) hno hr, hu, hw, hn => by
    filter_upwards [(show Deserializes E (.option t) .missing .none from ⟨1, rfl⟩).eventually,
      fields_complete' hr hu.2 hw hn] with n h1 h2
    exact .cons (.inr ⟨by rwa [valueKS_names], h1⟩) h2
end

/-! ### Every deserialization ends -/

theorem bind_ends {α β : Type} {x : DRes α} {f : α → DRes β} (hx : x ≠ .out) (hf : ∀ a, f a ≠ .out) :
    x.bind f ≠ .out := by
  cases x with
  | ok a => exact hf a
  | err => exact nofun
  | out => exact absurd rfl hx

theorem map_ends {α β : Type} {x : DRes α} {f : α → β} (hx : x ≠ .out) : x.map f ≠ .out := by
  cases x with
  | ok a => exact nofun
  | err => exact nofun
  | out => exact absurd rfl hx

theorem each_ends {α β : Type} {f : α → DRes β} : ∀ {l : List α}, (∀ a ∈ l, f a ≠ .out) → DRes.each f l ≠ .out
  | [], _ => nofun
  | a :: l, h => bind_ends (h a (by simp)) fun _ => bind_ends (each_ends fun a ha => h a (by simp [ha])) nofun

theorem ofOption_ends {α : Type} (o : Option α) : DRes.ofOption o ≠ .out := by
  cases o <;> exact nofun

theorem elements_ends {r : Ty → Src → DRes Datum} : ∀ {ts : List Ty} {ss : List Src},
    (∀ t ∈ ts, ∀ s ∈ ss, r t s ≠ .out) → elements r ts ss ≠ .out
  | [], _, _ => nofun
  | _ :: _, [], _ => nofun
  | t :: ts, s :: ss, h => bind_ends (h t (by simp) s (by simp)) fun _ =>
    bind_ends (elements_ends fun t ht s hs => h t (by simp [ht]) s (by simp [hs])) nofun

theorem visitTuple_ends {r : Ty → Src → DRes Datum} {ts : List Ty} {ss : List Src} {ends : Bool}
    (h : ∀ t ∈ ts, ∀ s ∈ ss, r t s ≠ .out) : visitTuple r ts (.seq ss ends) ≠ .out := by
  refine bind_ends (elements_ends h) fun a => ?_
  split <;> exact nofun

theorem fields_ends {r : Ty → Src → DRes Datum} {fs : List (Str × Ty)} : ∀ {es : List (Src × Src)} {acc : List (Nat × Datum)},
    (∀ e ∈ es, r .ignored e.2 ≠ .out) → (∀ f ∈ fs, ∀ e ∈ es, r f.2 e.2 ≠ .out) → fields E r fs acc es ≠ .out
  | [], _, _, _ => nofun
  | (k, v) :: es, acc, h1, h2 => by
    have ih := fun acc => fields_ends (acc := acc) (fun e he => h1 e (List.mem_cons_of_mem _ he))
      (fun f hf e he => h2 f hf e (List.mem_cons_of_mem _ he))
    refine bind_ends ?_ fun i => ?_
    · generalize ask E k .identifier = ev
      cases ev <;> exact nofun
    · cases i with
      | none => exact bind_ends (h1 (k, v) (by simp)) fun _ => ih _
      | some i =>
        dsimp only
        split
        · exact nofun
        · split
          · rename_i hf
            exact bind_ends (h2 _ (List.mem_of_getElem? hf) (k, v) (by simp)) fun _ => ih _
          · exact nofun

theorem gather_ends {r : Ty → Src → DRes Datum} {acc : List (Nat × Datum)} : ∀ {fs : List (Str × Ty)} {i : Nat},
    (∀ t, r t .missing ≠ .out) → gather r acc i fs ≠ .out
  | [], _, _ => nofun
  | (_, t) :: fs, i, h => by
    refine bind_ends ?_ fun _ => bind_ends (gather_ends h) nofun
    split
    · exact nofun
    · exact h t

theorem missing_ends {n : Nat} (hn : 1 ≤ n) (t : Ty) : de E n t .missing ≠ .out := by
  obtain ⟨m, rfl⟩ : ∃ m, n = m + 1 := ⟨n - 1, by omega⟩
  cases t <;> exact nofun

theorem key_ends {n : Nat} (hn : 1 ≤ n) {t : Ty} (hu : UserTy t) (x : Str) : de E n t (.str x) ≠ .out := by
  obtain ⟨m, rfl⟩ : ∃ m, n = m + 1 := ⟨n - 1, by omega⟩
  change visit E (de E m) t (ask E (.str x) (want t)) ≠ _
  cases t with
  | char =>
    change visit E (de E m) .char (.str x) ≠ _
    rcases x with _ | ⟨c, _ | ⟨c', x⟩⟩ <;> exact nofun
  | ident =>
    exact map_ends (ofOption_ends _)
  | enum name vs =>
    refine bind_ends (ofOption_ends _) fun i => ?_
    split
    · rename_i v _
      obtain ⟨_, v⟩ := v
      cases v <;> exact nofun
    · exact nofun
  | unOp => exact hu.elim
  | binOp => exact hu.elim
  | strip => exact hu.elim
  | expr => exact hu.elim
  | body => exact hu.elim
  | _ => exact nofun

/-- With enough steps every value of a type is either accepted or rejected. -/
def Ends (E : FmtEnv) (t : Ty) : Prop :=
  ∀ v : Value, v.WF → NumbersOk v → ∀ᶠ n in atTop, de E n t (.value v) ≠ .out

theorem eventually_pairs {α β : Type} {p : Nat → α → β → Prop} : ∀ {l : List α} {l' : List β},
    (∀ a ∈ l, ∀ b ∈ l', ∀ᶠ n in atTop, p n a b) → ∀ᶠ n in atTop, ∀ a ∈ l, ∀ b ∈ l', p n a b
  | [], _, _ => .of_forall fun _ _ h => absurd h (by simp)
  | a :: l, l', h => by
    filter_upwards [eventually_list fun b hb => h a (by simp) b hb,
      eventually_pairs (l := l) fun a ha b hb => h a (by simp [ha]) b hb] with n h1 h2 a' ha b hb
    rcases List.mem_cons.1 ha with rfl | ha
    · exact h1 b hb
    · exact h2 a' ha b hb

theorem wfList_mem : ∀ {vs : List Value}, Value.WFList vs → ∀ v ∈ vs, v.WF
  | [], _, _, h => absurd h (by simp)
  | _ :: _, hu, v, h => by
    rcases List.mem_cons.1 h with rfl | h
    · exact hu.1
    · exact wfList_mem hu.2 v h

theorem numbersAll_mem : ∀ {vs : List Value}, NumbersOkAll vs → ∀ v ∈ vs, NumbersOk v
  | [], _, _, h => absurd h (by simp)
  | _ :: _, hu, v, h => by
    rcases List.mem_cons.1 h with rfl | h
    · exact hu.1
    · exact numbersAll_mem hu.2 v h

theorem tuple_ends {ts : List Ty} (h : ∀ t ∈ ts, Ends E t) {v : Value} (hw : v.WF) (hn : NumbersOk v) :
    ∀ᶠ n in atTop, visitTuple (de E n) ts (valueAny v) ≠ .out := by
  cases v with
  | array vs =>
    filter_upwards [eventually_pairs fun t ht v hv => h t ht v (wfList_mem hw v hv) (numbersAll_mem hn v hv)] with n h
    refine visitTuple_ends fun t ht s hs => ?_
    obtain ⟨v, hv, rfl⟩ := List.mem_map.1 hs
    exact h t ht v hv
  | number m => cases m <;> exact .of_forall fun _ => nofun
  | _ => exact .of_forall fun _ => nofun

theorem struct_ends {fs : List (Str × Ty)} (h : ∀ t ∈ fs.map Prod.snd, Ends E t) {v : Value} (hw : v.WF) (hn : NumbersOk v) :
    ∀ᶠ n in atTop, visitStruct E (de E n) fs (valueAny v) ≠ .out := by
  cases v with
  | object es =>
    filter_upwards [eventually_pairs fun t ht p hp => h t ht p.2 (wfObj_mem hw.2 p hp) (numbersEntries_mem hn p hp),
      eventually_list fun p hp => (des_ignored_entries (E := E) es p hp).eventually,
      eventually_ge_atTop 1] with n h hi h1
    refine bind_ends (fields_ends (fun e he => ?_) fun f hf e he => ?_) fun _ =>
      map_ends (gather_ends (missing_ends h1))
    · obtain ⟨p, hp, rfl⟩ := List.mem_map.1 he
      rw [hi p hp]; exact nofun
    · obtain ⟨p, hp, rfl⟩ := List.mem_map.1 he
      exact h _ (List.mem_map.2 ⟨f, hf, rfl⟩) p hp
  | array vs => exact tuple_ends (v := .array vs) h hw hn
  | number m => cases m <;> exact .of_forall fun _ => nofun
  | _ => exact .of_forall fun _ => nofun

theorem shift {p : Nat → Prop} (h : ∀ᶠ n in atTop, p (n + 1)) : ∀ᶠ n in atTop, p n := by
  rw [eventually_atTop] at *
  obtain ⟨a, h⟩ := h
  exact ⟨a + 1, fun b hb => by
    obtain ⟨c, rfl⟩ : ∃ c, b = c + 1 := ⟨b - 1, by omega⟩
    exact h c (by omega)⟩

/-- The contents of a variant. -/
def EndsV (E : FmtEnv) : VTy → Prop
  | .unit => True
  | .newtype t => Ends E t
  | .tuple ts => ∀ t ∈ ts, Ends E t
  | .struct fs => ∀ t ∈ fs.map Prod.snd, Ends E t

mutual
theorem ends : ∀ t : Ty, UserTy t → Ends E t
  | .bool, _ => fun v _ _ => shift (.of_forall fun _ => by
    cases v with
    | number m => cases m <;> exact nofun
    | _ => exact nofun)
  | .sint bits, _ => fun v _ _ => shift (.of_forall fun n => by
    cases v with
    | number m =>
      change visitInt _ _ (number m) ≠ _
      cases m
      · simp only [number, visitInt]; split <;> exact nofun
      · simp only [number, visitInt]; split <;> exact nofun
      · exact nofun
    | _ => exact nofun)
  | .uint bits, _ => fun v _ _ => shift (.of_forall fun n => by
    cases v with
    | number m =>
      change visitInt _ _ (number m) ≠ _
      cases m
      · simp only [number, visitInt]; split <;> exact nofun
      · simp only [number, visitInt]; split <;> exact nofun
      · exact nofun
    | _ => exact nofun)
  | .f64, _ => fun v _ _ => shift (.of_forall fun n => by
    cases v with
    | number m => cases m <;> exact nofun
    | _ => exact nofun)
  | .char, _ => fun v _ _ => shift (.of_forall fun n => by
    cases v with
    | number m => cases m <;> exact nofun
    | string x => 
      change visit E (de E n) .char (.str x) ≠ _
      rcases x with _ | ⟨c, _ | ⟨c', x⟩⟩ <;> exact nofun
    | _ => exact nofun)
  | .string, _ => fun v _ _ => shift (.of_forall fun n => by
    cases v with
    | number m => cases m <;> exact nofun
    | _ => exact nofun)
  | .unit, _ => fun v _ _ => shift (.of_forall fun n => by
    cases v with
    | number m => cases m <;> exact nofun
    | _ => exact nofun)
  | .option t, hu => fun v hw hn => shift (by
    filter_upwards [ends t hu v hw hn] with n h
    cases v with
    | null => exact nofun
    | _ => exact map_ends h)
  | .seq t, hu => fun v hw hn => shift (by
    cases v with
    | array vs =>
      filter_upwards [eventually_list fun v hv => ends t hu v (wfList_mem hw v hv) (numbersAll_mem hn v hv)] with n h
      refine map_ends (each_ends fun s hs => ?_)
      obtain ⟨v, hv, rfl⟩ := List.mem_map.1 hs
      exact h v hv
    | number m => cases m <;> exact .of_forall fun _ => nofun
    | _ => exact .of_forall fun _ => nofun)
  | .tuple ts, hu => fun v hw hn => shift (tuple_ends (ends_list ts hu) hw hn)
  | .map k t, hu => fun v hw hn => shift (by
    cases v with
    | object es =>
      filter_upwards [eventually_list fun p hp => ends t hu.2 p.2 (wfObj_mem hw.2 p hp) (numbersEntries_mem hn p hp),
        eventually_ge_atTop 1] with n h h1
      refine map_ends (each_ends fun s hs => ?_)
      obtain ⟨p, hp, rfl⟩ := List.mem_map.1 hs
      exact bind_ends (key_ends h1 hu.1 _) fun _ => bind_ends (h p hp) nofun
    | number m => cases m <;> exact .of_forall fun _ => nofun
    | _ => exact .of_forall fun _ => nofun)
  | .newtype name t, hu => fun v hw hn => shift (by
    have hts : ∀ t' ∈ [t], Ends E t' := fun t' h => by
      rw [List.mem_singleton.1 h]; exact ends t hu.2
    cases v with
    | array vs =>
      filter_upwards [tuple_ends (v := .array vs) hts hw hn] with n h
      change (visitTuple (de E n) [t] (valueAny (.array vs))).bind _ ≠ _
      refine bind_ends h fun d => ?_
      split <;> exact nofun
    | number m => cases m <;> exact .of_forall fun _ => nofun
    | _ => exact .of_forall fun _ => nofun)
  | .tupleStruct ts, hu => fun v hw hn => shift (tuple_ends (ends_list ts hu) hw hn)
  | .struct name fs, hu => fun v hw hn => shift (struct_ends (ends_fields fs hu.2) hw hn)
  | .enum name vs, hu => fun v hw hn => shift (by
    cases v with
    | string x => 
      refine .of_forall fun n => bind_ends (ofOption_ends _) fun i => ?_
      split
      · rename_i v _
        obtain ⟨_, v⟩ := v
        cases v <;> exact nofun
      · exact nofun
    | object es =>
      cases es with
      | nil => exact .of_forall fun _ => nofun
      | cons p es =>
        obtain ⟨x, w⟩ := p
        have hvs := ends_variants vs hu.2.2
        have : ∀ v ∈ vs, ∀ᶠ n in atTop, ∀ i, variantContent E (de E n) i (.value w) v.2 ≠ .out := by
          intro v hv
          have hv := hvs v hv
          obtain ⟨_, v⟩ := v
          cases v with
          | unit => exact .of_forall fun _ _ => nofun
          | newtype t =>
            filter_upwards [hv w hw.2.1 hn.1] with n h i
            exact map_ends h
          | tuple ts =>
            filter_upwards [tuple_ends hv hw.2.1 hn.1] with n h i
            exact map_ends h
          | struct fs =>
            filter_upwards [struct_ends hv hw.2.1 hn.1] with n h i
            exact map_ends h
        filter_upwards [eventually_list this] with n h
        refine bind_ends (ofOption_ends _) fun i => ?_
        split
        · rename_i hv
          exact h _ (List.mem_of_getElem? hv) _
        · exact nofun
    | number m => cases m <;> exact .of_forall fun _ => nofun
    | _ => exact .of_forall fun _ => nofun)
  | .ignored, _ => fun v _ _ => by
    filter_upwards [(des_ignored (E := E) v).eventually] with n h
    rw [h]; exact nofun
  | .value, _ => fun v hw hn => by
    filter_upwards [(des_value_same (E := E) hw hn).eventually] with n h
    rw [h]; exact nofun
  | .number, _ => fun v _ _ => shift (.of_forall fun n => by
    cases v with
    | number m =>
      cases m with
      | float x => 
        change DRes.map _ (DRes.ofOption _) ≠ _
        exact map_ends (ofOption_ends _)
      | _ => exact nofun
    | _ => exact nofun)
  | .ident, _ => fun v _ _ => shift (.of_forall fun n => by
    cases v with
    | number m => cases m <;> exact nofun
    | string s => exact map_ends (ofOption_ends _)
    | _ => exact nofun)
  | .unOp, hu => hu.elim
  | .binOp, hu => hu.elim
  | .strip, hu => hu.elim
  | .expr, hu => hu.elim
  | .body, hu => hu.elim
theorem ends_list : ∀ ts : List Ty, UserTys ts → ∀ t ∈ ts, Ends E t
  | [], _, _, h => absurd h (by simp)
  | t' :: ts, hu, t, h => by
    rcases List.mem_cons.1 h with heq | h
    · rw [heq]; exact ends t' hu.1
    · exact ends_list ts hu.2 t h
theorem ends_fields : ∀ fs : List (Str × Ty), UserFields fs → ∀ t ∈ fs.map Prod.snd, Ends E t
  | [], _, _, h => absurd h (by simp)
  | (_, t') :: fs, hu, t, h => by
    rcases List.mem_cons.1 h with heq | h
    · rw [heq]; exact ends t' hu.1
    · exact ends_fields fs hu.2 t h
theorem ends_variants : ∀ vs : List (Str × VTy), UserVariants vs → ∀ v ∈ vs, EndsV E v.2
  | [], _, _, h => absurd h (by simp)
  | (_, .unit) :: vs, hu, v, h => by
    rcases List.mem_cons.1 h with heq | h
    · rw [heq]; trivial
    · exact ends_variants vs hu.2 v h
  | (_, .newtype t) :: vs, hu, v, h => by
    rcases List.mem_cons.1 h with heq | h
    · rw [heq]; exact ends t hu.1
    · exact ends_variants vs hu.2 v h
  | (_, .tuple ts) :: vs, hu, v, h => by
    rcases List.mem_cons.1 h with heq | h
    · rw [heq]; exact ends_list ts hu.1
    · exact ends_variants vs hu.2 v h
  | (_, .struct fs) :: vs, hu, v, h => by
    rcases List.mem_cons.1 h with heq | h
    · rw [heq]; exact ends_fields fs hu.1.2
    · exact ends_variants vs hu.2 v h
end

theorem accepted_or_rejected {t : Ty} (hu : UserTy t) {v : Value} (hw : v.WF) (hn : NumbersOk v) :
    (∃ d, Deserializes E t (.value v) d) ∨ Rejected E t (.value v) := by
  obtain ⟨n, h⟩ := (ends (E := E) t hu v hw hn).exists
  cases hd : de E n t (.value v) with
  | ok d => exact .inl ⟨d, n, hd⟩
  | err => exact .inr ⟨n, hd⟩
  | out => exact absurd hd h

end Verif
