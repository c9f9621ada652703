import Verif.Lemmas.Reads
/-!
From values: what is accepted is exactly what the specification says.
-/

namespace Verif
open Spec De DRes Filter

variable {E : FmtEnv}

/-! ### Ignored values -/

mutual
theorem des_ignored : ∀ v : Value, Deserializes E .ignored (.value v) .unit
  | .null => ⟨1, rfl⟩
  | .bool _ => ⟨1, rfl⟩
  | .number (.posInt _) => ⟨1, rfl⟩
  | .number (.negInt _) => ⟨1, rfl⟩
  | .number (.float _) => ⟨1, rfl⟩
  | .string _ => ⟨1, rfl⟩
  | .array vs => by
    refine .of_eventually ?_
    filter_upwards [eventually_list fun v hv => (des_ignored_list vs v hv).eventually] with n hn
    show visitIgnored (de E n) (.seq (vs.map .value) false) = _
    rw [visitIgnored, each_map_ok (g := fun _ => .unit) fun v hv => hn v hv]; rfl
  | .object es => by
    refine .of_eventually ?_
    filter_upwards [eventually_list fun p hp => (des_ignored_entries es p hp).eventually,
      (show Deserializes E .ignored (.str []) .unit from ⟨1, rfl⟩).eventually, eventually_ge_atTop 1] with n hn _ h1
    show visitIgnored (de E n) (.map (valueEntries es)) = _
    rw [visitIgnored, valueEntries, each_map_ok (g := fun _ => .unit) fun p hp => by
      obtain ⟨m, rfl⟩ : ∃ m, n = m + 1 := ⟨n - 1, by omega⟩
      show DRes.bind (.ok Datum.unit) _ = _
      exact hn p hp]; rfl
theorem des_ignored_list : ∀ (vs : List Value), ∀ v ∈ vs, Deserializes E .ignored (.value v) .unit
  | [], _, h => absurd h (by simp)
  | w :: vs, v, h => by
    rcases List.mem_cons.1 h with heq | h
    · rw [heq]; exact des_ignored w
    · exact des_ignored_list vs v h
theorem des_ignored_entries : ∀ (es : List (Str × Value)), ∀ p ∈ es, Deserializes E .ignored (.value p.2) .unit
  | [], _, h => absurd h (by simp)
  | (_, w) :: es, p, h => by
    rcases List.mem_cons.1 h with heq | h
    · rw [heq]; exact des_ignored w
    · exact des_ignored_entries es p h
end

theorem ignored_unit : ∀ {n : Nat} {s : Src} {d : Datum}, de E n .ignored s = .ok d → d = .unit
  | 0, _, _, h => by cases h
  | n + 1, s, d, h => by
    change visitIgnored (de E n) (ask E s .ignored) = _ at h
    cases hev : ask E s .ignored with
    | err => rw [hev] at h; cases h
    | some s' => rw [hev] at h; exact ignored_unit h
    | newtype s' => rw [hev] at h; exact ignored_unit h
    | seq ss ends =>
      rw [hev, visitIgnored, dmap_ok] at h
      obtain ⟨_, _, rfl⟩ := h; rfl
    | map es =>
      rw [hev, visitIgnored, dmap_ok] at h
      obtain ⟨_, _, rfl⟩ := h; rfl
    | enum name acc =>
      rw [hev, visitIgnored, dbind_ok] at h
      obtain ⟨_, -, h⟩ := h
      cases acc with
      | unitOnly => cases h
      | source s => exact ignored_unit h
      | expr e =>
        simp only [newtypeVariant] at h
        split at h
        · exact ignored_unit h
        · cases h
      | key k => cases k <;> exact ignored_unit h
      | travOp o => cases o <;> exact ignored_unit h
      | value v => exact ignored_unit h
      | entry s => exact ignored_unit h
    | _ => rw [hev] at h; cases h; rfl

theorem des_unique {t : Ty} {s : Src} {d d' : Datum} (h : Deserializes E t s d) (h' : Deserializes E t s d') :
    d = d' := by
  obtain ⟨n, h1, h2⟩ := (h.eventually.and h'.eventually).exists
  exact DRes.ok.inj (h1.symm.trans h2)

/-! ### Keys -/

theorem key_sound {k : Ty} (hk : UserTy k) {x : Str} {d : Datum} {n : Nat} (h : de E n k (.str x) = .ok d) :
    ReadsKey E.U k x d := by
  cases n with
  | zero => cases h
  | succ n =>
  change visit E (de E n) k (ask E (.str x) (want k)) = _ at h
  cases k with
  | char =>
    change visit E (de E n) .char (.str x) = _ at h
    rcases x with _ | ⟨c, _ | ⟨c', x⟩⟩
    · cases h
    · cases h; exact .char c
    · cases h
  | string => cases h; exact .string x
  | ident =>
    change visitStr (Ident.tryNew E.U) .str (.str x) = _ at h
    simp only [visitStr, dmap_ok, ofOption_ok] at h
    obtain ⟨y, hy, rfl⟩ := h
    have := (Props.C01_tryNew E.U x)
    by_cases hx : IsIdentifier E.U x
    · rw [this.1 hx] at hy; cases hy; exact .ident hx
    · rw [this.2 hx] at hy; cases hy
  | enum name vs =>
    change visitEnum E (de E n) vs (.str x) .unitOnly = _ at h
    simp only [visitEnum, dbind_ok] at h
    obtain ⟨i, hi, h⟩ := h
    change DRes.ofOption _ = _ at hi
    rw [ofOption_ok, findIdx_iff hk.1, List.getElem?_map] at hi
    cases hv : vs[i]? with
    | none => rw [hv] at hi; cases hi
    | some v =>
      rw [hv] at hi h
      obtain ⟨y, v⟩ := v
      cases hi
      cases v with
      | unit => cases h; exact .unitVar hv
      | newtype t => cases h
      | tuple ts => cases h
      | struct fs => cases h
  | ignored => cases h; exact .ignored x
  | value => cases h; exact .value x
  | unOp => exact hk.elim
  | binOp => exact hk.elim
  | strip => exact hk.elim
  | expr => exact hk.elim
  | body => exact hk.elim
  | _ => cases h

theorem key_complete {k : Ty} (hk : UserTy k) {x : Str} {d : Datum} (h : ReadsKey E.U k x d) :
    Deserializes E k (.str x) d := by
  cases h with
  | char c => exact ⟨1, rfl⟩
  | string s => exact ⟨1, rfl⟩
  | ident h => exact des_ident h
  | @unitVar _ _ _ i hv =>
    refine ⟨1, ?_⟩
    change visitEnum E (de E 0) _ (.str x) .unitOnly = _
    simp only [visitEnum, dbind_ok]
    refine ⟨i, ofOption_ok.2 ((findIdx_iff hk.1).2 ?_), ?_⟩
    · rw [List.getElem?_map, hv]; rfl
    · rw [hv]; rfl
  | ignored s => exact ⟨1, rfl⟩
  | value s => exact ⟨1, rfl⟩

/-! ### Members -/

theorem userFields_mem : ∀ {fs : List (Str × Ty)}, UserFields fs → ∀ f ∈ fs, UserTy f.2
  | [], _, _, h => absurd h (by simp)
  | (_, _) :: _, hu, f, h => by
    rcases List.mem_cons.1 h with rfl | h
    · exact hu.1
    · exact userFields_mem hu.2 f h

theorem userFields_tys : ∀ {fs : List (Str × Ty)}, UserFields fs → UserTys (fs.map Prod.snd)
  | [], _ => trivial
  | (_, _) :: _, hu => ⟨hu.1, userFields_tys hu.2⟩

theorem userVariants_get : ∀ {vs : List (Str × VTy)}, UserVariants vs → ∀ v ∈ vs, UserVTy v.2
  | [], _, _, h => absurd h (by simp)
  | (_, _) :: _, hu, v, h => by
    rcases List.mem_cons.1 h with rfl | h
    · exact hu.1
    · exact userVariants_get hu.2 v h

theorem wfObj_mem : ∀ {es : List (Str × Value)}, Value.WFObj es → ∀ p ∈ es, p.2.WF
  | [], _, _, h => absurd h (by simp)
  | (_, _) :: _, hu, v, h => by
    rcases List.mem_cons.1 h with rfl | h
    · exact hu.1
    · exact wfObj_mem hu.2 v h

theorem numbersEntries_mem : ∀ {es : List (Str × Value)}, NumbersOkEntries es → ∀ p ∈ es, NumbersOk p.2
  | [], _, _, h => absurd h (by simp)
  | (_, _) :: _, hu, v, h => by
    rcases List.mem_cons.1 h with rfl | h
    · exact hu.1
    · exact numbersEntries_mem hu.2 v h

/-- The entries of an object with the names of their keys. -/
def valueKS (es : List (Str × Value)) : List KS := es.map fun p => ⟨.str p.1, .value p.2, p.1⟩

theorem valueKS_entries (es : List (Str × Value)) : (valueKS es).map (fun q => (q.key, q.src)) = valueEntries es := by
  simp [valueKS, valueEntries]

theorem valueKS_names (es : List (Str × Value)) : (valueKS es).map KS.name = es.map Prod.fst := by
  simp [valueKS]

theorem valueKS_ask (es : List (Str × Value)) : ∀ q ∈ valueKS es, ask E q.key .identifier = .str q.name := by
  intro q hq
  obtain ⟨p, -, rfl⟩ := List.mem_map.1 hq
  rfl

theorem visitInt_iff {lo hi : Int} {m : N} {d : Datum} : visitInt lo hi (number m) = .ok d ↔
    ∃ i, wholeOf m = some i ∧ lo ≤ i ∧ i ≤ hi ∧ d = .int i := by
  have : ∀ i : Int, (if lo ≤ i ∧ i ≤ hi then DRes.ok (Datum.int i) else .err) = .ok d ↔
      ∃ j, some i = some j ∧ lo ≤ j ∧ j ≤ hi ∧ d = .int j := by
    intro i
    split
    · rename_i h
      constructor
      · intro he; cases he; exact ⟨i, rfl, h.1, h.2, rfl⟩
      · rintro ⟨j, hj, -, -, rfl⟩; cases hj; rfl
    · rename_i h
      constructor
      · intro he; cases he
      · rintro ⟨j, hj, h1, h2, rfl⟩; cases hj; exact absurd ⟨h1, h2⟩ h
  cases m with
  | posInt n => exact this n
  | negInt i => exact this i
  | float x => 
    constructor
    · intro h; cases h
    · rintro ⟨i, hi, -⟩; cases hi

/-! ### Values -/

section
variable {n : Nat} (ih : ∀ {t : Ty} {v : Value} {d : Datum}, UserTy t → v.WF → NumbersOk v →
  de E n t (.value v) = .ok d → Reads E.U t v d)
include ih

theorem tuple_sound : ∀ {ts : List Ty} {vs : List Value} {x : List Datum × List Src}, UserTys ts → Value.WFList vs →
    NumbersOkAll vs → elements (de E n) ts (vs.map .value) = .ok x → ReadsEach E.U ts vs x.1
  | [], _, _, _, _, _, h => by cases h; exact .nil
  | _ :: _, [], _, _, _, _, h => by cases h
  | t :: ts, v :: vs, x, hu, hw, hn, h => by
    simp only [List.map_cons, elements, dbind_ok] at h
    obtain ⟨d, h1, y, h2, h3⟩ := h
    cases h3
    exact .cons (ih hu.1 hw.1 hn.1 h1) (tuple_sound hu.2 hw.2 hn.2 h2)

theorem visitTuple_sound {ts : List Ty} {v : Value} {d : Datum} (hu : UserTys ts) (hw : v.WF) (hn : NumbersOk v)
    (h : visitTuple (de E n) ts (valueAny v) = .ok d) : ∃ vs ds, v = .array vs ∧ d = .list ds ∧ ReadsEach E.U ts vs ds := by
  cases v with
  | array vs =>
    simp only [valueAny, visitTuple, dbind_ok] at h
    obtain ⟨x, h1, h2⟩ := h
    simp only [Bool.false_eq_true, false_and, if_false] at h2
    cases h2
    exact ⟨vs, _, rfl, rfl, tuple_sound ih hu hw hn h1⟩
  | number n => cases n <;> cases h
  | _ => cases h

theorem all_sound {t : Ty} (hu : UserTy t) : ∀ {vs : List Value} {ds : List Datum}, Value.WFList vs →
    NumbersOkAll vs → DRes.each (de E n t) (vs.map .value) = .ok ds → ReadsAll E.U t vs ds
  | [], _, _, _, h => by cases h; exact .nil
  | v :: vs, x, hw, hn, h => by
    simp only [List.map_cons, DRes.each, dbind_ok] at h
    obtain ⟨d, h1, y, h2, h3⟩ := h
    cases h3
    exact .cons (ih hu hw.1 hn.1 h1) (all_sound hu hw.2 hn.2 h2)

theorem entries_sound {k t : Ty} (hk : UserTy k) (hu : UserTy t) : ∀ {es : List (Str × Value)}
    {ds : List (Datum × Datum)}, Value.WFObj es → NumbersOkEntries es →
    DRes.each (fun p : Src × Src => (de E n k p.1).bind fun x => (de E n t p.2).bind fun y => .ok (x, y))
      (valueEntries es) = .ok ds → ReadsEntries E.U k t es ds
  | [], _, _, _, h => by cases h; exact .nil
  | (x, v) :: es, _, hw, hn, h => by
    simp only [valueEntries, List.map_cons, DRes.each, dbind_ok] at h
    obtain ⟨p, ⟨c, h1, d, h2, h3⟩, y, h4, h5⟩ := h
    cases h3; cases h5
    exact .cons (key_sound hk h1) (ih hu hw.1 hn.1 h2) (entries_sound hk hu hw.2 hn.2 h4)

theorem fields_reads {es : List (Str × Value)} (hw : Value.WFObj es) (hn : NumbersOkEntries es) :
    ∀ {fs : List (Str × Ty)} {ds : List Datum}, UserFields fs →
    List.Forall₂ (FieldFrom (de E n) (valueKS es)) fs ds → ReadsFields E.U fs es ds
  | [], _, _, h => by cases h; exact .nil
  | (f, t) :: fs, _, hu, .cons h hr => by
    have hr' := fields_reads hw hn hu.2 hr
    rcases h with ⟨q, hq, he, hd⟩ | ⟨hno, hd⟩
    · obtain ⟨p, hp, rfl⟩ := List.mem_map.1 hq
      have he : p.1 = f := he
      subst he
      exact .found hp (ih hu.1 (wfObj_mem hw p hp) (numbersEntries_mem hn p hp) hd) hr'
    · rw [valueKS_names] at hno
      cases n with
      | zero => cases hd
      | succ n =>
        change visit E (de E n) t (ask E .missing (want t)) = _ at hd
        cases t with
        | option t => cases hd; exact .missing hno hr'
        | _ => cases hd

theorem visitStruct_sound {fs : List (Str × Ty)} {v : Value} {d : Datum} (hf : (fs.map Prod.fst).Nodup)
    (hu : UserFields fs) (hw : v.WF) (hn : NumbersOk v) (h : visitStruct E (de E n) fs (valueAny v) = .ok d) :
    ∃ ds, d = .list ds ∧ ((∃ es, v = .object es ∧ ReadsFields E.U fs es ds) ∨
      ∃ vs, v = .array vs ∧ ReadsEach E.U (fs.map Prod.snd) vs ds) := by
  cases v with
  | object es =>
    change visitStruct E (de E n) fs (.map (valueEntries es)) = _ at h
    rw [← valueKS_entries, visitStruct_map_iff hf (by rw [valueKS_names]; exact hw.1) (valueKS_ask es)] at h
    obtain ⟨-, ds, rfl, h⟩ := h
    exact ⟨ds, rfl, .inl ⟨es, rfl, fields_reads ih hw.2 hn hu h⟩⟩
  | array vs =>
    obtain ⟨vs', ds, he, rfl, h'⟩ := visitTuple_sound (v := .array vs) ih (userFields_tys hu) hw hn h
    exact ⟨ds, rfl, .inr ⟨vs', he, h'⟩⟩
  | number n => cases n <;> cases h
  | _ => cases h

end

theorem reads_sound : ∀ (n : Nat) {t : Ty} {v : Value} {d : Datum}, UserTy t → v.WF → NumbersOk v →
    de E n t (.value v) = .ok d → Reads E.U t v d
  | 0, _, _, _, _, _, _, h => by cases h
  | n + 1, t, v, d, hu, hw, hn, h => by
    have ih := fun {t : Ty} {v : Value} {d : Datum} => reads_sound n (t := t) (v := v) (d := d)
    have h0 := h
    change visit E (de E n) t (valueAsk v (want t)) = _ at h
    cases t with
    | bool =>
      cases v with
      | bool b => cases h; exact .bool b
      | number m => cases m <;> cases h
      | _ => cases h
    | sint bits =>
      cases v with
      | number m =>
        change visitInt _ _ (number m) = _ at h
        obtain ⟨i, h1, h2, h3, rfl⟩ := visitInt_iff.1 h
        exact .sint h1 h2 h3
      | _ => cases h
    | uint bits =>
      cases v with
      | number m =>
        change visitInt _ _ (number m) = _ at h
        obtain ⟨i, h1, h2, h3, rfl⟩ := visitInt_iff.1 h
        exact .uint h1 h2 h3
      | _ => cases h
    | f64 =>
      cases v with
      | number m => cases m <;> cases h <;> exact .f64 _
      | _ => cases h
    | char =>
      cases v with
      | string s =>
        change visit E (de E n) .char (.str s) = _ at h
        rcases s with _ | ⟨c, _ | ⟨c', x⟩⟩
        · cases h
        · cases h; exact .char c
        · cases h
      | number m => cases m <;> cases h
      | _ => cases h
    | string =>
      cases v with
      | string s => cases h; exact .string s
      | number m => cases m <;> cases h
      | _ => cases h
    | unit =>
      cases v with
      | null => cases h; exact .unit
      | number m => cases m <;> cases h
      | _ => cases h
    | option t =>
      by_cases hv : v = .null
      · subst hv; cases h; exact .none
      · have ha : valueAsk v .option = .some (.value v) := by
          cases v with
          | null => exact absurd rfl hv
          | _ => rfl
        change visit E (de E n) (.option t) (valueAsk v .option) = _ at h
        rw [ha, visit, dmap_ok] at h
        obtain ⟨d', h1, rfl⟩ := h
        exact .some hv (ih hu hw hn h1)
    | seq t =>
      cases v with
      | array vs =>
        change (DRes.each (de E n t) (vs.map .value)).map Datum.list = _ at h
        rw [dmap_ok] at h
        obtain ⟨ds, h1, rfl⟩ := h
        exact .seq (all_sound (t := t) ih hu hw hn h1)
      | number m => cases m <;> cases h
      | _ => cases h
    | tuple ts =>
      obtain ⟨vs, ds, rfl, rfl, h'⟩ := visitTuple_sound ih hu hw hn h
      exact .tuple h'
    | map k t =>
      cases v with
      | object es =>
        change (DRes.each _ (valueEntries es)).map Datum.map = _ at h
        rw [dmap_ok] at h
        obtain ⟨ds, h1, rfl⟩ := h
        exact .map (entries_sound ih hu.1 hu.2 hw.2 hn h1)
      | number m => cases m <;> cases h
      | _ => cases h
    | newtype name t =>
      cases v with
      | array vs =>
        change (visitTuple (de E n) [t] (valueAny (.array vs))).bind _ = _ at h
        rw [dbind_ok] at h
        obtain ⟨d', h1, h2⟩ := h
        obtain ⟨vs', ds, he, rfl, h3⟩ := visitTuple_sound (v := .array vs) ih (ts := [t]) ⟨hu.2, trivial⟩ hw hn h1
        cases he
        cases h3 with
        | cons h3 h4 =>
          cases h4
          cases h2
          exact .newtype h3
      | number m => cases m <;> cases h
      | _ => cases h
    | tupleStruct ts =>
      obtain ⟨vs, ds, rfl, rfl, h'⟩ := visitTuple_sound ih hu hw hn h
      exact .tupleStruct h'
    | struct name fs =>
      obtain ⟨ds, rfl, h'⟩ := visitStruct_sound ih hu.1 hu.2 hw hn h
      rcases h' with ⟨es, rfl, h'⟩ | ⟨vs, rfl, h'⟩
      · exact .struct h'
      · exact .structSeq h'
    | enum name vs =>
      have pick : ∀ {x : Str} {acc : VAcc}, visitEnum E (de E n) vs (.str x) acc = .ok d →
          ∃ i v, vs[i]? = some (x, v) ∧ UserVTy v ∧ variantContent E (de E n) i acc v = .ok d := by
        intro x acc h
        simp only [visitEnum, dbind_ok] at h
        obtain ⟨i, hi, h⟩ := h
        change DRes.ofOption _ = _ at hi
        rw [ofOption_ok, findIdx_iff hu.1, List.getElem?_map] at hi
        cases hv : vs[i]? with
        | none => rw [hv] at hi; cases hi
        | some v =>
          rw [hv] at hi h
          obtain ⟨y, v⟩ := v
          cases hi
          exact ⟨i, v, hv, userVariants_get hu.2.2 _ (List.mem_of_getElem? hv), h⟩
      cases v with
      | string s =>
        obtain ⟨i, v, hv, -, h⟩ := pick h
        cases v with
        | unit => cases h; exact .unitVar hv
        | _ => cases h
      | object es =>
        cases es with
        | nil => cases h
        | cons p es =>
          obtain ⟨x, w⟩ := p
          obtain ⟨i, v, hv, hu', h⟩ := pick h
          cases v with
          | unit => cases h
          | newtype t =>
            change (de E n t (.value w)).map _ = _ at h
            rw [dmap_ok] at h
            obtain ⟨d', h1, rfl⟩ := h
            exact .newtypeVar hv (ih hu' hw.2.1 hn.1 h1)
          | tuple ts =>
            change (visitTuple (de E n) ts (valueAny w)).map _ = _ at h
            rw [dmap_ok] at h
            obtain ⟨d', h1, rfl⟩ := h
            obtain ⟨vs', ds, rfl, rfl, h'⟩ := visitTuple_sound ih hu' hw.2.1 hn.1 h1
            exact .tupleVar hv h'
          | struct fs =>
            change (visitStruct E (de E n) fs (valueAny w)).map _ = _ at h
            rw [dmap_ok] at h
            obtain ⟨d', h1, rfl⟩ := h
            obtain ⟨ds, rfl, h'⟩ := visitStruct_sound ih hu'.1 hu'.2 hw.2.1 hn.1 h1
            rcases h' with ⟨es, rfl, h'⟩ | ⟨vs, rfl, h'⟩
            · exact .structVar hv h'
            · exact .structVarSeq hv h'
      | number m => cases m <;> cases h
      | _ => cases h
    | ignored =>
      rw [ignored_unit h0]; exact .ignored v
    | value =>
      rw [des_unique (E := E) ⟨n + 1, h0⟩ (des_value_same hw hn)]; exact .value v
    | number =>
      cases v with
      | number m =>
        rw [des_unique (E := E) ⟨n + 1, h0⟩ (des_number_of (s := .value (.number m)) hn rfl)]
        exact .number m
      | _ => cases h
    | ident =>
      cases v with
      | string x =>
        have : de E (n + 1) .ident (.str x) = .ok d := h
        cases key_sound (k := .ident) trivial this with
        | ident hx => exact .ident hx
      | number m => cases m <;> cases h
      | _ => cases h
    | _ => exact hu.elim

end Verif
