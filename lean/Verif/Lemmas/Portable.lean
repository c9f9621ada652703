import Verif.Lemmas.ReadsExprTotal
import Verif.Lemmas.Convert
/-!
What is accepted from a value is accepted from the expression that stands for it.
-/

namespace Verif
open Spec De DRes Filter

variable {E : FmtEnv}

theorem ofEntries_keys : ∀ es : List (Str × Value), (ofEntries es).map (fun p => textKey E p.1) = es.map fun p => some p.1
  | [] => rfl
  | (_, _) :: es => by rw [ofEntries, List.map_cons, List.map_cons, ofEntries_keys es]; rfl

theorem ofEntries_key_mem : ∀ {es : List (Str × Value)} {p : ObjKey × Expr}, p ∈ ofEntries es →
    ∃ q ∈ es, p = (.expr (.string q.1), ofValue q.2)
  | [], _, h => absurd h (by simp [ofEntries])
  | (k, v) :: es, p, h => by
    rw [ofEntries] at h
    rcases List.mem_cons.1 h with rfl | h
    · exact ⟨(k, v), by simp, rfl⟩
    · obtain ⟨q, hq, he⟩ := ofEntries_key_mem h
      exact ⟨q, by simp [hq], he⟩

theorem mem_ofEntries : ∀ {es : List (Str × Value)} {q : Str × Value}, q ∈ es →
    ((.expr (.string q.1), ofValue q.2) : ObjKey × Expr) ∈ ofEntries es
  | [], _, h => absurd h (by simp)
  | (k, v) :: es, q, h => by
    rw [ofEntries]
    rcases List.mem_cons.1 h with rfl | h
    · simp
    · exact List.mem_cons_of_mem _ (mem_ofEntries h)

theorem ofEntries_differ : ∀ {es : List (Str × Value)}, (es.map Prod.fst).Nodup → KeysDiffer (ofEntries es)
  | [], _ => List.Pairwise.nil
  | (k, v) :: es, h => by
    rw [List.map_cons, List.nodup_cons] at h
    rw [ofEntries]
    refine List.Pairwise.cons (fun p hp => ?_) (ofEntries_differ h.2)
    obtain ⟨q, hq, rfl⟩ := ofEntries_key_mem hp
    have hne : k ≠ q.1 := fun he => h.1 (List.mem_map.2 ⟨q, hq, he.symm⟩)
    simp [ObjKey.beq, Expr.beq, hne]

theorem ofValue_object {es : List (Str × Value)} (h : (es.map Prod.fst).Nodup) :
    ofValue (.object es) = .object (ofEntries es) := by
  rw [ofValue, objCollect_fresh (ofEntries_differ h)]

theorem denotes_string {ns : List Str} {s x : Str} : Denotes E ns (.expr (.string s)) x ↔ s = x ∧ x ∈ ns := by
  constructor
  · rintro (⟨h1, h2⟩ | ⟨h1, h2⟩)
    · exact ⟨Option.some.inj h1, h2⟩
    · cases h1
  · rintro ⟨rfl, h⟩
    exact .text rfl h

theorem fieldsOnce_ofEntries {ns : List Str} {es : List (Str × Value)} (h : (es.map Prod.fst).Nodup) :
    FieldsOnce E ns (ofEntries es) := by
  refine ⟨fun p hp => ?_, (ofEntries_differ h).imp_of_mem fun {p q} hp hq hpq x h1 h2 => ?_⟩
  · obtain ⟨q, -, rfl⟩ := ofEntries_key_mem hp
    exact .inl ⟨_, rfl⟩
  · obtain ⟨p', -, rfl⟩ := ofEntries_key_mem hp
    obtain ⟨q', -, rfl⟩ := ofEntries_key_mem hq
    rw [denotes_string] at h1 h2
    simp [ObjKey.beq, Expr.beq, h1.1, h2.1] at hpq

mutual
theorem valueOf_ofValue : ∀ v : Value, v.WF → valueOf E (ofValue v) = some v
  | .null, _ => rfl
  | .bool _, _ => rfl
  | .number _, _ => rfl
  | .string _, _ => rfl
  | .array xs, h => by
    rw [ofValue, valueOf, valuesOf_ofValues xs (by simpa [Value.WF] using h)]; rfl
  | .object es, h => by
    simp only [Value.WF] at h
    rw [ofValue, objCollect_ofEntries h.1, valueOf, entriesOf_ofEntries es h.2, Option.map_some, Map.collect_nodup h.1]
theorem valuesOf_ofValues : ∀ xs : List Value, Value.WFList xs → valuesOf E (ofValues xs) = some xs
  | [], _ => rfl
  | v :: vs, h => by
    simp only [Value.WFList] at h
    rw [ofValues, valuesOf, valueOf_ofValue v h.1, valuesOf_ofValues vs h.2]; rfl
theorem entriesOf_ofEntries : ∀ es : List (Str × Value), Value.WFObj es → entriesOf E (ofEntries es) = some es
  | [], _ => rfl
  | (k, v) :: es, h => by
    simp only [Value.WFObj] at h
    rw [ofEntries, entriesOf, valueOf_ofValue v h.1, entriesOf_ofEntries es h.2]
    rfl
end

mutual
theorem ofValue_clean : ∀ v : Value, v.WF → NumbersOk v → Clean (ofValue v)
  | .null, _, _ => trivial
  | .bool _, _, _ => trivial
  | .number _, _, hn => hn
  | .string _, _, _ => trivial
  | .array vs, hw, hn => ofValues_clean vs hw hn
  | .object es, hw, hn => by
    rw [ofValue_object hw.1]
    exact ofEntries_clean es hw.2 hn
theorem ofValues_clean : ∀ vs : List Value, Value.WFList vs → NumbersOkAll vs → CleanList (ofValues vs)
  | [], _, _ => trivial
  | v :: vs, hw, hn => ⟨ofValue_clean v hw.1 hn.1, ofValues_clean vs hw.2 hn.2⟩
theorem ofEntries_clean : ∀ es : List (Str × Value), Value.WFObj es → NumbersOkEntries es →
    CleanEntries (ofEntries es)
  | [], _, _ => trivial
  | (_, v) :: es, hw, hn => ⟨⟨trivial, ofValue_clean v hw.1 hn.1⟩, ofEntries_clean es hw.2 hn.2⟩
end

theorem portableFields_tys : ∀ {fs : List (Str × Ty)}, PortableFields fs → PortableTys (fs.map Prod.snd)
  | [], _ => trivial
  | (_, _) :: _, hu => ⟨hu.1, portableFields_tys hu.2⟩

theorem portableVariants_get : ∀ {vs : List (Str × VTy)}, PortableVariants vs → ∀ v ∈ vs, PortableVTy v.2
  | [], _, _, h => absurd h (by simp)
  | (_, _) :: _, hu, v, h => by
    rcases List.mem_cons.1 h with rfl | h
    · exact hu.1
    · exact portableVariants_get hu.2 v h

theorem portable_key {k : Ty} (hk : ∀ n vs, k ≠ .enum n vs) {x : Str} {d : Datum} (h : ReadsKey E.U k x d) :
    ReadsKeyE E k (.expr (.string x)) d := by
  cases h with
  | char c => exact .char rfl
  | string s => exact .string rfl
  | ident h => exact .ident (k := .expr (.string x)) rfl h
  | unitVar h => exact absurd rfl (hk _ _)
  | ignored s => exact .ignored _
  | value s => exact .value rfl

theorem ofValue_ne_null {v : Value} (h : v ≠ .null) : ofValue v ≠ .null := by
  cases v with
  | null => exact absurd rfl h
  | _ => exact nofun

mutual
theorem portable : ∀ {t : Ty} {v : Value} {d : Datum}, Reads E.U t v d → Portable t → v.WF →
    ReadsE E t (ofValue v) d
  | _, _, _, .bool b, _, _ => .bool b
  | _, _, _, .sint h1 h2 h3, _, _ => .sint h1 h2 h3
  | _, _, _, .uint h1 h2 h3, _, _ => .uint h1 h2 h3
  | _, _, _, .f64 m, _, _ => .f64 m
  | _, _, _, .char c, _, _ => .char rfl
  | _, _, _, .string s, _, _ => .string (.string s)
  | _, _, _, .unit, _, _ => .unit
  | _, _, _, .none, _, _ => .none
  | _, _, _, .some hv h, hu, hw => .some (ofValue_ne_null hv) (portable h hu hw)
  | _, _, _, .seq h, hu, hw => .seq (portable_all h hu hw)
  | _, _, _, .tuple h, hu, hw => .tuple (portable_each h hu hw)
  | _, _, _, .tupleStruct h, hu, hw => .tupleStruct (portable_each h hu hw)
  | _, _, _, .map (k := k) (t := t) h, hu, hw => by
    rw [ofValue_object hw.1]
    have hk : ∀ n vs, k ≠ .enum n vs := by
      rintro n vs rfl
      exact hu.elim
    have ht : Portable t := by
      cases k with
      | enum => exact hu.elim
      | _ => exact hu
    exact .map (portable_entries h hk ht hw.2)
  | _, _, _, .newtype h, hu, _ => hu.elim
  | _, _, _, .struct h, hu, hw => by
    rw [ofValue_object hw.1]
    exact .struct (fieldsOnce_ofEntries hw.1) (portable_fields h hu hw.2 fun f hf => List.mem_map_of_mem hf)
  | _, _, _, .structSeq h, hu, hw => .structSeq (portable_each h (portableFields_tys hu) hw)
  | _, _, _, .unitVar hv, _, _ => .unitVar hv
  | _, _, _, .newtypeVar hv h, hu, hw => by
    rw [ofValue_object hw.1]
    exact .newtypeVar (k := .expr (.string _)) (.text rfl (List.mem_map_of_mem (List.mem_of_getElem? hv))) hv
      (portable h (portableVariants_get hu _ (List.mem_of_getElem? hv)) hw.2.1)
  | _, _, _, .tupleVar hv h, hu, hw => by
    rw [ofValue_object hw.1]
    exact .tupleVar (k := .expr (.string _)) (.text rfl (List.mem_map_of_mem (List.mem_of_getElem? hv))) hv
      (portable_each h (portableVariants_get hu _ (List.mem_of_getElem? hv)) hw.2.1)
  | _, _, _, .structVar hv _, hu, _ => (portableVariants_get hu _ (List.mem_of_getElem? hv)).elim
  | _, _, _, .structVarSeq hv _, hu, _ => (portableVariants_get hu _ (List.mem_of_getElem? hv)).elim
  | _, _, _, .ignored v, _, _ => .ignored _
  | _, _, _, .value v, _, hw => .value (valueOf_ofValue v hw)
  | _, _, _, .number m, _, _ => .number m
  | _, _, _, .ident h, _, _ => .ident (e := .string _) h

theorem portable_all : ∀ {t : Ty} {vs : List Value} {ds : List Datum}, ReadsAll E.U t vs ds → Portable t →
    Value.WFList vs → ReadsAllE E t (ofValues vs) ds
  | _, _, _, .nil, _, _ => .nil
  | _, _, _, .cons h hr, hu, hw => .cons (portable h hu hw.1) (portable_all hr hu hw.2)

theorem portable_each : ∀ {ts : List Ty} {vs : List Value} {ds : List Datum}, ReadsEach E.U ts vs ds →
    PortableTys ts → Value.WFList vs → ReadsEachE E ts (ofValues vs) ds
  | _, _, _, .nil, _, _ => .nil
  | _, _, _, .cons h hr, hu, hw => .cons (portable h hu.1 hw.1) (portable_each hr hu.2 hw.2)

theorem portable_entries : ∀ {k t : Ty} {es : List (Str × Value)} {ds : List (Datum × Datum)},
    ReadsEntries E.U k t es ds → (∀ n vs, k ≠ .enum n vs) → Portable t → Value.WFObj es →
    ReadsEntriesE E k t (ofEntries es) ds
  | _, _, _, _, .nil, _, _, _ => .nil
  | _, _, _, _, .cons hk h hr, hne, hu, hw =>
    .cons (portable_key hne hk) (portable h hu hw.1) (portable_entries hr hne hu hw.2)

theorem portable_fields : ∀ {ns : List Str} {fs : List (Str × Ty)} {es : List (Str × Value)} {ds : List Datum},
    ReadsFields E.U fs es ds → PortableFields fs → Value.WFObj es → (∀ f ∈ fs, f.1 ∈ ns) →
    ReadsFieldsE E ns fs (ofEntries es) ds
  | _, _, _, _, .nil, _, _, _ => .nil
  | _, _, _, _, .found (f := f) hm h hr, hu, hw, hn =>
    .found (k := .expr (.string f)) (mem_ofEntries hm) (.text rfl (hn (f, _) List.mem_cons_self))
      (portable h hu.1 (wfObj_mem hw _ hm)) (portable_fields hr hu.2 hw fun f hf => hn f (by simp [hf]))
  | _, _, _, _, .missing hno hr, hu, hw, hn => .missing (fun p hp he => by
      obtain ⟨q, hq, rfl⟩ := ofEntries_key_mem hp
      exact hno (List.mem_map.2 ⟨q, hq, (denotes_string.1 he).1⟩))
      (portable_fields hr hu.2 hw fun f hf => hn f (by simp [hf]))
end

end Verif
