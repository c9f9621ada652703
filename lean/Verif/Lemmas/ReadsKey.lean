import Verif.Lemmas.Parts
import Verif.Spec.ReadsExpr
/-!
Keys of objects: which names they stand for, and what is read from them.
-/

namespace Verif
open Spec De DRes Filter

variable {E : FmtEnv}

theorem exprAny_bare : ∀ e : Expr, exprAny E e = exprAny E (bare e)
  | .paren e => exprAny_bare e
  | .null => rfl
  | .bool _ => rfl
  | .number _ => rfl
  | .string _ => rfl
  | .array _ => rfl
  | .object _ => rfl
  | .template _ => rfl
  | .var _ => rfl
  | .traversal _ _ => rfl
  | .call _ _ _ => rfl
  | .cond _ _ _ => rfl
  | .unary _ _ => rfl
  | .binary _ _ _ => rfl
  | .forE _ _ _ _ _ _ _ => rfl

theorem bare_not_paren : ∀ e x : Expr, bare e ≠ .paren x
  | .paren e, x => bare_not_paren e x
  | .null, _ => nofun
  | .bool _, _ => nofun
  | .number _, _ => nofun
  | .string _, _ => nofun
  | .array _, _ => nofun
  | .object _, _ => nofun
  | .template _, _ => nofun
  | .var _, _ => nofun
  | .traversal _ _, _ => nofun
  | .call _ _ _, _ => nofun
  | .cond _ _ _, _ => nofun
  | .unary _ _, _ => nofun
  | .binary _ _ _, _ => nofun
  | .forE _ _ _ _ _ _ _, _ => nofun

theorem keyAny_textKey {k : ObjKey} {x : Str} (h : textKey E k = some x) : keyAny E k = .str x := by
  cases k with
  | ident y => cases h; rfl
  | expr e =>
    change exprAny E e = _
    rw [exprAny_bare]
    simp only [textKey] at h
    cases hb : bare e <;> rw [hb] at h <;> first | (cases h; done) | (cases h; rfl) | exact absurd hb (bare_not_paren _ _)

theorem textKey_none {k : ObjKey} (h : textKey E k = none) : ∃ e, k = .expr e ∧ IsData (bare e) := by
  cases k with
  | ident y => cases h
  | expr e =>
    refine ⟨e, rfl, ?_⟩
    simp only [textKey] at h
    cases hb : bare e <;> rw [hb] at h <;> first | trivial | cases h

theorem textKey_data {e : Expr} (h : IsData (bare e)) : textKey E (.expr e) = none := by
  simp only [textKey]
  cases hb : bare e <;> rw [hb] at h <;> first | rfl | exact h.elim

/-! ### Fields -/

/-- A name that is none of these. -/
def otherName (names : List Str) : Str := names.flatten ++ ['a']

theorem otherName_notMem (names : List Str) : otherName names ∉ names := by
  intro h
  have := (List.sublist_flatten_of_mem h).length_le
  simp [otherName] at this

/-- The name a key stands for, if it stands for a field. -/
def nameFor (E : FmtEnv) (names : List Str) (k : ObjKey) : Str :=
  match textKey E k with
  | some x => x
  | none =>
    match k with
    | .expr e =>
      match bare e with
      | .number (.posInt i) => (names[i]?).getD (otherName names)
      | _ => otherName names
    | _ => otherName names

theorem nameFor_pos {names : List Str} {e : Expr} {i : Nat} (h : bare e = .number (.posInt i)) :
    nameFor E names (.expr e) = (names[i]?).getD (otherName names) := by
  have : textKey E (.expr e) = none := textKey_data (by rw [h]; trivial)
  simp only [nameFor, this, h]

theorem denotes_nameFor {names : List Str} {k : ObjKey} (hk : FieldKey E k) {x : Str} :
    Denotes E names k x ↔ x ∈ names ∧ nameFor E names k = x := by
  constructor
  · rintro (⟨h1, h2⟩ | ⟨h1, h2⟩)
    · exact ⟨h2, by simp only [nameFor, h1]⟩
    · exact ⟨List.mem_of_getElem? h2, by rw [nameFor_pos h1, h2]; rfl⟩
  · rintro ⟨h1, h2⟩
    rcases hk with ⟨y, hy⟩ | ⟨e, i, rfl, he⟩
    · simp only [nameFor, hy] at h2
      subst h2
      exact .text hy h1
    · rw [nameFor_pos he] at h2
      cases hi : names[i]? with
      | none =>
        rw [hi] at h2
        have h2 : otherName names = x := h2
        exact absurd (h2 ▸ h1) (otherName_notMem names)
      | some y =>
        rw [hi] at h2
        exact .pos he (hi.trans (congrArg some h2))

theorem fieldKey_names {fs : List (Str × Ty)} (hn : (fs.map Prod.fst).Nodup) {k : ObjKey} (hk : FieldKey E k) :
    Names E fs (.key k) (nameFor E (fs.map Prod.fst) k) := by
  refine ⟨?_⟩
  change fieldOf _ (keyAny E k) = _
  rcases hk with ⟨y, hy⟩ | ⟨e, i, rfl, he⟩
  · rw [keyAny_textKey hy]
    simp only [nameFor, hy, fieldOf]
  · rw [nameFor_pos he]
    change fieldOf _ (exprAny E e) = _
    rw [exprAny_bare, he]
    change DRes.ok (if i < _ then some i else none) = _
    congr 1
    cases hi : (fs.map Prod.fst)[i]? with
    | none =>
      rw [if_neg (by have := List.getElem?_eq_none_iff.1 hi; omega)]
      exact (findIdx_none.2 (otherName_notMem _)).symm
    | some y =>
      rw [if_pos (List.getElem?_eq_some_iff.1 hi).1]
      exact ((findIdx_iff hn).2 hi).symm

theorem fieldKey_of {names : List Str} {k : ObjKey} {o : Option Nat} (h : fieldOf names (keyAny E k) = .ok o) :
    FieldKey E k := by
  cases hk : textKey E k with
  | some x => exact .inl ⟨x, hk⟩
  | none =>
    obtain ⟨e, rfl, hd⟩ := textKey_none hk
    change fieldOf names (exprAny E e) = _ at h
    rw [exprAny_bare] at h
    refine .inr ⟨e, ?_⟩
    cases hb : bare e <;> rw [hb] at h hd <;> first | (cases h; done) | (exact hd.elim) | skip
    rename_i m
    cases m with
    | posInt i => exact ⟨i, rfl, rfl⟩
    | _ => cases h

theorem fields_keys {r : Ty → Src → DRes Datum} {fs : List (Str × Ty)} : ∀ {es : List (Src × Src)}
    {acc acc' : List (Nat × Datum)}, fields E r fs acc es = .ok acc' →
    ∀ p ∈ es, ∃ o, fieldOf (fs.map Prod.fst) (ask E p.1 .identifier) = .ok o
  | [], _, _, _ => nofun
  | (k, v) :: es, acc, acc', h => by
    simp only [fields, dbind_ok] at h
    obtain ⟨o, ho, h⟩ := h
    rw [List.forall_mem_cons]
    refine ⟨⟨o, ho⟩, ?_⟩
    cases o with
    | none =>
      simp only [dbind_ok] at h
      obtain ⟨_, -, h⟩ := h
      exact fields_keys h
    | some i =>
      dsimp only at h
      split at h
      · cases h
      · split at h
        · simp only [dbind_ok] at h
          obtain ⟨_, -, h⟩ := h
          exact fields_keys h
        · cases h

/-- The entries of an object with the names of their keys. -/
def exprKS (E : FmtEnv) (names : List Str) (es : List (ObjKey × Expr)) : List KS :=
  es.map fun p => ⟨.key p.1, .expr p.2, nameFor E names p.1⟩

theorem exprKS_entries (names : List Str) (es : List (ObjKey × Expr)) :
    (exprKS E names es).map (fun q => (q.key, q.src)) = entries es := by
  simp [exprKS, entries]

theorem exprKS_ask {fs : List (Str × Ty)} (hn : (fs.map Prod.fst).Nodup) {es : List (ObjKey × Expr)}
    (h : ∀ p ∈ es, FieldKey E p.1) : ∀ q ∈ exprKS E (fs.map Prod.fst) es, Names E fs q.key q.name := by
  intro q hq
  obtain ⟨p, hp, rfl⟩ := List.mem_map.1 hq
  exact fieldKey_names hn (h p hp)

theorem exprKS_once {fs : List (Str × Ty)} {es : List (ObjKey × Expr)} (h : ∀ p ∈ es, FieldKey E p.1) :
    KSOnce fs (exprKS E (fs.map Prod.fst) es) ↔ FieldsOnce E (fs.map Prod.fst) es := by
  unfold KSOnce exprKS FieldsOnce
  rw [List.pairwise_map, and_iff_right h]
  constructor
  · intro h'
    refine h'.imp_of_mem fun {p q} hp hq hpq x h1 h2 => ?_
    rw [denotes_nameFor (h p hp)] at h1
    rw [denotes_nameFor (h q hq)] at h2
    exact hpq (h1.2.trans h2.2.symm) (h1.2.symm ▸ h1.1)
  · intro h'
    refine h'.imp_of_mem fun {p q} hp hq hpq he hm => ?_
    exact hpq _ ((denotes_nameFor (h p hp)).2 ⟨hm, rfl⟩) ((denotes_nameFor (h q hq)).2 ⟨hm, he.symm⟩)

/-! ### Variants -/

theorem variant_denotes {names : List Str} (hn : names.Nodup) {k : ObjKey} {i : Nat} :
    variantOf names (keyAny E k) = .ok i ↔ ∃ x, Denotes E names k x ∧ names[i]? = some x := by
  cases hk : textKey E k with
  | some y =>
    rw [keyAny_textKey hk]
    change DRes.ofOption _ = _ ↔ _
    rw [ofOption_ok, findIdx_iff hn]
    constructor
    · intro h
      exact ⟨y, .text hk (List.mem_of_getElem? h), h⟩
    · rintro ⟨x, h1, h2⟩
      obtain ⟨-, h3⟩ := (denotes_nameFor (.inl ⟨y, hk⟩)).1 h1
      simp only [nameFor, hk] at h3
      rw [h3]; exact h2
  | none =>
    obtain ⟨e, rfl, hd⟩ := textKey_none hk
    change variantOf names (exprAny E e) = _ ↔ _
    rw [exprAny_bare]
    constructor
    · intro h
      cases hb : bare e <;> rw [hb] at h hd <;> first | (cases h; done) | (exact hd.elim) | skip
      rename_i m
      cases m with
      | posInt j =>
        change (if j < names.length then DRes.ok j else .err) = _ at h
        split at h
        · cases h
          rename_i hj
          exact ⟨names[i], .pos hb (List.getElem?_eq_getElem hj), List.getElem?_eq_getElem hj⟩
        · cases h
      | _ => cases h
    · rintro ⟨x, h1, h2⟩
      cases h1 with
      | text h => rw [hk] at h; cases h
      | pos he hi =>
        rename_i j
        rw [he]
        change (if j < names.length then DRes.ok j else .err) = _
        have h3 := (List.getElem?_eq_some_iff.1 hi)
        obtain ⟨h3, h4⟩ := h3
        rw [if_pos h3]
        obtain ⟨h5, h6⟩ := List.getElem?_eq_some_iff.1 h2
        have := (List.Nodup.getElem_inj_iff hn (hi := h3) (hj := h5)).1 (h4.trans h6.symm)
        rw [this]

theorem enum_pickE {r : Ty → Src → DRes Datum} {vs : List (Str × VTy)} (hn : (vs.map Prod.fst).Nodup)
    (hu : UserVariants vs) {k : ObjKey} {acc : VAcc} {d : Datum} (h : visitEnum E r vs (.key k) acc = .ok d) :
    ∃ i x v, Denotes E (vs.map Prod.fst) k x ∧ vs[i]? = some (x, v) ∧ UserVTy v ∧ variantContent E r i acc v = .ok d := by
  simp only [visitEnum, dbind_ok] at h
  obtain ⟨i, hi, h⟩ := h
  obtain ⟨x, h1, h2⟩ := (variant_denotes hn).1 hi
  rw [List.getElem?_map] at h2
  cases hv : vs[i]? with
  | none => rw [hv] at h2; cases h2
  | some v =>
    rw [hv] at h2 h
    obtain ⟨y, v⟩ := v
    cases h2
    exact ⟨i, _, v, h1, hv, userVariants_get hu _ (List.mem_of_getElem? hv), h⟩

theorem enum_keyE {r : Ty → Src → DRes Datum} {vs : List (Str × VTy)} (hn : (vs.map Prod.fst).Nodup) {i : Nat}
    {x : Str} {v : VTy} {k : ObjKey} (hx : Denotes E (vs.map Prod.fst) k x) {acc : VAcc} {d : Datum}
    (hv : vs[i]? = some (x, v)) (h : variantContent E r i acc v = .ok d) : visitEnum E r vs (.key k) acc = .ok d := by
  simp only [visitEnum, dbind_ok]
  refine ⟨i, (variant_denotes hn).2 ⟨x, hx, ?_⟩, ?_⟩
  · rw [List.getElem?_map, hv]; rfl
  · rw [hv]; exact h

/-! ### Types that take data -/

theorem visit_data {r : Ty → Src → DRes Datum} {t : Ty} (ht : DataTy t) {e : Expr} (he : IsData e) :
    visit E r t (exprAny E e) = visit E r t (exprAsk E e (want t)) := by
  cases t <;> first | (exact ht.elim) | skip
  all_goals cases e <;> first | (exact he.elim) | rfl | (rename_i m; cases m <;> rfl)

/-! ### Values -/

theorem de_value_inv {n : Nat} {s : Src} {d : Datum} (h : de E n .value s = .ok d) :
    ∃ m v, n = m + 1 ∧ d = .value v ∧ visitValue (de E m) (ask E s .any) = .ok v := by
  cases n with
  | zero => cases h
  | succ m =>
    change (visitValue (de E m) (ask E s .any)).map Datum.value = _ at h
    rw [dmap_ok] at h
    obtain ⟨v, h1, h2⟩ := h
    exact ⟨m, v, rfl, h2.symm, h1⟩

/-- A key as a `String`. -/
theorem key_string {n : Nat} {k : ObjKey} {d : Datum} (h : de E n .string (.key k) = .ok d) :
    ∃ x, textKey E k = some x ∧ d = .str x := by
  cases n with
  | zero => cases h
  | succ m =>
    change visitStr some Datum.str (keyAny E k) = _ at h
    cases hk : textKey E k with
    | some x =>
      rw [keyAny_textKey hk] at h
      cases h
      exact ⟨x, rfl, rfl⟩
    | none =>
      obtain ⟨e, rfl, hd⟩ := textKey_none hk
      change visitStr some Datum.str (exprAny E e) = _ at h
      rw [exprAny_bare] at h
      cases hb : bare e <;> rw [hb] at h hd <;> first | (cases h; done) | (exact hd.elim) | skip
      rename_i m
      cases m <;> cases h

theorem des_key_string {k : ObjKey} {x : Str} (h : textKey E k = some x) : Deserializes E .string (.key k) (.str x) :=
  ⟨1, by
    change visitStr some Datum.str (keyAny E k) = _
    rw [keyAny_textKey h]; rfl⟩

mutual
theorem valueOf_sound : ∀ (e : Expr) {n : Nat} {v : Value}, Clean e → visitValue (de E n) (exprAny E e) = .ok v →
    valueOf E e = some v
  | .null, _, _, _, h => by cases h; rfl
  | .bool _, _, _, _, h => by cases h; rfl
  | .number m, _, _, hc, h => by
    change visitValue _ (number m) = _ at h
    rw [visitValue_number hc] at h
    cases h; rfl
  | .string _, _, _, _, h => by cases h; rfl
  | .array es, n, v, hc, h => by
    simp only [exprAny, visitValue, dmap_ok] at h
    obtain ⟨vs, h, rfl⟩ := h
    simp only [valueOf, valuesOf_sound es hc h, Option.map_some]
  | .object es, n, v, hc, h => by
    simp only [exprAny, visitValue, dmap_ok] at h
    obtain ⟨vs, h, rfl⟩ := h
    simp only [valueOf, entriesOf_sound es hc h, Option.map_some]
  | .paren e, _, _, hc, h => valueOf_sound e hc h
  | .template _, _, _, _, h => by cases h; rfl
  | .var _, _, _, _, h => by cases h; rfl
  | .traversal _ _, _, _, _, h => by cases h; rfl
  | .call _ _ _, _, _, _, h => by cases h; rfl
  | .cond _ _ _, _, _, _, h => by cases h; rfl
  | .unary _ _, _, _, _, h => by cases h; rfl
  | .binary _ _ _, _, _, _, h => by cases h; rfl
  | .forE _ _ _ _ _ _ _, _, _, _, h => by cases h; rfl
theorem valuesOf_sound : ∀ (es : List Expr) {n : Nat} {vs : List Value}, CleanList es →
    DRes.each (fun s => (de E n .value s).bind fun d => .ofOption (asValue d)) (exprs es) = .ok vs →
    valuesOf E es = some vs
  | [], _, _, _, h => by cases h; rfl
  | e :: es, n, vs, hc, h => by
    simp only [exprs, List.map_cons, DRes.each, dbind_ok] at h
    obtain ⟨v, ⟨d, h1, h2⟩, ws, h3, h4⟩ := h
    obtain ⟨m, v', rfl, rfl, h5⟩ := de_value_inv h1
    cases h2; cases h4
    simp only [valuesOf, valueOf_sound e hc.1 h5, valuesOf_sound es hc.2 h3, Option.bind_some, Option.map_some]
theorem entriesOf_sound : ∀ (es : List (ObjKey × Expr)) {n : Nat} {l : List (Str × Value)}, CleanEntries es →
    DRes.each (fun p : Src × Src => (de E n .string p.1).bind fun k => (DRes.ofOption (asStr k)).bind fun k =>
      (de E n .value p.2).bind fun d => (DRes.ofOption (asValue d)).bind fun v => .ok (k, v)) (entries es) = .ok l →
    entriesOf E es = some l
  | [], _, _, _, h => by cases h; rfl
  | (k, e) :: es, n, vs, hc, h => by
    simp only [entries, List.map_cons, DRes.each, dbind_ok] at h
    obtain ⟨p, ⟨dk, h1, y, h2, d, h3, v, h4, h5⟩, ws, h6, h7⟩ := h
    obtain ⟨x, hx, rfl⟩ := key_string h1
    obtain ⟨m, v', rfl, rfl, h8⟩ := de_value_inv h3
    cases h2; cases h4; cases h5; cases h7
    simp only [entriesOf, hx, valueOf_sound e hc.1.2 h8, entriesOf_sound es hc.2 h6, Option.bind_some, Option.map_some]
end

mutual
theorem valueOf_complete : ∀ (e : Expr) {v : Value}, Clean e → valueOf E e = some v →
    ∀ᶠ n in atTop, visitValue (de E n) (exprAny E e) = .ok v
  | .null, _, _, h => by cases h; exact .of_forall fun _ => rfl
  | .bool _, _, _, h => by cases h; exact .of_forall fun _ => rfl
  | .number m, _, hc, h => by cases h; exact .of_forall fun _ => visitValue_number hc
  | .string _, _, _, h => by cases h; exact .of_forall fun _ => rfl
  | .array es, v, hc, h => by
    simp only [valueOf, Option.map_eq_some_iff] at h
    obtain ⟨vs, h, rfl⟩ := h
    filter_upwards [valuesOf_complete es hc h] with n h
    simp only [exprAny, visitValue, h]; rfl
  | .object es, v, hc, h => by
    simp only [valueOf, Option.map_eq_some_iff] at h
    obtain ⟨vs, h, rfl⟩ := h
    filter_upwards [entriesOf_complete es hc h] with n h
    simp only [exprAny, visitValue, h]; rfl
  | .paren e, _, hc, h => valueOf_complete e hc h
  | .template _, _, _, h => by cases h; exact .of_forall fun _ => rfl
  | .var _, _, _, h => by cases h; exact .of_forall fun _ => rfl
  | .traversal _ _, _, _, h => by cases h; exact .of_forall fun _ => rfl
  | .call _ _ _, _, _, h => by cases h; exact .of_forall fun _ => rfl
  | .cond _ _ _, _, _, h => by cases h; exact .of_forall fun _ => rfl
  | .unary _ _, _, _, h => by cases h; exact .of_forall fun _ => rfl
  | .binary _ _ _, _, _, h => by cases h; exact .of_forall fun _ => rfl
  | .forE _ _ _ _ _ _ _, _, _, h => by cases h; exact .of_forall fun _ => rfl
theorem valuesOf_complete : ∀ (es : List Expr) {vs : List Value}, CleanList es → valuesOf E es = some vs →
    ∀ᶠ n in atTop, DRes.each (fun s => (de E n .value s).bind fun d => .ofOption (asValue d)) (exprs es) = .ok vs
  | [], _, _, h => by cases h; exact .of_forall fun _ => rfl
  | e :: es, vs, hc, h => by
    simp only [valuesOf, Option.bind_eq_some_iff, Option.map_eq_some_iff] at h
    obtain ⟨v, h1, ws, h2, rfl⟩ := h
    filter_upwards [(des_value_of (s := .expr e) (valueOf_complete e hc.1 h1)).eventually, valuesOf_complete es hc.2 h2]
      with n h3 h4
    simp only [exprs, List.map_cons, DRes.each, dbind_ok]
    exact ⟨v, ⟨_, h3, rfl⟩, ws, h4, rfl⟩
theorem entriesOf_complete : ∀ (es : List (ObjKey × Expr)) {l : List (Str × Value)}, CleanEntries es →
    entriesOf E es = some l → ∀ᶠ n in atTop,
    DRes.each (fun p : Src × Src => (de E n .string p.1).bind fun k => (DRes.ofOption (asStr k)).bind fun k =>
      (de E n .value p.2).bind fun d => (DRes.ofOption (asValue d)).bind fun v => .ok (k, v)) (entries es) = .ok l
  | [], _, _, h => by cases h; exact .of_forall fun _ => rfl
  | (k, e) :: es, vs, hc, h => by
    simp only [entriesOf, Option.bind_eq_some_iff, Option.map_eq_some_iff] at h
    obtain ⟨x, hx, v, h1, ws, h2, rfl⟩ := h
    filter_upwards [(des_value_of (s := .expr e) (valueOf_complete e hc.1.2 h1)).eventually,
      entriesOf_complete es hc.2 h2, (des_key_string hx).eventually] with n h3 h4 h5
    simp only [entries, List.map_cons, DRes.each, dbind_ok]
    exact ⟨(x, v), ⟨_, h5, x, rfl, _, h3, v, rfl, rfl⟩, ws, h4, rfl⟩
end

end Verif
