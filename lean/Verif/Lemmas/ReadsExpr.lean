import Verif.Lemmas.ReadsKey
/-!
From expressions: what is accepted is exactly what the specification says.
-/

namespace Verif
open Spec De DRes Filter

variable {E : FmtEnv}

/-! ### Members -/

theorem cleanList_mem : ∀ {es : List Expr}, CleanList es → ∀ e ∈ es, Clean e
  | [], _, _, h => absurd h (by simp)
  | _ :: _, hu, v, h => by
    rcases List.mem_cons.1 h with rfl | h
    · exact hu.1
    · exact cleanList_mem hu.2 v h

theorem cleanEntries_mem : ∀ {es : List (ObjKey × Expr)}, CleanEntries es → ∀ p ∈ es, CleanKey p.1 ∧ Clean p.2
  | [], _, _, h => absurd h (by simp)
  | (_, _) :: _, hu, v, h => by
    rcases List.mem_cons.1 h with rfl | h
    · exact hu.1
    · exact cleanEntries_mem hu.2 v h

theorem clean_bare : ∀ e : Expr, Clean e → Clean (bare e)
  | .paren e, h => clean_bare e h
  | .null, _ => trivial
  | .bool _, _ => trivial
  | .number _, h => h
  | .string _, _ => trivial
  | .array _, h => h
  | .object _, h => h
  | .template _, _ => trivial
  | .var _, _ => trivial
  | .traversal _ _, _ => trivial
  | .call _ _ _, _ => trivial
  | .cond _ _ _, _ => trivial
  | .unary _ _, _ => trivial
  | .binary _ _ _, _ => trivial
  | .forE _ _ _ _ _ _ _, _ => trivial

/-! ### Soundness -/

section
variable {n : Nat} (ih : ∀ {t : Ty} {e : Expr} {d : Datum}, UserTy t → Clean e →
  de E n t (.expr e) = .ok d → ReadsE E t e d)
include ih

theorem tuple_soundE : ∀ {ts : List Ty} {es : List Expr} {x : List Datum × List Src}, UserTys ts → CleanList es →
    elements (de E n) ts (exprs es) = .ok x → ReadsEachE E ts es x.1
  | [], _, _, _, _, h => by cases h; exact .nil
  | _ :: _, [], _, _, _, h => by cases h
  | t :: ts, v :: vs, x, hu, hw, h => by
    simp only [exprs, List.map_cons, elements, dbind_ok] at h
    obtain ⟨d, h1, y, h2, h3⟩ := h
    cases h3
    exact .cons (ih hu.1 hw.1 h1) (tuple_soundE hu.2 hw.2 h2)

theorem visitTuple_soundE {ts : List Ty} {e : Expr} {d : Datum} (hu : UserTys ts) (hw : Clean e)
    (h : visitTuple (de E n) ts (exprSeq e) = .ok d) :
    ∃ es ds, e = .array es ∧ d = .list ds ∧ ReadsEachE E ts es ds := by
  cases e with
  | array vs =>
    simp only [exprSeq, visitTuple, dbind_ok] at h
    obtain ⟨x, h1, h2⟩ := h
    simp only [Bool.false_eq_true, false_and, if_false] at h2
    cases h2
    exact ⟨vs, _, rfl, rfl, tuple_soundE ih hu hw h1⟩
  | _ => cases h

theorem all_soundE {t : Ty} (hu : UserTy t) : ∀ {es : List Expr} {ds : List Datum}, CleanList es →
    DRes.each (de E n t) (exprs es) = .ok ds → ReadsAllE E t es ds
  | [], _, _, h => by cases h; exact .nil
  | v :: vs, x, hw, h => by
    simp only [exprs, List.map_cons, DRes.each, dbind_ok] at h
    obtain ⟨d, h1, y, h2, h3⟩ := h
    cases h3
    exact .cons (ih hu hw.1 h1) (all_soundE hu hw.2 h2)

theorem entries_soundE (ihk : ∀ {t : Ty} {k : ObjKey} {d : Datum}, UserTy t → CleanKey k →
    de E n t (.key k) = .ok d → ReadsKeyE E t k d) {k t : Ty} (hk : UserTy k) (hu : UserTy t) :
    ∀ {es : List (ObjKey × Expr)} {ds : List (Datum × Datum)}, CleanEntries es →
    DRes.each (fun p : Src × Src => (de E n k p.1).bind fun x => (de E n t p.2).bind fun y => .ok (x, y))
      (entries es) = .ok ds → ReadsEntriesE E k t es ds
  | [], _, _, h => by cases h; exact .nil
  | (x, v) :: es, _, hw, h => by
    simp only [entries, List.map_cons, DRes.each, dbind_ok] at h
    obtain ⟨p, ⟨c, h1, d, h2, h3⟩, y, h4, h5⟩ := h
    cases h3; cases h5
    exact .cons (ihk hk hw.1.1 h1) (ih hu hw.1.2 h2) (entries_soundE ihk hk hu hw.2 h4)

theorem fields_readsE {ns : List Str} {es : List (ObjKey × Expr)} (hw : CleanEntries es)
    (hk : ∀ p ∈ es, FieldKey E p.1) :
    ∀ {fs : List (Str × Ty)} {ds : List Datum}, UserFields fs → (∀ f ∈ fs, f.1 ∈ ns) →
    List.Forall₂ (FieldFrom (de E n) (exprKS E ns es)) fs ds → ReadsFieldsE E ns fs es ds
  | [], _, _, _, h => by cases h; exact .nil
  | (f, t) :: fs, _, hu, hns, .cons h hr => by
    rw [List.forall_mem_cons] at hns
    have hr' := fields_readsE hw hk hu.2 hns.2 hr
    rcases h with ⟨q, hq, he, hd⟩ | ⟨hno, hd⟩
    · obtain ⟨p, hp, rfl⟩ := List.mem_map.1 hq
      exact .found hp ((denotes_nameFor (hk p hp)).2 ⟨hns.1, he⟩) (ih hu.1 (cleanEntries_mem hw p hp).2 hd) hr'
    · replace hno : ∀ p ∈ es, ¬ Denotes E ns p.1 f := fun p hp he =>
        hno (List.mem_map.2 ⟨_, List.mem_map_of_mem hp, ((denotes_nameFor (hk p hp)).1 he).2⟩)
      cases n with
      | zero => cases hd
      | succ n =>
        change visit E (de E n) t (ask E .missing (want t)) = _ at hd
        cases t with
        | option t => cases hd; exact .missing hno hr'
        | _ => cases hd

theorem visitFields_soundE {fs : List (Str × Ty)} {es : List (ObjKey × Expr)} {d : Datum}
    (hf : (fs.map Prod.fst).Nodup) (hu : UserFields fs) (hw : Clean (.object es))
    (h : visitStruct E (de E n) fs (.map (entries es)) = .ok d) :
    ∃ ds, d = .list ds ∧ FieldsOnce E (fs.map Prod.fst) es ∧ ReadsFieldsE E (fs.map Prod.fst) fs es ds := by
  have hk : ∀ p ∈ es, FieldKey E p.1 := by
    simp only [visitStruct, dbind_ok] at h
    obtain ⟨acc, h, -⟩ := h
    intro p hp
    obtain ⟨o, ho⟩ := fields_keys h (.key p.1, .expr p.2) (List.mem_map.2 ⟨p, hp, rfl⟩)
    exact fieldKey_of ho
  rw [← exprKS_entries (fs.map Prod.fst), visitStruct_map_once hf (exprKS_ask hf hk)] at h
  obtain ⟨ho, -, ds, hd, h'⟩ := h
  exact ⟨ds, hd, (exprKS_once hk).1 ho, fields_readsE ih hw hk hu (fun f hf => List.mem_map_of_mem hf) h'⟩

end

theorem number_soundE {n : Nat} : ∀ {e : Expr} {d : Datum}, Clean e →
    visit E (de E n) .number (exprAny E e) = .ok d → ReadsE E .number e d
  | .number m, d, hw, h => by
    rw [des_unique (E := E) (t := .number) (s := .expr (.number m)) ⟨n + 1, h⟩
      (des_number_of (s := .expr (.number m)) hw rfl)]
    exact .number m
  | .paren e, d, hw, h => .numberParen (number_soundE (e := e) hw h)
  | .null, _, _, h => by cases h
  | .bool _, _, _, h => by cases h
  | .string _, _, _, h => by cases h
  | .array _, _, _, h => by cases h
  | .object _, _, _, h => by cases h
  | .template _, _, _, h => by cases h
  | .var _, _, _, h => by cases h
  | .traversal _ _, _, _, h => by cases h
  | .call _ _ _, _, _, h => by cases h
  | .cond _ _ _, _, _, h => by cases h
  | .unary _ _, _, _, h => by cases h
  | .binary _ _ _, _, _, h => by cases h
  | .forE _ _ _ _ _ _ _, _, _, h => by cases h

theorem template_none {w : TmplExpr} (hq : partsOf (.template w) = none) {p : Prop}
    (ht : ¬ ∃ x, Expr.template w = .template (.quoted x)) : p := by
  rcases w with w | ⟨a, w, m⟩
  · exact absurd ⟨w, rfl⟩ ht
  · cases m <;> cases hq

theorem readsE_sound : ∀ (n : Nat),
    (∀ {t : Ty} {e : Expr} {d : Datum}, UserTy t → Clean e → de E n t (.expr e) = .ok d → ReadsE E t e d) ∧
    (∀ {t : Ty} {k : ObjKey} {d : Datum}, UserTy t → CleanKey k → de E n t (.key k) = .ok d → ReadsKeyE E t k d)
  | 0 => ⟨@fun _ _ _ _ _ h => (nomatch h), @fun _ _ _ _ _ h => (nomatch h)⟩
  | n + 1 => by
    have ih := fun {t : Ty} {e : Expr} {d : Datum} => (readsE_sound n).1 (t := t) (e := e) (d := d)
    have ihk := fun {t : Ty} {k : ObjKey} {d : Datum} => (readsE_sound n).2 (t := t) (k := k) (d := d)
    have hE : ∀ {t : Ty} {e : Expr} {d : Datum}, UserTy t → Clean e → de E (n + 1) t (.expr e) = .ok d →
        ReadsE E t e d := by
      intro t e d hu hw h
      have h0 := h
      cases hq : partsOf e with
      | some ps => exact .op hq (op_sound hq (n + 1) hu h)
      | none =>
      by_cases ht : ∃ x, e = .template (.quoted x)
      · obtain ⟨x, rfl⟩ := ht
        exact .quoted (quoted_sound (n + 1) hu h)
      change visit E (de E n) t (exprAsk E e (want t)) = _ at h
      cases t with
      | bool =>
        cases e with
        | bool b => cases h; exact .bool b
        | _ => cases h
      | sint bits =>
        cases e with
        | number m =>
          change visitInt _ _ (number m) = _ at h
          obtain ⟨i, h1, h2, h3, rfl⟩ := visitInt_iff.1 h
          exact .sint h1 h2 h3
        | _ => cases h
      | uint bits =>
        cases e with
        | number m =>
          change visitInt _ _ (number m) = _ at h
          obtain ⟨i, h1, h2, h3, rfl⟩ := visitInt_iff.1 h
          exact .uint h1 h2 h3
        | _ => cases h
      | f64 =>
        cases e with
        | number m => cases m <;> cases h <;> exact .f64 _
        | _ => cases h
      | char =>
        change visit E (de E n) .char (exprString E e) = _ at h
        rw [exprString_text] at h
        obtain ⟨c, hc, rfl⟩ := str_char h
        exact .char hc
      | string =>
        change visit E (de E n) .string (exprString E e) = _ at h
        rw [exprString_text] at h
        cases h
        exact .string e
      | unit =>
        cases e with
        | null => cases h; exact .unit
        | _ => cases h
      | option t =>
        by_cases hv : e = .null
        · subst hv; cases h; exact .none
        · have ha : exprAsk E e .option = .some (.expr e) := by
            cases e with
            | null => exact absurd rfl hv
            | _ => rfl
          change visit E (de E n) (.option t) (exprAsk E e .option) = _ at h
          rw [ha, visit, dmap_ok] at h
          obtain ⟨d', h1, rfl⟩ := h
          exact .some hv (ih hu hw h1)
      | seq t =>
        cases e with
        | array vs =>
          change (DRes.each (de E n t) (exprs vs)).map Datum.list = _ at h
          rw [dmap_ok] at h
          obtain ⟨ds, h1, rfl⟩ := h
          exact .seq (all_soundE (t := t) ih hu hw h1)
        | _ => cases h
      | tuple ts =>
        obtain ⟨vs, ds, rfl, rfl, h'⟩ := visitTuple_soundE ih hu hw h
        exact .tuple h'
      | map k t =>
        cases e with
        | object es =>
          change (DRes.each _ (entries es)).map Datum.map = _ at h
          rw [dmap_ok] at h
          obtain ⟨ds, h1, rfl⟩ := h
          exact .map (entries_soundE ih ihk hu.1 hu.2 hw h1)
        | template w => exact template_none hq ht
        | traversal _ _ => exact absurd hq nofun
        | call _ _ _ => exact absurd hq nofun
        | cond _ _ _ => exact absurd hq nofun
        | unary o w => cases o <;> cases hq
        | binary _ _ _ => exact absurd hq nofun
        | forE _ _ _ _ _ _ _ => exact absurd hq nofun
        | _ => cases h
      | newtype name t =>
        change (de E n t (.expr e)).map Datum.newtype = _ at h
        rw [dmap_ok] at h
        obtain ⟨d', h1, rfl⟩ := h
        exact .newtype (ih hu.2 hw h1)
      | tupleStruct ts =>
        obtain ⟨vs, ds, rfl, rfl, h'⟩ := visitTuple_soundE ih hu hw h
        exact .tupleStruct h'
      | struct name fs =>
        cases e with
        | object es =>
          obtain ⟨ds, rfl, ho, h'⟩ := visitFields_soundE ih hu.1 hu.2 hw h
          exact .struct ho h'
        | array es =>
          obtain ⟨vs, ds, he, rfl, h'⟩ := visitTuple_soundE (e := .array es) ih (userFields_tys hu.2) hw h
          cases he
          exact .structSeq h'
        | template w => exact template_none hq ht
        | traversal _ _ => exact absurd hq nofun
        | call _ _ _ => exact absurd hq nofun
        | cond _ _ _ => exact absurd hq nofun
        | unary o w => cases o <;> cases hq
        | binary _ _ _ => exact absurd hq nofun
        | forE _ _ _ _ _ _ _ => exact absurd hq nofun
        | _ => cases h
      | enum name vs =>
        change visit E (de E n) (.enum name vs) (exprEnum name e) = _ at h
        simp only [exprEnum, if_neg hu.2.1] at h
        cases e with
        | string s =>
          obtain ⟨i, v, hv, -, h⟩ := enum_pick hu.1 hu.2.2 (name := .str s) rfl h
          cases v with
          | unit => cases h; exact .unitVar hv
          | _ => cases h
        | object es =>
          cases es with
          | nil => cases h
          | cons p es =>
            obtain ⟨k, w⟩ := p
            obtain ⟨i, x, v, hx, hv, hu', h⟩ := enum_pickE hu.1 hu.2.2 h
            cases v with
            | unit =>
              change ((de E n .unit (.expr w)).map _).map _ = _ at h
              rw [dmap_ok] at h
              obtain ⟨_, h1, rfl⟩ := h
              rw [dmap_ok] at h1
              obtain ⟨d', h1, -⟩ := h1
              cases ih (t := .unit) trivial hw.1.2 h1 with
              | unit => exact .unitVarNull hx hv
              | op _ h => cases h
              | quoted h => cases h with | text h => cases h
            | newtype t =>
              change (de E n t (.expr w)).map _ = _ at h
              rw [dmap_ok] at h
              obtain ⟨d', h1, rfl⟩ := h
              exact .newtypeVar hx hv (ih hu' hw.1.2 h1)
            | tuple ts =>
              change (visitTuple (de E n) ts (exprSeq w)).map _ = _ at h
              rw [dmap_ok] at h
              obtain ⟨d', h1, rfl⟩ := h
              obtain ⟨vs', ds, rfl, rfl, h'⟩ := visitTuple_soundE ih hu' hw.1.2 h1
              exact .tupleVar hx hv h'
            | struct fs =>
              change (visitStruct E (de E n) fs (exprMap w)).map _ = _ at h
              rw [dmap_ok] at h
              obtain ⟨d', h1, rfl⟩ := h
              have hc := hw.1.2
              cases hq' : partsOf w with
              | some ps =>
                rw [(exprMap_parts (E := E) hq').1] at h1
                obtain ⟨ds, rfl, hds⟩ := parts_fields_sound (exprMap_parts (E := E) hq').2.2 hu'.1 h1
                exact .structVarOp hx hv hq' hds
              | none =>
              cases w with
              | object ws =>
                obtain ⟨ds, rfl, ho, h'⟩ := visitFields_soundE ih hu'.1 hu'.2 hc h1
                exact .structVar hx hv ho h'
              | template w =>
                rcases w with w | ⟨a, w, m⟩
                · cases h1
                · cases m <;> cases hq'
              | unary o w => cases o <;> cases hq'
              | traversal _ _ => cases hq'
              | call _ _ _ => cases hq'
              | cond _ _ _ => cases hq'
              | binary _ _ _ => cases hq'
              | forE _ _ _ _ _ _ _ => cases hq'
              | _ => cases h1
        | template w => exact template_none hq ht
        | traversal _ _ => exact absurd hq nofun
        | call _ _ _ => exact absurd hq nofun
        | cond _ _ _ => exact absurd hq nofun
        | unary o w => cases o <;> cases hq
        | binary _ _ _ => exact absurd hq nofun
        | forE _ _ _ _ _ _ _ => exact absurd hq nofun
        | _ => cases h
      | ignored =>
        rw [ignored_unit h0]; exact .ignored e
      | value =>
        obtain ⟨m, v, hm, rfl, hv⟩ := de_value_inv h0
        exact .value (valueOf_sound e hw hv)
      | number => exact number_soundE (n := n) hw h
      | ident =>
        change visit E (de E n) .ident (exprString E e) = _ at h
        rw [exprString_text] at h
        obtain ⟨hx, rfl⟩ := str_ident h
        exact .ident hx
      | _ => exact hu.elim
    refine ⟨hE, ?_⟩
    intro t k d hu hk h
    have hany : (∀ n vs, t ≠ .enum n vs) → t ≠ .expr → visit E (de E n) t (keyAny E k) = .ok d := by
      intro hne hne'
      rw [← h]
      cases t with
      | enum n vs => exact absurd rfl (hne n vs)
      | expr => exact absurd rfl hne'
      | _ => rfl
    have hdata : DataTy t → ReadsKeyE E t k d := by
      intro ht
      have h' := hany (by rintro n vs rfl; exact ht) (by rintro rfl; exact ht)
      cases hx : textKey E k with
      | some x =>
        rw [keyAny_textKey hx] at h'
        cases t <;> first | (exact ht.elim) | cases h'
      | none =>
        obtain ⟨e, rfl, hd⟩ := textKey_none hx
        refine .data ht hd (hE hu (clean_bare e hk) ?_)
        change visit E (de E n) t (exprAny E e) = _ at h'
        rw [exprAny_bare, visit_data ht hd] at h'
        exact h'
    have htext : (t = .char ∨ t = .string ∨ t = .ident) → ∃ x, textKey E k = some x ∧ visit E (de E n) t (.str x) = .ok d := by
      intro ht
      have h' := hany (by rintro n vs rfl; simp at ht) (by rintro rfl; simp at ht)
      cases hx : textKey E k with
      | some x =>
        rw [keyAny_textKey hx] at h'
        exact ⟨x, rfl, h'⟩
      | none =>
        obtain ⟨e, rfl, hd⟩ := textKey_none hx
        change visit E (de E n) t (exprAny E e) = _ at h'
        rw [exprAny_bare] at h'
        cases hb : bare e <;> rw [hb] at h' hd <;> first | (exact hd.elim) | skip
        all_goals rcases ht with rfl | rfl | rfl <;> first | (cases h'; done) | (rename_i m; cases m <;> cases h')
    cases t with
    | char =>
      obtain ⟨x, hx, h'⟩ := htext (by simp)
      obtain ⟨c, rfl, rfl⟩ := str_char h'
      exact .char hx
    | string =>
      obtain ⟨x, hx, h'⟩ := htext (by simp)
      cases h'
      exact .string hx
    | ident =>
      obtain ⟨x, hx, h'⟩ := htext (by simp)
      obtain ⟨hi, rfl⟩ := str_ident h'
      exact .ident hx hi
    | ignored => rw [ignored_unit h]; exact .ignored k
    | value =>
      obtain ⟨m, v, -, rfl, hv⟩ := de_value_inv h
      cases k with
      | ident x => cases hv; exact .value rfl
      | expr e => exact .value (valueOf_sound e hk hv)
    | option t =>
      have h' := hany nofun nofun
      cases hx : textKey E k with
      | some x => rw [keyAny_textKey hx] at h'; cases h'
      | none =>
        obtain ⟨e, rfl, hd⟩ := textKey_none hx
        change visit E (de E n) _ (exprAny E e) = _ at h'
        rw [exprAny_bare] at h'
        cases hb : bare e <;> rw [hb] at h' hd <;> first | (exact hd.elim) | (cases h'; done) | (cases h'; exact .none hb) | (rename_i m; cases m <;> cases h')
    | newtype name t =>
      have h' := hany nofun nofun
      cases hx : textKey E k with
      | some x => rw [keyAny_textKey hx] at h'; cases h'
      | none =>
        obtain ⟨e, rfl, hd⟩ := textKey_none hx
        change visit E (de E n) _ (exprAny E e) = _ at h'
        rw [exprAny_bare] at h'
        cases hb : bare e <;> rw [hb] at h' hd <;> first | (exact hd.elim) | (cases h'; done) | skip
        · rename_i m; cases m <;> cases h'
        · rename_i es
          simp only [exprAny, visit, dbind_ok] at h'
          obtain ⟨d', h1, h2⟩ := h'
          obtain ⟨ws, ds, hws, rfl, h3⟩ := visitTuple_soundE (e := .array es) (ts := [t]) ih ⟨hu.2, trivial⟩
            (by have := clean_bare e hk; rw [hb] at this; exact this) h1
          cases hws
          cases h3 with
          | cons h3 h4 =>
            cases h4
            cases h2
            exact .newtype hb h3
    | enum name vs =>
      change visitEnum E (de E n) vs (.str (keyName k)) (.key k) = _ at h
      obtain ⟨i, v, hv, hu', h⟩ := enum_pick hu.1 hu.2.2 (name := .str (keyName k)) rfl h
      cases v with
      | unit =>
        change ((de E n .unit (.key k)).map _).map _ = _ at h
        rw [dmap_ok] at h
        obtain ⟨_, h1, rfl⟩ := h
        rw [dmap_ok] at h1
        obtain ⟨d', h1, -⟩ := h1
        cases ihk (t := .unit) trivial hk h1 with
        | data _ _ h2 =>
          rename_i e _ _
          refine .exprUnit hv ?_
          revert h2
          generalize bare e = x
          intro h2
          cases h2 with
          | unit => rfl
          | op _ h => cases h
          | quoted h => cases h with | text h => cases h
      | newtype t =>
        change (newtypeVariant (de E n) t (.key k)).map _ = _ at h
        rw [dmap_ok] at h
        obtain ⟨d', h1, rfl⟩ := h
        cases k with
        | ident x => exact .identVar hv (ihk hu' trivial h1)
        | expr e => exact .exprVar hv (ih hu' hk h1)
      | tuple ts =>
        change (visitTuple (de E n) ts (keyAny E k)).map _ = _ at h
        rw [dmap_ok] at h
        obtain ⟨d', h1, rfl⟩ := h
        cases hx : textKey E k with
        | some x => rw [keyAny_textKey hx] at h1; cases h1
        | none =>
          obtain ⟨e, rfl, hd⟩ := textKey_none hx
          change visitTuple (de E n) ts (exprAny E e) = _ at h1
          rw [exprAny_bare] at h1
          have hc := clean_bare e hk
          cases hb : bare e <;> rw [hb] at h1 hd hc <;> first | (exact hd.elim) | (cases h1; done) | skip
          · rename_i m; cases m <;> cases h1
          · rename_i es
            obtain ⟨ws, ds, hws, rfl, h3⟩ := visitTuple_soundE (e := .array es) ih hu' hc h1
            cases hws
            exact .exprTuple hv hb h3
      | struct fs =>
        change (visitStruct E (de E n) fs (keyAny E k)).map _ = _ at h
        rw [dmap_ok] at h
        obtain ⟨d', h1, rfl⟩ := h
        cases hx : textKey E k with
        | some x => rw [keyAny_textKey hx] at h1; cases h1
        | none =>
          obtain ⟨e, rfl, hd⟩ := textKey_none hx
          change visitStruct E (de E n) fs (exprAny E e) = _ at h1
          rw [exprAny_bare] at h1
          have hc := clean_bare e hk
          cases hb : bare e <;> rw [hb] at h1 hd hc <;> first | (exact hd.elim) | (cases h1; done) | skip
          · rename_i m; cases m <;> cases h1
          · rename_i es
            obtain ⟨ws, ds, hws, rfl, h3⟩ := visitTuple_soundE (e := .array es) ih (userFields_tys hu'.2) hc h1
            cases hws
            exact .exprStructSeq hv hb h3
          · obtain ⟨ds, rfl, ho, h3⟩ := visitFields_soundE ih hu'.1 hu'.2 hc h1
            exact .exprStruct hv hb ho h3
    | unOp => exact hu.elim
    | binOp => exact hu.elim
    | strip => exact hu.elim
    | expr => exact hu.elim
    | body => exact hu.elim
    | _ => exact hdata trivial

/-! ### Completeness -/

theorem enum_ask {n : Str} (hn : n ≠ c!"$hcl::Expression") {vs : List (Str × VTy)} {m : Nat} {k : ObjKey} {w : Expr}
    {es : List (ObjKey × Expr)} : de E (m + 1) (.enum n vs) (.expr (.object ((k, w) :: es))) =
      visitEnum E (de E m) vs (.key k) (.entry (.expr w)) := by
  change visit E (de E m) (.enum n vs) (exprEnum n (.object ((k, w) :: es))) = _
  simp only [exprEnum, if_neg hn]
  rfl

theorem struct_completeE {fs : List (Str × Ty)} (hf : (fs.map Prod.fst).Nodup) {es : List (ObjKey × Expr)}
    (ho : FieldsOnce E (fs.map Prod.fst) es) {ds : List Datum}
    (h : ∀ᶠ n in atTop, List.Forall₂ (FieldFrom (de E n) (exprKS E (fs.map Prod.fst) es)) fs ds) :
    ∀ᶠ n in atTop, visitStruct E (de E n) fs (.map (entries es)) = .ok (.list ds) := by
  filter_upwards [h, eventually_ge_atTop 1] with n h h1
  rw [← exprKS_entries (fs.map Prod.fst), visitStruct_map_once hf (exprKS_ask hf ho.1)]
  refine ⟨(exprKS_once ho.1).2 ho, fun q hq _ => ?_, ds, rfl, h⟩
  obtain ⟨p, hp, rfl⟩ := List.mem_map.1 hq
  obtain ⟨m, rfl⟩ : ∃ m, n = m + 1 := ⟨n - 1, by omega⟩
  exact ⟨_, rfl⟩

theorem elements_tupleE {r : Ty → Src → DRes Datum} {ts : List Ty} {es : List Expr} {ds : List Datum}
    (h : ∃ rest, elements r ts (exprs es) = .ok (ds, rest)) :
    visitTuple r ts (.seq (exprs es) false) = .ok (.list ds) := by
  obtain ⟨rest, h⟩ := h
  simp only [visitTuple, dbind_ok]
  exact ⟨_, h, by simp⟩

theorem key_str {k : ObjKey} {x : Str} (hk : textKey E k = some x) {t : Ty} (ht : (∀ n vs, t ≠ .enum n vs) ∧ t ≠ .expr)
    {d : Datum} (h : Deserializes E t (.str x) d) : Deserializes E t (.key k) d := by
  obtain ⟨n, hn⟩ := h
  cases n with
  | zero => cases hn
  | succ n =>
    refine ⟨n + 1, ?_⟩
    rw [← hn]
    cases t with
    | enum n vs => exact absurd rfl (ht.1 n vs)
    | expr => exact absurd rfl ht.2
    | _ =>
      show visit E (de E n) _ (keyAny E k) = _
      rw [keyAny_textKey hk]; rfl

theorem key_data {t : Ty} {e : Expr} {d : Datum} (ht : DataTy t) (hd : IsData (bare e))
    (h : Deserializes E t (.expr (bare e)) d) : Deserializes E t (.key (.expr e)) d := by
  obtain ⟨n, hn⟩ := h
  cases n with
  | zero => cases hn
  | succ n =>
    refine ⟨n + 1, ?_⟩
    rw [← hn]
    have : visit E (de E n) t (exprAny E e) = visit E (de E n) t (exprAsk E (bare e) (want t)) := by
      rw [exprAny_bare, visit_data ht hd]
    cases t with
    | enum n vs => exact ht.elim
    | expr => exact ht.elim
    | _ => exact this

mutual
theorem readsE_complete : ∀ {t : Ty} {e : Expr} {d : Datum}, ReadsE E t e d → UserTy t → Clean e →
    Deserializes E t (.expr e) d
  | _, _, _, .bool b, _, _ => ⟨1, rfl⟩
  | _, _, _, .sint h1 h2 h3, _, _ => ⟨1, visitInt_iff.2 ⟨_, h1, h2, h3, rfl⟩⟩
  | _, _, _, .uint h1 h2 h3, _, _ => ⟨1, visitInt_iff.2 ⟨_, h1, h2, h3, rfl⟩⟩
  | _, _, _, .f64 m, _, _ => ⟨1, by cases m <;> rfl⟩
  | _, e, _, .char h, _, _ => ⟨1, by
    change visit E (de E 0) .char (exprString E e) = _
    rw [exprString_text, h]; rfl⟩
  | _, _, _, .string e, _, _ => ⟨1, by
    change visit E (de E 0) .string (exprString E e) = _
    rw [exprString_text]; rfl⟩
  | _, _, _, .unit, _, _ => ⟨1, rfl⟩
  | _, _, _, .none, _, _ => ⟨1, rfl⟩
  | _, _, _, .some hv h, hu, hw => option_completeE hv (readsE_complete h hu hw)
  | _, _, _, .seq (t := t) (es := es) h, hu, hw => by
    refine .of_eventually ?_
    filter_upwards [all_completeE h hu hw] with n h
    show (DRes.each (de E n t) (exprs es)).map Datum.list = _
    rw [h]; rfl
  | _, _, _, .tuple (ts := ts) h, hu, hw => by
    refine .of_eventually ?_
    filter_upwards [each_completeE h hu hw] with n h
    exact elements_tupleE h
  | _, _, _, .tupleStruct (ts := ts) h, hu, hw => by
    refine .of_eventually ?_
    filter_upwards [each_completeE h hu hw] with n h
    exact elements_tupleE h
  | _, _, _, .map (k := k) (t := t) (es := es) h, hu, hw => by
    refine .of_eventually ?_
    filter_upwards [entries_completeE h hu.1 hu.2 hw] with n h
    show (DRes.each _ (entries es)).map Datum.map = _
    rw [h]; rfl
  | _, _, _, .newtype (t := t) h, hu, hw => by
    refine .of_eventually ?_
    filter_upwards [(readsE_complete h hu.2 hw).eventually] with n h
    exact dmap_ok.2 ⟨_, h, rfl⟩
  | _, _, _, .struct (fs := fs) (es := es) ho h, hu, hw => by
    refine .of_eventually ?_
    filter_upwards [struct_completeE hu.1 ho (fields_completeE h hu.2 hw ho.1 fun f hf => List.mem_map_of_mem hf)] with n h
    exact h
  | _, _, _, .structSeq (fs := fs) h, hu, hw => by
    refine .of_eventually ?_
    filter_upwards [each_completeE h (userFields_tys hu.2) hw] with n h
    exact elements_tupleE h
  | _, _, _, .unitVar (n := name) (x := x) (vs := vs) hv, hu, _ => ⟨1, by
    change visit E (de E 0) (.enum name vs) (exprEnum name (.string x)) = _
    simp only [exprEnum, if_neg hu.2.1]
    exact enum_complete hu.1 hv rfl⟩
  | _, _, _, .unitVarNull hx hv, hu, hw => ⟨2, by
    refine (enum_ask hu.2.1).trans ?_
    exact enum_keyE hu.1 hx hv rfl⟩
  | _, _, _, .newtypeVar hx hv h, hu, hw => by
    refine .of_eventually ?_
    filter_upwards [(readsE_complete h (userVariants_get hu.2.2 _ (List.mem_of_getElem? hv)) hw.1.2).eventually]
      with n h
    refine (enum_ask hu.2.1).trans ?_
    exact enum_keyE hu.1 hx hv (dmap_ok.2 ⟨_, h, rfl⟩)
  | _, _, _, .tupleVar hx hv h, hu, hw => by
    refine .of_eventually ?_
    filter_upwards [each_completeE h (userVariants_get hu.2.2 _ (List.mem_of_getElem? hv)) hw.1.2] with n h
    refine (enum_ask hu.2.1).trans ?_
    exact enum_keyE hu.1 hx hv (dmap_ok.2 ⟨_, elements_tupleE h, rfl⟩)
  | _, _, _, .structVar hx hv ho h, hu, hw => by
    have hu' := userVariants_get hu.2.2 _ (List.mem_of_getElem? hv)
    refine .of_eventually ?_
    filter_upwards [struct_completeE hu'.1 ho (fields_completeE h hu'.2 hw.1.2 ho.1 fun f hf => List.mem_map_of_mem hf)] with n h
    refine (enum_ask hu.2.1).trans ?_
    exact enum_keyE hu.1 hx hv (dmap_ok.2 ⟨_, h, rfl⟩)
  | _, _, _, .ignored e, _, _ => des_ignored_expr e
  | _, e, _, .value h, _, hw => des_value_of (s := .expr e) (valueOf_complete e hw h)
  | _, _, _, .number m, _, hw => des_number_of (s := .expr (.number m)) hw rfl
  | _, _, _, .numberParen h, hu, hw => by
    obtain ⟨n, hn⟩ := readsE_complete h hu hw
    cases n with
    | zero => cases hn
    | succ n => exact ⟨n + 1, hn⟩
  | _, _, _, .ident h, _, _ => des_ident_text h
  | _, _, _, .op hq h, hu, _ => op_complete hq h hu
  | _, _, _, .quoted h, hu, _ => quoted_complete h hu
  | _, _, _, .structVarOp hx hv hq h, hu, hw => by
    have hu' := userVariants_get hu.2.2 _ (List.mem_of_getElem? hv)
    have hp := exprMap_parts (E := E) hq
    refine .of_eventually ?_
    filter_upwards [parts_fields_complete hp.2.2 (ignored_part hq) hu'.1 h] with n h
    refine (enum_ask hu.2.1).trans ?_
    refine enum_keyE hu.1 hx hv (dmap_ok.2 ⟨_, ?_, rfl⟩)
    change visitStruct E (de E n) _ (exprMap _) = _
    rw [hp.1]; exact h

theorem readsKeyE_complete : ∀ {t : Ty} {k : ObjKey} {d : Datum}, ReadsKeyE E t k d → UserTy t → CleanKey k →
    Deserializes E t (.key k) d
  | _, _, _, .char h, _, _ => key_str (t := .char) h ⟨nofun, nofun⟩ ⟨1, rfl⟩
  | _, _, _, .string h, _, _ => key_str (t := .string) h ⟨nofun, nofun⟩ ⟨1, rfl⟩
  | _, _, _, .ident h hi, _, _ => key_str (t := .ident) h ⟨nofun, nofun⟩ (des_ident hi)
  | _, _, _, .ignored k, _, _ => by
    obtain ⟨n, hn⟩ := (ignored_key (E := E) k).exists
    exact ⟨n, hn⟩
  | _, .ident x, _, .value h, _, _ => by cases h; exact key_str (t := .value) rfl ⟨nofun, nofun⟩ ⟨1, rfl⟩
  | _, .expr e, _, .value h, _, hk => des_value_of (s := .key (.expr e)) (valueOf_complete e hk h)
  | _, _, _, .data (e := e) ht hd h, hu, hk => key_data ht hd (readsE_complete h hu (clean_bare e hk))
  | _, _, _, .none (t := t) (e := e) h, _, _ => ⟨1, by
    change visit E (de E 0) (.option t) (exprAny E e) = _
    rw [exprAny_bare, h]; rfl⟩
  | _, _, _, .newtype (t := t) (e := e) (w := w) (es := es) (d := d) hb h, hu, hk => by
    have hc := clean_bare e hk
    rw [hb] at hc
    refine .of_eventually ?_
    filter_upwards [(readsE_complete h hu.2 hc.1).eventually] with n h
    change visit E (de E n) _ (exprAny E e) = _
    rw [exprAny_bare, hb]
    have h1 : visitTuple (de E n) [t] (.seq (exprs (w :: es)) false) = .ok (.list [d]) :=
      elements_tupleE ⟨exprs es, by simp only [exprs, List.map_cons, elements, h, DRes.bind]⟩
    simp only [exprAny, visit, h1, DRes.bind]
  | _, _, _, .identVar hv h, hu, hk => by
    refine .of_eventually ?_
    filter_upwards [(readsKeyE_complete h (userVariants_get hu.2.2 _ (List.mem_of_getElem? hv)) hk).eventually]
      with n h
    exact enum_complete hu.1 hv (dmap_ok.2 ⟨_, h, rfl⟩)
  | _, _, _, .exprVar hv h, hu, hk => by
    refine .of_eventually ?_
    filter_upwards [(readsE_complete h (userVariants_get hu.2.2 _ (List.mem_of_getElem? hv)) hk).eventually]
      with n h
    exact enum_complete hu.1 hv (dmap_ok.2 ⟨_, h, rfl⟩)
  | _, _, _, .exprUnit (e := e) hv hb, hu, _ => ⟨2, by
    refine enum_complete (r := de E 1) hu.1 hv (dmap_ok.2 ⟨(), dmap_ok.2 ⟨.unit, ?_, rfl⟩, rfl⟩)
    change visit E (de E 0) .unit (exprAny E e) = _
    rw [exprAny_bare, hb]; rfl⟩
  | _, _, _, .exprTuple (ts := ts) (e := e) hv hb h, hu, hk => by
    have hc := clean_bare e hk
    rw [hb] at hc
    refine .of_eventually ?_
    filter_upwards [each_completeE h (userVariants_get hu.2.2 _ (List.mem_of_getElem? hv)) hc] with n h
    refine enum_complete hu.1 hv (dmap_ok.2 ⟨_, ?_, rfl⟩)
    change visitTuple (de E n) ts (exprAny E e) = _
    rw [exprAny_bare, hb]
    exact elements_tupleE h
  | _, _, _, .exprStruct (fs := fs) (e := e) hv hb ho h, hu, hk => by
    have hc := clean_bare e hk
    rw [hb] at hc
    have hu' := userVariants_get hu.2.2 _ (List.mem_of_getElem? hv)
    refine .of_eventually ?_
    filter_upwards [struct_completeE hu'.1 ho (fields_completeE h hu'.2 hc ho.1 fun f hf => List.mem_map_of_mem hf)]
      with n h
    refine enum_complete hu.1 hv (dmap_ok.2 ⟨_, ?_, rfl⟩)
    change visitStruct E (de E n) fs (exprAny E e) = _
    rw [exprAny_bare, hb]
    exact h
  | _, _, _, .exprStructSeq (fs := fs) (e := e) hv hb h, hu, hk => by
    have hc := clean_bare e hk
    rw [hb] at hc
    have hu' := userVariants_get hu.2.2 _ (List.mem_of_getElem? hv)
    refine .of_eventually ?_
    filter_upwards [each_completeE h (userFields_tys hu'.2) hc] with n h
    refine enum_complete hu.1 hv (dmap_ok.2 ⟨_, ?_, rfl⟩)
    change visitStruct E (de E n) fs (exprAny E e) = _
    rw [exprAny_bare, hb]
    exact elements_tupleE h

theorem all_completeE : ∀ {t : Ty} {es : List Expr} {ds : List Datum}, ReadsAllE E t es ds → UserTy t →
    CleanList es → ∀ᶠ n in atTop, DRes.each (de E n t) (exprs es) = .ok ds
  | _, _, _, .nil, _, _ => .of_forall fun _ => rfl
  | _, _, _, .cons h hr, hu, hw => by
    filter_upwards [(readsE_complete h hu hw.1).eventually, all_completeE hr hu hw.2] with n h1 h2
    simp only [exprs] at h2
    simp only [exprs, List.map_cons, DRes.each, h1, h2, DRes.bind]

theorem each_completeE : ∀ {ts : List Ty} {es : List Expr} {ds : List Datum}, ReadsEachE E ts es ds → UserTys ts →
    CleanList es → ∀ᶠ n in atTop, ∃ rest, elements (de E n) ts (exprs es) = .ok (ds, rest)
  | _, _, _, .nil, _, _ => .of_forall fun _ => ⟨_, rfl⟩
  | _, _, _, .cons h hr, hu, hw => by
    filter_upwards [(readsE_complete h hu.1 hw.1).eventually, each_completeE hr hu.2 hw.2] with n h1 h2
    obtain ⟨rest, h2⟩ := h2
    simp only [exprs] at h2
    exact ⟨rest, by simp only [exprs, List.map_cons, elements, h1, h2, DRes.bind]⟩

theorem entries_completeE : ∀ {k t : Ty} {es : List (ObjKey × Expr)} {ds : List (Datum × Datum)},
    ReadsEntriesE E k t es ds → UserTy k → UserTy t → CleanEntries es →
    ∀ᶠ n in atTop, DRes.each (fun p : Src × Src => (de E n k p.1).bind fun x => (de E n t p.2).bind fun y => .ok (x, y))
      (entries es) = .ok ds
  | _, _, _, _, .nil, _, _, _ => .of_forall fun _ => rfl
  | _, _, _, _, .cons hk h hr, huk, hu, hw => by
    filter_upwards [(readsKeyE_complete hk huk hw.1.1).eventually, (readsE_complete h hu hw.1.2).eventually,
      entries_completeE hr huk hu hw.2] with n h1 h2 h3
    simp only [entries] at h3
    simp only [entries, List.map_cons, DRes.each, h1, h2, h3, dbind_ok]
    exact ⟨_, ⟨_, rfl, _, rfl, rfl⟩, _, rfl, rfl⟩

theorem fields_completeE : ∀ {ns : List Str} {fs : List (Str × Ty)} {es : List (ObjKey × Expr)} {ds : List Datum},
    ReadsFieldsE E ns fs es ds → UserFields fs → CleanEntries es → (∀ p ∈ es, FieldKey E p.1) → (∀ f ∈ fs, f.1 ∈ ns) →
    ∀ᶠ n in atTop, List.Forall₂ (FieldFrom (de E n) (exprKS E ns es)) fs ds
  | _, _, _, _, .nil, _, _, _, _ => .of_forall fun _ => .nil
  | _, _, es, _, .found (k := k) (e := e) hm hd h hr, hu, hw, hk, hns => by
    rw [List.forall_mem_cons] at hns
    filter_upwards [(readsE_complete h hu.1 (cleanEntries_mem hw _ hm).2).eventually,
      fields_completeE hr hu.2 hw hk hns.2] with n h1 h2
    exact .cons (.inl ⟨_, List.mem_map.2 ⟨_, hm, rfl⟩, ((denotes_nameFor (hk _ hm)).1 hd).2, h1⟩) h2
  | _, _, es, _, .missing (t := t) hno hr, hu, hw, hk, hns => by
    rw [List.forall_mem_cons] at hns
    filter_upwards [(show Deserializes E (.option t) .missing .none from ⟨1, rfl⟩).eventually,
      fields_completeE hr hu.2 hw hk hns.2] with n h1 h2
    refine .cons (.inr ⟨fun h => ?_, h1⟩) h2
    obtain ⟨q, hq, he⟩ := List.mem_map.1 h
    obtain ⟨p, hp, rfl⟩ := List.mem_map.1 hq
    exact hno p hp ((denotes_nameFor (hk p hp)).2 ⟨hns.1, he⟩)
end

end Verif
