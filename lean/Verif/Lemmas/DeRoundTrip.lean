import Verif.Lemmas.DeValue
import Verif.Lemmas.Number
import Verif.Lemmas.Ser
import Verif.Spec.RoundTrip
/-!
Data that is serialized and deserialized again.
-/

namespace Verif
open Spec De Filter

section
variable {E : FmtEnv}

/-! ### Putting results together -/

/-- An element: where it comes from, its type and the result. -/
structure Elt where
  ty : Ty
  src : Src
  d : Datum

theorem elements_ok {r : Ty → Src → DRes Datum} : ∀ {l : List Elt}, (∀ q ∈ l, r q.ty q.src = .ok q.d) →
    elements r (l.map Elt.ty) (l.map Elt.src) = .ok (l.map Elt.d, [])
  | [], _ => rfl
  | q :: l, h => by
    simp only [List.map_cons, elements, h q (by simp), DRes.bind, elements_ok (l := l) fun p hp => h p (by simp [hp])]

theorem visitTuple_ok {r : Ty → Src → DRes Datum} {l : List Elt} {ends : Bool}
    (h : ∀ q ∈ l, r q.ty q.src = .ok q.d) :
    visitTuple r (l.map Elt.ty) (.seq (l.map Elt.src) ends) = .ok (.list (l.map Elt.d)) := by
  simp [visitTuple, elements_ok h, DRes.bind]

theorem des_tuple {s : Src} {l : List Elt} {ends : Bool} (ha : ask E s .tuple = .seq (l.map Elt.src) ends)
    (h : ∀ q ∈ l, Deserializes E q.ty q.src q.d) :
    Deserializes E (.tuple (l.map Elt.ty)) s (.list (l.map Elt.d)) := by
  refine .of_eventually ?_
  filter_upwards [eventually_list fun q hq => (h q hq).eventually] with n hn
  show visitTuple (de E n) _ (ask E s .tuple) = _
  rw [ha]; exact visitTuple_ok hn

theorem des_tupleStruct {s : Src} {l : List Elt} {ends : Bool}
    (ha : ask E s .tupleStruct = .seq (l.map Elt.src) ends) (h : ∀ q ∈ l, Deserializes E q.ty q.src q.d) :
    Deserializes E (.tupleStruct (l.map Elt.ty)) s (.list (l.map Elt.d)) := by
  refine .of_eventually ?_
  filter_upwards [eventually_list fun q hq => (h q hq).eventually] with n hn
  show visitTuple (de E n) _ (ask E s .tupleStruct) = _
  rw [ha]; exact visitTuple_ok hn

theorem des_seq_of {s : Src} {t : Ty} {l : List Elt} {ends : Bool} (ha : ask E s .seq = .seq (l.map Elt.src) ends)
    (h : ∀ q ∈ l, Deserializes E t q.src q.d) : Deserializes E (.seq t) s (.list (l.map Elt.d)) := by
  refine .of_eventually ?_
  filter_upwards [eventually_list fun q hq => (h q hq).eventually] with n hn
  show visit E (de E n) (.seq t) (ask E s .seq) = _
  rw [ha, visit, DRes.each_map_ok (g := Elt.d) fun q hq => hn q hq]; rfl

theorem des_some {t : Ty} {s s' : Src} {d : Datum} (ha : ask E s .option = .some s')
    (h : Deserializes E t s' d) : Deserializes E (.option t) s (.some d) := by
  refine .of_eventually ?_
  filter_upwards [h.eventually] with n hn
  show visit E (de E n) (.option t) (ask E s .option) = _
  rw [ha, visit, hn]; rfl

theorem des_newtype {t : Ty} {x : Str} {s s' : Src} {d : Datum} (ha : ask E s (.newtype x) = .newtype s')
    (h : Deserializes E t s' d) : Deserializes E (.newtype x t) s (.newtype d) := by
  refine .of_eventually ?_
  filter_upwards [h.eventually] with n hn
  show visit E (de E n) (.newtype x t) (ask E s (.newtype x)) = _
  rw [ha, visit, hn]; rfl

/-- An entry of a map: where key and value come from, and the results. -/
structure Ent where
  key : Src
  src : Src
  k : Datum
  d : Datum

theorem des_map {s : Src} {k t : Ty} {l : List Ent} (ha : ask E s .map = .map (l.map fun q => (q.key, q.src)))
    (h : ∀ q ∈ l, Deserializes E k q.key q.k ∧ Deserializes E t q.src q.d) :
    Deserializes E (.map k t) s (.map (l.map fun q => (q.k, q.d))) := by
  refine .of_eventually ?_
  filter_upwards [eventually_list fun q hq => (h q hq).1.eventually,
    eventually_list fun q hq => (h q hq).2.eventually] with n h1 h2
  show visit E (de E n) (.map k t) (ask E s .map) = _
  rw [ha, visit, DRes.each_map_ok (g := fun q => (q.k, q.d)) fun q hq => by
    simp only [h1 q hq, h2 q hq, DRes.bind]]
  rfl

theorem findIdx_variant {vs : List (Str × VTy)} {x : Str} {i : Nat} {v : VTy} (hn : (vs.map Prod.fst).Nodup)
    (h : vs[i]? = some (x, v)) : (vs.map Prod.fst).findIdx? (fun y => y == x) = some i := by
  obtain ⟨hi, he⟩ := List.getElem?_eq_some_iff.1 h
  rw [List.findIdx?_eq_some_iff_getElem]
  refine ⟨by simpa using hi, by simp [he], fun j hj => ?_⟩
  simp only [beq_iff_eq]
  intro heq
  have h1 : j < (vs.map Prod.fst).length := by simp; omega
  have h2 : i < (vs.map Prod.fst).length := by simpa using hi
  have := (List.Nodup.getElem_inj_iff hn (hi := h1) (hj := h2)).1 (by rw [heq]; simp [he])
  omega

/-- A variant of any kind. -/
theorem des_enum {s key : Src} {name x : Str} {vs : List (Str × VTy)} {acc : VAcc} {i : Nat} {v : VTy}
    {d : Datum} (hn : (vs.map Prod.fst).Nodup) (hv : vs[i]? = some (x, v))
    (ha : ask E s (.enum name) = .enum key acc) (hk : ask E key .identifier = .str x)
    (h : ∀ᶠ n in atTop, variantContent E (de E n) i acc v = .ok d) : Deserializes E (.enum name vs) s d := by
  refine .of_eventually ?_
  filter_upwards [h] with n h
  show visit E (de E n) (.enum name vs) (ask E s (.enum name)) = _
  rw [ha]
  simp only [visit, visitEnum, hk, variantOf, findIdx_variant hn hv, DRes.ofOption, DRes.bind, hv, h]

theorem eventually_content_unit {acc : VAcc} {i : Nat} (h : ∀ᶠ n in atTop, unitVariant (de E n) acc = .ok ()) :
    ∀ᶠ n in atTop, variantContent E (de E n) i acc .unit = .ok (.unitVar i) := by
  filter_upwards [h] with n hn
  rw [variantContent, hn]; rfl

theorem eventually_content_newtype {acc : VAcc} {i : Nat} {t : Ty} {s : Src} {d : Datum}
    (hc : ∀ r, newtypeVariant r t acc = r t s) (h : Deserializes E t s d) :
    ∀ᶠ n in atTop, variantContent E (de E n) i acc (.newtype t) = .ok (.var i d) := by
  filter_upwards [h.eventually] with n hn
  rw [variantContent, hc, hn]; rfl

theorem eventually_content_tuple {acc : VAcc} {i : Nat} {l : List Elt} {ends : Bool}
    (ha : VAcc.tuple E acc = .seq (l.map Elt.src) ends) (h : ∀ q ∈ l, Deserializes E q.ty q.src q.d) :
    ∀ᶠ n in atTop, variantContent E (de E n) i acc (.tuple (l.map Elt.ty)) = .ok (.var i (.list (l.map Elt.d))) := by
  filter_upwards [eventually_list fun q hq => (h q hq).eventually] with n hn
  rw [variantContent, ha, visitTuple_ok hn]; rfl

theorem eventually_content_struct {acc : VAcc} {i : Nat} {l : List Fld}
    (ha : VAcc.struct E acc = .map (l.map fun q => (q.key, q.src))) (hn : (l.map Fld.name).Nodup)
    (h : ∀ q ∈ l, ask E q.key .identifier = .str q.name ∧ Deserializes E q.ty q.src q.d) :
    ∀ᶠ n in atTop, variantContent E (de E n) i acc (.struct (l.map fun q => (q.name, q.ty))) =
      .ok (.var i (.list (l.map Fld.d))) := by
  filter_upwards [eventually_list fun q hq => (h q hq).2.eventually] with n hn'
  rw [variantContent, ha, visitStruct_ok hn fun q hq => ⟨(h q hq).1, hn' q hq⟩]; rfl

/-! ### Scalars -/

theorem des_sint {s : Src} {bits : Nat} {i : Int} (h1 : -2 ^ (bits - 1) ≤ i)
    (h2 : i ≤ 2 ^ (bits - 1) - 1) (hs : ask E s .num = number (N.ofI64 i)) :
    Deserializes E (.sint bits) s (.int i) := by
  refine ⟨1, ?_⟩
  show visitInt _ _ (ask E s .num) = _
  rw [hs, N.ofI64]
  split
  · simp only [number, visitInt, if_pos (And.intro h1 h2)]
  · rename_i hi
    have : (i.toNat : Int) = i := by omega
    simp only [number, visitInt, this, if_pos (And.intro h1 h2)]

theorem des_uint {s : Src} {bits n : Nat} (h : n < 2 ^ bits) (hs : ask E s .num = .u64 n) :
    Deserializes E (.uint bits) s (.int n) := by
  refine ⟨1, ?_⟩
  show visitInt _ _ (ask E s .num) = _
  have : (n : Int) < 2 ^ bits := by exact_mod_cast h
  rw [hs, visitInt, if_pos ⟨by omega, by omega⟩]

theorem des_float {s : Src} {x : F64} {n : N} (h : FloatSafe x) (hf : N.fromF64 x = some n)
    (hs : ask E s .num = number n) : Deserializes E .f64 s (.f64 x) := by
  refine ⟨1, ?_⟩
  show visit E (de E 0) .f64 (ask E s .num) = _
  rw [hs]
  simp only [N.fromF64, h.1, if_true] at hf
  split at hf
  · rename_i hx
    have := h.2 hx
    injection hf with hf
    rw [← hf, N.ofI64]
    split
    · simp only [number, visit, this]
    · rename_i hi
      have ht : (x.toI64.toNat : Int) = x.toI64 := by omega
      simp only [number, visit, ht, this]
  · injection hf with hf
    rw [← hf]; rfl

theorem fromF64_safe {x : F64} (h : FloatSafe x) : ∃ n, N.fromF64 x = some n := by
  simp only [N.fromF64, h.1, if_true]
  split <;> exact ⟨_, rfl⟩

theorem des_str_of {s : Src} {x : Str} (hs : ask E s .str = .str x) : Deserializes E .string s (.str x) :=
  ⟨1, by show visitStr _ _ (ask E s .str) = _; rw [hs]; rfl⟩

theorem des_char_of {s : Src} {c : Char} (hs : ask E s .char = .str [c]) : Deserializes E .char s (.char c) :=
  ⟨1, by show visit E (de E 0) .char (ask E s .char) = _; rw [hs]; rfl⟩

theorem des_ident_of {s : Src} {x : Str} (h : IsIdentifier E.U x) (hs : ask E s .str = .str x) :
    Deserializes E .ident s (.str x) :=
  ⟨1, by
    show visitStr _ _ (ask E s .str) = _
    rw [hs, visitStr, (Props.C01_tryNew E.U x).1 h]; rfl⟩

theorem des_number_of {s : Src} {n : N} (h : WellFormed n) (hs : ask E s .any = number n) :
    Deserializes E .number s (.number n) := by
  refine ⟨1, ?_⟩
  show visit E (de E 0) .number (ask E s .any) = _
  rw [hs]
  cases n with
  | posInt n => rfl
  | negInt i => simp only [visit, number, N.ofI64, if_pos h.2]
  | float x => simp [visit, number, N.fromF64, h.2.1, h.2.2, DRes.ofOption, DRes.map, DRes.bind]

theorem des_value_str {s : Src} {x : Str} (hs : ask E s .any = .str x) :
    Deserializes E .value s (.value (.string x)) :=
  des_value_of (.of_forall fun _ => by rw [hs]; rfl)

theorem des_value_num {s : Src} {n : N} (h : WellFormed n) (hs : ask E s .any = number n) :
    Deserializes E .value s (.value (.number n)) :=
  des_value_of (.of_forall fun _ => by rw [hs]; exact visitValue_number h)

/-! ### Expressions -/

/-- The keys that survive. -/
inductive SimpleKey : ObjKey → Prop
  | str (s : Str) : SimpleKey (.expr (.string s))
  | pos {n : Nat} (h : n < 2 ^ 65) : SimpleKey (.expr (.number (.posInt n)))
  | neg {i : Int} (h : i < 0) (hb : i.natAbs < 2 ^ 65) : SimpleKey (.expr (.number (.negInt i)))

theorem posInt_ne_negInt {n : Nat} {i : Int} (hn : n < 2 ^ 65) (hi : i < 0) (hb : i.natAbs < 2 ^ 65) :
    F64.toRat (F64.ofInt n) ≠ F64.toRat (F64.ofInt i) := by
  have h1 := F64.ofInt_neg hi hb
  have h2 := F64.ofInt_nonneg (i := n) (by omega)
  exact fun h => absurd h1 (by rw [← h]; exact not_lt.2 h2)

theorem SimpleKey.beq {a b : ObjKey} (ha : SimpleKey a) (hb : SimpleKey b) (h : ObjKey.beq a b = true) : a = b := by
  cases ha with
  | str s => cases hb <;> simp_all [ObjKey.beq, Expr.beq]
  | @pos n hn =>
    cases hb with
    | str s => simp [ObjKey.beq, Expr.beq] at h
    | @pos m hm =>
      have h : (n == m) = true := h
      rw [beq_iff_eq.1 h]
    | @neg i hi hb =>
      have h : F64.eq (F64.ofInt n) (F64.ofInt i) = true := h
      rw [F64.eq_iff (F64.ofInt_finite (by omega)) (F64.ofInt_finite hb)] at h
      exact absurd h (posInt_ne_negInt hn hi hb)
  | @neg i hi hb' =>
    cases hb with
    | str s => simp [ObjKey.beq, Expr.beq] at h
    | @pos n hn =>
      have h : F64.eq (F64.ofInt i) (F64.ofInt n) = true := h
      rw [F64.eq_iff (F64.ofInt_finite hb') (F64.ofInt_finite (by omega))] at h
      exact absurd h.symm (posInt_ne_negInt hn hi hb')
    | @neg j hj hb =>
      have h : (i == j) = true := h
      rw [beq_iff_eq.1 h]

theorem simple_ofI64 {i : Int} {bits : Nat} (hb : bits ≤ 64) (h1 : -2 ^ (bits - 1) ≤ i) (h2 : i ≤ 2 ^ (bits - 1) - 1) :
    SimpleKey (.expr (.number (N.ofI64 i))) := by
  have h3 : (2 : Int) ^ (bits - 1) ≤ 2 ^ 63 := pow_le_pow_right₀ (by omega) (by omega)
  rw [N.ofI64]
  split
  · exact .neg (by assumption) (by omega)
  · exact .pos (by omega)

theorem wf_pos {n : Nat} (h : WellFormed (.posInt n)) : n < 2 ^ 65 := by
  have h : n < 2 ^ 64 := h
  omega

theorem wf_neg {i : Int} (h : WellFormed (.negInt i)) : i.natAbs < 2 ^ 65 := by
  have h : -2 ^ 63 ≤ i ∧ i < 0 := h
  omega

theorem key_rt {k : Ty} {dk : Datum} {kv : SVal} (h : Impl E.U k dk kv) (hs : ExprKey kv) :
    ∃ o, SimpleKey o ∧ (kv.run E).key = SM.ret o ∧ Deserializes E k (.key o) dk := by
  cases h with
  | sint h0 h1 h2 => exact ⟨_, simple_ofI64 h0 h1 h2, rfl, des_sint h1 h2 rfl⟩
  | uint h0 h => exact ⟨_, .pos (h.trans_le (Nat.pow_le_pow_right (by omega) (by omega))), rfl, des_uint h rfl⟩
  | u64 h => exact ⟨_, .pos (by omega), rfl, des_uint h rfl⟩
  | char c => exact ⟨_, .str _, rfl, des_char_of rfl⟩
  | string s => exact ⟨_, .str _, rfl, des_str_of rfl⟩
  | ident h => exact ⟨_, .str _, rfl, des_ident_of h rfl⟩
  | @number n _ hw hv =>
    subst hv
    cases n with
    | posInt n => exact ⟨_, .pos (wf_pos hw), rfl, des_number_of hw rfl⟩
    | negInt i =>
      refine ⟨.expr (.number (.negInt i)), .neg hw.2 (wf_neg hw), ?_, des_number_of hw rfl⟩
      show SM.ret (ObjKey.expr (.number (N.ofI64 i))) = _
      rw [N.ofI64, if_pos hw.2]
    | float => exact hs.elim
  | @value w _ _ hw hv =>
    subst hv
    cases w with
    | string s => exact ⟨_, .str _, rfl, des_value_str rfl⟩
    | number n =>
      cases n with
      | posInt n => exact ⟨_, .pos (wf_pos hw), rfl, des_value_num hw rfl⟩
      | negInt i =>
        refine ⟨.expr (.number (.negInt i)), .neg hw.2 (wf_neg hw), ?_, des_value_num hw rfl⟩
        show SM.ret (ObjKey.expr (.number (N.ofI64 i))) = _
        rw [N.ofI64, if_pos hw.2]
      | float => exact hs.elim
    | _ => exact hs.elim
  | _ => exact hs.elim

theorem keysDiffer_ents {k : Ty} {xs : List (ObjKey × Expr)} {l : List Ent}
    (hl : l.map (fun q => (q.key, q.src)) = entries xs) (hx : ∀ p ∈ xs, SimpleKey p.1)
    (hd : ∀ q ∈ l, Deserializes E k q.key q.k) (hn : (l.map Ent.k).Nodup) : KeysDiffer xs := by
  have h1 : (l.map Ent.key).Pairwise (· ≠ ·) := by
    rw [List.pairwise_map]
    refine (List.pairwise_map.1 hn).imp_of_mem fun {a b} ha hb hab he => hab ?_
    have := hd a ha
    rw [he] at this
    exact this.unique (hd b hb)
  have h2 : l.map Ent.key = xs.map fun p => Src.key p.1 := by
    have := congrArg (List.map Prod.fst) hl
    simpa [entries, Function.comp_def] using this
  rw [h2, List.pairwise_map] at h1
  refine h1.imp_of_mem fun {a b} ha hb hab => ?_
  rw [← Bool.not_eq_true]
  exact fun hbeq => hab (by rw [(hx a ha).beq (hx b hb) hbeq])

theorem keysDiffer_names {xs : List (ObjKey × Expr)} {ns : List Str} (h : xs.map Prod.fst = ns.map fun n => .expr (.string n))
    (hn : ns.Nodup) : KeysDiffer xs := by
  have h1 : (xs.map Prod.fst).Pairwise fun a b => ObjKey.beq a b = false := by
    rw [h, List.pairwise_map]
    refine hn.imp fun hab => ?_
    simpa [ObjKey.beq, Expr.beq] using hab
  exact List.pairwise_map.1 h1

mutual
theorem named_ofValue : ∀ {v : Value}, NumbersOk v → Named (ofValue v)
  | .null, _ => trivial
  | .bool _, _ => trivial
  | .number _, h => h
  | .string _, _ => trivial
  | .array vs, h => namedList_iff.2 (named_ofValues (vs := vs) h)
  | .object es, h => namedEntries_iff.2 (all_objCollect (named_ofEntries (es := es) h))
theorem named_ofValues : ∀ {vs : List Value}, NumbersOkAll vs → ∀ e ∈ ofValues vs, Named e
  | [], _, _, h => absurd h (by simp [ofValues])
  | v :: vs, h, e, he => by
    rw [ofValues] at he
    rcases List.mem_cons.1 he with heq | he
    · rw [heq]; exact named_ofValue h.1
    · exact named_ofValues h.2 e he
theorem named_ofEntries : ∀ {es : List (Str × Value)}, NumbersOkEntries es →
    ∀ p ∈ ofEntries es, NamedKey p.1 ∧ Named p.2
  | [], _, _, h => absurd h (by simp [ofEntries])
  | (k, v) :: es, h, p, hp => by
    rw [ofEntries] at hp
    rcases List.mem_cons.1 hp with heq | hp
    · rw [heq]; exact ⟨trivial, named_ofValue h.1⟩
    · exact named_ofEntries h.2 p hp
end

theorem des_ofValue {v : Value} (hw : v.WF) (hn : NumbersOk v) :
    Deserializes E .value (.expr (ofValue v)) (.value v) := by
  have := des_named (E := E) (named_ofValue hn)
  rwa [toValue_ofValue v hw] at this

theorem ofValue_null {v : Value} (h : ofValue v = .null) : v = .null := by
  cases v <;> simp_all [ofValue]

theorem ask_some {e : Expr} (h : e ≠ .null) : ask E (.expr e) .option = .some (.expr e) := by
  cases e with
  | null => exact absurd rfl h
  | _ => rfl

theorem newIdent_ok {x : Str} (h : IsIdentifier E.U x) : Ser.newIdent E.U x = SM.ret x := by
  simp only [Ser.newIdent, (Props.C01_tryNew E.U x).1 h]

theorem exprEnum_string {n : Str} (h : n ≠ c!"$hcl::Expression") (x : Str) :
    ask E (.expr (.string x)) (.enum n) = .enum (.str x) .unitOnly := by
  show exprEnum n (.string x) = _
  rw [exprEnum, if_neg h]

theorem exprEnum_other {n : Str} (h : n ≠ c!"$hcl::Expression") (k : ObjKey) (e : Expr) :
    ask E (.expr (.object [(k, e)])) (.enum n) = .enum (.key k) (.entry (.expr e)) := by
  show exprEnum n (.object [(k, e)]) = _
  rw [exprEnum, if_neg h]

/-! What can be written and read. -/

theorem SimpleKey.apart {a b : ObjKey} (ha : SimpleKey a) (hb : SimpleKey b) (h : ObjKey.beq a b = false) :
    Syn.keyApart a b = true := by
  cases ha <;> cases hb <;> first
    | rfl
    | (simp only [ObjKey.beq, Expr.beq] at h
       simp only [Syn.keyApart, Syn.apart]
       simp_all)

theorem apart_of_differ {xs : List (ObjKey × Expr)} (h : KeysDiffer xs) (hx : ∀ p ∈ xs, SimpleKey p.1) :
    Syn.KeysApart (xs.map Prod.fst) := by
  unfold Syn.KeysApart
  rw [List.pairwise_map]
  exact h.imp_of_mem fun {a b} ha hb hab => (hx a ha).apart (hx b hb) hab

/-- Keys that are strings or non-negative integers. -/
inductive PlainKey : ObjKey → Prop
  | str (s : Str) : PlainKey (.expr (.string s))
  | pos (n : Nat) : PlainKey (.expr (.number (.posInt n)))

theorem PlainKey.op {k : ObjKey} (h : PlainKey k) : keyStartsOperator k = false := by cases h <;> rfl

theorem PlainKey.notFor {k : ObjKey} (h : PlainKey k) : keyStartsFor k = false := by cases h <;> rfl

theorem separate_plain : ∀ {xs : List (ObjKey × Expr)}, (∀ p ∈ xs, PlainKey p.1) → ItemsSeparate xs
  | [], _ => trivial
  | [_], _ => trivial
  | _ :: (k, w) :: es, h => by
    have := separate_plain (xs := (k, w) :: es) fun p hp => h p (by simp [hp])
    exact ⟨fun _ => (h (k, w) (by simp)).op, this⟩

theorem headKey_plain {xs : List (ObjKey × Expr)} (h : ∀ p ∈ xs, PlainKey p.1) : headKeyStartsFor xs = false := by
  cases xs with
  | nil => rfl
  | cons p xs => exact (h p (by simp)).notFor

variable {bd : Build} {cfg : FmtCfg}

theorem printable_object {xs : List (ObjKey × Expr)} (h : PrintableItems E bd cfg false xs) (hd : KeysDiffer xs)
    (hx : ∀ p ∈ xs, SimpleKey p.1 ∧ PlainKey p.1) : Printable E bd cfg false (.object xs) :=
  ⟨h, headKey_plain fun p hp => (hx p hp).2, apart_of_differ hd fun p hp => (hx p hp).1,
    separate_plain fun p hp => (hx p hp).2⟩

theorem printable_stringKey {s : Str} (hc : cfg.preferIdentKeys = false) (h : StringSafe s) :
    PrintableKey E bd cfg false (.expr (.string s)) :=
  ⟨h, rfl, fun h => absurd h (by simp [hc])⟩

theorem stringSafe_char (c : Char) : StringSafe [c] := by
  intro a x y b h
  have := congrArg List.length h
  simp at this
  omega

theorem key_text {k : Ty} {dk : Datum} {kv : SVal} {o : ObjKey} (h : Impl E.U k dk kv) (hs : TextKey kv)
    (ho : (kv.run E).key = SM.ret o) (hc : cfg.preferIdentKeys = false) :
    PlainKey o ∧ PrintableKey E bd cfg false o := by
  have num : ∀ n : Nat, n < 2 ^ 64 → SM.ret (ObjKey.expr (.number (.posInt n))) = SM.ret o →
      PlainKey o ∧ PrintableKey E bd cfg false o := fun n hn ho => by
    have := congrArg (fun m => (m SerSt.initial).1) ho
    injection this with this
    rw [← this]
    exact ⟨.pos n, hn, rfl, fun _ s hs => nomatch hs⟩
  have str : ∀ s : Str, StringSafe s → SM.ret (ObjKey.expr (.string s)) = SM.ret o →
      PlainKey o ∧ PrintableKey E bd cfg false o := fun s hs ho => by
    have := congrArg (fun m => (m SerSt.initial).1) ho
    injection this with this
    rw [← this]
    exact ⟨.str s, printable_stringKey hc hs⟩
  cases h with
  | @sint bits i h0 h1 h2 =>
    have h3 : (2 : Int) ^ (bits - 1) ≤ 2 ^ 63 := pow_le_pow_right₀ (by omega) (by omega)
    have hs : 0 ≤ i := hs
    have ho : SM.ret (ObjKey.expr (.number (N.ofI64 i))) = SM.ret o := ho
    rw [N.ofI64, if_neg (by omega)] at ho
    exact num _ (by omega) ho
  | uint h0 h => exact num _ (h.trans_le (Nat.pow_le_pow_right (by omega) (by omega))) ho
  | u64 h => exact num _ h ho
  | char c => exact str _ (stringSafe_char c) ho
  | string s => exact str _ hs ho
  | ident h => exact str _ hs ho
  | @number n _ hw hv =>
    subst hv
    cases n with
    | posInt n => exact num _ hw ho
    | negInt i => exact absurd hw.2 (not_lt.2 hs)
    | float => exact hs.elim
  | @value w _ _ hw hv =>
    subst hv
    cases w with
    | string s => exact str _ hs ho
    | number n =>
      cases n with
      | posInt n => exact num _ hw ho
      | negInt i => exact absurd hw.2 (not_lt.2 hs)
      | float => exact hs.elim
    | _ => exact hs.elim
  | _ => exact hs.elim

theorem wf_numberSafe {n : N} (hw : WellFormed n) (h : TextSafe E bd cfg (Value.number n).sval) :
    NumberSafe E bd n := by
  cases n with
  | posInt n => exact hw
  | negInt i => exact ⟨hw.2, hw.1, h⟩
  | float x =>
    refine h _ ?_
    simp only [N.fromF64, hw.2.1, hw.2.2]
    rfl

theorem startsFor_ofValue (v : Value) : startsFor (ofValue v) = false := by cases v <;> rfl

theorem forLike_sval (v : Value) : forLike v.sval = false := by
  cases v with
  | number n => cases n <;> rfl
  | _ => rfl

mutual
theorem text_ofValue (hc : cfg.preferIdentKeys = false) : ∀ {v : Value}, v.WF → NumbersOk v →
    TextSafe E bd cfg v.sval → Printable E bd cfg false (ofValue v)
  | .null, _, _, _ => trivial
  | .bool _, _, _, _ => trivial
  | .number n, _, hn, h => wf_numberSafe hn h
  | .string _, _, _, h => h
  | .array vs, hw, hn, h => by
    refine ⟨text_ofValues hc (vs := vs) hw hn h.1, ?_⟩
    cases vs with
    | nil => rfl
    | cons v vs => exact startsFor_ofValue v
  | .object es, hw, hn, h => by
    have hd : KeysDiffer (ofEntries es) := by
      refine keysDiffer_names (ns := es.map Prod.fst) ?_ hw.1
      rw [ofEntries_eq, List.map_map, List.map_map]; rfl
    have := text_ofEntries hc (es := es) hw.2 hn h
    show Printable E bd cfg false (.object (objCollect (ofEntries es)))
    rw [keys_objCollect hd]
    exact printable_object this.1 hd this.2
theorem text_ofValues (hc : cfg.preferIdentKeys = false) : ∀ {vs : List Value}, Value.WFList vs →
    NumbersOkAll vs → TextSafeAll E bd cfg (Value.svals vs) → PrintableList E bd cfg false (ofValues vs)
  | [], _, _, _ => trivial
  | _ :: _, hw, hn, h => ⟨text_ofValue hc hw.1 hn.1 h.1, text_ofValues hc hw.2 hn.2 h.2⟩
theorem text_ofEntries (hc : cfg.preferIdentKeys = false) : ∀ {es : List (Str × Value)}, Value.WFObj es →
    NumbersOkEntries es → TextSafeEntries E bd cfg (Value.svalEntries es) →
    PrintableItems E bd cfg false (ofEntries es) ∧ ∀ p ∈ ofEntries es, SimpleKey p.1 ∧ PlainKey p.1
  | [], _, _, _ => ⟨trivial, nofun⟩
  | (k, _) :: _, hw, hn, h => by
    have h1 := text_ofValue hc hw.1 hn.1 h.1.2
    have h2 := text_ofEntries hc hw.2 hn.2 h.2
    refine ⟨⟨printable_stringKey hc h.1.1, h1, h2.1⟩, ?_⟩
    rw [ofEntries, List.forall_mem_cons]
    exact ⟨⟨.str k, .str k⟩, h2.2⟩
end

/-- What is proved about the serialization of a value as an expression. -/
structure Rt (E : FmtEnv) (bd : Build) (cfg : FmtCfg) (t : Ty) (d : Datum) (v : SVal) (e : Expr) : Prop where
  gives : Gives true (v.run E).expr (.ok e)
  des : Deserializes E t (.expr e) d
  null : e = .null → nullLike v = true
  head : startsFor e = forLike v
  text : cfg.preferIdentKeys = false → TextSafe E bd cfg v → Printable E bd cfg false e

theorem simple_names {xs : List (ObjKey × Expr)} {l : List Fld}
    (h : xs.map Prod.fst = l.map fun q => .expr (.string q.name)) : ∀ p ∈ xs, SimpleKey p.1 ∧ PlainKey p.1 := by
  intro p hp
  have : p.1 ∈ l.map fun q => ObjKey.expr (.string q.name) := by rw [← h]; exact List.mem_map_of_mem hp
  obtain ⟨q, -, hq⟩ := List.mem_map.1 this
  rw [← hq]
  exact ⟨.str _, .str _⟩

theorem printable_single {x : Str} {e : Expr} (hc : cfg.preferIdentKeys = false) (hx : StringSafe x)
    (he : Printable E bd cfg false e) : Printable E bd cfg false (.object [(.expr (.string x), e)]) :=
  ⟨⟨printable_stringKey hc hx, he, trivial⟩, rfl, List.pairwise_singleton _ _, trivial⟩

mutual
theorem rt_expr : ∀ {t : Ty} {d : Datum} {v : SVal}, Impl E.U t d v → ExprSafe E.U v →
    ∃ e, Rt E bd cfg t d v e
  | _, _, _, .bool b, _ => ⟨_, gives_ret _, ⟨1, rfl⟩, nofun, rfl, fun _ _ => trivial⟩
  | _, _, _, .sint (bits := bits) (i := i) h0 h1 h2, _ => by
    refine ⟨_, gives_ret _, des_sint h1 h2 rfl, nofun, rfl, fun _ h => ?_⟩
    have h3 : (2 : Int) ^ (bits - 1) ≤ 2 ^ 63 := pow_le_pow_right₀ (by omega) (by omega)
    show NumberSafe E bd (N.ofI64 i)
    rw [N.ofI64]
    split
    · exact ⟨by assumption, by omega, h⟩
    · show i.toNat < 2 ^ 64
      omega
  | _, _, _, .uint h0 h, _ => ⟨_, gives_ret _, des_uint h rfl, nofun, rfl,
      fun _ _ => h.trans_le (Nat.pow_le_pow_right (by omega) (by omega))⟩
  | _, _, _, .u64 h, _ => ⟨_, gives_ret _, des_uint h rfl, nofun, rfl, fun _ _ => h⟩
  | _, _, _, .f64 x, hs => by
    obtain ⟨n, hn⟩ := fromF64_safe hs
    refine ⟨.number n, ?_, des_float hs hn rfl, nofun, rfl, fun _ h => h n hn⟩
    show Gives true (SM.ret _) _
    rw [hn]; exact gives_ret _
  | _, _, _, .char c, _ => ⟨_, gives_ret _, des_char_of rfl, nofun, rfl, fun _ _ => stringSafe_char c⟩
  | _, _, _, .string s, _ => ⟨_, gives_ret _, des_str_of rfl, nofun, rfl, fun _ h => h⟩
  | _, _, _, .unit, _ => ⟨_, gives_ret _, ⟨1, rfl⟩, fun _ => rfl, rfl, fun _ _ => trivial⟩
  | _, _, _, .none t, _ => ⟨_, gives_ret _, ⟨1, rfl⟩, fun _ => rfl, rfl, fun _ _ => trivial⟩
  | _, _, _, .some h, hs => by
    obtain ⟨e, h1, h2, h3, h4, h5⟩ := rt_expr h hs.2
    have hne : e ≠ .null := fun he => Bool.false_ne_true (hs.1.symm.trans (h3 he))
    exact ⟨e, h1, des_some (ask_some hne) h2, fun he => absurd he hne, h4, h5⟩
  | _, _, _, .seq h, hs => by
    obtain ⟨es, l, h1, h2, rfl, h3, h4, h5⟩ := rt_all h hs
    exact ⟨.array es, gives_chain h1 (gives_ret _), des_seq_of (ends := false) (by rw [h2]; rfl) h3, nofun, rfl, fun hc ht => ⟨h5 hc ht.1, h4.trans ht.2⟩⟩
  | _, _, _, .tuple h, hs => by
    obtain ⟨es, l, h1, h2, rfl, rfl, h3, h4, h5⟩ := rt_each h hs
    exact ⟨.array es, gives_chain h1 (gives_ret _), des_tuple (ends := false) (by rw [h2]; rfl) h3, nofun, rfl, fun hc ht => ⟨h5 hc ht.1, h4.trans ht.2⟩⟩
  | _, _, _, .tupleStruct h, hs => by
    obtain ⟨es, l, h1, h2, rfl, rfl, h3, h4, h5⟩ := rt_each h hs
    exact ⟨.array es, gives_chain h1 (gives_ret _), des_tupleStruct (ends := false) (by rw [h2]; rfl) h3, nofun, rfl, fun hc ht => ⟨h5 hc ht.1, h4.trans ht.2⟩⟩
  | _, _, _, .map h hn, hs => by
    obtain ⟨xs, l, h1, h2, rfl, h3, h4, h5⟩ := rt_entries h hs
    have hk : KeysDiffer xs := keysDiffer_ents h2 h4 (fun q hq => (h3 q hq).1)
      (by simpa [List.map_map, Function.comp_def] using hn)
    refine ⟨.object xs, ?_, des_map (by rw [h2]; rfl) h3, nofun, rfl, fun hc ht =>
      printable_object (h5 hc ht).1 hk fun p hp => ⟨h4 p hp, (h5 hc ht).2 p hp⟩⟩
    refine gives_chain h1 ?_
    rw [keys_objCollect hk]; exact gives_ret _
  | _, _, _, .newtype h, hs => by
    obtain ⟨e, h1, h2, h3, h4, h5⟩ := rt_expr h hs
    exact ⟨e, h1, des_newtype rfl h2, h3, h4, h5⟩
  | _, _, _, .struct hn1 _ hn h, hs => by
    obtain ⟨xs, l, h1, h2, rfl, rfl, h3, h4, h5⟩ := rt_fields h hs
    rw [List.map_map] at hn
    have hk : KeysDiffer xs := keysDiffer_names (ns := l.map Fld.name) (by rw [h4, List.map_map]; rfl) hn
    refine ⟨.object xs, ?_, des_struct (by rw [h2]; rfl) hn h3, nofun, rfl, fun hc ht =>
      printable_object (h5 hc ht) hk (simple_names h4)⟩
    show Gives true (if _ then _ else _) _
    rw [if_neg hn1]
    refine gives_chain h1 ?_
    rw [keys_objCollect hk]; exact gives_ret _
  | _, _, _, .unitVar hne hn hv, _ =>
    ⟨_, gives_ret _, des_enum hn hv (key := .str _) (acc := .unitOnly)
      (exprEnum_string hne _) rfl
      (eventually_content_unit (.of_forall fun _ => rfl)), nofun, rfl, fun _ h => h⟩
  | _, _, _, .newtypeVar hne hn hv h, hs => by
    obtain ⟨e, h1, h2, -, -, h5⟩ := rt_expr h hs.2
    refine ⟨.object [(.ident _, e)], ?_, des_enum hn hv (exprEnum_other hne _ _) rfl
      (eventually_content_newtype (fun _ => rfl) h2), nofun, rfl, fun hc ht =>
        ⟨⟨⟨hs.1, ht.1⟩, h5 hc ht.2.2, trivial⟩, decide_eq_false ht.2.1, List.pairwise_singleton _ _, trivial⟩⟩
    simp only [SVal.run, Ser.newtypeVariant, newIdent_ok hs.1, SM.ret_chain]
    exact gives_chain h1 (gives_ret _)
  | _, _, _, .tupleVar hne hn hv h, hs => by
    obtain ⟨es, l, h1, h2, rfl, rfl, h3, h4, h5⟩ := rt_each h hs
    refine ⟨.object [(.expr (.string _), .array es)], gives_chain h1 (gives_ret _),
      des_enum hn hv (exprEnum_other hne _ _) rfl
        (eventually_content_tuple (ends := false) (by rw [h2]; rfl) h3), nofun, rfl, fun hc ht =>
        printable_single hc ht.1 ⟨h5 hc ht.2.1, h4.trans ht.2.2⟩⟩
  | _, _, _, .structVar hne hn hv hf h, hs => by
    obtain ⟨xs, l, h1, h2, rfl, rfl, h3, h4, h5⟩ := rt_fields h hs
    rw [List.map_map] at hf
    have hk : KeysDiffer xs := keysDiffer_names (ns := l.map Fld.name) (by rw [h4, List.map_map]; rfl) hf
    refine ⟨.object [(.expr (.string _), .object xs)], ?_,
      des_enum hn hv (exprEnum_other hne _ _) rfl
        (eventually_content_struct (by rw [h2]; rfl) hf h3), nofun, rfl, fun hc ht =>
        printable_single hc ht.1 (printable_object (h5 hc ht.2) hk (simple_names h4))⟩
    refine gives_chain h1 ?_
    rw [keys_objCollect hk]; exact gives_ret _
  | _, _, _, .block h, hs => by
    obtain ⟨e, h1, h2, h3, h4, h5⟩ := rt_expr h hs
    exact ⟨e, gives_mode_true h1, h2, h3, h4, h5⟩
  | _, _, _, .labeled h, hs => by
    obtain ⟨e, h1, h2, h3, h4, h5⟩ := rt_expr h hs
    exact ⟨e, gives_mode_true h1, h2, h3, h4, h5⟩
  | _, _, _, .number (n := n) hw hv, _ => by
    subst hv
    refine ⟨.number n, ?_, des_number_of hw rfl, nofun, (forLike_sval (.number n)).symm, fun _ ht => wf_numberSafe hw ht⟩
    rw [expr_sval E (.number n) hw]; exact gives_ret _
  | _, _, _, .ident h, _ => ⟨_, gives_ret _, des_ident_of h rfl, nofun, rfl, fun _ h => h⟩
  | _, _, _, .value (w := w) hw hn hv, _ => by
    subst hv
    refine ⟨ofValue w, ?_, des_ofValue hw hn, fun h => by rw [ofValue_null h]; rfl,
      (startsFor_ofValue w).trans (forLike_sval w).symm, fun hc ht => text_ofValue hc hw hn ht⟩
    rw [expr_sval E w hn]; exact gives_ret _
  | _, _, _, .expr (e := e) h, _ => ⟨e, gives_exprSers e, des_same h, fun he => by rw [he]; rfl, rfl, fun _ ht => ht⟩

theorem rt_all : ∀ {t : Ty} {ds : List Datum} {vs : List SVal}, ImplAll E.U t ds vs → ExprSafeAll E.U vs →
    ∃ (es : List Expr) (l : List Elt), Gives true (SM.each Sers.expr (SVal.runs E vs)) (.ok es) ∧
      l.map Elt.src = exprs es ∧ l.map Elt.d = ds ∧ (∀ q ∈ l, Deserializes E t q.src q.d) ∧ headStartsFor es = headForLike vs ∧
      (cfg.preferIdentKeys = false → TextSafeAll E bd cfg vs → PrintableList E bd cfg false es)
  | _, _, _, .nil, _ => ⟨[], [], gives_ret _, rfl, rfl, nofun, rfl, fun _ _ => trivial⟩
  | t, _, _, .cons (d := d) h hr, hs => by
    obtain ⟨e, h1, h2, -, h6, h7⟩ := rt_expr h hs.1
    obtain ⟨es, l, h3, h4, rfl, h5, -, h8⟩ := rt_all hr hs.2
    refine ⟨e :: es, ⟨t, .expr e, d⟩ :: l, gives_chain h1 (gives_chain h3 (gives_ret _)), ?_, rfl, ?_,
      h6, fun hc ht => ⟨h7 hc ht.1, h8 hc ht.2⟩⟩
    · simp only [List.map_cons, h4, exprs]
    · rw [List.forall_mem_cons]; exact ⟨h2, h5⟩

theorem rt_each : ∀ {ts : List Ty} {ds : List Datum} {vs : List SVal}, ImplEach E.U ts ds vs →
    ExprSafeAll E.U vs →
    ∃ (es : List Expr) (l : List Elt), Gives true (SM.each Sers.expr (SVal.runs E vs)) (.ok es) ∧
      l.map Elt.src = exprs es ∧ l.map Elt.ty = ts ∧ l.map Elt.d = ds ∧
      (∀ q ∈ l, Deserializes E q.ty q.src q.d) ∧ headStartsFor es = headForLike vs ∧
      (cfg.preferIdentKeys = false → TextSafeAll E bd cfg vs → PrintableList E bd cfg false es)
  | _, _, _, .nil, _ => ⟨[], [], gives_ret _, rfl, rfl, rfl, nofun, rfl, fun _ _ => trivial⟩
  | _, _, _, .cons (t := t) (d := d) h hr, hs => by
    obtain ⟨e, h1, h2, -, h6, h7⟩ := rt_expr h hs.1
    obtain ⟨es, l, h3, h4, rfl, rfl, h5, -, h8⟩ := rt_each hr hs.2
    refine ⟨e :: es, ⟨t, .expr e, d⟩ :: l, gives_chain h1 (gives_chain h3 (gives_ret _)), ?_, rfl, rfl, ?_,
      h6, fun hc ht => ⟨h7 hc ht.1, h8 hc ht.2⟩⟩
    · simp only [List.map_cons, h4, exprs]
    · rw [List.forall_mem_cons]; exact ⟨h2, h5⟩

theorem rt_entries : ∀ {k t : Ty} {es : List (Datum × Datum)} {vs : List (SVal × SVal)},
    ImplEntries E.U k t es vs → ExprSafeEntries E.U vs →
    ∃ (xs : List (ObjKey × Expr)) (l : List Ent),
      Gives true (SM.each (fun p => Ser.exprEntry p.1.key p.2) (SVal.runEntries E vs)) (.ok xs) ∧
      l.map (fun q => (q.key, q.src)) = entries xs ∧ l.map (fun q => (q.k, q.d)) = es ∧
      (∀ q ∈ l, Deserializes E k q.key q.k ∧ Deserializes E t q.src q.d) ∧ (∀ p ∈ xs, SimpleKey p.1) ∧
      (cfg.preferIdentKeys = false → TextSafeEntries E bd cfg vs →
        PrintableItems E bd cfg false xs ∧ ∀ p ∈ xs, PlainKey p.1)
  | _, _, _, _, .nil, _ => ⟨[], [], gives_ret _, rfl, rfl, nofun, nofun, fun _ _ => ⟨trivial, nofun⟩⟩
  | _, _, _, _, .cons (x := x) (y := y) hk h hr, hs => by
    obtain ⟨o, ho, h6, h7⟩ := key_rt hk hs.1.1
    obtain ⟨e, h1, h2, -, -, h9⟩ := rt_expr h hs.1.2
    obtain ⟨xs, l, h3, h4, rfl, h5, h8, h10⟩ := rt_entries hr hs.2
    refine ⟨(o, e) :: xs, ⟨.key o, .expr e, x, y⟩ :: l, ?_, ?_, rfl, ?_, ?_, fun hc ht => ?_⟩
    · refine gives_chain ?_ (gives_chain h3 (gives_ret _))
      simp only [SVal.runEntry, Ser.exprEntry, Ser.entry, h6, SM.ret_chain]
      exact gives_chain h1 (gives_ret _)
    · simp only [List.map_cons, h4, entries]
    · rw [List.forall_mem_cons]; exact ⟨⟨h7, h2⟩, h5⟩
    · rw [List.forall_mem_cons]; exact ⟨ho, h8⟩
    · obtain ⟨h11, h12⟩ := key_text (bd := bd) hk ht.1.1 h6 hc
      refine ⟨⟨h12, h9 hc ht.1.2, (h10 hc ht.2).1⟩, ?_⟩
      rw [List.forall_mem_cons]
      exact ⟨h11, (h10 hc ht.2).2⟩

theorem rt_fields : ∀ {fs : List (Str × Ty)} {ds : List Datum} {vs : List (Str × SVal)},
    ImplFields E.U fs ds vs → ExprSafeFields E.U vs →
    ∃ (xs : List (ObjKey × Expr)) (l : List Fld),
      Gives true (SM.each (fun p => Ser.exprEntry (SM.ret (.expr (.string p.1))) p.2) (SVal.runFields E vs))
        (.ok xs) ∧
      l.map (fun q => (q.key, q.src)) = entries xs ∧ l.map (fun q => (q.name, q.ty)) = fs ∧
      l.map Fld.d = ds ∧
      (∀ q ∈ l, ask E q.key .identifier = .str q.name ∧ Deserializes E q.ty q.src q.d) ∧
      (xs.map Prod.fst = l.map fun q => .expr (.string q.name)) ∧
      (cfg.preferIdentKeys = false → TextSafeFields E bd cfg vs → PrintableItems E bd cfg false xs)
  | _, _, _, .nil, _ => ⟨[], [], gives_ret _, rfl, rfl, rfl, nofun, rfl, fun _ _ => trivial⟩
  | _, _, _, .cons (f := f) (t := t) (d := d) h hr, hs => by
    obtain ⟨e, h1, h2, -, -, h7⟩ := rt_expr h hs.1
    obtain ⟨xs, l, h3, h4, rfl, rfl, h5, h6, h8⟩ := rt_fields hr hs.2
    refine ⟨(.expr (.string f), e) :: xs, ⟨f, t, .key (.expr (.string f)), .expr e, d⟩ :: l, ?_, ?_, rfl, rfl, ?_, ?_,
      fun hc ht => ⟨printable_stringKey hc ht.1.1, h7 hc ht.1.2, h8 hc ht.2⟩⟩
    · refine gives_chain ?_ (gives_chain h3 (gives_ret _))
      simp only [SVal.runField, Ser.exprEntry, Ser.entry, SM.ret_chain]
      exact gives_chain h1 (gives_ret _)
    · simp only [List.map_cons, h4, entries]
    · rw [List.forall_mem_cons]; exact ⟨⟨rfl, h2⟩, h5⟩
    · simp only [List.map_cons, h6]
end

/-! ### Values -/

theorem vask_some {w : Value} (h : w ≠ .null) : ask E (.value w) .option = .some (.value w) := by
  cases w with
  | null => exact absurd rfl h
  | _ => rfl

theorem collect_ents {k : Ty} {xs : List (Str × Value)} {l : List Ent}
    (hl : l.map (fun q => (q.key, q.src)) = valueEntries xs)
    (hd : ∀ q ∈ l, Deserializes E k q.key q.k) (hn : (l.map Ent.k).Nodup) : Map.collect xs = xs := by
  have h1 : (l.map Ent.key).Pairwise (· ≠ ·) := by
    rw [List.pairwise_map]
    refine (List.pairwise_map.1 hn).imp_of_mem fun {a b} ha hb hab he => hab ?_
    have := hd a ha
    rw [he] at this
    exact this.unique (hd b hb)
  have h2 : l.map Ent.key = xs.map fun p => Src.str p.1 := by
    have := congrArg (List.map Prod.fst) hl
    simpa [valueEntries, Function.comp_def] using this
  rw [h2, List.pairwise_map] at h1
  refine Map.collect_nodup ?_
  exact List.pairwise_map.2 (h1.imp fun hab he => hab (by rw [he]))

theorem vkey_rt {k : Ty} {dk : Datum} {kv : SVal} (h : Impl E.U k dk kv) (hs : ValueKey kv) :
    ∃ s, (kv.run E).string = SM.ret s ∧ Deserializes E k (.str s) dk := by
  cases h with
  | char c => exact ⟨_, rfl, des_char_of rfl⟩
  | string s => exact ⟨_, rfl, des_str_of rfl⟩
  | ident h => exact ⟨_, rfl, des_ident_of h rfl⟩
  | unitVar _ hn hv =>
    exact ⟨_, rfl, des_enum hn hv (key := .str _) (acc := .unitOnly) rfl rfl
      (eventually_content_unit (.of_forall fun _ => rfl))⟩
  | @number n _ hw hv =>
    subst hv
    cases n <;> exact hs.elim
  | @value w _ _ hw hv =>
    subst hv
    cases w with
    | string s => exact ⟨_, rfl, des_value_str rfl⟩
    | number n => cases n <;> exact hs.elim
    | _ => exact hs.elim
  | _ => exact hs.elim

mutual
theorem rt_value : ∀ {t : Ty} {d : Datum} {v : SVal}, Impl E.U t d v → ValueSafe v →
    ∃ w, (v.run E).value = SM.ret w ∧ Deserializes E t (.value w) d ∧ (w = .null → nullLike v = true)
  | _, _, _, .bool b, _ => ⟨_, rfl, ⟨1, rfl⟩, nofun⟩
  | _, _, _, .sint _ h1 h2, _ => ⟨_, rfl, des_sint h1 h2 rfl, nofun⟩
  | _, _, _, .uint _ h, _ => ⟨_, rfl, des_uint h rfl, nofun⟩
  | _, _, _, .u64 h, _ => ⟨_, rfl, des_uint h rfl, nofun⟩
  | _, _, _, .f64 x, hs => by
    obtain ⟨n, hn⟩ := fromF64_safe hs
    refine ⟨.number n, ?_, des_float hs hn rfl, nofun⟩
    show SM.ret _ = _
    rw [hn]
  | _, _, _, .char c, _ => ⟨_, rfl, des_char_of rfl, nofun⟩
  | _, _, _, .string s, _ => ⟨_, rfl, des_str_of rfl, nofun⟩
  | _, _, _, .unit, _ => ⟨_, rfl, ⟨1, rfl⟩, fun _ => rfl⟩
  | _, _, _, .none t, _ => ⟨_, rfl, ⟨1, rfl⟩, fun _ => rfl⟩
  | _, _, _, .some h, hs => by
    obtain ⟨e, h1, h2, h3⟩ := rt_value h hs.2
    have hne : e ≠ .null := fun he => Bool.false_ne_true (hs.1.symm.trans (h3 he))
    exact ⟨e, h1, des_some (vask_some hne) h2, fun he => absurd he hne⟩
  | _, _, _, .seq h, hs => by
    obtain ⟨ws, l, h1, h2, rfl, h3⟩ := rtv_all h hs
    refine ⟨.array ws, ?_, des_seq_of (ends := false) (by rw [h2]; rfl) h3, nofun⟩
    show SM.chain _ _ = _
    rw [h1, SM.ret_chain]
  | _, _, _, .tuple h, hs => by
    obtain ⟨ws, l, h1, h2, rfl, rfl, h3⟩ := rtv_each h hs
    refine ⟨.array ws, ?_, des_tuple (ends := false) (by rw [h2]; rfl) h3, nofun⟩
    show SM.chain _ _ = _
    rw [h1, SM.ret_chain]
  | _, _, _, .tupleStruct h, hs => by
    obtain ⟨ws, l, h1, h2, rfl, rfl, h3⟩ := rtv_each h hs
    refine ⟨.array ws, ?_, des_tupleStruct (ends := false) (by rw [h2]; rfl) h3, nofun⟩
    show SM.chain _ _ = _
    rw [h1, SM.ret_chain]
  | _, _, _, .map h hn, hs => by
    obtain ⟨xs, l, h1, h2, rfl, h3⟩ := rtv_entries h hs
    have hk : Map.collect xs = xs := collect_ents h2 (fun q hq => (h3 q hq).1)
      (by simpa [List.map_map, Function.comp_def] using hn)
    refine ⟨.object xs, ?_, des_map (by rw [h2]; rfl) h3, nofun⟩
    show SM.chain _ _ = _
    rw [h1, SM.ret_chain, hk]
  | _, _, _, .newtype _, hs => hs.elim
  | _, _, _, .struct hn1 _ hn h, hs => by
    obtain ⟨xs, l, h1, h2, rfl, rfl, h3, h4⟩ := rtv_fields h hs
    rw [List.map_map] at hn
    have hk : Map.collect xs = xs := Map.collect_nodup (by rw [h4]; exact hn)
    refine ⟨.object xs, ?_, des_struct (by rw [h2]; rfl) hn h3, nofun⟩
    show SM.chain _ _ = _
    rw [h1, SM.ret_chain, hk]
  | _, _, _, .unitVar _ hn hv, _ =>
    ⟨_, rfl, des_enum hn hv (key := .str _) (acc := .unitOnly) rfl rfl
      (eventually_content_unit (.of_forall fun _ => rfl)), nofun⟩
  | _, _, _, .newtypeVar _ hn hv h, hs => by
    obtain ⟨w, h1, h2, -⟩ := rt_value h hs
    refine ⟨.object [(_, w)], ?_, des_enum hn hv (key := .str _) (acc := .value w) rfl rfl
      (eventually_content_newtype (fun _ => rfl) h2), nofun⟩
    show SM.chain _ _ = _
    rw [h1, SM.ret_chain]
  | _, _, _, .tupleVar _ hn hv h, hs => by
    obtain ⟨ws, l, h1, h2, rfl, rfl, h3⟩ := rtv_each h hs
    refine ⟨.object [(_, .array ws)], ?_,
      des_enum hn hv (key := .str _) (acc := .value (.array ws)) rfl rfl
        (eventually_content_tuple (ends := false) (by rw [h2]; rfl) h3), nofun⟩
    show SM.chain _ _ = _
    rw [h1, SM.ret_chain]
  | _, _, _, .structVar _ hn hv hf h, hs => by
    obtain ⟨xs, l, h1, h2, rfl, rfl, h3, h4⟩ := rtv_fields h hs
    rw [List.map_map] at hf
    have hk : Map.collect xs = xs := Map.collect_nodup (by rw [h4]; exact hf)
    refine ⟨.object [(_, .object xs)], ?_,
      des_enum hn hv (key := .str _) (acc := .value (.object xs)) rfl rfl
        (eventually_content_struct (by rw [h2]; rfl) hf h3), nofun⟩
    show SM.chain _ _ = _
    rw [h1, SM.ret_chain, hk]
  | _, _, _, .block h, hs => by
    obtain ⟨w, h1, h2, h3⟩ := rt_value h hs
    exact ⟨w, (byMode_same _).trans h1, h2, h3⟩
  | _, _, _, .labeled h, hs => by
    obtain ⟨w, h1, h2, h3⟩ := rt_value h hs
    exact ⟨w, (byMode_same _).trans h1, h2, h3⟩
  | _, _, _, .number (n := n) hw hv, _ => by
    subst hv
    exact ⟨.number n, value_sval E (.number n) trivial hw, des_number_of hw rfl, nofun⟩
  | _, _, _, .ident h, _ => ⟨_, rfl, des_ident_of h rfl, nofun⟩
  | _, _, _, .value (w := w) hw hn hv, _ => by
    subst hv
    exact ⟨w, value_sval E w hw hn, des_value_same hw hn, fun h => by rw [h]; rfl⟩
  | _, _, _, .expr _, hs => hs.elim

theorem rtv_all : ∀ {t : Ty} {ds : List Datum} {vs : List SVal}, ImplAll E.U t ds vs → ValueSafeAll vs →
    ∃ (ws : List Value) (l : List Elt), SM.each Sers.value (SVal.runs E vs) = SM.ret ws ∧
      l.map Elt.src = ws.map .value ∧ l.map Elt.d = ds ∧ ∀ q ∈ l, Deserializes E t q.src q.d
  | _, _, _, .nil, _ => ⟨[], [], rfl, rfl, rfl, nofun⟩
  | t, _, _, .cons (d := d) h hr, hs => by
    obtain ⟨w, h1, h2, -⟩ := rt_value h hs.1
    obtain ⟨ws, l, h3, h4, rfl, h5⟩ := rtv_all hr hs.2
    refine ⟨w :: ws, ⟨t, .value w, d⟩ :: l, ?_, ?_, rfl, ?_⟩
    · rw [SVal.runs, SM.each, h1, SM.ret_chain, h3, SM.ret_chain]
    · simp only [List.map_cons, h4]
    · rw [List.forall_mem_cons]; exact ⟨h2, h5⟩

theorem rtv_each : ∀ {ts : List Ty} {ds : List Datum} {vs : List SVal}, ImplEach E.U ts ds vs →
    ValueSafeAll vs →
    ∃ (ws : List Value) (l : List Elt), SM.each Sers.value (SVal.runs E vs) = SM.ret ws ∧
      l.map Elt.src = ws.map .value ∧ l.map Elt.ty = ts ∧ l.map Elt.d = ds ∧
      ∀ q ∈ l, Deserializes E q.ty q.src q.d
  | _, _, _, .nil, _ => ⟨[], [], rfl, rfl, rfl, rfl, nofun⟩
  | _, _, _, .cons (t := t) (d := d) h hr, hs => by
    obtain ⟨w, h1, h2, -⟩ := rt_value h hs.1
    obtain ⟨ws, l, h3, h4, rfl, rfl, h5⟩ := rtv_each hr hs.2
    refine ⟨w :: ws, ⟨t, .value w, d⟩ :: l, ?_, ?_, rfl, rfl, ?_⟩
    · rw [SVal.runs, SM.each, h1, SM.ret_chain, h3, SM.ret_chain]
    · simp only [List.map_cons, h4]
    · rw [List.forall_mem_cons]; exact ⟨h2, h5⟩

theorem rtv_entries : ∀ {k t : Ty} {es : List (Datum × Datum)} {vs : List (SVal × SVal)},
    ImplEntries E.U k t es vs → ValueSafeEntries vs →
    ∃ (xs : List (Str × Value)) (l : List Ent),
      SM.each (fun p => Ser.valueEntry p.1.string p.2) (SVal.runEntries E vs) = SM.ret xs ∧
      l.map (fun q => (q.key, q.src)) = valueEntries xs ∧ l.map (fun q => (q.k, q.d)) = es ∧
      ∀ q ∈ l, Deserializes E k q.key q.k ∧ Deserializes E t q.src q.d
  | _, _, _, _, .nil, _ => ⟨[], [], rfl, rfl, rfl, nofun⟩
  | _, _, _, _, .cons (x := x) (y := y) hk h hr, hs => by
    obtain ⟨s, h6, h7⟩ := vkey_rt hk hs.1.1
    obtain ⟨w, h1, h2, -⟩ := rt_value h hs.1.2
    obtain ⟨xs, l, h3, h4, rfl, h5⟩ := rtv_entries hr hs.2
    refine ⟨(s, w) :: xs, ⟨.str s, .value w, x, y⟩ :: l, ?_, ?_, rfl, ?_⟩
    · rw [SVal.runEntries, SM.each, h3]
      simp only [SVal.runEntry, Ser.valueEntry, Ser.entry, h6, h1, SM.ret_chain]
    · simp only [List.map_cons, h4, valueEntries]
    · rw [List.forall_mem_cons]; exact ⟨⟨h7, h2⟩, h5⟩

theorem rtv_fields : ∀ {fs : List (Str × Ty)} {ds : List Datum} {vs : List (Str × SVal)},
    ImplFields E.U fs ds vs → ValueSafeFields vs →
    ∃ (xs : List (Str × Value)) (l : List Fld),
      SM.each (fun p => Ser.valueEntry (SM.ret p.1) p.2) (SVal.runFields E vs) = SM.ret xs ∧
      l.map (fun q => (q.key, q.src)) = valueEntries xs ∧ l.map (fun q => (q.name, q.ty)) = fs ∧
      l.map Fld.d = ds ∧
      (∀ q ∈ l, ask E q.key .identifier = .str q.name ∧ Deserializes E q.ty q.src q.d) ∧
      xs.map Prod.fst = l.map fun q => q.name
  | _, _, _, .nil, _ => ⟨[], [], rfl, rfl, rfl, rfl, nofun, rfl⟩
  | _, _, _, .cons (f := f) (t := t) (d := d) h hr, hs => by
    obtain ⟨w, h1, h2, -⟩ := rt_value h hs.1
    obtain ⟨xs, l, h3, h4, rfl, rfl, h5, h6⟩ := rtv_fields hr hs.2
    refine ⟨(f, w) :: xs, ⟨f, t, .str f, .value w, d⟩ :: l, ?_, ?_, rfl, rfl, ?_, ?_⟩
    · rw [SVal.runFields, SM.each, h3]
      simp only [SVal.runField, Ser.valueEntry, Ser.entry, h1, SM.ret_chain]
    · simp only [List.map_cons, h4, valueEntries]
    · rw [List.forall_mem_cons]; exact ⟨⟨rfl, h2⟩, h5⟩
    · simp only [List.map_cons, h6]
end

end

end Verif
