import Verif.Spec.Convert
import Verif.Lemmas.InPlace
/-! Lemmas about the conversions. -/

namespace Verif.Spec
open Gram

theorem itemInsert_fresh {k v a t} : ∀ {m : List EItem},
    (∀ i ∈ m, EExpr.beqKey i.key k = false) → itemInsert k v a t m = m ++ [.mk k v a t]
  | [], _ => rfl
  | .mk k' v' a' t' :: m, h => by
    have h1 : EExpr.beqKey k' k = false := h _ (List.mem_cons_self ..)
    rw [itemInsert, h1]
    simp only [Bool.false_eq_true, if_false, List.cons_append]
    rw [itemInsert_fresh fun i hi => h i (List.mem_cons_of_mem _ hi)]

theorem itemCollect_fresh {is : List EItem}
    (h : is.Pairwise fun a b => EExpr.beqKey a.key b.key = false) : itemCollect is = is := by
  have key : ∀ (is m : List EItem), (m ++ is).Pairwise (fun a b => EExpr.beqKey a.key b.key = false) →
      is.foldl (fun m i => itemInsert i.key i.value i.assign i.term m) m = m ++ is := by
    intro is
    induction is with
    | nil => intro m _; simp
    | cons i is ih =>
      intro m h
      have h1 := List.pairwise_append.1 h
      rw [List.foldl_cons, itemInsert_fresh fun j hj => h1.2.2 j hj i (List.mem_cons_self ..)]
      cases i
      rw [ih]
      · simp [EItem.key, EItem.value, EItem.assign, EItem.term]
      · simpa [EItem.key, EItem.value, EItem.assign, EItem.term] using h
  exact key is [] (by simpa using h)

theorem objInsert_fresh {k v} : ∀ {m : List (ObjKey × Expr)},
    (∀ i ∈ m, ObjKey.beq i.1 k = false) → objInsert k v m = m ++ [(k, v)]
  | [], _ => rfl
  | (k', v') :: m, h => by
    have h1 : ObjKey.beq k' k = false := h _ (List.mem_cons_self ..)
    rw [objInsert, h1]
    simp only [Bool.false_eq_true, if_false, List.cons_append]
    rw [objInsert_fresh fun i hi => h i (List.mem_cons_of_mem _ hi)]

theorem objCollect_fresh {es : List (ObjKey × Expr)} (h : KeysDiffer es) : objCollect es = es := by
  have key : ∀ (es m : List (ObjKey × Expr)), KeysDiffer (m ++ es) →
      es.foldl (fun m e => objInsert e.1 e.2 m) m = m ++ es := by
    intro es
    induction es with
    | nil => intro m _; simp
    | cons i es ih =>
      intro m h
      have h1 := List.pairwise_append.1 h
      rw [List.foldl_cons, objInsert_fresh fun j hj => h1.2.2 j hj i (List.mem_cons_self ..), ih]
      · simp
      · simpa [KeysDiffer] using h
  exact key es [] (by simpa using h)

theorem toEditEntries_pairwise {P : PEnv} : ∀ {es : List (ObjKey × Expr)}, EditKeysDiffer P es →
    (toEditEntries P es).Pairwise fun a b => EExpr.beqKey a.key b.key = false
  | [], _ => .nil
  | (k, v) :: es, h => by
    obtain ⟨h1, h2⟩ := List.pairwise_cons.1 h
    have hm : ∀ (es : List (ObjKey × Expr)), (∀ e ∈ es, EExpr.beqKey (toEditKey P k) (toEditKey P e.1) = false) →
        ∀ i ∈ toEditEntries P es, EExpr.beqKey (toEditKey P k) i.key = false := by
      intro es
      induction es with
      | nil => intro _ i hi; cases hi
      | cons e es ih =>
        intro h i hi
        obtain ⟨k', v'⟩ := e
        rw [toEditEntries] at hi
        rcases List.mem_cons.1 hi with rfl | hi
        · exact h _ (List.mem_cons_self ..)
        · exact ih (fun e he => h e (List.mem_cons_of_mem _ he)) i hi
    rw [toEditEntries]
    exact List.pairwise_cons.2 ⟨hm es h1, toEditEntries_pairwise h2⟩

theorem templateOrDefault_reprints {P : PEnv} {E : FmtEnv} {s : Str} (h : Reprints P E s) :
    showTemplate E (templateOrDefault P s) = s := by
  obtain ⟨t, h1, h2⟩ := h
  simp only [templateOrDefault, h1, h2]

theorem map_name_toDIdent (xs : List Str) : (xs.map toDIdent).map DIdent.name = xs := by
  induction xs with
  | nil => rfl
  | cons x xs ih => simp only [List.map_cons, ih]; rfl

theorem optMap_name_toDIdent (x : Option Str) : (x.map toDIdent).map DIdent.name = x := by
  cases x <;> rfl

variable {P : PEnv} {E : FmtEnv}

mutual

theorem toHcl_toEdit : ∀ e : Expr, Lossless P E e → toHcl E (toEdit P e) = e
  | .null, _ => rfl
  | .bool _, _ => rfl
  | .number _, _ => rfl
  | .string _, _ => rfl
  | .array xs, h => by
    cases h with | array h => rw [toEdit, toHcl, toHclList_toEditList xs h]
  | .object es, h => by
    cases h with
    | object hk hv h1 h2 =>
      rw [toEdit, toHcl, itemCollect_fresh (toEditEntries_pairwise h2),
        toHclItems_toEditEntries es hk hv, objCollect_fresh h1]
  | .template (.quoted s), h => by
    cases h with | quoted h => rw [toEdit, toHcl, templateOrDefault_reprints h]
  | .template (.heredoc d t st), h => by
    cases h with | heredoc h => rw [toEdit, toHcl, templateOrDefault_reprints h]; rfl
  | .var _, _ => rfl
  | .traversal e os, h => by
    cases h with
    | traversal h1 h2 => rw [toEdit, toHcl, toHcl_toEdit e h1, toHclOps_toEditOps os h2]
  | .call n as x, h => by
    cases h with
    | call h => rw [toEdit, toHcl, toHclList_toEditList as h, map_name_toDIdent]; rfl
  | .paren e, h => by
    cases h with | paren h => rw [toEdit, toHcl, toHcl_toEdit e h]
  | .cond c t f, h => by
    cases h with
    | cond h1 h2 h3 =>
      rw [toEdit, toHcl, toHcl_toEdit c h1, toHcl_toEdit t h2, toHcl_toEdit f h3]
  | .unary o e, h => by
    cases h with | unary h => rw [toEdit, toHcl, toHcl_toEdit e h]
  | .binary l o r, h => by
    cases h with | binary h1 h2 => rw [toEdit, toHcl, toHcl_toEdit l h1, toHcl_toEdit r h2]
  | .forE k v c ke ve g ce, h => by
    cases h with
    | forE h1 h2 h3 h4 =>
      rw [toEdit, toHcl, toHcl_toEdit c h1, toHclOpt_toEditOpt ke h2, toHcl_toEdit ve h3,
        toHclOpt_toEditOpt ce h4, optMap_name_toDIdent]
      rfl

theorem toHclOpt_toEditOpt : ∀ e : Option Expr, (∀ x ∈ e, Lossless P E x) →
    toHclOpt E (toEditOpt P e) = e
  | none, _ => rfl
  | some e, h => by rw [toEditOpt, toHclOpt, toHcl_toEdit e (h e rfl)]

theorem toHclList_toEditList : ∀ es : List Expr, (∀ x ∈ es, Lossless P E x) →
    toHclList E (toEditList P es) = es
  | [], _ => rfl
  | e :: es, h => by
    rw [toEditList, toHclList, toHcl_toEdit e (h e (List.mem_cons_self ..)),
      toHclList_toEditList es fun x hx => h x (List.mem_cons_of_mem _ hx)]

theorem toHclItems_toEditEntries : ∀ es : List (ObjKey × Expr), (∀ x ∈ es, LosslessKey P E x.1) →
    (∀ x ∈ es, Lossless P E x.2) → toHclItems E (toEditEntries P es) = es
  | [], _, _ => rfl
  | (k, v) :: es, h, h' => by
    rw [toEditEntries, toHclItems, toHclKey_toEditKey k (h (k, v) (List.mem_cons_self ..)),
      toHcl_toEdit v (h' (k, v) (List.mem_cons_self ..)),
      toHclItems_toEditEntries es (fun x hx => h x (List.mem_cons_of_mem _ hx))
        fun x hx => h' x (List.mem_cons_of_mem _ hx)]

theorem toHclKey_toEditKey : ∀ k : ObjKey, LosslessKey P E k → toHclKey E (toEditKey P k) = k
  | .ident _, _ => rfl
  | .expr e, h => by cases h with | expr h => rw [toEditKey, toHclKey, toHcl_toEdit e h]

theorem toHclOps_toEditOps : ∀ os : List TravOp, (∀ o ∈ os, LosslessOp P E o) →
    toHclOps E (toEditOps P os) = os
  | [], _ => rfl
  | o :: os, h => by
    rw [toEditOps, toHclOps, toHclOp_toEditOp o (h o (List.mem_cons_self ..)),
      toHclOps_toEditOps os fun x hx => h x (List.mem_cons_of_mem _ hx)]

theorem toHclOp_toEditOp : ∀ o : TravOp, LosslessOp P E o → toHclOp E (toEditOp P o) = o
  | .attrSplat, _ => rfl
  | .fullSplat, _ => rfl
  | .getAttr _, _ => rfl
  | .index e, h => by cases h with | index h => rw [toEditOp, toHclOp, toHcl_toEdit e h]
  | .legacyIndex _, _ => rfl

end

mutual

theorem toHclElems_toEditElems : ∀ es : List Elem, (∀ e ∈ es, LosslessElem P E e) →
    toHclElems E (toEditElems P es) = es
  | [], _ => rfl
  | e :: es, h => by
    rw [toEditElems, toHclElems, toHclElem_toEditElem e (h e (List.mem_cons_self ..)),
      toHclElems_toEditElems es fun x hx => h x (List.mem_cons_of_mem _ hx)]

theorem toHclElem_toEditElem : ∀ e : Elem, LosslessElem P E e → toHclElem E (toEditElem P e) = e
  | .lit _, _ => rfl
  | .interp e s, h => by
    cases h with | interp h => rw [toEditElem, toHclElem, toHcl_toEdit e h]
  | .ifDir c t none a b z, h => by
    cases h with
    | ifDir h1 h2 =>
      rw [toEditElem, toHclElem, toHcl_toEdit c h1, toHclElems_toEditElems t h2]; rfl
  | .ifDir c t (some f) a b z, h => by
    cases h with
    | ifElse h1 h2 h3 =>
      rw [toEditElem, toHclElem, toHcl_toEdit c h1, toHclElems_toEditElems t h2, toEditElse,
        toHclElseOpt, toHclElse, toHclElems_toEditElems f h3]
      rfl
  | .forDir k v c t a z, h => by
    cases h with
    | forDir h1 h2 =>
      rw [toEditElem, toHclElem, toHcl_toEdit c h1, toHclElems_toEditElems t h2,
        optMap_name_toDIdent]
      rfl

end

theorem toHclLabels_toEditLabels (ls : List Label) : (ls.map toEditLabel).map toHclLabel = ls := by
  induction ls with
  | nil => rfl
  | cons l ls ih => rw [List.map_cons, List.map_cons, ih]; cases l <;> rfl

mutual

theorem toHclStruct_toEditStruct : ∀ s : Struct, LosslessStruct P E s →
    toHclStruct E (toEditStruct P s) = s
  | .attr k e, h => by
    cases h with | attr h => rw [toEditStruct, toHclStruct, toHcl_toEdit e h]; rfl
  | .block i ls b, h => by
    cases h with
    | block h =>
      rw [toEditStruct, toHclStruct, toHclBody, toHclStructs_toEditStructs b h,
        toHclLabels_toEditLabels]
      rfl

theorem toHclStructs_toEditStructs : ∀ ss : List Struct, (∀ s ∈ ss, LosslessStruct P E s) →
    toHclStructs E (toEditStructs P ss) = ss
  | [], _ => rfl
  | s :: ss, h => by
    rw [toEditStructs, toHclStructs, toHclStruct_toEditStruct s (h s (List.mem_cons_self ..)),
      toHclStructs_toEditStructs ss fun x hx => h x (List.mem_cons_of_mem _ hx)]

end

/-! ### Plain keys stay different -/

theorem beqOpt_toDIdent (a b : Option Str) :
    DIdent.beqOpt (a.map toDIdent) (b.map toDIdent) = decide (a = b) := by
  cases a <;> cases b <;> simp [DIdent.beqOpt, DIdent.beq, toDIdent]

mutual

theorem beq_toEdit : ∀ a b : Expr, Plain a → Plain b →
    EExpr.beq (toEdit P a) (toEdit P b) = Expr.beq a b
  | .null, b, _, hb => by cases hb <;> rfl
  | .bool _, b, _, hb => by cases hb <;> rfl
  | .number _, b, _, hb => by cases hb <;> rfl
  | .string _, b, _, hb => by cases hb <;> rfl
  | .array xs, b, ha, hb => by
    cases ha with
    | array ha =>
      cases hb with
      | array hb => simp [toEdit, EExpr.beq, Expr.beq, beqList_toEdit xs _ ha hb]
      | _ => rfl
  | .object _, _, ha, _ => nomatch ha
  | .template _, _, ha, _ => nomatch ha
  | .call _ _ _, _, ha, _ => nomatch ha
  | .var _, b, _, hb => by cases hb <;> rfl
  | .traversal e os, b, ha, hb => by
    cases ha with
    | traversal ha ho =>
      cases hb with
      | traversal hb hp =>
        simp [toEdit, EExpr.beq, Expr.beq, beq_toEdit e _ ha hb, beqOps_toEdit os _ ho hp]
      | _ => rfl
  | .paren e, b, ha, hb => by
    cases ha with
    | paren ha =>
      cases hb with
      | paren hb => simp [toEdit, EExpr.beq, Expr.beq, beq_toEdit e _ ha hb]
      | _ => rfl
  | .cond c t f, b, ha, hb => by
    cases ha with
    | cond h1 h2 h3 =>
      cases hb with
      | cond k1 k2 k3 =>
        simp [toEdit, EExpr.beq, Expr.beq, beq_toEdit c _ h1 k1, beq_toEdit t _ h2 k2,
          beq_toEdit f _ h3 k3]
      | _ => rfl
  | .unary o e, b, ha, hb => by
    cases ha with
    | unary ha =>
      cases hb with
      | unary hb => simp [toEdit, EExpr.beq, Expr.beq, beq_toEdit e _ ha hb]
      | _ => rfl
  | .binary l o r, b, ha, hb => by
    cases ha with
    | binary h1 h2 =>
      cases hb with
      | binary k1 k2 =>
        simp [toEdit, EExpr.beq, Expr.beq, beq_toEdit l _ h1 k1, beq_toEdit r _ h2 k2]
      | _ => rfl
  | .forE k v c ke ve g ce, b, ha, hb => by
    cases ha with
    | forE h1 h2 h3 h4 =>
      cases hb with
      | forE k1 k2 k3 k4 =>
        simp [toEdit, EExpr.beq, Expr.beq, beq_toEdit c _ h1 k1, beqOpt_toEdit ke _ h2 k2,
          beq_toEdit ve _ h3 k3, beqOpt_toEdit ce _ h4 k4, beqOpt_toDIdent]
        simp [DIdent.beq, toDIdent]
        congr
      | _ => rfl

theorem beqOpt_toEdit : ∀ a b : Option Expr, (∀ x ∈ a, Plain x) → (∀ x ∈ b, Plain x) →
    EExpr.beqOpt (toEditOpt P a) (toEditOpt P b) = Expr.beqOpt a b
  | none, b, _, _ => by cases b <;> rfl
  | some a, b, ha, hb => by
    cases b with
    | none => rfl
    | some b =>
      simp only [toEditOpt, EExpr.beqOpt, Expr.beqOpt]
      exact beq_toEdit a b (ha a rfl) (hb b rfl)

theorem beqList_toEdit : ∀ as bs : List Expr, (∀ x ∈ as, Plain x) → (∀ x ∈ bs, Plain x) →
    EExpr.beqList (toEditList P as) (toEditList P bs) = Expr.beqList as bs
  | [], bs, _, _ => by cases bs <;> rfl
  | a :: as, bs, ha, hb => by
    cases bs with
    | nil => rfl
    | cons b bs =>
      simp only [toEditList, EExpr.beqList, Expr.beqList]
      rw [beq_toEdit a b (ha a (List.mem_cons_self ..)) (hb b (List.mem_cons_self ..)),
        beqList_toEdit as bs (fun x hx => ha x (List.mem_cons_of_mem _ hx))
          fun x hx => hb x (List.mem_cons_of_mem _ hx)]

theorem beqOps_toEdit : ∀ as bs : List TravOp, (∀ x ∈ as, PlainOp x) → (∀ x ∈ bs, PlainOp x) →
    EExpr.beqTravs (toEditOps P as) (toEditOps P bs) = TravOp.beqList as bs
  | [], bs, _, _ => by cases bs <;> rfl
  | a :: as, bs, ha, hb => by
    cases bs with
    | nil => rfl
    | cons b bs =>
      simp only [toEditOps, EExpr.beqTravs, TravOp.beqList]
      rw [beqOp_toEdit a b (ha a (List.mem_cons_self ..)) (hb b (List.mem_cons_self ..)),
        beqOps_toEdit as bs (fun x hx => ha x (List.mem_cons_of_mem _ hx))
          fun x hx => hb x (List.mem_cons_of_mem _ hx)]

theorem beqOp_toEdit : ∀ a b : TravOp, PlainOp a → PlainOp b →
    EExpr.beqTravOp (toEditOp P a) (toEditOp P b) = TravOp.beq a b
  | .attrSplat, b, _, hb => by cases hb <;> rfl
  | .fullSplat, b, _, hb => by cases hb <;> rfl
  | .getAttr _, b, _, hb => by cases hb <;> rfl
  | .legacyIndex _, b, _, hb => by cases hb <;> rfl
  | .index e, b, ha, hb => by
    cases ha with
    | index ha =>
      cases hb with
      | index hb =>
        simp only [toEditOp, EExpr.beqTravOp, TravOp.beq]
        exact beq_toEdit e _ ha hb
      | _ => rfl

end

theorem beqKey_toEdit (a b : ObjKey) (ha : PlainKey a) (hb : PlainKey b) :
    EExpr.beqKey (toEditKey P a) (toEditKey P b) = ObjKey.beq a b := by
  cases a <;> cases b
  · simp [toEditKey, EExpr.beqKey, ObjKey.beq, DIdent.beq, toDIdent]
  · rfl
  · rfl
  · simp only [toEditKey, EExpr.beqKey, ObjKey.beq]
    exact beq_toEdit _ _ ha hb

/-- The keys of an object still differ after conversion if they are plain. -/
theorem editKeysDiffer_of_plain {es : List (ObjKey × Expr)} (hp : ∀ e ∈ es, PlainKey e.1)
    (h : KeysDiffer es) : EditKeysDiffer P es := by
  refine List.Pairwise.imp_of_mem ?_ h
  intro a b ha hb hab
  rw [beqKey_toEdit a.1 b.1 (hp a ha) (hp b hb)]
  exact hab

/-! ### Values -/

mutual
theorem toValue_ofValue : ∀ v : Value, v.WF → toValue E (ofValue v) = v
  | .null, _ => rfl
  | .bool _, _ => rfl
  | .number _, _ => rfl
  | .string _, _ => rfl
  | .array xs, h => by
    rw [ofValue, toValue, toValues_ofValues xs (by simpa [Value.WF] using h)]
  | .object es, h => by
    simp only [Value.WF] at h
    rw [ofValue, objCollect_ofEntries h.1, toValue, toValueEntries_ofEntries es h.2,
      Map.collect_nodup h.1]
theorem toValues_ofValues : ∀ xs : List Value, Value.WFList xs → toValues E (ofValues xs) = xs
  | [], _ => rfl
  | v :: vs, h => by
    simp only [Value.WFList] at h
    rw [ofValues, toValues, toValue_ofValue v h.1, toValues_ofValues vs h.2]
theorem toValueEntries_ofEntries : ∀ es : List (Str × Value), Value.WFObj es →
    toValueEntries E (ofEntries es) = es
  | [], _ => rfl
  | (k, v) :: es, h => by
    simp only [Value.WFObj] at h
    rw [ofEntries, toValueEntries, toValue_ofValue v h.1, toValueEntries_ofEntries es h.2]
    rfl
end

end Verif.Spec
