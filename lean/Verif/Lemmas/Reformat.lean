import Verif.Spec.Reformat
import Verif.Lemmas.ParsedKeys
import Verif.Lemmas.DeValue
/-! What can be read can be printed, for C82. -/

namespace Verif.Spec
open Syn

variable {E : FmtEnv} {bd : Build} {cfg : FmtCfg} {s : Str}

/-- The content of an expression of the source. -/
abbrev hclOf (E : FmtEnv) (s : Str) (e : EExpr) : Expr := toHcl E (e.despan s)

theorem leftOf_hcl {o : BinOp} {e : EExpr} (h : LeftOf o e) :
    Syn.LeftOf o (hclOf E s e) ∧ isCond (hclOf E s e) = false := by
  cases e <;> first
    | exact ⟨trivial, rfl⟩
    | (rename_i m l om x r; exact ⟨h, rfl⟩)
    | (simp only [LeftOf, isTerm] at h; cases h)

theorem rightOf_hcl {o : BinOp} {e : EExpr} (h : RightOf o e) :
    Syn.RightOf o (hclOf E s e) ∧ isCond (hclOf E s e) = false := by
  cases e <;> first
    | exact ⟨trivial, rfl⟩
    | (rename_i m l om x r; exact ⟨h, rfl⟩)
    | (simp only [RightOf, isTerm] at h; cases h)

theorem operand_hcl {e : EExpr} (h : isTerm e = true) : operand (hclOf E s e) = true := by
  cases e <;> first | rfl | cases h

theorem atomic_hcl {e : EExpr} (h : isHead e = true) : atomic (hclOf E s e) = true := by
  cases e <;> first | rfl | cases h

theorem notCond_hcl {e : EExpr} (h : notCond e = true) : isCond (hclOf E s e) = false := by
  cases e <;> first | rfl | cases h

theorem isVar_hcl {e : EExpr} (h : isVariable e = false) : isVar (hclOf E s e) = false := by
  cases e <;> first | rfl | cases h

theorem toHclOps_ne {os : List ETrav} (h : os ≠ []) : toHclOps E (EExpr.despanTravs s os) ≠ [] := by
  cases os with
  | nil => exact absurd rfl h
  | cons o os => cases o; simp [EExpr.despanTravs, toHclOps]

theorem decIdent_name {U : Uni} {nl : Bool} {d : DIdent} {p q : Nat} (h : DecIdent U s nl d p q) :
    IsIdentifier U d.name := let ⟨_, _, _, h, _⟩ := h; h.2

theorem sufIdent_name {U : Uni} {nl : Bool} {d : DIdent} {p q : Nat} (h : SufIdent U s nl d p q) :
    IsIdentifier U d.name := let ⟨_, h, _⟩ := h; h.2

theorem pathTail_names {U : Uni} {nl : Bool} : ∀ {ds : List DIdent} {p q : Nat}, PathTail U s nl ds p q →
    ∀ d ∈ ds, IsIdentifier U d.name
  | _, _, _, .nil => nofun
  | _, _, _, .cons _ h2 h3 => by
    intro d hd
    rcases List.mem_cons.mp hd with rfl | hd
    · exact decIdent_name h2
    · exact pathTail_names h3 d hd

theorem path_names {U : Uni} {nl : Bool} {ds : List DIdent} {p q : Nat} (h : Path U s nl ds p q) :
    ∀ d ∈ ds, IsIdentifier U d.name := by
  obtain ⟨d, tl, x, rfl, h1, h2⟩ := h
  intro e he
  rcases List.mem_cons.mp he with rfl | he
  · exact sufIdent_name h1
  · exact pathTail_names h2 e he

theorem forVars_names {U : Uni} {k : Option DIdent} {v : DIdent} {p q : Nat} (h : ForVars U s k v p q) :
    (∀ x, (k.map (DIdent.despan s)).map DIdent.name = some x → IsIdentifier U x) ∧
      IsIdentifier U (v.despan s).name := by
  rcases h with ⟨rfl, h⟩ | ⟨d, x, y, rfl, h1, _, h2⟩
  · exact ⟨nofun, (decIdent_name h : IsIdentifier U v.name)⟩
  · exact ⟨fun x hx => (by cases hx; exact (decIdent_name h1 : IsIdentifier U d.name)),
      (decIdent_name h2 : IsIdentifier U v.name)⟩

/-- The components of inserted items are those of the items. -/
theorem itemInsert_all {P : EKey → Prop} {Q : EExpr → Prop} {k : EKey} {v : EExpr} {a : Assign} {t : ItemEnd}
    (hk : P k) (hv : Q v) : ∀ {is : List EItem}, (∀ i ∈ is, P i.key ∧ Q i.value) →
    ∀ i ∈ itemInsert k v a t is, P i.key ∧ Q i.value
  | [], _ => fun i hi => by rw [List.mem_singleton.mp hi]; exact ⟨hk, hv⟩
  | .mk k' v' a' t' :: is, h => by
    have h1 := h _ (List.mem_cons_self ..)
    have h2 : ∀ i ∈ is, P i.key ∧ Q i.value := fun i hi => h i (List.mem_cons_of_mem _ hi)
    intro j hj
    rw [itemInsert] at hj
    split at hj
    · rcases List.mem_cons.mp hj with rfl | hj
      · exact ⟨h1.1, hv⟩
      · exact h2 j hj
    · rcases List.mem_cons.mp hj with rfl | hj
      · exact h1
      · exact itemInsert_all hk hv h2 j hj

theorem insertItems_all {P : EKey → Prop} {Q : EExpr → Prop} : ∀ {is acc : List EItem},
    (∀ i ∈ is, P i.key ∧ Q i.value) → (∀ i ∈ acc, P i.key ∧ Q i.value) →
    ∀ i ∈ insertItems acc is, P i.key ∧ Q i.value
  | [], _, _, h2 => h2
  | .mk k v a t :: is, acc, h1, h2 => by
    rw [insertItems]
    have h := h1 _ (List.mem_cons_self ..)
    exact insertItems_all (fun i hi => h1 i (List.mem_cons_of_mem _ hi)) (itemInsert_all h.1 h.2 h2)

theorem toHclItems_all {P : ObjKey → Prop} {Q : Expr → Prop} : ∀ {is : List EItem},
    (∀ i ∈ is, P (toHclKey E (i.key.despan s)) ∧ Q (hclOf E s i.value)) →
    ∀ p ∈ toHclItems E (EExpr.despanItems s is), P p.1 ∧ Q p.2
  | [], _ => by simp [EExpr.despanItems, toHclItems]
  | .mk k v a t :: is, h => by
    intro p hp
    simp only [EExpr.despanItems, toHclItems] at hp
    rcases List.mem_cons.mp hp with rfl | hp
    · exact h _ (List.mem_cons_self ..)
    · exact toHclItems_all (fun i hi => h i (List.mem_cons_of_mem _ hi)) p hp

theorem printableItems_of : ∀ {es : List (ObjKey × Expr)},
    (∀ p ∈ es, (TameKey E bd cfg p.1 → PrintableKey E bd cfg true p.1) ∧ (Tame E bd cfg p.2 → Printable E bd cfg true p.2)) →
    TameItems E bd cfg es → PrintableItems E bd cfg true es
  | [], _, _ => trivial
  | (k, v) :: es, h, ht => by
    have h1 := h _ (List.mem_cons_self ..)
    exact ⟨h1.1 ht.1, h1.2 ht.2.1, printableItems_of (fun p hp => h p (List.mem_cons_of_mem _ hp)) ht.2.2⟩

/-! ### Digits -/

/-- The sign of a float. -/
def negF : F64 → Bool
  | .fin s _ _ => s
  | .inf s => s
  | .nan => false

theorem ofDecimal_sign (m : Nat) (e : Int) : negF (F64.ofDecimal m e) = false := by
  have h : ∀ n d, negF (F64.round false n d) = false := fun n d => by
    unfold F64.round
    split
    · rfl
    · dsimp only
      split <;> dsimp only <;> split <;> rfl
  unfold F64.ofDecimal
  split <;> exact h _ _

theorem fromF64_sign {x : F64} {n : N} (hx : negF x = false) (h : N.fromF64 x = some n) :
    (∃ k, n = .posInt k) ∨ ∃ s m e, s = false ∧ n = .float (.fin s m e) := by
  cases x with
  | nan => cases h
  | inf s => cases h
  | fin s m e =>
    cases (hx : s = false)
    simp only [N.fromF64, F64.isFinite, if_true] at h
    split at h
    · refine .inl ?_
      have h0 : ¬ F64.toI64 (.fin false m e) < 0 := by
        simp only [F64.toI64, F64.sm]
        have : (0 : Int) ≤ if 0 ≤ e then (m : Int) * 2 ^ e.toNat else ((m / 2 ^ (-e).toNat : Nat) : Int) := by
          split
          · positivity
          · exact Int.natCast_nonneg _
        simp only [Bool.false_eq_true, if_false]
        split
        · omega
        · split <;> omega
      simp only [N.ofI64, if_neg h0] at h
      exact ⟨_, (Option.some.inj h).symm⟩
    · exact .inr ⟨_, _, _, rfl, (Option.some.inj h).symm⟩

theorem uNum_sign {t : Str} {n : N} (h : UNumText t n) :
    (∃ k, n = .posInt k) ∨ ∃ s m e, s = false ∧ n = .float (.fin s m e) := by
  cases h with
  | int _ _ => exact .inl ⟨_, rfl⟩
  | frac _ _ _ h => exact fromF64_sign (ofDecimal_sign _ _) h
  | exp _ _ h => exact fromF64_sign (ofDecimal_sign _ _) h

theorem digit_dec {c : Char} (h : P.isDigit c = true) : DecDigits [c] :=
  ⟨by simp, fun d hd => by rw [List.mem_singleton.mp hd]; unfold P.isDigit at h; exact of_decide_eq_true h⟩

theorem numText_noDigit {n : N} {t : Str} {a b : Nat} (hn : NumText t n) (ht : Tok s t a b)
    (hc : ∀ c, s[a]? = some c → ¬ DecDigits [c]) (h : NumberSafe E bd n) : startsDigit E (.number n) = false := by
  cases hn with
  | pos hu =>
    obtain ⟨c, cs, rfl, hd⟩ := Gram.uNum_head hu
    exact absurd (digit_dec hd) (hc c (Gram.tok_head ht))
  | neg hw hu hm =>
    rcases uNum_sign hu with ⟨k, rfl⟩ | ⟨_, m, e, rfl, rfl⟩
    · simp only [N.neg, Option.map_eq_some_iff] at hm
      obtain ⟨i, -, rfl⟩ := hm
      rfl
    · cases hm
      have h' : Num bd (E.showFloat (F64.neg (.fin false m e))) (.float (F64.neg (.fin false m e))) := h
      show (E.showFloat (F64.neg (.fin false m e))).head?.any Char.isDigit = false
      generalize E.showFloat (F64.neg (.fin false m e)) = u at h' ⊢
      generalize hy : F64.neg (.fin false m e) = y at h'
      cases h' with
      | pos hu' =>
        rcases uNum_sign hu' with ⟨k, hk⟩ | ⟨_, m', e', rfl, hk⟩
        · cases hk
        · injection hk with hk
          rw [hk] at hy
          cases hy
      | neg _ _ _ => rfl

/-- What does not start with a digit does not do so when it is written. -/
theorem Core.noDigit : ∀ {nl : Bool} {e : EExpr} {a b : Nat}, Core E.U s nl e a b →
    (∀ c, s[a]? = some c → ¬ DecDigits [c]) → Tame E bd cfg (hclOf E s e) → startsDigit E (hclOf E s e) = false
  | _, _, _, _, .null _, _, _ => rfl
  | _, _, _, _, .bool _, _, _ => rfl
  | _, _, _, _, .number hn ht, hc, h => numText_noDigit hn ht hc h
  | _, _, _, _, .string _, _, _ => rfl
  | _, _, _, _, .array _ _ _ _ _, _, _ => rfl
  | _, _, _, _, .object _ _ _, _, _ => rfl
  | _, _, _, _, .strTmpl _ _ _, _, _ => rfl
  | _, _, _, _, .heredoc _ _ _ _ _ _ _ _, _, _ => rfl
  | _, _, _, _, .paren _ _ _ _ _ _, _, _ => rfl
  | _, _, _, _, .var _ _, _, _ => rfl
  | _, _, _, _, .call _ _ _ _ _ _, _, _ => rfl
  | _, _, _, _, .unary _ _ _ _ _, _, _ => rfl
  | _, _, _, _, .forList .., _, _ => rfl
  | _, _, _, _, .forObj .., _, _ => rfl
  | _, _, _, _, .forGroup .., _, _ => rfl
  | _, _, _, _, .cond h1 _ _ _ _ _ _ _ _ _ _ _ _, hc, h => h1.noDigit hc h.1
  | _, _, _, _, .binary h1 _ _ _ _ _ _ _ _ _, hc, h => h1.noDigit hc h.1
  | _, _, _, _, .trav h1 _ _ _ _ _, hc, h => h1.noDigit hc h.1

/-- What is shown of an item. -/
def ItemTame (E : FmtEnv) (bd : Build) (cfg : FmtCfg) (s : Str) (i : EItem) : Prop :=
  (TameKey E bd cfg (toHclKey E (i.key.despan s)) → PrintableKey E bd cfg true (toHclKey E (i.key.despan s))) ∧
    (Tame E bd cfg (hclOf E s i.value) → Printable E bd cfg true (hclOf E s i.value))

mutual

theorem Core.tame : ∀ {nl e a b}, Core E.U s nl e a b → Tame E bd cfg (hclOf E s e) → Printable E bd cfg true (hclOf E s e)
  | _, _, _, _, .null _, _ => trivial
  | _, _, _, _, .bool _, _ => trivial
  | _, _, _, _, .number _ _, h => h
  | _, _, _, _, .string _, h => h
  | _, _, _, _, .array _ h2 _ _ _, h => ⟨h2.tame h.1, h.2⟩
  | _, _, _, _, .object _ h2 _, h =>
    ⟨printableItems_of (all_objCollect (P := fun k => TameKey E bd cfg k → PrintableKey E bd cfg true k)
      (Q := fun v => Tame E bd cfg v → Printable E bd cfg true v)
      (toHclItems_all (P := fun k => TameKey E bd cfg k → PrintableKey E bd cfg true k)
        (Q := fun v => Tame E bd cfg v → Printable E bd cfg true v) (insertItems_all (P := fun k => TameKey E bd cfg (toHclKey E (k.despan s)) → PrintableKey E bd cfg true (toHclKey E (k.despan s)))
        (Q := fun v => Tame E bd cfg (hclOf E s v) → Printable E bd cfg true (hclOf E s v)) h2.tame (fun _ hi => nomatch hi)))) h.1, h.2⟩
  | _, _, _, _, .strTmpl _ _ _, h => ⟨rfl, h⟩
  | _, _, _, _, .heredoc _ h2 _ _ _ _ _ _, h => ⟨rfl, h.1, h2, h.2⟩
  | _, _, _, _, .paren _ _ h3 _ _ _, h => h3.tame h
  | _, _, _, _, .var h1 h2, _ => ⟨h1.2, h2⟩
  | _, _, _, _, .cond h1 _ hn _ _ _ h6 _ _ _ _ h11 _, h => ⟨h1.tame h.1, notCond_hcl hn, h6.tame h.2.1, h11.tame h.2.2⟩
  | _, _, _, _, .call (ns := ns) (n := n) (expand := x) (as := as) hp _ h3 ha _ _, h => by
    refine ⟨?_, path_names hp n (by simp), h3.tame h, ?_⟩
    · intro y hy
      obtain ⟨d, hd, rfl⟩ := List.mem_map.mp hy
      obtain ⟨d', hd', rfl⟩ := List.mem_map.mp hd
      exact path_names hp d' (by simp [hd'])
    · rintro rfl
      rcases ha with ⟨_, h, _⟩ | ⟨_, _, h, _⟩ | ⟨hne, _⟩
      · cases h
      · cases h
      · cases as with
        | nil => exact absurd rfl hne
        | cons a as => simp [EExpr.despanList, toHclList]
  | _, _, _, _, .trav h1 _ _ h4 hne hh, h => ⟨h1.tame h.1, atomic_hcl hh, toHclOps_ne hne, h4.tame h.2.1, h.2.2⟩
  | _, _, _, _, .unary _ _ h3 _ ht, h => ⟨h3.tame h, operand_hcl ht.1, fun ho => h3.noDigit (ht.2 ho) h⟩
  | _, _, _, _, .binary h1 _ _ _ _ h6 _ hl hr _, h =>
    ⟨h1.tame h.1, h6.tame h.2, (leftOf_hcl hl).2, (rightOf_hcl hr).2, (leftOf_hcl hl).1, (rightOf_hcl hr).1⟩
  | _, _, _, _, .forList _ h2 _ h4 _ _ h7 _, h =>
    ⟨h2.tame.1.1, h2.tame.1.2, h2.tame.2 h.1, trivial, h4.tame h.2.2.1, h7.tame h.2.2.2, fun _ => rfl⟩
  | _, _, _, _, .forObj _ h2 _ h4 _ _ _ _ h9 _ _ _ _ h14 _, h =>
    ⟨h2.tame.1.1, h2.tame.1.2, h2.tame.2 h.1, h4.tame h.2.1, h9.tame h.2.2.1, h14.tame h.2.2.2, nofun⟩
  | _, _, _, _, .forGroup _ h2 _ h4 _ _ _ _ h9 _ _ _ _ _, h =>
    ⟨h2.tame.1.1, h2.tame.1.2, h2.tame.2 h.1, h4.tame h.2.1, h9.tame h.2.2.1, trivial, nofun⟩

theorem Intro.tame : ∀ {im k v c p q}, Intro E.U s im k v c p q →
    ((∀ x, (k.map (DIdent.despan s)).map DIdent.name = some x → IsIdentifier E.U x) ∧ IsIdentifier E.U (v.despan s).name) ∧
      (Tame E bd cfg (hclOf E s c) → Printable E bd cfg true (hclOf E s c))
  | _, _, _, _, _, _, .mk _ _ h3 _ _ h6 _ _ _ => ⟨forVars_names h3, h6.tame⟩

theorem Cond.tame : ∀ {cm co p q}, Cond E.U s cm co p q →
    TameOpt E bd cfg (toHclOpt E (EExpr.despanOpt s co)) → PrintableOpt E bd cfg true (toHclOpt E (EExpr.despanOpt s co))
  | _, _, _, _, .none, _ => trivial
  | _, _, _, _, .some _ _ _ h4 _ _, h => h4.tame h

theorem Elems.tame : ∀ {es a b}, Elems E.U s es a b →
    TameList E bd cfg (toHclList E (EExpr.despanList s es)) → PrintableList E bd cfg true (toHclList E (EExpr.despanList s es))
  | _, _, _, .nil, _ => trivial
  | _, _, _, .cons _ h2 _ _ h5, h => ⟨h2.tame h.1, h5.tame h.2⟩

theorem ElemsTail.tame : ∀ {es a b}, ElemsTail E.U s es a b →
    TameList E bd cfg (toHclList E (EExpr.despanList s es)) → PrintableList E bd cfg true (toHclList E (EExpr.despanList s es))
  | _, _, _, .nil, _ => trivial
  | _, _, _, .cons _ _ h2 _ _ h5, h => ⟨h2.tame h.1, h5.tame h.2⟩

theorem Items.tame : ∀ {is tr a b}, Items E.U s is tr a b → ∀ i ∈ is, ItemTame E bd cfg s i
  | _, _, _, _, .nil _ => nofun
  | _, _, _, _, .last h => fun i hi => by rw [List.mem_singleton.mp hi]; exact h.tame
  | _, _, _, _, .cons h1 _ _ h4 => fun i hi => by
      rcases List.mem_cons.mp hi with rfl | hi
      · exact h1.tame
      · exact h4.tame i hi

theorem Item.tame : ∀ {k v as a b}, Item E.U s k v as a b → ∀ {t}, ItemTame E bd cfg s (.mk k v as t)
  | _, _, _, _, _, .ident _ h2 _ _ _ _ h7 _ _ hk, _ => ⟨fun _ => ⟨h2.2, hk⟩, h7.tame⟩
  | _, _, _, _, _, .expr _ h2 _ _ _ _ h7 _ _ hv, _ => ⟨fun h => ⟨h2.tame h.1, isVar_hcl hv, h.2⟩, h7.tame⟩

theorem Travs.tame : ∀ {nl os a b}, Travs E.U s nl os a b →
    TameOps E bd cfg (toHclOps E (EExpr.despanTravs s os)) → PrintableOps E bd cfg true (toHclOps E (EExpr.despanTravs s os))
  | _, _, _, _, .nil, _ => trivial
  | _, _, _, _, .cons _ h2 h3, h => ⟨h2.tame h.1, h3.tame h.2⟩

theorem TravOp.tame : ∀ {o a b}, TravOp E.U s o a b →
    TameOp E bd cfg (toHclOp E (o.despan s)) → PrintableOp E bd cfg true (toHclOp E (o.despan s))
  | _, _, _, .attrSplat _ _ _, _ => trivial
  | _, _, _, .fullSplat _ _ _ _ _, _ => trivial
  | _, _, _, .getAttr _ _ h3 _, _ => h3.2
  | _, _, _, .index _ _ h3 _ _ _, h => h3.tame h
  | _, _, _, .legacyIndex _ _ _ h4, _ => h4

end

theorem labels_tame : ∀ {ls : List ELabel} {p q : Nat}, Labels E.U s ls p q →
    (∀ t, Label.string t ∈ (ls.map (ELabel.despan s)).map toHclLabel → StringSafe t) →
    ∀ l ∈ (ls.map (ELabel.despan s)).map toHclLabel, PrintableLabel E l
  | _, _, _, .nil, _ => nofun
  | _, _, _, .ident h1 h2, h => by
    rename_i d _ _
    intro l hl
    rcases List.mem_cons.mp hl with rfl | hl
    · exact (sufIdent_name h1 : IsIdentifier E.U d.name)
    · exact labels_tame h2 (fun t ht => h t (List.mem_cons_of_mem _ ht)) l hl
  | _, _, _, .string _ _ h2, h => by
    intro l hl
    rcases List.mem_cons.mp hl with rfl | hl
    · exact h _ (List.mem_cons_self ..)
    · exact labels_tame h2 (fun t ht => h t (List.mem_cons_of_mem _ ht)) l hl

theorem attrKeys_hcl : ∀ (ss : List EStruct), Syn.attrKeys (toHclStructs E (EStruct.despanList s ss)) = bodyKeys ss
  | [] => rfl
  | .attr m k v :: ss => by
    show k.name :: Syn.attrKeys (toHclStructs E (EStruct.despanList s ss)) = _
    rw [attrKeys_hcl ss]; rfl
  | .block m i ls b :: ss => by
    show Syn.attrKeys (toHclStructs E (EStruct.despanList s ss)) = _
    rw [attrKeys_hcl ss]; rfl

mutual

theorem StructAt.tame : ∀ {st a b}, StructAt E.U s st a b →
    TameStruct E bd cfg (toHclStruct E (st.despan s)) → PrintableStruct E bd cfg true (toHclStruct E (st.despan s))
  | _, _, _, .attr (k := k) h1 _ _ h4 _, h => ⟨(sufIdent_name h1 : IsIdentifier E.U k.name), h4.tame h⟩
  | _, _, _, .block (i := i) h1 h2 _ h4 _, h =>
    ⟨(sufIdent_name h1 : IsIdentifier E.U i.name), labels_tame h2 h.1, h4.tame.1, h4.tame.2 h.2⟩

theorem BlockBody.tame : ∀ {b p q}, BlockBody E.U s b p q →
    (Syn.attrKeys (toHclBody E (b.despan s))).Nodup ∧
    (TameBody E bd cfg (toHclBody E (b.despan s)) → PrintableStructs E bd cfg true (toHclBody E (b.despan s)))
  | _, _, _, .lines (ss := ss) _ _ h3 h4 _ => ⟨(attrKeys_hcl (E := E) (s := s) ss).symm ▸ h4, h3.tame⟩
  | _, _, _, .empty _ => ⟨.nil, fun _ => trivial⟩
  | _, _, _, .single (k := k) _ h2 _ _ => ⟨List.nodup_singleton _, fun h => ⟨h2.tame h.1, trivial⟩⟩

theorem Lines.tame : ∀ {ss fin p q}, Lines E.U s ss fin p q →
    TameBody E bd cfg (toHclStructs E (EStruct.despanList s ss)) →
    PrintableStructs E bd cfg true (toHclStructs E (EStruct.despanList s ss))
  | _, _, _, _, .nil, _ => trivial
  | _, _, _, _, .cons _ h2 _ _ _ h6, h => ⟨h2.tame h.1, h6.tame h.2⟩
  | _, _, _, _, .last _ h2 _ _, h => ⟨h2.tame h.1, trivial⟩

end

theorem Document.tame {b : EBody} (h : Document E.U s b) (ht : TameBody E bd cfg (toHclBody E (b.despan s))) :
    PrintableBody E bd cfg true (toHclBody E (b.despan s)) := by
  cases h with
  | mk h1 h2 h3 => exact ⟨(attrKeys_hcl (E := E) (s := s) _).symm ▸ h2, h1.tame ht⟩

end Verif.Spec
