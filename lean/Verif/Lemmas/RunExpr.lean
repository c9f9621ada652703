import Verif.Lemmas.RunTrav
/-! Running the parser on chains of operators and on conditionals, and the recursive knot. -/

namespace Verif.Gram
open P Spec Syn

variable {E : PEnv} {R : PRec} {m : Nat}

/-! ### Chains -/

/-- The operators of a chain with the operands after them. -/
inductive Tail (U : Uni) (bd : Build) (nl : Bool) : List (BinOp × Expr) → Str → Prop
  | nil : Tail U bd nl [] []
  | cons {o e xs g h t u} : Gap nl g → (o = .minus → g ≠ []) → Gap nl h → (o = .div → ∀ x, h ≠ '/' :: x) →
      Term U bd nl e t → Tail U bd nl xs u → Tail U bd nl ((o, e) :: xs) (g ++ (o.asStr ++ h) ++ t ++ u)

theorem Tail.append {U : Uni} {bd : Build} {nl : Bool} {xs ys : List (BinOp × Expr)} {t u : Str}
    (h : Tail U bd nl xs t) (h' : Tail U bd nl ys u) : Tail U bd nl (xs ++ ys) (t ++ u) := by
  induction h with
  | nil => exact h'
  | cons h1 h2 h3 h4 h5 _ ih =>
    rw [List.append_assoc (_ ++ _)]
    exact .cons h1 h2 h3 h4 h5 ih

/-- The parsed operators and operands. -/
def MeansOps (E : PEnv) : List (DBinOp × EExpr) → List (BinOp × Expr) → Prop
  | [], [] => True
  | v :: vs, x :: xs => v.1.op = x.1 ∧ Means E.U E.bd v.2 x.2 ∧ MeansOps E vs xs
  | _, _ => False

theorem MeansOps.split {vs : List (DBinOp × EExpr)} {xs ys : List (BinOp × Expr)} (h : MeansOps E vs (xs ++ ys)) :
    ∃ a b, vs = a ++ b ∧ MeansOps E a xs ∧ MeansOps E b ys := by
  induction xs generalizing vs with
  | nil => exact ⟨[], vs, rfl, trivial, h⟩
  | cons x xs ih =>
    cases vs with
    | nil => exact h.elim
    | cons v vs =>
      obtain ⟨a, b, rfl, h1, h2⟩ := ih h.2.2
      exact ⟨v :: a, b, rfl, ⟨h.1, h.2.1, h1⟩, h2⟩

/-- Putting parentheses into the chain by precedence gives the expression. -/
def Shape (E : PEnv) (e e0 : Expr) (xs : List (BinOp × Expr)) : Prop :=
  ∀ v0 vs, Means E.U E.bd v0 e0 → MeansOps E vs xs → ∃ T : OpTree, T.first = v0 ∧ T.rest = vs ∧ ByPrecedence T ∧
    (∀ x, IsTree T x → Means E.U E.bd x e) ∧ ∀ x ∈ T.top, ∃ l r, e = .binary l x r

theorem den_binary {mm om : Meta} {o : BinOp} {a b : EExpr} {l r : Expr} (h1 : Means E.U E.bd a l) (h2 : Means E.U E.bd b r) :
    Means E.U E.bd (.binary mm a om o b) (.binary l o r) := .binary h1 h2

theorem chain_flat (E : PEnv) : ∀ {nl : Bool} {e : Expr} {t : Str}, Syn.Chain E.U E.bd nl e t →
    ∃ e0 t0 xs u, t = t0 ++ u ∧ Term E.U E.bd nl e0 t0 ∧ Tail E.U E.bd nl xs u ∧ Shape E e e0 xs ∧
      (opens e0 = true → opens e = true) ∧ ∀ x ∈ xs, opens x.2 = true → opens e = true
  | nl, e, t, .term h => by
    refine ⟨e, t, [], [], (List.append_nil _).symm, h, .nil, ?_, id, nofun⟩
    intro v0 vs h0 hvs
    cases vs with
    | cons v vs => exact hvs.elim
    | nil =>
      refine ⟨.operand v0, rfl, rfl, .operand, ?_, nofun⟩
      rintro x ⟨⟩
      exact h0
  | nl, _, _, .binary (l := l) (o := o) (r := r) (g := g) (h := h) hl hg hm hh hd hr hL hR => by
    obtain ⟨e1, t1, xs, u, rfl, ht1, hx, hs1, ho1, ho1'⟩ := chain_flat E hl
    obtain ⟨e2, t2, ys, w, rfl, ht2, hy, hs2, ho2, ho2'⟩ := chain_flat E hr
    have hopen : opens (.binary l o r) = (opens l || opens r) := by simp only [opens]
    refine ⟨e1, t1, xs ++ (o, e2) :: ys, u ++ (g ++ (o.asStr ++ h) ++ t2 ++ w), by simp only [List.append_assoc], ht1,
      hx.append (.cons hg hm hh hd ht2 hy), ?_, ?_, ?_⟩
    · intro v0 vs h0 hvs
      obtain ⟨a, b, rfl, ha, hb⟩ := hvs.split
      cases b with
      | nil => exact hb.elim
      | cons v b =>
        obtain ⟨hop, hden, hb⟩ := hb
        obtain ⟨T1, f1, r1, p1, d1, top1⟩ := hs1 v0 a h0 ha
        obtain ⟨T2, f2, r2, p2, d2, top2⟩ := hs2 v.2 b hden hb
        refine ⟨.op T1 v.1 T2, f1, ?_, .op p1 p2 ?_ ?_, ?_, ?_⟩
        · unfold OpTree.rest
          rw [r1, f2, r2]
        · intro x hx
          obtain ⟨l', r', rfl⟩ := top1 x hx
          rw [hop]
          exact hL
        · intro x hx
          obtain ⟨l', r', rfl⟩ := top2 x hx
          rw [hop]
          exact hR
        · intro x hx
          cases hx with
          | op h1 h2 =>
            dsimp only at hop
            rw [hop]
            exact den_binary (d1 _ h1) (d2 _ h2)
        · intro x hx
          injection hx with hx
          subst hx
          exact ⟨l, r, by rw [hop]⟩
    · intro h
      rw [hopen, ho1 h]; rfl
    · intro x hx h
      rw [hopen]
      rcases List.mem_append.mp hx with hx | hx
      · rw [ho1' x hx h]; rfl
      · rcases List.mem_cons.mp hx with rfl | hx
        · rw [ho2 h, Bool.or_true]
        · rw [ho2' x hx h, Bool.or_true]

/-- What follows an operand in a chain. -/
theorem tail_follow {nl b f : Bool} (hb : nl = true → b = true) {xs : List (BinOp × Expr)} {u r : Str}
    (h : Tail E.U E.bd nl xs u) (hr : FolC E.U f r) (hf : b = true → f = true) : FolT E.U b (u ++ r) := by
  cases h with
  | nil => exact (hr.down hf).toT
  | @cons o e xs g h t u hg hm hh hd ht hu =>
    have hend := opEnd_of (b := nl) hh hd ((term_starts ht).append (u ++ r)) []
    rw [List.append_nil] at hend
    rw [show g ++ (o.asStr ++ h) ++ t ++ u ++ r = g ++ (o.asStr ++ (h ++ (t ++ (u ++ r)))) by asc]
    refine folT_of (hg.mono hb) (op_quietT hend) ?_
    by_cases ho : o = .minus
    · exact .inr (hm ho)
    · exact .inl (op_idEnd ho)

theorem backs_binaryStep {f : Bool} {r : Str} (hr : FolC E.U f r) : Backs (binaryStep R f) r := by
  obtain ⟨-, g, u, rfl, hg, hu⟩ := hr
  unfold binaryStep decorated
  refine Backs.bind (Runs.bind_backs (runs_over hg hu.triv).spanOf fun _ _ => Backs.bind (Backs.map (Backs.withSpan ?_)))
  exact hu.op.map

theorem run_binaryStep (HG : Good E R m) {f nl : Bool} (hb : nl = true → f = true) {o : BinOp} {e : Expr}
    {g h t r : Str} (hg : Gap nl g) (hh : Gap nl h) (hd : o = .div → ∀ x, h ≠ '/' :: x) (ht : Term E.U E.bd nl e t)
    (hm : t.length < m) (hr : FolT E.U (f || opens e) r) :
    Runs (binaryStep R f) (g ++ (o.asStr ++ h) ++ t) r fun v => v.1.op = o ∧ Means E.U E.bd v.2 e := by
  have hend := opEnd_of (b := nl) hh hd (term_starts ht) r
  unfold binaryStep
  refine Runs.bind (Q := fun v : DBinOp => v.op = o) ?_ fun v hv => ?_
  · refine runs_decorated (Q := fun v : DBinOp => v.op = o) (A := fun _ => True) (B := fun _ => True) ?_ ?_ ?_
      fun _ _ _ h => h
    · exact runs_gap (hg.mono hb) (op_quietT hend).triv
    · exact Runs.map (runs_binaryOperator hend)
    · exact runs_gap (hh.mono hb) ((term_starts ht).append r).solid
  · exact Runs.bind_last (HG.term ht hm hb hr) fun w hw => .pure ⟨hv, hw⟩

theorem run_tail (HG : Good E R m) {f nl c : Bool} (hb : nl = true → f = true) (hfc : f = true → c = true)
    {r : Str} (hr : FolC E.U c r) {xs : List (BinOp × Expr)} {u : Str} (h : Tail E.U E.bd nl xs u)
    (hm : u.length ≤ m) (ho : ∀ x ∈ xs, opens x.2 = true → c = true) :
    Reps (binaryStep R f) (fun vs => MeansOps E vs xs) u r := by
  induction h with
  | nil => exact .nil (backs_binaryStep (hr.down hfc)) trivial
  | @cons o e xs g h t u hg hmi hh hd ht hu ih =>
    simp only [List.length_append] at hm
    have hlen : 0 < o.asStr.length := by cases o <;> decide
    refine .cons ?_ (run_binaryStep HG hb hg hh hd ht (by omega) (tail_follow (nl := nl) ?_ hu hr ?_)) ?_
    · intro hx
      simp only [List.append_eq_nil_iff] at hx
      exact (term_starts ht).ne_nil hx.2
    · intro h; rw [hb h]; rfl
    · intro h
      rw [Bool.or_eq_true] at h
      exact h.elim hfc (ho _ (List.mem_cons_self ..))
    · rintro v ⟨hv1, hv2⟩
      exact (ih (by omega) fun x hx => ho x (List.mem_cons_of_mem _ hx)).conseq fun vs hvs => ⟨hv1, hv2, hvs⟩

theorem parse_shape {e e0 : Expr} {xs : List (BinOp × Expr)} (h : Shape E e e0 xs) {v0 : EExpr}
    {vs : List (DBinOp × EExpr)} (h0 : Means E.U E.bd v0 e0) (hvs : MeansOps E vs xs) : Means E.U E.bd (parseBinaryOp v0 vs) e := by
  obtain ⟨T, hf, hr, hp, hd, -⟩ := h v0 vs h0 hvs
  obtain ⟨t, drop, h1, h2, h3, h4, h5⟩ := parseBinaryOp_spec v0 vs
  have hdrop : drop = [] := by
    cases drop with
    | nil => rfl
    | cons p tl =>
      obtain ⟨x, e⟩ := p
      exfalso
      have hcl := blocks_clash (tl := tl) (e := e) h2 (h5 x e tl rfl)
      rw [← h4, ← hr] at hcl
      exact byPrec_noClash hp hcl
  subst hdrop
  rw [List.append_nil] at h4
  have : t = T := byPrec_unique h2 hp (h3.trans hf.symm) (h4.symm.trans hr.symm)
  subst this
  rw [h1]
  exact hd _ (build_tree t)

theorem runs_fuel {β : Type} {K : Nat → P β} {t r : Str} {Q : β → Prop} (h : Runs (K ((t ++ r).length + 1)) t r Q) :
    Runs (fun i => K (i.rest.length + 1) i) t r Q := fun pos => h pos

/-- The loop after the first operand, up to the end of the chain. -/
theorem run_chain (HG : Good E R m) {b nl : Bool} (hb : nl = true → b = true) {c : Expr} {t u r : Str}
    {Q : EExpr → Prop} (h : Syn.Chain E.U E.bd nl c t) (hm : t.length ≤ m) (hr : FolC E.U (b || opens c) (u ++ r))
    (hK : ∀ start f n v, (b = true → f = true) → (f = true → (b || opens c) = true) → Means E.U E.bd v c →
      Runs (exprLoop R start f (n + 1) v) u r Q) : Runs (exprInner E R b) (t ++ u) r Q := by
  obtain ⟨e0, t0, xs, w, rfl, ht0, hw, hs, ho0, hox⟩ := chain_flat E h
  simp only [List.length_append] at hm
  unfold exprInner
  refine runs_getInput fun start => ?_
  have hfol : FolT E.U (b || opens e0) (w ++ (u ++ r)) := by
    refine tail_follow (nl := nl) (fun h => by rw [hb h]; rfl) hw hr fun h => ?_
    rw [Bool.or_eq_true] at h ⊢
    exact h.imp_right ho0
  rw [List.append_assoc]
  refine Runs.bind (run_term HG hb ht0 (by omega) (by rw [List.append_assoc]; exact hfol)) ?_
  rintro ⟨v, f⟩ ⟨hv, hbf, hf⟩
  dsimp only at hv hbf hf ⊢
  have hf' : f = true → (b || opens c) = true := by
    intro h
    have := hf h
    rw [Bool.or_eq_true] at this ⊢
    exact this.imp_right ho0
  refine runs_fuel (K := fun n => exprLoop R start.pos f n v) ?_
  cases hw with
  | nil => exact hK _ _ _ _ hbf hf' (parse_shape hs hv (vs := []) trivial)
  | @cons o e xs g k t w hg hmi hh hd ht hw =>
    simp only [List.length_append] at hm
    have hlen : 0 < o.asStr.length := by cases o <;> decide
    have hend := opEnd_of (b := nl) hh hd ((term_starts ht).append (w ++ (u ++ r))) []
    rw [List.append_nil] at hend
    have hox' : ∀ x ∈ (o, e) :: xs, opens x.2 = true → (b || opens c) = true := fun x hx h => by
      rw [hox x hx h, Bool.or_true]
    have hrun : Runs (binaryOps R f) (g ++ (o.asStr ++ k) ++ t ++ w) (u ++ r) fun vs => MeansOps E vs ((o, e) :: xs) := by
      refine Reps.runs1 (run_binaryStep HG (fun h => hbf (hb h)) hg hh hd ht (by omega)
        (tail_follow (nl := nl) (fun h => by rw [hbf (hb h)]; rfl) hw hr fun h => ?_)) ?_
      · rw [Bool.or_eq_true] at h
        exact h.elim hf' (hox' _ (List.mem_cons_self ..))
      · rintro v ⟨hv1, hv2⟩
        exact (run_tail HG (fun h => hbf (hb h)) hf' hr hw (by omega)
          fun x hx => hox' x (List.mem_cons_of_mem _ hx)).conseq fun vs hvs => ⟨hv1, hv2, hvs⟩
    obtain ⟨j, hk⟩ : ∃ j, ((g ++ (o.asStr ++ k) ++ t ++ w ++ u) ++ r).length = j + 1 :=
      Nat.exists_eq_succ_of_ne_zero (by simp only [List.length_append]; omega)
    rw [hk]
    unfold exprLoop
    refine runs_look_back (runs_gap (hg.mono fun h => hbf (hb h)) (op_quietT hend).triv) (by asc)
      (p := fun cp s => P.bind (withSpan (binaryOps R f)) fun x =>
        exprLoop R start.pos f (j + 1) ((parseBinaryOp v x.1).setSpan ⟨start.pos, x.2.stop⟩)) ?_ ?_
    · intro cp s
      rw [if_neg, op_two hend, if_pos rfl]
      · rfl
      · intro hx
        cases htw : two (o.asStr ++ (k ++ (t ++ (w ++ (u ++ r))))) with
        | none => rw [htw] at hx; cases hx
        | some p =>
          obtain ⟨p, q⟩ := p
          rw [htw] at hx
          injection hx with hx
          exact op_quest _ _ htw hx
    · intro cp s
      refine Runs.bind hrun.withSpan ?_
      rintro ⟨vs, s'⟩ hvs
      exact hK _ _ _ _ hbf hf' ((parse_shape hs hv hvs).mapMeta _)

/-! ### Expressions -/

theorem quietE_two {b : Bool} {u : Str} (h : QuietE b u) : ¬ (two u).map (·.1) = some '?' := by
  intro hx
  cases u with
  | nil => cases hx
  | cons c u =>
    cases u with
    | nil => cases hx
    | cons d u =>
      injection hx with hx
      exact h.quest _ (by rw [← hx])

/-- The loop stops. -/
theorem run_stop {start : Nat} {f : Bool} {n : Nat} {v : EExpr} {r : Str} (hr : FolE E.U f r) :
    Runs (exprLoop R start f (n + 1) v) [] r fun w => w = v := by
  obtain ⟨-, g, u, rfl, hg, hu⟩ := hr
  unfold exprLoop
  refine runs_look_back (t := []) (runs_over hg hu.triv) rfl (p := fun _ _ => P.pure v) ?_ fun _ _ => .pure rfl
  intro cp s
  rw [if_neg (quietE_two hu), hu.bin]
  rfl

theorem den_cond {mm : Meta} {a b c : EExpr} {l r s : Expr} (h1 : Means E.U E.bd a l) (h2 : Means E.U E.bd b r) (h3 : Means E.U E.bd c s) :
    Means E.U E.bd (.cond mm a b c) (.cond l r s) := .cond h1 h2 h3

theorem run_full (HG : Good E R m) {b nl : Bool} (hb : nl = true → b = true) {e : Expr} {t r : Str}
    (h : Full E.U E.bd nl e t) (hm : t.length ≤ m) (hr : FolE E.U (b || opens e) r) :
    Runs (exprInner E R b) t r fun v => Means E.U E.bd v e := by
  cases h with
  | chain h =>
    rw [← List.append_nil t]
    refine run_chain (u := []) HG hb h hm hr.toC fun start f n v hbf hf hv => ?_
    exact (run_stop (hr.down hf)).conseq fun w hw => by rw [hw]; exact hv
  | @cond _ c x y t₁ g₁ g₂ t₂ g₃ g₄ t₃ hc hg₁ hg₂ h₂ hg₃ hg₄ h₃ =>
    simp only [List.length_append, List.length_cons, List.length_nil] at hm
    rw [show t₁ ++ g₁ ++ c!"?" ++ g₂ ++ t₂ ++ g₃ ++ c!":" ++ g₄ ++ t₃ =
      t₁ ++ (g₁ ++ ('?' :: (g₂ ++ (t₂ ++ g₃)) ++ (':' :: (g₄ ++ t₃)))) by asc]
    have ho : opens (.cond c x y) = (opens c || opens x || opens y) := by simp only [opens]
    rw [ho] at hr
    have hstart : ∀ z, g₄ ++ (t₃ ++ r) ≠ ':' :: z := gap_ne hg₄ rfl (((full_starts h₃).append r).ne rfl)
    refine run_chain HG hb hc (by omega) ?_ fun start f n v hbf hf hv => ?_
    · rw [List.append_assoc]
      exact folC_of (hg₁.mono fun h => by rw [hb h]; rfl) quiet_quest (.inl (idEnd_cons rfl))
    · have hnf : nl = true → f = true := fun h => hbf (hb h)
      unfold exprLoop
      refine runs_look_go (runs_gap (hg₁.mono hnf) (solid_starts rfl)) fun cp s => ?_
      rw [if_pos]
      · refine Runs.bind_last (Q := fun p : (EExpr × EExpr) × Span => Means E.U E.bd p.1.1 x ∧ Means E.U E.bd p.1.2 y)
          (Runs.withSpan (Q := fun p : EExpr × EExpr => Means E.U E.bd p.1 x ∧ Means E.U E.bd p.2 y) ?_) ?_
        · unfold conditional
          refine Runs.bind (t := ['?']) (u := (g₂ ++ (t₂ ++ g₃)) ++ (':' :: (g₄ ++ t₃))) runs_chr fun _ _ => ?_
          refine Runs.bind (run_wsOrSp HG hnf hg₂ h₂ (by omega) hg₃ (fun b => quiet_colon (r := (g₄ ++ t₃) ++ r) (by
            rw [List.append_assoc]; exact hstart)) (.inl (idEnd_cons rfl))) fun v₂ hv₂ => ?_
          refine Runs.bind (t := [':']) (u := g₄ ++ t₃) runs_chr.cutErr fun _ _ => ?_
          refine Runs.bind_last (runs_prefixDecorated (Q := fun v => Means E.U E.bd v y) (R := fun v => Means E.U E.bd v y)
            (runs_gap (hg₄.mono hnf) ((full_starts h₃).append r).solid) (HG.expr h₃ (by omega) hnf (hr.down ?_))
            fun _ _ _ hv => (hv.mapMeta _).mapMeta _) fun v₃ hv₃ => .pure ⟨hv₂, hv₃⟩
          intro h
          rw [Bool.or_eq_true] at h
          simp only [Bool.or_eq_true] at hf ⊢
          rcases h with h | h
          · exact (hf h).imp_right fun h => .inl (.inl h)
          · exact .inr (.inr h)
        · rintro ⟨⟨v₂, v₃⟩, s'⟩ ⟨hv₂, hv₃⟩
          exact .pure ((den_cond (hv.mapMeta _) hv₂ hv₃).mapMeta _)
      · obtain ⟨c₀, cs₀, hcs, _⟩ := (full_starts h₂)
        subst hcs
        cases g₂ <;> rfl

/-! ### The knot -/

theorem parsers_good (E : PEnv) : ∀ n, Good E (parsers E n) n
  | 0 => ⟨fun _ h => (Nat.not_lt_zero _ h).elim, fun _ h => (Nat.not_lt_zero _ h).elim,
    fun _ h => (Nat.not_lt_zero _ h).elim⟩
  | n + 1 => by
    have ih := parsers_good E n
    refine ⟨fun h hm b r hb hr => ?_, fun h hm b r hb hr => ?_, fun h hm r hr hj => ?_⟩
    · exact run_full ih hb h (by omega) hr
    · exact Runs.map ((run_term ih hb h (by omega) hr).conseq fun v hv => hv.1)
    · exact run_template ih h (by omega) hr hj

end Verif.Gram
