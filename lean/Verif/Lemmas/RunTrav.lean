import Verif.Lemmas.RunAtom
/-! Running the parser on traversals and operands. -/

namespace Verif.Gram
open P Spec Syn

variable {E : PEnv} {R : PRec} {m : Nat}

theorem FolA.down {U : Uni} {b c : Bool} {r : Str} (h : FolA U b r) (hbc : c = true → b = true) : FolA U c r :=
  fol_down (Z := fun b u => ¬ StartsTrivia b u ∧ (∀ x, u ≠ '(' :: x) ∧ ∀ x, u ≠ ':' :: ':' :: x)
    (fun _ h => ⟨starts_mono h.1, h.2⟩) (fun _ h => ⟨h.triv, h.paren, h.colon⟩) h hbc

theorem FolT.toA {U : Uni} {b : Bool} {r : Str} (h : FolT U b r) : FolA U b r := by
  obtain ⟨h1, g, u, h2, h3, h4⟩ := h
  exact ⟨h1, g, u, h2, h3, h4.triv, h4.paren, h4.colon⟩

/-! ### Traversal operators -/

theorem digit_of_spec {c : Char} (h : ¬ ('0' ≤ c ∧ c ≤ '9')) : isDigit c = false := by
  unfold isDigit
  exact decide_eq_false fun ⟨h1, h2⟩ => h ⟨h1, h2⟩

theorem runs_decUint {t r : Str} (h : DecDigits t) (hv : decVal t < 2 ^ 64) (hz : t = c!"0" ∨ t.head? ≠ some '0')
    (hr : ∀ c cs, r = c :: cs → isDigit c = false) : Runs decUint t r fun v => v = decVal t := by
  obtain ⟨hne, hd⟩ := decDigits_iff h
  unfold decUint
  refine Runs.verifyMap (Q := fun s => s = t) ?_ ?_
  · cases t with
    | nil => exact absurd rfl hne
    | cons c cs =>
      refine (Runs.taken (Q := fun _ => True) ?_).conseq fun v hv => by simpa using hv
      rcases hz with hz | hz
      · injection hz with h1 h2
        subst h1 h2
        exact Runs.alt_right (Backs.bind (backs_oneOf fun c cs h => by injection h with h _; subst h; rfl))
          (runs_chr.bind_last fun _ _ => .pure trivial)
      · refine Runs.alt_left (Runs.bind (t := [c]) (u := cs) (runs_oneOf ?_) fun _ _ => ?_)
        · rw [hd c (List.mem_cons_self ..)]
          have : c ≠ '0' := fun h => hz (by rw [h]; rfl)
          simp [this]
        · exact (runs_takeWhile (fun c hc => hd c (List.mem_cons_of_mem _ hc)) hr).bind_last fun _ _ => .pure trivial
  · rintro _ rfl
    exact ⟨_, if_pos hv, rfl⟩

theorem step_starts {o : TravOp} {t : Str} (h : Step E.U E.bd o t) :
    (∃ c cs, t = '.' :: c :: cs ∧ c ≠ '.') ∨ ∃ c cs, t = '[' :: c :: cs := by
  have key : ∀ {g x : Str}, Gap true g → x ≠ [] → (∀ y, x ≠ '.' :: y) →
      ∃ c cs, '.' :: (g ++ x) = '.' :: c :: cs ∧ c ≠ '.' := by
    intro g x hg hx hx'
    cases hgx : g ++ x with
    | nil => exact absurd (List.append_eq_nil_iff.mp hgx).2 hx
    | cons c cs => exact ⟨c, cs, rfl, fun h => gap_ne hg rfl hx' cs (by rw [hgx, h])⟩
  have key' : ∀ {x : Str}, ∃ c cs, '[' :: (x ++ [']']) = '[' :: c :: cs := by
    intro x
    cases x with
    | nil => exact ⟨_, _, rfl⟩
    | cons c cs => exact ⟨_, _, rfl⟩
  cases h with
  | getAttr hg hx => exact .inl (by asc; exact key hg (ident_starts hx).ne_nil ((ident_starts hx).ne rfl))
  | @legacyIndex _ t hg ht _ _ =>
    have : ∀ y, t ≠ '.' :: y := by
      rintro y rfl
      have := (decDigits_iff ht).2 _ (List.mem_cons_self ..)
      cases this
    exact .inl (by asc; exact key hg ht.1 this)
  | attrSplat hg => exact .inl (by asc; exact key hg nofun nofun)
  | fullSplat hg hh => exact .inr (key' (x := _ ++ c!"*" ++ _))
  | index hg ht hh => exact .inr (key' (x := _ ++ _ ++ _))

theorem step_idEnd {o : TravOp} {t : Str} (h : Step E.U E.bd o t) (r : Str) : IdEnd E.U (t ++ r) := by
  rcases step_starts h with ⟨c, cs, rfl, _⟩ | ⟨c, cs, rfl⟩ <;> exact idEnd_cons rfl

theorem step_solid {o : TravOp} {t : Str} (h : Step E.U E.bd o t) (r : Str) {b : Bool} : ¬ StartsTrivia b (t ++ r) := by
  rcases step_starts h with ⟨c, cs, rfl, _⟩ | ⟨c, cs, rfl⟩ <;> exact solid_starts rfl

theorem step_two {o : TravOp} {t : Str} (h : Step E.U E.bd o t) (r : Str) : startsTraversal (two (t ++ r)) = true := by
  rcases step_starts h with ⟨c, cs, rfl, hc⟩ | ⟨c, cs, rfl⟩
  · simp [two, startsTraversal, hc]
  · simp [two, startsTraversal]

theorem run_travOp (HG : Good E R m) {o : TravOp} {t r : Str} (h : Step E.U E.bd o t) (hm : t.length ≤ m)
    (hr : IdEnd E.U r) : Runs (traversalOperator E R) t r fun v => MeansTravOp E.U E.bd v o := by
  unfold traversalOperator
  cases h with
  | @getAttr x g hg hx =>
    asc
    refine Runs.bind (t := ['.']) (u := g ++ x) runs_any ?_
    rintro _ rfl
    rw [if_pos rfl]
    refine runs_prefixDecorated (Q := fun v => MeansTravOp E.U E.bd v (.getAttr x))
      (runs_ws hg ((ident_starts hx).append _).solid) ?_ fun _ _ _ hv => (hv.mapMeta _).mapMeta _
    unfold dotOperator
    have hx' := hx
    obtain ⟨c, cs, rfl, hc, _⟩ := hx'
    have hc' := idFirst_iff.mpr hc
    have h1 : c ≠ '*' := by rintro rfl; rw [nonId_start rfl] at hc'; cases hc'
    have h2 : isDigit c = false := by
      cases hd : isDigit c with
      | false => rfl
      | true => rw [digit_not_start hd] at hc'; cases hc'
    refine peek_head ?_
    rw [if_neg h1, h2, if_neg (by decide), if_pos hc']
    refine Runs.bind_last (runs_ident hx hr) ?_
    rintro d hd
    rw [← hd]
    exact .pure .getAttr
  | @legacyIndex g t hg ht hv hz =>
    asc
    refine Runs.bind (t := ['.']) (u := g ++ t) runs_any ?_
    rintro _ rfl
    rw [if_pos rfl]
    obtain ⟨hne, hd⟩ := decDigits_iff ht
    obtain ⟨c, cs, rfl⟩ := List.exists_cons_of_ne_nil hne
    have hc := hd c (List.mem_cons_self ..)
    refine runs_prefixDecorated (Q := fun v => MeansTravOp E.U E.bd v (.legacyIndex (decVal (c :: cs))))
      (runs_ws hg (solid_starts (digit_solid hc))) ?_ fun _ _ _ hv => (hv.mapMeta _).mapMeta _
    unfold dotOperator
    refine peek_head ?_
    rw [if_neg (by rintro rfl; cases hc), if_pos hc]
    refine Runs.bind_last (runs_decUint ht hv hz fun c cs h => ?_) ?_
    · cases hd : isDigit c with
      | false => rfl
      | true => have := hr c cs h; rw [isDigit_continue hd] at this; cases this
    · rintro _ rfl
      exact .pure .legacyIndex
  | @attrSplat g hg =>
    asc
    refine Runs.bind (t := ['.']) (u := g ++ ['*']) runs_any ?_
    rintro _ rfl
    rw [if_pos rfl]
    refine runs_prefixDecorated (Q := fun v => MeansTravOp E.U E.bd v .attrSplat)
      (runs_ws hg (solid_starts rfl)) ?_ fun _ _ _ hv => (hv.mapMeta _).mapMeta _
    unfold dotOperator
    refine peek_head ?_
    rw [if_pos rfl]
    exact Runs.bind_last runs_chr fun _ _ => .pure .attrSplat
  | @fullSplat g h hg hh =>
    rw [show c!"[" ++ g ++ c!"*" ++ h ++ c!"]" = ['['] ++ ((g ++ (c!"*" ++ h)) ++ [']']) by asc]
    refine Runs.bind runs_any ?_
    rintro _ rfl
    rw [if_neg (by decide), if_pos rfl]
    refine Runs.terminated ?_ runs_chr.cutErr
    refine runs_decorated (Q := fun v => MeansTravOp E.U E.bd v .fullSplat)
      (runs_ws hg (solid_starts rfl)) ?_ (runs_ws hh (solid_starts rfl)) fun _ _ _ hv => (hv.mapMeta _).mapMeta _
    unfold bracketOperator
    refine peek_head ?_
    rw [if_pos rfl]
    exact Runs.bind_last runs_chr fun _ _ => .pure .fullSplat
  | @index e g t h hg ht hh =>
    simp only [List.length_append, List.length_cons, List.length_nil] at hm
    rw [show c!"[" ++ g ++ t ++ h ++ c!"]" = ['['] ++ ((g ++ (t ++ h)) ++ [']']) by asc]
    refine Runs.bind runs_any ?_
    rintro _ rfl
    rw [if_neg (by decide), if_pos rfl]
    refine Runs.terminated ?_ runs_chr.cutErr
    have hs := full_starts ht
    refine runs_decorated (Q := fun v => MeansTravOp E.U E.bd v (.index e))
      (runs_ws hg (hs.append _).solid) ?_ (runs_ws hh (solid_starts rfl)) fun _ _ _ hv => (hv.mapMeta _).mapMeta _
    have hrun := HG.expr ht (by omega) (b := true) (r := h ++ (c!"]" ++ r)) id
      (folE_of (hh.mono fun _ => rfl) (quiet_calm rfl) (.inl (idEnd_cons rfl)))
    have hne := hs.ne (d := '*') rfl
    obtain ⟨c, cs, rfl, _⟩ := hs
    unfold bracketOperator
    refine peek_head ?_
    rw [if_neg (fun h => hne cs (by rw [h]))]
    exact Runs.bind_last hrun fun v hv => .pure (.index hv)

/-- A traversal operator and what is in front of it. -/
theorem run_travStep (HG : Good E R m) {f : Bool} {o : TravOp} {g t r : Str} (hg : Gap f g)
    (h : Step E.U E.bd o t) (hm : t.length ≤ m) (hr : IdEnd E.U r) :
    Runs (traversalStep E R f) (g ++ t) r fun v => ∃ mm p, v = .mk mm p ∧ MeansTravOp E.U E.bd p o := by
  unfold traversalStep
  refine runs_prefixDecorated (Q := fun v => ∃ mm p, v = .mk mm p ∧ MeansTravOp E.U E.bd p o) (runs_gap hg (step_solid h r)) ?_ ?_
  · refine Runs.bind_nil (Backs.notP (backs_tag ?_)) fun _ _ => Runs.map ?_
    · rintro ⟨z, hz⟩
      rcases step_starts h with ⟨c, cs, rfl, hc⟩ | ⟨c, cs, rfl⟩
      · injection hz with _ hz
        injection hz with hz _
        exact hc hz.symm
      · injection hz with hz _
        cases hz
    · exact (run_travOp HG h hm hr).conseq fun v hv => ⟨_, _, rfl, hv⟩
  · rintro _ f f' ⟨mm, p, rfl, hp⟩
    exact ⟨_, _, rfl, hp⟩

theorem steps_pos {nl : Bool} {os : List TravOp} {u : Str} (h : Steps E.U E.bd nl os u) :
    ∃ g w, u = g ++ w ∧ Gap nl g ∧ ∃ o t w', w = t ++ w' ∧ Step E.U E.bd o t := by
  cases h with
  | @one _ _ g t hg ht => exact ⟨g, t, rfl, hg, _, t, [], (List.append_nil _).symm, ht⟩
  | @cons _ _ _ g t u hg ht _ => exact ⟨g, t ++ u, List.append_assoc .., hg, _, t, u, rfl, ht⟩

theorem steps_idEnd {nl : Bool} {os : List TravOp} {u : Str} (h : Steps E.U E.bd nl os u) (r : Str) :
    IdEnd E.U (u ++ r) := by
  obtain ⟨g, w, rfl, hg, o, t, w', rfl, ht⟩ := steps_pos h
  asc
  exact gap_idEnd hg (.inl (step_idEnd ht _))

theorem backs_travStep {f : Bool} {r : Str} (hr : FolT E.U f r) : Backs (traversalStep E R f) r := by
  obtain ⟨-, g, u, rfl, hg, hu⟩ := hr
  unfold traversalStep prefixDecorated
  refine Runs.bind_backs (runs_over hg hu.triv).spanOf fun _ _ => Backs.bind (Backs.map (Backs.withSpan ?_))
  unfold P.preceded
  by_cases hd : ∃ r', u = '.' :: '.' :: r'
  · obtain ⟨r', rfl⟩ := hd
    exact Backs.bind (Runs.notP (t := c!"..") runs_tag)
  · refine Runs.bind_backs (t := []) (Backs.notP (backs_tag ?_)) fun _ _ => Backs.map ?_
    · rintro ⟨z, rfl⟩
      exact hd ⟨z, rfl⟩
    · unfold traversalOperator
      cases u with
      | nil => exact Backs.bind backs_any
      | cons c u =>
        refine Runs.bind_backs (t := [c]) runs_any ?_
        rintro _ rfl
        rw [if_neg, if_neg]
        · exact backs_fail
        · rintro rfl; exact hu.brack _ rfl
        · rintro rfl
          obtain ⟨r', rfl⟩ := hu.dot _ rfl
          exact hd ⟨r', rfl⟩

theorem run_steps (HG : Good E R m) {f nl : Bool} (hb : nl = true → f = true) {r : Str} (hr : FolT E.U f r) :
    ∀ {os : List TravOp} {u : Str}, Steps E.U E.bd nl os u → u.length ≤ m →
    Reps (traversalStep E R f) (fun vs => MeansTravs E.U E.bd vs os) u r := by
  intro os
  induction os with
  | nil => intro u h; cases h
  | cons o os ih =>
    intro u h hm
    cases h with
    | @one _ _ g t hg ht =>
      simp only [List.length_append] at hm
      have hne : g ++ t ≠ [] := by
        intro hx
        rcases step_starts ht with ⟨c, cs, rfl, _⟩ | ⟨c, cs, rfl⟩ <;> simp at hx
      rw [← List.append_nil (g ++ t)]
      refine .cons hne (run_travStep HG (hg.mono hb) ht (by omega) hr.1) ?_
      rintro _ ⟨mm, p, rfl, hp⟩
      exact .nil (backs_travStep hr) (.cons hp .nil)
    | @cons _ _ _ g t u hg ht hs =>
      simp only [List.length_append] at hm
      have hne : g ++ t ≠ [] := by
        intro hx
        rcases step_starts ht with ⟨c, cs, rfl, _⟩ | ⟨c, cs, rfl⟩ <;> simp at hx
      refine .cons hne (run_travStep HG (hg.mono hb) ht (by omega) (steps_idEnd hs r)) ?_
      rintro _ ⟨mm, p, rfl, hp⟩
      exact (ih hs (by omega)).conseq fun vs hvs => .cons hp hvs

/-- The first operator comes right after the whitespace that was looked at. -/
theorem run_traversal (HG : Good E R m) {f nl : Bool} (hb : nl = true → f = true) {r : Str} (hr : FolT E.U f r)
    {os : List TravOp} {u : Str} (h : Steps E.U E.bd nl os u) (hm : u.length ≤ m) :
    ∃ g w, u = g ++ w ∧ Gap f g ∧ ¬ StartsTrivia f (w ++ r) ∧ startsTraversal (two (w ++ r)) = true ∧
      Runs (traversal E R f) w r fun vs => MeansTravs E.U E.bd vs os := by
  cases h with
  | @one _ o g t hg ht =>
    simp only [List.length_append] at hm
    refine ⟨g, t, rfl, hg.mono hb, step_solid ht r, step_two ht r, ?_⟩
    rw [← List.append_nil t]
    refine Reps.runs1 (run_travStep HG (g := []) .nil ht (by omega) hr.1) ?_
    rintro _ ⟨mm, p, rfl, hp⟩
    exact .nil (backs_travStep hr) (.cons hp .nil)
  | @cons _ o os g t u hg ht hs =>
    simp only [List.length_append] at hm
    refine ⟨g, t ++ u, List.append_assoc .., hg.mono hb, by rw [List.append_assoc]; exact step_solid ht _,
      by rw [List.append_assoc]; exact step_two ht _, ?_⟩
    refine Reps.runs1 (run_travStep HG (g := []) .nil ht (by omega) (steps_idEnd hs r)) ?_
    rintro _ ⟨mm, p, rfl, hp⟩
    exact (run_steps HG hb hr hs (by omega)).conseq fun vs hvs => .cons hp hvs

/-! ### Operands -/

/-- What the parser returns for an operand: the flag is at most set because of the operand. -/
def OperandQ (E : PEnv) (b : Bool) (e : Expr) (v : EExpr × Bool) : Prop :=
  Means E.U E.bd v.1 e ∧ (b = true → v.2 = true) ∧ (v.2 = true → (b || opens e) = true)

theorem quiet_two {b : Bool} {u : Str} (h : QuietT b u) : startsTraversal (two u) = false := by
  cases u with
  | nil => rfl
  | cons c u =>
    cases u with
    | nil => rfl
    | cons d u =>
      have h1 : c ≠ '[' := by rintro rfl; exact h.brack _ rfl
      by_cases h2 : c = '.'
      · subst h2
        obtain ⟨r', hr'⟩ := h.dot _ rfl
        injection hr' with hr' _
        subst hr'
        rfl
      · simp [two, startsTraversal, h1, h2]

/-- An operand without a traversal after it. -/
theorem run_core {b f : Bool} {e : Expr} {t r : Str} (hr : FolT E.U f r)
    (h : Runs (termCore E R b) t r fun v => Means E.U E.bd v.1 e ∧ v.2 = f)
    (h1 : b = true → f = true) (h2 : f = true → (b || opens e) = true) :
    Runs (termInner E R b) t r (OperandQ E b e) := by
  obtain ⟨-, g, u, rfl, hg, hu⟩ := hr
  unfold termInner
  refine runs_getInput fun start => ?_
  refine Runs.bind_last h.withSpan ?_
  rintro ⟨⟨v, f'⟩, s⟩ ⟨hv, hf⟩
  dsimp only at hv hf
  subst hf
  refine runs_look_back (t := []) (runs_over hg hu.triv) rfl
    (p := fun _ _ => P.pure (v.setSpan s, f')) ?_ fun _ _ => .pure ⟨hv.mapMeta _, h1, h2⟩
  intro cp s'
  rw [quiet_two hu]
  rfl

theorem backs_num {u : Str} (h : ∀ c cs, u = c :: cs → isDigit c = false) : Backs num u := by
  unfold num
  refine Backs.alt (Backs.verifyMap ?_) (Backs.map (Backs.verifyMap (backs_takeWhile1 h)))
  unfold float
  exact Backs.bind (backs_takeWhile1 h)

theorem den_unary {o : UnOp} {mm : Meta} {s : Option Span} {v : EExpr} {e : Expr} (h : Means E.U E.bd v e) :
    Means E.U E.bd (.unary mm s o v) (.unary o e) := .unary h

theorem run_unaryOp (HG : Good E R m) {b nl : Bool} (hb : nl = true → b = true) {o : UnOp} {e : Expr} {g t r : Str}
    (hg : Gap false g) (ht : Term E.U E.bd nl e t) (hm : t.length < m) (hr : FolT E.U (b || opens e) r) :
    Runs (unaryOp R b) (o.asStr ++ (g ++ t)) r fun v => Means E.U E.bd v (.unary o e) := by
  unfold unaryOp
  have ho : Runs unaryOperator o.asStr ((g ++ t) ++ r) fun v => v = o := by
    unfold unaryOperator
    cases o with
    | neg =>
      refine Runs.bind (t := ['-']) (u := []) runs_any ?_
      rintro _ rfl
      exact .pure rfl
    | not =>
      refine Runs.bind (t := ['!']) (u := []) runs_any ?_
      rintro _ rfl
      exact .pure rfl
  refine Runs.bind ho.withSpan ?_
  rintro ⟨_, s⟩ rfl
  refine Runs.bind_last (runs_prefixDecorated (Q := fun v => Means E.U E.bd v e) (R := fun v => Means E.U E.bd v e)
    (runs_sp hg ((term_starts ht).append r).solid)
    (HG.term ht hm hb hr) fun _ _ _ hv => (hv.mapMeta _).mapMeta _) fun v hv => ?_
  exact .pure (den_unary hv)

theorem den_trav {mm : Meta} {v : EExpr} {vs : List ETrav} {e : Expr} {os : List TravOp} (h : Means E.U E.bd v e)
    (hs : MeansTravs E.U E.bd vs os) : Means E.U E.bd (.trav mm v vs) (.traversal e os) :=
  .trav h hs

theorem run_term (HG : Good E R m) {b nl : Bool} (hb : nl = true → b = true) {e : Expr} {t r : Str}
    (h : Term E.U E.bd nl e t) (hm : t.length ≤ m) (hr : FolT E.U (b || opens e) r) :
    Runs (termInner E R b) t r (OperandQ E b e) := by
  cases h with
  | atom h =>
    exact run_core hr (run_atom HG hb h hm (hr.down fun h => by rw [h]; rfl).toA fun _ => hr.numEnd)
      (fun h => by rw [h]; rfl) id
  | @trav _ e os t u h hs hn =>
    simp only [List.length_append] at hm
    have ho : opens (.traversal e os) = opens e := by simp only [opens]
    rw [ho] at hr
    have hb' : (nl || opens e) = true → (b || opens e) = true := by
      intro h
      rw [Bool.or_eq_true] at h ⊢
      exact h.imp_left hb
    obtain ⟨g, w, rfl, hg, hw, htw, hrun⟩ := run_traversal HG hb' hr hs (by omega)
    have hid := steps_idEnd hs r
    have hA : FolA E.U b ((g ++ w) ++ r) := by
      refine FolA.down (b := b || opens e) ⟨hid, g, w ++ r, List.append_assoc .., hg.over _, hw, ?_, ?_⟩ fun h => by rw [h]; rfl
      · intro x hx
        rw [hx] at htw
        cases x <;> cases htw
      · intro x hx
        rw [hx] at htw
        cases htw
    have hN : isNumber e = true → NumEnd ((g ++ w) ++ r) := by
      intro hx
      refine numEnd_of hid fun d ds hd => ?_
      obtain ⟨g', w', hgw, hg', o, t', w'', rfl, hstep⟩ := steps_pos hs
      have hd' := hd
      rw [hgw] at hd'
      cases g' with
      | cons c g' =>
        injection hd' with hd' _
        subst hd'
        rcases gap_head hg' _ _ rfl with h | h | h | h | h | h <;> cases h
      | nil =>
        rcases step_starts hstep with ⟨c, cs, rfl, hc⟩ | ⟨c, cs, rfl⟩
        · injection hd' with _ hd'
          injection hd' with hd' _
          subst hd'
          exact digit_of_spec (hn hx _ _ hgw)
        · injection hd' with hd' _
          cases hd'
    have hcore := run_atom (r := (g ++ w) ++ r) HG hb h (by omega) hA hN
    unfold termInner
    refine runs_getInput fun start => ?_
    refine Runs.bind hcore.withSpan ?_
    rintro ⟨⟨v, f'⟩, s⟩ ⟨hv, hf⟩
    dsimp only at hv hf
    subst hf
    refine runs_look_go (runs_gap hg hw) fun cp s => ?_
    rw [htw, if_pos rfl]
    refine Runs.bind_last hrun.withSpan ?_
    rintro ⟨vs, s'⟩ hvs
    dsimp only at hvs
    refine .pure ⟨?_, fun h => by rw [h]; rfl, fun h => by rw [ho]; exact h⟩
    exact (den_trav ((hv.mapMeta _).mapMeta _) hvs).mapMeta _
  | @unary _ o e g t hg ht hn =>
    simp only [List.length_append] at hm
    have ho : opens (.unary o e) = opens e := by simp only [opens]
    rw [ho] at hr
    have hlen : 0 < o.asStr.length := by cases o <;> decide
    have hrun := run_unaryOp HG hb (o := o) hg ht (by omega) hr
    rw [List.append_assoc]
    refine run_core (f := b) (hr.down fun h => by rw [h]; rfl) ?_ id (fun h => by rw [h]; rfl)
    unfold termCore
    cases o with
    | neg =>
      refine peek_head (c := '-') (cs := g ++ t) ?_
      rw [if_neg (by decide), if_neg (by decide), if_neg (by decide), if_neg (by decide), if_neg (by decide), if_pos rfl]
      refine Runs.map (Runs.alt_right ?_ (hrun.conseq fun v hv => ⟨hv, rfl⟩))
      unfold negNumber
      refine Backs.bind (Backs.withTaken ?_)
      refine Runs.bind_backs (t := ['-']) (r := (g ++ t) ++ r) runs_chr fun _ _ => ?_
      rw [List.append_assoc]
      refine Runs.bind_backs (runs_sp hg ((term_starts ht).append r).solid) fun _ _ => backs_num ?_
      intro c cs hc
      obtain ⟨d, ds, rfl, _⟩ := term_starts ht
      injection hc with hc _
      subst hc
      exact digit_of_spec (hn rfl _ _ rfl)
    | not =>
      refine peek_head (c := '!') (cs := g ++ t) ?_
      rw [if_neg (by decide), if_neg (by decide), if_neg (by decide), if_neg (by decide), if_neg (by decide),
        if_neg (by decide), if_pos rfl]
      exact Runs.map (hrun.conseq fun v hv => ⟨hv, rfl⟩)

end Verif.Gram
