import Verif.Lemmas.RunTerm
import Verif.Lemmas.RunLit
/-! Running the parser on templates. -/

namespace Verif.Gram
open P Spec Syn

variable {E : PEnv} {R : PRec} {m : Nat}

/-! ### Control sequences -/

theorem tail_quiet {i : Strip} {r : Str} {b : Bool} : QuietE b (closeTilde i ++ (c!"}" ++ r)) := by
  cases i <;> exact quiet_calm rfl

theorem tail_idEnd {i : Strip} {r : Str} : IdEnd E.U (closeTilde i ++ (c!"}" ++ r)) := by
  cases i <;> exact idEnd_cons rfl

theorem run_tilde {i : Strip} {u : Str} (hu : ∀ k, u ≠ '~' :: k) :
    Runs (P.opt (chr '~')) (openTilde i) u fun o => o.isSome = !(openTilde i).isEmpty := by
  have h0 : Runs (P.opt (chr '~')) [] u fun o => o.isSome = false := Backs.opt (backs_chr hu) rfl
  have h1 : Runs (P.opt (chr '~')) c!"~" u fun o => o.isSome = true := Runs.opt runs_chr fun _ _ => rfl
  cases i
  · exact h0
  · exact h1
  · exact h0
  · exact h1

theorem run_tilde' {i : Strip} {u : Str} (hu : ∀ k, u ≠ '~' :: k) :
    Runs (P.opt (chr '~')) (closeTilde i) u fun o => o.isSome = !(closeTilde i).isEmpty := by
  have h0 : Runs (P.opt (chr '~')) [] u fun o => o.isSome = false := Backs.opt (backs_chr hu) rfl
  have h1 : Runs (P.opt (chr '~')) c!"~" u fun o => o.isSome = true := Runs.opt runs_chr fun _ _ => rfl
  cases i
  · exact h0
  · exact h0
  · exact h1
  · exact h1

theorem ofBools_tilde (i : Strip) : Strip.ofBools (!(openTilde i).isEmpty) (!(closeTilde i).isEmpty) = i := by
  cases i <;> rfl

/-- A control sequence. -/
theorem run_control {α : Type} {intro : Str} {p : P α} {i : Strip} {u r : Str} {Q : α → Prop}
    (hp : Runs p u (closeTilde i ++ (c!"}" ++ r)) Q) (hu : ∀ k, u ++ (closeTilde i ++ (c!"}" ++ r)) ≠ '~' :: k) :
    Runs (control intro p) (intro ++ (openTilde i ++ (u ++ (closeTilde i ++ c!"}")))) r fun v => Q v.1 ∧ v.2 = i := by
  unfold control
  refine Runs.bind runs_tag fun _ _ => ?_
  refine Runs.bind (run_tilde (by asc; exact hu)) fun a ha => ?_
  refine Runs.bind (t := u) (u := closeTilde i ++ c!"}") (by asc; exact hp) fun o ho => ?_
  refine Runs.bind (run_tilde' (by asc; intro k hk; injection hk with hk _; cases hk)) fun b hb => ?_
  refine runs_chr.cutErr.bind_last fun _ _ => .pure ⟨ho, ?_⟩
  show Strip.ofBools a.isSome b.isSome = i
  rw [ha, hb, ofBools_tilde]

/-- A control sequence with another introduction. -/
theorem backs_control_intro {α : Type} {intro : Str} {p : P α} {u : Str} (h : ¬ intro <+: u) :
    Backs (control intro p) u := Backs.bind (backs_tag h)

/-- A control sequence whose content is not accepted. -/
theorem backs_control {α : Type} {intro : Str} {p : P α} {i : Strip} {u : Str} (hp : Backs p u)
    (hu : ∀ k, u ≠ '~' :: k) : Backs (control intro p) (intro ++ (openTilde i ++ u)) := by
  unfold control
  refine Runs.bind_backs runs_tag fun _ _ => ?_
  exact Runs.bind_backs (run_tilde hu) fun a ha => Backs.bind hp

/-! ### Directives that consist of a keyword -/

theorem kw_solid {kw u : Str} {c : Char} {cs : Str} (h : kw = c :: cs) (hc : solid c = true) {b : Bool} :
    ¬ StartsTrivia b (kw ++ u) := by
  subst h; exact solid_starts hc

theorem run_marker {kw : Str} {p : P Unit} {c : Char} {cs : Str} {i : Strip} {z r : Str} (h : Mark kw i z)
    (hk : kw = c :: cs) (hc : solid c = true) (hc' : c ≠ '~') (hp : ∀ {u}, Runs p kw u fun _ => True) :
    Runs (marker p) z r fun v => v.2 = i := by
  obtain ⟨hg, hh⟩ := h
  rename_i g h
  unfold marker
  simp only [List.append_assoc]
  rw [show g ++ (kw ++ (h ++ (closeTilde i ++ c!"}"))) = (g ++ (kw ++ h)) ++ (closeTilde i ++ c!"}") by asc]
  refine (run_control (Q := fun _ => True) ?_ ?_).conseq fun v hv => hv.2
  · refine Runs.bind (runs_rawWs hg (by asc; exact kw_solid hk hc)) fun _ _ => ?_
    refine Runs.bind hp fun _ _ => ?_
    exact (runs_rawWs hh tail_quiet.triv).bind_last fun _ _ => .pure trivial
  · asc
    refine gap_ne hg rfl ?_
    subst hk
    intro x hx
    injection hx with hx _
    exact hc' hx

/-- A directive with another keyword. -/
theorem backs_kw {α : Type} {kw kw' : Str} {f : Raw → Unit → P α} {c : Char} {cs : Str} {i : Strip} {z r : Str} (h : Mark kw i z)
    (hk : kw = c :: cs) (hc : solid c = true) (hc' : c ≠ '~') (hne : ∀ u, ¬ kw' <+: kw ++ u) :
    Backs (control c!"%{" (P.bind (rawString ws) fun a => P.bind (tag kw') fun b => f a b)) (z ++ r) := by
  obtain ⟨hg, hh⟩ := h
  rename_i g h
  simp only [List.append_assoc]
  refine backs_control ?_ ?_
  · exact Runs.bind_backs (runs_rawWs hg (kw_solid hk hc)) fun _ _ => Backs.bind (backs_tag (hne _))
  · refine gap_ne hg rfl ?_
    subst hk
    intro x hx
    injection hx with hx _
    exact hc' hx

theorem not_prefix_cons {c d : Char} {t u : Str} (h : c ≠ d) : ¬ c :: t <+: d :: u := by
  rintro ⟨k, hk⟩
  injection hk with hk _
  exact h hk

theorem not_prefix_cons₂ {c a b : Char} {t u : Str} (h : a ≠ b) : ¬ c :: a :: t <+: c :: b :: u := by
  rintro ⟨k, hk⟩
  injection hk with _ hk
  injection hk with hk _
  exact h hk

theorem mark_head {kw : Str} {i : Strip} {z : Str} (h : Mark kw i z) : ∃ k, z = '%' :: '{' :: k := by
  obtain ⟨hg, hh⟩ := h
  simp only [List.append_assoc]
  exact ⟨_, rfl⟩

theorem backs_interpolation {k : Str} : Backs (interpolation R) ('%' :: k) :=
  Backs.bind (backs_control_intro (not_prefix_cons (by decide)))

/-- Neither a literal nor a control sequence starts at the end of a template. -/
theorem backs_tmplEnd {r : Str} (h : TmplEnd r) : Backs (P.alt (interpolation R) (directive E R)) r := by
  obtain ⟨kw, i, z, u, hkw, hz, rfl⟩ := h
  refine Backs.alt ?_ (Backs.alt ?_ ?_)
  · obtain ⟨k, rfl⟩ := mark_head hz
    exact backs_interpolation
  · simp only [List.mem_cons, List.not_mem_nil, or_false] at hkw
    refine Backs.bind ?_
    rcases hkw with rfl | rfl | rfl <;>
      exact backs_kw hz rfl rfl (by decide) fun _ => not_prefix_cons (by decide)
  · simp only [List.mem_cons, List.not_mem_nil, or_false] at hkw
    refine Backs.bind ?_
    rcases hkw with rfl | rfl | rfl <;>
      exact backs_kw hz rfl rfl (by decide) fun _ => not_prefix_cons (by decide)

theorem backs_other {c : Char} {r : Str} (h : ¬ Sigil c) : Backs (P.alt (interpolation R) (directive E R)) (c :: r) := by
  have h1 : c ≠ '$' := fun h' => h (.inl h')
  have h2 : c ≠ '%' := fun h' => h (.inr h')
  exact Backs.alt (Backs.bind (backs_control_intro (not_prefix_cons (Ne.symm h1))))
    (Backs.alt (Backs.bind (backs_control_intro (not_prefix_cons (Ne.symm h2))))
      (Backs.bind (backs_control_intro (not_prefix_cons (Ne.symm h2)))))

theorem backs_end : Backs (P.alt (interpolation R) (directive E R)) [] :=
  Backs.alt (Backs.bind (backs_control_intro (by rintro ⟨k, hk⟩; cases hk)))
    (Backs.alt (Backs.bind (backs_control_intro (by rintro ⟨k, hk⟩; cases hk)))
      (Backs.bind (backs_control_intro (by rintro ⟨k, hk⟩; cases hk))))

/-! ### Control sequences of the specification -/

theorem control_head {e : Elem} {x : Str} (h : Control E.U E.bd e x) : ∃ c k, Sigil c ∧ x = c :: '{' :: k := by
  cases h with
  | interp => simp only [List.append_assoc]; exact ⟨'$', _, .inl rfl, rfl⟩
  | ifDir => simp only [List.append_assoc]; exact ⟨'%', _, .inr rfl, rfl⟩
  | forDir => simp only [List.append_assoc]; exact ⟨'%', _, .inr rfl, rfl⟩

theorem control_not_text {e : Elem} {x : Str} (h : Control E.U E.bd e x) : isText e = false := by
  cases h <;> rfl

theorem joined_long {x y r : Str} {a b : Char} {k : Str} (hy : y = a :: b :: k) (h : ¬ Joined x y) :
    ¬ Joined x (y ++ r) := by
  subst hy
  rintro ⟨c, h1, h2, j, hj⟩
  refine h ⟨c, h1, h2, k, ?_⟩
  injection hj with hj1 hj2
  injection hj2 with hj2 _
  rw [hj1, hj2]; rfl

/-- An interpolation. -/
theorem run_interp (HG : Good E R m) {e : Expr} {i : Strip} {g t h r : Str} (hg : Gap true g)
    (ht : Full E.U E.bd true e t) (hm : t.length < m) (hh : Gap true h) :
    Runs (interpolation R) (c!"${" ++ (openTilde i ++ (g ++ (t ++ (h ++ (closeTilde i ++ c!"}")))))) r
      fun v => MeansElem E.U E.bd v (.interp e i) := by
  unfold interpolation
  rw [show g ++ (t ++ (h ++ (closeTilde i ++ c!"}"))) = (g ++ (t ++ h)) ++ (closeTilde i ++ c!"}") by asc]
  refine Runs.bind_last (run_control (run_ws HG hg ht hm hh tail_quiet (.inl tail_idEnd)) ?_) ?_
  · asc
    exact gap_ne hg rfl (((full_starts ht).append _).ne rfl)
  · rintro ⟨v, s⟩ ⟨hv, rfl⟩
    exact .pure (.interp hv)

/-- An `if` directive up to its first template. -/
theorem run_ifIntro (HG : Good E R m) {c : Expr} {i : Strip} {g g' t h r : Str} (hg : Gap true g) (hg' : Gap true g')
    (ht : Full E.U E.bd false c t) (hm : t.length < m) (hh : Gap true h) :
    Runs (control c!"%{" (P.bind (rawString ws) fun p => P.bind (tag c!"if") fun _ =>
        P.bind (decorated ws (R.expr false) ws) fun c => P.pure (p, c)))
      (c!"%{" ++ (openTilde i ++ (g ++ (c!"if" ++ (g' ++ (t ++ (h ++ (closeTilde i ++ c!"}")))))))) r
      fun v => Means E.U E.bd v.1.2 c ∧ v.2 = i := by
  rw [show g ++ (c!"if" ++ (g' ++ (t ++ (h ++ (closeTilde i ++ c!"}"))))) =
    (g ++ (c!"if" ++ (g' ++ (t ++ h)))) ++ (closeTilde i ++ c!"}") by asc]
  refine run_control (Q := fun v : Raw × EExpr => Means E.U E.bd v.2 c) ?_ ?_
  · refine Runs.bind (runs_rawWs hg (solid_starts rfl)) fun _ _ => ?_
    refine Runs.bind runs_tag fun _ _ => ?_
    exact (run_ws HG hg' ht hm hh tail_quiet (.inl tail_idEnd)).bind_last fun _ hv => .pure hv
  · asc
    exact gap_ne hg rfl fun x hx => by injection hx with hx _; cases hx

/-- The second branch of an `if` directive. -/
theorem run_else (HG : Good E R m) {f : Option (List Elem)} {j k : Strip} {y z r : Str} (h : Else E.U E.bd f j y)
    (hm : y.length < m) (hz : Mark c!"endif" k z) (hj : ¬ Joined y z) :
    Runs (P.opt (elseExpr R)) y (z ++ r) fun v => MeansElse E.U E.bd v f j := by
  cases h with
  | none =>
    refine Backs.opt (Backs.bind ?_) .none
    exact backs_kw hz rfl rfl (by decide) fun _ => not_prefix_cons₂ (by decide)
  | @some es i z' x hz' hx =>
    refine Runs.opt (Q := fun v => MeansElse E.U E.bd (some v) (some es) j) ?_ fun _ hv => hv
    refine Runs.bind (run_marker hz' rfl rfl (by decide) runs_tag) ?_
    rintro ⟨⟨p, t⟩, s⟩ rfl
    rw [List.length_append] at hm
    obtain ⟨w, hw⟩ := mark_head hz
    refine (Runs.withSpan (HG.template hx (by omega) (.inr ⟨_, _, _, _, by simp, hz, rfl⟩)
      (joined_long hw (joined_append hj)))).bind_last ?_
    rintro ⟨vs, ts⟩ hv
    exact .pure (.some hv)

theorem else_end {f : Option (List Elem)} {j k : Strip} {y z : Str} (h : Else E.U E.bd f j y) (hz : Mark c!"endif" k z)
    (r : Str) : TmplEnd (y ++ (z ++ r)) ∧ ∃ w, y ++ z = '%' :: '{' :: w := by
  cases h with
  | none => exact ⟨⟨_, _, _, _, by simp, hz, rfl⟩, mark_head hz⟩
  | some hz' _ =>
    refine ⟨⟨_, _, _, _, by simp, hz', List.append_assoc ..⟩, ?_⟩
    obtain ⟨w, rfl⟩ := mark_head hz'
    exact ⟨_, rfl⟩

/-- The introduction of a `for` directive. -/
theorem run_forHead (HG : Good E R m) {k : Option Str} {v : Str} {c : Expr} {i : Strip} {g w g' t h r : Str}
    (hg : Gap true g) (hw : Vars E.U k v w) (hg' : Gap true g') (ht : Full E.U E.bd false c t) (hm : t.length < m)
    (hh : Gap true h) :
    Runs (control c!"%{" (P.bind (rawString ws) fun p => P.bind (tag c!"for") fun _ =>
        P.bind (decorated ws (cutIdent E.U) ws) fun a =>
        P.bind (P.opt (P.bind (chr ',') fun _ => decorated ws (cutIdent E.U) ws)) fun b =>
        P.bind (cutTag c!"in") fun _ =>
        P.bind (decorated ws (R.expr false) ws) fun c => P.pure (p, a, b, c)))
      (c!"%{" ++ (openTilde i ++ (g ++ (c!"for" ++ (w ++ (c!"in" ++ (g' ++ (t ++ (h ++ (closeTilde i ++ c!"}")))))))))) r
      fun x => (match k with
        | none => x.1.2.1.name = v ∧ x.1.2.2.1 = none
        | some k => x.1.2.1.name = k ∧ ∃ d : DIdent, x.1.2.2.1 = some d ∧ d.name = v) ∧
        Means E.U E.bd x.1.2.2.2 c ∧ x.2 = i := by
  rw [show g ++ (c!"for" ++ (w ++ (c!"in" ++ (g' ++ (t ++ (h ++ (closeTilde i ++ c!"}"))))))) =
    (g ++ (c!"for" ++ (w ++ (c!"in" ++ (g' ++ (t ++ h)))))) ++ (closeTilde i ++ c!"}") by asc]
  refine (run_control (Q := fun x : Raw × DIdent × Option DIdent × EExpr => (match k with
        | none => x.2.1.name = v ∧ x.2.2.1 = none
        | some k => x.2.1.name = k ∧ ∃ d : DIdent, x.2.2.1 = some d ∧ d.name = v) ∧
        Means E.U E.bd x.2.2.2 c) ?_ ?_).conseq fun x hx => ⟨hx.1.1, hx.1.2, hx.2⟩
  · refine Runs.bind (runs_rawWs hg (solid_starts rfl)) fun _ _ => ?_
    refine Runs.bind runs_tag fun _ _ => ?_
    cases hw with
    | @value _ g₁ h₁ hg₁ _ hv hh₁ hne₁ =>
      rw [show g₁ ++ v ++ h₁ ++ (c!"in" ++ (g' ++ (t ++ h))) = (g₁ ++ (v ++ h₁)) ++ (c!"in" ++ (g' ++ (t ++ h))) by asc]
      refine Runs.bind (runs_decIdent (x := v) (runs_ws hg₁ ((ident_starts hv).append _).solid)
        (runs_cutIdent hv (gap_idEnd hh₁ (.inr hne₁))) (runs_ws hh₁ (solid_starts rfl))) fun a ha => ?_
      refine Runs.bind_nil (Backs.opt (R := fun o => o = none) (Backs.bind (backs_chr fun cs h => by
        injection h with h _; cases h)) rfl) ?_
      rintro _ rfl
      refine Runs.bind runs_tag.cutErr fun _ _ => ?_
      exact (run_ws HG hg' ht hm hh tail_quiet (.inl tail_idEnd)).bind_last fun _ hv => .pure ⟨⟨ha, rfl⟩, hv⟩
    | @keyValue k _ g₁ h₁ g₂ h₂ hg₁ _ hk hh₁ hg₂ hv hh₂ hne₂ =>
      rw [show g₁ ++ k ++ h₁ ++ c!"," ++ g₂ ++ v ++ h₂ ++ (c!"in" ++ (g' ++ (t ++ h))) =
        (g₁ ++ (k ++ h₁)) ++ ((c!"," ++ (g₂ ++ (v ++ h₂))) ++ (c!"in" ++ (g' ++ (t ++ h)))) by asc]
      refine Runs.bind (runs_decIdent (x := k) (runs_ws hg₁ ((ident_starts hk).append _).solid)
        (runs_cutIdent hk (gap_idEnd hh₁ (.inl (idEnd_cons rfl)))) (runs_ws hh₁ (solid_starts rfl))) fun a ha => ?_
      refine Runs.bind (Runs.opt (R := fun o => ∃ d : DIdent, o = some d ∧ d.name = v)
        (Runs.bind runs_chr fun _ _ => runs_decIdent (x := v) (runs_ws hg₂ ((ident_starts hv).append _).solid)
        (runs_cutIdent hv (gap_idEnd hh₂ (.inr hne₂))) (runs_ws hh₂ (solid_starts rfl))) fun d hd => ⟨d, rfl, hd⟩) ?_
      rintro _ ⟨d, rfl, hd⟩
      refine Runs.bind runs_tag.cutErr fun _ _ => ?_
      exact (run_ws HG hg' ht hm hh tail_quiet (.inl tail_idEnd)).bind_last fun _ hv => .pure ⟨⟨ha, d, rfl, hd⟩, hv⟩
  · asc
    exact gap_ne hg rfl fun x hx => by injection hx with hx _; cases hx

/-- A control sequence. -/
theorem run_ctl (HG : Good E R m) {e : Elem} {x r : Str} (h : Control E.U E.bd e x) (hm : x.length ≤ m) :
    Runs (P.alt (interpolation R) (directive E R)) x r fun v => MeansElem E.U E.bd v e := by
  cases h with
  | interp hg ht hh =>
    simp only [List.append_assoc, List.length_append, List.length_cons, List.length_nil] at hm ⊢
    exact Runs.alt_left (run_interp HG hg ht (by omega) hh)
  | @ifDir c es f i j k g g' t h x y z hg hg' ht hh hx hy hz hj1 hj2 =>
    simp only [List.append_assoc, List.length_append, List.length_cons, List.length_nil] at hm ⊢
    refine Runs.alt_right backs_interpolation (Runs.alt_left ?_)
    unfold ifDirective
    rw [show c!"%{" ++ (openTilde i ++ (g ++ (c!"if" ++ (g' ++ (t ++ (h ++ (closeTilde i ++ (c!"}" ++ (x ++ (y ++ z)))))))))) =
      (c!"%{" ++ (openTilde i ++ (g ++ (c!"if" ++ (g' ++ (t ++ (h ++ (closeTilde i ++ c!"}")))))))) ++ (x ++ (y ++ z)) by asc]
    refine Runs.bind (run_ifIntro HG hg hg' ht (by omega) hh) ?_
    rintro ⟨⟨p, cv⟩, s⟩ ⟨hc, rfl⟩
    obtain ⟨he, w, hw⟩ := else_end hy hz r
    refine Runs.bind (Runs.withSpan (HG.template hx (by omega) (.inr (by asc; exact he)) (by
      exact joined_long hw hj1))) ?_
    rintro ⟨vs, ts⟩ hvs
    refine Runs.bind (run_else HG hy (by omega) hz hj2) fun ev hev => ?_
    refine (run_marker hz rfl rfl (by decide) runs_tag.cutErr).bind_last ?_
    rintro ⟨⟨ep, et⟩, s⟩ rfl
    exact .pure (.ifDir hc hvs hev)
  | @forDir k v c es i j g w g' t h x z hg hw hg' hne ht hh hx hz hj =>
    simp only [List.append_assoc, List.length_append, List.length_cons, List.length_nil] at hm ⊢
    have hnot : ∀ u, Backs (ifDirective R) (c!"%{" ++ (openTilde i ++ (g ++ (c!"for" ++ u)))) := fun u => Backs.bind
      (backs_control (Runs.bind_backs (runs_rawWs hg (solid_starts rfl)) fun _ _ => Backs.bind
        (backs_tag (not_prefix_cons (by decide)))) (gap_ne hg rfl fun x hx => by injection hx with hx _; cases hx))
    refine Runs.alt_right backs_interpolation (Runs.alt_right (by asc; exact hnot _) ?_)
    unfold forDirective
    rw [show c!"%{" ++ (openTilde i ++ (g ++ (c!"for" ++ (w ++ (c!"in" ++ (g' ++ (t ++ (h ++ (closeTilde i ++ (c!"}" ++ (x ++ z))))))))))) =
      (c!"%{" ++ (openTilde i ++ (g ++ (c!"for" ++ (w ++ (c!"in" ++ (g' ++ (t ++ (h ++ (closeTilde i ++ c!"}")))))))))) ++ (x ++ z) by asc]
    refine Runs.bind (run_forHead HG hg hw hg' ht (by omega) hh) ?_
    rintro ⟨⟨p, a, b, cv⟩, s⟩ ⟨hk, hc, rfl⟩
    obtain ⟨w', hw'⟩ := mark_head hz
    refine Runs.bind (Runs.withSpan (HG.template hx (by omega) (.inr ⟨_, _, _, _, by simp, hz, rfl⟩)
      (joined_long hw' hj))) ?_
    rintro ⟨vs, ts⟩ hvs
    refine (run_marker hz rfl rfl (by decide) runs_tag.cutErr).bind_last ?_
    rintro ⟨⟨ep, et⟩, s⟩ rfl
    cases k with
    | none =>
      obtain ⟨rfl, rfl⟩ := hk
      exact .pure (.forDir (k := none) hc hvs)
    | some k =>
      obtain ⟨rfl, d, rfl, rfl⟩ := hk
      exact .pure (.forDir (k := some a) hc hvs)

/-! ### The elements of a template -/

theorem mark_litStop {q : Bool} {Stop : Str → Prop} (h1 : ∀ u, StartsMark u → Stop u)
    (h2 : q = true → ∀ k, Stop ('\\' :: k)) {u : Str} (h : StartsMark u) : LitStop q Stop u := by
  obtain ⟨c, r, hc, rfl⟩ := h
  refine ⟨?_, .inl (h1 _ ⟨c, r, hc, rfl⟩), ?_, h2⟩
  · rintro ⟨d, k, hd, hk⟩
    injection hk with hk1 hk
    injection hk with hk _
    rcases hd with rfl | rfl <;> cases hk
  · intro _ k hk
    injection hk with hk _
    exact (sigil_ne hc).2 hk

/-- What the elements of a template are parsed with. Literal text ends in front of what is `Bad`. -/
structure LitOK (E : PEnv) (q : Bool) (e : P Unit) (Stop Bad : Str → Prop) : Prop where
  ends : Ends e Stop
  mark : ∀ u, StartsMark u → Stop u
  slash : q = true → ∀ k, Stop ('\\' :: k)
  run : ∀ {x v r}, LitText q x v → ¬ Joined x r → (∀ k, r ≠ '{' :: k) →
    (∀ y, y ≠ [] → y <:+ x → ¬ Bad (y ++ r)) → LitRun q Stop r x v

theorem litOK_quoted : LitOK E true quotedEnd StartsEnd fun _ => False :=
  ⟨ends_quoted, fun _ h => .inr (.inr h), fun _ _ => .inr (.inl ⟨_, rfl⟩), fun h hj hr _ => litRun_quoted h hj hr⟩

theorem litOK_plain : LitOK E false templateEnd StartsMark fun _ => False :=
  ⟨ends_template, fun _ h => h, nofun, fun h hj hr _ => litRun_plain _ h hj hr⟩

/-- Not a literal without a span. -/
def Placed (v : EElem) : Prop := ∀ s, v ≠ .lit none s

theorem setSpan_placed (v : EElem) (s : Span) : Placed (v.setSpan s) := by
  cases v <;> nofun

theorem tmpl_head {q : Bool} {es : List Elem} {t : Str} (h : Tmpl E.U E.bd q es t) (he : ∀ e ∈ es.head?, isText e = false) :
    (es = [] ∧ t = []) ∨ StartsMark t := by
  cases h with
  | nil => exact .inl ⟨rfl, rfl⟩
  | lit => exact absurd (he _ rfl) (by simp [isText])
  | control h _ =>
    obtain ⟨c, k, hc, rfl⟩ := control_head h
    exact .inr ⟨c, _, hc, rfl⟩

theorem StartsMark.append {t : Str} (h : StartsMark t) (r : Str) : StartsMark (t ++ r) := by
  obtain ⟨c, k, hc, rfl⟩ := h
  exact ⟨c, _, hc, rfl⟩

theorem StartsMark.ne {t : Str} (h : StartsMark t) : ∀ k, t ≠ '{' :: k := by
  obtain ⟨c, k, hc, rfl⟩ := h
  intro j hj
  injection hj with hj _
  rcases hc with rfl | rfl <;> cases hj

/-- The elements of a template in front of `r`. -/
theorem elems_reps (HG : Good E R m) {q : Bool} {e : P Unit} {Stop Bad : Str → Prop} (HL : LitOK E q e Stop Bad)
    {r : Str} (hr : LitStop q Stop r) (hr' : ∀ k, r ≠ '{' :: k) (hb : Backs (P.alt (interpolation R) (directive E R)) r) :
    ∀ {es : List Elem} {t : Str}, Tmpl E.U E.bd q es t → t.length ≤ m → ¬ Joined t r →
      (∀ y, y ≠ [] → y <:+ t → ¬ Bad (y ++ r)) →
      Reps (element E R (buildString (litFragment q e))) (fun vs => MeansElems E.U E.bd vs es ∧ ∀ v ∈ vs, Placed v) t r := by
  intro es
  induction es with
  | nil =>
    intro t h _ _ _
    cases h
    exact .nil (Backs.map (Backs.withSpan (Backs.alt (backs_lit HL.ends hr).map hb))) ⟨.nil, nofun⟩
  | cons el es ih =>
    intro t h hm hj hbad
    cases h with
    | @lit _ _ x v t hx hne hh hjt ht =>
      rw [List.length_append] at hm
      have hk : LitStop q Stop (t ++ r) ∧ (∀ k, t ++ r ≠ '{' :: k) ∧ ¬ Joined x (t ++ r) := by
        rcases tmpl_head ht hh with ⟨rfl, rfl⟩ | hs
        · exact ⟨hr, hr', by rw [List.append_nil] at hj; exact hj⟩
        · refine ⟨mark_litStop HL.mark HL.slash (hs.append _), (hs.append _).ne, ?_⟩
          obtain ⟨c, k, hc, rfl⟩ := hs
          exact joined_long rfl hjt
      have hx' := HL.run hx hk.2.2 hk.2.1 fun y hy ⟨a, ha⟩ => by
        rw [← List.append_assoc]
        exact hbad _ (by simp [hy]) ⟨a, by rw [← ha, List.append_assoc]⟩
      refine .cons hne (Q := fun w => MeansElem E.U E.bd w (.lit v) ∧ Placed w) ?_ fun w hw =>
        (ih ht (by omega) (joined_append hj) fun y hy h => hbad y hy (h.trans ⟨x, rfl⟩)).conseq fun vs hvs =>
          ⟨.cons hw.1 hvs.1, List.forall_mem_cons.mpr ⟨hw.2, hvs.2⟩⟩
      refine Runs.map (((Runs.alt_left (Runs.map (Q := fun w => MeansElem E.U E.bd w (.lit v))
        ((run_lit HL.ends hk.1 hx' hne).conseq ?_))).withSpan).conseq ?_)
      · rintro _ rfl
        exact .lit
      · rintro ⟨w, s⟩ hw
        exact ⟨hw.setSpan _, setSpan_placed _ _⟩
    | @control _ _ _ x t hx ht =>
      rw [List.length_append] at hm
      obtain ⟨c, k, hc, hxk⟩ := control_head hx
      have hs : StartsMark (x ++ (t ++ r)) := by subst hxk; exact ⟨c, _, hc, rfl⟩
      refine .cons (by subst hxk; nofun) (Q := fun w => MeansElem E.U E.bd w el ∧ Placed w) ?_ fun w hw =>
        (ih ht (by omega) (joined_append hj) fun y hy h => hbad y hy (h.trans ⟨x, rfl⟩)).conseq fun vs hvs =>
          ⟨.cons hw.1 hvs.1, List.forall_mem_cons.mpr ⟨hw.2, hvs.2⟩⟩
      refine Runs.map (((Runs.alt_right (backs_lit HL.ends (mark_litStop HL.mark HL.slash hs)).map
        (run_ctl HG hx (by omega))).withSpan).conseq ?_)
      rintro ⟨w, s⟩ hw
      exact ⟨hw.setSpan _, setSpan_placed _ _⟩

/-- A template that is not in quotes. -/
theorem run_template (HG : Good E R m) {es : List Elem} {t r : Str} (h : Tmpl E.U E.bd false es t) (hm : t.length ≤ m)
    (hr : r = [] ∨ TmplEnd r) (hj : ¬ Joined t r) : Runs (template E R) t r fun v => MeansElems E.U E.bd v es := by
  unfold template
  rw [templateFragment_eq]
  unfold elements
  refine ((elems_reps HG litOK_plain ?_ ?_ ?_ h hm hj fun _ _ _ => id).conseq fun _ h => h.1).runs
  · rcases hr with rfl | ⟨kw, i, z, u, -, hz, rfl⟩
    · exact ⟨fun ⟨c, k, _, hk⟩ => (by cases hk), .inr rfl, nofun, nofun⟩
    · obtain ⟨k, rfl⟩ := mark_head hz
      exact mark_litStop (fun _ h => h) (fun h => by cases h) ⟨'%', _, .inr rfl, rfl⟩
  · rcases hr with rfl | ⟨kw, i, z, u, -, hz, rfl⟩
    · nofun
    · obtain ⟨k, rfl⟩ := mark_head hz
      intro j hj
      injection hj with hj _
      cases hj
  · rcases hr with rfl | hr
    · exact backs_end
    · exact backs_tmplEnd hr

theorem quote_litStop (r : Str) : LitStop true StartsEnd ('"' :: r) := by
  refine ⟨?_, .inl (.inl ⟨r, rfl⟩), fun _ k hk => (by injection hk with hk _; cases hk), fun _ _ => .inr (.inl ⟨_, rfl⟩)⟩
  rintro ⟨d, k, hd, hk⟩
  injection hk with hk _
  exact (sigil_ne hd).1 hk.symm

/-- A quoted template. -/
theorem run_stringTemplate (HG : Good E R m) {es : List Elem} {t r : Str} (h : Tmpl E.U E.bd true es t) (hm : t.length ≤ m) :
    Runs (stringTemplate E R) (c!"\"" ++ (t ++ c!"\"")) r fun v => MeansElems E.U E.bd v es := by
  unfold stringTemplate
  rw [quotedFragment_eq]
  refine Runs.delimited runs_chr ?_ runs_chr
  unfold elements
  refine ((elems_reps HG litOK_quoted (quote_litStop r) ?_ (backs_other ?_) h hm ?_ fun _ _ _ => id).conseq
    fun _ h => h.1).runs
  · intro k hk; injection hk with hk _; cases hk
  · rintro (h | h) <;> cases h
  · rintro ⟨c, hc, -, k, hk⟩
    injection hk with hk _
    exact (sigil_ne hc).1 hk

/-- A quoted template with a control sequence is not a string. -/
theorem backs_quotedString {es : List Elem} {t r : Str} (h : Tmpl E.U E.bd true es t) (hes : es.all isText = false) :
    Backs quotedString (c!"\"" ++ (t ++ r)) := by
  unfold quotedString
  refine Runs.bind_backs (t := c!"\"") runs_chr fun _ _ => ?_
  rw [quotedFragment_eq]
  have hmark : ∀ {u : Str}, StartsMark u → Backs (P.bind (chr '"') fun _ => (P.pure [] : P Str)) u ∧ ∀ cs, u ≠ '"' :: cs := by
    rintro u ⟨c, k, hc, rfl⟩
    have : ∀ cs, c :: '{' :: k ≠ '"' :: cs := fun cs hk => by injection hk with hk _; exact (sigil_ne hc).1 hk
    exact ⟨Backs.bind (backs_chr this), this⟩
  cases h with
  | nil => cases hes
  | @lit _ es x v t hx hne hh hjt ht =>
    rcases tmpl_head ht hh with ⟨rfl, rfl⟩ | hs
    · cases hes
    · rw [List.append_assoc]
      have hx' := run_lit ends_quoted (mark_litStop (fun _ h => .inr (.inr h)) (fun _ _ => .inr (.inl ⟨_, rfl⟩)) (hs.append r))
        (litRun_quoted hx (by obtain ⟨c, k, hc, rfl⟩ := hs; exact joined_long rfl hjt) (hs.append _).ne) hne
      exact Runs.bind_backs (hx'.opt (R := fun _ => True) fun _ _ => trivial) fun _ _ =>
        Backs.bind (backs_chr (hmark (hs.append r)).2)
  | @control _ _ _ x t hx ht =>
    obtain ⟨c, k, hc, rfl⟩ := control_head hx
    have hs : StartsMark (c :: '{' :: k ++ t ++ r) := ⟨c, _, hc, rfl⟩
    exact Runs.bind_backs (t := []) (Backs.opt (R := fun _ => True) (backs_lit ends_quoted
      (mark_litStop (fun _ h => .inr (.inr h)) (fun _ _ => .inr (.inl ⟨_, rfl⟩)) hs)) trivial) fun _ _ =>
        Backs.bind (backs_chr (hmark hs).2)

/-- A quoted template as an operand. -/
theorem run_stringlike (HG : Good E R m) {es : List Elem} {s t r : Str} (hs : Tmpl E.U E.bd false es s)
    (h : Tmpl E.U E.bd true es t) (hes : es.all isText = false) (hm : t.length ≤ m) :
    Runs (stringlike E R) (c!"\"" ++ (t ++ c!"\"")) r fun v => Means E.U E.bd v (.template (.quoted s)) :=
  Runs.alt_right (by asc; exact (backs_quotedString h hes).map)
    (Runs.map ((run_stringTemplate HG h hm).conseq fun _ hv => .template hv hs))

end Verif.Gram
