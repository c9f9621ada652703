import Verif.Lemmas.Heads
/-! Running the parser on the parts of operands. -/

namespace Verif.Gram
open P Spec Syn

/-- The text starts with a directive that ends the template in front of it. -/
def TmplEnd (r : Str) : Prop := ∃ kw i z u, kw ∈ [c!"else", c!"endif", c!"endfor"] ∧ Mark kw i z ∧ r = z ++ u

/-- The recursive parsers do what they should on all texts shorter than `m`. -/
structure Good (E : PEnv) (R : PRec) (m : Nat) : Prop where
  expr : ∀ {nl e t}, Full E.U E.bd nl e t → t.length < m → ∀ {b r}, (nl = true → b = true) →
    FolE E.U (b || opens e) r → Runs (R.expr b) t r fun v => Means E.U E.bd v e
  term : ∀ {nl e t}, Term E.U E.bd nl e t → t.length < m → ∀ {b r}, (nl = true → b = true) →
    FolT E.U (b || opens e) r → Runs (R.term b) t r fun v => Means E.U E.bd v e
  template : ∀ {es t}, Tmpl E.U E.bd false es t → t.length < m → ∀ {r}, r = [] ∨ TmplEnd r → ¬ Joined t r →
    Runs R.template t r fun v => MeansElems E.U E.bd v es

/-- Reassociates texts. -/
macro "asc" : tactic => `(tactic| simp only [List.append_assoc, List.cons_append, List.nil_append])

variable {E : PEnv} {R : PRec} {m : Nat}

/-- An expression with whitespace around it. -/
theorem run_ws (HG : Good E R m) {b : Bool} {e : Expr} {g t h r : Str} (hg : Gap true g)
    (ht : Full E.U E.bd b e t) (hm : t.length < m) (hh : Gap true h) (hq : QuietE true r)
    (hid : IdEnd E.U r ∨ h ≠ []) : Runs (decorated ws (R.expr b) ws) (g ++ (t ++ h)) r fun v => Means E.U E.bd v e :=
  runs_decExpr (runs_ws hg ((full_starts ht).append _).solid)
    (HG.expr ht hm id ((folE_of hh hq hid).down fun _ => rfl)) (runs_ws hh hq.triv)

theorem run_wsOrSp (HG : Good E R m) {b nl : Bool} {e : Expr} {g t h r : Str} (hb : nl = true → b = true)
    (hg : Gap nl g) (ht : Full E.U E.bd nl e t) (hm : t.length < m) (hh : Gap nl h) (hq : ∀ b, QuietE b r)
    (hid : IdEnd E.U r ∨ h ≠ []) :
    Runs (decorated (wsOrSp b) (R.expr b) (wsOrSp b)) (g ++ (t ++ h)) r fun v => Means E.U E.bd v e :=
  runs_decExpr (runs_gap (hg.mono hb) ((full_starts ht).append _).solid)
    (HG.expr ht hm hb (folE_of (hh.mono fun h => by rw [hb h]; rfl) (hq _) hid))
    (runs_gap (hh.mono hb) (hq _).triv)

/-! ### Comma separated expressions -/

theorem seq_pos {es : List Expr} {t : Str} (h : Seq E.U E.bd es t) : t ≠ [] := by
  cases h with
  | one _ h _ => intro hx; simp only [List.append_eq_nil_iff] at hx; exact (full_starts h).ne_nil hx.1.2
  | cons _ h _ _ => intro hx; simp only [List.append_eq_nil_iff] at hx; exact (full_starts h).ne_nil hx.1.1.1.2

/-- The elements after the first one. -/
theorem seq_reps (HG : Good E R m) {p : P EExpr} {u r : Str}
    (hp : ∀ {g t h s : Str} {e : Expr}, Gap true g → Full E.U E.bd true e t → t.length < m → Gap true h →
      QuietE true s → IdEnd E.U s → Runs (decorated ws p ws) (g ++ (t ++ h)) s fun v => Means E.U E.bd v e)
    (hq : QuietE true r) (hid : IdEnd E.U r) (hb : Backs (P.bind (chr ',') fun _ => decorated ws p ws) r) :
    ∀ {es : List Expr} {u : Str}, Seq E.U E.bd es u → u.length < m →
    ∃ t w, u = t ++ w ∧ ∃ e es', es = e :: es' ∧ Runs (decorated ws p ws) t (w ++ r) (fun v => Means E.U E.bd v e) ∧
      SepReps (decorated ws p ws) (chr ',') (fun vs => MeansList E.U E.bd vs es') w r := by
  intro es u h
  induction es generalizing u with
  | nil => cases h
  | cons e es ih =>
    intro hm
    cases h with
    | @one _ g t h hg ht hh =>
      rw [List.append_assoc]
      refine ⟨g ++ (t ++ h), [], by rw [List.append_nil], _, _, rfl, ?_, ?_⟩
      · exact hp hg ht (by simp only [List.length_append] at hm; omega) hh hq hid
      · exact .nil hb .nil
    | @cons _ _ g t h u hg ht hh hs =>
      have hm' := hm
      simp only [List.length_append, List.length_cons, List.length_nil] at hm'
      obtain ⟨t', w, rfl, e', es', rfl, h1, h2⟩ := ih hs (by omega)
      refine ⟨g ++ (t ++ h), ',' :: t' ++ w, by asc, _, _, rfl, ?_, ?_⟩
      · exact hp hg ht (by omega) hh (quiet_calm rfl) (idEnd_cons rfl)
      · refine .cons (nofun) (Runs.bind (t := [',']) runs_chr fun _ _ => h1) fun v hv => ?_
        exact h2.conseq fun vs hvs => .cons hv hvs

theorem seq_sepReps (HG : Good E R m) {p : P EExpr} {u r : Str}
    (hp : ∀ {g t h s : Str} {e : Expr}, Gap true g → Full E.U E.bd true e t → t.length < m → Gap true h →
      QuietE true s → IdEnd E.U s → Runs (decorated ws p ws) (g ++ (t ++ h)) s fun v => Means E.U E.bd v e)
    (hq : QuietE true r) (hid : IdEnd E.U r) (hb : Backs (P.bind (chr ',') fun _ => decorated ws p ws) r)
    {es : List Expr} (h : Seq E.U E.bd es u) (hm : u.length < m) :
    Runs (P.separated1 (decorated ws p ws) (chr ',')) u r (fun vs => MeansList E.U E.bd vs es) ∧
    Runs (P.separated0 (decorated ws p ws) (chr ',')) u r (fun vs => MeansList E.U E.bd vs es) := by
  obtain ⟨t, w, rfl, e, es', rfl, h1, h2⟩ := seq_reps (u := u) HG hp hq hid hb h hm
  exact ⟨SepReps.runs1 h1 fun v hv => h2.conseq fun vs hvs => .cons hv hvs,
    SepReps.runs0 h1 fun v hv => h2.conseq fun vs hvs => .cons hv hvs⟩

/-! ### Arrays -/

/-- The probe of `forOrItems`. -/
def forProbe : P Unit := P.bind ws fun _ => P.bind (tag c!"for") fun _ =>
  P.bind (oneOf fun c => c == ' ' || c == '\t' || c == '#' || c == '/' || c == '\n') fun _ => P.pure ()

theorem runs_forItems {α : Type} {f g : P α} {t r : Str} {Q : α → Prop} (hb : Backs forProbe (t ++ r))
    (h : Runs g t r Q) : Runs (forOrItems f g) t r Q := fun pos => by
  obtain ⟨j, hj⟩ := hb pos
  obtain ⟨v, h1, h2⟩ := h pos
  refine ⟨v, ?_, h2⟩
  show (match forProbe ⟨pos, t ++ r⟩ with
    | .ok _ _ => f ⟨pos, t ++ r⟩ | .back _ => g ⟨pos, t ++ r⟩ | .cut _ => g ⟨pos, t ++ r⟩ | .panic => .panic | .oof => .oof) = _
  rw [hj]
  exact h1

theorem runs_forExpr {α : Type} {f g : P α} {t r x y : Str} {Q : α → Prop} {A : Unit → Prop}
    (hb : Runs forProbe x y A) (he : t ++ r = x ++ y)
    (h : Runs f t r Q) : Runs (forOrItems f g) t r Q := fun pos => by
  obtain ⟨j, hj, -⟩ := hb pos
  obtain ⟨v, h1, h2⟩ := h pos
  refine ⟨v, ?_, h2⟩
  show (match forProbe ⟨pos, t ++ r⟩ with
    | .ok _ _ => f ⟨pos, t ++ r⟩ | .back _ => g ⟨pos, t ++ r⟩ | .cut _ => g ⟨pos, t ++ r⟩ | .panic => .panic | .oof => .oof) = _
  rw [he, hj, ← he]
  exact h1

theorem prefix_cut {p x r : Str} {d : Char} (h : p <+: x ++ d :: r) (hd : d ∉ p) : p <+: x := by
  induction p generalizing x with
  | nil => exact List.nil_prefix
  | cons c p ih =>
    cases x with
    | nil =>
      obtain ⟨k, hk⟩ := h
      injection hk with hk _
      exact absurd (hk ▸ List.mem_cons_self ..) hd
    | cons e x =>
      obtain ⟨k, hk⟩ := h
      injection hk with h1 h2
      subst h1
      obtain ⟨z, rfl⟩ := ih ⟨k, h2⟩ fun h => hd (List.mem_cons_of_mem _ h)
      exact ⟨z, rfl⟩

/-- The probe fails on a content that does not start with `for`. -/
theorem backs_forProbe {g u r : Str} {d : Char} (hg : Gap true g) (hu : ¬ StartsTrivia true (u ++ d :: r))
    (h : ¬ ForStart (g ++ u)) (hd : d = ']' ∨ d = ',' ∨ d = '}') : Backs forProbe (g ++ (u ++ d :: r)) := by
  refine Runs.bind_backs (runs_ws hg hu) fun _ _ => ?_
  by_cases hp : c!"for" <+: u ++ d :: r
  · obtain ⟨u', rfl⟩ := prefix_cut hp (by rcases hd with rfl | rfl | rfl <;> decide)
    rw [List.append_assoc]
    refine Runs.bind_backs runs_tag fun _ _ => Backs.bind (backs_oneOf fun c cs hc => ?_)
    cases hx : (c == ' ' || c == '\t' || c == '#' || c == '/' || c == '\n') with
    | false => rfl
    | true =>
      exfalso
      cases u' with
      | nil =>
        injection hc with hc _
        subst hc
        rcases hd with rfl | rfl | rfl <;> cases hx
      | cons e u' =>
        injection hc with hc _
        subst hc
        refine h ⟨g, e, u', by asc, hg, ?_⟩
        simp only [Bool.or_eq_true, beq_iff_eq] at hx
        rcases hx with (((rfl | rfl) | rfl) | rfl) | rfl <;> decide
  · exact Backs.bind (backs_tag hp)

theorem seq_split {es : List Expr} {t : Str} (h : Seq E.U E.bd es t) : ∃ g u, t = g ++ u ∧ Gap true g ∧ Starts E.U u := by
  cases h with
  | one hg ht _ => exact ⟨_, _, List.append_assoc .., hg, (full_starts ht).append _⟩
  | cons hg ht _ _ => exact ⟨_, _, by simp only [List.append_assoc]; rfl, hg, (full_starts ht).append _⟩

theorem backs_close {α : Type} [HasMeta α] {p : P α} {g u : Str} (hg : Gap true g) (hu : ¬ StartsTrivia true u)
    (h : Backs p u) : Backs (decorated ws p ws) (g ++ u) :=
  Runs.bind_backs (runs_ws hg hu).spanOf fun _ _ => Backs.bind (Backs.map h.withSpan)

/-- The elements of an array. -/
theorem run_arrayElem (HG : Good E R m) {e : Expr} {g t h r : Str} (hg : Gap true g)
    (ht : Full E.U E.bd true e t) (hm : t.length < m) (hh : Gap true h) (hq : QuietE true r)
    (hid : IdEnd E.U r) :
    Runs (decorated ws (preceded (notP (chr ']')) (R.expr true)) ws) (g ++ (t ++ h)) r fun v => Means E.U E.bd v e :=
  runs_decExpr (runs_ws hg ((full_starts ht).append _).solid)
    (Runs.bind_nil (Backs.notP (backs_chr (((full_starts ht).append _).ne rfl))) fun _ _ =>
      HG.expr ht hm id (folE_of hh hq (.inl hid)))
    (runs_ws hh hq.triv)

theorem backs_arrayElem {g r : Str} (hg : Gap true g) :
    Backs (decorated ws (preceded (notP (chr ']')) (R.expr true)) ws) (g ++ ']' :: r) :=
  backs_close hg (solid_starts rfl) (Backs.bind (Runs.notP (t := [']']) runs_chr))

theorem runs_rawWs {g r : Str} (hg : Gap true g) (hr : ¬ StartsTrivia true r) :
    Runs (rawString ws) g r fun _ => True := ((runs_ws hg hr).spanOf.conseq fun _ _ => trivial).map

theorem runs_rawSp {g r : Str} (hg : Gap false g) (hr : ¬ StartsTrivia false r) :
    Runs (rawString sp) g r fun _ => True := ((runs_sp hg hr).spanOf.conseq fun _ _ => trivial).map

/-- An empty array. -/
theorem run_emptyArray {g r : Str} (hg : Gap true g) :
    Runs (array E R) ('[' :: (g ++ [']'])) r fun v => Means E.U E.bd v (.array []) := by
  refine Runs.delimited (t := ['[']) runs_chr (runs_forItems ?_ ?_) runs_chr.cutErr
  · exact Runs.bind_backs (runs_ws hg (solid_starts rfl)) fun _ _ => Backs.bind (backs_tag (by
      rintro ⟨k, hk⟩; injection hk with hk _; cases hk))
  · unfold arrayItems
    refine Runs.bind_nil (Backs.separated0 (R := fun v => v = []) (backs_arrayElem hg) rfl) ?_
    rintro _ rfl
    refine Runs.bind_nil (Backs.opt (R := fun _ => True)
      (backs_chr (gap_ne hg rfl fun x hx => by injection hx with hx _; cases hx)) trivial) fun _ _ => ?_
    exact (runs_rawWs hg (solid_starts rfl)).bind_last fun _ _ => .pure (.array .nil)

theorem seq_probe {es : List Expr} {t r : Str} {d : Char} (h : Seq E.U E.bd es t) (hf : ¬ ForStart t)
    (hd : d = ']' ∨ d = ',' ∨ d = '}') : Backs forProbe (t ++ d :: r) := by
  obtain ⟨g, u, rfl, hg, hu⟩ := seq_split h
  rw [List.append_assoc]
  exact backs_forProbe hg (hu.append _).solid hf hd

theorem run_array (HG : Good E R m) {es : List Expr} {t r : Str} (h : Seq E.U E.bd es t) (hm : t.length < m)
    (hf : ¬ ForStart t) :
    Runs (array E R) ('[' :: (t ++ [']'])) r fun v => Means E.U E.bd v (.array es) := by
  refine Runs.delimited (t := ['[']) runs_chr (runs_forItems (seq_probe h hf (.inl rfl)) ?_) runs_chr.cutErr
  unfold arrayItems
  have hne : ∀ cs, ']' :: r ≠ ',' :: cs := fun cs hx => by injection hx with hx _; cases hx
  refine Runs.bind (t := t) (u := []) ((seq_sepReps (p := preceded (notP (chr ']')) (R.expr true)) HG (run_arrayElem HG)
    (quiet_calm rfl) (idEnd_cons rfl) (Backs.bind (backs_chr hne)) h hm).2) ?_ |> fun h => by
      rw [List.append_nil] at h; exact h
  intro vs hvs
  refine Runs.bind_nil (Backs.opt (R := fun _ => True) (backs_chr hne) trivial) fun _ _ => ?_
  exact (runs_rawWs .nil (solid_starts rfl)).bind_last fun _ _ => .pure (.array hvs)

theorem run_arrayComma (HG : Good E R m) {es : List Expr} {t g r : Str} (h : Seq E.U E.bd es t) (hm : t.length < m)
    (hf : ¬ ForStart t) (hg : Gap true g) :
    Runs (array E R) ('[' :: (t ++ ',' :: (g ++ [']']))) r fun v => Means E.U E.bd v (.array es) := by
  rw [show '[' :: (t ++ ',' :: (g ++ [']'])) = ['['] ++ ((t ++ ',' :: g) ++ [']']) by asc]
  refine Runs.delimited runs_chr (runs_forItems ?_ ?_) runs_chr.cutErr
  · rw [List.append_assoc]; exact seq_probe h hf (.inr (.inl rfl))
  · unfold arrayItems
    refine Runs.bind (t := t) (u := ',' :: g) ((seq_sepReps (p := preceded (notP (chr ']')) (R.expr true)) HG (run_arrayElem HG)
      (quiet_calm rfl) (idEnd_cons rfl) ?_ h hm).2) ?_
    · exact Runs.bind_backs (t := [',']) runs_chr fun _ _ => backs_arrayElem hg
    · intro vs hvs
      refine Runs.bind (t := [',']) (u := g) (Runs.opt (R := fun _ => True) runs_chr fun _ _ => trivial) fun _ _ => ?_
      exact (runs_rawWs hg (solid_starts rfl)).bind_last fun _ _ => .pure (.array hvs)

end Verif.Gram
