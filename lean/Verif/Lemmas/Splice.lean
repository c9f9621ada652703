import Verif.Lemmas.Canon
import Verif.Spec.Splice
/-! Helper lemmas for C77. -/

set_option linter.unusedSimpArgs false
set_option linter.unusedVariables false

namespace Verif.Spec
open Verif Gram

variable {E : FmtEnv} {x y : EExpr}

/-! ### Without a source -/

/-- The step leaves the escape flag unset. -/
def Still (w : W) : Prop := (w false).2 = false

theorem Still.str {t : Str} : Still (W.str t) := rfl

theorem Still.seq {v w : W} (h1 : Still v) (h2 : Still w) : Still (v +> w) := by
  show (w (v false).2).2 = false
  rw [show (v false).2 = false from h1]; exact h2

theorem Still.deco {m : Meta} {p q : Str} {w : W} (h : Still w) : Still (deco m p q w) :=
  Still.str.seq (h.seq .str)

theorem still_core (e : EExpr) : Still (e.core E) := by rw [Still, core_flag]; rfl
theorem still_enc (e : EExpr) {p q : Str} : Still (e.enc E p q) := (still_core e).deco
theorem still_dec (e : EExpr) {m : Meta} {p q : Str} : Still (deco m p q (e.core E)) := (still_core e).deco
theorem still_list (es : List EExpr) {p : Str} : Still (EExpr.encList E p es) := by rw [Still, encList_flag]; rfl
theorem still_items (is : List EItem) : Still (EExpr.encItems E is) := by rw [Still, encItems_flag]; rfl
theorem still_key (k : EKey) : Still (k.enc E) := by rw [Still, key_flag]; rfl
theorem still_travs (os : List ETrav) : Still (EExpr.encTravs E os) := by rw [Still, encTravs_flag]; rfl
theorem still_forKey (k : Option EExpr) : Still (EExpr.encForKey E k) := by rw [Still, encForKey_flag]; rfl
theorem still_forCond (k : Option EExpr) {m : Meta} : Still (EExpr.encForCond E m k) := by
  rw [Still, encForCond_flag]; rfl
theorem still_ident (d : DIdent) {p q : Str} : Still (d.enc p q) := Still.deco .str
theorem still_ns : ∀ ds : List DIdent, Still (encNamespace ds)
  | [] => .str
  | d :: ds => (still_ident d).seq (Still.str.seq (still_ns ds))
theorem still_keyVar : ∀ k : Option DIdent, Still (encKeyVar k)
  | none => .str
  | some d => (still_ident d).seq .str
theorem still_labels : ∀ ls : List ELabel, Still (encLabels ls)
  | [] => .str
  | .string .. :: ls => Still.seq (Still.deco .str) (still_labels ls)
  | .ident .. :: ls => Still.seq (Still.deco .str) (still_labels ls)

/-- Two steps print the same except for the text of one expression. -/
def Loc (E : FmtEnv) (x y : EExpr) (w w' : W) : Prop := ∃ pre suf d₁ d₂, NoneOrBlank d₁ ∧ NoneOrBlank d₂ ∧
  w false = (pre ++ exprText E d₁ d₂ x ++ suf, false) ∧ w' false = (pre ++ exprText E d₁ d₂ y ++ suf, false)

theorem Loc.left {w w' v : W} (h : Loc E x y w w') (hv : Still v) : Loc E x y (w +> v) (w' +> v) := by
  obtain ⟨pre, suf, d₁, d₂, h1, h2, h3, h4⟩ := h
  have hv' : v false = ((v false).1, false) := Prod.ext rfl hv
  refine ⟨pre, suf ++ (v false).1, d₁, d₂, h1, h2, ?_, ?_⟩
  · rw [W.seq_apply, h3, hv']; simp
  · rw [W.seq_apply, h4, hv']; simp

theorem Loc.right {w w' v : W} (h : Loc E x y w w') (hv : Still v) : Loc E x y (v +> w) (v +> w') := by
  obtain ⟨pre, suf, d₁, d₂, h1, h2, h3, h4⟩ := h
  have hv' : v false = ((v false).1, false) := Prod.ext rfl hv
  refine ⟨(v false).1 ++ pre, suf, d₁, d₂, h1, h2, ?_, ?_⟩
  · rw [W.seq_apply, hv', h3]; simp
  · rw [W.seq_apply, hv', h4]; simp

theorem Loc.str {w w' : W} {t : Str} (h : Loc E x y w w') : Loc E x y (W.str t +> w) (W.str t +> w') := h.right .str

theorem Loc.deco {w w' : W} {m : Meta} {p q : Str} (h : Loc E x y w w') : Loc E x y (deco m p q w) (deco m p q w') :=
  (h.left .str).str

theorem NoneOrBlank.nil : NoneOrBlank [] := .inl rfl
theorem NoneOrBlank.one : NoneOrBlank c!" " := .inr rfl

/-- Expressions in a list. -/
theorem loc_list {e e' : EExpr} (h : ∀ p q, NoneOrBlank p → NoneOrBlank q → Loc E x y (e.enc E p q) (e'.enc E p q)) :
    ∀ (xs ys : List EExpr) {p : Str}, NoneOrBlank p → Loc E x y (EExpr.encList E p (xs ++ e :: ys)) (EExpr.encList E p (xs ++ e' :: ys))
  | [], ys, p, hp => ((h p [] hp .nil).left (still_list ys)).str
  | z :: xs, ys, p, _ => ((loc_list h xs ys .one).right (still_dec z)).str

theorem loc_items {k k' : EKey} {e e' : EExpr} {a : Assign} {t : ItemEnd}
    (h : Loc E x y (k.enc E +> W.str a.enc +> e.enc E c!" " []) (k'.enc E +> W.str a.enc +> e'.enc E c!" " [])) :
    ∀ (xs ys : List EItem),
      Loc E x y (EExpr.encItems E (xs ++ .mk k e a t :: ys)) (EExpr.encItems E (xs ++ .mk k' e' a t :: ys))
  | [], ys => by
    have := h.left (v := W.str t.enc +> EExpr.encItems E ys) (Still.str.seq (still_items ys))
    simp only [W.assoc] at this
    exact this
  | .mk k v a i :: xs, ys =>
    ((((loc_items h xs ys).str).right (still_dec v)).str).right (still_key k)

theorem loc_travs {e e' : EExpr} (h : ∀ p q, NoneOrBlank p → NoneOrBlank q → Loc E x y (e.enc E p q) (e'.enc E p q)) {m : Meta} :
    ∀ xs ys : List ETrav, Loc E x y (EExpr.encTravs E (xs ++ .mk m (.index e) :: ys))
      (EExpr.encTravs E (xs ++ .mk m (.index e') :: ys))
  | [], ys => (Loc.deco (((h [] [] .nil .nil).left .str).str)).left (still_travs ys)
  | .mk m o :: xs, ys => (loc_travs h xs ys).right (Still.deco (by rw [Still, op_flag]; rfl))

theorem mid_isEmpty {α : Type _} (xs : List α) (e : α) (ys : List α) : (xs ++ e :: ys).isEmpty = false := by
  cases xs <;> rfl

theorem swap_loc {e e' : EExpr} (h : Swap x y e e') :
    ∀ p q, NoneOrBlank p → NoneOrBlank q → Loc E x y (e.enc E p q) (e'.enc E p q) := by
  induction h with
  | here =>
    intro p q hp hq
    refine ⟨[], [], p, q, hp, hq, ?_, ?_⟩
    · rw [exprText, List.append_nil]; exact Prod.ext rfl (still_enc x)
    · rw [exprText, List.append_nil]; exact Prod.ext rfl (still_enc y)
  | @array m xs e e' ys c t _ ih =>
    intro p q _ _
    refine Loc.deco (m := m) ?_
    have := (loc_list ih xs ys .nil).left (v := W.str ((if c then c!"," else []) ++ t.enc [] ++ c!"]")) .str
    simp only [EExpr.core, mid_isEmpty, Bool.not_false, Bool.true_and]
    exact this.str
  | @key m xs e e' v a i ys t _ ih =>
    intro p q _ _
    exact Loc.deco (m := m) (((loc_items (k := .expr e) (k' := .expr e')
      ((ih [] c!" " .nil .one).left (Still.str.seq (still_enc v))) xs ys).left .str).str)
  | @value m xs k e e' a i ys t _ ih =>
    intro p q _ _
    exact Loc.deco (m := m) (((loc_items (k := k) (k' := k)
      ((ih c!" " [] .one .nil).str.right (still_key k)) xs ys).left .str).str)
  | @paren m e e' _ ih => intro p q _ _; exact Loc.deco (m := m) ((ih [] [] .nil .nil).left .str).str
  | @cond m e e' t f _ ih =>
    intro p q _ _
    exact Loc.deco (m := m) ((ih [] c!" " .nil .one).left
      (Still.str.seq ((still_dec t).seq (Still.str.seq (still_dec f)))))
  | @whenTrue m c e e' f _ ih =>
    intro p q _ _
    exact Loc.deco (m := m) ((((ih c!" " c!" " .one .one).left (Still.str.seq (still_dec f))).str).right (still_dec c))
  | @whenFalse m c t e e' _ ih =>
    intro p q _ _
    exact Loc.deco (m := m) (((((ih c!" " [] .one .nil).str).right (still_dec t)).str).right (still_dec c))
  | @arg m ns n am xs e e' ys c ex t _ ih =>
    intro p q _ _
    refine Loc.deco (m := m) ?_
    simp only [EExpr.core, mid_isEmpty]
    exact ((Loc.deco (m := am) (((loc_list ih xs ys .nil).left .str).str)).right (still_ident n)).right (still_ns ns)
  | @operand m e e' os _ ih => intro p q _ _; exact Loc.deco (m := m) ((ih [] [] .nil .nil).left (still_travs os))
  | @index m o xs om e e' ys _ ih =>
    intro p q _ _
    exact Loc.deco (m := m) ((loc_travs ih xs ys).right (still_dec o))
  | @unary m sp o e e' _ ih => intro p q _ _; exact Loc.deco (m := m) (ih [] [] .nil .nil).str
  | @lhs m e e' om o r _ ih =>
    intro p q _ _
    exact Loc.deco (m := m) ((ih [] [] .nil .nil).left (Still.seq (Still.deco .str) (still_dec r)))
  | @rhs m l om o e e' _ ih =>
    intro p q _ _
    exact Loc.deco (m := m) (((ih [] [] .nil .nil).right (Still.deco .str)).right (still_dec l))
  | @coll m im k v e e' ke ve g cm co _ ih =>
    intro p q _ _
    exact Loc.deco (m := m) (((Loc.deco (m := im) ((((((ih c!" " c!" " .one .one).left .str).str).right
      (still_ident v)).right (still_keyVar k)).str)).left ((still_forKey ke).seq ((still_dec ve).seq
        (Still.str.seq ((still_forCond co).seq .str))))).str)
  | @forKey m im k v c e e' ve g cm co _ ih =>
    intro p q _ _
    exact Loc.deco (m := m) (((((ih c!" " c!" " .one .one).left .str).left ((still_dec ve).seq
        (Still.str.seq ((still_forCond co).seq .str)))).right (Still.deco (Still.str.seq ((still_keyVar k).seq
          ((still_ident v).seq (Still.str.seq ((still_dec c).seq .str))))))).str)
  | @forValue m im k v c ke e e' g cm co _ ih =>
    intro p q _ _
    exact Loc.deco (m := m) (((((ih c!" " [] .one .nil).left (Still.str.seq ((still_forCond co).seq .str))).right
      (still_forKey ke)).right (Still.deco (Still.str.seq ((still_keyVar k).seq
          ((still_ident v).seq (Still.str.seq ((still_dec c).seq .str))))))).str)
  | @forCond m im k v c ke ve g cm e e' _ ih =>
    intro p q _ _
    exact Loc.deco (m := m) ((((((Loc.deco (m := cm) (ih c!" " [] .one .nil).str).left .str).str).right (still_dec ve)).right
      (still_forKey ke)).right (Still.deco (Still.str.seq ((still_keyVar k).seq
          ((still_ident v).seq (Still.str.seq ((still_dec c).seq .str)))))) |>.str)

mutual

theorem still_struct : ∀ (z : EStruct) {p q : Str}, Still (z.enc E p q)
  | .attr m k v, _, _ => Still.deco ((still_ident k).seq (Still.str.seq (still_enc v)))
  | .block m i ls (.mk bm ss o om), _, _ => by
    refine Still.deco ((still_ident i).seq ((still_labels ls).seq (Still.str.seq (Still.seq (Still.deco ?_) .str))))
    split
    · exact still_oneline ss
    · exact Still.str.seq (still_structs ss)

theorem still_oneline : ∀ ss : List EStruct, Still (EStruct.encOneline E ss)
  | [] => .str
  | z :: _ => still_struct z

theorem still_structs : ∀ ss : List EStruct, Still (EStruct.encList E ss)
  | [] => .str
  | z :: ss => (still_struct z).seq (Still.str.seq (still_structs ss))

end

theorem still_top {om : Bool} : ∀ ss : List EStruct, Still (encStructs E om ss)
  | [] => .str
  | z :: ss => (still_struct z).seq (Still.str.seq (still_top ss))

/-- Replacing one of the structures of a block does not change whether the block fits on one line. -/
theorem oneline_swap {z z' : EStruct} (h : ∀ m k v, z = .attr m k v → ∃ v', z' = .attr m k v')
    (h' : ∀ m i ls b, z = .block m i ls b → ∃ b', z' = .block m i ls b') (xs ys : List EStruct) :
    onelineOk (xs ++ z' :: ys) = onelineOk (xs ++ z :: ys) := by
  cases xs with
  | nil =>
    cases z with
    | attr m k v => obtain ⟨v', rfl⟩ := h m k v rfl; cases ys <;> rfl
    | block m i ls b => obtain ⟨b', rfl⟩ := h' m i ls b rfl; cases ys <;> rfl
  | cons a xs => cases a <;> cases xs <;> rfl

theorem swapStruct_loc {z z' : EStruct} (h : SwapStruct x y z z') :
    ∀ p q, Loc E x y (z.enc E p q) (z'.enc E p q) := by
  induction h with
  | @attr m k e e' h =>
    intro p q
    exact Loc.deco (m := m) (((swap_loc h c!" " [] .one .nil).str).right (still_ident k))
  | @block m i ls bm xs z z' ys o om hz ih =>
    intro p q
    have ho : onelineOk (xs ++ z' :: ys) = onelineOk (xs ++ z :: ys) :=
      oneline_swap (fun m k v e => by subst e; cases hz; exact ⟨_, rfl⟩)
        (fun m i ls b e => by subst e; cases hz; exact ⟨_, rfl⟩) xs ys
    simp only [EStruct.enc, ho]
    refine Loc.deco (m := m) ((((Loc.left (Loc.deco (m := bm) ?_) .str).str).right (still_labels ls)).right
      (still_ident i))
    split
    · cases xs with
      | nil => exact ih _ _
      | cons a xs =>
        rename_i hn
        cases a <;> cases xs <;> simp [onelineOk] at hn
    · refine Loc.str ?_
      have : ∀ xs : List EStruct, Loc E x y (EStruct.encList E (xs ++ z :: ys)) (EStruct.encList E (xs ++ z' :: ys)) := by
        intro xs
        induction xs with
        | nil => exact (ih _ _).left (Still.str.seq (still_structs ys))
        | cons a xs ih => exact (ih.str).right (still_struct a)
      exact this xs

theorem swapBody_loc {b b' : EBody} (h : SwapBody x y b b') : ∃ pre suf d₁ d₂, NoneOrBlank d₁ ∧ NoneOrBlank d₂ ∧
    b.show E = pre ++ exprText E d₁ d₂ x ++ suf ∧ b'.show E = pre ++ exprText E d₁ d₂ y ++ suf := by
  cases h with
  | @mk m xs z z' ys o om h =>
  have : ∀ xs : List EStruct, Loc E x y (encStructs E om (xs ++ z :: ys)) (encStructs E om (xs ++ z' :: ys)) := by
    intro xs
    induction xs with
    | nil => exact (swapStruct_loc h _ _).left (Still.str.seq (still_top ys))
    | cons a xs ih =>
      have e : ∀ z, (xs ++ z :: ys).isEmpty = false := fun z => by cases xs <;> rfl
      simp only [List.cons_append, encStructs, e]
      exact (ih.str).right (still_struct a)
  obtain ⟨pre, suf, d₁, d₂, h1, h2, h3, h4⟩ := Loc.deco (m := m) (p := []) (q := []) (this xs)
  exact ⟨pre, suf, d₁, d₂, h1, h2, congrArg Prod.fst h3, congrArg Prod.fst h4⟩

/-! ### Structures -/

/-- Two steps print the same except for one text. -/
def LocT (t t' : Str) (w w' : W) : Prop := ∃ pre suf,
  w false = (pre ++ t ++ suf, false) ∧ w' false = (pre ++ t' ++ suf, false)

theorem LocT.left {t t' : Str} {w w' v : W} (h : LocT t t' w w') (hv : Still v) : LocT t t' (w +> v) (w' +> v) := by
  obtain ⟨pre, suf, h3, h4⟩ := h
  have hv' : v false = ((v false).1, false) := Prod.ext rfl hv
  refine ⟨pre, suf ++ (v false).1, ?_, ?_⟩
  · rw [W.seq_apply, h3, hv']; simp
  · rw [W.seq_apply, h4, hv']; simp

theorem LocT.right {t t' : Str} {w w' v : W} (h : LocT t t' w w') (hv : Still v) : LocT t t' (v +> w) (v +> w') := by
  obtain ⟨pre, suf, h3, h4⟩ := h
  have hv' : v false = ((v false).1, false) := Prod.ext rfl hv
  refine ⟨(v false).1 ++ pre, suf, ?_, ?_⟩
  · rw [W.seq_apply, hv', h3]; simp
  · rw [W.seq_apply, hv', h4]; simp

theorem LocT.str {t t' : Str} {w w' : W} {u : Str} (h : LocT t t' w w') : LocT t t' (W.str u +> w) (W.str u +> w') :=
  h.right .str

theorem LocT.deco {t t' : Str} {w w' : W} {m : Meta} {p q : Str} (h : LocT t t' w w') :
    LocT t t' (deco m p q w) (deco m p q w') := (h.left .str).str

theorem encList_text : ∀ (ms ys : List EStruct),
    EStruct.encList E (ms ++ ys) false = (linesText E ms ++ (EStruct.encList E ys false).1, false)
  | [], ys => Prod.ext rfl (still_structs ys)
  | z :: ms, ys => by
    have hz : z.enc E [] [] false = ((z.enc E [] [] false).1, false) :=
      Prod.ext rfl (still_struct z)
    show (z.enc E [] [] +> W.str c!"\n" +> EStruct.encList E (ms ++ ys)) false = _
    rw [W.seq_apply, hz, W.seq_apply, W.str, encList_text ms ys]
    simp [linesText]

theorem encList_locT {ms ms' : List EStruct} (ys : List EStruct) : ∀ xs : List EStruct,
    LocT (linesText E ms) (linesText E ms') (EStruct.encList E (xs ++ ms ++ ys)) (EStruct.encList E (xs ++ ms' ++ ys))
  | [] => ⟨[], (EStruct.encList E ys false).1, encList_text ms ys, encList_text ms' ys⟩
  | z :: xs => ((encList_locT ys xs).str).right (still_struct z)

theorem encStructs_text (om : Bool) (ys : List EStruct) (hy : om = false ∨ ys ≠ []) : ∀ ms : List EStruct,
    encStructs E om (ms ++ ys) false = (linesText E ms ++ (encStructs E om ys false).1, false)
  | [] => Prod.ext rfl (still_top ys)
  | z :: ms => by
    have hz : z.enc E [] [] false = ((z.enc E [] [] false).1, false) :=
      Prod.ext rfl (still_struct z)
    have hn : (!(ms ++ ys).isEmpty || !om) = true := by
      rcases hy with rfl | hy
      · simp
      · cases ys with
        | nil => exact absurd rfl hy
        | cons a ys => cases ms <;> rfl
    show (z.enc E [] [] +> W.str (if !(ms ++ ys).isEmpty || !om then c!"\n" else []) +>
      encStructs E om (ms ++ ys)) false = _
    rw [hn, W.seq_apply, hz, W.seq_apply, W.str, encStructs_text om ys hy ms]
    simp [linesText]

theorem encStructs_locT {ms ms' : List EStruct} (om : Bool) (ys : List EStruct) (hy : om = false ∨ ys ≠ []) :
    ∀ xs : List EStruct, LocT (linesText E ms) (linesText E ms') (encStructs E om (xs ++ ms ++ ys))
      (encStructs E om (xs ++ ms' ++ ys)) := by
  intro xs
  have h1 : ∀ zs : List EStruct, encStructs E om (xs ++ zs ++ ys) false =
      (linesText E (xs ++ zs) ++ (encStructs E om ys false).1, false) := fun zs => encStructs_text om ys hy _
  have app : ∀ xs zs : List EStruct, linesText E (xs ++ zs) = linesText E xs ++ linesText E zs := by
    intro xs zs
    induction xs with
    | nil => rfl
    | cons a xs ih => simp [linesText, ih]
  refine ⟨linesText E xs, (encStructs E om ys false).1, ?_, ?_⟩
  · rw [h1, app]
  · rw [h1, app]

theorem editStruct_locT {ms ms' : List EStruct} {z z' : EStruct} (h : EditStruct ms ms' z z') :
    ∀ p q, LocT (linesText E ms) (linesText E ms') (z.enc E p q) (z'.enc E p q) := by
  induction h with
  | @body m i ls bm xs ys om =>
    intro p q
    exact LocT.deco (m := m) ((((LocT.left (LocT.deco (m := bm) (encList_locT ys xs).str) .str).str).right
      (still_labels ls)).right (still_ident i))
  | @block m i ls bm xs z z' ys o om hz ih =>
    intro p q
    have ho : onelineOk (xs ++ z' :: ys) = onelineOk (xs ++ z :: ys) :=
      oneline_swap (fun m k v e => by subst e; cases hz)
        (fun m i ls b e => by subst e; cases hz <;> exact ⟨_, rfl⟩) xs ys
    simp only [EStruct.enc, ho]
    refine LocT.deco (m := m) ((((LocT.left (LocT.deco (m := bm) ?_) .str).str).right (still_labels ls)).right
      (still_ident i))
    split
    · cases xs with
      | nil => exact ih _ _
      | cons a xs =>
        rename_i hn
        cases a <;> cases xs <;> simp [onelineOk] at hn
    · refine LocT.str ?_
      have : ∀ xs : List EStruct, LocT (linesText E ms) (linesText E ms') (EStruct.encList E (xs ++ z :: ys))
          (EStruct.encList E (xs ++ z' :: ys)) := by
        intro xs
        induction xs with
        | nil => exact (ih _ _).left (Still.str.seq (still_structs ys))
        | cons a xs ih => exact (ih.str).right (still_struct a)
      exact this xs

theorem editBody_locT {ms ms' : List EStruct} {b b' : EBody} (h : EditBody ms ms' b b') :
    ∃ pre suf, b.show E = pre ++ linesText E ms ++ suf ∧ b'.show E = pre ++ linesText E ms' ++ suf := by
  cases h with
  | @body m xs ys o om hy =>
    obtain ⟨pre, suf, h3, h4⟩ := LocT.deco (m := m) (p := []) (q := [])
      (encStructs_locT (E := E) (ms := ms) (ms' := ms') om ys hy xs)
    exact ⟨pre, suf, congrArg Prod.fst h3, congrArg Prod.fst h4⟩
  | @block m xs z z' ys o om h =>
    have : ∀ xs : List EStruct, LocT (linesText E ms) (linesText E ms') (encStructs E om (xs ++ z :: ys))
        (encStructs E om (xs ++ z' :: ys)) := by
      intro xs
      induction xs with
      | nil => exact (editStruct_locT h _ _).left (Still.str.seq (still_top ys))
      | cons a xs ih =>
        have e : ∀ z, (xs ++ z :: ys).isEmpty = false := fun z => by cases xs <;> rfl
        simp only [List.cons_append, encStructs, e]
        exact (ih.str).right (still_struct a)
    obtain ⟨pre, suf, h3, h4⟩ := LocT.deco (m := m) (p := []) (q := []) (this xs)
    exact ⟨pre, suf, congrArg Prod.fst h3, congrArg Prod.fst h4⟩

end Verif.Spec
