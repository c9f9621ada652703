import Verif.Lemmas.Splice
import Verif.Lemmas.EscapeFlag
/-! Helper lemmas for C77, inside of templates. -/

set_option linter.unusedVariables false

namespace Verif.Spec
open Verif Gram

variable {E : FmtEnv} {x y u v : EExpr}

/-- Two steps print the same except for the text of one expression, and leave the same flag. -/
def LocB (E : FmtEnv) (x y : EExpr) (w w' : W) : Prop := ∀ b, ∃ pre suf d₁ d₂ f g, NoneOrBlank d₁ ∧ NoneOrBlank d₂ ∧
  w b = (pre ++ innerText E f d₁ d₂ x ++ suf, g) ∧ w' b = (pre ++ innerText E f d₁ d₂ y ++ suf, g)

theorem LocB.left {w w' v : W} (h : LocB E x y w w') : LocB E x y (w +> v) (w' +> v) := by
  intro b
  obtain ⟨pre, suf, d₁, d₂, f, g, h1, h2, h3, h4⟩ := h b
  refine ⟨pre, suf ++ (v g).1, d₁, d₂, f, (v g).2, h1, h2, ?_, ?_⟩
  · rw [W.seq_apply, h3]; simp
  · rw [W.seq_apply, h4]; simp

theorem LocB.right {w w' v : W} (h : LocB E x y w w') : LocB E x y (v +> w) (v +> w') := by
  intro b
  obtain ⟨pre, suf, d₁, d₂, f, g, h1, h2, h3, h4⟩ := h (v b).2
  refine ⟨(v b).1 ++ pre, suf, d₁, d₂, f, g, h1, h2, ?_, ?_⟩
  · rw [W.seq_apply, h3]; simp
  · rw [W.seq_apply, h4]; simp

theorem LocB.deco {w w' : W} {m : Meta} {p q : Str} (h : LocB E x y w w') : LocB E x y (deco m p q w) (deco m p q w') :=
  h.left.right

theorem LocB.escaped {w w' : W} (h : LocB E x y w w') : LocB E x y (W.escaped w) (W.escaped w') := by
  intro b
  obtain ⟨pre, suf, d₁, d₂, f, g, h1, h2, h3, h4⟩ := h true
  exact ⟨pre, suf, d₁, d₂, f, false, h1, h2, congrArg (fun r => (r.1, false)) h3, congrArg (fun r => (r.1, false)) h4⟩

/-- The two expressions are printed the same except for one expression in them. -/
def LocE (E : FmtEnv) (x y e e' : EExpr) : Prop :=
  ∀ p q, NoneOrBlank p → NoneOrBlank q → LocB E x y (e.enc E p q) (e'.enc E p q)

theorem locB_list {e e' : EExpr} (h : LocE E x y e e') : ∀ (xs ys : List EExpr) {p : Str}, NoneOrBlank p →
    LocB E x y (EExpr.encList E p (xs ++ e :: ys)) (EExpr.encList E p (xs ++ e' :: ys))
  | [], ys, p, hp => (h p [] hp .nil).left.right
  | z :: xs, ys, p, _ => (locB_list h xs ys .one).right.right

theorem locB_items {k k' : EKey} {e e' : EExpr} {a : Assign} {t : ItemEnd}
    (h : LocB E x y (k.enc E +> W.str a.enc +> e.enc E c!" " []) (k'.enc E +> W.str a.enc +> e'.enc E c!" " [])) :
    ∀ (xs ys : List EItem),
      LocB E x y (EExpr.encItems E (xs ++ .mk k e a t :: ys)) (EExpr.encItems E (xs ++ .mk k' e' a t :: ys))
  | [], ys => by
    have := h.left (v := W.str t.enc +> EExpr.encItems E ys)
    simp only [W.assoc] at this
    exact this
  | .mk k v a i :: xs, ys => (locB_items h xs ys).right.right.right.right

theorem locB_travs {e e' : EExpr} (h : LocE E x y e e') {m : Meta} :
    ∀ xs ys : List ETrav, LocB E x y (EExpr.encTravs E (xs ++ .mk m (.index e) :: ys))
      (EExpr.encTravs E (xs ++ .mk m (.index e') :: ys))
  | [], ys => (LocB.deco (h [] [] .nil .nil).left.right).left
  | .mk m o :: xs, ys => (locB_travs h xs ys).right

/-- What is around an expression is printed the same. -/
theorem swap_locB {e e' : EExpr} (hs : Swap u v e e') (h : LocE E x y u v) : LocE E x y e e' := by
  induction hs with
  | here => exact h
  | @array m xs e e' ys c t _ ih =>
    intro p q _ _
    refine LocB.deco (m := m) ?_
    simp only [EExpr.core, mid_isEmpty, Bool.not_false, Bool.true_and]
    exact (locB_list ih xs ys .nil).left.right
  | @key m xs e e' w a i ys t _ ih =>
    intro p q _ _
    exact LocB.deco (m := m) ((locB_items (k := .expr e) (k' := .expr e') (ih [] c!" " .nil .one).left xs ys).left.right)
  | @value m xs k e e' a i ys t _ ih =>
    intro p q _ _
    exact LocB.deco (m := m) ((locB_items (k := k) (k' := k) (ih c!" " [] .one .nil).right.right xs ys).left.right)
  | @paren m e e' _ ih => intro p q _ _; exact LocB.deco (m := m) (ih [] [] .nil .nil).left.right
  | @cond m e e' t f _ ih => intro p q _ _; exact LocB.deco (m := m) (ih [] c!" " .nil .one).left
  | @whenTrue m c e e' f _ ih => intro p q _ _; exact LocB.deco (m := m) (ih c!" " c!" " .one .one).left.right.right
  | @whenFalse m c t e e' _ ih => intro p q _ _; exact LocB.deco (m := m) (ih c!" " [] .one .nil).right.right.right.right
  | @arg m ns n am xs e e' ys c ex t _ ih =>
    intro p q _ _
    refine LocB.deco (m := m) ?_
    simp only [EExpr.core, mid_isEmpty]
    exact (LocB.deco (m := am) (locB_list ih xs ys .nil).left.right).right.right
  | @operand m e e' os _ ih => intro p q _ _; exact LocB.deco (m := m) (ih [] [] .nil .nil).left
  | @index m o xs om e e' ys _ ih => intro p q _ _; exact LocB.deco (m := m) (locB_travs ih xs ys).right
  | @unary m sp o e e' _ ih => intro p q _ _; exact LocB.deco (m := m) (ih [] [] .nil .nil).right
  | @lhs m e e' om o r _ ih => intro p q _ _; exact LocB.deco (m := m) (ih [] [] .nil .nil).left
  | @rhs m l om o e e' _ ih => intro p q _ _; exact LocB.deco (m := m) (ih [] [] .nil .nil).right.right
  | @coll m im k w e e' ke ve g cm co _ ih =>
    intro p q _ _
    exact LocB.deco (m := m) (LocB.deco (m := im) (ih c!" " c!" " .one .one).left.right.right.right.right).left.right
  | @forKey m im k w c e e' ve g cm co _ ih =>
    intro p q _ _
    exact LocB.deco (m := m) (ih c!" " c!" " .one .one).left.left.right.right
  | @forValue m im k w c ke e e' g cm co _ ih =>
    intro p q _ _
    exact LocB.deco (m := m) (ih c!" " [] .one .nil).left.right.right.right
  | @forCond m im k w c ke ve g cm e e' _ ih =>
    intro p q _ _
    exact LocB.deco (m := m) (LocB.deco (m := cm) (ih c!" " [] .one .nil).right).left.right.right.right.right.right

theorem locB_elems {l l' : EElem} (h : LocB E x y (l.enc E) (l'.enc E)) : ∀ xs ys : List EElem,
    LocB E x y (EExpr.encElems E (xs ++ l :: ys)) (EExpr.encElems E (xs ++ l' :: ys))
  | [], ys => h.left
  | z :: xs, ys => (locB_elems h xs ys).right

mutual

theorem around_loc (hq : noQuoted x = noQuoted y) : ∀ {u v}, InPlaceOf x y u v → LocE E x y u v
  | _, _, .here => by
    intro p q hp hq' b
    refine ⟨[], [], p, q, b, (y.enc E p q b).2, hp, hq', ?_, ?_⟩
    · rw [innerText, List.nil_append, List.append_nil]
      refine Prod.ext rfl ?_
      show (deco x.getMeta p q (x.core E) b).2 = (deco y.getMeta p q (y.core E) b).2
      rw [Fl.deco (flag x) b, Fl.deco (flag y) b, hq]
    · rw [innerText, List.nil_append, List.append_nil]
  | _, _, .quoted (m := m) (xs := xs) (ys := ys) h => fun p q _ _ =>
    LocB.deco (m := m) ((locB_elems (swapElem_loc hq h) xs ys).escaped.left.right)
  | _, _, .heredoc (m := m) (xs := xs) (ys := ys) h => fun p q _ _ =>
    LocB.deco (m := m) ((locB_elems (swapElem_loc hq h) xs ys).left.right)

theorem swapElem_loc (hq : noQuoted x = noQuoted y) : ∀ {l l'}, SwapElem x y l l' → LocB E x y (l.enc E) (l'.enc E)
  | _, _, .interp h hs => (swap_locB hs (around_loc hq h) c!" " c!" " .one .one).left.right
  | _, _, .ifCond h hs => ((swap_locB hs (around_loc hq h) [] c!" " .nil .one).right.left.right).left
  | _, _, .ifTrue (xs := xs) (ys := ys) h => (locB_elems (swapElem_loc hq h) xs ys).left.right
  | _, _, .ifFalse (xs := xs) (ys := ys) h =>
    LocB.right (LocB.right (LocB.left (LocB.right (locB_elems (swapElem_loc hq h) xs ys))))
  | _, _, .coll h hs => ((swap_locB hs (around_loc hq h) c!" " c!" " .one .one).right.right.right.right.left.right).left
  | _, _, .forBody (xs := xs) (ys := ys) h => (locB_elems (swapElem_loc hq h) xs ys).left.right

end

theorem swapStruct_locB {z z' : EStruct} (hs : SwapStruct u v z z') (h : LocE E x y u v) :
    ∀ p q, LocB E x y (z.enc E p q) (z'.enc E p q) := by
  induction hs with
  | @attr m k e e' hs =>
    intro p q
    exact LocB.deco (m := m) (swap_locB hs h c!" " [] .one .nil).right.right
  | @block m i ls bm xs z z' ys o om hz ih =>
    intro p q
    have ho : onelineOk (xs ++ z' :: ys) = onelineOk (xs ++ z :: ys) :=
      oneline_swap (fun m k v e => by subst e; cases hz; exact ⟨_, rfl⟩)
        (fun m i ls b e => by subst e; cases hz; exact ⟨_, rfl⟩) xs ys
    simp only [EStruct.enc, ho]
    refine LocB.deco (m := m) (LocB.right (LocB.right (LocB.right (LocB.left (LocB.deco (m := bm) ?_)))))
    split
    · cases xs with
      | nil => exact ih _ _
      | cons a xs =>
        rename_i hn
        cases a <;> cases xs <;> simp [onelineOk] at hn
    · refine LocB.right ?_
      have : ∀ xs : List EStruct, LocB E x y (EStruct.encList E (xs ++ z :: ys)) (EStruct.encList E (xs ++ z' :: ys)) := by
        intro xs
        induction xs with
        | nil => exact (ih _ _).left
        | cons a xs ih => exact ih.right.right
      exact this xs

theorem swapBody_locB {b b' : EBody} (hs : SwapBody u v b b') (h : LocE E x y u v) :
    ∃ pre suf d₁ d₂ f, NoneOrBlank d₁ ∧ NoneOrBlank d₂ ∧
    b.show E = pre ++ innerText E f d₁ d₂ x ++ suf ∧ b'.show E = pre ++ innerText E f d₁ d₂ y ++ suf := by
  cases hs with
  | @mk m xs z z' ys o om hs =>
  have : ∀ xs : List EStruct, LocB E x y (encStructs E om (xs ++ z :: ys)) (encStructs E om (xs ++ z' :: ys)) := by
    intro xs
    induction xs with
    | nil => exact (swapStruct_locB hs h _ _).left
    | cons a xs ih =>
      have e : ∀ z, (xs ++ z :: ys).isEmpty = false := fun z => by cases xs <;> rfl
      simp only [List.cons_append, encStructs, e]
      exact ih.right.right
  obtain ⟨pre, suf, d₁, d₂, f, g, h1, h2, h3, h4⟩ := LocB.deco (m := m) (p := []) (q := []) (this xs) false
  exact ⟨pre, suf, d₁, d₂, f, h1, h2, congrArg Prod.fst h3, congrArg Prod.fst h4⟩

end Verif.Spec
