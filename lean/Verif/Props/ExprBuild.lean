import Verif.Spec.ExprBuild
import Verif.Props.EvalTrav
/-!
C92: expressions and templates that are built step by step are what the steps ask for.
-/

namespace Verif.Props
open Spec

theorem lastOf_append {α β : Type} (f : α → Option β) (l : List α) (a : α) :
    lastOf f (l ++ [a]) = (f a).or (lastOf f l) := by
  cases h : f a <;> simp [lastOf, List.filterMap_append, h]

/-- C92: a call has the arguments in the order in which they were added, and its final argument is expanded if the last
call of `expand_final` says so; the calls can come in any order. -/
theorem C92_call (name : FuncName) (steps : List CallStep) :
    buildCall name steps = .call name (steps.filterMap asArg) ((lastOf asExpand steps).getD false) := by
  have h : steps.foldl CallB.step (CallB.new name) =
      ⟨name, steps.filterMap asArg, (lastOf asExpand steps).getD false⟩ := by
    induction steps using List.reverseRecOn with
    | nil => rfl
    | append_singleton l a ih =>
      rw [List.foldl_append, ih, lastOf_append, List.filterMap_append]
      cases a <;> simp [CallB.step, asArg, asExpand]
  simp only [buildCall, h]

/-- C92: a namespace replaces the one before, and a name has a namespace exactly if one with components was given. -/
theorem C92_name (n : Str) (ns ms : List Str) :
    ((FuncName.new n).withNamespace ns).withNamespace ms = ⟨ms, n⟩ ∧ (FuncName.new n).isNamespaced = false ∧
    (((FuncName.new n).withNamespace ns).isNamespaced = true ↔ ns ≠ []) := by
  refine ⟨rfl, rfl, ?_⟩
  cases ns <;> simp [FuncName.withNamespace, FuncName.isNamespaced]

/-- C92: a traversal has the operators in the order in which they were added. -/
theorem C92_traversal (e : Expr) (steps : List TravStep) :
    buildTraversal e steps = .traversal e (steps.map asOp) := by
  have h : steps.foldl travStep [] = steps.map asOp := by
    induction steps using List.reverseRecOn with
    | nil => rfl
    | append_singleton l a ih =>
      rw [List.foldl_append, ih, List.map_append]
      cases a <;> rfl
  rw [buildTraversal, h]

/-- A traversal without operators. -/
theorem eval_traversal_nil (env : Env) (c : Ctx) (e : Expr) : eval env c (.traversal e []) = eval env c e := by
  rw [eval_traversal]
  cases eval env c e <;> rfl

/-- C92: as long as there are no splats a traversal can be built in two parts: the operators that are added later apply
to what those added before evaluate to. -/
theorem C92_traversal_parts (env : Env) (c : Ctx) (steps more : List TravStep) (e : Expr)
    (h : ∀ s ∈ steps, s ≠ .attrSplat ∧ s ≠ .fullSplat) :
    eval env c (buildTraversal e (steps ++ more)) = eval env c (buildTraversal (buildTraversal e steps) more) := by
  simp only [C92_traversal, List.map_append]
  induction steps generalizing e with
  | nil =>
    rw [List.map_nil, List.nil_append, eval_traversal, eval_traversal, eval_traversal_nil]
  | cons s steps ih =>
    have hs := h s (List.mem_cons_self ..)
    have h1 : asOp s ≠ .fullSplat := by cases s <;> simp [asOp] at hs ⊢
    have h2 : asOp s ≠ .attrSplat := by cases s <;> simp [asOp] at hs ⊢
    have hi := ih (.traversal e [asOp s]) fun t ht => h t (List.mem_cons_of_mem _ ht)
    rw [List.map_cons, List.cons_append, C39_compose env c e _ _ h1 h2, hi]
    exact (eval_traversal _ _).trans ((congrArg (fun r => R.bind r _) (C39_compose env c e _ _ h1 h2).symm).trans
      (eval_traversal _ _).symm)

/-- C92: with splats it matters: `[[true], [null]][*][0]` is not `([[true], [null]][*])[0]`. -/
theorem C92_traversal_splat : ∃ (env : Env) (c : Ctx) (e i : Expr),
    eval env c (buildTraversal e [.fullSplat, .index i]) = .ok (.array [.bool true, .null]) ∧
    eval env c (buildTraversal (buildTraversal e [.fullSplat]) [.index i]) = .ok (.array [.bool true]) := by
  refine ⟨exEnv, Ctx.new, .array [.array [.bool true], .array [.null]], .number (.posInt 0), ?_, ?_⟩
  · exact eval_of_evalF 6 rfl (by simp)
  · exact eval_of_evalF 6 rfl (by simp)

/-- C92: a `for` expression has what the last of the calls for each of its parts asks for, and the calls can come in any
order. -/
theorem C92_for (x : Str) (coll value : Expr) (steps : List ForStep) :
    buildFor x coll value steps = .forE (lastOf asKeyVar steps) x coll (lastOf asKeyExpr steps) value
      ((lastOf asGrouping steps).getD false) (lastOf asCond steps) := by
  have h : steps.foldl ForB.step ⟨none, none, false, none⟩ =
      ⟨lastOf asKeyVar steps, lastOf asKeyExpr steps, (lastOf asGrouping steps).getD false, lastOf asCond steps⟩ := by
    induction steps using List.reverseRecOn with
    | nil => rfl
    | append_singleton l a ih =>
      rw [List.foldl_append, ih]
      simp only [lastOf_append]
      cases a <;> simp [ForB.step, asKeyVar, asKeyExpr, asGrouping, asCond]
  simp only [buildFor, h]

/-- C92: a template has the elements in the order in which they were added. -/
theorem C92_template (steps : List TmplStep) : buildTemplate steps = steps.map asElem := by
  induction steps using List.reverseRecOn with
  | nil => rfl
  | append_singleton l a ih =>
    rw [buildTemplate, List.foldl_append, List.map_append, ← ih]
    cases a <;> rfl

/-- C92: an `if` directive has what the last of the calls for each of its parts asks for. -/
theorem C92_if (c : Expr) (t : List Elem) (steps : List IfStep) :
    buildIf c t steps = .ifDir c t (lastOf asFalse steps) ((lastOf asIfStrip steps).getD .none)
      ((lastOf asElseStrip steps).getD .none) ((lastOf asEndifStrip steps).getD .none) := by
  have h : steps.foldl IfB.step ⟨none, .none, .none, .none⟩ =
      ⟨lastOf asFalse steps, (lastOf asIfStrip steps).getD .none, (lastOf asElseStrip steps).getD .none,
        (lastOf asEndifStrip steps).getD .none⟩ := by
    induction steps using List.reverseRecOn with
    | nil => rfl
    | append_singleton l a ih =>
      rw [List.foldl_append, ih]
      simp only [lastOf_append]
      cases a <;> simp [IfB.step, asFalse, asIfStrip, asElseStrip, asEndifStrip]
  simp only [buildIf, h]

/-- C92: the same for a `for` directive. -/
theorem C92_for_directive (x : Str) (coll : Expr) (t : List Elem) (steps : List LoopStep) :
    buildForDirective x coll t steps = .forDir (lastOf asLoopKey steps) x coll t
      ((lastOf asForStrip steps).getD .none) ((lastOf asEndforStrip steps).getD .none) := by
  have h : steps.foldl LoopB.step ⟨none, .none, .none⟩ =
      ⟨lastOf asLoopKey steps, (lastOf asForStrip steps).getD .none, (lastOf asEndforStrip steps).getD .none⟩ := by
    induction steps using List.reverseRecOn with
    | nil => rfl
    | append_singleton l a ih =>
      rw [List.foldl_append, ih]
      simp only [lastOf_append]
      cases a <;> simp [LoopB.step, asLoopKey, asForStrip, asEndforStrip]
  simp only [buildForDirective, h]

/-- `f(x, y...)`: the flag can come first. -/
example : buildCall ⟨[], c!"f"⟩ [.expandFinal true, .arg (.var c!"x"), .arg (.var c!"y")] =
    .call ⟨[], c!"f"⟩ [.var c!"x", .var c!"y"] true := rfl
/-- A later condition replaces an earlier one. -/
example : buildFor c!"x" (.var c!"xs") (.var c!"x") [.condExpr (.bool false), .keyVar c!"k", .condExpr (.bool true)] =
    .forE (some c!"k") c!"x" (.var c!"xs") none (.var c!"x") false (some (.bool true)) := rfl
/-- `x.a["b"]` has no splats. -/
example : ∀ s ∈ [TravStep.attr c!"a", .index (.string c!"b")], s ≠ .attrSplat ∧ s ≠ .fullSplat := by simp

end Verif.Props
