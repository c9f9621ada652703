import Verif.Model.Eval
/-!
A simulation lemma for one evaluation step. It is used twice: with equal contexts it gives
monotonicity in the fuel, with contexts agreeing on the free names it gives lexical scoping.
-/

namespace Verif

/-- `a` is a result that may still be missing for lack of fuel; if it is there it equals `b`. -/
def RLe {α : Type} (a b : R α) : Prop := a = .error .timeout ∨ a = b

theorem RLe.refl {α : Type} (a : R α) : RLe a a := Or.inr rfl

theorem RLe.trans {α : Type} {a b c : R α} (h1 : RLe a b) (h2 : RLe b c) : RLe a c := by
  rcases h1 with h | rfl
  · exact Or.inl h
  · exact h2

theorem RLe.eq {α : Type} {a b : R α} (h : RLe a b) (hn : a ≠ .error .timeout) : b = a := by
  rcases h with h | h
  · exact absurd h hn
  · exact h.symm

theorem RLe.timeout {α : Type} (b : R α) : RLe (.error .timeout) b := Or.inl rfl

theorem RLe.bind {α β : Type} {a b : R α} {f g : α → R β} (h : RLe a b)
    (hf : ∀ x, a = .ok x → RLe (f x) (g x)) :
    RLe (R.bind a f) (R.bind b g) := by
  rcases h with h | h
  · subst h; exact RLe.timeout _
  · subst h
    cases a with
    | error e => exact RLe.refl _
    | ok x => exact hf x rfl

/-- A relation between a result and a family of results that is compatible with sequencing. -/
structure Compat {ι : Type} (Q : {α : Type} → R α → (ι → R α) → Prop) : Prop where
  refl : ∀ {α : Type} (a : R α), Q a (fun _ => a)
  bind : ∀ {α β : Type} {a : R α} {b : ι → R α} {f : α → R β} {g : ι → α → R β}, Q a b →
    (∀ x, a = .ok x → Q (f x) (fun i => g i x)) → Q (R.bind a f) (fun i => R.bind (b i) (g i))

theorem mapR_le {ι : Type} {Q : {α : Type} → R α → (ι → R α) → Prop} (q : Compat Q) {α β : Type}
    {f : α → R β} {g : ι → α → R β} (l : List α) (h : ∀ a ∈ l, Q (f a) (fun i => g i a)) :
    Q (mapR f l) (fun i => mapR (g i) l) := by
  induction l with
  | nil => exact q.refl _
  | cons a as ih =>
    simp only [mapR]
    refine q.bind (h a (by simp)) (fun b _ => ?_)
    exact q.bind (ih (fun x hx => h x (by simp [hx]))) (fun _ _ => q.refl _)

theorem Compat.le : Compat (ι := Unit) (fun a b => RLe a (b ())) :=
  ⟨fun a => RLe.refl a, fun h hf => RLe.bind h hf⟩

/-- A relation between pairs of contexts and an expression (resp. a template) that is inherited by
everything the evaluator evaluates on the way. -/
structure Sim (env : Env) (S : Ctx → Ctx → Expr → Prop) (T : Ctx → Ctx → List Elem → Prop) :
    Prop where
  child : ∀ {c d e}, S c d e → S c.child d.child e
  array : ∀ {c d xs}, S c d (.array xs) → ∀ x ∈ xs, S c d x
  objKey : ∀ {c d es}, S c d (.object es) → ∀ p ∈ es, ∀ k, p.1 = .expr k → S c d k
  objVal : ∀ {c d es}, S c d (.object es) → ∀ p ∈ es, S c d p.2
  templ : ∀ {c d t els}, S c d (.template t) → env.parseTemplate t.asStr = .ok els → T c d els
  var : ∀ {c d x}, S c d (.var x) → c.var x = d.var x
  trav : ∀ {c d e ops}, S c d (.traversal e ops) → S c d e
  travIdx : ∀ {c d e ops}, S c d (.traversal e ops) → ∀ i, .index i ∈ ops → S c d i
  func : ∀ {c d n args x}, S c d (.call n args x) → c.func n = d.func n
  args : ∀ {c d n args x}, S c d (.call n args x) → ∀ a ∈ args, S c d a
  paren : ∀ {c d e}, S c d (.paren e) → S c d e
  cond : ∀ {c d x t f}, S c d (.cond x t f) → S c d x ∧ S c d t ∧ S c d f
  unary : ∀ {c d o e}, S c d (.unary o e) → S c d e
  binary : ∀ {c d l o r}, S c d (.binary l o r) → S c d l ∧ S c d r
  forColl : ∀ {c d k x coll ke ve g ce}, S c d (.forE k x coll ke ve g ce) → S c d coll
  forVal : ∀ {c d k x coll ke ve g ce}, S c d (.forE k x coll ke ve g ce) → ∀ p,
    S (iterCtx c k x p) (iterCtx d k x p) ve
  forKey : ∀ {c d k x coll ke ve g ce}, S c d (.forE k x coll (some ke) ve g ce) → ∀ p,
    S (iterCtx c k x p) (iterCtx d k x p) ke
  forCond : ∀ {c d k x coll ke ve g ce}, S c d (.forE k x coll ke ve g (some ce)) → ∀ p,
    S (iterCtx c k x p) (iterCtx d k x p) ce
  tail : ∀ {c d e es}, T c d (e :: es) → T c d es
  interp : ∀ {c d e s es}, T c d (.interp e s :: es) → S c d e
  ifCond : ∀ {c d x t f a b z es}, T c d (.ifDir x t f a b z :: es) → S c d x
  ifTrue : ∀ {c d x t f a b z es}, T c d (.ifDir x t f a b z :: es) → T c d t
  ifFalse : ∀ {c d x t f a b z es}, T c d (.ifDir x t (some f) a b z :: es) → T c d f
  forDColl : ∀ {c d k x coll t a b es}, T c d (.forDir k x coll t a b :: es) → S c d coll
  forDBody : ∀ {c d k x coll t a b es}, T c d (.forDir k x coll t a b :: es) → ∀ p,
    T (iterCtx c k x p) (iterCtx d k x p) t

section
variable {env : Env} {S : Ctx → Ctx → Expr → Prop} {T : Ctx → Ctx → List Elem → Prop}
  {ι : Type} {Q : {α : Type} → R α → (ι → R α) → Prop} (q : Compat Q)
  (sim : Sim env S T) {r : Rec} {r' : ι → Rec}
  (hE : ∀ {c d e}, S c d e → Q (r.expr c e) (fun i => (r' i).expr d e))
  (hT : ∀ {c d els a b}, T c d els → Q (r.tmpl c els a b) (fun i => (r' i).tmpl d els a b))
include q hE

theorem evalBool_le {c d e} (h : S c d e) : Q (evalBool r c e) (fun i => evalBool (r' i) d e) := by
  unfold evalBool
  exact q.bind (hE h) (fun _ _ => q.refl _)

theorem evalArray_le {c d e} (h : S c d e) : Q (evalArray r c e) (fun i => evalArray (r' i) d e) := by
  unfold evalArray
  exact q.bind (hE h) (fun _ _ => q.refl _)

theorem evalCollection_le {c d e} (h : S c d e) :
    Q (evalCollection r c e) (fun i => evalCollection (r' i) d e) := by
  unfold evalCollection
  exact q.bind (hE h) (fun _ _ => q.refl _)

theorem evalObjectKey_le {c d e} (h : S c d e) :
    Q (evalObjectKey env r c e) (fun i => evalObjectKey env (r' i) d e) := by
  unfold evalObjectKey
  exact q.bind (hE h) (fun _ _ => q.refl _)

theorem indexExpr_le {c d e} (h : S c d e) (v : Value) :
    Q (indexExpr r c v e) (fun i => indexExpr (r' i) d v e) := by
  unfold indexExpr
  exact q.bind (hE h) (fun _ _ => q.refl _)

omit hE in
theorem splat_le {f : Value → R Value} {g : ι → Value → R Value}
    (h : ∀ v, Q (f v) (fun i => g i v)) (v : Value) : Q (splat f v) (fun i => splat (g i) v) := by
  cases v with
  | array xs =>
    simp only [splat]
    exact q.bind (mapR_le q xs (fun a _ => h a)) (fun _ _ => q.refl _)
  | null => exact q.refl _
  | bool b => exact q.bind (h _) (fun _ _ => q.refl _)
  | number b => exact q.bind (h _) (fun _ _ => q.refl _)
  | string b => exact q.bind (h _) (fun _ _ => q.refl _)
  | object b => exact q.bind (h _) (fun _ _ => q.refl _)

theorem traverse_le {c d} (n : Nat) (ops : List TravOp) (h : ∀ i, .index i ∈ ops → S c d i)
    (v : Value) : Q (traverse r c n ops v) (fun i => traverse (r' i) d n ops v) := by
  induction n generalizing ops v with
  | zero => cases ops <;> exact q.refl _
  | succ n ih =>
    cases ops with
    | nil => exact q.refl _
    | cons op ops =>
      have hr : ∀ i, .index i ∈ ops → S c d i := fun i hi => h i (by simp [hi])
      cases op with
      | legacyIndex i =>
        simp only [traverse]
        exact q.bind (q.refl _) (fun w _ => ih ops hr w)
      | getAttr x =>
        simp only [traverse]
        exact q.bind (q.refl _) (fun w _ => ih ops hr w)
      | index e =>
        simp only [traverse]
        exact q.bind (indexExpr_le q hE (h e (by simp)) v) (fun w _ => ih ops hr w)
      | attrSplat =>
        simp only [traverse]
        refine q.bind (splat_le q (fun x => ih _ (fun i hi => ?_) x) v) (fun w _ => ?_)
        · exact hr i (List.takeWhile_prefix _ |>.subset hi)
        · exact ih _ (fun i hi => hr i ((List.dropWhile_suffix _).subset hi)) w
      | fullSplat =>
        simp only [traverse]
        exact splat_le q (fun x => ih ops hr x) v

theorem iterCond_le {c d : Ctx} {ce : Option Expr} (h : ∀ e, ce = some e → S c d e) :
    Q (iterCond r c ce) (fun i => iterCond (r' i) d ce) := by
  cases ce with
  | none => exact q.refl _
  | some e => exact evalBool_le q hE (h e rfl)

theorem forArray_le {c d k x ce ve} (hv : ∀ p, S (iterCtx c k x p) (iterCtx d k x p) ve)
    (hc : ∀ p e, ce = some e → S (iterCtx c k x p) (iterCtx d k x p) e)
    (ps : List (Value × Value)) :
    Q (forArray r c k x ce ve ps) (fun i => forArray (r' i) d k x ce ve ps) := by
  induction ps with
  | nil => exact q.refl _
  | cons p ps ih =>
    simp only [forArray]
    refine q.bind (iterCond_le q hE (hc p)) (fun b _ => ?_)
    cases b with
    | false => exact ih
    | true => exact q.bind (hE (hv p)) (fun v _ => q.bind ih (fun _ _ => q.refl _))

theorem forObject_le {c d k x ce ke ve g} (hv : ∀ p, S (iterCtx c k x p) (iterCtx d k x p) ve)
    (hk : ∀ p, S (iterCtx c k x p) (iterCtx d k x p) ke)
    (hc : ∀ p e, ce = some e → S (iterCtx c k x p) (iterCtx d k x p) e)
    (ps : List (Value × Value)) (m : List (Str × Value)) :
    Q (forObject env r c k x ce ke ve g ps m) (fun i => forObject env (r' i) d k x ce ke ve g ps m) := by
  induction ps generalizing m with
  | nil => exact q.refl _
  | cons p ps ih =>
    simp only [forObject]
    refine q.bind (iterCond_le q hE (hc p)) (fun b _ => ?_)
    cases b with
    | false => exact ih m
    | true =>
      refine q.bind (evalObjectKey_le q hE (hk p)) (fun key _ => ?_)
      refine q.bind (hE (hv p)) (fun v _ => ?_)
      exact q.bind (q.refl _) (fun m' _ => ih m')

theorem evalArgs_le {c d} (x : Bool) (args : List Expr) (h : ∀ a ∈ args, S c d a) :
    Q (evalArgs r c x args) (fun i => evalArgs (r' i) d x args) := by
  induction args with
  | nil => exact q.refl _
  | cons a as ih =>
    simp only [evalArgs]
    split
    · exact evalArray_le q hE (h a (by simp))
    · exact q.bind (hE (h a (by simp)))
        (fun v _ => q.bind (ih (fun b hb => h b (by simp [hb]))) (fun _ _ => q.refl _))

include sim

theorem evalEntry_le {c d es} (h : S c d (.object es)) (p : ObjKey × Expr) (hp : p ∈ es) :
    Q (evalEntry env r c p) (fun i => evalEntry env (r' i) d p) := by
  unfold evalEntry
  have hk : Q (evalKey env r c p.1) (fun i => evalKey env (r' i) d p.1) := by
    cases hq : p.1 with
    | ident x => exact q.refl _
    | expr e => exact evalObjectKey_le q hE (sim.objKey h p hp e hq)
  exact q.bind hk (fun k _ => q.bind (hE (sim.objVal h p hp)) (fun _ _ => q.refl _))

include hT

theorem evalTemplateExpr_le {c d t} (h : S c d (.template t)) :
    Q (evalTemplateExpr env r c t) (fun i => evalTemplateExpr env (r' i) d t) := by
  unfold evalTemplateExpr
  have ht := fun els => sim.templ (els := els) h
  revert ht
  rcases env.parseTemplate t.asStr with m | els
  · intro _; exact q.refl _
  intro ht
  have hels := ht els rfl
  split
  · exact q.refl _
  · rename_i e s heq
    injection heq with heq; subst heq
    exact hE (sim.interp hels)
  · rename_i els' _ heq
    injection heq with heq; subst heq
    exact q.bind (hT hels) (fun _ _ => q.refl _)

theorem stepExpr_le {c d e} (h0 : S c d e) : Q (stepExpr env r c e) (fun i => stepExpr env (r' i) d e) := by
  have h := sim.child h0
  clear h0
  unfold stepExpr
  cases e with
  | null => exact q.refl _
  | bool b => exact q.refl _
  | number b => exact q.refl _
  | string b => exact q.refl _
  | array xs => exact q.bind (mapR_le q xs (fun a ha => hE (sim.array h a ha))) (fun _ _ => q.refl _)
  | object es =>
    exact q.bind (mapR_le q es (fun a ha => evalEntry_le q sim hE h a ha)) (fun _ _ => q.refl _)
  | template t => exact evalTemplateExpr_le q sim hE hT h
  | var x =>
    have := sim.var h
    simp only [this]; exact q.refl _
  | traversal e ops =>
    simp only [evalTraversal]
    exact q.bind (hE (sim.trav h)) (fun v _ => traverse_le q hE _ _ (sim.travIdx h) v)
  | call n args x =>
    simp only [evalCall]
    rw [sim.func h]
    cases Ctx.func n (Ctx.child d) with
    | none => exact q.refl _
    | some f => exact q.bind (evalArgs_le q hE x args (sim.args h)) (fun _ _ => q.refl _)
  | paren e => exact hE (sim.paren h)
  | cond x t f =>
    obtain ⟨h1, h2, h3⟩ := sim.cond h
    refine q.bind (evalBool_le q hE h1) (fun b _ => ?_)
    cases b
    · exact hE h3
    · exact hE h2
  | unary o e => exact q.bind (hE (sim.unary h)) (fun _ _ => q.refl _)
  | binary l o rr =>
    obtain ⟨h1, h2⟩ := sim.binary h
    exact q.bind (hE h1) (fun _ _ => q.bind (hE h2) (fun _ _ => q.refl _))
  | forE k x coll ke ve g ce =>
    simp only [evalFor]
    refine q.bind (evalCollection_le q hE (sim.forColl h)) (fun ps _ => ?_)
    have hc : ∀ p e, ce = some e → S (iterCtx (Ctx.child c) k x p) (iterCtx (Ctx.child d) k x p) e := by
      intro p e he; subst he; exact sim.forCond h p
    cases ke with
    | none => exact q.bind (forArray_le q hE (sim.forVal h) hc ps) (fun _ _ => q.refl _)
    | some ke =>
      exact q.bind (forObject_le q hE (sim.forVal h) (sim.forKey h) hc ps []) (fun _ _ => q.refl _)

omit hE sim in
theorem forDirective_le {c d k x t a b}
    (h : ∀ p, T (iterCtx c k x p) (iterCtx d k x p) t) (ps : List (Value × Value)) :
    Q (forDirective r c k x t a b ps) (fun i => forDirective (r' i) d k x t a b ps) := by
  induction ps with
  | nil => exact q.refl _
  | cons p ps ih =>
    simp only [forDirective]
    exact q.bind (hT (h p)) (fun _ _ => q.bind ih (fun _ _ => q.refl _))

theorem evalElem_le {c d e es} (h : T c d (e :: es)) (a b : Strip) :
    Q (evalElem env r c a b e) (fun i => evalElem env (r' i) d a b e) := by
  cases e with
  | lit s => exact q.refl _
  | interp e s => exact q.bind (hE (sim.interp h)) (fun _ _ => q.refl _)
  | ifDir x t f i j k =>
    simp only [evalElem]
    refine q.bind (evalBool_le q hE (sim.ifCond h)) (fun b' _ => ?_)
    cases b' with
    | true => exact hT (sim.ifTrue h)
    | false =>
      cases f with
      | none => exact q.refl _
      | some f => exact hT (sim.ifFalse h)
  | forDir k x coll t i j =>
    simp only [evalElem]
    exact q.bind (evalCollection_le q hE (sim.forDColl h))
      (fun ps _ => forDirective_le q hT (sim.forDBody h) ps)

theorem stepTmpl_le {c d els} (h : T c d els) (a b : Strip) :
    Q (stepTmpl env r c els a b) (fun i => stepTmpl env (r' i) d els a b) := by
  induction els generalizing a with
  | nil => exact q.refl _
  | cons e es ih =>
    simp only [stepTmpl]
    exact q.bind (evalElem_le q sim hE hT h _ _)
      (fun _ _ => q.bind (ih (sim.tail h) _) (fun _ _ => q.refl _))

end

/-- Related contexts give the same results at every fuel level. -/
theorem evalF_le {env : Env} {S T} (sim : Sim env S T) (n : Nat) :
    (∀ {c d e}, S c d e → RLe ((evalF env n).expr c e) ((evalF env n).expr d e)) ∧
    (∀ {c d els a b}, T c d els → RLe ((evalF env n).tmpl c els a b) ((evalF env n).tmpl d els a b)) := by
  induction n with
  | zero => exact ⟨fun _ => RLe.refl _, fun _ => RLe.refl _⟩
  | succ n ih =>
    exact ⟨fun h => stepExpr_le Compat.le (r' := fun _ => evalF env n) sim ih.1 ih.2 h, fun h => stepTmpl_le Compat.le (r' := fun _ => evalF env n) sim ih.1 ih.2 h _ _⟩

theorem Sim.eq (env : Env) : Sim env (fun c d _ => c = d) (fun c d _ => c = d) := by
  constructor <;> intros <;> simp_all

theorem evalF_mono_succ (env : Env) (n : Nat) :
    (∀ c e, RLe ((evalF env n).expr c e) ((evalF env (n + 1)).expr c e)) ∧
    (∀ c els a b, RLe ((evalF env n).tmpl c els a b) ((evalF env (n + 1)).tmpl c els a b)) := by
  induction n with
  | zero => exact ⟨fun _ _ => RLe.timeout _, fun _ _ _ _ => RLe.timeout _⟩
  | succ n ih =>
    exact ⟨fun c e => stepExpr_le Compat.le (r' := fun _ => evalF env (n + 1)) (Sim.eq env) (fun {c d e} h => h ▸ ih.1 c e)
        (fun {c d els a b} h => h ▸ ih.2 c els a b) rfl,
      fun c els a b => stepTmpl_le Compat.le (r' := fun _ => evalF env (n + 1)) (Sim.eq env) (fun {c d e} h => h ▸ ih.1 c e)
        (fun {c d els a b} h => h ▸ ih.2 c els a b) rfl _ _⟩

theorem evalF_mono (env : Env) {n m : Nat} (h : n ≤ m) (c : Ctx) (e : Expr) :
    RLe ((evalF env n).expr c e) ((evalF env m).expr c e) := by
  induction h with
  | refl => exact RLe.refl _
  | @step m _ ih => exact ih.trans ((evalF_mono_succ env m).1 c e)

theorem evalF_mono_tmpl (env : Env) {n m : Nat} (h : n ≤ m) (c : Ctx) (els : List Elem)
    (a b : Strip) : RLe ((evalF env n).tmpl c els a b) ((evalF env m).tmpl c els a b) := by
  induction h with
  | refl => exact RLe.refl _
  | @step m _ ih => exact ih.trans ((evalF_mono_succ env m).2 c els a b)

/-- The recursive calls with enough fuel. -/
noncomputable def evalRec (env : Env) : Rec := ⟨eval env, evalTmpl env⟩

/-- A computed result is the result. -/
theorem eval_of_evalF {env : Env} {c : Ctx} {e : Expr} {r : R Value} (n : Nat)
    (h : (evalF env n).expr c e = r) (hr : r ≠ .error .timeout) : eval env c e = r := by
  have hex : ∃ n, (evalF env n).expr c e ≠ .error .timeout := ⟨n, by rw [h]; exact hr⟩
  rw [eval, dif_pos hex]
  have hm := Classical.choose_spec hex
  have h1 := (evalF_mono env (Nat.le_max_left n (Classical.choose hex)) c e).eq (by rw [h]; exact hr)
  have h2 := (evalF_mono env (Nat.le_max_right n (Classical.choose hex)) c e).eq hm
  rw [← h2, h1, h]

theorem evalTmpl_of_evalF {env : Env} {c : Ctx} {e : List Elem} {a b : Strip} {r : R Str} (n : Nat)
    (h : (evalF env n).tmpl c e a b = r) (hr : r ≠ .error .timeout) : evalTmpl env c e a b = r := by
  have hex : ∃ n, (evalF env n).tmpl c e a b ≠ .error .timeout := ⟨n, by rw [h]; exact hr⟩
  rw [evalTmpl, dif_pos hex]
  have hm := Classical.choose_spec hex
  have h1 := (evalF_mono_tmpl env (Nat.le_max_left n (Classical.choose hex)) c e a b).eq
    (by rw [h]; exact hr)
  have h2 := (evalF_mono_tmpl env (Nat.le_max_right n (Classical.choose hex)) c e a b).eq hm
  rw [← h2, h1, h]

theorem evalF_le_eval (env : Env) (n : Nat) (c : Ctx) (e : Expr) :
    RLe ((evalF env n).expr c e) (eval env c e) := by
  by_cases h : (evalF env n).expr c e = .error .timeout
  · exact Or.inl h
  · exact Or.inr (eval_of_evalF n rfl h).symm

theorem evalF_le_evalTmpl (env : Env) (n : Nat) (c : Ctx) (e : List Elem) (a b : Strip) :
    RLe ((evalF env n).tmpl c e a b) (evalTmpl env c e a b) := by
  by_cases h : (evalF env n).tmpl c e a b = .error .timeout
  · exact Or.inl h
  · exact Or.inr (evalTmpl_of_evalF n rfl h).symm

/-- `a` is not a result, or the family settles on it. -/
def Settles {α : Type} (a : R α) (b : Nat → R α) : Prop :=
  a = .error .timeout ∨ ∃ n, ∀ m, n ≤ m → b m = a

theorem Compat.settles : Compat (ι := Nat) (fun a b => Settles a b) := by
  constructor
  · intro α a; exact Or.inr ⟨0, fun _ _ => rfl⟩
  · intro α β a b f g h hf
    rcases h with h | ⟨n, h⟩
    · subst h; exact Or.inl rfl
    · cases a with
      | error e => exact Or.inr ⟨n, fun m hm => by simp only [h m hm]; rfl⟩
      | ok x =>
        rcases hf x rfl with h' | ⟨n', h'⟩
        · exact Or.inl h'
        · refine Or.inr ⟨max n n', fun m hm => ?_⟩
          simp only [h m (by omega)]; exact h' m (by omega)

theorem eval_settles (env : Env) (c : Ctx) (e : Expr) :
    Settles (eval env c e) (fun i => (evalF env i).expr c e) := by
  by_cases h : ∃ n, (evalF env n).expr c e ≠ .error .timeout
  · obtain ⟨n, hn⟩ := h
    refine Or.inr ⟨n, fun m hm => ?_⟩
    exact ((evalF_mono env hm c e).eq hn).trans (eval_of_evalF n rfl hn).symm
  · rw [eval, dif_neg h]; exact Or.inl rfl

theorem evalTmpl_settles (env : Env) (c : Ctx) (e : List Elem) (a b : Strip) :
    Settles (evalTmpl env c e a b) (fun i => (evalF env i).tmpl c e a b) := by
  by_cases h : ∃ n, (evalF env n).tmpl c e a b ≠ .error .timeout
  · obtain ⟨n, hn⟩ := h
    refine Or.inr ⟨n, fun m hm => ?_⟩
    exact ((evalF_mono_tmpl env hm c e a b).eq hn).trans (evalTmpl_of_evalF n rfl hn).symm
  · rw [evalTmpl, dif_neg h]; exact Or.inl rfl

/-- The evaluator is a fixed point of its step. -/
theorem eval_eq (env : Env) (c : Ctx) (e : Expr) :
    eval env c e = stepExpr env (evalRec env) c e := by
  by_cases h : eval env c e = .error .timeout
  · have hs := stepExpr_le Compat.settles (r := evalRec env) (r' := fun i => evalF env i) (Sim.eq env)
      (fun {c d e} h => h ▸ eval_settles env c e)
      (fun {c d els a b} h => h ▸ evalTmpl_settles env c els a b) (c := c) (d := c) (e := e) rfl
    rcases hs with hs | ⟨n, hn⟩
    · rw [h, hs]
    · have hn' : (evalF env (n + 1)).expr c e = stepExpr env (evalRec env) c e := hn n (Nat.le_refl _)
      by_cases hc : stepExpr env (evalRec env) c e = .error .timeout
      · rw [h, hc]
      · exact eval_of_evalF (n + 1) hn' hc
  · rcases eval_settles env c e with h' | ⟨n, hn⟩
    · exact absurd h' h
    · have h1 := hn (n + 1) (by omega)
      have := stepExpr_le Compat.le (r := evalF env n) (r' := fun _ => evalRec env) (Sim.eq env)
        (fun {c d e} h => h ▸ evalF_le_eval env n c e)
        (fun {c d els a b} h => h ▸ evalF_le_evalTmpl env n c els a b) (c := c) (d := c) (e := e) rfl
      have h2 : stepExpr env (evalF env n) c e = eval env c e := h1
      exact (((this.eq (by rw [h2]; exact h)).trans h2).symm)

theorem evalTmpl_eq (env : Env) (c : Ctx) (e : List Elem) (a b : Strip) :
    evalTmpl env c e a b = stepTmpl env (evalRec env) c e a b := by
  by_cases h : evalTmpl env c e a b = .error .timeout
  · have hs := stepTmpl_le Compat.settles (r := evalRec env) (r' := fun i => evalF env i) (Sim.eq env)
      (fun {c d e} h => h ▸ eval_settles env c e)
      (fun {c d els a b} h => h ▸ evalTmpl_settles env c els a b) (c := c) (d := c) (els := e) rfl a b
    rcases hs with hs | ⟨n, hn⟩
    · rw [h, hs]
    · have hn' : (evalF env (n + 1)).tmpl c e a b = stepTmpl env (evalRec env) c e a b :=
        hn n (Nat.le_refl _)
      by_cases hc : stepTmpl env (evalRec env) c e a b = .error .timeout
      · rw [h, hc]
      · exact evalTmpl_of_evalF (n + 1) hn' hc
  · rcases evalTmpl_settles env c e a b with h' | ⟨n, hn⟩
    · exact absurd h' h
    · have h1 := hn (n + 1) (by omega)
      have := stepTmpl_le Compat.le (r := evalF env n) (r' := fun _ => evalRec env) (Sim.eq env)
        (fun {c d e} h => h ▸ evalF_le_eval env n c e)
        (fun {c d els a b} h => h ▸ evalF_le_evalTmpl env n c els a b)
        (c := c) (d := c) (els := e) rfl a b
      have h2 : stepTmpl env (evalF env n) c e a b = evalTmpl env c e a b := h1
      exact (((this.eq (by rw [h2]; exact h)).trans h2).symm)

theorem RLe.antisymm {α : Type} {a b : R α} (h : RLe a b) (h' : RLe b a) : a = b := by
  rcases h with h | h
  · rcases h' with h' | h'
    · rw [h, h']
    · exact h'.symm
  · exact h

theorem eval_le {env : Env} {c d : Ctx} {e : Expr}
    (h : ∀ n, RLe ((evalF env n).expr c e) ((evalF env n).expr d e)) :
    RLe (eval env c e) (eval env d e) := by
  rcases eval_settles env c e with h1 | ⟨n, hn⟩
  · exact Or.inl h1
  · have := hn n (Nat.le_refl _)
    exact this ▸ (h n).trans (evalF_le_eval env n d e)

theorem evalTmpl_le {env : Env} {c d : Ctx} {e : List Elem} {a b : Strip}
    (h : ∀ n, RLe ((evalF env n).tmpl c e a b) ((evalF env n).tmpl d e a b)) :
    RLe (evalTmpl env c e a b) (evalTmpl env d e a b) := by
  rcases evalTmpl_settles env c e a b with h1 | ⟨n, hn⟩
  · exact Or.inl h1
  · have := hn n (Nat.le_refl _)
    exact this ▸ (h n).trans (evalF_le_evalTmpl env n d e a b)

/-- Related contexts give the same result. -/
theorem eval_congr {env : Env} {S T} (sim : Sim env S T) {c d e} (h : S c d e)
    (hs : ∀ {c d e}, S c d e → S d c e) : eval env c e = eval env d e :=
  (eval_le fun n => (evalF_le sim n).1 h).antisymm (eval_le fun n => (evalF_le sim n).1 (hs h))

theorem evalTmpl_congr {env : Env} {S T} (sim : Sim env S T) {c d e a b} (h : T c d e)
    (ht : ∀ {c d e}, T c d e → T d c e) :
    evalTmpl env c e a b = evalTmpl env d e a b :=
  (evalTmpl_le fun n => (evalF_le sim n).2 h).antisymm
    (evalTmpl_le fun n => (evalF_le sim n).2 (ht h))

/-- Two contexts with the same lookups. -/
def SameLookups (c d : Ctx) : Prop :=
  (∀ x, c.var x = d.var x) ∧ (∀ n, c.func n = d.func n)

theorem Map.get?_insert {K V : Type} [DecidableEq K] (k k' : K) (v : V) (m : List (K × V)) :
    Map.get? k' (Map.insert k v m) = if k = k' then some v else Map.get? k' m := by
  induction m with
  | nil => simp [Map.insert, Map.get?]
  | cons p m ih =>
    obtain ⟨a, b⟩ := p
    by_cases h : a = k
    · subst h
      simp only [Map.insert, if_true, Map.get?]
      split <;> rfl
    · simp only [Map.insert, if_neg h, Map.get?, ih]
      by_cases h2 : a = k'
      · subst h2
        have : ¬ k = a := fun h3 => h h3.symm
        simp [this]
      · simp [h2]

theorem Ctx.child_var (c : Ctx) (x : Str) : c.child.var x = c.var x := rfl
theorem Ctx.child_func (c : Ctx) (x : FuncName) : c.child.func x = c.func x := rfl

theorem Ctx.declareVar_var (c : Ctx) (x y : Str) (v : Value) :
    (Ctx.declareVar x v c).var y = if x = y then some v else c.var y := by
  cases c with
  | nil =>
    simp only [Ctx.declareVar, Ctx.var, Map.get?]
    by_cases h : x = y <;> simp [h]
  | cons f c =>
    simp only [Ctx.declareVar, Ctx.var, Map.get?_insert]
    by_cases h : x = y <;> simp [h]

theorem Ctx.declareVar_func (c : Ctx) (x : Str) (v : Value) (n : FuncName) :
    (Ctx.declareVar x v c).func n = c.func n := by
  cases c <;> rfl

/-- What the loop variables of an iteration are bound to. -/
theorem iterCtx_var (c : Ctx) (k : Option Str) (x : Str) (p : Value × Value) (y : Str) :
    (iterCtx c k x p).var y =
      if x = y then some p.2 else if k = some y then some p.1 else c.var y := by
  cases k with
  | none => simp only [iterCtx, Ctx.declareVar_var, Ctx.child_var]; simp
  | some k => simp only [iterCtx, Ctx.declareVar_var, Ctx.child_var]; simp

theorem iterCtx_func (c : Ctx) (k : Option Str) (x : Str) (p : Value × Value) (n : FuncName) :
    (iterCtx c k x p).func n = c.func n := by
  cases k <;> simp only [iterCtx, Ctx.declareVar_func, Ctx.child_func]

theorem SameLookups.iter {c d : Ctx} (h : SameLookups c d) (k : Option Str) (x : Str)
    (p : Value × Value) : SameLookups (iterCtx c k x p) (iterCtx d k x p) :=
  ⟨fun y => by rw [iterCtx_var, iterCtx_var, h.1], fun n => by rw [iterCtx_func, iterCtx_func, h.2]⟩

theorem Sim.lookups (env : Env) :
    Sim env (fun c d _ => SameLookups c d) (fun c d _ => SameLookups c d) := by
  constructor <;> intros <;> first
    | assumption
    | (rename_i h; exact h.1 _)
    | (rename_i h; exact h.2 _)
    | (exact ⟨by assumption, by assumption⟩)
    | (exact ⟨by assumption, by assumption, by assumption⟩)
    | (apply SameLookups.iter; assumption)
    | skip

theorem eval_same {env : Env} {c d : Ctx} (h : SameLookups c d) (e : Expr) :
    eval env c e = eval env d e :=
  eval_congr (Sim.lookups env) h (fun h => ⟨fun x => (h.1 x).symm, fun x => (h.2 x).symm⟩)

theorem evalTmpl_same {env : Env} {c d : Ctx} (h : SameLookups c d) (e : List Elem) (a b : Strip) :
    evalTmpl env c e a b = evalTmpl env d e a b :=
  evalTmpl_congr (Sim.lookups env) h (fun h => ⟨fun x => (h.1 x).symm, fun x => (h.2 x).symm⟩)

theorem SameLookups.child (c : Ctx) : SameLookups c.child c := ⟨fun _ => rfl, fun _ => rfl⟩

/-- The empty frame pushed for every expression does not matter. -/
theorem eval_child (env : Env) (c : Ctx) (e : Expr) : eval env c.child e = eval env c e :=
  eval_same (SameLookups.child c) e

theorem evalTmpl_child (env : Env) (c : Ctx) (e : List Elem) (a b : Strip) :
    evalTmpl env c.child e a b = evalTmpl env c e a b :=
  evalTmpl_same (SameLookups.child c) e a b

end Verif
