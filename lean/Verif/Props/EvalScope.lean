import Verif.Lemmas.EvalRules
import Verif.Spec.Eval
/-! Properties C34 (lexical scoping) and C35 (conditionals). -/

namespace Verif
open Verif.Spec

theorem Ctx.var_eq_some_iff (ctx : Ctx) (x : Str) (v : Value) :
    ctx.var x = some v ↔ Innermost ctx x v := by
  induction ctx with
  | nil =>
    constructor
    · intro h; cases h
    · rintro ⟨inner, f, outer, h, _⟩
      cases inner <;> cases h
  | cons f ctx ih =>
    simp only [Ctx.var]
    cases hf : Map.get? x f.vars with
    | some w =>
      constructor
      · intro h; cases h
        exact ⟨[], f, ctx, rfl, hf, fun _ h => by cases h⟩
      · rintro ⟨inner, g, outer, h, hg, hn⟩
        cases inner with
        | nil => injection h with h1 h2; subst h1; rw [hf] at hg; exact hg
        | cons a inner =>
          injection h with h1 h2; subst h1
          have := hn f (List.mem_cons_self ..)
          rw [hf] at this; cases this
    | none =>
      simp only [ih]
      constructor
      · rintro ⟨inner, g, outer, h, hg, hn⟩
        refine ⟨f :: inner, g, outer, by rw [h]; rfl, hg, ?_⟩
        intro a ha
        cases ha with
        | head => exact hf
        | tail _ ha => exact hn a ha
      · rintro ⟨inner, g, outer, h, hg, hn⟩
        cases inner with
        | nil => injection h with h1 h2; subst h1; rw [hf] at hg; cases hg
        | cons a inner =>
          injection h with h1 h2; subst h1
          exact ⟨inner, g, outer, h2, hg, fun b hb => hn b (List.mem_cons_of_mem _ hb)⟩

theorem Ctx.var_eq_none_iff (ctx : Ctx) (x : Str) : ctx.var x = none ↔ Undeclared ctx x := by
  induction ctx with
  | nil => simp [Ctx.var, Undeclared]
  | cons f ctx ih =>
    simp only [Ctx.var, Undeclared, List.mem_cons, forall_eq_or_imp]
    cases hf : Map.get? x f.vars with
    | some w => simp
    | none => simp only [ih, Undeclared, true_and]

theorem iterCtx_agree {c d : Ctx} {k : Option Str} {x : Str} {p : Value × Value} {y : Str}
    (h : NotBound k x (.var y) → c.var y = d.var y) :
    (iterCtx c k x p).var y = (iterCtx d k x p).var y := by
  rw [iterCtx_var, iterCtx_var]
  by_cases h1 : x = y
  · rw [if_pos h1, if_pos h1]
  · rw [if_neg h1, if_neg h1]
    by_cases h2 : k = some y
    · rw [if_pos h2, if_pos h2]
    · rw [if_neg h2, if_neg h2]
      apply h
      refine ⟨fun h => by injection h with h; exact h1 h.symm, fun z hz h => ?_⟩
      injection h with h; subst h; exact h2 hz

/-- The contexts agree on the free names. -/
def Agree (P : Name → Prop) (c d : Ctx) : Prop :=
  (∀ x, P (.var x) → c.var x = d.var x) ∧ ∀ f, P (.func f) → c.func f = d.func f

theorem Agree.mono {P Q : Name → Prop} {c d : Ctx} (h : Agree P c d) (hq : ∀ n, Q n → P n) :
    Agree Q c d := ⟨fun x hx => h.1 x (hq _ hx), fun f hf => h.2 f (hq _ hf)⟩

theorem Agree.iter {P Q : Name → Prop} {c d : Ctx} {k : Option Str} {x : Str} (h : Agree P c d)
    (hq : ∀ n, NotBound k x n → Q n → P n) (p : Value × Value) :
    Agree Q (iterCtx c k x p) (iterCtx d k x p) := by
  refine ⟨fun y hy => iterCtx_agree fun hb => h.1 y (hq _ hb hy), fun f hf => ?_⟩
  rw [iterCtx_func, iterCtx_func]
  exact h.2 f (hq _ ⟨fun h => (by cases h), fun _ _ h => (by cases h)⟩ hf)

theorem Sim.free (env : Env) : Sim env (fun c d e => Agree (fun n => Free env n e) c d)
    (fun c d els => Agree (fun n => FreeT env n els) c d) where
  child h := h
  array h x hx := h.mono fun n hn => .array hx hn
  objKey h p hp k hk := h.mono fun n hn => .objKey (v := p.2) (by rw [← hk]; exact hp) hn
  objVal h p hp := h.mono fun n hn => .objVal (k := p.1) hp hn
  templ h ht := h.mono fun n hn => .template ht hn
  var h := h.1 _ .var
  trav h := h.mono fun n hn => .trav hn
  travIdx h i hi := h.mono fun n hn => .travIdx hi hn
  func h := h.2 _ .func
  args h a ha := h.mono fun n hn => .arg ha hn
  paren h := h.mono fun n hn => .paren hn
  cond h := ⟨h.mono fun n hn => .cond hn, h.mono fun n hn => .condT hn, h.mono fun n hn => .condF hn⟩
  unary h := h.mono fun n hn => .unary hn
  binary h := ⟨h.mono fun n hn => .binL hn, h.mono fun n hn => .binR hn⟩
  forColl h := h.mono fun n hn => .forColl hn
  forVal h p := h.iter (fun n hb hn => .forVal hb hn) p
  forKey h p := h.iter (fun n hb hn => .forKey hb hn) p
  forCond h p := h.iter (fun n hb hn => .forCond hb hn) p
  tail h := h.mono fun n hn => by
    cases hn with
    | interp h1 h2 => exact .interp (List.mem_cons_of_mem _ h1) h2
    | ifCond h1 h2 => exact .ifCond (List.mem_cons_of_mem _ h1) h2
    | ifTrue h1 h2 => exact .ifTrue (List.mem_cons_of_mem _ h1) h2
    | ifFalse h1 h2 => exact .ifFalse (List.mem_cons_of_mem _ h1) h2
    | forColl h1 h2 => exact .forColl (List.mem_cons_of_mem _ h1) h2
    | forBody h1 h2 h3 => exact .forBody (List.mem_cons_of_mem _ h1) h2 h3
  interp h := h.mono fun n hn => .interp (List.mem_cons_self ..) hn
  ifCond h := h.mono fun n hn => .ifCond (List.mem_cons_self ..) hn
  ifTrue h := h.mono fun n hn => .ifTrue (List.mem_cons_self ..) hn
  ifFalse h := h.mono fun n hn => .ifFalse (List.mem_cons_self ..) hn
  forDColl h := h.mono fun n hn => .forColl (List.mem_cons_self ..) hn
  forDBody h p := h.iter (fun n hb hn => .forBody (List.mem_cons_self ..) hb hn) p

theorem Agree.symm {P : Name → Prop} {c d : Ctx} (h : Agree P c d) : Agree P d c :=
  ⟨fun x hx => (h.1 x hx).symm, fun f hf => (h.2 f hf).symm⟩

namespace Props

/-- C34: a variable evaluates to its innermost declaration. -/
theorem C34_innermost (env : Env) (ctx : Ctx) (x : Str) (v : Value) :
    eval env ctx (.var x) = .ok v ↔ Innermost ctx x v := by
  rw [eval_var, ← Ctx.var_eq_some_iff]
  cases ctx.var x with
  | none => simp [R.err]
  | some w => simp

/-- C34: a variable that no scope declares is an error naming it. -/
theorem C34_undeclared (env : Env) (ctx : Ctx) (x : Str) (h : Undeclared ctx x) :
    eval env ctx (.var x) = R.err (.undefinedVar x) := by
  rw [eval_var, (Ctx.var_eq_none_iff ctx x).2 h]

/-- C34: declaring a variable (also one that is declared already) makes it evaluate to the new
value and leaves every other variable and every function alone. -/
theorem C34_declare (env : Env) (ctx : Ctx) (x : Str) (v : Value) :
    eval env (Ctx.declareVar x v ctx) (.var x) = .ok v ∧
    (∀ y, y ≠ x → eval env (Ctx.declareVar x v ctx) (.var y) = eval env ctx (.var y)) ∧
    ∀ f, (Ctx.declareVar x v ctx).func f = ctx.func f := by
  refine ⟨?_, ?_, fun f => Ctx.declareVar_func ctx x v f⟩
  · rw [eval_var, Ctx.declareVar_var, if_pos rfl]
  · intro y hy
    rw [eval_var, eval_var, Ctx.declareVar_var, if_neg (fun h => hy h.symm)]

/-- C34: a declaration in a child scope shadows; the parent is what is seen for all other names. -/
theorem C34_child (env : Env) (ctx : Ctx) (x : Str) (v : Value) (e : Expr)
    (h : ¬ Free env (.var x) e) :
    eval env (Ctx.declareVar x v ctx.child) e = eval env ctx e := by
  apply eval_congr (Sim.free env) _ Agree.symm
  refine ⟨fun y hy => ?_, fun f _ => Ctx.declareVar_func _ x v f⟩
  rw [Ctx.declareVar_var]
  by_cases hxy : x = y
  · subst hxy; exact absurd hy h
  · rw [if_neg hxy]; rfl

/-- C34: the result depends only on the names that occur free in the expression (loop variables do
not count as occurrences). -/
theorem C34_free_names (env : Env) (c d : Ctx) (e : Expr)
    (hv : ∀ x, Free env (.var x) e → c.var x = d.var x)
    (hf : ∀ f, Free env (.func f) e → c.func f = d.func f) :
    eval env c e = eval env d e :=
  eval_congr (Sim.free env) ⟨hv, hf⟩ Agree.symm

/-- C34: loop variables do not leak: what is evaluated next to a `for` expression is evaluated in
the scope the `for` expression itself was evaluated in. -/
theorem C34_no_leak (env : Env) (ctx : Ctx) (k : Option Str) (x : Str) (coll : Expr)
    (ke : Option Expr) (ve : Expr) (g : Bool) (ce : Option Expr) (e : Expr) (v w : Value)
    (h1 : eval env ctx (.forE k x coll ke ve g ce) = .ok v) (h2 : eval env ctx e = .ok w) :
    eval env ctx (.array [.forE k x coll ke ve g ce, e]) = .ok (.array [v, w]) := by
  rw [eval_array]
  simp only [mapR, h1, h2, R.bind]

/-- C35: a true condition selects the first branch, whatever the second is. -/
theorem C35_true (env : Env) (ctx : Ctx) (c t f : Expr)
    (h : eval env ctx c = .ok (.bool true)) : eval env ctx (.cond c t f) = eval env ctx t := by
  rw [eval_cond]
  show R.bind (R.bind (eval env ctx c) _) _ = _
  rw [h]; rfl

/-- C35: a false condition selects the second branch, whatever the first is. -/
theorem C35_false (env : Env) (ctx : Ctx) (c t f : Expr)
    (h : eval env ctx c = .ok (.bool false)) : eval env ctx (.cond c t f) = eval env ctx f := by
  rw [eval_cond]
  show R.bind (R.bind (eval env ctx c) _) _ = _
  rw [h]; rfl

/-- C35: a condition that is not a boolean is an error. -/
theorem C35_not_bool (env : Env) (ctx : Ctx) (c t f : Expr) (v : Value)
    (h : eval env ctx c = .ok v) (hv : ∀ b, v ≠ .bool b) :
    eval env ctx (.cond c t f) = R.err (.unexpected v c!"a boolean") := by
  rw [eval_cond]
  show R.bind (R.bind (eval env ctx c) _) _ = _
  rw [h]
  cases v with
  | bool b => exact absurd rfl (hv b)
  | _ => rfl

/-- C35: a failing condition is the failure of the conditional. -/
theorem C35_cond_fails (env : Env) (ctx : Ctx) (c t f : Expr) (e : Fail)
    (h : eval env ctx c = .error e) : eval env ctx (.cond c t f) = .error e := by
  rw [eval_cond]
  show R.bind (R.bind (eval env ctx c) _) _ = _
  rw [h]; rfl

/-! Concrete cases. -/

/-- An environment for examples. -/
def exEnv : Env where
  build := .release
  uni := Uni.ascii
  parseTemplate s := if s = c!"${x}" then .ok [.interp (.var c!"x") .none] else .ok [.lit s]
  showValue _ := c!"?"
  showNumber _ := c!"7"

-- C34: `x` is declared twice; the inner declaration wins.
example : Innermost [⟨[], []⟩, ⟨[(c!"x", .bool true)], []⟩, ⟨[(c!"x", .null)], []⟩] c!"x" (.bool true) :=
  ⟨[⟨[], []⟩], ⟨[(c!"x", .bool true)], []⟩, _, rfl, rfl, by simp [Map.get?]⟩

-- C34: `[for x in y : x]` does not have `x` free, but has `y` free.
example : ¬ Free exEnv (.var c!"x") (.forE none c!"x" (.var c!"y") none (.var c!"x") false none) := by
  intro h
  cases h with
  | forColl h => cases h
  | forVal h _ => exact h.1 rfl

example : Free exEnv (.var c!"y") (.forE none c!"x" (.var c!"y") none (.var c!"x") false none) :=
  .forColl .var

-- C34: names inside a template count.
example : Free exEnv (.var c!"x") (.template (.quoted c!"${x}")) :=
  .template (els := [.interp (.var c!"x") .none]) rfl (.interp (List.mem_cons_self ..) .var)

-- C35: the other branch refers to an undeclared variable.
example : eval exEnv Ctx.new (.cond (.bool true) (.string c!"a") (.var c!"undeclared")) =
    .ok (.string c!"a") := by
  rw [C35_true _ _ _ _ _ (eval_bool true), eval_string]

end Props
end Verif
