import Verif.Spec.Halt
import Verif.Lemmas.EvalSim
/-! Helper lemmas for C76: evaluation ends, and what can go wrong. -/

namespace Verif.Spec
open Verif

/-- A failure satisfies the predicate. -/
def Safe {α : Type} (Q : Fail → Prop) (r : R α) : Prop := ∀ f, r = .error f → Q f

variable {Q : Fail → Prop}

theorem Safe.ok {α : Type} {a : α} : Safe Q (.ok a : R α) := fun _ h => by cases h
theorem Safe.err {α : Type} (hQ : ∀ k, Q (.err k)) {k : EvalErr} : Safe Q (R.err k : R α) :=
  fun f h => by cases h; exact hQ k

theorem Safe.bind {α β : Type} {a : R α} {g : α → R β} (h1 : Safe Q a) (h2 : ∀ x, a = .ok x → Safe Q (g x)) :
    Safe Q (R.bind a g) := by
  cases a with
  | error e => intro f h; exact h1 f (by simpa [R.bind] using h)
  | ok x => exact h2 x rfl

theorem Safe.mapR {α β : Type} {g : α → R β} {as : List α} (h : ∀ a ∈ as, Safe Q (g a)) : Safe Q (mapR g as) := by
  induction as with
  | nil => exact .ok
  | cons a as ih =>
    exact .bind (h a (List.mem_cons_self ..)) fun _ _ =>
      .bind (ih fun x hx => h x (List.mem_cons_of_mem _ hx)) fun _ _ => .ok

section
variable {env : Env} {rec : Rec} (hQ : ∀ k, Q (.err k))
include hQ

theorem safe_bool {ctx : Ctx} {e : Expr} (h : Safe Q (rec.expr ctx e)) : Safe Q (evalBool rec ctx e) :=
  .bind h fun v _ => by cases v <;> first | exact .ok | exact .err hQ

theorem safe_key {ctx : Ctx} {e : Expr} (h : Safe Q (rec.expr ctx e)) : Safe Q (evalObjectKey env rec ctx e) :=
  .bind h fun v _ => by cases v <;> first | exact .ok | exact .err hQ

theorem safe_array {ctx : Ctx} {e : Expr} (h : Safe Q (rec.expr ctx e)) : Safe Q (evalArray rec ctx e) :=
  .bind h fun v _ => by cases v <;> first | exact .ok | exact .err hQ

theorem safe_coll {ctx : Ctx} {e : Expr} (h : Safe Q (rec.expr ctx e)) : Safe Q (evalCollection rec ctx e) :=
  .bind h fun v _ => by cases v <;> first | exact .ok | exact .err hQ

theorem safe_arrayValue {v : Value} {i : Nat} : Safe Q (arrayValue v i) := by
  unfold arrayValue
  split
  · split
    · exact .ok
    · exact .err hQ
  · exact .err hQ

theorem safe_objectValue {v : Value} {k : Str} : Safe Q (objectValue v k) := by
  unfold objectValue
  split
  · split
    · exact .ok
    · exact .err hQ
  · exact .err hQ

theorem safe_index {ctx : Ctx} {v : Value} {e : Expr} (h : Safe Q (rec.expr ctx e)) :
    Safe Q (indexExpr rec ctx v e) := by
  refine .bind h fun i _ => ?_
  split
  · exact safe_objectValue hQ
  · split
    · exact safe_arrayValue hQ
    · exact .err hQ
  · exact .err hQ

theorem safe_splat {g : Value → R Value} (h : ∀ v, Safe Q (g v)) {v : Value} : Safe Q (splat g v) := by
  unfold splat
  split
  · exact .bind (.mapR fun a _ => h a) fun _ _ => .ok
  · exact .ok
  · exact .bind (h _) fun _ _ => .ok

theorem safe_traverse {ctx : Ctx} : ∀ {n : Nat} {ops : List TravOp} {v : Value}, ops.length ≤ n →
    (∀ i, .index i ∈ ops → Safe Q (rec.expr ctx i)) → Safe Q (traverse rec ctx n ops v) := by
  intro n
  induction n with
  | zero =>
    intro ops v hl _
    cases ops with
    | nil => rw [traverse]; exact .ok
    | cons _ _ => simp at hl
  | succ n ih =>
    intro ops v hl h
    cases ops with
    | nil => rw [traverse]; exact .ok
    | cons op ops =>
      have hl' : ops.length ≤ n := by simpa using hl
      have hr : ∀ {w}, Safe Q (traverse rec ctx n ops w) :=
        ih hl' fun i hi => h i (List.mem_cons_of_mem _ hi)
      rw [traverse.eq_def]
      dsimp only
      split
      · exact .bind (safe_arrayValue hQ) fun _ _ => hr
      · exact .bind (safe_index hQ (h _ (List.mem_cons_self ..))) fun _ _ => hr
      · exact .bind (safe_objectValue hQ) fun _ _ => hr
      · refine .bind (safe_splat hQ fun x => ih ?_ fun i hi => ?_) fun _ _ => ih ?_ fun i hi => ?_
        · exact Nat.le_trans (List.takeWhile_sublist _).length_le hl'
        · exact h i (List.mem_cons_of_mem _ ((List.takeWhile_sublist _).subset hi))
        · exact Nat.le_trans (List.dropWhile_sublist _).length_le hl'
        · exact h i (List.mem_cons_of_mem _ ((List.dropWhile_sublist _).subset hi))
      · exact safe_splat hQ fun x => hr

theorem safe_cond {ctx : Ctx} {ce : Option Expr} (h : ∀ e, ce = some e → Safe Q (rec.expr ctx e)) :
    Safe Q (iterCond rec ctx ce) := by
  cases ce with
  | none => exact .ok
  | some e => exact safe_bool hQ (h e rfl)

omit hQ in
theorem suffix_child (c : Ctx) : c <:+ c.child := List.suffix_cons ..

omit hQ in
theorem suffix_iter (c : Ctx) (k : Option Str) (x : Str) (p : Value × Value) : c <:+ iterCtx c k x p := by
  cases k <;> exact List.suffix_cons ..

theorem safe_forArray {ctx : Ctx} {k : Option Str} {x : Str} {ce : Option Expr} {ve : Expr}
    (hc : ∀ c e, ctx <:+ c → ce = some e → Safe Q (rec.expr c e)) (hv : ∀ c, ctx <:+ c → Safe Q (rec.expr c ve)) :
    ∀ ps, Safe Q (forArray rec ctx k x ce ve ps) := by
  intro ps
  induction ps with
  | nil => exact .ok
  | cons p ps ih =>
    rw [forArray]
    refine .bind (safe_cond hQ fun e => hc _ e (suffix_iter ..)) fun pass _ => ?_
    split
    · exact .bind (hv _ (suffix_iter ..)) fun _ _ => .bind ih fun _ _ => .ok
    · exact ih

omit hQ in
theorem groupPush_inv {k : Str} {v : Value} {m : List (Str × Value)} (hm : ∀ e ∈ m, ∃ vs, e.2 = .array vs) :
    Safe Q (groupPush k v m) ∧ ∀ m', groupPush k v m = .ok m' → ∀ e ∈ m', ∃ vs, e.2 = .array vs := by
  have hins : ∀ vs, ∀ e ∈ Map.insert k (.array vs) m, ∃ vs, e.2 = .array vs := by
    intro vs
    induction m with
    | nil => intro e he; rw [List.mem_singleton.mp he]; exact ⟨_, rfl⟩
    | cons a m ih =>
      intro e he
      have ih := ih fun e he => hm e (List.mem_cons_of_mem _ he)
      obtain ⟨ak, av⟩ := a
      rw [Map.insert] at he
      split at he
      · rcases List.mem_cons.mp he with rfl | he
        · exact ⟨_, rfl⟩
        · exact hm e (List.mem_cons_of_mem _ he)
      · rcases List.mem_cons.mp he with rfl | he
        · exact hm _ (List.mem_cons_self ..)
        · exact ih e he
  unfold groupPush
  split
  · exact ⟨.ok, fun m' h => by cases h; exact hins _⟩
  · exact ⟨.ok, fun m' h => by cases h; exact hins _⟩
  · rename_i w hw hg
    exfalso
    have : ∃ e ∈ m, e.2 = w := by
      clear hins hm hw
      induction m with
      | nil => cases hg
      | cons a m ih =>
        obtain ⟨ak, av⟩ := a
        rw [Map.get?] at hg
        split at hg
        · cases hg; exact ⟨_, List.mem_cons_self .., rfl⟩
        · obtain ⟨e, he, h⟩ := ih hg; exact ⟨e, List.mem_cons_of_mem _ he, h⟩
    obtain ⟨e, he, rfl⟩ := this
    obtain ⟨vs, h⟩ := hm e he
    exact hw vs h

theorem safe_forObject {ctx : Ctx} {k : Option Str} {x : Str} {ce : Option Expr} {ke ve : Expr} {g : Bool}
    (hc : ∀ c e, ctx <:+ c → ce = some e → Safe Q (rec.expr c e)) (hk : ∀ c, ctx <:+ c → Safe Q (rec.expr c ke))
    (hv : ∀ c, ctx <:+ c → Safe Q (rec.expr c ve)) : ∀ ps m, (g = true → ∀ e ∈ m, ∃ vs, e.2 = Value.array vs) →
    Safe Q (forObject env rec ctx k x ce ke ve g ps m) := by
  intro ps
  induction ps with
  | nil => intro m _; exact .ok
  | cons p ps ih =>
    intro m hm
    rw [forObject]
    refine .bind (safe_cond hQ fun e => hc _ e (suffix_iter ..)) fun pass _ => ?_
    split
    · refine .bind (safe_key hQ (hk _ (suffix_iter ..))) fun key _ => .bind (hv _ (suffix_iter ..)) fun v _ => ?_
      cases g with
      | true =>
        have := groupPush_inv (Q := Q) (k := key) (v := v) (hm rfl)
        exact .bind this.1 fun m' h => ih m' fun _ => this.2 m' h
      | false =>
        refine .bind ?_ fun m' _ => ih m' nofun
        simp only [uniqueInsert, Bool.false_eq_true, if_false]
        split
        · exact .err hQ
        · exact .ok
    · exact ih m hm

theorem safe_args {ctx : Ctx} {x : Bool} {as : List Expr} (h : ∀ a ∈ as, Safe Q (rec.expr ctx a)) :
    Safe Q (evalArgs rec ctx x as) := by
  induction as with
  | nil => exact .ok
  | cons a as ih =>
    rw [evalArgs]
    split
    · exact safe_array hQ (h a (List.mem_cons_self ..))
    · exact .bind (h a (List.mem_cons_self ..)) fun _ _ =>
        .bind (ih fun x hx => h x (List.mem_cons_of_mem _ hx)) fun _ _ => .ok

omit hQ in
theorem safe_ofNum {o : Option N} (h : o = none → Q .panic) : Safe Q (R.ofNum o) := by
  cases o with
  | some n => exact .ok
  | none => intro f hf; cases hf; exact h rfl

theorem safe_unary {op : UnOp} {v : Value}
    (h : ∀ n, op = .neg → v = .number n → n.neg env.build = none → Q .panic) : Safe Q (unaryValue env op v) := by
  unfold unaryValue
  split
  · exact .ok
  · exact safe_ofNum (h _ rfl rfl)
  · exact .err hQ

theorem safe_binary {l r : Value} {op : BinOp}
    (h : ∀ a b, l = .number a → r = .number b → Overflows env.build op a b → Q .panic) :
    Safe Q (binaryValue env l op r) := by
  unfold binaryValue
  split <;> first
    | exact .ok
    | exact .err hQ
    | exact safe_ofNum fun hn => h _ _ rfl rfl hn

/-- One step of the evaluation of an expression. -/
theorem safe_expr {c : Ctx} {e : Expr} (hd : ∀ c' x, c <:+ c' → Direct env x e → Safe Q (rec.expr c' x))
    (ht : ∀ t els c', c <:+ c' → e = .template t → env.parseTemplate t.asStr = .ok els →
      Safe Q (rec.tmpl c' els .none .none))
    (hu : ∀ x n, e = .unary .neg x → rec.expr c.child x = .ok (.number n) → n.neg env.build = none → Q .panic)
    (hb : ∀ l op r a b, e = .binary l op r → rec.expr c.child l = .ok (.number a) →
      rec.expr c.child r = .ok (.number b) → Overflows env.build op a b → Q .panic) :
    Safe Q (stepExpr env rec c e) := by
  unfold stepExpr
  cases e with
  | array xs => exact .bind (.mapR fun x hx => hd _ x (suffix_child c) (.array hx)) fun _ _ => .ok
  | object es =>
    refine .bind (.mapR fun p hp => ?_) fun _ _ => .ok
    obtain ⟨k, v⟩ := p
    refine .bind ?_ fun _ _ => .bind (hd _ v (suffix_child c) (.value hp)) fun _ _ => .ok
    cases k with
    | expr k => exact safe_key hQ (hd _ k (suffix_child c) (.key hp))
    | ident => exact .ok
  | template t =>
    dsimp only [evalTemplateExpr]
    split
    · exact .err hQ
    · rename_i x s h; exact hd _ x (suffix_child c) (.template h (.interp (List.mem_singleton.mpr rfl)))
    · rename_i els _ h; exact .bind (ht t els _ (suffix_child c) rfl h) fun _ _ => .ok
  | var x => dsimp only; split; exact .ok; exact .err hQ
  | traversal x ops =>
    exact .bind (hd _ x (suffix_child c) .traversal) fun v _ => safe_traverse hQ (Nat.le_refl _) fun i hi => hd _ i (suffix_child c) (.index hi)
  | call f args x =>
    dsimp only [evalCall]
    split
    · exact .err hQ
    · refine .bind (safe_args hQ fun a ha => hd _ a (suffix_child c) (.arg ha)) fun vs _ => ?_
      split
      · exact .ok
      · exact .err hQ
  | paren x => exact hd _ x (suffix_child c) .paren
  | cond a t f =>
    refine .bind (safe_bool hQ (hd _ a (suffix_child c) .cond)) fun b _ => ?_
    split
    · exact hd _ t (suffix_child c) .whenTrue
    · exact hd _ f (suffix_child c) .whenFalse
  | unary op x =>
    refine .bind (hd _ x (suffix_child c) .unary) fun v hv => safe_unary hQ ?_
    rintro n rfl rfl hn
    exact hu x n rfl hv hn
  | binary l op r =>
    refine .bind (hd _ l (suffix_child c) .lhs) fun lv hl => .bind (hd _ r (suffix_child c) .rhs) fun rv hr => safe_binary hQ ?_
    rintro a b rfl rfl hn
    exact hb l op r a b rfl hl hr hn
  | forE k x coll ke ve g ce =>
    refine .bind (safe_coll hQ (hd _ coll (suffix_child c) .forColl)) fun ps _ => ?_
    have hc : ∀ c' e, c.child <:+ c' → ce = some e → Safe Q (rec.expr c' e) := by
      rintro c' e hs rfl; exact hd c' e (.trans (suffix_child c) hs) .forCond
    cases ke with
    | none => exact .bind (safe_forArray hQ hc (fun c' hs => hd c' ve (.trans (suffix_child c) hs) .forValue) ps) fun _ _ => .ok
    | some ke =>
      exact .bind (safe_forObject hQ hc (fun c' hs => hd c' ke (.trans (suffix_child c) hs) .forKey) (fun c' hs => hd c' ve (.trans (suffix_child c) hs) .forValue) ps []
        fun _ => nofun) fun _ _ => .ok
  | null => exact .ok
  | bool => exact .ok
  | number => exact .ok
  | string => exact .ok

/-- One step of the evaluation of a template. -/
theorem safe_tmpl : ∀ {els : List Elem} {c : Ctx} {p q : Strip},
    (∀ c' x, c <:+ c' → InElems x els → Safe Q (rec.expr c' x)) →
    (∀ x t f a b z, .ifDir x t f a b z ∈ els → ∀ c' p q, c <:+ c' → Safe Q (rec.tmpl c' t p q)) →
    (∀ x t f a b z, .ifDir x t (some f) a b z ∈ els → ∀ c' p q, c <:+ c' → Safe Q (rec.tmpl c' f p q)) →
    (∀ k x coll t a b, .forDir k x coll t a b ∈ els → ∀ c' p q, c <:+ c' → Safe Q (rec.tmpl c' t p q)) →
    Safe Q (stepTmpl env rec c els p q) := by
  intro els
  induction els with
  | nil => intros; exact .ok
  | cons e els ih =>
    intro c p q h1 h2 h3 h4
    rw [stepTmpl.eq_def]
    dsimp only
    refine .bind ?_ fun s _ => .bind (ih (fun c' x hs hx => ?_) (fun x t f a b z hm => h2 x t f a b z (List.mem_cons_of_mem _ hm))
      (fun x t f a b z hm => h3 x t f a b z (List.mem_cons_of_mem _ hm))
      (fun k x coll t a b hm => h4 k x coll t a b (List.mem_cons_of_mem _ hm))) fun _ _ => .ok
    · cases e with
      | lit => exact .ok
      | interp x s => exact .bind (h1 _ x List.suffix_rfl (.interp (List.mem_cons_self ..))) fun _ _ => .ok
      | ifDir x t f a b z =>
        refine .bind (safe_bool hQ (h1 _ x List.suffix_rfl (.ifCond (List.mem_cons_self ..)))) fun v _ => ?_
        split
        · exact h2 x t f a b z (List.mem_cons_self ..) _ _ _ List.suffix_rfl
        · cases f with
          | none => exact .ok
          | some f => exact h3 x t f a b z (List.mem_cons_self ..) _ _ _ List.suffix_rfl
      | forDir k x coll t a b =>
        refine .bind (safe_coll hQ (h1 _ coll List.suffix_rfl (.forColl (List.mem_cons_self ..)))) fun ps hps => ?_
        clear hps
        have ht := h4 k x coll t a b (List.mem_cons_self ..)
        induction ps with
        | nil => exact .ok
        | cons p ps ih => exact .bind (ht _ _ _ (suffix_iter ..)) fun _ _ => .bind ih fun _ _ => .ok
    · refine h1 c' x hs ?_
      cases hx with
      | interp hm => exact .interp (List.mem_cons_of_mem _ hm)
      | ifCond hm => exact .ifCond (List.mem_cons_of_mem _ hm)
      | ifTrue hm h => exact .ifTrue (List.mem_cons_of_mem _ hm) h
      | ifFalse hm h => exact .ifFalse (List.mem_cons_of_mem _ hm) h
      | forColl hm => exact .forColl (List.mem_cons_of_mem _ hm)
      | forBody hm h => exact .forBody (List.mem_cons_of_mem _ hm) h

end

/-! ### Evaluation ends -/

/-- With this fuel the evaluation ends, whatever the context is. -/
def Ends (env : Env) (n : Nat) (e : Expr) : Prop := ∀ c, Safe (· ≠ .timeout) ((evalF env n).expr c e)
def EndsT (env : Env) (n : Nat) (els : List Elem) : Prop :=
  ∀ c p q, Safe (· ≠ .timeout) ((evalF env n).tmpl c els p q)

variable {env : Env}

theorem safe_ne {α : Type} {r : R α} : Safe (· ≠ .timeout) r ↔ r ≠ .error .timeout :=
  ⟨fun h e => h _ e rfl, fun h f e he => h (by rw [e, he])⟩

theorem Ends.mono {n m : Nat} (hnm : n ≤ m) {e : Expr} (h : Ends env n e) : Ends env m e := fun c => by
  have h := safe_ne.mp (h c)
  rw [safe_ne, (evalF_mono env hnm c e).eq h]
  exact h

theorem EndsT.mono {n m : Nat} (hnm : n ≤ m) {els : List Elem} (h : EndsT env n els) : EndsT env m els :=
  fun c p q => by
    have h := safe_ne.mp (h c p q)
    rw [safe_ne, (evalF_mono_tmpl env hnm c els p q).eq h]
    exact h

/-- A common amount of fuel for all members of a list. -/
theorem common {α : Type} {P : Nat → α → Prop} (hm : ∀ n m a, n ≤ m → P n a → P m a) {as : List α}
    (h : ∀ a ∈ as, ∃ n, P n a) : ∃ n, ∀ a ∈ as, P n a := by
  induction as with
  | nil => exact ⟨0, nofun⟩
  | cons a as ih =>
    obtain ⟨n, h1⟩ := h a (List.mem_cons_self ..)
    obtain ⟨m, h2⟩ := ih fun a ha => h a (List.mem_cons_of_mem _ ha)
    refine ⟨max n m, fun x hx => ?_⟩
    rcases List.mem_cons.mp hx with rfl | hx
    · exact hm _ _ _ (Nat.le_max_left ..) h1
    · exact hm _ _ _ (Nat.le_max_right ..) (h2 x hx)

theorem inElems_head {x : Expr} {e : Elem} {els : List Elem} (h : InElems x [e]) : InElems x (e :: els) := by
  cases h with
  | interp hm => cases List.mem_singleton.mp hm; exact .interp (List.mem_cons_self ..)
  | ifCond hm => cases List.mem_singleton.mp hm; exact .ifCond (List.mem_cons_self ..)
  | ifTrue hm h => cases List.mem_singleton.mp hm; exact .ifTrue (List.mem_cons_self ..) h
  | ifFalse hm h => cases List.mem_singleton.mp hm; exact .ifFalse (List.mem_cons_self ..) h
  | forColl hm => cases List.mem_singleton.mp hm; exact .forColl (List.mem_cons_self ..)
  | forBody hm h => cases List.mem_singleton.mp hm; exact .forBody (List.mem_cons_self ..) h

theorem inElems_tail {x : Expr} {e : Elem} {els : List Elem} (h : InElems x els) : InElems x (e :: els) := by
  cases h with
  | interp hm => exact .interp (List.mem_cons_of_mem _ hm)
  | ifCond hm => exact .ifCond (List.mem_cons_of_mem _ hm)
  | ifTrue hm h => exact .ifTrue (List.mem_cons_of_mem _ hm) h
  | ifFalse hm h => exact .ifFalse (List.mem_cons_of_mem _ hm) h
  | forColl hm => exact .forColl (List.mem_cons_of_mem _ hm)
  | forBody hm h => exact .forBody (List.mem_cons_of_mem _ hm) h

theorem inElems_cons {x : Expr} {e : Elem} {els : List Elem} (h : InElems x (e :: els)) :
    InElems x [e] ∨ InElems x els := by
  have aux : ∀ {a : Elem}, a ∈ e :: els → a ∈ [e] ∨ a ∈ els := fun {a} hm => by
    rcases List.mem_cons.mp hm with hm | hm
    · exact .inl (List.mem_singleton.mpr hm)
    · exact .inr hm
  cases h with
  | interp hm => exact (aux hm).imp .interp .interp
  | ifCond hm => exact (aux hm).imp .ifCond .ifCond
  | ifTrue hm h => exact (aux hm).imp (.ifTrue · h) (.ifTrue · h)
  | ifFalse hm h => exact (aux hm).imp (.ifFalse · h) (.ifFalse · h)
  | forColl hm => exact (aux hm).imp .forColl .forColl
  | forBody hm h => exact (aux hm).imp (.forBody · h) (.forBody · h)

mutual

theorem elem_ends : ∀ e : Elem, (∀ x, InElems x [e] → ∃ n, Ends env n x) →
    ∃ n, (∀ x, InElems x [e] → Ends env n x) ∧ (∀ x t f a b z, e = .ifDir x t f a b z → EndsT env n t) ∧
      (∀ x t f a b z, e = .ifDir x t (some f) a b z → EndsT env n f) ∧
      (∀ k x coll t a b, e = .forDir k x coll t a b → EndsT env n t)
  | .lit s, _ => by
    refine ⟨0, fun x hx => ?_, nofun, nofun, nofun⟩
    cases hx with
    | interp hm => cases List.mem_singleton.mp hm
    | ifCond hm => cases List.mem_singleton.mp hm
    | ifTrue hm h => cases List.mem_singleton.mp hm
    | ifFalse hm h => cases List.mem_singleton.mp hm
    | forColl hm => cases List.mem_singleton.mp hm
    | forBody hm h => cases List.mem_singleton.mp hm
  | .interp x s, h => by
    obtain ⟨n, hn⟩ := h x (.interp (List.mem_singleton.mpr rfl))
    refine ⟨n, fun y hy => ?_, nofun, nofun, nofun⟩
    cases hy with
    | interp hm => cases List.mem_singleton.mp hm; exact hn
    | ifCond hm => cases List.mem_singleton.mp hm
    | ifTrue hm h => cases List.mem_singleton.mp hm
    | ifFalse hm h => cases List.mem_singleton.mp hm
    | forColl hm => cases List.mem_singleton.mp hm
    | forBody hm h => cases List.mem_singleton.mp hm
  | .ifDir x t f a b z, h => by
    obtain ⟨n1, h1⟩ := h x (.ifCond (List.mem_singleton.mpr rfl))
    obtain ⟨n2, h2, h2'⟩ := elems_ends t fun y hy => h y (.ifTrue (List.mem_singleton.mpr rfl) hy)
    obtain ⟨n3, h3, h3'⟩ := optElems_ends f fun f' hf y hy =>
      h y (.ifFalse (by rw [hf]; exact List.mem_singleton.mpr rfl) hy)
    have l1 : n1 ≤ max n1 (max n2 n3) := Nat.le_max_left ..
    have l2 : n2 ≤ max n1 (max n2 n3) := Nat.le_trans (Nat.le_max_left ..) (Nat.le_max_right ..)
    have l3 : n3 ≤ max n1 (max n2 n3) := Nat.le_trans (Nat.le_max_right ..) (Nat.le_max_right ..)
    refine ⟨max n1 (max n2 n3), fun y hy => ?_, ?_, ?_, nofun⟩
    · cases hy with
      | interp hm => cases List.mem_singleton.mp hm
      | ifCond hm => cases List.mem_singleton.mp hm; exact h1.mono l1
      | ifTrue hm h => cases List.mem_singleton.mp hm; exact (h2' y h).mono l2
      | ifFalse hm hi => cases List.mem_singleton.mp hm; exact (h3' _ rfl y hi).mono l3
      | forColl hm => cases List.mem_singleton.mp hm
      | forBody hm h => cases List.mem_singleton.mp hm
    · rintro _ _ _ _ _ _ ⟨⟩; exact h2.mono l2
    · rintro _ _ _ _ _ _ ⟨⟩; exact (h3 _ rfl).mono l3
  | .forDir k x coll t a b, h => by
    obtain ⟨n1, h1⟩ := h coll (.forColl (List.mem_singleton.mpr rfl))
    obtain ⟨n2, h2, h2'⟩ := elems_ends t fun y hy => h y (.forBody (List.mem_singleton.mpr rfl) hy)
    refine ⟨max n1 n2, fun y hy => ?_, nofun, nofun, ?_⟩
    · cases hy with
      | interp hm => cases List.mem_singleton.mp hm
      | ifCond hm => cases List.mem_singleton.mp hm
      | ifTrue hm h => cases List.mem_singleton.mp hm
      | ifFalse hm h => cases List.mem_singleton.mp hm
      | forColl hm => cases List.mem_singleton.mp hm; exact h1.mono (Nat.le_max_left ..)
      | forBody hm h => cases List.mem_singleton.mp hm; exact (h2' y h).mono (Nat.le_max_right ..)
    · rintro _ _ _ _ _ _ ⟨⟩; exact h2.mono (Nat.le_max_right ..)

theorem elems_ends : ∀ els : List Elem, (∀ x, InElems x els → ∃ n, Ends env n x) →
    ∃ n, EndsT env n els ∧ ∀ x, InElems x els → Ends env n x := fun els h => by
  obtain ⟨n, hn⟩ := elems_ends' els h
  refine ⟨n + 1, fun c p q => ?_, fun x hx => (hn.1 x hx).mono (Nat.le_succ n)⟩
  exact safe_tmpl (by nofun) (fun c' x _ hx => hn.1 x hx c') (fun x t f a b z hm c' p q _ => (hn.2.1 x t f a b z hm) c' p q)
    (fun x t f a b z hm c' p q _ => (hn.2.2.1 x t f a b z hm) c' p q)
    (fun k x coll t a b hm c' p q _ => (hn.2.2.2 k x coll t a b hm) c' p q)

theorem elems_ends' : ∀ els : List Elem, (∀ x, InElems x els → ∃ n, Ends env n x) →
    ∃ n, (∀ x, InElems x els → Ends env n x) ∧ (∀ x t f a b z, .ifDir x t f a b z ∈ els → EndsT env n t) ∧
      (∀ x t f a b z, .ifDir x t (some f) a b z ∈ els → EndsT env n f) ∧
      (∀ k x coll t a b, .forDir k x coll t a b ∈ els → EndsT env n t)
  | [], _ => ⟨0, fun x hx => by cases hx <;> contradiction, by simp, by simp, by simp⟩
  | e :: els, h => by
    obtain ⟨n1, a1, a2, a3, a4⟩ := elem_ends e fun x hx => h x (inElems_head hx)
    obtain ⟨n2, b1, b2, b3, b4⟩ := elems_ends' els fun x hx => h x (inElems_tail hx)
    have l1 : n1 ≤ max n1 n2 := Nat.le_max_left ..
    have l2 : n2 ≤ max n1 n2 := Nat.le_max_right ..
    refine ⟨max n1 n2, fun x hx => ?_, fun x t f a b z hm => ?_, fun x t f a b z hm => ?_,
      fun k x coll t a b hm => ?_⟩
    · rcases inElems_cons hx with hx | hx
      · exact (a1 x hx).mono l1
      · exact (b1 x hx).mono l2
    · rcases List.mem_cons.mp hm with hm | hm
      · exact (a2 x t f a b z hm.symm).mono l1
      · exact (b2 x t f a b z hm).mono l2
    · rcases List.mem_cons.mp hm with hm | hm
      · exact (a3 x t f a b z hm.symm).mono l1
      · exact (b3 x t f a b z hm).mono l2
    · rcases List.mem_cons.mp hm with hm | hm
      · exact (a4 k x coll t a b hm.symm).mono l1
      · exact (b4 k x coll t a b hm).mono l2

theorem optElems_ends : ∀ f : Option (List Elem), (∀ f', f = some f' → ∀ x, InElems x f' → ∃ n, Ends env n x) →
    ∃ n, (∀ f', f = some f' → EndsT env n f') ∧ ∀ f', f = some f' → ∀ x, InElems x f' → Ends env n x
  | none, _ => ⟨0, nofun, nofun⟩
  | some f, h => by
    obtain ⟨n, h1, h2⟩ := elems_ends f (h f rfl)
    exact ⟨n, by rintro _ ⟨⟩; exact h1, by rintro _ ⟨⟩; exact h2⟩

end

theorem Ends.step {n : Nat} {e : Expr} (hd : ∀ x, Direct env x e → Ends env n x)
    (ht : ∀ t els, e = .template t → env.parseTemplate t.asStr = .ok els → EndsT env n els) :
    Ends env (n + 1) e := fun c =>
  safe_expr (by nofun) (fun c' x _ hx => hd x hx c') (fun t els c' _ h1 h2 => ht t els h1 h2 c' _ _)
    (fun _ _ _ _ _ => (nofun : Fail.panic ≠ .timeout)) (fun _ _ _ _ _ _ _ _ _ => (nofun : Fail.panic ≠ .timeout))

/-- Evaluation ends if the nesting of the expressions ends. -/
theorem ends_of_acc {e : Expr} (h : Acc (Direct env) e) : ∃ n, Ends env n e := by
  induction h with
  | intro e _ ih =>
  have lst : ∀ {xs : List Expr}, (∀ x ∈ xs, Direct env x e) → ∃ n, ∀ x ∈ xs, Ends env n x :=
    fun hx => common (P := fun n x => Ends env n x) (fun _ _ _ h h' => Ends.mono h h') fun x hm => ih x (hx x hm)
  have fin : ∀ xs : List Expr, (∀ x, Direct env x e ↔ x ∈ xs) → (∀ t, e ≠ .template t) → ∃ n, Ends env n e := by
    intro xs hx hne
    obtain ⟨n, hn⟩ := lst fun x hm => (hx x).mpr hm
    exact ⟨n + 1, .step (fun x hd => hn x ((hx x).mp hd)) fun t _ h => absurd h (hne t)⟩
  cases e with
  | template t =>
    cases hp : env.parseTemplate t.asStr with
    | error m =>
      exact ⟨1, .step (fun x hd => by cases hd with | template h _ => rw [hp] at h; cases h) (by
        rintro _ els ⟨⟩ h; rw [hp] at h; cases h)⟩
    | ok els =>
      obtain ⟨n, h1, h2⟩ := elems_ends els fun x hx => ih x (.template hp hx)
      refine ⟨n + 1, .step (fun x hd => ?_) ?_⟩
      · cases hd with
        | template h hx => rw [hp] at h; cases h; exact h2 x hx
      · rintro _ els' ⟨⟩ h; rw [hp] at h; cases h; exact h1
  | array xs => exact fin xs (fun x => ⟨fun h => by cases h; assumption, fun h => .array h⟩) nofun
  | object es =>
    refine fin (es.flatMap fun p => match p.1 with | .expr k => [k, p.2] | .ident _ => [p.2]) (fun x => ?_) nofun
    rw [List.mem_flatMap]
    constructor
    · intro h
      cases h with
      | key h => exact ⟨_, h, by simp⟩
      | @value _ k _ h => exact ⟨_, h, by cases k <;> simp⟩
    · rintro ⟨⟨k, v⟩, h, hx⟩
      cases k with
      | ident i => simp at hx; subst hx; exact .value h
      | expr k =>
        simp at hx
        rcases hx with rfl | rfl
        · exact .key h
        · exact .value h
  | traversal x ops =>
    refine fin (x :: ops.flatMap fun o => match o with | .index i => [i] | _ => []) (fun y => ?_) nofun
    rw [List.mem_cons, List.mem_flatMap]
    constructor
    · intro h
      cases h with
      | traversal => exact .inl rfl
      | index h => exact .inr ⟨_, h, by simp⟩
    · rintro (rfl | ⟨o, h, hx⟩)
      · exact .traversal
      · cases o with
        | index i => simp at hx; subst hx; exact .index h
        | _ => simp at hx
  | call f args x => exact fin args (fun x => ⟨fun h => by cases h; assumption, fun h => .arg h⟩) nofun
  | paren x =>
    exact fin [x] (fun y => ⟨fun h => by cases h; simp, fun h => by cases List.mem_singleton.mp h; exact .paren⟩) nofun
  | cond a b c =>
    refine fin [a, b, c] (fun y => ⟨fun h => by cases h <;> simp, fun h => ?_⟩) nofun
    simp at h
    rcases h with rfl | rfl | rfl
    · exact .cond
    · exact .whenTrue
    · exact .whenFalse
  | unary o x =>
    exact fin [x] (fun y => ⟨fun h => by cases h; simp, fun h => by cases List.mem_singleton.mp h; exact .unary⟩) nofun
  | binary l o r =>
    refine fin [l, r] (fun y => ⟨fun h => by cases h <;> simp, fun h => ?_⟩) nofun
    simp at h
    rcases h with rfl | rfl
    · exact .lhs
    · exact .rhs
  | forE k x coll ke ve g ce =>
    refine fin (coll :: ve :: (ke.toList ++ ce.toList)) (fun y => ⟨fun h => by cases h <;> simp, fun h => ?_⟩) nofun
    simp at h
    rcases h with rfl | rfl | rfl | rfl
    · exact .forColl
    · exact .forValue
    · exact .forKey
    · exact .forCond
  | null => exact fin [] (fun y => ⟨fun h => (nomatch h), fun h => (nomatch h)⟩) nofun
  | bool => exact fin [] (fun y => ⟨fun h => (nomatch h), fun h => (nomatch h)⟩) nofun
  | number => exact fin [] (fun y => ⟨fun h => (nomatch h), fun h => (nomatch h)⟩) nofun
  | string => exact fin [] (fun y => ⟨fun h => (nomatch h), fun h => (nomatch h)⟩) nofun
  | var => exact fin [] (fun y => ⟨fun h => (nomatch h), fun h => (nomatch h)⟩) nofun

theorem eval_of_ends {n : Nat} {e : Expr} (h : Ends env n e) (c : Ctx) :
    eval env c e = (evalF env n).expr c e ∧ eval env c e ≠ .error .timeout := by
  have h1 := safe_ne.mp (h c)
  have := (evalF_le_eval env n c e).eq h1
  exact ⟨this, this ▸ h1⟩

theorem evalTmpl_of_ends {n : Nat} {els : List Elem} (h : EndsT env n els) (c : Ctx) (p q : Strip) :
    evalTmpl env c els p q = (evalF env n).tmpl c els p q ∧ evalTmpl env c els p q ≠ .error .timeout := by
  have h1 := safe_ne.mp (h c p q)
  have := (evalF_le_evalTmpl env n c els p q).eq h1
  exact ⟨this, this ▸ h1⟩

/-! ### What panics -/

/-- An operation on numbers in the expression panics. -/
def Culprit (env : Env) (c : Ctx) (e : Expr) : Prop := ∃ x scopes, Part env x e ∧ Breaks env (scopes ++ c) x

theorem Culprit.up {x e : Expr} {c : Ctx} (h : Direct env x e) : Culprit env c x → Culprit env c e := by
  rintro ⟨y, c, hp, hb⟩
  exact ⟨y, c, .inside hp h, hb⟩

theorem Culprit.down {c c' : Ctx} {e : Expr} (hs : c <:+ c') : Culprit env c' e → Culprit env c e := by
  rintro ⟨y, sc, hp, hb⟩
  obtain ⟨sc', rfl⟩ := hs
  exact ⟨y, sc ++ sc', hp, by rw [List.append_assoc]; exact hb⟩

theorem eval_of_ok {n : Nat} {c : Ctx} {e : Expr} {v : Value} (h : (evalF env n).expr c e = .ok v) :
    eval env c e = .ok v := by
  rw [← h]; exact (evalF_le_eval env n c e).eq (by rw [h]; nofun)

theorem panics_aux (env : Env) (n : Nat) :
    (∀ c e, Safe (fun f => f = .panic → Culprit env c e) ((evalF env n).expr c e)) ∧
    (∀ c els p q, Safe (fun f => f = .panic → ∃ x, InElems x els ∧ Culprit env c x) ((evalF env n).tmpl c els p q)) := by
  induction n with
  | zero => exact ⟨fun _ _ _ h => by cases h; nofun, fun _ _ _ _ _ h => by cases h; nofun⟩
  | succ n ih =>
    constructor
    · intro c e
      refine safe_expr (by nofun) (fun c' x hs hx f hf hp => ((ih.1 c' x f hf hp).down hs).up hx) ?_ ?_ ?_
      · rintro t els c' hs rfl hp f hf rfl
        obtain ⟨x, hx, h⟩ := ih.2 _ _ _ _ _ hf rfl
        exact (h.down hs).up (.template hp hx)
      · rintro x a rfl hx ha _
        exact ⟨_, [⟨[], []⟩], .self, a, eval_of_ok hx, ha⟩
      · rintro l op r a b rfl hl hr hn _
        exact ⟨_, [⟨[], []⟩], .self, a, b, eval_of_ok hl, eval_of_ok hr, hn⟩
    · intro c els p q
      refine safe_tmpl (by nofun) (fun c' x hs hx f hf hp => ⟨x, hx, (ih.1 c' x f hf hp).down hs⟩) ?_ ?_ ?_
      · intro x t f a b z hm c' p q hs k hk hp
        obtain ⟨y, hy, h⟩ := ih.2 _ _ _ _ _ hk hp
        exact ⟨y, .ifTrue hm hy, h.down hs⟩
      · intro x t f a b z hm c' p q hs k hk hp
        obtain ⟨y, hy, h⟩ := ih.2 _ _ _ _ _ hk hp
        exact ⟨y, .ifFalse hm hy, h.down hs⟩
      · intro k x coll t a b hm c' p q hs k hk hp
        obtain ⟨y, hy, h⟩ := ih.2 _ _ _ _ _ hk hp
        exact ⟨y, .forBody hm hy, h.down hs⟩

end Verif.Spec
