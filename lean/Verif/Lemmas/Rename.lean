import Verif.Spec.Rename
import Verif.Lemmas.Stages
/-!
C91: evaluation after renaming.
-/

namespace Verif
open Spec

/-- `d` knows as `y` what `c` knows as `x`, and agrees on everything else. -/
structure Knows (x y : Str) (c d : Ctx) : Prop where
  this : ∃ v, c.var x = some v ∧ d.var y = some v
  other : ∀ z, z ≠ x → z ≠ y → d.var z = c.var z
  func : ∀ n, d.func n = c.func n

theorem Knows.iter {x y : Str} {c d : Ctx} (h : Knows x y c d) {k : Option Str} {z : Str} (hk : k ≠ some x)
    (hk' : k ≠ some y) (hz : z ≠ x) (hz' : z ≠ y) (p : Value × Value) :
    Knows x y (iterCtx c k z p) (iterCtx d k z p) := by
  refine ⟨?_, fun w hw hw' => ?_, fun n => by rw [iterCtx_func, iterCtx_func, h.func]⟩
  · obtain ⟨v, h1, h2⟩ := h.this
    refine ⟨v, ?_, ?_⟩
    · rw [iterCtx_var, if_neg hz, if_neg hk, h1]
    · rw [iterCtx_var, if_neg hz', if_neg hk', h2]
  · rw [iterCtx_var, iterCtx_var, h.other w hw hw']

section
variable {env : Env} {x y : Str}

/-- Expressions that evaluate alike before and after the renaming. -/
def Kept (env : Env) (x y : Str) (e e' : Expr) : Prop := ∀ c d, Knows x y c d → eval env d e' = eval env c e

inductive OpKept (env : Env) (x y : Str) : TravOp → TravOp → Prop
  | index {i i'} : Kept env x y i i' → OpKept env x y (.index i) (.index i')
  | other {o} : (∀ i, o ≠ .index i) → OpKept env x y o o

theorem OpKept.isGetAttr {o o'} (h : OpKept env x y o o') : o'.isGetAttr = o.isGetAttr := by cases h <;> rfl

theorem takeWhile_kept {os ps : List TravOp} (h : List.Forall₂ (OpKept env x y) os ps) :
    List.Forall₂ (OpKept env x y) (os.takeWhile TravOp.isGetAttr) (ps.takeWhile TravOp.isGetAttr) := by
  induction h with
  | nil => exact .nil
  | @cons o p os ps h _ ih =>
    cases ho : o.isGetAttr
    · rw [List.takeWhile_cons_of_neg (by simp [ho]), List.takeWhile_cons_of_neg (by simp [h.isGetAttr, ho])]
      exact .nil
    · rw [List.takeWhile_cons_of_pos ho, List.takeWhile_cons_of_pos (by rw [h.isGetAttr, ho])]
      exact .cons h ih

theorem dropWhile_kept {os ps : List TravOp} (h : List.Forall₂ (OpKept env x y) os ps) :
    List.Forall₂ (OpKept env x y) (os.dropWhile TravOp.isGetAttr) (ps.dropWhile TravOp.isGetAttr) := by
  induction h with
  | nil => exact .nil
  | @cons o p os ps h hl ih =>
    cases ho : o.isGetAttr
    · rw [List.dropWhile_cons_of_neg (by simp [ho]), List.dropWhile_cons_of_neg (by simp [h.isGetAttr, ho])]
      exact .cons h hl
    · rw [List.dropWhile_cons_of_pos ho, List.dropWhile_cons_of_pos (by rw [h.isGetAttr, ho])]
      exact ih

theorem traverse_kept {c d : Ctx} (hk : Knows x y c d) (n : Nat) : ∀ (os ps : List TravOp),
    List.Forall₂ (OpKept env x y) os ps → ∀ v,
    traverse (evalRec env) d n ps v = traverse (evalRec env) c n os v := by
  induction n with
  | zero => intro os ps h v; cases h <;> rfl
  | succ n ih =>
    intro os ps h v
    cases h with
    | nil => rfl
    | @cons o p os ps h hl =>
      have htail := fun w => ih os ps hl w
      cases h with
      | index he =>
        simp only [traverse, indexExpr]
        have hs' : (evalRec env).expr d _ = (evalRec env).expr c _ := he c d hk
        rw [hs']
        congr 1; funext w; exact htail w
      | other ho =>
        cases o with
        | legacyIndex i => simp only [traverse]; congr 1; funext w; exact htail w
        | index e => exact absurd rfl (ho e)
        | getAttr x => simp only [traverse]; congr 1; funext w; exact htail w
        | attrSplat =>
          simp only [traverse]
          have h1 : (fun x => traverse (evalRec env) d n (ps.takeWhile TravOp.isGetAttr) x) =
              fun x => traverse (evalRec env) c n (os.takeWhile TravOp.isGetAttr) x :=
            funext fun w => ih _ _ (takeWhile_kept hl) w
          have h2 : (fun x => traverse (evalRec env) d n (ps.dropWhile TravOp.isGetAttr) x) =
              fun x => traverse (evalRec env) c n (os.dropWhile TravOp.isGetAttr) x :=
            funext fun w => ih _ _ (dropWhile_kept hl) w
          rw [h1, h2]
        | fullSplat => simp only [traverse]; congr 1; funext w; exact htail w

/-- What `Kept` is for a list of expressions. -/
structure AllKept (env : Env) (x y : Str) (es es' : List Expr) : Prop where
  empty : es'.isEmpty = es.isEmpty
  map : ∀ c d, Knows x y c d → mapR (eval env d) es' = mapR (eval env c) es
  args : ∀ c d, Knows x y c d → ∀ b, evalArgs (evalRec env) d b es' = evalArgs (evalRec env) c b es

/-- What `Kept` is for an expression that may be missing. -/
def OptKept (env : Env) (x y : Str) : Option Expr → Option Expr → Prop
  | none, none => True
  | some e, some e' => Kept env x y e e'
  | _, _ => False

theorem bool_kept {c d : Ctx} {e e' : Expr} (h : Kept env x y e e') (hk : Knows x y c d) :
    evalBool (evalRec env) d e' = evalBool (evalRec env) c e := by
  have h' : (evalRec env).expr d e' = (evalRec env).expr c e := h c d hk
  simp only [evalBool, h']

theorem collection_kept {c d : Ctx} {e e' : Expr} (h : Kept env x y e e') (hk : Knows x y c d) :
    evalCollection (evalRec env) d e' = evalCollection (evalRec env) c e := by
  have h' : (evalRec env).expr d e' = (evalRec env).expr c e := h c d hk
  simp only [evalCollection, h']

theorem iterCond_kept {c d : Ctx} {q q' : Option Expr} (h : OptKept env x y q q') (hk : Knows x y c d) :
    iterCond (evalRec env) d q' = iterCond (evalRec env) c q := by
  cases q <;> cases q' <;> simp only [OptKept] at h
  · rfl
  · exact bool_kept h hk

/-- The loops of a `for` expression whose variables may have other names. -/
theorem for_kept {c d : Ctx} {k k' : Option Str} {z z' : Str} {ke ke' ce ce' : Option Expr} {ve ve' : Expr} {g : Bool}
    (hi : ∀ p, Knows x y (iterCtx c k z p) (iterCtx d k' z' p)) (hke : OptKept env x y ke ke')
    (hve : Kept env x y ve ve') (hce : OptKept env x y ce ce') (coll coll' : Expr)
    (hc : evalCollection (evalRec env) d coll' = evalCollection (evalRec env) c coll) :
    evalFor env (evalRec env) d k' z' coll' ke' ve' g ce' = evalFor env (evalRec env) c k z coll ke ve g ce := by
  have hv : ∀ p, (evalRec env).expr (iterCtx d k' z' p) ve' = (evalRec env).expr (iterCtx c k z p) ve :=
    fun p => hve _ _ (hi p)
  have hq : ∀ p, iterCond (evalRec env) (iterCtx d k' z' p) ce' = iterCond (evalRec env) (iterCtx c k z p) ce :=
    fun p => iterCond_kept hce (hi p)
  rw [evalFor, evalFor, hc]
  congr 1; funext ps
  cases ke <;> cases ke' <;> simp only [OptKept] at hke
  · have : forArray (evalRec env) d k' z' ce' ve' ps = forArray (evalRec env) c k z ce ve ps := by
      induction ps with
      | nil => rfl
      | cons p ps ihp => simp only [forArray, hq, hv, ihp]
    simp only [this]
  · rename_i ke ke'
    have hk : ∀ p, (evalRec env).expr (iterCtx d k' z' p) ke' = (evalRec env).expr (iterCtx c k z p) ke :=
      fun p => hke _ _ (hi p)
    have : ∀ m, forObject env (evalRec env) d k' z' ce' ke' ve' g ps m =
        forObject env (evalRec env) c k z ce ke ve g ps m := by
      induction ps with
      | nil => intro m; rfl
      | cons p ps ihp => intro m; simp only [forObject, evalObjectKey, hq, hk, hv, ihp]
    simp only [this]

/-- What `Kept` is for a template. -/
structure TextKept (env : Env) (x y : Str) (els els' : List Elem) : Prop where
  next : ∀ b : Strip, (match els' with | [] => b | e :: _ => e.strip) = match els with | [] => b | e :: _ => e.strip
  shape : (∃ e e' m, els = [.interp e m] ∧ els' = [.interp e' m] ∧ Kept env x y e e') ∨
    (∀ e m, els ≠ [.interp e m]) ∧ ∀ e m, els' ≠ [.interp e m]
  text : ∀ c d, Knows x y c d → ∀ a b, evalTmpl env d els' a b = evalTmpl env c els a b

theorem textKept_cons {el el' : Elem} {els els' : List Elem} (hs : el'.strip = el.strip)
    (hel : ∀ c d, Knows x y c d → ∀ a b,
      evalElem env (evalRec env) d a b el' = evalElem env (evalRec env) c a b el)
    (hshape : (∃ e e' m, el = .interp e m ∧ el' = .interp e' m ∧ Kept env x y e e') ∨
      (∀ e m, el ≠ .interp e m) ∧ ∀ e m, el' ≠ .interp e m)
    (hempty : els = [] ↔ els' = []) (h : TextKept env x y els els') : TextKept env x y (el :: els) (el' :: els') := by
  refine ⟨fun _ => hs, ?_, fun c d hk a b => ?_⟩
  · cases els with
    | nil =>
      rw [hempty.1 rfl]
      rcases hshape with ⟨e, e', m, rfl, rfl, hk⟩ | ⟨h1, h2⟩
      · exact .inl ⟨e, e', m, rfl, rfl, hk⟩
      · exact .inr ⟨fun e m h => h1 e m (by injection h), fun e m h => h2 e m (by injection h)⟩
    | cons z els =>
      cases els' with
      | nil => exact absurd (hempty.2 rfl) (by simp)
      | cons z' els' => exact .inr ⟨fun _ _ h => (by simp at h), fun _ _ h => (by simp at h)⟩
  · rw [evalTmpl_cons, evalTmpl_cons]
    cases els with
    | nil => obtain rfl := hempty.1 rfl; rw [hel c d hk, hs, h.text c d hk]
    | cons z els =>
      cases els' with
      | nil => exact absurd (hempty.2 rfl) (by simp)
      | cons z' els' =>
        have hn : z'.strip = z.strip := h.next b
        dsimp only
        rw [hn, hel c d hk, hs, h.text c d hk]

theorem renamedText_empty {els els' : List Elem} (h : RenamedText env x y els els') : els = [] ↔ els' = [] := by
  cases h <;> simp

theorem renamedText_kept {els els' : List Elem} (h : RenamedText env x y els els') : TextKept env x y els els' := by
  refine RenamedText.rec (env := env) (x := x) (y := y)
    (motive_1 := fun e e' _ => Kept env x y e e') (motive_2 := fun es es' _ => AllKept env x y es es')
    (motive_3 := fun es es' _ => ∀ c d, Knows x y c d →
      mapR (evalEntry env (evalRec env) d) es' = mapR (evalEntry env (evalRec env) c) es)
    (motive_4 := fun os os' _ => List.Forall₂ (OpKept env x y) os os')
    (motive_5 := fun q q' _ => OptKept env x y q q') (motive_6 := fun els els' _ => TextKept env x y els els')
    ?_ ?_ ?_ ?_ ?_ ?_ ?_ ?_ ?_ ?_ ?_ ?_ ?_ ?_ ?_ ?_ ?_ ?_ ?_ ?_ ?_ ?_ ?_ ?_ ?_ ?_ ?_ ?_ ?_ ?_ ?_ ?_ h
  -- expressions
  · intro c d _; rw [eval_null, eval_null]
  · intro b c d _; rw [eval_bool, eval_bool]
  · intro b c d _; rw [eval_number, eval_number]
  · intro b c d _; rw [eval_string, eval_string]
  · intro c d hk
    obtain ⟨v, h1, h2⟩ := hk.this
    rw [eval_var, eval_var, h1, h2]
  · intro z h1 h2 c d hk; rw [eval_var, eval_var, hk.other z h1 h2]
  · intro xs ys _ ih c d hk; rw [eval_array, eval_array, ih.map c d hk]
  · intro es es' _ ih c d hk; rw [eval_object, eval_object, ih c d hk]
  · intro t t' els els' h1 h2 _ ih c d hk
    rw [eval_template, eval_template, h1, h2]
    rcases ih.shape with ⟨e, e', m, rfl, rfl, he⟩ | ⟨hn, hn'⟩
    · exact he c d hk
    · have : ∀ (c : Ctx) (els : List Elem), (∀ e m, els ≠ [.interp e m]) →
          (match (Except.ok els : Except Str (List Elem)) with
            | .error msg => R.err (.message msg)
            | .ok [.interp e _] => eval env c e
            | .ok elems => R.bind (evalTmpl env c elems .none .none) fun s => .ok (Value.string s)) =
          R.bind (evalTmpl env c els .none .none) fun s => .ok (Value.string s) := by
        intro c els h
        rcases els with _ | ⟨el, _ | ⟨el2, es⟩⟩
        · rfl
        · cases el with
          | interp e m => exact absurd rfl (h e m)
          | _ => rfl
        · cases el <;> rfl
      refine (this d els' hn').trans (Eq.trans ?_ (this c els hn).symm)
      rw [ih.text c d hk]
  · intro e e' ops ops' _ _ ih iho c d hk
    rw [eval_traversal, eval_traversal, ih c d hk, ← iho.length_eq]
    congr 1; funext v
    exact traverse_kept hk _ _ _ iho v
  · intro n args args' b _ ih c d hk
    rw [eval_call, eval_call, hk.func, ih.args c d hk]
  · intro e e' _ ih c d hk; rw [eval_paren, eval_paren, ih c d hk]
  · intro q q' t t' f f' _ _ _ ihq iht ihf c d hk
    rw [eval_cond, eval_cond, bool_kept ihq hk, iht c d hk, ihf c d hk]
  · intro o e e' _ ih c d hk; rw [eval_unary, eval_unary, ih c d hk]
  · intro l l' o r r' _ _ ihl ihr c d hk; rw [eval_binary, eval_binary, ihl c d hk, ihr c d hk]
  · intro k z coll coll' ke ke' ve ve' g ce ce' h1 h2 h3 h4 _ _ _ _ ihc ihk ihv ihq c d hk
    rw [eval_for, eval_for]
    exact for_kept (fun p => hk.iter h1 h2 h3 h4 p) ihk ihv ihq coll coll' (collection_kept ihc hk)
  -- lists
  · exact ⟨rfl, fun _ _ _ => rfl, fun _ _ _ _ => rfl⟩
  · intro e e' es es' _ _ ih ihs
    refine ⟨rfl, fun c d hk => ?_, fun c d hk b => ?_⟩
    · simp only [mapR, ih c d hk, ihs.map c d hk]
    · have h' : (evalRec env).expr d e' = (evalRec env).expr c e := ih c d hk
      simp only [evalArgs, evalArray, ihs.empty, h', ihs.args c d hk]
  -- entries
  · intro c d _; rfl
  · intro k v v' es es' _ _ ih ihs c d hk
    have h' : (evalRec env).expr d v' = (evalRec env).expr c v := ih c d hk
    simp only [mapR, evalEntry, evalKey, h', ihs c d hk]
  · intro k k' v v' es es' _ _ _ ihk ih ihs c d hk
    have h' : (evalRec env).expr d v' = (evalRec env).expr c v := ih c d hk
    have hk' : (evalRec env).expr d k' = (evalRec env).expr c k := ihk c d hk
    simp only [mapR, evalEntry, evalKey, evalObjectKey, h', hk', ihs c d hk]
  -- operators
  · exact .nil
  · intro i i' os os' _ _ ih ihs; exact .cons (.index ih) ihs
  · intro o os os' ho _ ihs; exact .cons (.other ho) ihs
  -- optional expressions
  · exact trivial
  · intro e e' _ ih; exact ih
  -- templates
  · exact ⟨fun _ => rfl, .inr ⟨fun _ _ h => (by cases h), fun _ _ h => (by cases h)⟩,
      fun c d _ a b => by rw [evalTmpl_nil, evalTmpl_nil]⟩
  · intro s els els' hr ih
    exact textKept_cons rfl (fun _ _ _ _ _ => rfl) (.inr ⟨fun _ _ h => (by cases h), fun _ _ h => (by cases h)⟩)
      (renamedText_empty hr) ih
  · intro e e' m els els' _ hr ih ihs
    refine textKept_cons rfl (fun c d hk a b => ?_) (.inl ⟨_, _, _, rfl, rfl, ih⟩) (renamedText_empty hr) ihs
    have h' : (evalRec env).expr d e' = (evalRec env).expr c e := ih c d hk
    simp only [evalElem, h']
  · intro q q' t t' m₁ m₂ m₃ els els' _ _ hr ihq iht ihs
    refine textKept_cons rfl (fun c d hk a b => ?_) (.inr ⟨fun _ _ h => (by cases h), fun _ _ h => (by cases h)⟩)
      (renamedText_empty hr) ihs
    have ht : ∀ a b, (evalRec env).tmpl d t' a b = (evalRec env).tmpl c t a b := iht.text c d hk
    simp only [evalElem, bool_kept ihq hk, ht]
  · intro q q' t t' f f' m₁ m₂ m₃ els els' _ _ _ hr ihq iht ihf ihs
    refine textKept_cons rfl (fun c d hk a b => ?_) (.inr ⟨fun _ _ h => (by cases h), fun _ _ h => (by cases h)⟩)
      (renamedText_empty hr) ihs
    have ht : ∀ a b, (evalRec env).tmpl d t' a b = (evalRec env).tmpl c t a b := iht.text c d hk
    have hf : ∀ a b, (evalRec env).tmpl d f' a b = (evalRec env).tmpl c f a b := ihf.text c d hk
    simp only [evalElem, bool_kept ihq hk, ht, hf, Option.isSome]
  · intro k z q q' t t' m₁ m₂ els els' h1 h2 h3 h4 _ _ hr ihq iht ihs
    refine textKept_cons rfl (fun c d hk a b => ?_) (.inr ⟨fun _ _ h => (by cases h), fun _ _ h => (by cases h)⟩)
      (renamedText_empty hr) ihs
    have ht : ∀ p a b, (evalRec env).tmpl (iterCtx d k z p) t' a b = (evalRec env).tmpl (iterCtx c k z p) t a b :=
      fun p => iht.text _ _ (hk.iter h1 h2 h3 h4 p)
    have hloop : ∀ ps, forDirective (evalRec env) d k z t' m₁ m₂ ps = forDirective (evalRec env) c k z t m₁ m₂ ps := by
      intro ps
      induction ps with
      | nil => rfl
      | cons p ps ih => simp only [forDirective, ht, ih]
    simp only [evalElem, collection_kept ihq hk, hloop]

theorem renamed_kept {e e' : Expr} (h : Renamed env x y e e') : Kept env x y e e' := by
  rcases (renamedText_kept (.interp (m := .none) h .nil)).shape with ⟨a, a', m, h1, h2, hk⟩ | ⟨hn, _⟩
  · injection h1 with h1; injection h1 with h1
    injection h2 with h2; injection h2 with h2
    subst h1; subst h2; exact hk
  · exact absurd rfl (hn e .none)

theorem renamedOpt_kept {e e' : Option Expr} (h : RenamedOpt env x y e e') : OptKept env x y e e' := by
  cases h with
  | none => exact trivial
  | some h => exact renamed_kept h

/-- Loops whose value variables have different names. -/
theorem knows_value (x y : Str) (c : Ctx) (k : Option Str) (p : Value × Value) :
    Knows x y (iterCtx c k x p) (iterCtx c k y p) := by
  refine ⟨⟨p.2, ?_, ?_⟩, fun z h1 h2 => ?_, fun n => by rw [iterCtx_func, iterCtx_func]⟩
  · rw [iterCtx_var, if_pos rfl]
  · rw [iterCtx_var, if_pos rfl]
  · rw [iterCtx_var, iterCtx_var, if_neg (Ne.symm h1), if_neg (Ne.symm h2)]

/-- Loops whose key variables have different names. -/
theorem knows_key {x y v : Str} (hx : v ≠ x) (hy : v ≠ y) (c : Ctx) (p : Value × Value) :
    Knows x y (iterCtx c (some x) v p) (iterCtx c (some y) v p) := by
  refine ⟨⟨p.1, ?_, ?_⟩, fun z h1 h2 => ?_, fun n => by rw [iterCtx_func, iterCtx_func]⟩
  · rw [iterCtx_var, if_neg hx, if_pos rfl]
  · rw [iterCtx_var, if_neg hy, if_pos rfl]
  · rw [iterCtx_var, iterCtx_var, if_neg (c := some x = some z) (by simpa using Ne.symm h1),
      if_neg (c := some y = some z) (by simpa using Ne.symm h2)]

theorem knows_declare (x y : Str) (c : Ctx) (v : Value) : Knows x y (c.declareVar x v) (c.declareVar y v) := by
  refine ⟨⟨v, ?_, ?_⟩, fun z h1 h2 => ?_, fun n => by rw [Ctx.declareVar_func, Ctx.declareVar_func]⟩
  · rw [Ctx.declareVar_var, if_pos rfl]
  · rw [Ctx.declareVar_var, if_pos rfl]
  · rw [Ctx.declareVar_var, Ctx.declareVar_var, if_neg (Ne.symm h1), if_neg (Ne.symm h2)]

/-- The loop of a `for` directive. -/
theorem forDirective_kept {c d : Ctx} {k k' : Option Str} {z z' : Str} {t t' : List Elem}
    (hi : ∀ p, Knows x y (iterCtx c k z p) (iterCtx d k' z' p)) (ht : TextKept env x y t t') (m₁ m₂ : Strip)
    (ps : List (Value × Value)) :
    forDirective (evalRec env) d k' z' t' m₁ m₂ ps = forDirective (evalRec env) c k z t m₁ m₂ ps := by
  have h : ∀ p a b, (evalRec env).tmpl (iterCtx d k' z' p) t' a b = (evalRec env).tmpl (iterCtx c k z p) t a b :=
    fun p => ht.text _ _ (hi p)
  induction ps with
  | nil => rfl
  | cons p ps ih => simp only [forDirective, h, ih]

theorem directive_kept {c : Ctx} {k k' : Option Str} {z z' : Str} {t t' : List Elem}
    (hi : ∀ p, Knows x y (iterCtx c k z p) (iterCtx c k' z' p)) (ht : TextKept env x y t t') (q : Expr) (m₁ m₂ : Strip)
    (els : List Elem) (a b : Strip) :
    evalTmpl env c (.forDir k' z' q t' m₁ m₂ :: els) a b = evalTmpl env c (.forDir k z q t m₁ m₂ :: els) a b := by
  rw [evalTmpl_cons, evalTmpl_cons]
  simp only [evalElem, forDirective_kept hi ht, Elem.strip]

mutual
theorem renamed_renameVar : ∀ e, CanRename x y e → Renamed env x y e (renameVar x y e)
  | .null, _ => .null
  | .bool b, _ => .bool b
  | .number n, _ => .number n
  | .string s, _ => .string s
  | .template _, h => by simp only [CanRename] at h
  | .var z, h => by
    simp only [CanRename] at h
    simp only [renameVar]
    by_cases hz : z = x
    · rw [if_pos hz, hz]; exact .this
    · rw [if_neg hz]; exact .other hz h
  | .array xs, h => by
    simp only [CanRename] at h; simp only [renameVar]; exact .array (renamed_all xs h)
  | .object es, h => by
    simp only [CanRename] at h; simp only [renameVar]; exact .object (renamed_entries es h)
  | .traversal e ops, h => by
    simp only [CanRename] at h; simp only [renameVar]
    exact .traversal (renamed_renameVar e h.1) (renamed_ops ops h.2)
  | .call n args b, h => by
    simp only [CanRename] at h; simp only [renameVar]; exact .call (renamed_all args h)
  | .paren e, h => by
    simp only [CanRename] at h; simp only [renameVar]; exact .paren (renamed_renameVar e h)
  | .cond c t f, h => by
    simp only [CanRename] at h; simp only [renameVar]
    exact .cond (renamed_renameVar c h.1) (renamed_renameVar t h.2.1) (renamed_renameVar f h.2.2)
  | .unary o e, h => by
    simp only [CanRename] at h; simp only [renameVar]; exact .unary (renamed_renameVar e h)
  | .binary l o r, h => by
    simp only [CanRename] at h; simp only [renameVar]
    exact .binary (renamed_renameVar l h.1) (renamed_renameVar r h.2)
  | .forE k z coll ke ve g ce, h => by
    simp only [CanRename] at h; simp only [renameVar]
    obtain ⟨h1, h2, h3, h4, h5, h6, h7, h8⟩ := h
    exact .forE h1 h2 h3 h4 (renamed_renameVar coll h5) (renamed_opt ke h6) (renamed_renameVar ve h7) (renamed_opt ce h8)
theorem renamed_all : ∀ es, CanRenameAll x y es → RenamedAll env x y es (renameAll x y es)
  | [], _ => by simp only [renameAll]; exact .nil
  | e :: es, h => by
    simp only [CanRenameAll] at h; simp only [renameAll]; exact .cons (renamed_renameVar e h.1) (renamed_all es h.2)
theorem renamed_entries : ∀ es, CanRenameEntries x y es → RenamedEntries env x y es (renameEntries x y es)
  | [], _ => by simp only [renameEntries]; exact .nil
  | (.ident k, v) :: es, h => by
    simp only [CanRenameEntries] at h; simp only [renameEntries]
    exact .ident (renamed_renameVar v h.1) (renamed_entries es h.2)
  | (.expr k, v) :: es, h => by
    simp only [CanRenameEntries] at h; simp only [renameEntries]
    exact .expr (renamed_renameVar k h.1) (renamed_renameVar v h.2.1) (renamed_entries es h.2.2)
theorem renamed_ops : ∀ os, CanRenameOps x y os → RenamedOps env x y os (renameOps x y os)
  | [], _ => by simp only [renameOps]; exact .nil
  | .index i :: os, h => by
    simp only [CanRenameOps] at h; simp only [renameOps]
    exact .index (renamed_renameVar i h.1) (renamed_ops os h.2)
  | .attrSplat :: os, h => by
    simp only [CanRenameOps] at h; simp only [renameOps]; exact .other (fun _ h => by cases h) (renamed_ops os h)
  | .fullSplat :: os, h => by
    simp only [CanRenameOps] at h; simp only [renameOps]; exact .other (fun _ h => by cases h) (renamed_ops os h)
  | .getAttr _ :: os, h => by
    simp only [CanRenameOps] at h; simp only [renameOps]; exact .other (fun _ h => by cases h) (renamed_ops os h)
  | .legacyIndex _ :: os, h => by
    simp only [CanRenameOps] at h; simp only [renameOps]; exact .other (fun _ h => by cases h) (renamed_ops os h)
theorem renamed_opt : ∀ e, CanRenameOpt x y e → RenamedOpt env x y e (renameOpt x y e)
  | none, _ => by simp only [renameOpt]; exact .none
  | some e, h => by
    simp only [CanRenameOpt] at h; simp only [renameOpt]; exact .some (renamed_renameVar e h)
end

mutual
theorem evalBody_kept {c d : Ctx} (hk : Knows x y c d) : ∀ (b b' : List Struct), SameShape (Renamed env x y) b b' →
    evalBody (evalRec env) d b' = evalBody (evalRec env) c b
  | [], _, h => by cases h; rfl
  | s :: ss, _, h => by
    cases h with
    | cons h1 h2 => simp only [evalBody, evalStruct_kept hk s _ h1, evalBody_kept hk ss _ h2]
theorem evalStruct_kept {c d : Ctx} (hk : Knows x y c d) : ∀ (s s' : Struct), SameShape1 (Renamed env x y) s s' →
    evalStruct (evalRec env) d s' = evalStruct (evalRec env) c s
  | .attr k e, _, h => by
    cases h with
    | attr h =>
      have h' : (evalRec env).expr d _ = (evalRec env).expr c _ := renamed_kept h c d hk
      simp only [evalStruct, h']
  | .block i ls b, _, h => by
    cases h with
    | block h => simp only [evalStruct, evalBody_kept hk b _ h]
end

end
end Verif
