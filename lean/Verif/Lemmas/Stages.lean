import Verif.Spec.Stages
import Verif.Props.InPlace
/-! Evaluation in a context that defines more, and in-place evaluation before it. -/

namespace Verif
open Spec

/-! ### More definitions do not change what could be evaluated before -/

theorem Spec.Extends.child {c d : Ctx} (h : Extends c d) : Extends c.child d.child := h

theorem Spec.Extends.iter {c d : Ctx} (h : Extends c d) (k : Option Str) (x : Str) (p : Value × Value) :
    Extends (iterCtx c k x p) (iterCtx d k x p) := by
  refine ⟨fun y v hy => ?_, fun n f hf => ?_⟩
  · rw [iterCtx_var] at hy ⊢
    by_cases hx : x = y
    · simpa [hx] using hy
    · by_cases hk : k = some y
      · simpa [hx, hk] using hy
      · simp only [hx, hk, if_false] at hy ⊢
        exact h.1 y v hy
  · rw [iterCtx_func] at hf ⊢
    exact h.2 n f hf

/-- `b` is `a`, if `a` is a value. -/
def Keeps {α : Type} (a : R α) (b : Unit → R α) : Prop := ∀ v, a = .ok v → b () = .ok v

theorem Compat.keeps : Compat (ι := Unit) Keeps :=
  ⟨fun _ _ h => h, fun {α β a b f g} h hf v hv => by
    obtain ⟨x, hx, hv⟩ := bind_ok hv
    show R.bind (b ()) (g ()) = _
    rw [h x hx]
    exact hf x hx v hv⟩

section
variable {env : Env} {r r' : Rec}

theorem stepExpr_extends (hE : ∀ {c d e}, Extends c d → Keeps (r.expr c e) fun _ => r'.expr d e)
    (hT : ∀ {c d els a b}, Extends c d → Keeps (r.tmpl c els a b) fun _ => r'.tmpl d els a b)
    {c d : Ctx} (h : Extends c d) (e : Expr) : Keeps (stepExpr env r c e) fun _ => stepExpr env r' d e := by
  have q := Compat.keeps
  have h := h.child
  have hE' : ∀ {c d : Ctx} {e : Expr}, (fun c d (_ : Expr) => Extends c d) c d e →
      Keeps (r.expr c e) (fun i => ((fun _ : Unit => r') i).expr d e) := fun h => hE h
  unfold stepExpr
  cases e with
  | null => exact q.refl _
  | bool b => exact q.refl _
  | number b => exact q.refl _
  | string b => exact q.refl _
  | array xs => exact q.bind (mapR_le q xs (fun a _ => hE h)) (fun _ _ => q.refl _)
  | object es =>
    refine q.bind (mapR_le q es (fun p _ => ?_)) (fun _ _ => q.refl _)
    unfold evalEntry
    refine q.bind ?_ (fun k _ => q.bind (hE h) (fun _ _ => q.refl _))
    cases p.1 with
    | ident x => exact q.refl _
    | expr e => exact evalObjectKey_le q hE' h
  | template t =>
    show Keeps (evalTemplateExpr env r c.child t) fun _ => evalTemplateExpr env r' d.child t
    unfold evalTemplateExpr
    split
    · exact q.refl _
    · exact hE h
    · exact q.bind (hT h) (fun _ _ => q.refl _)
  | var x =>
    intro v hv
    dsimp only at hv ⊢
    split at hv
    · rename_i w hw
      rw [h.1 x w hw]
      exact hv
    · cases hv
  | traversal e ops =>
    simp only [evalTraversal]
    exact q.bind (hE h) (fun v _ => traverse_le q hE' _ _ (fun _ _ => h) v)
  | call n args x =>
    simp only [evalCall]
    cases hf : Ctx.func n (Ctx.child c) with
    | none => intro v hv; cases hv
    | some f =>
      rw [h.2 n f hf]
      exact q.bind (evalArgs_le q hE' x args (fun _ _ => h)) (fun _ _ => q.refl _)
  | paren e => exact hE h
  | cond x t f =>
    refine q.bind (evalBool_le q hE' h) (fun b _ => ?_)
    cases b <;> exact hE h
  | unary o e => exact q.bind (hE h) (fun _ _ => q.refl _)
  | binary l o rr => exact q.bind (hE h) (fun _ _ => q.bind (hE h) (fun _ _ => q.refl _))
  | forE k x coll ke ve g ce =>
    simp only [evalFor]
    refine q.bind (evalCollection_le q hE' h) (fun ps _ => ?_)
    cases ke with
    | none => exact q.bind (forArray_le q hE' (fun p => h.iter k x p) (fun p _ _ => h.iter k x p) ps) (fun _ _ => q.refl _)
    | some ke =>
      exact q.bind (forObject_le q hE' (fun p => h.iter k x p) (fun p => h.iter k x p)
        (fun p _ _ => h.iter k x p) ps []) (fun _ _ => q.refl _)

theorem stepTmpl_extends (hE : ∀ {c d e}, Extends c d → Keeps (r.expr c e) fun _ => r'.expr d e)
    (hT : ∀ {c d els a b}, Extends c d → Keeps (r.tmpl c els a b) fun _ => r'.tmpl d els a b)
    {c d : Ctx} (h : Extends c d) (els : List Elem) (a b : Strip) :
    Keeps (stepTmpl env r c els a b) fun _ => stepTmpl env r' d els a b := by
  have q := Compat.keeps
  have hE' : ∀ {c d : Ctx} {e : Expr}, (fun c d (_ : Expr) => Extends c d) c d e →
      Keeps (r.expr c e) (fun i => ((fun _ : Unit => r') i).expr d e) := fun h => hE h
  have hT' : ∀ {c d : Ctx} {els : List Elem} {a b : Strip}, (fun c d (_ : List Elem) => Extends c d) c d els →
      Keeps (r.tmpl c els a b) (fun i => ((fun _ : Unit => r') i).tmpl d els a b) := fun h => hT h
  induction els generalizing a with
  | nil => exact q.refl _
  | cons e es ih =>
    simp only [stepTmpl]
    refine q.bind ?_ (fun _ _ => q.bind (ih _) (fun _ _ => q.refl _))
    cases e with
    | lit s => exact q.refl _
    | interp e s => exact q.bind (hE h) (fun _ _ => q.refl _)
    | ifDir x t f i j k =>
      simp only [evalElem]
      refine q.bind (evalBool_le q hE' h) (fun b' _ => ?_)
      cases b' with
      | true => exact hT h
      | false =>
        cases f with
        | none => exact q.refl _
        | some f => exact hT h
    | forDir k x coll t i j =>
      simp only [evalElem]
      exact q.bind (evalCollection_le q hE' h) (fun ps _ => forDirective_le q hT' (fun p => h.iter k x p) ps)

end

theorem evalF_extends (env : Env) (n : Nat) :
    (∀ {c d e}, Extends c d → Keeps ((evalF env n).expr c e) fun _ => (evalF env n).expr d e) ∧
    ∀ {c d els a b}, Extends c d → Keeps ((evalF env n).tmpl c els a b) fun _ => (evalF env n).tmpl d els a b := by
  induction n with
  | zero =>
    constructor
    · intro c d e _ v h
      cases h
    · intro c d els a b _ v h
      cases h
  | succ n ih => exact ⟨fun h => stepExpr_extends ih.1 ih.2 h _, fun h => stepTmpl_extends ih.1 ih.2 h _ _ _⟩

theorem eval_extends {env : Env} {c d : Ctx} {e : Expr} {v : Value} (h : Extends c d) (hv : eval env c e = .ok v) :
    eval env d e = .ok v := by
  unfold eval at hv
  split at hv
  · exact eval_of_evalF _ ((evalF_extends env _).1 h v hv) (by nofun)
  · cases hv

theorem evalTmpl_extends {env : Env} {c d : Ctx} {els : List Elem} {a b : Strip} {t : Str} (h : Extends c d)
    (hv : evalTmpl env c els a b = .ok t) : evalTmpl env d els a b = .ok t := by
  unfold evalTmpl at hv
  split at hv
  · exact evalTmpl_of_evalF _ ((evalF_extends env _).2 h t hv) (by nofun)
  · cases hv

/-! ### In-place evaluation looks at a context through its names only -/

section
variable {env : Env} {c d : Ctx}

theorem finishPlace_same (h : SameLookups c d) (r : Expr × List EvalErr) :
    finishPlace (evalRec env) c r = finishPlace (evalRec env) d r := by
  have : (evalRec env).expr c r.1 = (evalRec env).expr d r.1 := eval_same h _
  simp only [finishPlace, this]

mutual
theorem inPlace_lookups : ∀ (e : Expr) {c d : Ctx}, SameLookups c d →
    inPlace (evalRec env) c e = inPlace (evalRec env) d e
  | .null, _, _, _ => rfl
  | .bool _, _, _, _ => rfl
  | .number _, _, _, _ => rfl
  | .string _, _, _, _ => rfl
  | .array xs, c, d, h => by
    have h' : SameLookups c.child d.child := h
    simp only [inPlace, inPlaceList_lookups xs h', finishPlace_same h]
  | .object es, c, d, h => by
    have h' : SameLookups c.child d.child := h
    simp only [inPlace, inPlaceEntries_lookups es _ h', finishPlace_same h]
  | .template t, c, d, h => by simp only [inPlace, finishPlace_same h]
  | .var x, c, d, h => by simp only [inPlace, finishPlace_same h]
  | .traversal e ops, c, d, h => by
    have h' : SameLookups c.child d.child := h
    simp only [inPlace, inPlaceOps_lookups ops h', finishPlace_same h]
  | .call n args x, c, d, h => by
    have h' : SameLookups c.child d.child := h
    simp only [inPlace, inPlaceList_lookups args h', finishPlace_same h]
  | .paren e, c, d, h => by
    have h' : SameLookups c.child d.child := h
    simp only [inPlace, inPlace_lookups e h', finishPlace_same h]
  | .cond q t f, c, d, h => by
    have h' : SameLookups c.child d.child := h
    have hq : evalBool (evalRec env) c.child q = evalBool (evalRec env) d.child q := by
      have : (evalRec env).expr c.child q = (evalRec env).expr d.child q := eval_same h' _
      simp only [evalBool, this]
    simp only [inPlace, hq, inPlace_lookups t h', inPlace_lookups f h', finishPlace_same h]
  | .unary o e, c, d, h => by
    have h' : SameLookups c.child d.child := h
    simp only [inPlace, inPlace_lookups e h', finishPlace_same h]
  | .binary l o r, c, d, h => by
    have h' : SameLookups c.child d.child := h
    simp only [inPlace, inPlace_lookups l h', inPlace_lookups r h', finishPlace_same h]
  | .forE k y coll ke ve g ce, c, d, h => by
    have h' : SameLookups c.child d.child := h
    simp only [inPlace, inPlace_lookups coll h', finishPlace_same h]
theorem inPlaceList_lookups : ∀ (xs : List Expr) {c d : Ctx}, SameLookups c d →
    inPlaceList (evalRec env) c xs = inPlaceList (evalRec env) d xs
  | [], _, _, _ => rfl
  | x :: xs, c, d, h => by simp only [inPlaceList, inPlace_lookups x h, inPlaceList_lookups xs h]
theorem inPlaceEntries_lookups : ∀ (es new : List (ObjKey × Expr)) {c d : Ctx}, SameLookups c d →
    inPlaceEntries (evalRec env) c es new = inPlaceEntries (evalRec env) d es new
  | [], _, _, _, _ => rfl
  | (.ident x, v) :: es, new, c, d, h => by
    simp only [inPlaceEntries, inPlaceKey, inPlace_lookups v h]
    congr; funext k; congr; funext w
    rw [inPlaceEntries_lookups es _ h]
  | (.expr k, v) :: es, new, c, d, h => by
    simp only [inPlaceEntries, inPlaceKey, inPlace_lookups k h, inPlace_lookups v h]
    congr; funext k; congr; funext w
    rw [inPlaceEntries_lookups es _ h]
theorem inPlaceOps_lookups : ∀ (os : List TravOp) {c d : Ctx}, SameLookups c d →
    inPlaceOps (evalRec env) c os = inPlaceOps (evalRec env) d os
  | [], _, _, _ => rfl
  | .index i :: os, c, d, h => by
    simp only [inPlaceOps, inPlaceOp, inPlace_lookups i h, inPlaceOps_lookups os h]
  | .attrSplat :: os, c, d, h => by simp only [inPlaceOps, inPlaceOp, inPlaceOps_lookups os h]
  | .fullSplat :: os, c, d, h => by simp only [inPlaceOps, inPlaceOp, inPlaceOps_lookups os h]
  | .getAttr _ :: os, c, d, h => by simp only [inPlaceOps, inPlaceOp, inPlaceOps_lookups os h]
  | .legacyIndex _ :: os, c, d, h => by simp only [inPlaceOps, inPlaceOp, inPlaceOps_lookups os h]
end

theorem Spec.Unmerged.child {e : Expr} (h : Unmerged env c e) : Unmerged env c.child e :=
  fun es hw es' errs hr => h es hw es' errs ((inPlaceEntries_lookups es [] (SameLookups.child c)).symm.trans hr)

/-! ### In-place evaluation keeps the value -/

/-- Two expressions that evaluate alike. -/
def Alike (env : Env) (d : Ctx) (e e' : Expr) : Prop := eval env d e' = eval env d e

theorem mapR_alike {xs ys : List Expr} (h : List.Forall₂ (Alike env d) xs ys) :
    mapR (eval env d) ys = mapR (eval env d) xs := by
  induction h with
  | nil => rfl
  | cons h _ ih => simp only [mapR, show eval env d _ = eval env d _ from h, ih]

theorem evalArgs_alike {b : Bool} {xs ys : List Expr} (h : List.Forall₂ (Alike env d) xs ys) :
    evalArgs (evalRec env) d b ys = evalArgs (evalRec env) d b xs := by
  induction h with
  | nil => rfl
  | @cons x y xs ys h hl ih =>
    have he : ys.isEmpty = xs.isEmpty := by cases hl <;> rfl
    have hs : (evalRec env).expr d y = (evalRec env).expr d x := h
    simp only [evalArgs, evalArray, he, hs, ih]

/-- Operators that evaluate alike. -/
inductive OpAlike (env : Env) (d : Ctx) : TravOp → TravOp → Prop
  | same (o) : OpAlike env d o o
  | index {e e'} : Alike env d e e' → OpAlike env d (.index e) (.index e')

theorem OpAlike.isGetAttr {o o'} (h : OpAlike env d o o') : o'.isGetAttr = o.isGetAttr := by cases h <;> rfl

theorem takeWhile_alike {os ps : List TravOp} (h : List.Forall₂ (OpAlike env d) os ps) :
    List.Forall₂ (OpAlike env d) (os.takeWhile TravOp.isGetAttr) (ps.takeWhile TravOp.isGetAttr) := by
  induction h with
  | nil => exact .nil
  | @cons o p os ps h _ ih =>
    cases ho : o.isGetAttr
    · rw [List.takeWhile_cons_of_neg (by simp [ho]), List.takeWhile_cons_of_neg (by simp [h.isGetAttr, ho])]
      exact .nil
    · rw [List.takeWhile_cons_of_pos ho, List.takeWhile_cons_of_pos (by rw [h.isGetAttr, ho])]
      exact .cons h ih

theorem dropWhile_alike {os ps : List TravOp} (h : List.Forall₂ (OpAlike env d) os ps) :
    List.Forall₂ (OpAlike env d) (os.dropWhile TravOp.isGetAttr) (ps.dropWhile TravOp.isGetAttr) := by
  induction h with
  | nil => exact .nil
  | @cons o p os ps h hl ih =>
    cases ho : o.isGetAttr
    · rw [List.dropWhile_cons_of_neg (by simp [ho]), List.dropWhile_cons_of_neg (by simp [h.isGetAttr, ho])]
      exact .cons h hl
    · rw [List.dropWhile_cons_of_pos ho, List.dropWhile_cons_of_pos (by rw [h.isGetAttr, ho])]
      exact ih

theorem traverse_alike (n : Nat) : ∀ (os ps : List TravOp), List.Forall₂ (OpAlike env d) os ps → ∀ v,
    traverse (evalRec env) d n ps v = traverse (evalRec env) d n os v := by
  induction n with
  | zero => intro os ps h v; cases h <;> rfl
  | succ n ih =>
    intro os ps h v
    cases h with
    | nil => rfl
    | @cons o p os ps h hl =>
      have htail := fun w => ih os ps hl w
      cases h with
      | index he =>
        simp only [traverse, indexExpr]
        have hs' : (evalRec env).expr d _ = (evalRec env).expr d _ := he
        rw [hs']
        congr 1; funext w; exact htail w
      | same =>
        cases o with
        | legacyIndex i => simp only [traverse]; congr 1; funext w; exact htail w
        | index e => simp only [traverse]; congr 1; funext w; exact htail w
        | getAttr x => simp only [traverse]; congr 1; funext w; exact htail w
        | attrSplat =>
          simp only [traverse]
          have h1 : (fun x => traverse (evalRec env) d n (ps.takeWhile TravOp.isGetAttr) x) =
              fun x => traverse (evalRec env) d n (os.takeWhile TravOp.isGetAttr) x :=
            funext fun w => ih _ _ (takeWhile_alike hl) w
          have h2 : (fun x => traverse (evalRec env) d n (ps.dropWhile TravOp.isGetAttr) x) =
              fun x => traverse (evalRec env) d n (os.dropWhile TravOp.isGetAttr) x :=
            funext fun w => ih _ _ (dropWhile_alike hl) w
          rw [h1, h2]
        | fullSplat => simp only [traverse]; congr 1; funext w; exact htail w

theorem evalBool_alike {q q' : Expr} (h : Alike env d q q') :
    evalBool (evalRec env) d q' = evalBool (evalRec env) d q := by
  have h' : (evalRec env).expr d q' = (evalRec env).expr d q := h
  simp only [evalBool, h']

theorem evalCollection_alike {q q' : Expr} (h : Alike env d q q') :
    evalCollection (evalRec env) d q' = evalCollection (evalRec env) d q := by
  have h' : (evalRec env).expr d q' = (evalRec env).expr d q := h
  simp only [evalCollection, h']

/-- Entries that evaluate alike. -/
def EntryAlike (env : Env) (d : Ctx) (p q : ObjKey × Expr) : Prop :=
  evalKey env (evalRec env) d q.1 = evalKey env (evalRec env) d p.1 ∧ Alike env d p.2 q.2

theorem entries_alike {es es' : List (ObjKey × Expr)} (h : List.Forall₂ (EntryAlike env d) es es') :
    mapR (evalEntry env (evalRec env) d) es' = mapR (evalEntry env (evalRec env) d) es := by
  induction h with
  | nil => rfl
  | @cons a b l l' hab _ ih =>
    have h2 : (evalRec env).expr d b.2 = (evalRec env).expr d a.2 := hab.2
    simp only [mapR, evalEntry, hab.1, h2, ih]

theorem objInsert_length (k : ObjKey) (v : Expr) : ∀ m : List (ObjKey × Expr),
    (objInsert k v m).length ≤ m.length + 1 ∧
      ((objInsert k v m).length = m.length + 1 → objInsert k v m = m ++ [(k, v)])
  | [] => by simp [objInsert]
  | (k', v') :: m => by
    rw [objInsert]
    split
    · simp
    · have := objInsert_length k v m
      refine ⟨by simp; omega, fun h => ?_⟩
      rw [this.2 (by simpa using h)]
      rfl

theorem finish_alike {e' : Expr} {errs : List EvalErr} {α : Type} (mk : α → Expr) {r : Placed α} (hc : CtxWF c)
    (hd : Extends c d) (h : R.bind r (fun r => finishPlace (evalRec env) c (mk r.1, r.2)) = .ok (e', errs)) :
    ∃ a es, r = .ok (a, es) ∧ Alike env d (mk a) e' := by
  obtain ⟨⟨a, es⟩, hr, h⟩ := bind_ok h
  refine ⟨a, es, hr, ?_⟩
  cases es with
  | cons k ks => cases h; rfl
  | nil =>
    simp only [finishPlace] at h
    cases hv : (evalRec env).expr c (mk a) with
    | ok v =>
      rw [hv] at h
      cases h
      show eval env d (ofValue v) = _
      rw [eval_ofValue v (eval_wf hc hv), eval_extends hd hv]
    | error f =>
      rw [hv] at h
      cases f <;> cases h
      rfl

mutual
theorem inPlace_alike : ∀ (e : Expr) (c d : Ctx) (e' : Expr) (errs : List EvalErr), CtxWF c → Extends c d →
    Unmerged env c e → inPlace (evalRec env) c e = .ok (e', errs) → Alike env d e e'
  | .null, _, _, _, _, _, _, _, h => by cases h; rfl
  | .bool _, _, _, _, _, _, _, _, h => by cases h; rfl
  | .number _, _, _, _, _, _, _, _, h => by cases h; rfl
  | .string _, _, _, _, _, _, _, _, h => by cases h; rfl
  | .array xs, c, d, e', errs, hc, hd, hu, h => by
    rw [inPlace] at h
    obtain ⟨a, es, h1, h2⟩ := finish_alike Expr.array hc hd h
    have hf := inPlaceList_alike xs c.child d a es hc.child hd
      (fun e he => Unmerged.child fun es hw => hu es (.array he hw)) h1
    rw [Alike] at h2 ⊢
    rw [h2, eval_array, eval_array, mapR_alike hf]
  | .object os, c, d, e', errs, hc, hd, hu, h => by
    rw [inPlace] at h
    obtain ⟨a, es, h1, h2⟩ := finish_alike Expr.object hc hd h
    obtain ⟨hle, hf⟩ := inPlaceEntries_alike os [] c.child d a es hc.child hd
      (fun e v hm => Unmerged.child fun es hw => hu es (.key hm hw))
      (fun k e hm => Unmerged.child fun es hw => hu es (.value hm hw)) h1
    have hl := Unmerged.child hu os .self a es h1
    obtain ⟨new, rfl, hf⟩ := hf (by simpa using hl)
    rw [Alike] at h2 ⊢
    rw [h2, eval_object, eval_object, entries_alike hf]
  | .template t, c, d, e', errs, hc, hd, hu, h => by
    obtain ⟨a, es, h1, h2⟩ := finish_alike (r := .ok (Expr.template t, [])) id hc hd h
    cases h1; exact h2
  | .var x, c, d, e', errs, hc, hd, hu, h => by
    obtain ⟨a, es, h1, h2⟩ := finish_alike (r := .ok (Expr.var x, [])) id hc hd h
    cases h1; exact h2
  | .traversal e ops, c, d, e', errs, hc, hd, hu, h => by
    rw [inPlace] at h
    obtain ⟨a, es, h1, h2⟩ := finish_alike (Expr.traversal e) hc hd h
    have hf := inPlaceOps_alike ops c.child d a es hc.child hd
      (fun e he => Unmerged.child fun es hw => hu es (.index he hw)) h1
    rw [Alike] at h2 ⊢
    rw [h2, eval_traversal, eval_traversal, hf.length_eq]
    congr 1; funext w
    exact traverse_alike _ _ _ hf w
  | .call n args x, c, d, e', errs, hc, hd, hu, h => by
    rw [inPlace] at h
    obtain ⟨a, es, h1, h2⟩ := finish_alike (fun a => Expr.call n a x) hc hd h
    have hf := inPlaceList_alike args c.child d a es hc.child hd
      (fun e he => Unmerged.child fun es hw => hu es (.arg he hw)) h1
    rw [Alike] at h2 ⊢
    rw [h2, eval_call, eval_call, evalArgs_alike hf]
  | .paren e, c, d, e', errs, hc, hd, hu, h => by
    rw [inPlace] at h
    obtain ⟨a, es, h1, h2⟩ := finish_alike Expr.paren hc hd h
    have hf : eval env d _ = eval env d _ := inPlace_alike e c.child d a es hc.child hd
      (Unmerged.child fun es hw => hu es (.paren hw)) h1
    rw [Alike] at h2 ⊢
    rw [h2, eval_paren, eval_paren, hf]
  | .cond q t f, c, d, e', errs, hc, hd, hu, h => by
    rw [inPlace] at h
    cases hq : evalBool (evalRec env) c.child q with
    | error k =>
      rw [hq] at h
      cases k <;> cases h
      rfl
    | ok b =>
      rw [hq] at h
      have hq' : evalBool (evalRec env) d q = .ok b := by
        obtain ⟨v, hv, hb⟩ := bind_ok hq
        have hv' : (evalRec env).expr d q = .ok v := eval_extends (c := c.child) hd hv
        show R.bind ((evalRec env).expr d q) _ = _
        rw [hv']
        exact hb
      have hlit : evalBool (evalRec env) d (.bool b) = .ok b := by
        have : (evalRec env).expr d (.bool b) = .ok (.bool b) := eval_bool ..
        simp only [evalBool, this, R.bind]
      cases b with
      | true =>
        obtain ⟨a, es, h1, h2⟩ := finish_alike (fun a => Expr.cond (.bool true) a f) hc hd h
        have hf : eval env d _ = eval env d _ := inPlace_alike t c.child d a es hc.child hd
          (Unmerged.child fun es hw => hu es (.condT hw)) h1
        rw [Alike] at h2 ⊢
        rw [h2, eval_cond, eval_cond, hlit, hq']
        simp only [R.bind, if_true, hf]
      | false =>
        obtain ⟨a, es, h1, h2⟩ := finish_alike (fun a => Expr.cond (.bool false) t a) hc hd h
        have hf : eval env d _ = eval env d _ := inPlace_alike f c.child d a es hc.child hd
          (Unmerged.child fun es hw => hu es (.condF hw)) h1
        rw [Alike] at h2 ⊢
        rw [h2, eval_cond, eval_cond, hlit, hq']
        simp only [R.bind, Bool.false_eq_true, if_false, hf]
  | .unary o e, c, d, e', errs, hc, hd, hu, h => by
    rw [inPlace] at h
    obtain ⟨a, es, h1, h2⟩ := finish_alike (Expr.unary o) hc hd h
    have hf : eval env d _ = eval env d _ := inPlace_alike e c.child d a es hc.child hd
      (Unmerged.child fun es hw => hu es (.unary hw)) h1
    rw [Alike] at h2 ⊢
    rw [h2, eval_unary, eval_unary, hf]
  | .binary l o r, c, d, e', errs, hc, hd, hu, h => by
    rw [inPlace] at h
    obtain ⟨⟨l1, e1⟩, h1, h⟩ := bind_ok h
    obtain ⟨a, es, h2, h3⟩ := finish_alike (fun a => Expr.binary l1 o a) hc hd
      (r := R.bind (inPlace (evalRec env) c.child r) fun b => .ok (b.1, e1 ++ b.2)) (by
        rw [← h]
        cases inPlace (evalRec env) c.child r <;> rfl)
    obtain ⟨⟨r1, e2⟩, h5, h4⟩ := bind_ok h2
    cases h4
    have hl : eval env d _ = eval env d _ := inPlace_alike l c.child d _ _ hc.child hd
      (Unmerged.child fun es hw => hu es (.left hw)) h1
    have hr : eval env d _ = eval env d _ := inPlace_alike r c.child d _ _ hc.child hd
      (Unmerged.child fun es hw => hu es (.right hw)) h5
    rw [Alike] at h3 ⊢
    rw [h3, eval_binary, eval_binary, hl, hr]
  | .forE k y coll ke ve g ce, c, d, e', errs, hc, hd, hu, h => by
    rw [inPlace] at h
    obtain ⟨a, es, h1, h2⟩ := finish_alike (fun a => Expr.forE k y a ke ve g ce) hc hd h
    have hf := inPlace_alike coll c.child d a es hc.child hd
      (Unmerged.child fun es hw => hu es (.coll hw)) h1
    rw [Alike] at h2 ⊢
    rw [h2, eval_for, eval_for]
    unfold evalFor
    rw [evalCollection_alike hf]
theorem inPlaceList_alike : ∀ (xs : List Expr) (c d : Ctx) (ys : List Expr) (errs : List EvalErr), CtxWF c →
    Extends c d → (∀ e ∈ xs, Unmerged env c e) → inPlaceList (evalRec env) c xs = .ok (ys, errs) →
      List.Forall₂ (Alike env d) xs ys
  | [], _, _, _, _, _, _, _, h => by cases h; exact .nil
  | x :: xs, c, d, ys, errs, hc, hd, hu, h => by
    rw [inPlaceList] at h
    obtain ⟨⟨y, e1⟩, h1, h⟩ := bind_ok h
    obtain ⟨⟨ys', e2⟩, h2, h⟩ := bind_ok h
    cases h
    exact .cons (inPlace_alike x c d _ _ hc hd (hu x (List.mem_cons_self ..)) h1)
      (inPlaceList_alike xs c d _ _ hc hd (fun e he => hu e (List.mem_cons_of_mem _ he)) h2)
theorem inPlaceEntries_alike : ∀ (os new : List (ObjKey × Expr)) (c d : Ctx) (r : List (ObjKey × Expr))
    (errs : List EvalErr), CtxWF c → Extends c d → (∀ e v, (ObjKey.expr e, v) ∈ os → Unmerged env c e) →
    (∀ k e, (k, e) ∈ os → Unmerged env c e) → inPlaceEntries (evalRec env) c os new = .ok (r, errs) →
      r.length ≤ new.length + os.length ∧
      (r.length = new.length + os.length → ∃ l, r = new ++ l ∧ List.Forall₂ (EntryAlike env d) os l)
  | [], new, _, _, r, _, _, _, _, _, h => by
    cases h
    exact ⟨by simp, fun _ => ⟨[], by simp, .nil⟩⟩
  | (k, v) :: os, new, c, d, r, errs, hc, hd, hk, hv, h => by
    rw [inPlaceEntries] at h
    obtain ⟨⟨k1, e1⟩, h1, h⟩ := bind_ok h
    obtain ⟨⟨v1, e2⟩, h2, h⟩ := bind_ok h
    obtain ⟨⟨r1, e3⟩, h3, h⟩ := bind_ok h
    cases h
    obtain ⟨i1, i2⟩ := inPlaceEntries_alike os (objInsert k1 v1 new) c d _ _ hc hd
      (fun e w hm => hk e w (List.mem_cons_of_mem _ hm)) (fun k e hm => hv k e (List.mem_cons_of_mem _ hm)) h3
    obtain ⟨j1, j2⟩ := objInsert_length k1 v1 new
    refine ⟨by simp only [List.length_cons]; omega, fun hl => ?_⟩
    simp only [List.length_cons] at hl
    obtain ⟨l, hl1, hl2⟩ := i2 (by omega)
    rw [j2 (by omega)] at hl1
    refine ⟨(k1, v1) :: l, by simpa using hl1, .cons ⟨?_, ?_⟩ hl2⟩
    · exact inPlaceKey_alike k c d _ _ hc hd (fun e he => hk e v (he ▸ List.mem_cons_self ..)) h1
    · exact inPlace_alike v c d _ _ hc hd (hv k v (List.mem_cons_self ..)) h2
theorem inPlaceKey_alike : ∀ (k : ObjKey) (c d : Ctx) (k' : ObjKey) (errs : List EvalErr), CtxWF c → Extends c d →
    (∀ e, k = .expr e → Unmerged env c e) → inPlaceKey (evalRec env) c k = .ok (k', errs) →
      evalKey env (evalRec env) d k' = evalKey env (evalRec env) d k
  | .ident x, _, _, _, _, _, _, _, h1 => by cases h1; rfl
  | .expr q, c, d, k', errs, hc, hd, hu, h1 => by
    rw [inPlaceKey] at h1
    obtain ⟨⟨q1, e4⟩, h4, h1⟩ := bind_ok h1
    cases h1
    have hq : (evalRec env).expr d q1 = (evalRec env).expr d q :=
      inPlace_alike q c d _ _ hc hd (hu q rfl) h4
    simp only [evalKey, evalObjectKey, hq]
theorem inPlaceOps_alike : ∀ (os : List TravOp) (c d : Ctx) (ps : List TravOp) (errs : List EvalErr), CtxWF c →
    Extends c d → (∀ i, TravOp.index i ∈ os → Unmerged env c i) → inPlaceOps (evalRec env) c os = .ok (ps, errs) →
      List.Forall₂ (OpAlike env d) os ps
  | [], _, _, _, _, _, _, _, h => by cases h; exact .nil
  | o :: os, c, d, ps, errs, hc, hd, hu, h => by
    rw [inPlaceOps] at h
    obtain ⟨⟨y, e1⟩, h1, h⟩ := bind_ok h
    obtain ⟨⟨ys', e2⟩, h2, h⟩ := bind_ok h
    cases h
    refine .cons ?_ (inPlaceOps_alike os c d _ _ hc hd (fun e he => hu e (List.mem_cons_of_mem _ he)) h2)
    exact inPlaceOp_alike o c d _ _ hc hd (fun e he => hu e (he ▸ List.mem_cons_self ..)) h1
theorem inPlaceOp_alike : ∀ (o : TravOp) (c d : Ctx) (o' : TravOp) (errs : List EvalErr), CtxWF c → Extends c d →
    (∀ i, o = .index i → Unmerged env c i) → inPlaceOp (evalRec env) c o = .ok (o', errs) → OpAlike env d o o'
  | .index q, c, d, _, _, hc, hd, hu, h1 => by
    rw [inPlaceOp] at h1
    obtain ⟨⟨q1, e4⟩, h4, h1⟩ := bind_ok h1
    cases h1
    exact .index (inPlace_alike q c d _ _ hc hd (hu q rfl) h4)
  | .attrSplat, _, _, _, _, _, _, _, h1 => by cases h1; exact .same _
  | .fullSplat, _, _, _, _, _, _, _, h1 => by cases h1; exact .same _
  | .getAttr _, _, _, _, _, _, _, _, h1 => by cases h1; exact .same _
  | .legacyIndex _, _, _, _, _, _, _, _, h1 => by cases h1; exact .same _
end

/-! ### Plain keys -/

theorem objInsert_fresh (k : ObjKey) (v : Expr) : ∀ m : List (ObjKey × Expr),
    (∀ p ∈ m, p.1.beq k = false) → objInsert k v m = m ++ [(k, v)]
  | [], _ => rfl
  | (k', v') :: m, h => by
    rw [objInsert, h (k', v') (List.mem_cons_self ..), if_neg (by simp),
      objInsert_fresh k v m fun p hp => h p (List.mem_cons_of_mem _ hp)]
    rfl

theorem plain_beq {k k' : ObjKey} (h : (∃ x, k = .ident x) ∨ ∃ s, k = .expr (.string s))
    (h' : (∃ x, k' = .ident x) ∨ ∃ s, k' = .expr (.string s)) (hne : k ≠ k') : k.beq k' = false := by
  rcases h with ⟨x, rfl⟩ | ⟨x, rfl⟩ <;> rcases h' with ⟨y, rfl⟩ | ⟨y, rfl⟩ <;>
    simp_all [ObjKey.beq, Expr.beq]

theorem inPlaceEntries_plain : ∀ (os new r : List (ObjKey × Expr)) (errs : List EvalErr),
    (∀ p ∈ new ++ os, (∃ x, p.1 = .ident x) ∨ ∃ s, p.1 = .expr (.string s)) → ((new ++ os).map Prod.fst).Nodup →
    inPlaceEntries (evalRec env) c os new = .ok (r, errs) → r.length = new.length + os.length
  | [], new, r, _, _, _, h => by cases h; simp
  | (k, v) :: os, new, r, errs, hp, hn, h => by
    rw [inPlaceEntries] at h
    obtain ⟨⟨k1, e1⟩, h1, h⟩ := bind_ok h
    obtain ⟨⟨v1, e2⟩, h2, h⟩ := bind_ok h
    obtain ⟨⟨r1, e3⟩, h3, h⟩ := bind_ok h
    cases h
    have hk : k1 = k := by
      rcases hp (k, v) (by simp) with ⟨x, hx⟩ | ⟨x, hx⟩ <;> dsimp only at hx <;> subst hx <;> cases h1 <;> rfl
    subst hk
    have hf : objInsert k1 v1 new = new ++ [(k1, v1)] := by
      refine objInsert_fresh _ _ _ fun p hpm => plain_beq (hp p (by simp [hpm])) (hp (k1, v) (by simp)) fun he => ?_
      rw [List.map_append, List.nodup_append] at hn
      exact hn.2.2 p.1 (List.mem_map_of_mem hpm) k1 (by simp) he
    simp only [hf] at h3
    rw [inPlaceEntries_plain os _ _ _ (fun p hpm => ?_) (by simpa using hn) h3]
    · simp; omega
    · rw [List.append_assoc, List.mem_append] at hpm
      rcases hpm with hpm | hpm
      · exact hp p (by simp [hpm])
      · simp only [List.cons_append, List.nil_append, List.mem_cons] at hpm
        rcases hpm with rfl | hpm
        · exact hp (k1, v) (by simp)
        · exact hp p (by simp [hpm])

theorem unmerged_plain {e : Expr} (h : ∀ es, Within e (.object es) → NamesOnce es) : Unmerged env c e :=
  fun es hw es' errs hr => by
    have := inPlaceEntries_plain (env := env) es [] es' errs (h es hw).1 (h es hw).2 hr
    simpa using this

/-! ### Templates -/

theorem Spec.Extends.loop (h : Extends c d) {k : Option Str} {x : Str} (hx : c.var x = none)
    (hk : ∀ y, k = some y → c.var y = none) (p : Value × Value) : Extends c (iterCtx d k x p) := by
  refine ⟨fun y v hy => ?_, fun n f hf => ?_⟩
  · rw [iterCtx_var, if_neg (fun h => by rw [← h, hx] at hy; cases hy),
      if_neg (fun h => by rw [hk y h] at hy; cases hy)]
    exact h.1 y v hy
  · rw [iterCtx_func]
    exact h.2 n f hf

/-- Elements that evaluate alike where everything in `c` is defined. -/
def ElemAlike (env : Env) (c : Ctx) (el el' : Elem) : Prop :=
  el'.strip = el.strip ∧ ∀ d, Extends c d → ∀ a b,
    evalElem env (evalRec env) d a b el' = evalElem env (evalRec env) d a b el

theorem tmplAlike {els els' : List Elem} (h : List.Forall₂ (ElemAlike env c) els els') (hd : Extends c d)
    (a b : Strip) : evalTmpl env d els' a b = evalTmpl env d els a b := by
  induction h generalizing a with
  | nil => rfl
  | @cons e e' es es' h hl ih =>
    rw [evalTmpl_cons', evalTmpl_cons', h.1, ih]
    have : nextOf (e' :: es') b 0 = nextOf (e :: es) b 0 := by
      cases hl with
      | nil => rfl
      | cons h' _ => exact h'.1
    rw [this, h.2 d hd]

mutual
theorem inPlaceTmpl_alike (hc : CtxWF c) : ∀ (els els' : List Elem) (errs : List EvalErr),
    LoopVarsUndefined env c els → inPlaceTmpl (evalRec env) c els = .ok (els', errs) →
      List.Forall₂ (ElemAlike env c) els els'
  | [], els', _, _, h => by cases h; exact .nil
  | e :: es, els', errs, hu, h => by
    rw [inPlaceTmpl] at h
    obtain ⟨⟨y, e1⟩, h1, h⟩ := bind_ok h
    obtain ⟨⟨ys', e2⟩, h2, h⟩ := bind_ok h
    cases h
    simp only [LoopVarsUndefined] at hu
    exact .cons (inPlaceElem_alike hc e y _ hu.1 h1) (inPlaceTmpl_alike hc es ys' _ hu.2 h2)
theorem inPlaceElem_alike (hc : CtxWF c) : ∀ (el el' : Elem) (errs : List EvalErr),
    LoopVarsUndefined1 env c el → inPlaceElem (evalRec env) c el = .ok (el', errs) → ElemAlike env c el el'
  | .lit s, el', _, _, h => by cases h; exact ⟨rfl, fun _ _ _ _ => rfl⟩
  | .interp e m, el', errs, hu, h => by
    rw [inPlaceElem] at h
    obtain ⟨⟨e1, errs⟩, h1, h⟩ := bind_ok h
    cases h
    refine ⟨rfl, fun d hd a b => ?_⟩
    have : (evalRec env).expr d e1 = (evalRec env).expr d e := inPlace_alike e c d _ _ hc hd hu h1
    simp only [evalElem, this]
  | .ifDir q t f a0 b0 z0, el', errs, hu, h => by
    simp only [LoopVarsUndefined1] at hu
    rw [inPlaceElem] at h
    obtain ⟨⟨q1, e1⟩, h1, h⟩ := bind_ok h
    obtain ⟨⟨t1, e2⟩, h2, h⟩ := bind_ok h
    have hcond : ∀ d, Extends c d → evalBool (evalRec env) d q1 = evalBool (evalRec env) d q :=
      fun d hd => evalBool_alike (inPlace_alike q c d _ _ hc hd hu.1 h1)
    have htrue : ∀ d, Extends c d → ∀ a b, (evalRec env).tmpl d t1 a b = (evalRec env).tmpl d t a b :=
      fun d hd a b => tmplAlike (inPlaceTmpl_alike hc t t1 _ hu.2.1 h2) hd a b
    cases f with
    | none =>
      cases h
      refine ⟨rfl, fun d hd a b => ?_⟩
      simp only [evalElem, hcond d hd, htrue d hd]
    | some f =>
      obtain ⟨⟨f1, e3⟩, h3, h⟩ := bind_ok h
      cases h
      have hu3 : LoopVarsUndefined env c f := by simpa only [LoopVarsUndefinedO] using hu.2.2
      refine ⟨rfl, fun d hd a b => ?_⟩
      have hfalse : (evalRec env).tmpl d f1 b0 z0 = (evalRec env).tmpl d f b0 z0 :=
        tmplAlike (inPlaceTmpl_alike hc f f1 _ hu3 h3) hd b0 z0
      simp only [evalElem, hcond d hd, htrue d hd, hfalse, Option.isSome]
  | .forDir k x coll t a0 z0, el', errs, hu, h => by
    simp only [LoopVarsUndefined1] at hu
    rw [inPlaceElem] at h
    obtain ⟨⟨q1, e1⟩, h1, h⟩ := bind_ok h
    obtain ⟨⟨t1, e2⟩, h2, h⟩ := bind_ok h
    cases h
    refine ⟨rfl, fun d hd a b => ?_⟩
    have hcoll := evalCollection_alike (inPlace_alike coll c d _ _ hc hd hu.1 h1)
    have hbody : ∀ p, (evalRec env).tmpl (iterCtx d k x p) t1 a0 z0 = (evalRec env).tmpl (iterCtx d k x p) t a0 z0 :=
      fun p => tmplAlike (inPlaceTmpl_alike hc t t1 _ hu.2.1 h2) (hd.loop hu.2.2.1 hu.2.2.2 p) a0 z0
    have hloop : ∀ ps, forDirective (evalRec env) d k x t1 a0 z0 ps = forDirective (evalRec env) d k x t a0 z0 ps := by
      intro ps
      induction ps with
      | nil => rfl
      | cons p ps ih => simp only [forDirective, hbody p, ih]
    simp only [evalElem, hcoll, hloop]
end

/-! ### Bodies -/

mutual
theorem evalBody_alike : ∀ (b b' : List Struct), SameShape (Alike env d) b b' →
    evalBody (evalRec env) d b' = evalBody (evalRec env) d b
  | [], _, h => by cases h; rfl
  | s :: ss, _, h => by
    cases h with
    | cons h1 h2 => simp only [evalBody, evalStruct_alike s _ h1, evalBody_alike ss _ h2]
theorem evalStruct_alike : ∀ (s s' : Struct), SameShape1 (Alike env d) s s' →
    evalStruct (evalRec env) d s' = evalStruct (evalRec env) d s
  | .attr k e, _, h => by
    cases h with
    | attr h =>
      have h' : (evalRec env).expr d _ = (evalRec env).expr d _ := h
      simp only [evalStruct, h']
  | .block i ls b, _, h => by
    cases h with
    | block h => simp only [evalStruct, evalBody_alike b _ h]
end

end
end Verif
