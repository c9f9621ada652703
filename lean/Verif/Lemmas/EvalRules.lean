import Verif.Lemmas.EvalSim
/-! The evaluation rules, one per kind of expression, derived from the fixed point equation. -/

namespace Verif

theorem Compat.eq : Compat (ι := Unit) (fun a b => a = b ()) :=
  ⟨fun _ => rfl, fun {α β a b f g} h hf => by
    subst h
    show R.bind (b ()) f = R.bind (b ()) (g ())
    cases hb : b () with
    | error e => rfl
    | ok x => exact hf x hb⟩

section
variable {env : Env} {c d : Ctx}

theorem evalRec_expr_child (c : Ctx) : (evalRec env).expr c.child = (evalRec env).expr c := by
  funext e; exact eval_child env c e

theorem hE_same {c d : Ctx} {e : Expr} (h : SameLookups c d) :
    (evalRec env).expr c e = (evalRec env).expr d e := eval_same h e

theorem hT_same {c d : Ctx} {els : List Elem} {a b : Strip} (h : SameLookups c d) :
    (evalRec env).tmpl c els a b = (evalRec env).tmpl d els a b := evalTmpl_same h els a b

theorem evalBool_child (e : Expr) :
    evalBool (evalRec env) c.child e = evalBool (evalRec env) c e := by
  unfold evalBool; rw [evalRec_expr_child]

theorem evalArgs_child (x : Bool) (args : List Expr) :
    evalArgs (evalRec env) c.child x args = evalArgs (evalRec env) c x args :=
  evalArgs_le Compat.eq (S := fun c d _ => SameLookups c d) (r' := fun _ => evalRec env) hE_same x
    args (fun _ _ => SameLookups.child c)

theorem traverse_same (h : SameLookups c d) (n : Nat) (ops : List TravOp) (v : Value) :
    traverse (evalRec env) c n ops v = traverse (evalRec env) d n ops v :=
  traverse_le Compat.eq (S := fun c d _ => SameLookups c d) (r' := fun _ => evalRec env) hE_same n
    ops (fun _ _ => h) v

theorem eval_null : eval env c .null = .ok .null := eval_eq env c _
theorem eval_bool (b : Bool) : eval env c (.bool b) = .ok (.bool b) := eval_eq env c _
theorem eval_number (n : N) : eval env c (.number n) = .ok (.number n) := eval_eq env c _
theorem eval_string (s : Str) : eval env c (.string s) = .ok (.string s) := eval_eq env c _

theorem eval_paren (e : Expr) : eval env c (.paren e) = eval env c e := by
  rw [eval_eq]; exact eval_child env c e

theorem eval_var (x : Str) : eval env c (.var x) =
    match c.var x with
    | some v => .ok v
    | none => R.err (.undefinedVar x) := by
  rw [eval_eq]; rfl

theorem eval_array (xs : List Expr) : eval env c (.array xs) =
    R.bind (mapR (eval env c) xs) fun vs => .ok (.array vs) := by
  rw [eval_eq]
  show R.bind (mapR ((evalRec env).expr c.child) xs) _ = _
  rw [evalRec_expr_child]; rfl

theorem evalEntry_child : evalEntry env (evalRec env) c.child = evalEntry env (evalRec env) c := by
  funext p
  unfold evalEntry evalKey evalObjectKey
  rw [evalRec_expr_child]

theorem eval_object (es : List (ObjKey × Expr)) : eval env c (.object es) =
    R.bind (mapR (evalEntry env (evalRec env) c) es) fun ps => .ok (.object (Map.collect ps)) := by
  rw [eval_eq]
  show R.bind (mapR (evalEntry env (evalRec env) c.child) es) _ = _
  rw [evalEntry_child]

theorem eval_cond (x t f : Expr) : eval env c (.cond x t f) =
    R.bind (evalBool (evalRec env) c x) fun b => if b then eval env c t else eval env c f := by
  rw [eval_eq]
  show R.bind (evalBool (evalRec env) c.child x) (fun b => if b then eval env c.child t else
    eval env c.child f) = _
  rw [evalBool_child, eval_child, eval_child]

theorem eval_unary (o : UnOp) (e : Expr) : eval env c (.unary o e) =
    R.bind (eval env c e) fun v => unaryValue env o v := by
  rw [eval_eq]
  show R.bind (eval env c.child e) _ = _
  rw [eval_child]

theorem eval_binary (l : Expr) (o : BinOp) (r : Expr) : eval env c (.binary l o r) =
    R.bind (eval env c l) fun lv => R.bind (eval env c r) fun rv => binaryValue env lv o rv := by
  rw [eval_eq]
  show R.bind (eval env c.child l) (fun lv => R.bind (eval env c.child r) _) = _
  rw [eval_child, eval_child]

theorem eval_traversal (e : Expr) (ops : List TravOp) : eval env c (.traversal e ops) =
    R.bind (eval env c e) fun v => traverse (evalRec env) c ops.length ops v := by
  rw [eval_eq]
  show R.bind (eval env c.child e) (fun v => traverse (evalRec env) c.child ops.length ops v) = _
  rw [eval_child]
  congr 1; funext v
  exact traverse_same (SameLookups.child c) _ _ _

theorem eval_call (n : FuncName) (args : List Expr) (x : Bool) : eval env c (.call n args x) =
    match c.func n with
    | none => R.err (.undefinedFunc n)
    | some f => R.bind (evalArgs (evalRec env) c x args) fun vs =>
      match f.call vs with
      | .ok v => .ok v
      | .error e => R.err (.funcCall n e) := by
  rw [eval_eq]
  show (match c.func n with
    | none => R.err (.undefinedFunc n)
    | some f => R.bind (evalArgs (evalRec env) c.child x args) fun vs =>
      match f.call vs with
      | .ok v => .ok v
      | .error e => R.err (.funcCall n e)) = _
  rw [evalArgs_child]

theorem eval_template (t : TmplExpr) : eval env c (.template t) =
    match env.parseTemplate t.asStr with
    | .error msg => R.err (.message msg)
    | .ok [.interp e _] => eval env c e
    | .ok elems => R.bind (evalTmpl env c elems .none .none) fun s => .ok (.string s) := by
  rw [eval_eq]
  show evalTemplateExpr env (evalRec env) c.child t = _
  have h : evalTemplateExpr env (evalRec env) c.child t = evalTemplateExpr env (evalRec env) c t :=
    evalTemplateExpr_le Compat.eq (Sim.lookups env) (r' := fun _ => evalRec env) hE_same hT_same
      (SameLookups.child c)
  rw [h]; rfl

theorem evalCollection_child (e : Expr) :
    evalCollection (evalRec env) c.child e = evalCollection (evalRec env) c e := by
  unfold evalCollection; rw [evalRec_expr_child]

theorem eval_for (k : Option Str) (x : Str) (coll : Expr) (ke : Option Expr) (ve : Expr) (g : Bool)
    (ce : Option Expr) : eval env c (.forE k x coll ke ve g ce) =
    evalFor env (evalRec env) c k x coll ke ve g ce := by
  rw [eval_eq]
  show evalFor env (evalRec env) c.child k x coll ke ve g ce = _
  unfold evalFor
  rw [evalCollection_child]
  congr 1; funext pairs
  have h := fun p => (SameLookups.child c).iter k x p
  cases ke with
  | none =>
    have := forArray_le Compat.eq (S := fun c d _ => SameLookups c d) (r := evalRec env)
      (r' := fun _ => evalRec env) (ce := ce) (ve := ve) hE_same (fun p => h p) (fun p _ _ => h p) pairs
    simp only [this]
  | some ke =>
    have := forObject_le Compat.eq (S := fun c d _ => SameLookups c d) (r := evalRec env) (env := env)
      (g := g) (r' := fun _ => evalRec env) (ce := ce) (ke := ke) (ve := ve) hE_same (fun p => h p)
      (fun p => h p) (fun p _ _ => h p) pairs []
    simp only [this]

theorem evalTmpl_nil (a b : Strip) : evalTmpl env c [] a b = .ok [] := evalTmpl_eq env c _ a b

theorem evalTmpl_cons (e : Elem) (es : List Elem) (a b : Strip) : evalTmpl env c (e :: es) a b =
    R.bind (evalElem env (evalRec env) c a (match es with | [] => b | e' :: _ => e'.strip) e) fun s =>
      R.bind (evalTmpl env c es e.strip b) fun s' => .ok (s ++ s') := by
  rw [evalTmpl_eq]
  show R.bind _ (fun s => R.bind (stepTmpl env (evalRec env) c es e.strip b) _) = _
  rw [← evalTmpl_eq]
  rfl

end

end Verif
