import Verif.Model.Eval
/-!
The evaluator once more, with the expression that is attached to an error (`Error::expr`,
`crates/hcl-rs/src/eval/error.rs:131-134`). `Verif.Model.Eval` has the same evaluator without it; `C73_same`
proves that the two agree on everything else. The simplifications are those of `Verif.Model.Eval`.
-/

namespace Verif

/-- `ErrorInner`, `crates/hcl-rs/src/eval/error.rs:165-169`: the kind of error and the expression. A panic or
(model only) missing fuel carries no expression. -/
structure LFail where
  fail : Fail
  expr : Option Expr

/-- `EvalResult`, `crates/hcl-rs/src/eval/error.rs:5`. -/
abbrev L (α : Type) := Except LFail α

/-- The `?` operator: continue with the value, or return the failure. -/
def L.bind {α β : Type} (a : L α) (f : α → L β) : L β :=
  match a with
  | .error e => .error e
  | .ok x => f x

/-- A `Context` without its parent link, `crates/hcl-rs/src/eval/mod.rs:297-302`. -/
structure LFrame where
  frame : Frame
  expr : Option Expr

/-- A `Context` with its chain of parents, innermost first. -/
abbrev LCtx := List LFrame

/-- The variables and functions of a context, without the expressions. -/
def LCtx.plain (c : LCtx) : Ctx := c.map LFrame.frame

/-- A context as the API lets the user build it: `Context::new` (`crates/hcl-rs/src/eval/mod.rs:305-319`) sets
`expr` to `None`, and no public method changes it. -/
def LCtx.ofUser (c : Ctx) : LCtx := c.map fun f => ⟨f, none⟩

/-- `Context::expr`, `crates/hcl-rs/src/eval/mod.rs:429-431`. -/
def LCtx.expr : LCtx → Option Expr
  | [] => none
  | f :: rest => match f.expr with
    | some e => some e
    | none => LCtx.expr rest

/-- `Context::parent_expr`, `crates/hcl-rs/src/eval/mod.rs:433-435`. -/
def LCtx.parentExpr : LCtx → Option Expr
  | [] => none
  | _ :: rest => LCtx.expr rest

/-- The `expr` field of a context, `crates/hcl-rs/src/eval/mod.rs:301`. -/
def LCtx.ownExpr : LCtx → Option Expr
  | [] => none
  | f :: _ => f.expr

/-- The expression chosen by `Context::error`, `crates/hcl-rs/src/eval/mod.rs:411`. -/
def LCtx.blamed (c : LCtx) : Option Expr :=
  match c.parentExpr with
  | some e => some e
  | none => c.ownExpr

/-- `Context::error`, `crates/hcl-rs/src/eval/mod.rs:405-415`, applied to the errors of a computation. -/
def LCtx.error {α : Type} (c : LCtx) (r : R α) : L α :=
  match r with
  | .ok x => .ok x
  | .error (.err k) => .error ⟨.err k, c.blamed⟩
  | .error f => .error ⟨f, none⟩

/-- `Context::child`, `crates/hcl-rs/src/eval/mod.rs:322-326`. -/
def LCtx.child (c : LCtx) : LCtx := ⟨⟨[], []⟩, none⟩ :: c

/-- `Context::child_with_expr`, `crates/hcl-rs/src/eval/mod.rs:330-334`. -/
def LCtx.childWith (c : LCtx) (e : Expr) : LCtx := ⟨⟨[], []⟩, some e⟩ :: c

/-- `Context::declare_var`, `crates/hcl-rs/src/eval/mod.rs:345-351`. -/
def LCtx.declareVar (x : Str) (v : Value) : LCtx → LCtx
  | [] => [⟨⟨[(x, v)], []⟩, none⟩]
  | f :: rest => ⟨{ f.frame with vars := Map.insert x v f.frame.vars }, f.expr⟩ :: rest

/-- The recursive calls available to one evaluation step. -/
structure LRec where
  expr : LCtx → Expr → L Value
  tmpl : LCtx → List Elem → Strip → Strip → L Str

/-- `iter().map(f).collect::<Result<Vec<_>>>()`: left to right, stopping at the first failure. -/
def mapL {α β : Type} (f : α → L β) : List α → L (List β)
  | [] => .ok []
  | a :: as =>
    L.bind (f a) fun b =>
      L.bind (mapL f as) fun bs =>
        .ok (b :: bs)

namespace Loc
section
variable (env : Env) (rec : LRec)

/-- `evaluate_bool`, `crates/hcl-rs/src/eval/expr.rs:4-9`. -/
def evalBool (ctx : LCtx) (e : Expr) : L Bool :=
  L.bind (rec.expr ctx e) fun v => match v with
  | .bool b => .ok b
  | other => ctx.error (R.err (.unexpected other c!"a boolean"))

/-- `evaluate_object_key`, `crates/hcl-rs/src/eval/expr.rs:14-21`. -/
def evalObjectKey (ctx : LCtx) (e : Expr) : L Str :=
  L.bind (rec.expr ctx e) fun v =>
    ctx.error (keyOfValue env v)

/-- `evaluate_array`, `crates/hcl-rs/src/eval/expr.rs:23-28`. -/
def evalArray (ctx : LCtx) (e : Expr) : L (List Value) :=
  L.bind (rec.expr ctx e) fun v => match v with
  | .array xs => .ok xs
  | other => ctx.error (R.err (.unexpected other c!"an array"))

/-- `evaluate_index_expr`, `crates/hcl-rs/src/eval/expr.rs:88-97`. -/
def indexExpr (ctx : LCtx) (v : Value) (e : Expr) : L Value :=
  L.bind (rec.expr ctx e) fun i => match i with
  | .string name => ctx.error (objectValue v name)
  | .number n => match n.asU64 with
    | some i => ctx.error (arrayValue v i)
    | none => ctx.error (R.err (.unexpected (.number n) c!"an unsigned integer"))
  | other => ctx.error (R.err (.unexpected other c!"an unsigned integer or string"))

/-- `evaluate_splat`, `crates/hcl-rs/src/eval/expr.rs:71-86`; `f` applies the operators to one element. -/
def splat (f : Value → L Value) (v : Value) : L Value :=
  match v with
  | .array xs => L.bind (mapL f xs) fun ys =>
      .ok (.array ys)
  | .null => .ok (.array [])
  | other => L.bind (f other) fun y =>
      .ok (.array [y])

/-- `evaluate_traversal`, `crates/hcl-rs/src/eval/expr.rs:30-69`; see `Verif.traverse`. -/
def traverse (ctx : LCtx) : Nat → List TravOp → Value → L Value
  | _, [], v => .ok v
  | 0, _ :: _, _ => .error ⟨.timeout, none⟩
  | n + 1, op :: ops, v =>
    match op with
    | .legacyIndex i => L.bind (ctx.error (arrayValue v i)) fun w =>
        traverse ctx n ops w
    | .index e => L.bind (indexExpr rec ctx v e) fun w =>
        traverse ctx n ops w
    | .getAttr x => L.bind (ctx.error (objectValue v x)) fun w =>
        traverse ctx n ops w
    | .attrSplat =>
      L.bind (splat (fun x => traverse ctx n (ops.takeWhile TravOp.isGetAttr) x) v) fun w =>
        traverse ctx n (ops.dropWhile TravOp.isGetAttr) w
    | .fullSplat => splat (fun x => traverse ctx n ops x) v

/-- `Evaluate for Traversal`, `crates/hcl-rs/src/eval/impls.rs:286-290`. -/
def evalTraversal (ctx : LCtx) (e : Expr) (ops : List TravOp) : L Value :=
  L.bind (rec.expr ctx e) fun v =>
    traverse rec ctx ops.length ops v

/-- `evaluate_collection`, `crates/hcl-rs/src/eval/expr.rs:121-134`. -/
def evalCollection (ctx : LCtx) (e : Expr) : L (List (Value × Value)) :=
  L.bind (rec.expr ctx e) fun v => match v with
  | .array xs => .ok (enumPairs 0 xs)
  | .object es => .ok (es.map (fun p => (.string p.1, p.2)))
  | other => ctx.error (R.err (.unexpected other c!"an array or object"))

/-- `IntoIter::next_ctx`, `crates/hcl-rs/src/eval/expr.rs:205-214`. -/
def iterCtx (ctx : LCtx) (keyVar : Option Str) (valueVar : Str) (p : Value × Value) : LCtx :=
  let c := ctx.child
  let c := match keyVar with
    | some k => LCtx.declareVar k p.1 c
    | none => c
  LCtx.declareVar valueVar p.2 c

/-- `IntoIter::cond`, `crates/hcl-rs/src/eval/expr.rs:198-203`. -/
def iterCond (ctx : LCtx) (condExpr : Option Expr) : L Bool :=
  match condExpr with
  | none => .ok true
  | some e => evalBool rec ctx e

/-- The array loop of `Evaluate for ForExpr`, `crates/hcl-rs/src/eval/impls.rs:478-481`, with the iterator
`IntoIter::next`, `crates/hcl-rs/src/eval/expr.rs:220-230`. -/
def forArray (ctx : LCtx) (k : Option Str) (x : Str) (condE : Option Expr) (valueE : Expr) :
    List (Value × Value) → L (List Value)
  | [] => .ok []
  | p :: ps =>
    let c := iterCtx ctx k x p
    L.bind (iterCond rec c condE) fun pass =>
      if pass then
        L.bind (rec.expr c valueE) fun v =>
          L.bind (forArray ctx k x condE valueE ps) fun vs =>
            .ok (v :: vs)
      else forArray ctx k x condE valueE ps

/-- The object loop of `Evaluate for ForExpr`, `crates/hcl-rs/src/eval/impls.rs:447-475`; the error for a key
that exists is made with the context of the iteration (466). -/
def forObject (ctx : LCtx) (k : Option Str) (x : Str) (condE : Option Expr) (keyE valueE : Expr)
    (grouping : Bool) : List (Value × Value) → List (Str × Value) → L (List (Str × Value))
  | [], m => .ok m
  | p :: ps, m =>
    let c := iterCtx ctx k x p
    L.bind (iterCond rec c condE) fun pass =>
      if pass then
        L.bind (evalObjectKey env rec c keyE) fun key =>
          L.bind (rec.expr c valueE) fun v =>
            L.bind (c.error (if grouping then groupPush key v m else uniqueInsert key v m)) fun m' =>
              forObject ctx k x condE keyE valueE grouping ps m'
      else forObject ctx k x condE keyE valueE grouping ps m

/-- `Evaluate for ForExpr`, `crates/hcl-rs/src/eval/impls.rs:444-485`. -/
def evalFor (ctx : LCtx) (k : Option Str) (x : Str) (coll : Expr) (keyE : Option Expr) (valueE : Expr)
    (grouping : Bool) (condE : Option Expr) : L Value :=
  L.bind (evalCollection rec ctx coll) fun pairs =>
    match keyE with
    | some keyE =>
      L.bind (forObject env rec ctx k x condE keyE valueE grouping pairs []) fun m =>
        .ok (.object m)
    | none =>
      L.bind (forArray rec ctx k x condE valueE pairs) fun vs =>
        .ok (.array vs)

/-- The argument loop of `Evaluate for FuncCall`, `crates/hcl-rs/src/eval/impls.rs:314-320`. -/
def evalArgs (ctx : LCtx) (expand : Bool) : List Expr → L (List Value)
  | [] => .ok []
  | a :: as =>
    if expand ∧ as.isEmpty then evalArray rec ctx a
    else
      L.bind (rec.expr ctx a) fun v =>
        L.bind (evalArgs ctx expand as) fun vs =>
          .ok (v :: vs)

/-- `Evaluate for FuncCall`, `crates/hcl-rs/src/eval/impls.rs:308-324`. -/
def evalCall (ctx : LCtx) (name : FuncName) (args : List Expr) (expand : Bool) : L Value :=
  match ctx.plain.func name with
  | none => ctx.error (R.err (.undefinedFunc name))
  | some f =>
    L.bind (evalArgs rec ctx expand args) fun vs =>
      match f.call vs with
      | .ok v => .ok v
      | .error e => ctx.error (R.err (.funcCall name e))

/-- `Evaluate for ObjectKey`, `crates/hcl-rs/src/eval/impls.rs:201-206`. -/
def evalKey (ctx : LCtx) : ObjKey → L Str
  | .expr e => evalObjectKey env rec ctx e
  | .ident x => .ok x

/-- The pair evaluation of `Evaluate for Object`, `crates/hcl-rs/src/eval/impls.rs:172`. -/
def evalEntry (ctx : LCtx) (p : ObjKey × Expr) : L (Str × Value) :=
  L.bind (evalKey env rec ctx p.1) fun k =>
    L.bind (rec.expr ctx p.2) fun v =>
      .ok (k, v)

/-- `Evaluate for TemplateExpr`, `crates/hcl-rs/src/eval/impls.rs:222-237`; an error of the parser becomes an
error without an expression (`crates/hcl-rs/src/eval/error.rs:154-158`). -/
def evalTemplateExpr (ctx : LCtx) (t : TmplExpr) : L Value :=
  match env.parseTemplate t.asStr with
  | .error msg => .error ⟨.err (.message msg), none⟩
  | .ok [.interp e _] => rec.expr ctx e
  | .ok elems =>
    L.bind (rec.tmpl ctx elems .none .none) fun s =>
      .ok (.string s)

/-- `Evaluate for Expression`, `crates/hcl-rs/src/eval/impls.rs:85-100`, with `Context::lookup_var`
(`crates/hcl-rs/src/eval/mod.rs:390-393`). -/
def stepExpr (ctx : LCtx) (e : Expr) : L Value :=
  let ctx := ctx.childWith e
  match e with
  | .array xs => L.bind (mapL (rec.expr ctx) xs) fun vs =>
      .ok (.array vs)
  | .object es => L.bind (mapL (evalEntry env rec ctx) es) fun ps =>
      .ok (.object (Map.collect ps))
  | .template t => evalTemplateExpr env rec ctx t
  | .var x => match ctx.plain.var x with
    | some v => .ok v
    | none => ctx.error (R.err (.undefinedVar x))
  | .traversal e ops => evalTraversal rec ctx e ops
  | .call n args x => evalCall rec ctx n args x
  | .paren e => rec.expr ctx e
  | .cond c t f => L.bind (evalBool rec ctx c) fun b =>
      if b then rec.expr ctx t else rec.expr ctx f
  | .unary op e => L.bind (rec.expr ctx e) fun v =>
      ctx.error (unaryValue env op v)
  | .binary l op r => L.bind (rec.expr ctx l) fun lv =>
      L.bind (rec.expr ctx r) fun rv =>
        ctx.error (binaryValue env lv op rv)
  | .forE k x coll ke ve g ce => evalFor env rec ctx k x coll ke ve g ce
  | .null => .ok .null
  | .bool b => .ok (.bool b)
  | .number n => .ok (.number n)
  | .string s => .ok (.string s)

/-- The loop of `evaluate_for_directive`, `crates/hcl-rs/src/eval/template.rs:124-132`. -/
def forDirective (ctx : LCtx) (k : Option Str) (x : Str) (t : List Elem) (forS endS : Strip) :
    List (Value × Value) → L Str
  | [] => .ok []
  | p :: ps =>
    L.bind (rec.tmpl (iterCtx ctx k x p) t forS endS) fun s =>
      L.bind (forDirective ctx k x t forS endS ps) fun s' =>
        .ok (s ++ s')

/-- `evaluate_element`, `crates/hcl-rs/src/eval/template.rs:30-45`, with `evaluate_interpolation` (81-93),
`evaluate_if_directive` (102-115) and `evaluate_for_directive` (117-135). -/
def evalElem (ctx : LCtx) (prev next : Strip) : Elem → L Str
  | .lit s => .ok (stripLiteral env s prev next)
  | .interp e _ => L.bind (rec.expr ctx e) fun v =>
      .ok (interpText env v)
  | .ifDir c t f ifS elseS endS => L.bind (evalBool rec ctx c) fun b =>
      if b then rec.tmpl ctx t ifS (if f.isSome then elseS else endS)
      else match f with
        | some f => rec.tmpl ctx f elseS endS
        | none => .ok []
  | .forDir k x coll t forS endS => L.bind (evalCollection rec ctx coll) fun pairs =>
      forDirective rec ctx k x t forS endS pairs

/-- `evaluate_template`, `crates/hcl-rs/src/eval/template.rs:3-28`; see `Verif.stepTmpl`. -/
def stepTmpl (ctx : LCtx) : List Elem → Strip → Strip → L Str
  | [], _, _ => .ok []
  | e :: es, prev, next =>
    L.bind (evalElem env rec ctx prev (match es with | [] => next | e' :: _ => e'.strip) e) fun s =>
      L.bind (stepTmpl ctx es e.strip next) fun s' =>
        .ok (s ++ s')

end

/-- Evaluation with `n` levels of recursion. -/
def evalF (env : Env) : Nat → LRec
  | 0 => ⟨fun _ _ => .error ⟨.timeout, none⟩, fun _ _ _ _ => .error ⟨.timeout, none⟩⟩
  | n + 1 => ⟨stepExpr env (evalF env n), stepTmpl env (evalF env n)⟩

end Loc
end Verif
