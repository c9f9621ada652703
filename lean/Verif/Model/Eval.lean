import Verif.Model.Expr
/-!
Model of the evaluator, `crates/hcl-rs/src/eval/*.rs`.

Simplifications, for all definitions of this file:
* an error is its `ErrorKind`; the expression attached to it for display
  (`Context::error`, `eval/mod.rs:405-415`) is in `Verif.Model.EvalLoc`;
* the text of errors raised by `FuncDef::call` is replaced by a structured value;
* user functions are deterministic and total (`Func` is a `fn` pointer in the code);
* the three things the evaluator gets from the rest of the crate are parameters (`Env`):
  parsing of a raw template, `Display for Value` and `Display for Number`;
* recursion is by fuel because the evaluation of a template expression continues with a tree
  produced by the parser; running out of fuel is the separate outcome `Fail.timeout`.
-/

namespace Verif

/-- `ParamType`, `crates/hcl-rs/src/eval/func.rs:17-40`. -/
inductive ParamType
  | any | bool | number | string
  | array (t : ParamType)
  | object (t : ParamType)
  | oneOf (ts : List ParamType)
  | nullable (t : ParamType)

mutual
/-- `ParamType::is_satisfied_by`, `crates/hcl-rs/src/eval/func.rs:65-82`. -/
def ParamType.satisfiedBy : ParamType → Value → Bool
  | .any, _ => true
  | .bool, v => match v with | .bool _ => true | _ => false
  | .number, v => match v with | .number _ => true | _ => false
  | .string, v => match v with | .string _ => true | _ => false
  | .array t, v => match v with
    | .array xs => xs.all (fun x => ParamType.satisfiedBy t x)
    | _ => false
  | .object t, v => match v with
    | .object es => es.all (fun e => ParamType.satisfiedBy t e.2)
    | _ => false
  | .nullable t, v => (match v with | .null => true | _ => false) || ParamType.satisfiedBy t v
  | .oneOf ts, v => ParamType.anySatisfiedBy ts v
/-- The `any` of `ParamType::OneOf`, `crates/hcl-rs/src/eval/func.rs:78-80`. -/
def ParamType.anySatisfiedBy : List ParamType → Value → Bool
  | [], _ => false
  | t :: ts, v => ParamType.satisfiedBy t v || ParamType.anySatisfiedBy ts v
end

/-- The errors raised by `FuncDef::call` (`func.rs:214-241`) and by the function itself. The code
renders them as text. -/
inductive CallErr
  | arity (params args : Nat)
  | argType (pos : Nat) (param : ParamType) (arg : Value)
  | varArgType (pos : Nat) (param : ParamType) (arg : Value)
  | user (msg : Str)

/-- `ErrorKind`, `crates/hcl-rs/src/eval/error.rs:193-214`. -/
inductive EvalErr
  | message (s : Str)
  | undefinedVar (x : Str)
  | undefinedFunc (f : FuncName)
  | unexpected (v : Value) (expected : Str)
  | index (i : Nat)
  | unaryOp (op : UnOp) (v : Value)
  | binaryOp (l : Value) (op : BinOp) (r : Value)
  | noSuchKey (k : Str)
  | keyExists (k : Str)
  | funcCall (f : FuncName) (e : CallErr)

/-- Everything but a result: an `Err`, a panic, or (model only) not enough fuel. -/
inductive Fail
  | err (e : EvalErr)
  | panic
  | timeout

abbrev R (α : Type) := Except Fail α

/-- An error result. -/
def R.err {α : Type} (e : EvalErr) : R α := .error (.err e)

/-- The `?` operator: continue with the value, or return the failure. -/
def R.bind {α β : Type} (a : R α) (f : α → R β) : R β :=
  match a with
  | .error e => .error e
  | .ok x => f x

/-- A `Number` operation that may panic. -/
def R.ofNum : Option N → R Value
  | some n => .ok (.number n)
  | none => .error .panic

/-- `FuncDef`, `crates/hcl-rs/src/eval/func.rs:176-180`. `FuncArgs` (360-363) carries the argument
values and the number of positional ones; the latter is fixed by `params`. -/
structure FuncDef where
  func : List Value → Except Str Value
  params : List ParamType
  variadic : Option ParamType

/-- The loop over positional arguments, `crates/hcl-rs/src/eval/func.rs:222-228`. -/
def checkPositional (pos : Nat) : List Value → List ParamType → Option CallErr
  | a :: as, p :: ps =>
    if !p.satisfiedBy a then some (.argType pos p a) else checkPositional (pos + 1) as ps
  | _, _ => none

/-- The loop over variadic arguments, `crates/hcl-rs/src/eval/func.rs:230-241`. -/
def checkVariadic (p : ParamType) (pos : Nat) : List Value → Option CallErr
  | [] => none
  | a :: as => if !p.satisfiedBy a then some (.varArgType pos p a) else checkVariadic p (pos + 1) as

/-- What `FuncDef::call` does before calling the function, `crates/hcl-rs/src/eval/func.rs:211-241`:
`none` if the arguments are accepted. -/
def FuncDef.check (f : FuncDef) (args : List Value) : Option CallErr :=
  if args.length < f.params.length ∨ (f.variadic.isNone ∧ args.length > f.params.length) then
    some (.arity f.params.length args.length)
  else
    match checkPositional 0 (args.take f.params.length) f.params with
    | some e => some e
    | none =>
      match f.variadic with
      | some p => checkVariadic p f.params.length (args.drop f.params.length)
      | none => none

/-- `FuncDef::call`, `crates/hcl-rs/src/eval/func.rs:210-246`. -/
def FuncDef.call (f : FuncDef) (args : List Value) : Except CallErr Value :=
  match f.check args with
  | some e => .error e
  | none =>
    match f.func args with
    | .ok v => .ok v
    | .error msg => .error (.user msg)

/-- One `Context` without its parent link, `crates/hcl-rs/src/eval/mod.rs:297-302` (the `expr`
field is not modelled). -/
structure Frame where
  vars : List (Str × Value)
  funcs : List (FuncName × FuncDef)

/-- A `Context` with its chain of parents, innermost first. -/
abbrev Ctx := List Frame

/-- `Context::new`, `crates/hcl-rs/src/eval/mod.rs:317-319`. -/
def Ctx.new : Ctx := [⟨[], []⟩]

/-- `Context::child`, `crates/hcl-rs/src/eval/mod.rs:322-326` (and `child_with_expr`, 330-334). -/
def Ctx.child (c : Ctx) : Ctx := ⟨[], []⟩ :: c

/-- `Context::declare_var`, `crates/hcl-rs/src/eval/mod.rs:345-351`. -/
def Ctx.declareVar (x : Str) (v : Value) : Ctx → Ctx
  | [] => [⟨[(x, v)], []⟩]
  | f :: rest => { f with vars := Map.insert x v f.vars } :: rest

/-- `Context::declare_func`, `crates/hcl-rs/src/eval/mod.rs:379-384`. -/
def Ctx.declareFunc (n : FuncName) (d : FuncDef) : Ctx → Ctx
  | [] => [⟨[], [(n, d)]⟩]
  | f :: rest => { f with funcs := Map.insert n d f.funcs } :: rest

/-- `Context::var`, `crates/hcl-rs/src/eval/mod.rs:417-421`. -/
def Ctx.var (x : Str) : Ctx → Option Value
  | [] => none
  | f :: rest => match Map.get? x f.vars with
    | some v => some v
    | none => Ctx.var x rest

/-- `Context::func`, `crates/hcl-rs/src/eval/mod.rs:423-427`. -/
def Ctx.func (n : FuncName) : Ctx → Option FuncDef
  | [] => none
  | f :: rest => match Map.get? n f.funcs with
    | some d => some d
    | none => Ctx.func n rest

/-- What the evaluator uses from the rest of the crate. -/
structure Env where
  /-- overflow checks on or off -/
  build : Build
  /-- `char::is_whitespace` and the XID tables -/
  uni : Uni
  /-- `Template::from_expr`, `crates/hcl-rs/src/template/mod.rs:123-125` -/
  parseTemplate : Str → Except Str (List Elem)
  /-- `Display for Value` -/
  showValue : Value → Str
  /-- `Display for Number` -/
  showNumber : N → Str

/-- The recursive calls available to one evaluation step: `Expression::evaluate` and
`evaluate_template`. -/
structure Rec where
  expr : Ctx → Expr → R Value
  tmpl : Ctx → List Elem → Strip → Strip → R Str

/-- `iter().map(f).collect::<Result<Vec<_>>>()`: left to right, stopping at the first failure. -/
def mapR {α β : Type} (f : α → R β) : List α → R (List β)
  | [] => .ok []
  | a :: as =>
    R.bind (f a) fun b =>
      R.bind (mapR f as) fun bs =>
        .ok (b :: bs)

section
variable (env : Env) (rec : Rec)

/-- `evaluate_bool`, `crates/hcl-rs/src/eval/expr.rs:4-9`. -/
def evalBool (ctx : Ctx) (e : Expr) : R Bool :=
  R.bind (rec.expr ctx e) fun v => match v with
  | .bool b => .ok b
  | other => R.err (.unexpected other c!"a boolean")

/-- The conversion in `evaluate_object_key`, `crates/hcl-rs/src/eval/expr.rs:15-20`. -/
def keyOfValue (v : Value) : R Str :=
  match v with
  | .string s => .ok s
  | .bool b => .ok (if b then c!"true" else c!"false")
  | .number n => .ok (env.showNumber n)
  | other => R.err (.unexpected other c!"a string, boolean or number")

/-- `evaluate_object_key`, `crates/hcl-rs/src/eval/expr.rs:14-21`. -/
def evalObjectKey (ctx : Ctx) (e : Expr) : R Str :=
  R.bind (rec.expr ctx e) fun v =>
    keyOfValue env v

/-- `evaluate_array`, `crates/hcl-rs/src/eval/expr.rs:23-28`. -/
def evalArray (ctx : Ctx) (e : Expr) : R (List Value) :=
  R.bind (rec.expr ctx e) fun v => match v with
  | .array xs => .ok xs
  | other => R.err (.unexpected other c!"an array")

/-- `evaluate_array_value`, `crates/hcl-rs/src/eval/expr.rs:99-110` (`swap_remove` returns the
element at the index; the rest of the array is dropped). -/
def arrayValue (v : Value) (i : Nat) : R Value :=
  match v with
  | .array xs => match xs[i]? with
    | some x => .ok x
    | none => R.err (.index i)
  | other => R.err (.unexpected other c!"an array")

/-- `evaluate_object_value`, `crates/hcl-rs/src/eval/expr.rs:112-119`. -/
def objectValue (v : Value) (k : Str) : R Value :=
  match v with
  | .object es => match Map.get? k es with
    | some x => .ok x
    | none => R.err (.noSuchKey k)
  | other => R.err (.unexpected other c!"an object")

/-- `evaluate_index_expr`, `crates/hcl-rs/src/eval/expr.rs:88-97`. -/
def indexExpr (ctx : Ctx) (v : Value) (e : Expr) : R Value :=
  R.bind (rec.expr ctx e) fun i => match i with
  | .string name => objectValue v name
  | .number n => match n.asU64 with
    | some i => arrayValue v i
    | none => R.err (.unexpected (.number n) c!"an unsigned integer")
  | other => R.err (.unexpected other c!"an unsigned integer or string")

/-- The operator is `TraversalOperator::GetAttr`. -/
def TravOp.isGetAttr : TravOp → Bool
  | .getAttr _ => true
  | _ => false

/-- The array built by `evaluate_splat`, `crates/hcl-rs/src/eval/expr.rs:71-86`; `f` applies the
operators to one element. -/
def splat (f : Value → R Value) (v : Value) : R Value :=
  match v with
  | .array xs => R.bind (mapR f xs) fun ys =>
      .ok (.array ys)
  | .null => .ok (.array [])
  | other => R.bind (f other) fun y =>
      .ok (.array [y])

/-- `evaluate_traversal`, `crates/hcl-rs/src/eval/expr.rs:30-69`. The loop over the operator queue
is bounded by its length (`n`); `evalTraversal` starts it with enough steps. -/
def traverse (ctx : Ctx) : Nat → List TravOp → Value → R Value
  | _, [], v => .ok v
  | 0, _ :: _, _ => .error .timeout
  | n + 1, op :: ops, v =>
    match op with
    | .legacyIndex i => R.bind (arrayValue v i) fun w =>
        traverse ctx n ops w
    | .index e => R.bind (indexExpr rec ctx v e) fun w =>
        traverse ctx n ops w
    | .getAttr x => R.bind (objectValue v x) fun w =>
        traverse ctx n ops w
    | .attrSplat =>
      R.bind (splat (fun x => traverse ctx n (ops.takeWhile TravOp.isGetAttr) x) v) fun w =>
        traverse ctx n (ops.dropWhile TravOp.isGetAttr) w
    | .fullSplat => splat (fun x => traverse ctx n ops x) v

/-- `Evaluate for Traversal`, `crates/hcl-rs/src/eval/impls.rs:286-290`. -/
def evalTraversal (ctx : Ctx) (e : Expr) (ops : List TravOp) : R Value :=
  R.bind (rec.expr ctx e) fun v =>
    traverse rec ctx ops.length ops v

/-- The pairs of `evaluate_collection` for an array, `crates/hcl-rs/src/eval/expr.rs:123-127`. -/
def enumPairs : Nat → List Value → List (Value × Value)
  | _, [] => []
  | i, v :: vs => (.number (.posInt i), v) :: enumPairs (i + 1) vs

/-- `evaluate_collection`, `crates/hcl-rs/src/eval/expr.rs:121-134`. -/
def evalCollection (ctx : Ctx) (e : Expr) : R (List (Value × Value)) :=
  R.bind (rec.expr ctx e) fun v => match v with
  | .array xs => .ok (enumPairs 0 xs)
  | .object es => .ok (es.map (fun p => (.string p.1, p.2)))
  | other => R.err (.unexpected other c!"an array or object")

/-- `IntoIter::next_ctx`, `crates/hcl-rs/src/eval/expr.rs:205-214`. -/
def iterCtx (ctx : Ctx) (keyVar : Option Str) (valueVar : Str) (p : Value × Value) : Ctx :=
  let c := ctx.child
  let c := match keyVar with
    | some k => Ctx.declareVar k p.1 c
    | none => c
  Ctx.declareVar valueVar p.2 c

/-- `IntoIter::cond`, `crates/hcl-rs/src/eval/expr.rs:198-203`. -/
def iterCond (ctx : Ctx) (condExpr : Option Expr) : R Bool :=
  match condExpr with
  | none => .ok true
  | some e => evalBool rec ctx e

/-- The array loop of `Evaluate for ForExpr`, `crates/hcl-rs/src/eval/impls.rs:478-481`, with the
iterator `IntoIter::next`, `crates/hcl-rs/src/eval/expr.rs:220-230`. -/
def forArray (ctx : Ctx) (k : Option Str) (x : Str) (condE : Option Expr) (valueE : Expr) :
    List (Value × Value) → R (List Value)
  | [] => .ok []
  | p :: ps =>
    let c := iterCtx ctx k x p
    R.bind (iterCond rec c condE) fun pass =>
      if pass then
        R.bind (rec.expr c valueE) fun v =>
          R.bind (forArray ctx k x condE valueE ps) fun vs =>
            .ok (v :: vs)
      else forArray ctx k x condE valueE ps

/-- The grouping insertion, `crates/hcl-rs/src/eval/impls.rs:456-462`; the `unwrap` panics if the
entry is not an array. -/
def groupPush (k : Str) (v : Value) (m : List (Str × Value)) : R (List (Str × Value)) :=
  match Map.get? k m with
  | none => .ok (Map.insert k (.array [v]) m)
  | some (.array vs) => .ok (Map.insert k (.array (vs ++ [v])) m)
  | some _ => .error .panic

/-- The non-grouping insertion, `crates/hcl-rs/src/eval/impls.rs:463-472`. -/
def uniqueInsert (k : Str) (v : Value) (m : List (Str × Value)) : R (List (Str × Value)) :=
  match Map.get? k m with
  | some _ => R.err (.keyExists k)
  | none => .ok (Map.insert k v m)

/-- The object loop of `Evaluate for ForExpr`, `crates/hcl-rs/src/eval/impls.rs:447-475`. -/
def forObject (ctx : Ctx) (k : Option Str) (x : Str) (condE : Option Expr) (keyE valueE : Expr)
    (grouping : Bool) : List (Value × Value) → List (Str × Value) → R (List (Str × Value))
  | [], m => .ok m
  | p :: ps, m =>
    let c := iterCtx ctx k x p
    R.bind (iterCond rec c condE) fun pass =>
      if pass then
        R.bind (evalObjectKey env rec c keyE) fun key =>
          R.bind (rec.expr c valueE) fun v =>
            R.bind (if grouping then groupPush key v m else uniqueInsert key v m) fun m' =>
              forObject ctx k x condE keyE valueE grouping ps m'
      else forObject ctx k x condE keyE valueE grouping ps m

/-- `Evaluate for ForExpr`, `crates/hcl-rs/src/eval/impls.rs:444-485`. -/
def evalFor (ctx : Ctx) (k : Option Str) (x : Str) (coll : Expr) (keyE : Option Expr) (valueE : Expr)
    (grouping : Bool) (condE : Option Expr) : R Value :=
  R.bind (evalCollection rec ctx coll) fun pairs =>
    match keyE with
    | some keyE =>
      R.bind (forObject env rec ctx k x condE keyE valueE grouping pairs []) fun m =>
        .ok (.object m)
    | none =>
      R.bind (forArray rec ctx k x condE valueE pairs) fun vs =>
        .ok (.array vs)

/-- The argument loop of `Evaluate for FuncCall`, `crates/hcl-rs/src/eval/impls.rs:314-320`. -/
def evalArgs (ctx : Ctx) (expand : Bool) : List Expr → R (List Value)
  | [] => .ok []
  | a :: as =>
    if expand ∧ as.isEmpty then evalArray rec ctx a
    else
      R.bind (rec.expr ctx a) fun v =>
        R.bind (evalArgs ctx expand as) fun vs =>
          .ok (v :: vs)

/-- `Evaluate for FuncCall`, `crates/hcl-rs/src/eval/impls.rs:308-324`. -/
def evalCall (ctx : Ctx) (name : FuncName) (args : List Expr) (expand : Bool) : R Value :=
  match ctx.func name with
  | none => R.err (.undefinedFunc name)
  | some f =>
    R.bind (evalArgs rec ctx expand args) fun vs =>
      match f.call vs with
      | .ok v => .ok v
      | .error e => R.err (.funcCall name e)

/-- The match of `Evaluate for UnaryOp`, `crates/hcl-rs/src/eval/impls.rs:387-391`. -/
def unaryValue (op : UnOp) (v : Value) : R Value :=
  match op, v with
  | .not, .bool b => .ok (.bool (!b))
  | .neg, .number n => R.ofNum (n.neg env.build)
  | op, v => R.err (.unaryOp op v)

/-- The match of `Evaluate for BinaryOp`, `crates/hcl-rs/src/eval/impls.rs:412-427`. -/
def binaryValue (l : Value) (op : BinOp) (r : Value) : R Value :=
  match l, op, r with
  | l, .eq, r => .ok (.bool (l.beq r))
  | l, .notEq, r => .ok (.bool (!l.beq r))
  | .bool l, .and, .bool r => .ok (.bool (l && r))
  | .bool l, .or, .bool r => .ok (.bool (l || r))
  | .number l, .lessEq, .number r =>
    .ok (.bool (match N.partialCmp l r with | some .lt => true | some .eq => true | _ => false))
  | .number l, .greaterEq, .number r =>
    .ok (.bool (match N.partialCmp l r with | some .gt => true | some .eq => true | _ => false))
  | .number l, .less, .number r => .ok (.bool (N.partialCmp l r == some .lt))
  | .number l, .greater, .number r => .ok (.bool (N.partialCmp l r == some .gt))
  | .number l, .plus, .number r => R.ofNum (N.add env.build l r)
  | .number l, .minus, .number r => R.ofNum (N.sub env.build l r)
  | .number l, .mul, .number r => R.ofNum (N.mul env.build l r)
  | .number l, .div, .number r => R.ofNum (N.div env.build l r)
  | .number l, .mod, .number r => R.ofNum (N.rem env.build l r)
  | l, op, r => R.err (.binaryOp l op r)

/-- `Evaluate for ObjectKey`, `crates/hcl-rs/src/eval/impls.rs:201-206`. -/
def evalKey (ctx : Ctx) : ObjKey → R Str
  | .expr e => evalObjectKey env rec ctx e
  | .ident x => .ok x

/-- The pair evaluation of `Evaluate for Object`, `crates/hcl-rs/src/eval/impls.rs:172`. -/
def evalEntry (ctx : Ctx) (p : ObjKey × Expr) : R (Str × Value) :=
  R.bind (evalKey env rec ctx p.1) fun k =>
    R.bind (rec.expr ctx p.2) fun v =>
      .ok (k, v)

/-- `Evaluate for TemplateExpr`, `crates/hcl-rs/src/eval/impls.rs:222-237`. -/
def evalTemplateExpr (ctx : Ctx) (t : TmplExpr) : R Value :=
  match env.parseTemplate t.asStr with
  | .error msg => R.err (.message msg)
  | .ok [.interp e _] => rec.expr ctx e
  | .ok elems =>
    R.bind (rec.tmpl ctx elems .none .none) fun s =>
      .ok (.string s)

/-- `Evaluate for Expression`, `crates/hcl-rs/src/eval/impls.rs:85-100`. -/
def stepExpr (ctx : Ctx) (e : Expr) : R Value :=
  let ctx := ctx.child
  match e with
  | .array xs => R.bind (mapR (rec.expr ctx) xs) fun vs =>
      .ok (.array vs)
  | .object es => R.bind (mapR (evalEntry env rec ctx) es) fun ps =>
      .ok (.object (Map.collect ps))
  | .template t => evalTemplateExpr env rec ctx t
  | .var x => match ctx.var x with
    | some v => .ok v
    | none => R.err (.undefinedVar x)
  | .traversal e ops => evalTraversal rec ctx e ops
  | .call n args x => evalCall rec ctx n args x
  | .paren e => rec.expr ctx e
  | .cond c t f => R.bind (evalBool rec ctx c) fun b =>
      if b then rec.expr ctx t else rec.expr ctx f
  | .unary op e => R.bind (rec.expr ctx e) fun v =>
      unaryValue env op v
  | .binary l op r => R.bind (rec.expr ctx l) fun lv =>
      R.bind (rec.expr ctx r) fun rv =>
        binaryValue env lv op rv
  | .forE k x coll ke ve g ce => evalFor env rec ctx k x coll ke ve g ce
  | .null => .ok .null
  | .bool b => .ok (.bool b)
  | .number n => .ok (.number n)
  | .string s => .ok (.string s)

/-- `is_space` of `strip_literal`, `crates/hcl-rs/src/eval/template.rs:50-52`. -/
def isSpaceNoNl (ch : Char) : Bool := env.uni.isWs ch && ch != '\r' && ch != '\n'

/-- `trim_start` of `strip_literal`, `crates/hcl-rs/src/eval/template.rs:54-60`. -/
def trimStart (s : Str) : Str :=
  match s.dropWhile (isSpaceNoNl env) with
  | '\r' :: '\n' :: rest => rest
  | '\n' :: rest => rest
  | rest => rest

/-- `trim_end` of `strip_literal`, `crates/hcl-rs/src/eval/template.rs:62-68`: the same from the
back. -/
def trimEnd (s : Str) : Str :=
  (match s.reverse.dropWhile (isSpaceNoNl env) with
    | '\n' :: '\r' :: rest => rest
    | '\n' :: rest => rest
    | rest => rest).reverse

/-- `strip_literal`, `crates/hcl-rs/src/eval/template.rs:49-79`. -/
def stripLiteral (s : Str) (prev next : Strip) : Str :=
  let s := if prev.stripEnd then trimStart env s else s
  if next.stripStart then trimEnd env s else s

/-- The string form of an interpolated value, `crates/hcl-rs/src/eval/template.rs:86-89`. -/
def interpText (v : Value) : Str :=
  match v with
  | .string s => s
  | other => env.showValue other

/-- The loop of `evaluate_for_directive`, `crates/hcl-rs/src/eval/template.rs:124-132`; the results
of the iterations are appended to the output in order. -/
def forDirective (ctx : Ctx) (k : Option Str) (x : Str) (t : List Elem) (forS endS : Strip) :
    List (Value × Value) → R Str
  | [] => .ok []
  | p :: ps =>
    R.bind (rec.tmpl (iterCtx ctx k x p) t forS endS) fun s =>
      R.bind (forDirective ctx k x t forS endS ps) fun s' =>
        .ok (s ++ s')

/-- `evaluate_element`, `crates/hcl-rs/src/eval/template.rs:30-45`, with `evaluate_interpolation`
(81-93), `evaluate_if_directive` (102-115) and `evaluate_for_directive` (117-135). The code
appends to a buffer, the model returns the appended text. -/
def evalElem (ctx : Ctx) (prev next : Strip) : Elem → R Str
  | .lit s => .ok (stripLiteral env s prev next)
  | .interp e _ => R.bind (rec.expr ctx e) fun v =>
      .ok (interpText env v)
  | .ifDir c t f ifS elseS endS => R.bind (evalBool rec ctx c) fun b =>
      if b then rec.tmpl ctx t ifS (if f.isSome then elseS else endS)
      else match f with
        | some f => rec.tmpl ctx f elseS endS
        | none => .ok []
  | .forDir k x coll t forS endS => R.bind (evalCollection rec ctx coll) fun pairs =>
      forDirective rec ctx k x t forS endS pairs

/-- `evaluate_template`, `crates/hcl-rs/src/eval/template.rs:3-28`. The code finds the neighbours of
an element by index; here the previous element's strip mode is passed along (`prev`) and the next
one's is that of the head of the remaining list, or `next` at the end. -/
def stepTmpl (ctx : Ctx) : List Elem → Strip → Strip → R Str
  | [], _, _ => .ok []
  | e :: es, prev, next =>
    R.bind (evalElem env rec ctx prev (match es with | [] => next | e' :: _ => e'.strip) e) fun s =>
      R.bind (stepTmpl ctx es e.strip next) fun s' =>
        .ok (s ++ s')

end

/-- Evaluation with `n` levels of recursion. -/
def evalF (env : Env) : Nat → Rec
  | 0 => ⟨fun _ _ => .error .timeout, fun _ _ _ _ => .error .timeout⟩
  | n + 1 => ⟨stepExpr env (evalF env n), stepTmpl env (evalF env n)⟩

/-- `Expression::evaluate`, `crates/hcl-rs/src/eval/impls.rs:85-100`: the result `evalF` settles on
once there is enough fuel; `timeout` if it never settles (only possible if parsing templates
yields ever new templates forever). -/
noncomputable def eval (env : Env) (ctx : Ctx) (e : Expr) : R Value :=
  open Classical in
  if h : ∃ n, (evalF env n).expr ctx e ≠ .error .timeout then
    (evalF env (Classical.choose h)).expr ctx e
  else .error .timeout

/-- `evaluate_template`, `crates/hcl-rs/src/eval/template.rs:3-28`, with enough fuel.
`Template::evaluate` (`crates/hcl-rs/src/eval/impls.rs:245-249`) is the case `.none .none`. -/
noncomputable def evalTmpl (env : Env) (ctx : Ctx) (t : List Elem) (prev next : Strip) : R Str :=
  open Classical in
  if h : ∃ n, (evalF env n).tmpl ctx t prev next ≠ .error .timeout then
    (evalF env (Classical.choose h)).tmpl ctx t prev next
  else .error .timeout

end Verif
