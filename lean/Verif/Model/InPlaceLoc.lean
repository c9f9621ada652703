import Verif.Model.InPlace
import Verif.Model.EvalLoc
/-!
In-place evaluation once more, with the expressions that are attached to the errors
(`crates/hcl-rs/src/eval/error.rs:165-169`). `Verif.Model.InPlace` has the same without them; `C78_errors_partial`
proves that the two agree on everything else.
-/

namespace Verif

/-- `Error`, `crates/hcl-rs/src/eval/error.rs:97-100`: the kind and the expression. -/
abbrev LErr := EvalErr × Option Expr

/-- A place after in-place evaluation, and the errors with their expressions. -/
abbrev LPlaced (α : Type) := R (α × List LErr)

namespace Loc

/-- `?` on the result of a plain evaluation inside an in-place one; see `Verif.placed`. -/
def placed {α β : Type} (now : β) (a : L α) (f : α → LPlaced β) : LPlaced β :=
  match a with
  | .ok x => f x
  | .error ⟨.err k, x⟩ => .ok (now, [(k, x)])
  | .error ⟨.panic, _⟩ => .error .panic
  | .error ⟨.timeout, _⟩ => .error .timeout

section
variable (rec : LRec)

/-- `Evaluate::evaluate_in_place for Expression` after `evaluate_nested_exprs`,
`crates/hcl-rs/src/eval/impls.rs:109-111`: the expression in its new form is evaluated in the context of the
place. -/
def finishPlace (ctx : LCtx) (r : Expr × List LErr) : LPlaced Expr :=
  match r.2 with
  | [] => placed r.1 (rec.expr ctx r.1) fun v => .ok (ofValue v, [])
  | _ => .ok r

mutual
/-- `Evaluate::evaluate_in_place for Expression`, `crates/hcl-rs/src/eval/impls.rs:102-115`, with
`evaluate_nested_exprs` (118-133) and the impls for `FuncCall` (326-328), `Conditional` (344-354),
`Operation` (369-374), `UnaryOp` (396-398), `BinaryOp` (432-436) and `ForExpr` (487-489) inlined.
The nested evaluation runs in a child context with a copy of the expression as it was (119-120). -/
def inPlace (ctx : LCtx) : Expr → LPlaced Expr
  | .null => .ok (.null, [])
  | .bool b => .ok (.bool b, [])
  | .number n => .ok (.number n, [])
  | .string s => .ok (.string s, [])
  | .array xs => R.bind (inPlaceList (ctx.childWith (.array xs)) xs) fun r => finishPlace rec ctx (.array r.1, r.2)
  | .object es =>
    R.bind (inPlaceEntries (ctx.childWith (.object es)) es []) fun r => finishPlace rec ctx (.object r.1, r.2)
  | .template t => finishPlace rec ctx (.template t, [])
  | .var x => finishPlace rec ctx (.var x, [])
  | .traversal e ops =>
    R.bind (inPlaceOps (ctx.childWith (.traversal e ops)) ops) fun r => finishPlace rec ctx (.traversal e r.1, r.2)
  | .call n args x =>
    R.bind (inPlaceList (ctx.childWith (.call n args x)) args) fun r => finishPlace rec ctx (.call n r.1 x, r.2)
  | .paren e => R.bind (inPlace (ctx.childWith (.paren e)) e) fun r => finishPlace rec ctx (.paren r.1, r.2)
  | .cond c t f =>
    placed (.cond c t f) (evalBool rec (ctx.childWith (.cond c t f)) c) fun b =>
      if b then
        R.bind (inPlace (ctx.childWith (.cond c t f)) t) fun r => finishPlace rec ctx (.cond (.bool b) r.1 f, r.2)
      else
        R.bind (inPlace (ctx.childWith (.cond c t f)) f) fun r => finishPlace rec ctx (.cond (.bool b) t r.1, r.2)
  | .unary op e => R.bind (inPlace (ctx.childWith (.unary op e)) e) fun r => finishPlace rec ctx (.unary op r.1, r.2)
  | .binary l op r =>
    R.bind (inPlace (ctx.childWith (.binary l op r)) l) fun l' =>
      R.bind (inPlace (ctx.childWith (.binary l op r)) r) fun r' =>
        finishPlace rec ctx (.binary l'.1 op r'.1, l'.2 ++ r'.2)
  | .forE k x coll ke ve g ce =>
    R.bind (inPlace (ctx.childWith (.forE k x coll ke ve g ce)) coll) fun r =>
      finishPlace rec ctx (.forE k x r.1 ke ve g ce, r.2)
/-- `Evaluate::evaluate_in_place for Vec<T>`, `crates/hcl-rs/src/eval/impls.rs:147-152`:
`add_errors` (`error.rs:12-20`) concatenates. -/
def inPlaceList (ctx : LCtx) : List Expr → LPlaced (List Expr)
  | [] => .ok ([], [])
  | e :: es =>
    R.bind (inPlace ctx e) fun r =>
      R.bind (inPlaceList ctx es) fun rs =>
        .ok (r.1 :: rs.1, r.2 ++ rs.2)
/-- `Evaluate::evaluate_in_place for Object`, `crates/hcl-rs/src/eval/impls.rs:176-194`, with
`evaluate_in_place for ObjectKey` (208-214); `new` is `new_object`. -/
def inPlaceEntries (ctx : LCtx) :
    List (ObjKey × Expr) → List (ObjKey × Expr) → LPlaced (List (ObjKey × Expr))
  | [], new => .ok (new, [])
  | (k, v) :: es, new =>
    R.bind (inPlaceKey ctx k) fun k' =>
      R.bind (inPlace ctx v) fun v' =>
        R.bind (inPlaceEntries ctx es (objInsert k'.1 v'.1 new)) fun rs =>
          .ok (rs.1, k'.2 ++ v'.2 ++ rs.2)
/-- `Evaluate::evaluate_in_place for ObjectKey`, `crates/hcl-rs/src/eval/impls.rs:208-214`. -/
def inPlaceKey (ctx : LCtx) : ObjKey → LPlaced ObjKey
  | .expr e => R.bind (inPlace ctx e) fun r => .ok (.expr r.1, r.2)
  | .ident x => .ok (.ident x, [])
/-- `Evaluate::evaluate_in_place for Traversal`, `crates/hcl-rs/src/eval/impls.rs:292-300`. -/
def inPlaceOps (ctx : LCtx) : List TravOp → LPlaced (List TravOp)
  | [] => .ok ([], [])
  | op :: ops =>
    R.bind (inPlaceOp ctx op) fun r =>
      R.bind (inPlaceOps ctx ops) fun rs =>
        .ok (r.1 :: rs.1, r.2 ++ rs.2)
/-- One operator of `evaluate_in_place for Traversal`, `crates/hcl-rs/src/eval/impls.rs:296-299`. -/
def inPlaceOp (ctx : LCtx) : TravOp → LPlaced TravOp
  | .index e => R.bind (inPlace ctx e) fun r => .ok (.index r.1, r.2)
  | .attrSplat => .ok (.attrSplat, [])
  | .fullSplat => .ok (.fullSplat, [])
  | .getAttr x => .ok (.getAttr x, [])
  | .legacyIndex i => .ok (.legacyIndex i, [])
end

mutual
/-- `Evaluate::evaluate_in_place for Template`, `crates/hcl-rs/src/eval/impls.rs:251-278`. -/
def inPlaceTmpl (ctx : LCtx) : List Elem → LPlaced (List Elem)
  | [] => .ok ([], [])
  | el :: els =>
    R.bind (inPlaceElem ctx el) fun r =>
      R.bind (inPlaceTmpl ctx els) fun rs =>
        .ok (r.1 :: rs.1, r.2 ++ rs.2)
/-- One element of `evaluate_in_place for Template`, `crates/hcl-rs/src/eval/impls.rs:255-277`. -/
def inPlaceElem (ctx : LCtx) : Elem → LPlaced Elem
  | .lit s => .ok (.lit s, [])
  | .interp e m => R.bind (inPlace rec ctx e) fun r => .ok (.interp r.1 m, r.2)
  | .ifDir c t f a b z =>
    R.bind (inPlace rec ctx c) fun c' =>
      R.bind (inPlaceTmpl ctx t) fun t' =>
        match f with
        | none => .ok (.ifDir c'.1 t'.1 none a b z, c'.2 ++ t'.2)
        | some f =>
          R.bind (inPlaceTmpl ctx f) fun f' =>
            .ok (.ifDir c'.1 t'.1 (some f'.1) a b z, c'.2 ++ t'.2 ++ f'.2)
  | .forDir k x coll t a z =>
    R.bind (inPlace rec ctx coll) fun c' =>
      R.bind (inPlaceTmpl ctx t) fun t' =>
        .ok (.forDir k x c'.1 t'.1 a z, c'.2 ++ t'.2)
end

mutual
/-- `Evaluate::evaluate_in_place for Body`, `crates/hcl-rs/src/eval/impls.rs:17-22`. -/
def inPlaceBody (ctx : LCtx) : List Struct → LPlaced (List Struct)
  | [] => .ok ([], [])
  | s :: ss =>
    R.bind (inPlaceStruct ctx s) fun r =>
      R.bind (inPlaceBody ctx ss) fun rs =>
        .ok (r.1 :: rs.1, r.2 ++ rs.2)
/-- `Evaluate::evaluate_in_place for Structure` (`crates/hcl-rs/src/eval/impls.rs:37-42`),
`Attribute` (58-60) and `Block` (76-78). -/
def inPlaceStruct (ctx : LCtx) : Struct → LPlaced Struct
  | .attr k e => R.bind (inPlace rec ctx e) fun r => .ok (.attr k r.1, r.2)
  | .block i ls b => R.bind (inPlaceBody ctx b) fun r => .ok (.block i ls r.1, r.2)
end

end
end Loc
end Verif
