import Verif.Model.EditLex
import Verif.Model.EditEq
import Verif.Model.EditDedent
/-!
Model of `crates/hcl-edit/src/parser/{repr,pratt,state,expr,template,structure}.rs`.

The grammar functions call each other recursively. In the model every recursive call goes through
the record `PRec`, and `parsers n` ties the knot `n` levels deep. Every recursive call happens after
at least one character was consumed, so the length of the input bounds the depth that is needed;
`C16` proves that the bound is never hit.

`ExprParseState` (`state.rs:62-163`) holds the current expression, pending whitespace and the flag
`allow_newlines`. The expression is passed as a value here. `ws` is only set immediately before
`traversal` and `conditional`, which take it, so `on_expr_term` and `on_binary_ops` always see
`None`. The flag is threaded through as an argument and a result, because setting it in an array,
a function call or an object `for` expression stays visible to the enclosing expression.
-/

namespace Verif.Gram
open P

/-- What the parser model leaves open: the Unicode tables and the build profile. -/
structure PEnv where
  U : Uni
  bd : Build

/-! ### repr.rs -/

/-- The traits `Decorate` and `SetSpan`, `crates/hcl-edit/src/repr.rs`. -/
class HasMeta (α : Type) where
  mapMeta : (Meta → Meta) → α → α

instance : HasMeta EExpr := ⟨EExpr.mapMeta⟩
instance : HasMeta DIdent := ⟨fun g d => { d with m := g d.m }⟩
instance : HasMeta EKey := ⟨EKey.mapMeta⟩
instance : HasMeta ETravOp := ⟨ETravOp.mapMeta⟩
instance : HasMeta ETrav := ⟨fun g t => match t with | .mk m o => .mk (g m) o⟩
instance : HasMeta ELabel := ⟨ELabel.mapMeta⟩
instance : HasMeta EStruct := ⟨EStruct.mapMeta⟩
instance : HasMeta EBody := ⟨EBody.mapMeta⟩

/-- `spanned`, `crates/hcl-edit/src/parser/repr.rs:5-14`. -/
def spanned [HasMeta α] (p : P α) : P α :=
  P.map (fun (a, s) => HasMeta.mapMeta (Meta.setSpan s) a) (withSpan p)

/-- `decorated`, `crates/hcl-edit/src/parser/repr.rs:16-33`. -/
def decorated [HasMeta α] (pre : P β) (p : P α) (suf : P γ) : P α := do
  let a ← spanOf pre
  let v ← spanned p
  let b ← spanOf suf
  return HasMeta.mapMeta (fun m => (m.setPre (Raw.fromSpan a)).setSuf (Raw.fromSpan b)) v

/-- `prefix_decorated`, `crates/hcl-edit/src/parser/repr.rs:35-48`. -/
def prefixDecorated [HasMeta α] (pre : P β) (p : P α) : P α := do
  let a ← spanOf pre
  let v ← spanned p
  return HasMeta.mapMeta (Meta.setPre (Raw.fromSpan a)) v

/-- `suffix_decorated`, `crates/hcl-edit/src/parser/repr.rs:50-63`. -/
def suffixDecorated [HasMeta α] (p : P α) (suf : P γ) : P α := do
  let v ← spanned p
  let b ← spanOf suf
  return HasMeta.mapMeta (Meta.setSuf (Raw.fromSpan b)) v

/-! ### pratt.rs -/

/-- `Decorated<BinaryOperator>`. -/
structure DBinOp where
  m : Meta := {}
  op : BinOp

instance : HasMeta DBinOp := ⟨fun g d => { d with m := g d.m }⟩

/-- `Associativity::Neither`, `crates/hcl-edit/src/parser/pratt.rs:35-49`; the other operators
associate to the left. -/
def _root_.Verif.BinOp.nonAssoc : BinOp → Bool
  | .eq | .notEq | .lessEq | .greaterEq | .less | .greater => true
  | _ => false

/-- `BinaryOpParser::infix`, `crates/hcl-edit/src/parser/pratt.rs:64-81`. -/
def mkBinary (l : EExpr) (o : DBinOp) (r : EExpr) : EExpr :=
  match l.span?, r.span? with
  | some a, some b => (EExpr.binary {} l o.m o.op r).setSpan ⟨a.start, b.stop⟩
  | _, _ => .binary {} l o.m o.op r

/-- The largest binding power, `Precedence::max()` of the crate `pratt` (0.4.0, external). -/
def bpMax : Nat := 4294967295

/-- The loop of `PrattParser::parse_input` of the crate `pratt` (0.4.0, external) for infix operators,
after the first operand: `rbp` is the binding power on the right of the enclosing operator, `nbp` the
one that operators which do not chain leave for the next operator. The result is the expression and
the tokens that were not used. The first argument bounds the recursion; the number of tokens
suffices. -/
def prattLoop : Nat → Nat → Nat → EExpr → List (DBinOp × EExpr) → EExpr × List (DBinOp × EExpr)
  | 0, _, _, lhs, ops => (lhs, ops)
  | _ + 1, _, _, lhs, [] => (lhs, [])
  | n + 1, rbp, nbp, lhs, (o, e) :: rest =>
    let lbp := o.op.precedence * 10
    if rbp < lbp ∧ lbp < nbp then
      let r := prattLoop n (if o.op.nonAssoc then lbp + 1 else lbp) bpMax e rest
      prattLoop n rbp (if o.op.nonAssoc then lbp else lbp + 1) (mkBinary lhs o r.1) r.2
    else (lhs, (o, e) :: rest)

/-- `parse_binary_op`, `crates/hcl-edit/src/parser/pratt.rs:13-18`: `PrattParser::parse` returns the
expression and ignores tokens that were not used. -/
def parseBinaryOp (lhs : EExpr) (ops : List (DBinOp × EExpr)) : EExpr :=
  (prattLoop (ops.length + 1) 0 bpMax lhs ops).1

/-! ### The recursive knot -/

/-- The recursive entry points: `parse_expr` and `parse_expr_term` (`expr.rs:62-72`) with the flag
`allow_newlines` of their state, `template` (`template.rs:30-34`) and `body`
(`structure.rs:22-55`). -/
structure PRec where
  expr : Bool → P EExpr
  term : Bool → P EExpr
  template : P (List EElem)
  body : P EBody

/-! ### expr.rs -/

/-- `ws_or_sp`, `crates/hcl-edit/src/parser/expr.rs:28-38`. -/
def wsOrSp (nl : Bool) : P Unit := if nl then ws else sp

/-- `unary_operator`, `crates/hcl-edit/src/parser/expr.rs:307-314`. -/
def unaryOperator : P UnOp := do
  let c ← any
  if c = '-' then return .neg
  else if c = '!' then return .not
  else fail

/-- `binary_operator`, `crates/hcl-edit/src/parser/expr.rs:336-358`. -/
def binaryOperator : P BinOp := do
  let c ← any
  if c = '=' then do let _ ← chr '='; return .eq
  else if c = '!' then do let _ ← chr '='; return .notEq
  else if c = '<' then alt (do let _ ← chr '='; return .lessEq) (return .less)
  else if c = '>' then alt (do let _ ← chr '='; return .greaterEq) (return .greater)
  else if c = '+' then return .plus
  else if c = '-' then return .minus
  else if c = '*' then return .mul
  else if c = '/' then do notP (oneOf fun c => c == '/' || c == '*'); return .div
  else if c = '%' then return .mod
  else if c = '&' then do let _ ← chr '&'; return .and
  else if c = '|' then do let _ ← chr '|'; return .or
  else fail

/-- `number`, `crates/hcl-edit/src/parser/expr.rs:212-224`. `set_repr` stores the text. -/
def numberTerm : P EExpr := do
  let (n, s) ← withTaken num
  return .number {} n (some (.explicit s))

/-- `neg_number`, `crates/hcl-edit/src/parser/expr.rs:226-239`. The negation can panic in a debug
build, `crates/hcl-primitives/src/number.rs`. -/
def negNumber (E : PEnv) : P EExpr := do
  let (n, s) ← withTaken (do let _ ← chr '-'; sp; num)
  match n.neg E.bd with
  | some n => return .number {} n (some (.explicit s))
  | none => P.panic

/-- `unary_op`, `crates/hcl-edit/src/parser/expr.rs:290-305`. -/
def unaryOp (R : PRec) (nl : Bool) : P EExpr := do
  let (o, s) ← withSpan unaryOperator
  let e ← prefixDecorated sp (R.term nl)
  return .unary {} (some s) o e

/-- The `.` branch of `traversal_operator`, `crates/hcl-edit/src/parser/expr.rs:263-272`. -/
def dotOperator (E : PEnv) : P ETravOp := do
  let c ← peek any
  if c = '*' then do let _ ← chr '*'; return .attrSplat {}
  else if isDigit c then do let n ← decUint; return .legacyIndex {} n
  else if isIdStart E.U c then do let d ← ident E.U; return .getAttr d
  else cutFail

/-- The `[` branch of `traversal_operator`, `crates/hcl-edit/src/parser/expr.rs:277-280`. -/
def bracketOperator (R : PRec) : P ETravOp := do
  let c ← peek any
  if c = '*' then do let _ ← chr '*'; return .fullSplat {}
  else do let e ← R.expr true; return .index e

/-- `traversal_operator`, `crates/hcl-edit/src/parser/expr.rs:259-288`. -/
def traversalOperator (E : PEnv) (R : PRec) : P ETravOp := do
  let c ← any
  if c = '.' then prefixDecorated ws (dotOperator E)
  else if c = '[' then terminated (decorated ws (bracketOperator R) ws) (cutChar ']')
  else fail

/-- The repeated parser of `traversal`, `crates/hcl-edit/src/parser/expr.rs:247-252`. -/
def traversalStep (E : PEnv) (R : PRec) (nl : Bool) : P ETrav :=
  prefixDecorated (wsOrSp nl)
    (preceded (notP (tag c!"..")) (P.map (ETrav.mk {}) (traversalOperator E R)))

/-- `traversal`, `crates/hcl-edit/src/parser/expr.rs:241-257`. -/
def traversal (E : PEnv) (R : PRec) (nl : Bool) : P (List ETrav) := repeat1 (traversalStep E R nl)

/-- The repeated parser of `binary_ops`, `crates/hcl-edit/src/parser/expr.rs:322-329`. -/
def binaryStep (R : PRec) (nl : Bool) : P (DBinOp × EExpr) := do
  let o ← decorated (wsOrSp nl) (P.map (fun o => { op := o : DBinOp }) binaryOperator) (wsOrSp nl)
  let e ← R.term nl
  return (o, e)

/-- `binary_ops`, `crates/hcl-edit/src/parser/expr.rs:316-334`. -/
def binaryOps (R : PRec) (nl : Bool) : P (List (DBinOp × EExpr)) := repeat1 (binaryStep R nl)

/-- `conditional`, `crates/hcl-edit/src/parser/expr.rs:360-377`. -/
def conditional (R : PRec) (nl : Bool) : P (EExpr × EExpr) := do
  let _ ← chr '?'
  let t ← decorated (wsOrSp nl) (R.expr nl) (wsOrSp nl)
  let _ ← cutChar ':'
  let f ← prefixDecorated (wsOrSp nl) (R.expr nl)
  return (t, f)

/-- `ForIntro`, `crates/hcl-edit/src/expr/for_expr.rs:73-88`. -/
structure EIntro where
  m : Meta := {}
  key : Option DIdent
  val : DIdent
  coll : EExpr

/-- `ForCond`, `crates/hcl-edit/src/expr/for_expr.rs:125-131`. -/
structure ECond where
  m : Meta := {}
  e : EExpr

instance : HasMeta EIntro := ⟨fun g d => { d with m := g d.m }⟩
instance : HasMeta ECond := ⟨fun g d => { d with m := g d.m }⟩

/-- `for_intro`, `crates/hcl-edit/src/parser/expr.rs:622-644`. -/
def forIntro (E : PEnv) (R : PRec) : P EIntro :=
  prefixDecorated ws (do
    tag c!"for"
    let a ← decorated ws (cutIdent E.U) ws
    let b ← opt (do let _ ← chr ','; decorated ws (cutIdent E.U) ws)
    cutTag c!"in"
    let e ← decorated ws (R.expr false) ws
    let _ ← cutChar ':'
    match b with
    | some b => return { key := some a, val := b, coll := e }
    | none => return { key := none, val := a, coll := e })

/-- `for_cond`, `crates/hcl-edit/src/parser/expr.rs:646-656`. -/
def forCond (R : PRec) (nl : Bool) : P ECond :=
  prefixDecorated ws (do
    tag c!"if"
    let e ← decorated ws (R.expr nl) ws
    return { e := e })

/-- `for_list_expr`, `crates/hcl-edit/src/parser/expr.rs:393-412`. -/
def forListExpr (E : PEnv) (R : PRec) : P EExpr := do
  let i ← forIntro E R
  let v ← decorated ws (R.expr true) ws
  let c ← opt (forCond R true)
  return .forE {} i.m i.key i.val i.coll none v false
    (match c with | some c => c.m | none => {}) (match c with | some c => some c.e | none => none)

/-- `for_object_expr`, `crates/hcl-edit/src/parser/expr.rs:451-485`. -/
def forObjectExpr (E : PEnv) (R : PRec) : P EExpr := do
  let i ← forIntro E R
  let k ← decorated ws (R.expr false) ws
  cutTag c!"=>"
  let v ← decorated ws (R.expr false) ws
  let g ← opt (do tag c!"..."; rawString ws)
  let c ← opt (forCond R true)
  match g, c with
  | some t, some c => return .forE {} i.m i.key i.val i.coll (some k) v true (c.m.setPre t) (some c.e)
  | some t, none =>
    return .forE (Meta.setSuf t {}) i.m i.key i.val i.coll (some k) v true {} none
  | none, some c => return .forE {} i.m i.key i.val i.coll (some k) v false c.m (some c.e)
  | none, none => return .forE {} i.m i.key i.val i.coll (some k) v false {} none

/-- `for_expr_or_items`, `crates/hcl-edit/src/parser/expr.rs:602-620`. -/
def forOrItems (f g : P α) : P α := fun i =>
  match (do ws; tag c!"for"
            let _ ← oneOf fun c => c == ' ' || c == '\t' || c == '#' || c == '/' || c == '\n'
            return () : P Unit) i with
  | .ok _ _ => f i
  | .back _ => g i
  | .cut _ => g i
  | .panic => .panic
  | .oof => .oof

/-- `array_items`, `crates/hcl-edit/src/parser/expr.rs:414-436`. -/
def arrayItems (R : PRec) : P EExpr := do
  let vs ← separated0 (decorated ws (preceded (notP (chr ']')) (R.expr true)) ws) (chr ',')
  let comma ← opt (chr ',')
  let t ← rawString ws
  return .array {} vs comma.isSome t

/-- `array`, `crates/hcl-edit/src/parser/expr.rs:379-391`. -/
def array (E : PEnv) (R : PRec) : P EExpr :=
  delimited (chr '[') (forOrItems (forListExpr E R) (arrayItems R)) (cutChar ']')

/-- The closure of `object_key`, `crates/hcl-edit/src/parser/expr.rs:563-574`. -/
def toObjectKey : EExpr → EKey
  | .var _ x => .ident { name := x }
  | e => .expr e

/-- `object_key`, `crates/hcl-edit/src/parser/expr.rs:561-578`. -/
def objectKey (R : PRec) : P EKey := suffixDecorated (P.map toObjectKey (R.expr false)) sp

/-- `object_value_assignment`, `crates/hcl-edit/src/parser/expr.rs:590-600`. -/
def objectAssign : P Assign := do
  let c ← any
  if c = '=' then return .equals
  else if c = ':' then return .colon
  else cutFail

/-- `object_value`, `crates/hcl-edit/src/parser/expr.rs:580-588`. -/
def objectValue (R : PRec) : P (EExpr × Assign) := do
  let a ← objectAssign
  let e ← decorated sp (R.expr false) sp
  return (e, a)

/-- The new suffix of an item value that is followed by a line comment,
`crates/hcl-edit/src/parser/expr.rs:534-537`. -/
def commentSuffix (v : EExpr) (c : Span) : Span :=
  match v.getMeta.decor.suf with
  | some (.spanned s) => ⟨s.start, c.stop⟩
  | _ => c

/-- The item terminators other than `}`, `crates/hcl-edit/src/parser/expr.rs:511-553`, depending on
the next character `c`. -/
def itemEnd (v : EExpr) (c : Char) : P (EExpr × ItemEnd) :=
  if c = '\r' then do tag c!"\r\n"; return (v, .newline)
  else if c = '\n' then do tag c!"\n"; return (v, .newline)
  else if c = ',' then do let _ ← takeN 1; return (v, .comma)
  else if c = '#' ∨ c = '/' then do
    let s ← spanOf lineComment
    let _ ← lineEnding
    return (v.setSuf (Raw.fromSpan (commentSuffix v s)), .newline)
  else cutFail

/-- The loop of `object_items`, `crates/hcl-edit/src/parser/expr.rs:493-557`. The first argument
bounds the number of items. -/
def objectLoop (R : PRec) : Nat → List EItem → P EExpr
  | 0, _ => oof
  | n + 1, items => do
    let trailing ← rawString ws
    let c ← peek any
    if c = '}' then return .object {} items trailing
    else do
      let k ← objectKey R
      let (v, a) ← objectValue R
      let k := k.mapMeta (Meta.setPre trailing)
      let c ← peek any
      if c = '}' then return .object {} (itemInsert k v a .none items) .empty
      else do
        let (v, t) ← itemEnd v c
        objectLoop R n (itemInsert k v a t items)

/-- `object_items`, `crates/hcl-edit/src/parser/expr.rs:487-559`. -/
def objectItems (R : PRec) : P EExpr := fun i => objectLoop R (i.rest.length + 1) [] i

/-- `object`, `crates/hcl-edit/src/parser/expr.rs:438-449`. The second component is the flag
`allow_newlines` afterwards: only `for_object_expr` sets it. -/
def object (E : PEnv) (R : PRec) (nl : Bool) : P (EExpr × Bool) :=
  delimited (chr '{')
    (forOrItems (P.map (·, true) (forObjectExpr E R)) (P.map (·, nl) (objectItems R)))
    (cutChar '}')

/-- `parenthesis`, `crates/hcl-edit/src/parser/expr.rs:658-670`. -/
def parenthesis (R : PRec) : P EExpr := do
  let _ ← cutChar '('
  let e ← decorated ws (R.expr true) ws
  let _ ← cutChar ')'
  return .paren {} e

/-- `func_namespace_components`, `crates/hcl-edit/src/parser/expr.rs:773-792`. -/
def namespaceComponents (E : PEnv) (nl : Bool) : P (List DIdent) :=
  repeat1 (do tag c!"::"; decorated (wsOrSp nl) (cutIdent E.U) (wsOrSp nl))

/-- The fields of `FuncArgs`, `crates/hcl-edit/src/expr/func_call.rs:97-106`. -/
structure EArgs where
  args : List EExpr
  comma : Bool
  expand : Bool
  trailing : Raw

/-- The local `trailer` of `func_args`, `crates/hcl-edit/src/parser/expr.rs:816-820`: is it an
ellipsis? -/
def argsTrailer : P Bool := do
  let c ← any
  if c = ',' then return false
  else if c = '.' then do cutTag c!".."; return true
  else fail

/-- `func_args`, `crates/hcl-edit/src/parser/expr.rs:794-849`. -/
def funcArgs (R : PRec) : P EArgs := do
  let _ ← cutChar '('
  let a ← opt (do
    let as ← separated1
      (decorated ws
        (preceded (peek (oneOf fun c => c != ',' && c != '.' && c != ')')) (R.expr true)) ws)
      (chr ',')
    let t ← opt argsTrailer
    return (as, t))
  let t ← rawString ws
  let _ ← cutChar ')'
  match a with
  | some (as, some true) => return ⟨as, false, true, t⟩
  | some (as, some false) => return ⟨as, true, false, t⟩
  | some (as, none) => return ⟨as, false, false, t⟩
  | none => return ⟨[], false, false, t⟩

/-- The keywords and variables of `identlike`, `crates/hcl-edit/src/parser/expr.rs:759-764`. -/
def keywordOrVar (x : Str) : EExpr :=
  if x = c!"null" then .null {}
  else if x = c!"true" then .bool {} true
  else if x = c!"false" then .bool {} false
  else .var {} x

/-- `identlike`, `crates/hcl-edit/src/parser/expr.rs:717-771`. The second component is the flag
`allow_newlines` afterwards. -/
def identlike (E : PEnv) (R : PRec) (nl : Bool) : P (EExpr × Bool) := do
  let (x, xs) ← withSpan (strIdent E.U)
  let cp ← getInput
  let s ← spanOf (wsOrSp nl)
  let nx ← peek2
  let d : DIdent := ⟨(Meta.setSuf (Raw.fromSpan s) {}).setSpan xs, x⟩
  if nx = some (':', ':') then do
    let ds ← namespaceComponents E nl
    match ds.getLast? with
    | none => P.panic
    | some name => do
      let a ← funcArgs R
      return (.call {} (d :: ds.dropLast) name {} a.args a.comma a.expand a.trailing, true)
  else if nx.map (·.1) = some '(' then do
    let a ← funcArgs R
    return (.call {} [] d {} a.args a.comma a.expand a.trailing, true)
  else do
    setInput cp
    return (keywordOrVar x, nl)

/-! ### template.rs -/

/-- `control`, `crates/hcl-edit/src/parser/template.rs:207-226`. -/
def control (intro : Str) (p : P α) : P (α × Strip) := do
  tag intro
  let a ← opt (chr '~')
  let o ← p
  let b ← opt (chr '~')
  let _ ← cutChar '}'
  return (o, Strip.ofBools a.isSome b.isSome)

/-- `interpolation`, `crates/hcl-edit/src/parser/template.rs:101-109`. -/
def interpolation (R : PRec) : P EElem := do
  let (e, s) ← control c!"${" (decorated ws (R.expr true) ws)
  return .interp none e s

/-- The directives without an expression: `%{ kw }`, `template.rs:134-156,190-200`; the keyword
parser is `kw`. -/
def marker (kw : P Unit) : P ((Raw × Raw) × Strip) :=
  control c!"%{" (do let a ← rawString ws; kw; let b ← rawString ws; return (a, b))

/-- The local `else_expr` of `if_directive`, `crates/hcl-edit/src/parser/template.rs:134-144`. -/
def elseExpr (R : PRec) : P EElse := do
  let ((p, t), s) ← marker (tag c!"else")
  let (es, ts) ← withSpan R.template
  return .mk p t s (some ts) es

/-- `if_directive`, `crates/hcl-edit/src/parser/template.rs:119-161`. -/
def ifDirective (R : PRec) : P EElem := do
  let ((p, c), s) ← control c!"%{" (do
    let p ← rawString ws
    tag c!"if"
    let c ← decorated ws (R.expr false) ws
    return (p, c))
  let (es, ts) ← withSpan R.template
  let els ← opt (elseExpr R)
  let ((ep, et), st) ← marker (cutTag c!"endif")
  return .ifDir none p c s (some ts) es els ep et st

/-- `for_directive`, `crates/hcl-edit/src/parser/template.rs:163-205`. -/
def forDirective (E : PEnv) (R : PRec) : P EElem := do
  let ((p, a, b, c), s) ← control c!"%{" (do
    let p ← rawString ws
    tag c!"for"
    let a ← decorated ws (cutIdent E.U) ws
    let b ← opt (do let _ ← chr ','; decorated ws (cutIdent E.U) ws)
    cutTag c!"in"
    let c ← decorated ws (R.expr false) ws
    return (p, a, b, c))
  let (es, ts) ← withSpan R.template
  let ((ep, et), st) ← marker (cutTag c!"endfor")
  match b with
  | some b => return .forDir none p (some a) b c s (some ts) es ep et st
  | none => return .forDir none p none a c s (some ts) es ep et st

/-- `directive`, `crates/hcl-edit/src/parser/template.rs:111-117`. -/
def directive (E : PEnv) (R : PRec) : P EElem := alt (ifDirective R) (forDirective E R)

/-- One element, `crates/hcl-edit/src/parser/template.rs:93-97`. -/
def element (E : PEnv) (R : PRec) (lit : P Str) : P EElem :=
  P.map (fun (e, s) => e.setSpan s)
    (withSpan (alt (P.map (EElem.lit none) lit) (alt (interpolation R) (directive E R))))

/-- `elements`, `crates/hcl-edit/src/parser/template.rs:87-99`. -/
def elements (E : PEnv) (R : PRec) (lit : P Str) : P (List EElem) := repeat0 (element E R lit)

/-- `string_template`, `crates/hcl-edit/src/parser/template.rs:24-28`. -/
def stringTemplate (E : PEnv) (R : PRec) : P (List EElem) :=
  delimited (chr '"') (elements E R (buildString quotedFragment)) (chr '"')

/-- The `literal_end` of `template`, `crates/hcl-edit/src/parser/template.rs:31`. -/
def templateEnd : P Unit := alt (tag c!"${") (tag c!"%{")

/-- `template`, `crates/hcl-edit/src/parser/template.rs:30-34`. -/
def template (E : PEnv) (R : PRec) : P (List EElem) :=
  elements E R (buildString (templateFragment templateEnd))

/-- The local `heredoc_end` of `heredoc_template`, `crates/hcl-edit/src/parser/template.rs:50`. -/
def heredocEnd (E : PEnv) (delim : Str) : P Unit := do
  let _ ← lineEnding
  let _ ← space0
  tag delim
  notP (oneOf (isIdContinue E.U))

/-- The `literal_end` of `heredoc_template`, `crates/hcl-edit/src/parser/template.rs:51`. -/
def heredocLitEnd (E : PEnv) (delim : Str) : P Unit :=
  alt (tag c!"${") (alt (tag c!"%{") (heredocEnd E delim))

/-- Appends the last line ending of a heredoc to its elements,
`crates/hcl-edit/src/parser/template.rs:56-70`. -/
def addLineEnding (es : List EElem) (le : Str) (s : Span) : List EElem :=
  match es.getLast? with
  | some (.lit (some sp) t) => es.dropLast ++ [.lit (some ⟨sp.start, s.stop⟩) (t ++ le)]
  | _ => es ++ [.lit (some s) le]

/-- `heredoc_template`, `crates/hcl-edit/src/parser/template.rs:36-75`. -/
def heredocTemplate (E : PEnv) (R : PRec) (delim : Str) : P (List EElem) := do
  let r ← opt (do
    let es ← elements E R (buildString (templateFragment (heredocLitEnd E delim)))
    let (le, s) ← withSpan lineEnding
    return addLineEnding es le s)
  return r.getD []

/-! ### expr.rs, terms -/

/-- `heredoc_start`, `crates/hcl-edit/src/parser/expr.rs:704-715`. -/
def heredocStart (E : PEnv) : P (Bool × Str) := do
  tag c!"<<"
  let ind ← opt (chr '-')
  let d ← cutErr (strIdent E.U)
  let _ ← cutErr lineEnding
  return (ind.isSome, d)

/-- `heredoc`, `crates/hcl-edit/src/parser/expr.rs:672-702`. -/
def heredoc (E : PEnv) (R : PRec) : P EExpr := do
  let (ind, d) ← heredocStart E
  let (es, ts) ← withSpan (heredocTemplate E R d)
  let t ← rawString space0
  cutErr (do tag d; notP (oneOf (isIdContinue E.U)))
  let (es, n) := if ind then tmplDedent E.U es else (es, none)
  return .heredoc {} d (some ts) es n t

/-- `stringlike`, `crates/hcl-edit/src/parser/expr.rs:192-210`. -/
def stringlike (E : PEnv) (R : PRec) : P EExpr :=
  alt (P.map (EExpr.string {}) quotedString) (P.map (EExpr.strTmpl {}) (stringTemplate E R))

/-- The dispatch of `expr_term_inner`, `crates/hcl-edit/src/parser/expr.rs:137-159`. The second
component is the flag `allow_newlines` afterwards: `array` sets it before anything else. -/
def termCore (E : PEnv) (R : PRec) (nl : Bool) : P (EExpr × Bool) := do
  let c ← peek any
  if c = '"' then P.map (·, nl) (stringlike E R)
  else if c = '[' then P.map (·, true) (array E R)
  else if c = '{' then object E R nl
  else if isDigit c then P.map (·, nl) numberTerm
  else if c = '<' then P.map (·, nl) (heredoc E R)
  else if c = '-' then P.map (·, nl) (alt (negNumber E) (unaryOp R nl))
  else if c = '!' then P.map (·, nl) (unaryOp R nl)
  else if c = '(' then P.map (·, nl) (parenthesis R)
  else if isIdStart E.U c then identlike E R nl
  else cutFail

/-- Do the next two characters start a traversal, `crates/hcl-edit/src/parser/expr.rs:176`? -/
def startsTraversal : Option (Char × Char) → Bool
  | some (a, b) => !(a == '.' && b == '.') && (a == '.' || a == '[')
  | none => false

/-- `expr_term_inner`, `crates/hcl-edit/src/parser/expr.rs:131-190`. -/
def termInner (E : PEnv) (R : PRec) (nl : Bool) : P (EExpr × Bool) := do
  let start ← getInput
  let ((e, nl), s) ← withSpan (termCore E R nl)
  let e := e.setSpan s
  let cp ← getInput
  let suf ← spanOf (wsOrSp nl)
  let nx ← peek2
  if startsTraversal nx then do
    let (ops, s) ← withSpan (traversal E R nl)
    return ((EExpr.trav {} (e.setSuf (Raw.fromSpan suf)) ops).setSpan ⟨start.pos, s.stop⟩, nl)
  else do
    setInput cp
    return (e, nl)

/-- Do the next two characters start a binary operation, `crates/hcl-edit/src/parser/expr.rs:108-113`?
-/
def startsBinary : Option (Char × Char) → Bool
  | some (a, b) =>
    !((a == '/' && b == '/') || (a == '/' && b == '*')) &&
      ((a == '=' && b == '=') || a == '!' || a == '<' || a == '>' || a == '+' || a == '-' ||
        a == '*' || a == '/' || a == '%' || a == '&' || a == '|')
  | none => false

/-- The loop of `expr_inner`, `crates/hcl-edit/src/parser/expr.rs:82-127`. The first argument bounds
the number of iterations. -/
def exprLoop (R : PRec) (start : Nat) (nl : Bool) : Nat → EExpr → P EExpr
  | 0, _ => oof
  | n + 1, e => do
    let cp ← getInput
    let suf ← spanOf (wsOrSp nl)
    let nx ← peek2
    if nx.map (·.1) = some '?' then do
      let ((t, f), s) ← withSpan (conditional R nl)
      return (EExpr.cond {} (e.setSuf (Raw.fromSpan suf)) t f).setSpan ⟨start, s.stop⟩
    else if startsBinary nx then do
      setInput cp
      let (ops, s) ← withSpan (binaryOps R nl)
      exprLoop R start nl n ((parseBinaryOp e ops).setSpan ⟨start, s.stop⟩)
    else do
      setInput cp
      return e

/-- `expr_inner`, `crates/hcl-edit/src/parser/expr.rs:74-129`. -/
def exprInner (E : PEnv) (R : PRec) (nl : Bool) : P EExpr := do
  let start ← getInput
  let (e, nl) ← termInner E R nl
  fun i => exprLoop R start.pos nl (i.rest.length + 1) e i

/-! ### structure.rs -/

/-- `attribute_expr`, `crates/hcl-edit/src/parser/structure.rs:126-132`. -/
def attributeExpr (R : PRec) : P EExpr := preceded (cutChar '=') (prefixDecorated sp (R.expr false))

/-- `block_label`, `crates/hcl-edit/src/parser/structure.rs:138-144`. -/
def blockLabel (E : PEnv) : P ELabel :=
  alt (P.map (ELabel.string {}) quotedString) (P.map ELabel.ident (ident E.U))

/-- `block_labels`, `crates/hcl-edit/src/parser/structure.rs:134-136`. -/
def blockLabels (E : PEnv) : P (List ELabel) := repeat0 (suffixDecorated (blockLabel E) sp)

/-- `(sp, opt(line_comment))`, `crates/hcl-edit/src/parser/structure.rs:32,154`. -/
def lineEnd : P Unit := do sp; let _ ← opt lineComment; return ()

/-- The local `attribute` of `block_body`, `crates/hcl-edit/src/parser/structure.rs:147-148`. -/
def attributeP (E : PEnv) (R : PRec) : P EStruct := do
  let k ← suffixDecorated (ident E.U) sp
  let e ← attributeExpr R
  return .attr {} k e

/-- The one-line alternative of `block_body`, `crates/hcl-edit/src/parser/structure.rs:156-164`. -/
def onelineBody (E : PEnv) (R : PRec) : P EBody := do
  let a ← opt (decorated sp (attributeP E R) sp)
  let s ← rawString sp
  return .mk (Meta.setSuf s {}) (match a with | some a => [a] | none => []) true false

/-- `block_body`, `crates/hcl-edit/src/parser/structure.rs:146-174`. -/
def blockBody (E : PEnv) (R : PRec) : P EBody :=
  delimited (cutChar '{')
    (alt (prefixDecorated lineEnd (preceded lineEnding R.body)) (onelineBody E R))
    (cutChar '}')

/-- `structure`, `crates/hcl-edit/src/parser/structure.rs:57-124`. `keys` is
`BodyParseState::attribute_keys`; the second component is its new value. -/
def structureP (E : PEnv) (R : PRec) (keys : List Str) : P (EStruct × List Str) := do
  let start ← getInput
  let _ ← peek (oneOf (isIdStart E.U))
  let (x, xs) ← withSpan (cutErr (strIdent E.U))
  let suf ← rawString sp
  let c ← peek any
  let d : DIdent := ⟨(Meta.setSuf suf {}).setSpan xs, x⟩
  if c = '=' then
    if x ∈ keys then do setInput start; cutFail
    else do
      let e ← attributeExpr R
      let fin ← getInput
      return (.attr (Meta.setSpan ⟨start.pos, fin.pos⟩ {}) d e, x :: keys)
  else if c = '{' then do
    let b ← blockBody E R
    let fin ← getInput
    return (.block (Meta.setSpan ⟨start.pos, fin.pos⟩ {}) d [] b, keys)
  else if c = '"' ∨ isIdStart E.U c then do
    let ls ← blockLabels E
    let b ← blockBody E R
    let fin ← getInput
    return (.block (Meta.setSpan ⟨start.pos, fin.pos⟩ {}) d ls b, keys)
  else cutFail

/-- One iteration of the loop of `body`, `crates/hcl-edit/src/parser/structure.rs:28-44`, with
`on_structure`, `on_line_ending` and `on_eof` of `state.rs:30-53`: the structure with its decor, the
attribute keys seen so far and whether the end of the input was reached. -/
def bodyItem (E : PEnv) (R : PRec) (keys : List Str) : P (EStruct × List Str × Bool) := do
  let pre ← spanOf ws
  let (s, keys) ← structureP E R keys
  let suf ← spanOf lineEnd
  let fin ← cutErr (alt (P.map (fun _ => false) lineEnding) (P.map (fun _ => true) eof))
  return (s.mapMeta fun m => (m.setPre (Raw.fromSpan pre)).setSuf (Raw.fromSpan suf), keys, fin)

/-- The loop of `body`, `crates/hcl-edit/src/parser/structure.rs:26-45`: `repeat(0..)` with the state
passed along. -/
def bodyLoop (E : PEnv) (R : PRec) : Nat → List Str → P (List EStruct × Bool)
  | 0, _ => oof
  | n + 1, keys => fun i =>
    match bodyItem E R keys i with
    | .ok (s, keys', fin) i' =>
      if i'.rest.length < i.rest.length then
        P.map (fun (ss, fin') => (s :: ss, fin || fin')) (bodyLoop E R n keys') i'
      else .panic
    | .back _ => .ok ([], false) i
    | .cut i' => .cut i'
    | .panic => .panic
    | .oof => .oof

/-- `body`, `crates/hcl-edit/src/parser/structure.rs:22-55`. -/
def body (E : PEnv) (R : PRec) : P EBody := do
  let ((ss, fin), s) ← withSpan fun i => bodyLoop E R (i.rest.length + 1) [] i
  let suf ← rawString ws
  return .mk ((Meta.setSpan s {}).setSuf suf) ss false fin

/-! ### Tying the knot -/

/-- One more level of recursion. -/
def PRec.step (E : PEnv) (R : PRec) : PRec where
  expr := exprInner E R
  term nl := P.map (·.1) (termInner E R nl)
  template := Gram.template E R
  body := Gram.body E R

/-- The parsers with recursion depth `n`. -/
def parsers (E : PEnv) : Nat → PRec
  | 0 => ⟨fun _ => oof, fun _ => oof, oof, oof⟩
  | n + 1 => (parsers E n).step E

end Verif.Gram
