import Verif.Model.Ops
import Verif.Model.Value
/-!
Model of the expression and template trees of `hcl-rs`
(`crates/hcl-rs/src/expr/*.rs`, `crates/hcl-rs/src/template/mod.rs`,
`crates/hcl-rs/src/structure/*.rs`).

Identifiers (`Identifier`, `Variable`) are their text.
-/

namespace Verif

/-- `HeredocStripMode`, `crates/hcl-rs/src/expr/template_expr.rs:90-100`. -/
inductive HeredocStrip | none | indent
  deriving DecidableEq, Repr

/-- `TemplateExpr`, `crates/hcl-rs/src/expr/template_expr.rs:11-21`, and `Heredoc`, lines 59-67. -/
inductive TmplExpr
  | quoted (s : Str)
  | heredoc (delim : Str) (template : Str) (strip : HeredocStrip)
  deriving DecidableEq, Repr

/-- `TemplateExpr::as_str`, `crates/hcl-rs/src/expr/template_expr.rs:25-30`. -/
def TmplExpr.asStr : TmplExpr → Str
  | .quoted s => s
  | .heredoc _ t _ => t

/-- `FuncName`, `crates/hcl-rs/src/expr/func_call.rs:8-14`. -/
structure FuncName where
  namespaces : List Str
  name : Str
  deriving DecidableEq, Repr

mutual
/-- `Expression`, `crates/hcl-rs/src/expr/mod.rs:41-72`, with the structs `Traversal`
(`traversal.rs:6-12`), `FuncCall` (`func_call.rs:62-71`), `Conditional` (`conditional.rs`),
`Operation`/`UnaryOp`/`BinaryOp` (`operation.rs`) and `ForExpr` (`for_expr.rs:8-30`) inlined. -/
inductive Expr
  | null
  | bool (b : Bool)
  | number (n : N)
  | string (s : Str)
  | array (xs : List Expr)
  | object (es : List (ObjKey × Expr))
  | template (t : TmplExpr)
  | var (x : Str)
  | traversal (e : Expr) (ops : List TravOp)
  | call (name : FuncName) (args : List Expr) (expandFinal : Bool)
  | paren (e : Expr)
  | cond (c t f : Expr)
  | unary (op : UnOp) (e : Expr)
  | binary (l : Expr) (op : BinOp) (r : Expr)
  | forE (keyVar : Option Str) (valueVar : Str) (collection : Expr) (keyExpr : Option Expr)
      (valueExpr : Expr) (grouping : Bool) (condExpr : Option Expr)
/-- `ObjectKey`, `crates/hcl-rs/src/expr/mod.rs:292-297`. -/
inductive ObjKey
  | ident (x : Str)
  | expr (e : Expr)
/-- `TraversalOperator`, `crates/hcl-rs/src/expr/traversal.rs:109-125`. -/
inductive TravOp
  | attrSplat
  | fullSplat
  | getAttr (x : Str)
  | index (e : Expr)
  | legacyIndex (i : Nat)
end

instance : Inhabited Expr := ⟨.null⟩
instance : Inhabited Value := ⟨.null⟩

/-- `Element`, `crates/hcl-rs/src/template/mod.rs:208-216`, with `Interpolation` (255-261),
`IfDirective` (330-349) and `ForDirective` (403-418) inlined. A `Template` (105-107) is the list of
its elements. -/
inductive Elem
  | lit (s : Str)
  | interp (e : Expr) (strip : Strip)
  | ifDir (c : Expr) (t : List Elem) (f : Option (List Elem)) (ifStrip elseStrip endifStrip : Strip)
  | forDir (keyVar : Option Str) (valueVar : Str) (collection : Expr) (t : List Elem)
      (forStrip endforStrip : Strip)

/-- `Element::strip` and `Directive::strip`, `crates/hcl-rs/src/template/mod.rs:219-225,305-312`. -/
def Elem.strip : Elem → Strip
  | .lit _ => .none
  | .interp _ s => s
  | .ifDir _ _ _ i _ e => Strip.ofBools i.stripStart e.stripEnd
  | .forDir _ _ _ _ f e => Strip.ofBools f.stripStart e.stripEnd

/-- `BlockLabel`, `crates/hcl-rs/src/structure/block.rs`. -/
inductive Label
  | ident (x : Str)
  | string (s : Str)
  deriving DecidableEq, Repr

/-- `BlockLabel::as_str`, `crates/hcl-rs/src/structure/block.rs`. -/
def Label.asStr : Label → Str
  | .ident x => x
  | .string s => s

/-- `Structure`, `crates/hcl-rs/src/structure/mod.rs`, with `Attribute` (`attribute.rs`) and `Block`
(`block.rs`) inlined. A `Body` (`body.rs`) is the list of its structures. -/
inductive Struct
  | attr (key : Str) (e : Expr)
  | block (ident : Str) (labels : List Label) (body : List Struct)

mutual
/-- Derived `PartialEq for Expression`, `crates/hcl-rs/src/expr/mod.rs:39` and the derives of the
inlined structs. Objects are `vecmap::VecMap`s, compared like `IndexMap`s: same length and every
left entry has an equal right entry (external crate). -/
def Expr.beq : Expr → Expr → Bool
  | .null, .null => true
  | .bool a, .bool b => a == b
  | .number a, .number b => N.eq a b
  | .string a, .string b => decide (a = b)
  | .array a, .array b => Expr.beqList a b
  | .object a, .object b => a.length == b.length && Expr.beqObj a b
  | .template a, .template b => decide (a = b)
  | .var a, .var b => decide (a = b)
  | .traversal a os, .traversal b ps => Expr.beq a b && TravOp.beqList os ps
  | .call n as x, .call m bs y => decide (n = m) && Expr.beqList as bs && x == y
  | .paren a, .paren b => Expr.beq a b
  | .cond a b c, .cond a' b' c' => Expr.beq a a' && Expr.beq b b' && Expr.beq c c'
  | .unary o a, .unary p b => decide (o = p) && Expr.beq a b
  | .binary a o b, .binary a' p b' => Expr.beq a a' && decide (o = p) && Expr.beq b b'
  | .forE k v c ke ve g ce, .forE k' v' c' ke' ve' g' ce' =>
    decide (k = k') && decide (v = v') && Expr.beq c c' &&
      Expr.beqOpt ke ke' && Expr.beq ve ve' && g == g' && Expr.beqOpt ce ce'
  | _, _ => false
termination_by structural x => x
/-- `PartialEq for Option<Expression>`. -/
def Expr.beqOpt : Option Expr → Option Expr → Bool
  | .none, .none => true
  | .some a, .some b => Expr.beq a b
  | _, _ => false
termination_by structural x => x
/-- `PartialEq for Vec<Expression>`. -/
def Expr.beqList : List Expr → List Expr → Bool
  | [], [] => true
  | a :: as, b :: bs => Expr.beq a b && Expr.beqList as bs
  | _, _ => false
termination_by structural x => x
/-- Entry comparison of `PartialEq for VecMap<ObjectKey, Expression>` (external). -/
def Expr.beqObj : List (ObjKey × Expr) → List (ObjKey × Expr) → Bool
  | [], _ => true
  | (k, v) :: rest, other =>
    (other.find? (fun p => ObjKey.beq k p.1)).any (fun p => Expr.beq v p.2) && Expr.beqObj rest other
termination_by structural x => x
/-- Derived `PartialEq for ObjectKey`, `crates/hcl-rs/src/expr/mod.rs:290`. -/
def ObjKey.beq : ObjKey → ObjKey → Bool
  | .ident a, .ident b => decide (a = b)
  | .expr a, .expr b => Expr.beq a b
  | _, _ => false
termination_by structural x => x
/-- Derived `PartialEq for TraversalOperator`, `crates/hcl-rs/src/expr/traversal.rs:108`. -/
def TravOp.beq : TravOp → TravOp → Bool
  | .attrSplat, .attrSplat => true
  | .fullSplat, .fullSplat => true
  | .getAttr a, .getAttr b => decide (a = b)
  | .index a, .index b => Expr.beq a b
  | .legacyIndex a, .legacyIndex b => a == b
  | _, _ => false
termination_by structural x => x
/-- `PartialEq for Vec<TraversalOperator>`. -/
def TravOp.beqList : List TravOp → List TravOp → Bool
  | [], [] => true
  | a :: as, b :: bs => TravOp.beq a b && TravOp.beqList as bs
  | _, _ => false
termination_by structural x => x
end

/-- `VecMap::insert` for `Object<ObjectKey, Expression>` (vecmap-rs, external): the value of an
existing (equal) key is replaced at its position, the stored key stays; a new key is appended. -/
def objInsert (k : ObjKey) (v : Expr) : List (ObjKey × Expr) → List (ObjKey × Expr)
  | [] => [(k, v)]
  | (k', v') :: rest =>
    if ObjKey.beq k' k then (k', v) :: rest else (k', v') :: objInsert k v rest

/-- `FromIterator for VecMap` (external). -/
def objCollect (es : List (ObjKey × Expr)) : List (ObjKey × Expr) :=
  es.foldl (fun m e => objInsert e.1 e.2 m) []

end Verif
