import Verif.Model.Winnow
import Verif.Model.Ops
import Verif.Model.Number
/-!
The syntax tree of `hcl-edit`: expressions, templates and structures with their decor (whitespace
and comments) and source spans.
-/

namespace Verif

/-- `RawString`, `crates/hcl-edit/src/raw_string.rs:8-16`. -/
inductive Raw
  | empty
  | spanned (s : Span)
  | explicit (s : Str)
deriving DecidableEq, Repr

/-- `RawString::from_span`, `crates/hcl-edit/src/raw_string.rs:19-25`. -/
def Raw.fromSpan (s : Span) : Raw := if s.start < s.stop then .spanned s else .empty

/-- `RawString::span`, `crates/hcl-edit/src/raw_string.rs:27-32`. -/
def Raw.span? : Raw → Option Span
  | .spanned s => some s
  | _ => none

/-- `Decor`, `crates/hcl-edit/src/repr.rs:10-13`. -/
structure Decor where
  pre : Option Raw := none
  suf : Option Raw := none
deriving DecidableEq, Repr

/-- The decor and the span that every decorated node carries: the fields `decor` and `span` of
`Decorated`, `Formatted` (`crates/hcl-edit/src/repr.rs`) and of the node types themselves. -/
structure Meta where
  decor : Decor := {}
  span : Option Span := none
deriving DecidableEq, Repr

namespace Meta

/-- `Decor::set_prefix`, `crates/hcl-edit/src/repr.rs:25-27`. -/
def setPre (r : Raw) (m : Meta) : Meta := { m with decor := { m.decor with pre := some r } }

/-- `Decor::set_suffix`, `crates/hcl-edit/src/repr.rs:30-32`. -/
def setSuf (r : Raw) (m : Meta) : Meta := { m with decor := { m.decor with suf := some r } }

/-- `SetSpan::set_span`, `crates/hcl-edit/src/repr.rs`. -/
def setSpan (s : Span) (m : Meta) : Meta := { m with span := some s }

end Meta

/-- `Decorated<Ident>`, `crates/hcl-edit/src/repr.rs`. -/
structure DIdent where
  m : Meta := {}
  name : Str
deriving DecidableEq, Repr

/-- `ObjectValueAssignment`, `crates/hcl-edit/src/expr/object.rs`. -/
inductive Assign | colon | equals
deriving DecidableEq, Repr

/-- `ObjectValueTerminator`, `crates/hcl-edit/src/expr/object.rs`. -/
inductive ItemEnd | none | newline | comma
deriving DecidableEq, Repr

mutual

/-- `Expression`, `crates/hcl-edit/src/expr/mod.rs`. Each variant carries the fields of the struct it
wraps. `Decorated<Null>`, `Decorated<bool>`, `Formatted<Number>`, `Decorated<String>` and
`Decorated<Ident>` contribute their `Meta`. `strTmpl` is `StringTemplate`, whose span is its own.
`heredoc` is `HeredocTemplate` with the span and elements of its `Template`. `call` is `FuncCall`
with the fields of `FuncName` and `FuncArgs`. `forE` is `ForExpr` with the fields of `ForIntro`
(`im` and the four after it) and `ForCond` (`cm`, `cond`). -/
inductive EExpr
  | null (m : Meta)
  | bool (m : Meta) (b : Bool)
  | number (m : Meta) (n : N) (repr : Option Raw)
  | string (m : Meta) (s : Str)
  | array (m : Meta) (values : List EExpr) (comma : Bool) (trailing : Raw)
  | object (m : Meta) (items : List EItem) (trailing : Raw)
  | strTmpl (m : Meta) (elems : List EElem)
  | heredoc (m : Meta) (delim : Str) (tspan : Option Span) (elems : List EElem)
      (indent : Option Nat) (trailing : Raw)
  | paren (m : Meta) (inner : EExpr)
  | var (m : Meta) (x : Str)
  | cond (m : Meta) (c t f : EExpr)
  | call (m : Meta) (ns : List DIdent) (name : DIdent) (am : Meta) (args : List EExpr)
      (comma expand : Bool) (trailing : Raw)
  | trav (m : Meta) (e : EExpr) (ops : List ETrav)
  | unary (m : Meta) (opSpan : Option Span) (op : UnOp) (e : EExpr)
  | binary (m : Meta) (l : EExpr) (om : Meta) (op : BinOp) (r : EExpr)
  | forE (m : Meta) (im : Meta) (key : Option DIdent) (val : DIdent) (coll : EExpr)
      (ke : Option EExpr) (ve : EExpr) (grouping : Bool) (cm : Meta) (cond : Option EExpr)

/-- An entry of `Object`: `ObjectKey` and `ObjectValue`, `crates/hcl-edit/src/expr/object.rs`. -/
inductive EItem
  | mk (key : EKey) (value : EExpr) (assign : Assign) (term : ItemEnd)

/-- `ObjectKey`, `crates/hcl-edit/src/expr/object.rs`. -/
inductive EKey
  | ident (d : DIdent)
  | expr (e : EExpr)

/-- `Decorated<TraversalOperator>`, `crates/hcl-edit/src/expr/traversal.rs`. -/
inductive ETrav
  | mk (m : Meta) (op : ETravOp)

/-- `TraversalOperator`, `crates/hcl-edit/src/expr/traversal.rs`. -/
inductive ETravOp
  | attrSplat (m : Meta)
  | fullSplat (m : Meta)
  | getAttr (d : DIdent)
  | index (e : EExpr)
  | legacyIndex (m : Meta) (n : Nat)

/-- `Element`, `crates/hcl-edit/src/template/mod.rs`: a `Spanned<String>`, an `Interpolation`, an
`IfDirective` (fields of `IfTemplateExpr`, the optional `ElseTemplateExpr`, and of
`EndifTemplateExpr`) or a `ForDirective` (fields of `ForTemplateExpr` and `EndforTemplateExpr`). -/
inductive EElem
  | lit (span : Option Span) (s : Str)
  | interp (span : Option Span) (e : EExpr) (strip : Strip)
  | ifDir (span : Option Span) (pre : Raw) (c : EExpr) (strip : Strip) (tspan : Option Span)
      (t : List EElem) (els : Option EElse) (endPre endTrail : Raw) (endStrip : Strip)
  | forDir (span : Option Span) (pre : Raw) (key : Option DIdent) (val : DIdent) (coll : EExpr)
      (strip : Strip) (tspan : Option Span) (t : List EElem) (endPre endTrail : Raw)
      (endStrip : Strip)

/-- `ElseTemplateExpr`, `crates/hcl-edit/src/template/mod.rs`. -/
inductive EElse
  | mk (pre trail : Raw) (strip : Strip) (tspan : Option Span) (t : List EElem)

end

/-- The key of an object entry. -/
def EItem.key : EItem → EKey
  | .mk k _ _ _ => k

/-- The field `expr` of `ObjectValue`, `crates/hcl-edit/src/expr/object.rs:395-399`. -/
def EItem.value : EItem → EExpr
  | .mk _ v _ _ => v

/-- The field `assignment` of `ObjectValue`, `crates/hcl-edit/src/expr/object.rs:395-399`. -/
def EItem.assign : EItem → Assign
  | .mk _ _ a _ => a

/-- The field `terminator` of `ObjectValue`, `crates/hcl-edit/src/expr/object.rs:395-399`. -/
def EItem.term : EItem → ItemEnd
  | .mk _ _ _ t => t

/-- `BlockLabel`, `crates/hcl-edit/src/structure/block.rs`. -/
inductive ELabel
  | ident (d : DIdent)
  | string (m : Meta) (s : Str)

mutual

/-- `Structure`, `crates/hcl-edit/src/structure/mod.rs`: `Attribute` or `Block`. -/
inductive EStruct
  | attr (m : Meta) (key : DIdent) (value : EExpr)
  | block (m : Meta) (ident : DIdent) (labels : List ELabel) (body : EBody)

/-- `Body`, `crates/hcl-edit/src/structure/body.rs:85-91`. -/
inductive EBody
  | mk (m : Meta) (structs : List EStruct) (oneline : Bool) (omitNl : Bool)

end

namespace EExpr

/-- The decor and span of an expression (`Decorate::decor`, `Span::span` for `Expression`). -/
def getMeta : EExpr → Meta
  | null m | bool m _ | number m _ _ | string m _ | array m _ _ _ | object m _ _ | strTmpl m _
  | heredoc m _ _ _ _ _ | paren m _ | var m _ | cond m _ _ _ | call m _ _ _ _ _ _ _ | trav m _ _
  | unary m _ _ _ | binary m _ _ _ _ | forE m _ _ _ _ _ _ _ _ _ => m

/-- `Decorate::decor_mut` / `SetSpan::set_span` for `Expression`. -/
def mapMeta (g : Meta → Meta) : EExpr → EExpr
  | null m => null (g m)
  | bool m b => bool (g m) b
  | number m n r => number (g m) n r
  | string m s => string (g m) s
  | array m v c t => array (g m) v c t
  | object m i t => object (g m) i t
  | strTmpl m e => strTmpl (g m) e
  | heredoc m d ts e i t => heredoc (g m) d ts e i t
  | paren m e => paren (g m) e
  | var m x => var (g m) x
  | cond m c t f => cond (g m) c t f
  | call m ns n am a c e t => call (g m) ns n am a c e t
  | trav m e ops => trav (g m) e ops
  | unary m os o e => unary (g m) os o e
  | binary m l om o r => binary (g m) l om o r
  | forE m im k v c ke ve gr cm co => forE (g m) im k v c ke ve gr cm co

/-- `Span::span` for `Expression`. -/
def span? (e : EExpr) : Option Span := e.getMeta.span

/-- `SetSpan::set_span` for `Expression`. -/
def setSpan (s : Span) (e : EExpr) : EExpr := e.mapMeta (Meta.setSpan s)

/-- `decor_mut().set_prefix`. -/
def setPre (r : Raw) (e : EExpr) : EExpr := e.mapMeta (Meta.setPre r)

/-- `decor_mut().set_suffix`. -/
def setSuf (r : Raw) (e : EExpr) : EExpr := e.mapMeta (Meta.setSuf r)

end EExpr

/-- `decor_mut` / `set_span` for `ObjectKey` (forwarded to the variant,
`crates/hcl-edit/src/expr/object.rs`). -/
def EKey.mapMeta (g : Meta → Meta) : EKey → EKey
  | .ident d => .ident { d with m := g d.m }
  | .expr e => .expr (e.mapMeta g)

/-- `decor_mut` / `set_span` for `TraversalOperator` (forwarded to the variant,
`crates/hcl-edit/src/expr/traversal.rs`). -/
def ETravOp.mapMeta (g : Meta → Meta) : ETravOp → ETravOp
  | .attrSplat m => .attrSplat (g m)
  | .fullSplat m => .fullSplat (g m)
  | .getAttr d => .getAttr { d with m := g d.m }
  | .index e => .index (e.mapMeta g)
  | .legacyIndex m n => .legacyIndex (g m) n

/-- `set_span` for `Element` (forwarded to the variant, `crates/hcl-edit/src/template/mod.rs`). -/
def EElem.setSpan (s : Span) : EElem → EElem
  | .lit _ t => .lit (some s) t
  | .interp _ e st => .interp (some s) e st
  | .ifDir _ a b c d e f g h i => .ifDir (some s) a b c d e f g h i
  | .forDir _ a b c d e f g h i j => .forDir (some s) a b c d e f g h i j

/-- `decor_mut` / `set_span` for `BlockLabel`, `crates/hcl-edit/src/structure/block.rs`. -/
def ELabel.mapMeta (g : Meta → Meta) : ELabel → ELabel
  | .ident d => .ident { d with m := g d.m }
  | .string m s => .string (g m) s

/-- `decor_mut` / `set_span` for `Structure`, `crates/hcl-edit/src/structure/mod.rs`. -/
def EStruct.mapMeta (g : Meta → Meta) : EStruct → EStruct
  | .attr m k v => .attr (g m) k v
  | .block m i l b => .block (g m) i l b

/-- `decor_mut` / `set_span` for `Body`, `crates/hcl-edit/src/structure/body.rs`. -/
def EBody.mapMeta (g : Meta → Meta) : EBody → EBody
  | .mk m s o n => .mk (g m) s o n

/-- The structures of a body. -/
def EBody.structs : EBody → List EStruct
  | .mk _ s _ _ => s

end Verif
