import Verif.Model.EditParse
import Verif.Model.EditEq
import Verif.Model.InPlace
/-!
Conversions between the trees of `hcl-rs` and `hcl-edit`,
`crates/hcl-rs/src/{expr,template,structure}/edit.rs`, and from expressions to values,
`crates/hcl-rs/src/expr/mod.rs:94-108`.

Every node made by a conversion to `hcl-edit` has empty decor and no span.
-/

namespace Verif
open Gram

/-- `Decorated::new` for an identifier, `crates/hcl-rs/src/expr/edit.rs:294-298`. -/
def toDIdent (x : Str) : DIdent := { name := x }

/-- `template_or_default`, `crates/hcl-rs/src/expr/edit.rs:300-302`. A panic of the parser (see `C16`)
is not modelled here: it counts as an error, for which the empty template is taken. -/
def templateOrDefault (P : PEnv) (s : Str) : List EElem :=
  match parseTemplate P s with
  | .ok t => t
  | _ => []

/-- `FromIterator for Object`, `crates/hcl-edit/src/expr/object.rs:200-237`: the entries are inserted
one after the other. -/
def itemCollect (is : List EItem) : List EItem :=
  is.foldl (fun m i => itemInsert i.key i.value i.assign i.term m) []

mutual

/-- `From<Expression> for expr::Expression`, `crates/hcl-rs/src/expr/edit.rs:29-58`, with the
conversions of `Conditional` (96-100), `ForExpr` (117-128), `FuncName` (139-146), `FuncCall`
(159-165), `UnaryOp` (185-189), `BinaryOp` (197-201), `Heredoc` (223-227) and `Traversal`
(235-242). -/
def toEdit (P : PEnv) : Expr → EExpr
  | .null => .null {}
  | .bool b => .bool {} b
  | .number n => .number {} n none
  | .string s => .string {} s
  | .array xs => .array {} (toEditList P xs) false .empty
  | .object es => .object {} (itemCollect (toEditEntries P es)) .empty
  | .template (.quoted s) => .strTmpl {} (templateOrDefault P s)
  | .template (.heredoc d t _) => .heredoc {} d none (templateOrDefault P t) none .empty
  | .var x => .var {} x
  | .traversal e ops => .trav {} (toEdit P e) (toEditOps P ops)
  | .call n args x =>
    .call {} (n.namespaces.map toDIdent) (toDIdent n.name) {} (toEditList P args) false x .empty
  | .paren e => .paren {} (toEdit P e)
  | .cond c t f => .cond {} (toEdit P c) (toEdit P t) (toEdit P f)
  | .unary op e => .unary {} none op (toEdit P e)
  | .binary l op r => .binary {} (toEdit P l) {} op (toEdit P r)
  | .forE k v c ke ve g ce =>
    .forE {} {} (k.map toDIdent) (toDIdent v) (toEdit P c) (toEditOpt P ke) (toEdit P ve) g {}
      (toEditOpt P ce)
termination_by structural x => x

/-- `Option::map(Into::into)`. -/
def toEditOpt (P : PEnv) : Option Expr → Option EExpr
  | none => none
  | some e => some (toEdit P e)
termination_by structural x => x

/-- `FromIterator for Array` and `FuncArgs`, `crates/hcl-edit/src/expr/{array.rs:198-227,
func_call.rs:275-304}`: the converted expressions in order. -/
def toEditList (P : PEnv) : List Expr → List EExpr
  | [] => []
  | e :: es => toEdit P e :: toEditList P es
termination_by structural x => x

/-- The entries before they are collected: `From<ObjectKey> for expr::ObjectKey` and
`From<Expression> for expr::ObjectValue`, `crates/hcl-rs/src/expr/edit.rs:69-88`; `ObjectValue::new`
takes the default assignment and terminator, `crates/hcl-edit/src/expr/object.rs:372-409`. -/
def toEditEntries (P : PEnv) : List (ObjKey × Expr) → List EItem
  | [] => []
  | (k, v) :: es => .mk (toEditKey P k) (toEdit P v) .equals .comma :: toEditEntries P es
termination_by structural x => x

/-- `From<ObjectKey> for expr::ObjectKey`, `crates/hcl-rs/src/expr/edit.rs:69-76`. -/
def toEditKey (P : PEnv) : ObjKey → EKey
  | .ident x => .ident (toDIdent x)
  | .expr e => .expr (toEdit P e)
termination_by structural x => x

/-- The operators of a traversal. -/
def toEditOps (P : PEnv) : List TravOp → List ETrav
  | [] => []
  | o :: os => .mk {} (toEditOp P o) :: toEditOps P os
termination_by structural x => x

/-- `From<TraversalOperator> for expr::TraversalOperator`,
`crates/hcl-rs/src/expr/edit.rs:268-280`. -/
def toEditOp (P : PEnv) : TravOp → ETravOp
  | .index e => .index (toEdit P e)
  | .getAttr x => .getAttr (toDIdent x)
  | .attrSplat => .attrSplat {}
  | .fullSplat => .fullSplat {}
  | .legacyIndex i => .legacyIndex {} i
termination_by structural x => x

end

/-- The strip mode of a heredoc, `crates/hcl-rs/src/expr/edit.rs:211-213`. -/
def stripOfIndent : Option Nat → HeredocStrip
  | none => .none
  | some _ => .indent

mutual

/-- `From<expr::Expression> for Expression`, `crates/hcl-rs/src/expr/edit.rs:4-27`, with the
conversions of `Conditional` (90-94), `ForExpr` (102-115), `FuncName` (130-137), `FuncCall`
(148-157), `UnaryOp` (179-183), `BinaryOp` (191-195), `StringTemplate` (203-207), `HeredocTemplate`
(209-221) and `Traversal` (229-233). -/
def toHcl (E : FmtEnv) : EExpr → Expr
  | .null _ => .null
  | .bool _ b => .bool b
  | .number _ n _ => .number n
  | .string _ s => .string s
  | .array _ xs _ _ => .array (toHclList E xs)
  | .object _ is _ => .object (objCollect (toHclItems E is))
  | .strTmpl _ es => .template (.quoted (showTemplate E es))
  | .heredoc _ d _ es i _ => .template (.heredoc d (showTemplate E es) (stripOfIndent i))
  | .paren _ e => .paren (toHcl E e)
  | .var _ x => .var x
  | .cond _ c t f => .cond (toHcl E c) (toHcl E t) (toHcl E f)
  | .call _ ns n _ args _ x _ => .call ⟨ns.map DIdent.name, n.name⟩ (toHclList E args) x
  | .trav _ e ops => .traversal (toHcl E e) (toHclOps E ops)
  | .unary _ _ op e => .unary op (toHcl E e)
  | .binary _ l _ op r => .binary (toHcl E l) op (toHcl E r)
  | .forE _ _ k v c ke ve g _ ce =>
    .forE (k.map DIdent.name) v.name (toHcl E c) (toHclOpt E ke) (toHcl E ve) g (toHclOpt E ce)
termination_by structural x => x

/-- `Option::map(Into::into)`. -/
def toHclOpt (E : FmtEnv) : Option EExpr → Option Expr
  | none => none
  | some e => some (toHcl E e)
termination_by structural x => x

/-- The converted expressions in order. -/
def toHclList (E : FmtEnv) : List EExpr → List Expr
  | [] => []
  | e :: es => toHcl E e :: toHclList E es
termination_by structural x => x

/-- The entries before they are collected, `crates/hcl-rs/src/expr/edit.rs:60-67,78-82`. -/
def toHclItems (E : FmtEnv) : List EItem → List (ObjKey × Expr)
  | [] => []
  | .mk k v _ _ :: is => (toHclKey E k, toHcl E v) :: toHclItems E is
termination_by structural x => x

/-- `From<expr::ObjectKey> for ObjectKey`, `crates/hcl-rs/src/expr/edit.rs:60-67`. -/
def toHclKey (E : FmtEnv) : EKey → ObjKey
  | .ident d => .ident d.name
  | .expr e => .expr (toHcl E e)
termination_by structural x => x

/-- The operators of a traversal. -/
def toHclOps (E : FmtEnv) : List ETrav → List TravOp
  | [] => []
  | .mk _ o :: os => toHclOp E o :: toHclOps E os
termination_by structural x => x

/-- `From<expr::TraversalOperator> for TraversalOperator`,
`crates/hcl-rs/src/expr/edit.rs:256-266`. -/
def toHclOp (E : FmtEnv) : ETravOp → TravOp
  | .index e => .index (toHcl E e)
  | .getAttr d => .getAttr d.name
  | .attrSplat _ => .attrSplat
  | .fullSplat _ => .fullSplat
  | .legacyIndex _ i => .legacyIndex i
termination_by structural x => x

end

mutual

/-- `From<Template> for template::Template`, `crates/hcl-rs/src/template/edit.rs:10-14`. -/
def toEditElems (P : PEnv) : List Elem → List EElem
  | [] => []
  | e :: es => toEditElem P e :: toEditElems P es
termination_by structural x => x

/-- `From<Element> for template::Element`, `crates/hcl-rs/src/template/edit.rs:28-38`, with
`Interpolation` (49-55), `IfDirective` (94-111) and `ForDirective` (129-144). -/
def toEditElem (P : PEnv) : Elem → EElem
  | .lit s => .lit none s
  | .interp e st => .interp none (toEdit P e) st
  | .ifDir c t f a b z =>
    .ifDir none .empty (toEdit P c) a none (toEditElems P t) (toEditElse P b f) .empty .empty z
  | .forDir k v c t a z =>
    .forDir none .empty (k.map toDIdent) (toDIdent v) (toEdit P c) a none (toEditElems P t)
      .empty .empty z
termination_by structural x => x

/-- The `else` of an `if` directive, `crates/hcl-rs/src/template/edit.rs:100-104`. -/
def toEditElse (P : PEnv) (st : Strip) : Option (List Elem) → Option EElse
  | none => none
  | some t => some (.mk .empty .empty st none (toEditElems P t))
termination_by structural x => x

end

/-- The strip mode of the `else`, `crates/hcl-rs/src/template/edit.rs:77-81`. -/
def elseStrip : Option EElse → Strip
  | some (.mk _ _ s _ _) => s
  | none => .none

mutual

/-- `From<template::Template> for Template`, `crates/hcl-rs/src/template/edit.rs:4-8`. -/
def toHclElems (E : FmtEnv) : List EElem → List Elem
  | [] => []
  | e :: es => toHclElem E e :: toHclElems E es
termination_by structural x => x

/-- `From<template::Element> for Element`, `crates/hcl-rs/src/template/edit.rs:16-26`, with
`Interpolation` (40-47), `IfDirective` (75-92) and `ForDirective` (113-127). -/
def toHclElem (E : FmtEnv) : EElem → Elem
  | .lit _ s => .lit s
  | .interp _ e st => .interp (toHcl E e) st
  | .ifDir _ _ c a _ t els _ _ z =>
    .ifDir (toHcl E c) (toHclElems E t) (toHclElseOpt E els) a (elseStrip els) z
  | .forDir _ _ k v c a _ t _ _ z =>
    .forDir (k.map DIdent.name) v.name (toHcl E c) (toHclElems E t) a z
termination_by structural x => x

/-- The template of the `else`, `crates/hcl-rs/src/template/edit.rs:86`. -/
def toHclElseOpt (E : FmtEnv) : Option EElse → Option (List Elem)
  | none => none
  | some e => some (toHclElse E e)
termination_by structural x => x

/-- The template of the `else`, `crates/hcl-rs/src/template/edit.rs:86`. -/
def toHclElse (E : FmtEnv) : EElse → List Elem
  | .mk _ _ _ _ t => toHclElems E t
termination_by structural x => x

end

/-- `From<BlockLabel> for structure::BlockLabel`, `crates/hcl-rs/src/structure/edit.rs:76-83`. -/
def toEditLabel : Label → ELabel
  | .ident x => .ident (toDIdent x)
  | .string s => .string {} s

/-- `From<structure::BlockLabel> for BlockLabel`, `crates/hcl-rs/src/structure/edit.rs:67-74`. -/
def toHclLabel : ELabel → Label
  | .ident d => .ident d.name
  | .string _ s => .string s

mutual

/-- `From<Structure> for structure::Structure`, `crates/hcl-rs/src/structure/edit.rs:25-32`, with
`Attribute` (43-47) and `Block` (58-65). -/
def toEditStruct (P : PEnv) : Struct → EStruct
  | .attr k e => .attr {} (toDIdent k) (toEdit P e)
  | .block i ls b => .block {} (toDIdent i) (ls.map toEditLabel) (.mk {} (toEditStructs P b) false false)
termination_by structural x => x

/-- The structures of a body, `crates/hcl-rs/src/structure/edit.rs:10-14`. -/
def toEditStructs (P : PEnv) : List Struct → List EStruct
  | [] => []
  | s :: ss => toEditStruct P s :: toEditStructs P ss
termination_by structural x => x

end

/-- `From<Body> for structure::Body`, `crates/hcl-rs/src/structure/edit.rs:10-14`. -/
def toEditBody (P : PEnv) (b : List Struct) : EBody := .mk {} (toEditStructs P b) false false

mutual

/-- `From<structure::Structure> for Structure`, `crates/hcl-rs/src/structure/edit.rs:16-23`, with
`Attribute` (34-41) and `Block` (49-56). -/
def toHclStruct (E : FmtEnv) : EStruct → Struct
  | .attr _ k e => .attr k.name (toHcl E e)
  | .block _ i ls b => .block i.name (ls.map toHclLabel) (toHclBody E b)
termination_by structural x => x

/-- `From<structure::Body> for Body`, `crates/hcl-rs/src/structure/edit.rs:4-8`. -/
def toHclBody (E : FmtEnv) : EBody → List Struct
  | .mk _ ss _ _ => toHclStructs E ss
termination_by structural x => x

/-- The structures of a body. -/
def toHclStructs (E : FmtEnv) : List EStruct → List Struct
  | [] => []
  | s :: ss => toHclStruct E s :: toHclStructs E ss
termination_by structural x => x

end

/-- `format::to_string` of an expression, `crates/hcl-rs/src/format/mod.rs:744-750`. -/
def showExpr (E : FmtEnv) (e : Expr) : Str := (Fmt.formatString (Fmt.expr E e) (Fmt.new .default)).1

/-- `Display for ObjectKey`, `crates/hcl-rs/src/expr/mod.rs:329-339`, used by
`From<ObjectKey> for String`, lines 314-318. -/
def keyString (E : FmtEnv) : ObjKey → Str
  | .ident x => x
  | .expr (.string s) => s
  | .expr e => showExpr E e

mutual

/-- `From<Expression> for Value`, `crates/hcl-rs/src/expr/mod.rs:94-108`. -/
def toValue (E : FmtEnv) : Expr → Value
  | .null => .null
  | .bool b => .bool b
  | .number n => .number n
  | .string s => .string s
  | .array xs => .array (toValues E xs)
  | .object es => .object (Map.collect (toValueEntries E es))
  | .template t => .string t.asStr
  | .paren e => toValue E e
  | .var x => .string (Fmt.toInterpolatedString (Fmt.expr E (.var x)))
  | .traversal e os => .string (Fmt.toInterpolatedString (Fmt.expr E (.traversal e os)))
  | .call n as x => .string (Fmt.toInterpolatedString (Fmt.expr E (.call n as x)))
  | .cond c t f => .string (Fmt.toInterpolatedString (Fmt.expr E (.cond c t f)))
  | .unary o e => .string (Fmt.toInterpolatedString (Fmt.expr E (.unary o e)))
  | .binary l o r => .string (Fmt.toInterpolatedString (Fmt.expr E (.binary l o r)))
  | .forE k v c ke ve g ce =>
    .string (Fmt.toInterpolatedString (Fmt.expr E (.forE k v c ke ve g ce)))
termination_by structural x => x

/-- `array.into_iter().collect()`, `crates/hcl-rs/src/value/from.rs:82-86`. -/
def toValues (E : FmtEnv) : List Expr → List Value
  | [] => []
  | e :: es => toValue E e :: toValues E es
termination_by structural x => x

/-- The entries before they are collected, `crates/hcl-rs/src/value/from.rs:88-96`. -/
def toValueEntries (E : FmtEnv) : List (ObjKey × Expr) → List (Str × Value)
  | [] => []
  | (k, v) :: es => (keyString E k, toValue E v) :: toValueEntries E es
termination_by structural x => x

end

end Verif
