import Verif.Model.EditAst
/-!
Equality of the `hcl-edit` syntax tree: the `PartialEq` implementations of `crates/hcl-edit/src`.
-/

namespace Verif

/-- `Decorated<Ident>` compares its value only, `crates/hcl-edit/src/repr.rs:303-310`. -/
def DIdent.beq (a b : DIdent) : Bool := decide (a.name = b.name)

/-- `Vec<Decorated<Ident>>`: elementwise. -/
def DIdent.beqList : List DIdent → List DIdent → Bool
  | [], [] => true
  | a :: as, b :: bs => DIdent.beq a b && DIdent.beqList as bs
  | _, _ => false

/-- `Option<Decorated<Ident>>`. -/
def DIdent.beqOpt : Option DIdent → Option DIdent → Bool
  | none, none => true
  | some a, some b => DIdent.beq a b
  | _, _ => false

mutual

/-- `PartialEq for Expression` (derived, `crates/hcl-edit/src/expr/mod.rs:30`) with the
implementations for the variants: `Decorated` and `Formatted` (`repr.rs:303-310,445-452`), `Array`
(`expr/array.rs:177-183`), `Object` (`expr/object.rs:185-189`; the entries are compared as `VecMap`
does: same length, and every entry of the left one is found on the right), `StringTemplate` and
`HeredocTemplate` (`template/mod.rs:84-88,221-228`), `Parenthesis` (`expr/mod.rs:567-571`),
`Conditional` (`expr/conditional.rs:45-51`), `FuncCall`, `FuncName`, `FuncArgs`
(`expr/func_call.rs:6,87-91,254-260`; `expand_final` is not compared), `Traversal`
(`expr/traversal.rs:43-47`), `UnaryOp` and `BinaryOp` (`expr/operation.rs:41-45,84-90`), `ForExpr`,
`ForIntro` and `ForCond` (`expr/for_expr.rs:60-68,114-120,149-153`). -/
def EExpr.beq : EExpr → EExpr → Bool
  | .null _, .null _ => true
  | .bool _ a, .bool _ b => a == b
  | .number _ a _, .number _ b _ => N.eq a b
  | .string _ a, .string _ b => decide (a = b)
  | .array _ a c t, .array _ b d u => EExpr.beqList a b && c == d && decide (t = u)
  | .object _ a t, .object _ b u =>
    a.length == b.length && EExpr.beqItems a b && decide (t = u)
  | .strTmpl _ a, .strTmpl _ b => EExpr.beqElems a b
  | .heredoc _ d _ a i t, .heredoc _ e _ b j u =>
    decide (d = e) && EExpr.beqElems a b && decide (i = j) && decide (t = u)
  | .paren _ a, .paren _ b => EExpr.beq a b
  | .var _ a, .var _ b => decide (a = b)
  | .cond _ a b c, .cond _ a' b' c' => EExpr.beq a a' && EExpr.beq b b' && EExpr.beq c c'
  | .call _ ns n _ a c _ t, .call _ ms m _ b d _ u =>
    DIdent.beqList ns ms && DIdent.beq n m && EExpr.beqList a b && c == d && decide (t = u)
  | .trav _ a os, .trav _ b ps => EExpr.beq a b && EExpr.beqTravs os ps
  | .unary _ _ o a, .unary _ _ p b => decide (o = p) && EExpr.beq a b
  | .binary _ a _ o b, .binary _ a' _ p b' => EExpr.beq a a' && decide (o = p) && EExpr.beq b b'
  | .forE _ _ k v c ke ve g _ co, .forE _ _ k' v' c' ke' ve' g' _ co' =>
    DIdent.beqOpt k k' && DIdent.beq v v' && EExpr.beq c c' &&
      EExpr.beqOpt ke ke' && EExpr.beq ve ve' && g == g' && EExpr.beqOpt co co'
  | _, _ => false
termination_by structural x => x

/-- `Option<Expression>`, `Option<ForCond>`. -/
def EExpr.beqOpt : Option EExpr → Option EExpr → Bool
  | .none, .none => true
  | .some a, .some b => EExpr.beq a b
  | _, _ => false
termination_by structural x => x

/-- `Vec<Expression>`: elementwise. -/
def EExpr.beqList : List EExpr → List EExpr → Bool
  | [], [] => true
  | a :: as, b :: bs => EExpr.beq a b && EExpr.beqList as bs
  | _, _ => false
termination_by structural x => x

/-- `PartialEq for VecMap` (external, vecmap-rs): every entry is found in the other map with an
equal value. `ObjectValue` compares expression, assignment and terminator
(`crates/hcl-edit/src/expr/object.rs:394`, derived). -/
def EExpr.beqItems : List EItem → List EItem → Bool
  | [], _ => true
  | .mk k v a t :: rest, other =>
    (other.find? (fun p => EExpr.beqKey k p.key)).any
      (fun p => EExpr.beq v p.value && decide (a = p.assign) && decide (t = p.term)) &&
      EExpr.beqItems rest other
termination_by structural x => x

/-- `PartialEq for ObjectKey` (derived), `crates/hcl-edit/src/expr/object.rs:267`. -/
def EExpr.beqKey : EKey → EKey → Bool
  | .ident a, .ident b => DIdent.beq a b
  | .expr a, .expr b => EExpr.beq a b
  | _, _ => false
termination_by structural x => x

/-- `PartialEq for TraversalOperator` (derived), `crates/hcl-edit/src/expr/traversal.rs:50`. -/
def EExpr.beqTravOp : ETravOp → ETravOp → Bool
  | .attrSplat _, .attrSplat _ => true
  | .fullSplat _, .fullSplat _ => true
  | .getAttr a, .getAttr b => DIdent.beq a b
  | .index a, .index b => EExpr.beq a b
  | .legacyIndex _ a, .legacyIndex _ b => a == b
  | _, _ => false
termination_by structural x => x

/-- `Vec<Decorated<TraversalOperator>>`: elementwise. -/
def EExpr.beqTravs : List ETrav → List ETrav → Bool
  | [], [] => true
  | .mk _ a :: as, .mk _ b :: bs => EExpr.beqTravOp a b && EExpr.beqTravs as bs
  | _, _ => false
termination_by structural x => x

/-- `PartialEq for Element`, `Interpolation`, `IfDirective`, `IfTemplateExpr`, `EndifTemplateExpr`,
`ForDirective`, `ForTemplateExpr`, `EndforTemplateExpr`,
`crates/hcl-edit/src/template/mod.rs:547,665-669,743-749,753,849,919-923,927,987`: the preamble and
trailing decor of the directives is compared. -/
def EExpr.beqElem : EElem → EElem → Bool
  | .lit _ a, .lit _ b => decide (a = b)
  | .interp _ a s, .interp _ b t => EExpr.beq a b && decide (s = t)
  | .ifDir _ p c s _ t e ep et es, .ifDir _ p' c' s' _ t' e' ep' et' es' =>
    EExpr.beq c c' && EExpr.beqElems t t' && decide (s = s') && decide (p = p') &&
      EExpr.beqElseOpt e e' &&
      decide (es = es') && decide (ep = ep') && decide (et = et')
  | .forDir _ p k v c s _ t ep et es, .forDir _ p' k' v' c' s' _ t' ep' et' es' =>
    DIdent.beqOpt k k' && DIdent.beq v v' && EExpr.beq c c' && EExpr.beqElems t t' &&
      decide (s = s') && decide (p = p') && decide (es = es') && decide (ep = ep') &&
      decide (et = et')
  | _, _ => false
termination_by structural x => x

/-- `PartialEq for ElseTemplateExpr` (derived), `crates/hcl-edit/src/template/mod.rs:797`. -/
def EExpr.beqElse : EElse → EElse → Bool
  | .mk p t s _ e, .mk p' t' s' _ e' =>
    EExpr.beqElems e e' && decide (s = s') && decide (p = p') && decide (t = t')
termination_by structural x => x

/-- `Option<ElseTemplateExpr>`. -/
def EExpr.beqElseOpt : Option EElse → Option EElse → Bool
  | .none, .none => true
  | .some a, .some b => EExpr.beqElse a b
  | _, _ => false
termination_by structural x => x

/-- `PartialEq for Template`, `crates/hcl-edit/src/template/mod.rs:439-443`: elementwise. -/
def EExpr.beqElems : List EElem → List EElem → Bool
  | [], [] => true
  | a :: as, b :: bs => EExpr.beqElem a b && EExpr.beqElems as bs
  | _, _ => false
termination_by structural x => x

end

/-- `VecMap::insert` (external, vecmap-rs 0.2.5), called by `Object::insert`,
`crates/hcl-edit/src/expr/object.rs:118-124`: the value of an equal key is replaced in place and
the old key is kept, otherwise the entry is appended. -/
def itemInsert (k : EKey) (v : EExpr) (a : Assign) (t : ItemEnd) : List EItem → List EItem
  | [] => [.mk k v a t]
  | .mk k' v' a' t' :: rest =>
    if EExpr.beqKey k' k then .mk k' v a t :: rest else .mk k' v' a' t' :: itemInsert k v a t rest

/-- `PartialEq for BlockLabel` (derived), `crates/hcl-edit/src/structure/block.rs`. -/
def ELabel.beq : ELabel → ELabel → Bool
  | .ident a, .ident b => DIdent.beq a b
  | .string _ a, .string _ b => decide (a = b)
  | _, _ => false

/-- `Vec<BlockLabel>`: elementwise. -/
def ELabel.beqList : List ELabel → List ELabel → Bool
  | [], [] => true
  | a :: as, b :: bs => ELabel.beq a b && ELabel.beqList as bs
  | _, _ => false

mutual

/-- `PartialEq for Structure`, `Attribute`, `Block`,
`crates/hcl-edit/src/structure/{mod.rs:15,attribute.rs:60-64,block.rs:224-228}`. -/
def EStruct.beq : EStruct → EStruct → Bool
  | .attr _ k v, .attr _ k' v' => DIdent.beq k k' && EExpr.beq v v'
  | .block _ i l b, .block _ i' l' b' =>
    DIdent.beq i i' && ELabel.beqList l l' && EBody.beq b b'
  | _, _ => false

/-- `PartialEq for Body`, `crates/hcl-edit/src/structure/body.rs:689-693`. -/
def EBody.beq : EBody → EBody → Bool
  | .mk _ a _ _, .mk _ b _ _ => EStruct.beqList a b

/-- `Vec<Structure>`: elementwise. -/
def EStruct.beqList : List EStruct → List EStruct → Bool
  | [], [] => true
  | a :: as, b :: bs => EStruct.beq a b && EStruct.beqList as bs
  | _, _ => false

end

end Verif
