import Verif.Model.EditAst
/-!
Model of the `despan` functions of `crates/hcl-edit/src`: after parsing, every raw string that only
records a span of the source is replaced by the text of that span.

`RawString::despan` panics when the span is not in the input. Here `despan` is total, and `raws`
lists the raw strings it visits, so that `parse` (in `EditParse.lean`) can panic when one of their
spans is outside the input.
-/

namespace Verif

/-- The text of a span. -/
def Span.slice (s : Span) (full : Str) : Str := (full.drop s.start).take (s.stop - s.start)

/-- `From<&str> for RawString`, `crates/hcl-edit/src/raw_string.rs:81-90`. -/
def Raw.ofStr (s : Str) : Raw := if s.isEmpty then .empty else .explicit s

/-- `RawString::despan`, `crates/hcl-edit/src/raw_string.rs:54-63`. -/
def Raw.despan (full : Str) : Raw → Raw
  | .empty => .empty
  | .explicit s => .explicit s
  | .spanned s => Raw.ofStr (s.slice full)

/-- `input.get(span)` is `Some`, `crates/hcl-edit/src/raw_string.rs:58`. -/
def Raw.inInput (full : Str) : Raw → Bool
  | .spanned s => decide (s.start ≤ s.stop ∧ s.stop ≤ full.length)
  | _ => true

/-- `Decor::despan`, `crates/hcl-edit/src/repr.rs:66-74`. -/
def Meta.despan (full : Str) (m : Meta) : Meta :=
  { m with decor := ⟨m.decor.pre.map (Raw.despan full), m.decor.suf.map (Raw.despan full)⟩ }

/-- The raw strings `Decor::despan` visits. -/
def Meta.raws (m : Meta) : List Raw := m.decor.pre.toList ++ m.decor.suf.toList

/-- The raw strings of an optional identifier. -/
def DIdent.rawsOpt : Option DIdent → List Raw
  | some d => d.m.raws
  | none => []

/-- `decor_mut().despan` for `Decorated<Ident>`. -/
def DIdent.despan (full : Str) (d : DIdent) : DIdent := { d with m := d.m.despan full }

mutual

/-- `Expression::despan`, `crates/hcl-edit/src/expr/mod.rs:308-327`, with the functions of the
variants: `Array` (`expr/array.rs:167-174`), `Object` (`expr/object.rs:174-182`), `StringTemplate` and
`HeredocTemplate` (`template/mod.rs:69-72,214-218`), `Parenthesis` (`expr/mod.rs:561-564`), `ForExpr`,
`ForIntro`, `ForCond` (`expr/for_expr.rs:44-57,103-111,143-146`), `Conditional`
(`expr/conditional.rs:37-42`), `FuncCall`, `FuncName`, `FuncArgs`
(`expr/func_call.rs:37-42,80-84,244-251`), `UnaryOp`, `BinaryOp` (`expr/operation.rs:35-38,77-81`),
`Traversal` (`expr/traversal.rs:33-40`). The decor of a binary operator and of a traversal operator
as a whole is not visited, as in the code. -/
def EExpr.despan (full : Str) : EExpr → EExpr
  | .null m => .null (m.despan full)
  | .bool m b => .bool (m.despan full) b
  | .number m n r => .number (m.despan full) n r
  | .string m s => .string (m.despan full) s
  | .array m vs c t => .array (m.despan full) (EExpr.despanList full vs) c (t.despan full)
  | .object m is t => .object (m.despan full) (EExpr.despanItems full is) (t.despan full)
  | .strTmpl m es => .strTmpl (m.despan full) (EExpr.despanElems full es)
  | .heredoc m d ts es i t =>
    .heredoc (m.despan full) d ts (EExpr.despanElems full es) i (t.despan full)
  | .paren m e => .paren (m.despan full) (e.despan full)
  | .var m x => .var (m.despan full) x
  | .cond m c t f => .cond (m.despan full) (c.despan full) (t.despan full) (f.despan full)
  | .call m ns n am as c x t =>
    .call (m.despan full) (ns.map (DIdent.despan full)) (n.despan full) (am.despan full)
      (EExpr.despanList full as) c x (t.despan full)
  | .trav m e os => .trav (m.despan full) (e.despan full) (EExpr.despanTravs full os)
  | .unary m s o e => .unary (m.despan full) s o (e.despan full)
  | .binary m l om o r => .binary (m.despan full) (l.despan full) om o (r.despan full)
  | .forE m im k v c ke ve g cm co =>
    .forE (m.despan full) (im.despan full) (k.map (DIdent.despan full)) (v.despan full)
      (c.despan full) (EExpr.despanOpt full ke) (ve.despan full) g (cm.despan full)
      (EExpr.despanOpt full co)

/-- An optional expression. -/
def EExpr.despanOpt (full : Str) : Option EExpr → Option EExpr
  | some e => some (e.despan full)
  | none => none

/-- The loop over expressions. -/
def EExpr.despanList (full : Str) : List EExpr → List EExpr
  | [] => []
  | e :: es => e.despan full :: EExpr.despanList full es

/-- The loop over object items, `crates/hcl-edit/src/expr/object.rs:178-181,302-307,446-448`. -/
def EExpr.despanItems (full : Str) : List EItem → List EItem
  | [] => []
  | .mk k v a t :: is =>
    .mk (k.despan full) (v.despan full) a t :: EExpr.despanItems full is

/-- `ObjectKey::despan`, `crates/hcl-edit/src/expr/object.rs:302-307`. -/
def EKey.despan (full : Str) : EKey → EKey
  | .ident d => .ident (d.despan full)
  | .expr e => .expr (e.despan full)

/-- The loop over traversal operators, `crates/hcl-edit/src/expr/traversal.rs:37-39,70-79`. -/
def EExpr.despanTravs (full : Str) : List ETrav → List ETrav
  | [] => []
  | .mk m o :: os => .mk m (o.despan full) :: EExpr.despanTravs full os

/-- `TraversalOperator::despan`, `crates/hcl-edit/src/expr/traversal.rs:70-79`. -/
def ETravOp.despan (full : Str) : ETravOp → ETravOp
  | .attrSplat m => .attrSplat (m.despan full)
  | .fullSplat m => .fullSplat (m.despan full)
  | .getAttr d => .getAttr (d.despan full)
  | .index e => .index (e.despan full)
  | .legacyIndex m n => .legacyIndex (m.despan full) n

/-- `Template::despan`, `Element::despan` and the functions of the directives,
`crates/hcl-edit/src/template/mod.rs:396-400,598-604,660-662,681-686,732-740,788-792,885-888,913-916,
973-983,1023-1026`. -/
def EExpr.despanElems (full : Str) : List EElem → List EElem
  | [] => []
  | .lit s t :: es => .lit s t :: EExpr.despanElems full es
  | .interp s e st :: es => .interp s (e.despan full) st :: EExpr.despanElems full es
  | .ifDir s p c st ts t el ep et est :: es =>
    .ifDir s (p.despan full) (c.despan full) st ts (EExpr.despanElems full t)
      (EExpr.despanElse full el) (ep.despan full) (et.despan full) est :: EExpr.despanElems full es
  | .forDir s p k v c st ts t ep et est :: es =>
    .forDir s (p.despan full) (k.map (DIdent.despan full)) (v.despan full) (c.despan full) st ts
      (EExpr.despanElems full t) (ep.despan full) (et.despan full) est :: EExpr.despanElems full es

/-- `ElseTemplateExpr::despan`, `crates/hcl-edit/src/template/mod.rs:841-845`. -/
def EExpr.despanElse (full : Str) : Option EElse → Option EElse
  | some (.mk p t st ts es) =>
    some (.mk (p.despan full) (t.despan full) st ts (EExpr.despanElems full es))
  | none => none

end

mutual

/-- The raw strings that `EExpr.despan` visits. -/
def EExpr.raws : EExpr → List Raw
  | .null m | .bool m _ | .number m _ _ | .string m _ | .var m _ => m.raws
  | .array m vs _ t => m.raws ++ t :: EExpr.rawsList vs
  | .object m is t => m.raws ++ t :: EExpr.rawsItems is
  | .strTmpl m es => m.raws ++ EExpr.rawsElems es
  | .heredoc m _ _ es _ t => m.raws ++ t :: EExpr.rawsElems es
  | .paren m e => m.raws ++ e.raws
  | .cond m c t f => m.raws ++ (c.raws ++ (t.raws ++ f.raws))
  | .call m ns n am as _ _ t =>
    m.raws ++ (ns.flatMap (·.m.raws) ++ (n.m.raws ++ (am.raws ++ (t :: EExpr.rawsList as))))
  | .trav m e os => m.raws ++ (e.raws ++ EExpr.rawsTravs os)
  | .unary m _ _ e => m.raws ++ e.raws
  | .binary m l _ _ r => m.raws ++ (l.raws ++ r.raws)
  | .forE m im k v c ke ve _ cm co =>
    m.raws ++ (im.raws ++ (DIdent.rawsOpt k ++ (v.m.raws ++
      (c.raws ++ (EExpr.rawsOpt ke ++ (ve.raws ++ (cm.raws ++
        EExpr.rawsOpt co)))))))

/-- The raw strings in an optional expression. -/
def EExpr.rawsOpt : Option EExpr → List Raw
  | some e => e.raws
  | none => []

/-- The raw strings in a list of expressions. -/
def EExpr.rawsList : List EExpr → List Raw
  | [] => []
  | e :: es => e.raws ++ EExpr.rawsList es

/-- The raw strings in object items. -/
def EExpr.rawsItems : List EItem → List Raw
  | [] => []
  | .mk k v _ _ :: is =>
    k.raws ++ (v.raws ++ EExpr.rawsItems is)

/-- The raw strings in an object key. -/
def EKey.raws : EKey → List Raw
  | .ident d => d.m.raws
  | .expr e => e.raws

/-- The raw strings in traversal operators. -/
def EExpr.rawsTravs : List ETrav → List Raw
  | [] => []
  | .mk _ o :: os => o.raws ++ EExpr.rawsTravs os

/-- The raw strings in a traversal operator. -/
def ETravOp.raws : ETravOp → List Raw
  | .attrSplat m => m.raws
  | .fullSplat m => m.raws
  | .getAttr d => d.m.raws
  | .index e => e.raws
  | .legacyIndex m _ => m.raws

/-- The raw strings in template elements. -/
def EExpr.rawsElems : List EElem → List Raw
  | [] => []
  | .lit _ _ :: es => EExpr.rawsElems es
  | .interp _ e _ :: es => e.raws ++ EExpr.rawsElems es
  | .ifDir _ p c _ _ t el ep et _ :: es =>
    p :: ep :: et :: (c.raws ++ (EExpr.rawsElems t ++
      (EExpr.rawsElse el ++ EExpr.rawsElems es)))
  | .forDir _ p k v c _ _ t ep et _ :: es =>
    p :: ep :: et :: (DIdent.rawsOpt k ++ (v.m.raws ++ (c.raws ++
      (EExpr.rawsElems t ++ EExpr.rawsElems es))))

/-- The raw strings in an `else` branch. -/
def EExpr.rawsElse : Option EElse → List Raw
  | some (.mk p t _ _ es) => p :: t :: EExpr.rawsElems es
  | none => []

end

/-- `BlockLabel::despan`, `crates/hcl-edit/src/structure/block.rs:274-279`. -/
def ELabel.despan (full : Str) : ELabel → ELabel
  | .ident d => .ident (d.despan full)
  | .string m s => .string (m.despan full) s

/-- The raw strings of a label. -/
def ELabel.raws : ELabel → List Raw
  | .ident d => d.m.raws
  | .string m _ => m.raws

mutual

/-- `Structure::despan`, `Attribute::despan` and `Block::despan`,
`crates/hcl-edit/src/structure/{mod.rs:106-111,attribute.rs:53-57,block.rs:214-221}`. -/
def EStruct.despan (full : Str) : EStruct → EStruct
  | .attr m k v => .attr (m.despan full) (k.despan full) (v.despan full)
  | .block m i ls b =>
    .block (m.despan full) (i.despan full) (ls.map (ELabel.despan full)) (b.despan full)

/-- `Body::despan`, `crates/hcl-edit/src/structure/body.rs:681-686`. -/
def EBody.despan (full : Str) : EBody → EBody
  | .mk m ss o n => .mk (m.despan full) (EStruct.despanList full ss) o n

/-- The loop over structures. -/
def EStruct.despanList (full : Str) : List EStruct → List EStruct
  | [] => []
  | s :: ss => s.despan full :: EStruct.despanList full ss

end

mutual

/-- The raw strings of a structure. -/
def EStruct.raws : EStruct → List Raw
  | .attr m k v => m.raws ++ (k.m.raws ++ v.raws)
  | .block m i ls b => m.raws ++ (i.m.raws ++ (ls.flatMap ELabel.raws ++ b.raws))

/-- The raw strings of a body. -/
def EBody.raws : EBody → List Raw
  | .mk m ss _ _ => m.raws ++ EStruct.rawsList ss

/-- The raw strings of a list of structures. -/
def EStruct.rawsList : List EStruct → List Raw
  | [] => []
  | s :: ss => s.raws ++ EStruct.rawsList ss

end

end Verif
