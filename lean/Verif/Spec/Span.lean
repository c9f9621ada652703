import Verif.Spec.Source
/-!
The spans of a syntax tree and how they nest (C53). A `SpanTree` has a node for everything in the
syntax tree that can report a span, below the node it belongs to. A node without structure below it
(an identifier, a keyword, a number, an operator) also has the text it stands for.
-/

namespace Verif

/-- Spans of a node and of the nodes below it, and the text of the node if it is a single token. -/
inductive SpanTree
  | node (span : Option Span) (text : Option Str) (kids : List SpanTree)

/-- The spans of a single token. -/
def SpanTree.leaf (span : Option Span) (text : Str) : SpanTree := .node span (some text) []

/-- The spans of an identifier. -/
def DIdent.tree (d : DIdent) : SpanTree := .leaf d.m.span d.name

/-- The spans of an optional identifier. -/
def DIdent.treeOpt : Option DIdent → List SpanTree
  | some d => [d.tree]
  | none => []

/-- The notation of a number, if it is recorded. -/
def numRepr : Option Raw → Option Str
  | some (.explicit t) => some t
  | _ => none

mutual

/-- The spans of an expression: the children of a node are its subexpressions, its operators and
identifiers, its template, its `for` introduction and condition. -/
def EExpr.tree : EExpr → SpanTree
  | .null m => .leaf m.span c!"null"
  | .bool m v => .leaf m.span (if v then c!"true" else c!"false")
  | .number m _ r => .node m.span (numRepr r) []
  | .string m _ => .node m.span none []
  | .var m x => .leaf m.span x
  | .array m vs _ _ => .node m.span none (EExpr.treeList vs)
  | .object m is _ => .node m.span none (EExpr.treeItems is)
  | .strTmpl m es => .node m.span none (EExpr.treeElems es)
  | .heredoc m _ ts es _ _ => .node m.span none [.node ts none (EExpr.treeElems es)]
  | .paren m e => .node m.span none [e.tree]
  | .cond m c t f => .node m.span none [c.tree, t.tree, f.tree]
  | .call m ns n am as _ _ _ =>
    .node m.span none (.node am.span none (EExpr.treeList as) :: n.tree :: ns.map DIdent.tree)
  | .trav m e os => .node m.span none (e.tree :: EExpr.treeTravs os)
  | .unary m os o e => .node m.span none [.leaf os (UnOp.asStr o), e.tree]
  | .binary m l om o r => .node m.span none [l.tree, .leaf om.span (BinOp.asStr o), r.tree]
  | .forE m im k v c ke ve _ cm co =>
    .node m.span none (.node im.span none (v.tree :: c.tree :: DIdent.treeOpt k) :: ve.tree ::
      .node cm.span none (EExpr.treeOpt co) :: EExpr.treeOpt ke)

/-- The spans of an optional expression. -/
def EExpr.treeOpt : Option EExpr → List SpanTree
  | some e => [e.tree]
  | none => []

/-- The spans of a list of expressions. -/
def EExpr.treeList : List EExpr → List SpanTree
  | [] => []
  | e :: es => e.tree :: EExpr.treeList es

/-- The spans of object items. -/
def EExpr.treeItems : List EItem → List SpanTree
  | [] => []
  | .mk k v _ _ :: is =>
    k.tree :: v.tree :: EExpr.treeItems is

/-- The spans of an object key. -/
def EKey.tree : EKey → SpanTree
  | .ident d => d.tree
  | .expr e => e.tree

/-- The spans of traversal operators. -/
def EExpr.treeTravs : List ETrav → List SpanTree
  | [] => []
  | .mk m o :: os => .node m.span none [o.tree] :: EExpr.treeTravs os

/-- The spans of a traversal operator. -/
def ETravOp.tree : ETravOp → SpanTree
  | .attrSplat m => .leaf m.span c!"*"
  | .fullSplat m => .leaf m.span c!"*"
  | .getAttr d => d.tree
  | .index e => e.tree
  | .legacyIndex m n => .leaf m.span (natStr n)

/-- The spans of template elements. -/
def EExpr.treeElems : List EElem → List SpanTree
  | [] => []
  | .lit s _ :: es => .node s none [] :: EExpr.treeElems es
  | .interp s e _ :: es => .node s none [e.tree] :: EExpr.treeElems es
  | .ifDir s _ c _ ts t el _ _ _ :: es =>
    .node s none (c.tree :: .node ts none (EExpr.treeElems t) :: EExpr.treeElse el) :: EExpr.treeElems es
  | .forDir s _ k v c _ ts t _ _ _ :: es =>
    .node s none (v.tree :: c.tree :: .node ts none (EExpr.treeElems t) :: DIdent.treeOpt k) ::
      EExpr.treeElems es

/-- The spans of an optional `else` branch. -/
def EExpr.treeElse : Option EElse → List SpanTree
  | some (.mk _ _ _ ts es) => [.node ts none (EExpr.treeElems es)]
  | none => []

end

/-- The spans of a label. -/
def ELabel.tree : ELabel → SpanTree
  | .ident d => d.tree
  | .string m _ => .node m.span none []

mutual

/-- The spans of an attribute or a block. -/
def EStruct.tree : EStruct → SpanTree
  | .attr m k v => .node m.span none [k.tree, v.tree]
  | .block m i ls b => .node m.span none (i.tree :: b.tree :: ls.map ELabel.tree)

/-- The spans of a body. -/
def EBody.tree : EBody → SpanTree
  | .mk m ss _ _ => .node m.span none (EStruct.treeList ss)

/-- The spans of a list of attributes and blocks. -/
def EStruct.treeList : List EStruct → List SpanTree
  | [] => []
  | s :: ss => s.tree :: EStruct.treeList ss

end

namespace Spec

/-- All spans are between the two offsets, and each is within the span of the closest node above it
that has one. The span of a token covers the text of the token in the source `s`. -/
inductive Nested (s : Str) : Nat → Nat → SpanTree → Prop
  | none {lo hi text kids} : (∀ t ∈ kids, Nested s lo hi t) → Nested s lo hi (.node none text kids)
  | some {lo hi a b text kids} : lo ≤ a → a ≤ b → b ≤ hi → (∀ t ∈ text, slice s a b = t) →
      (∀ t ∈ kids, Nested s a b t) → Nested s lo hi (.node (some ⟨a, b⟩) text kids)

end Spec

end Verif
