import Verif.Model.EditAst
/-!
The nodes of a document and what each consists of (C24).
-/

namespace Verif.Spec

/-- A node of a document. -/
inductive Node
  | body (b : EBody)
  | struct (s : EStruct)
  | label (l : ELabel)
  | expr (e : EExpr)
  | key (k : EKey)
  | op (o : ETravOp)
  | elem (e : EElem)
  | ident (d : DIdent)
  | literal (span : Option Span) (s : Str)

/-- The key and value expression of an object entry. -/
def itemParts : EItem → List Node
  | .mk k v _ _ => [.key k, .expr v]

/-- A traversal operator. -/
def travPart : ETrav → Node
  | .mk _ o => .op o

/-- The elements of an `else`. -/
def elseParts : EElse → List Node
  | .mk _ _ _ _ t => t.map .elem

/-- The immediate parts of a node, in source order. -/
def parts : Node → List Node
  | .body (.mk _ ss _ _) => ss.map .struct
  | .struct (.attr _ k v) => [.ident k, .expr v]
  | .struct (.block _ i ls b) => .ident i :: ls.map .label ++ [.body b]
  | .label (.ident d) => [.ident d]
  | .label (.string _ _) => []
  | .expr (.null _) => []
  | .expr (.bool _ _) => []
  | .expr (.number _ _ _) => []
  | .expr (.string _ _) => []
  | .expr (.array _ vs _ _) => vs.map .expr
  | .expr (.object _ is _) => is.flatMap itemParts
  | .expr (.strTmpl _ es) => es.map .elem
  | .expr (.heredoc _ _ _ es _ _) => es.map .elem
  | .expr (.paren _ e) => [.expr e]
  | .expr (.var m x) => [.ident ⟨m, x⟩]
  | .expr (.cond _ c t f) => [.expr c, .expr t, .expr f]
  | .expr (.call _ ns n _ as _ _ _) => ns.map .ident ++ .ident n :: as.map .expr
  | .expr (.trav _ e os) => .expr e :: os.map travPart
  | .expr (.unary _ _ _ e) => [.expr e]
  | .expr (.binary _ l _ _ r) => [.expr l, .expr r]
  | .expr (.forE _ _ k v c ke ve _ _ co) =>
    k.toList.map .ident ++ .ident v :: .expr c :: ke.toList.map .expr ++ .expr ve ::
      co.toList.map .expr
  | .key (.ident d) => [.ident d]
  | .key (.expr e) => [.expr e]
  | .op (.attrSplat _) => []
  | .op (.fullSplat _) => []
  | .op (.getAttr d) => [.ident d]
  | .op (.index e) => [.expr e]
  | .op (.legacyIndex _ _) => []
  | .elem (.lit sp s) => [.literal sp s]
  | .elem (.interp _ e _) => [.expr e]
  | .elem (.ifDir _ _ c _ _ t els _ _ _) =>
    .expr c :: t.map .elem ++ els.toList.flatMap elseParts
  | .elem (.forDir _ _ k v c _ _ t _ _ _) =>
    k.toList.map .ident ++ .ident v :: .expr c :: t.map .elem
  | .ident _ => []
  | .literal _ _ => []

/-- `l` is inside `n`, however deep; none of the steps from a node to one of its parts is one that
`skip` forbids. -/
inductive Inside (skip : Node → Node → Bool) : Node → Node → Prop
  | refl (n) : Inside skip n n
  | step {n m l} : m ∈ parts n → skip n m = false → Inside skip m l → Inside skip n l

/-- The step from a `for` directive to the collection it iterates over. -/
def toCollection : Node → Node → Bool
  | .elem (.forDir _ _ _ _ _ _ _ _ _ _ _), .expr _ => true
  | _, _ => false

/-- The step from an object key to what it consists of, or from an attribute to its key. -/
def toKey : Node → Node → Bool
  | .key _, _ => true
  | .struct (.attr _ _ _), .ident _ => true
  | _, _ => false

/-- Any step is allowed. -/
def anyStep (_ _ : Node) : Bool := false

end Verif.Spec
