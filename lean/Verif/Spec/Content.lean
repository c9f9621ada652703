import Verif.Model.EditAst
import Verif.Model.Expr
import Verif.Spec.Number
/-!
What an expression or document says, without how it is laid out (C25, C56).

`Content` is a plain tree: nodes with a name, some data and children, and maps with entries. The
functions `content` list what of `hcl-edit`'s and `hcl-rs`' trees is kept. Left out are the decor
(whitespace and comments) and the span of every node, and the notation of numbers. Two contents are
the `Same` when they differ at most in the order of map entries and in the representation of numbers.
-/

namespace Verif.Spec

/-- A piece of data in a node. -/
inductive Atom
  | text (s : Str)
  | optText (s : Option Str)
  | texts (ss : List Str)
  | num (n : N)
  | flag (b : Bool)
  | count (n : Nat)
  | optCount (n : Option Nat)
  | unary (o : UnOp)
  | binary (o : BinOp)
  | strip (s : Strip)
  | raw (r : Raw)
  | assign (a : Assign)
  | term (t : ItemEnd)
  | tmpl (t : TmplExpr)

/-- Numbers are the same when their values are, everything else when it is equal. -/
def Atom.Same : Atom → Atom → Prop
  | .num a, .num b => value a = value b
  | a, b => a = b

/-- The same pieces of data in the same order. -/
inductive SameAtoms : List Atom → List Atom → Prop
  | nil : SameAtoms [] []
  | cons {a b as bs} : a.Same b → SameAtoms as bs → SameAtoms (a :: as) (b :: bs)

/-- A tree of data. -/
inductive Content
  | node (name : Str) (data : List Atom) (children : List Content)
  | map (data : List Atom) (entries : List (Content × Content))

mutual
/-- Equal up to the order of map entries and the representation of numbers. -/
inductive Same : Content → Content → Prop
  | node {k d e cs ds} : SameAtoms d e → SameAll cs ds → Same (.node k d cs) (.node k e ds)
  | map {d e xs ys zs} : SameAtoms d e → SameEntries xs zs → zs.Perm ys →
      Same (.map d xs) (.map e ys)
/-- The same children in the same order. -/
inductive SameAll : List Content → List Content → Prop
  | nil : SameAll [] []
  | cons {a b as bs} : Same a b → SameAll as bs → SameAll (a :: as) (b :: bs)
/-- The same entries in the same order. -/
inductive SameEntries : List (Content × Content) → List (Content × Content) → Prop
  | nil : SameEntries [] []
  | cons {a b v w as bs} : Same a b → Same v w → SameEntries as bs →
      SameEntries ((a, v) :: as) ((b, w) :: bs)
end

/-- Every number is well-formed and no map has two entries with the same key. -/
inductive Proper : Content → Prop
  | node {k d cs} : (∀ n, .num n ∈ d → WellFormed n) → (∀ c ∈ cs, Proper c) → Proper (.node k d cs)
  | map {d es} : (∀ n, .num n ∈ d → WellFormed n) → (∀ e ∈ es, Proper e.1) → (∀ e ∈ es, Proper e.2) →
      es.Pairwise (fun x y => ¬ Same x.1 y.1) → Proper (.map d es)

/-- The absence of something. -/
def Content.absent : Content := .node c!"absent" [] []

mutual

/-- The content of an `hcl-edit` expression. The raw whitespace in front of the closing bracket of
an array, object or call is kept, as is that of a heredoc's closing delimiter: the code compares it.
The `...` of a call is left out: the code does not compare it. -/
def content : EExpr → Content
  | .null _ => .node c!"null" [] []
  | .bool _ b => .node c!"bool" [.flag b] []
  | .number _ n _ => .node c!"number" [.num n] []
  | .string _ s => .node c!"string" [.text s] []
  | .array _ vs c t => .node c!"array" [.flag c, .raw t] (contents vs)
  | .object _ is t => .map [.raw t] (itemsContent is)
  | .strTmpl _ es => .node c!"template" [] (elemsContent es)
  | .heredoc _ d _ es i t => .node c!"heredoc" [.text d, .optCount i, .raw t] (elemsContent es)
  | .paren _ e => .node c!"parenthesis" [] [content e]
  | .var _ x => .node c!"variable" [.text x] []
  | .cond _ c t f => .node c!"conditional" [] [content c, content t, content f]
  | .call _ ns n _ as c _ t =>
    .node c!"call" [.texts (ns.map DIdent.name), .text n.name, .flag c, .raw t] (contents as)
  | .trav _ e os => .node c!"traversal" [] (content e :: travsContent os)
  | .unary _ _ o e => .node c!"unary" [.unary o] [content e]
  | .binary _ l _ o r => .node c!"binary" [.binary o] [content l, content r]
  | .forE _ _ k v c ke ve g _ co =>
    .node c!"for" [.optText (k.map DIdent.name), .text v.name, .flag g]
      [content c, optContent ke, content ve, optContent co]

/-- An optional expression. -/
def optContent : Option EExpr → Content
  | some e => content e
  | none => .absent

/-- A list of expressions. -/
def contents : List EExpr → List Content
  | [] => []
  | e :: es => content e :: contents es

/-- The entries of an object; how the key is separated from the value and what ends the entry belong
to the value. -/
def itemsContent : List EItem → List (Content × Content)
  | [] => []
  | .mk k v a t :: is =>
    (keyContent k, .node c!"value" [.assign a, .term t] [content v]) :: itemsContent is

/-- An object key. -/
def keyContent : EKey → Content
  | .ident d => .node c!"identifier" [.text d.name] []
  | .expr e => .node c!"expression" [] [content e]

/-- A traversal operator. -/
def travContent : ETravOp → Content
  | .attrSplat _ => .node c!"attribute splat" [] []
  | .fullSplat _ => .node c!"full splat" [] []
  | .getAttr d => .node c!"attribute" [.text d.name] []
  | .index e => .node c!"index" [] [content e]
  | .legacyIndex _ n => .node c!"legacy index" [.count n] []

/-- Traversal operators. -/
def travsContent : List ETrav → List Content
  | [] => []
  | .mk _ o :: os => travContent o :: travsContent os

/-- A template element. The raw whitespace of the directives is kept: the code compares it. -/
def elemContent : EElem → Content
  | .lit _ s => .node c!"literal" [.text s] []
  | .interp _ e s => .node c!"interpolation" [.strip s] [content e]
  | .ifDir _ p c s _ t e ep et es =>
    .node c!"if" [.strip s, .raw p, .strip es, .raw ep, .raw et]
      [content c, .node c!"then" [] (elemsContent t), optElseContent e]
  | .forDir _ p k v c s _ t ep et es =>
    .node c!"for"
      [.optText (k.map DIdent.name), .text v.name, .strip s, .raw p, .strip es, .raw ep, .raw et]
      (content c :: elemsContent t)

/-- The branch for the other case. -/
def elseContent : EElse → Content
  | .mk p t s _ es => .node c!"else" [.strip s, .raw p, .raw t] (elemsContent es)

/-- An optional branch for the other case. -/
def optElseContent : Option EElse → Content
  | some e => elseContent e
  | none => .absent

/-- Template elements. -/
def elemsContent : List EElem → List Content
  | [] => []
  | e :: es => elemContent e :: elemsContent es

end

/-- A block label. -/
def labelContent : ELabel → Content
  | .ident d => .node c!"identifier" [.text d.name] []
  | .string _ s => .node c!"string" [.text s] []

mutual

/-- An attribute or a block. -/
def structContent : EStruct → Content
  | .attr _ k v => .node c!"attribute" [.text k.name] [content v]
  | .block _ i ls b =>
    .node c!"block" [.text i.name] [.node c!"labels" [] (ls.map labelContent), bodyContent b]

/-- A body. -/
def bodyContent : EBody → Content
  | .mk _ ss _ _ => .node c!"body" [] (structsContent ss)

/-- Attributes and blocks. -/
def structsContent : List EStruct → List Content
  | [] => []
  | s :: ss => structContent s :: structsContent ss

end

mutual

/-- The content of an `hcl-rs` expression, which has no layout: all of it. -/
def exprContent : Expr → Content
  | .null => .node c!"null" [] []
  | .bool b => .node c!"bool" [.flag b] []
  | .number n => .node c!"number" [.num n] []
  | .string s => .node c!"string" [.text s] []
  | .array xs => .node c!"array" [] (exprContents xs)
  | .object es => .map [] (entriesContent es)
  | .template t => .node c!"template" [.tmpl t] []
  | .var x => .node c!"variable" [.text x] []
  | .traversal e os => .node c!"traversal" [] (exprContent e :: opsContent os)
  | .call n as x =>
    .node c!"call" [.texts n.namespaces, .text n.name, .flag x] (exprContents as)
  | .paren e => .node c!"parenthesis" [] [exprContent e]
  | .cond c t f => .node c!"conditional" [] [exprContent c, exprContent t, exprContent f]
  | .unary o e => .node c!"unary" [.unary o] [exprContent e]
  | .binary l o r => .node c!"binary" [.binary o] [exprContent l, exprContent r]
  | .forE k v c ke ve g co =>
    .node c!"for" [.optText k, .text v, .flag g]
      [exprContent c, optExprContent ke, exprContent ve, optExprContent co]

/-- An optional expression. -/
def optExprContent : Option Expr → Content
  | some e => exprContent e
  | none => .absent

/-- A list of expressions. -/
def exprContents : List Expr → List Content
  | [] => []
  | e :: es => exprContent e :: exprContents es

/-- The entries of an object. -/
def entriesContent : List (ObjKey × Expr) → List (Content × Content)
  | [] => []
  | (k, v) :: es => (objKeyContent k, exprContent v) :: entriesContent es

/-- An object key. -/
def objKeyContent : ObjKey → Content
  | .ident x => .node c!"identifier" [.text x] []
  | .expr e => .node c!"expression" [] [exprContent e]

/-- A traversal operator. -/
def opContent : TravOp → Content
  | .attrSplat => .node c!"attribute splat" [] []
  | .fullSplat => .node c!"full splat" [] []
  | .getAttr x => .node c!"attribute" [.text x] []
  | .index e => .node c!"index" [] [exprContent e]
  | .legacyIndex n => .node c!"legacy index" [.count n] []

/-- Traversal operators. -/
def opsContent : List TravOp → List Content
  | [] => []
  | o :: os => opContent o :: opsContent os

end

end Verif.Spec
