import Verif.Spec.Syntax
import Verif.Model.EditAst
/-!
When a tree of `hcl-edit` is a given tree of `hcl-rs` (C51, C55, C61): the two have the same shape, names,
operators and literals; decor, spans and the spelling of numbers do not matter. The conversion of `hcl-rs`
is not mentioned. A template of `hcl-edit` is a list of elements, a template of `hcl-rs` is a text that
spells them; in a heredoc of `hcl-edit` there may be empty elements, because text that is just indentation
is removed.
-/

namespace Verif.Spec
open Syn

mutual

/-- There is no template in the expression. -/
def noTemplate : Expr → Bool
  | .array es => noTemplates es
  | .object es => noTemplateItems es
  | .template _ => false
  | .traversal e os => noTemplate e && noTemplateOps os
  | .call _ es _ => noTemplates es
  | .paren e => noTemplate e
  | .cond a b c => noTemplate a && noTemplate b && noTemplate c
  | .unary _ e => noTemplate e
  | .binary a _ b => noTemplate a && noTemplate b
  | .forE _ _ c k v _ i => noTemplate c && noTemplateOpt k && noTemplate v && noTemplateOpt i
  | _ => true
termination_by structural x => x

/-- There is no template in the expression, if there is one. -/
def noTemplateOpt : Option Expr → Bool
  | none => true
  | some e => noTemplate e
termination_by structural x => x

/-- There is no template in the expressions. -/
def noTemplates : List Expr → Bool
  | [] => true
  | e :: es => noTemplate e && noTemplates es
termination_by structural x => x

/-- There is no template in the items. -/
def noTemplateItems : List (ObjKey × Expr) → Bool
  | [] => true
  | (k, v) :: es => noTemplateKey k && noTemplate v && noTemplateItems es
termination_by structural x => x

/-- There is no template in the key. -/
def noTemplateKey : ObjKey → Bool
  | .ident _ => true
  | .expr e => noTemplate e
termination_by structural x => x

/-- There is no template in the operators. -/
def noTemplateOps : List TravOp → Bool
  | [] => true
  | o :: os => noTemplateOp o && noTemplateOps os
termination_by structural x => x

/-- There is no template in the operator. -/
def noTemplateOp : TravOp → Bool
  | .index e => noTemplate e
  | _ => true
termination_by structural x => x

end

mutual

/-- There is no template in the expressions of the element. -/
def noTemplateElem : Elem → Bool
  | .lit _ => true
  | .interp e _ => noTemplate e
  | .ifDir c t f _ _ _ => noTemplate c && noTemplateElems t && noTemplateElse f
  | .forDir _ _ c t _ _ => noTemplate c && noTemplateElems t
termination_by structural x => x

/-- There is no template in the expressions of the elements. -/
def noTemplateElems : List Elem → Bool
  | [] => true
  | e :: es => noTemplateElem e && noTemplateElems es
termination_by structural x => x

/-- There is no template in the expressions of the second branch. -/
def noTemplateElse : Option (List Elem) → Bool
  | none => true
  | some es => noTemplateElems es
termination_by structural x => x

end

mutual

/-- There is no template in the structure. -/
def noTemplateStruct : Struct → Bool
  | .attr _ e => noTemplate e
  | .block _ _ b => noTemplateBody b
termination_by structural x => x

/-- There is no template in the body. -/
def noTemplateBody : List Struct → Bool
  | [] => true
  | s :: ss => noTemplateStruct s && noTemplateBody ss
termination_by structural x => x

end

mutual

/-- The expression of `hcl-edit` is the expression of `hcl-rs`. -/
inductive Means (U : Uni) (bd : Build) : EExpr → Expr → Prop
  | null {m} : Means U bd (.null m) .null
  | bool {m b} : Means U bd (.bool m b) (.bool b)
  | number {m n r} : Means U bd (.number m n r) (.number n)
  | string {m s} : Means U bd (.string m s) (.string s)
  | array {m vs c t es} : MeansList U bd vs es → Means U bd (.array m vs c t) (.array es)
  | object {m is t es} : MeansItems U bd is es → KeysApart (es.map Prod.fst) →
      Means U bd (.object m is t) (.object es)
  | template {m vs es s} : MeansElems U bd vs es → Tmpl U bd false es s →
      Means U bd (.strTmpl m vs) (.template (.quoted s))
  | heredoc {m d ts vs n b es s i} : MeansElems U bd vs es → Tmpl U bd false (dropVoid es) s →
      i = (if n.isSome then .indent else .none) →
      Means U bd (.heredoc m d ts vs n b) (.template (.heredoc d s i))
  | paren {m v e} : Means U bd v e → Means U bd (.paren m v) (.paren e)
  | var {m x} : Means U bd (.var m x) (.var x)
  | cond {m v v₁ v₂ e e₁ e₂} : Means U bd v e → Means U bd v₁ e₁ → Means U bd v₂ e₂ →
      Means U bd (.cond m v v₁ v₂) (.cond e e₁ e₂)
  | call {m ns n am vs c x t es} : MeansList U bd vs es →
      Means U bd (.call m ns n am vs c x t) (.call ⟨ns.map DIdent.name, n.name⟩ es x)
  | trav {m v ts e os} : Means U bd v e → MeansTravs U bd ts os →
      Means U bd (.trav m v ts) (.traversal e os)
  | unary {m s o v e} : Means U bd v e → Means U bd (.unary m s o v) (.unary o e)
  | binary {m l om o r a b} : Means U bd l a → Means U bd r b →
      Means U bd (.binary m l om o r) (.binary a o b)
  | forE {m im k x c ke v g cm co c' ke' v' co'} : Means U bd c c' → MeansOpt U bd ke ke' →
      Means U bd v v' → MeansOpt U bd co co' →
      Means U bd (.forE m im k x c ke v g cm co) (.forE (k.map DIdent.name) x.name c' ke' v' g co')

/-- An expression that may be missing. -/
inductive MeansOpt (U : Uni) (bd : Build) : Option EExpr → Option Expr → Prop
  | none : MeansOpt U bd none none
  | some {v e} : Means U bd v e → MeansOpt U bd (some v) (some e)

/-- Lists of expressions. -/
inductive MeansList (U : Uni) (bd : Build) : List EExpr → List Expr → Prop
  | nil : MeansList U bd [] []
  | cons {v vs e es} : Means U bd v e → MeansList U bd vs es → MeansList U bd (v :: vs) (e :: es)

/-- The items of an object. -/
inductive MeansItems (U : Uni) (bd : Build) : List EItem → List (ObjKey × Expr) → Prop
  | nil : MeansItems U bd [] []
  | cons {k v a t is ke e es} : MeansKey U bd k ke → Means U bd v e → MeansItems U bd is es →
      MeansItems U bd (.mk k v a t :: is) ((ke, e) :: es)

/-- The key of an item. -/
inductive MeansKey (U : Uni) (bd : Build) : EKey → ObjKey → Prop
  | ident {d} : MeansKey U bd (.ident d) (.ident d.name)
  | expr {v e} : Means U bd v e → MeansKey U bd (.expr v) (.expr e)

/-- The operators of a traversal. -/
inductive MeansTravs (U : Uni) (bd : Build) : List ETrav → List TravOp → Prop
  | nil : MeansTravs U bd [] []
  | cons {m t ts o os} : MeansTravOp U bd t o → MeansTravs U bd ts os →
      MeansTravs U bd (.mk m t :: ts) (o :: os)

/-- One operator of a traversal. -/
inductive MeansTravOp (U : Uni) (bd : Build) : ETravOp → TravOp → Prop
  | attrSplat {m} : MeansTravOp U bd (.attrSplat m) .attrSplat
  | fullSplat {m} : MeansTravOp U bd (.fullSplat m) .fullSplat
  | getAttr {d} : MeansTravOp U bd (.getAttr d) (.getAttr d.name)
  | index {v e} : Means U bd v e → MeansTravOp U bd (.index v) (.index e)
  | legacyIndex {m n} : MeansTravOp U bd (.legacyIndex m n) (.legacyIndex n)

/-- The elements of a template. -/
inductive MeansElems (U : Uni) (bd : Build) : List EElem → List Elem → Prop
  | nil : MeansElems U bd [] []
  | cons {v vs e es} : MeansElem U bd v e → MeansElems U bd vs es → MeansElems U bd (v :: vs) (e :: es)

/-- One element of a template. -/
inductive MeansElem (U : Uni) (bd : Build) : EElem → Elem → Prop
  | lit {sp s} : MeansElem U bd (.lit sp s) (.lit s)
  | interp {sp v e i} : Means U bd v e → MeansElem U bd (.interp sp v i) (.interp e i)
  | ifDir {sp p v i ts vs f ep et k e es f' j} : Means U bd v e → MeansElems U bd vs es →
      MeansElse U bd f f' j →
      MeansElem U bd (.ifDir sp p v i ts vs f ep et k) (.ifDir e es f' i j k)
  | forDir {sp p k x v i ts vs ep et j e es} : Means U bd v e → MeansElems U bd vs es →
      MeansElem U bd (.forDir sp p k x v i ts vs ep et j)
        (.forDir (k.map DIdent.name) x.name e es i j)

/-- The second branch of an `if` directive, with its strip markers. -/
inductive MeansElse (U : Uni) (bd : Build) : Option EElse → Option (List Elem) → Strip → Prop
  | none : MeansElse U bd none none .none
  | some {p t i ts vs es} : MeansElems U bd vs es → MeansElse U bd (some (.mk p t i ts vs)) (some es) i

end

/-- A block label. -/
inductive MeansLabel : ELabel → Label → Prop
  | ident {d} : MeansLabel (.ident d) (.ident d.name)
  | string {m s} : MeansLabel (.string m s) (.string s)

/-- The labels of a block. -/
inductive MeansLabels : List ELabel → List Label → Prop
  | nil : MeansLabels [] []
  | cons {v vs l ls} : MeansLabel v l → MeansLabels vs ls → MeansLabels (v :: vs) (l :: ls)

mutual

/-- An attribute or a block. -/
inductive MeansStruct (U : Uni) (bd : Build) : EStruct → Struct → Prop
  | attr {m d v e} : Means U bd v e → MeansStruct U bd (.attr m d v) (.attr d.name e)
  | block {m d vs ls b ss} : MeansLabels vs ls → MeansBody U bd b ss →
      MeansStruct U bd (.block m d vs b) (.block d.name ls ss)

/-- The attributes and blocks of a body. -/
inductive MeansStructs (U : Uni) (bd : Build) : List EStruct → List Struct → Prop
  | nil : MeansStructs U bd [] []
  | cons {v vs s ss} : MeansStruct U bd v s → MeansStructs U bd vs ss →
      MeansStructs U bd (v :: vs) (s :: ss)

/-- A body. -/
inductive MeansBody (U : Uni) (bd : Build) : EBody → List Struct → Prop
  | mk {m vs o n ss} : MeansStructs U bd vs ss → MeansBody U bd (.mk m vs o n) ss

end

end Verif.Spec
