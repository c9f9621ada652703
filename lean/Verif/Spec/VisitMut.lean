import Verif.Spec.Visit
import Verif.Spec.Unique
import Verif.Model.VisitMut
/-!
What a mutable visitor does to a node (C71).
-/

namespace Verif.Spec

/-- An expression that stands for any expression. -/
def anyExpr : EExpr := .null {}

/-- An identifier that stands for any identifier. -/
def anyIdent : DIdent := { name := [] }

/-- An object entry without its key and value. -/
def itemShell : EItem → EItem
  | .mk _ _ a t => .mk (.ident anyIdent) anyExpr a t

/-- A traversal operator without what it is about; its kind is a part of the operator. -/
def travShell : ETrav → ETrav
  | .mk m _ => .mk m (.attrSplat {})

/-- An `else` without its elements. -/
def elseShell : EElse → EElse
  | .mk p t s ts es => .mk p t s ts (es.map fun _ => .lit none [])

/-- A node without its parts: everything that is not in `parts`, such as decor, spans, operators, plain
values, punctuation and the number of the parts. -/
def shell : Node → Node
  | .body (.mk m ss o n) => .body (.mk m (ss.map fun _ => .attr {} anyIdent anyExpr) o n)
  | .struct (.attr m _ _) => .struct (.attr m anyIdent anyExpr)
  | .struct (.block m _ ls _) =>
    .struct (.block m anyIdent (ls.map fun _ => .string {} []) (.mk {} [] false false))
  | .label (.ident _) => .label (.ident anyIdent)
  | .label (.string m s) => .label (.string m s)
  | .expr (.null m) => .expr (.null m)
  | .expr (.bool m b) => .expr (.bool m b)
  | .expr (.number m n r) => .expr (.number m n r)
  | .expr (.string m s) => .expr (.string m s)
  | .expr (.array m vs c t) => .expr (.array m (vs.map fun _ => anyExpr) c t)
  | .expr (.object m is t) => .expr (.object m (is.map itemShell) t)
  | .expr (.strTmpl m es) => .expr (.strTmpl m (es.map fun _ => .lit none []))
  | .expr (.heredoc m d ts es i t) => .expr (.heredoc m d ts (es.map fun _ => .lit none []) i t)
  | .expr (.paren m _) => .expr (.paren m anyExpr)
  | .expr (.var _ _) => .expr (.var {} [])
  | .expr (.cond m _ _ _) => .expr (.cond m anyExpr anyExpr anyExpr)
  | .expr (.call m ns _ am as c x t) =>
    .expr (.call m (ns.map fun _ => anyIdent) anyIdent am (as.map fun _ => anyExpr) c x t)
  | .expr (.trav m _ os) => .expr (.trav m anyExpr (os.map travShell))
  | .expr (.unary m os o _) => .expr (.unary m os o anyExpr)
  | .expr (.binary m _ om o _) => .expr (.binary m anyExpr om o anyExpr)
  | .expr (.forE m im k _ _ ke _ g cm co) =>
    .expr (.forE m im (k.map fun _ => anyIdent) anyIdent anyExpr (ke.map fun _ => anyExpr) anyExpr g cm
      (co.map fun _ => anyExpr))
  | .key (.ident _) => .key (.ident anyIdent)
  | .key (.expr _) => .key (.expr anyExpr)
  | .op (.attrSplat m) => .op (.attrSplat m)
  | .op (.fullSplat m) => .op (.fullSplat m)
  | .op (.getAttr _) => .op (.getAttr anyIdent)
  | .op (.index _) => .op (.index anyExpr)
  | .op (.legacyIndex m n) => .op (.legacyIndex m n)
  | .elem (.lit _ _) => .elem (.lit none [])
  | .elem (.interp sp _ st) => .elem (.interp sp anyExpr st)
  | .elem (.ifDir sp p _ s ts t els ep et es) =>
    .elem (.ifDir sp p anyExpr s ts (t.map fun _ => .lit none []) (els.map elseShell) ep et es)
  | .elem (.forDir sp p k _ _ s ts t ep et es) =>
    .elem (.forDir sp p (k.map fun _ => anyIdent) anyIdent anyExpr s ts (t.map fun _ => .lit none []) ep et es)
  | .ident d => .ident d
  | .literal sp s => .literal sp s

/-- The method of the visitor for a node, before the default function. -/
def methodBefore {σ : Type} (V : Visitor σ) : Node → σ → Option (Node × σ)
  | .body x, s => (V.body.pre x s).map fun r => (.body r.1, r.2)
  | .struct x, s => (V.struct.pre x s).map fun r => (.struct r.1, r.2)
  | .label x, s => (V.label.pre x s).map fun r => (.label r.1, r.2)
  | .expr x, s => (V.expr.pre x s).map fun r => (.expr r.1, r.2)
  | .key x, s => (V.key.pre x s).map fun r => (.key r.1, r.2)
  | .op x, s => (V.op.pre x s).map fun r => (.op r.1, r.2)
  | .elem x, s => (V.elem.pre x s).map fun r => (.elem r.1, r.2)
  | .ident x, s => (V.ident.pre x s).map fun r => (.ident r.1, r.2)
  | .literal sp x, s => (V.literal.pre (sp, x) s).map fun r => (.literal r.1.1 r.1.2, r.2)

/-- The method of the visitor for a node, after the default function. -/
def methodAfter {σ : Type} (V : Visitor σ) : Node → σ → Node × σ
  | .body x, s => let r := V.body.post x s; (.body r.1, r.2)
  | .struct x, s => let r := V.struct.post x s; (.struct r.1, r.2)
  | .label x, s => let r := V.label.post x s; (.label r.1, r.2)
  | .expr x, s => let r := V.expr.post x s; (.expr r.1, r.2)
  | .key x, s => let r := V.key.post x s; (.key r.1, r.2)
  | .op x, s => let r := V.op.post x s; (.op r.1, r.2)
  | .elem x, s => let r := V.elem.post x s; (.elem r.1, r.2)
  | .ident x, s => let r := V.ident.post x s; (.ident r.1, r.2)
  | .literal sp x, s => let r := V.literal.post (sp, x) s; (.literal r.1.1 r.1.2, r.2)

mutual

/-- `Rewritten V n s n' s'`: the visitor `V` in the state `s` makes `n'` of `n` and is in the state `s'`
then. Either its method for `n` replaces the node, or the parts of `n` are rewritten one after the other,
nothing but the parts is changed, and the method gets the result. -/
inductive Rewritten {σ : Type} (V : Visitor σ) : Node → σ → Node → σ → Prop
  | replaced {n s n' s'} : methodBefore V n s = some (n', s') → Rewritten V n s n' s'
  | inside {n s n₁ s₁ n' s'} : methodBefore V n s = none → RewrittenParts V n (parts n) s (parts n₁) s₁ →
      shell n₁ = shell n → methodAfter V n₁ s₁ = (n', s') → Rewritten V n s n' s'

/-- `RewrittenParts V n ps s ps' s'`: the same for the parts `ps` of `n`, of which the collections of `for`
directives, the keys of attributes and what object keys consist of stay as they are. -/
inductive RewrittenParts {σ : Type} (V : Visitor σ) : Node → List Node → σ → List Node → σ → Prop
  | nil {n s} : RewrittenParts V n [] s [] s
  | skip {n p ps s ps' s'} : toCollection n p = true ∨ toKey n p = true → RewrittenParts V n ps s ps' s' →
      RewrittenParts V n (p :: ps) s (p :: ps') s'
  | cons {n p p' ps s s₁ ps' s'} : toCollection n p = false → toKey n p = false → Rewritten V p s p' s₁ →
      RewrittenParts V n ps s₁ ps' s' → RewrittenParts V n (p :: ps) s (p' :: ps') s'

end

/-- What can be done to a structure through `StructureMut`: the value and decor of an attribute can be
replaced but not its key, a block can be replaced by another block. -/
def Accessible : EStruct → EStruct → Prop
  | .attr _ k _, .attr _ k' _ => k'.name = k.name
  | .block _ _ _ b, .block _ _ _ b' => UniqueKeys b → UniqueKeys b'
  | _, _ => False

/-- What the methods of a visitor can do through the references that they get: put a valid body in place of
another, and change structures through `StructureMut`. -/
structure Permitted {σ : Type} (V : Visitor σ) : Prop where
  bodyPre : ∀ b s r, UniqueKeys b → V.body.pre b s = some r → UniqueKeys r.1
  bodyPost : ∀ b s, UniqueKeys b → UniqueKeys (V.body.post b s).1
  structPre : ∀ x s r, V.struct.pre x s = some r → Accessible x r.1
  structPost : ∀ x s, Accessible x (V.struct.post x s).1

end Verif.Spec
