import Verif.Model.InPlace
import Verif.Spec.Eval
/-! Specification vocabulary for in-place evaluation (C44, C45). -/

namespace Verif.Spec
open Verif

/-- An object key after evaluation: an identifier, or the value of the key expression. -/
inductive EKey
  | ident (x : Str)
  | val (v : Value)

/-- What an object key evaluates to. -/
inductive KeyIs (env : Env) (ctx : Ctx) : ObjKey → EKey → Prop
  | ident (x) : KeyIs env ctx (.ident x) (.ident x)
  | expr (e v) : eval env ctx e = .ok v → KeyIs env ctx (.expr e) (.val v)

/-- The key text in the evaluated object; arrays, objects and null are no keys. -/
def EKey.text (env : Env) : EKey → Option Str
  | .ident x => some x
  | .val (.string s) => some s
  | .val (.bool b) => some (if b then c!"true" else c!"false")
  | .val (.number n) => some (env.showNumber n)
  | .val _ => none

/-- Two evaluated keys are the same key: of the same kind and equal. -/
def SameKey : EKey → EKey → Prop
  | .ident x, .ident y => x = y
  | .val (.string s), .val (.string t) => s = t
  | .val (.bool a), .val (.bool b) => a = b
  | .val (.number m), .val (.number n) => N.eq m n = true
  | _, _ => False

/-- In the object expression `es`, two keys have the same text only if they are the same key. (This
fails for an object such as `{ "1" = a, 1 = b }`.) -/
def UniformKeys (env : Env) (ctx : Ctx) (es : List (ObjKey × Expr)) : Prop :=
  ∀ p ∈ es, ∀ q ∈ es, ∀ a b s t, KeyIs env ctx p.1 a → KeyIs env ctx q.1 b →
    a.text env = some s → b.text env = some t → (SameKey a b ↔ s = t)

/-- `Within e x`: the expression `x` occurs in `e`, outside of `for` bodies and templates. -/
inductive Within : Expr → Expr → Prop
  | self {e} : Within e e
  | array {xs e x} : e ∈ xs → Within e x → Within (.array xs) x
  | key {es : List (ObjKey × Expr)} {e v x} : (ObjKey.expr e, v) ∈ es → Within e x → Within (.object es) x
  | value {es : List (ObjKey × Expr)} {k e x} : (k, e) ∈ es → Within e x → Within (.object es) x
  | index {e ops i x} : TravOp.index i ∈ ops → Within i x → Within (.traversal e ops) x
  | arg {n args b e x} : e ∈ args → Within e x → Within (.call n args b) x
  | paren {e x} : Within e x → Within (.paren e) x
  | condT {c t f x} : Within t x → Within (.cond c t f) x
  | condF {c t f x} : Within f x → Within (.cond c t f) x
  | unary {o e x} : Within e x → Within (.unary o e) x
  | left {l o r x} : Within l x → Within (.binary l o r) x
  | right {l o r x} : Within r x → Within (.binary l o r) x
  | coll {k y c ke ve g ce x} : Within c x → Within (.forE k y c ke ve g ce) x

/-- All objects in `e` have uniform keys. -/
def Uniform (env : Env) (ctx : Ctx) (e : Expr) : Prop :=
  ∀ es, Within e (.object es) → UniformKeys env ctx es

mutual
/-- The attributes of a body in document order, blocks included. -/
def attrsOf : List Struct → List Expr
  | [] => []
  | s :: ss => attrsOfStruct s ++ attrsOf ss
def attrsOfStruct : Struct → List Expr
  | .attr _ e => [e]
  | .block _ _ b => attrsOf b
end

mutual
/-- `SameShape R b b'`: the bodies agree on everything but the attributes' expressions, and
corresponding expressions are related by `R`. -/
inductive SameShape (R : Expr → Expr → Prop) : List Struct → List Struct → Prop
  | nil : SameShape R [] []
  | cons {s s' ss ss'} : SameShape1 R s s' → SameShape R ss ss' → SameShape R (s :: ss) (s' :: ss')
inductive SameShape1 (R : Expr → Expr → Prop) : Struct → Struct → Prop
  | attr {k e e'} : R e e' → SameShape1 R (.attr k e) (.attr k e')
  | block {i ls b b'} : SameShape R b b' → SameShape1 R (.block i ls b) (.block i ls b')
end

mutual
/-- The objects in the template have uniform keys, and the bodies of `for` directives do not use the
loop variables. -/
def LoopVarsUnused (env : Env) (ctx : Ctx) : List Elem → Prop
  | [] => True
  | el :: els => LoopVarsUnused1 env ctx el ∧ LoopVarsUnused env ctx els
def LoopVarsUnused1 (env : Env) (ctx : Ctx) : Elem → Prop
  | .lit _ => True
  | .interp e _ => Uniform env ctx e
  | .ifDir c t f _ _ _ => Uniform env ctx c ∧ LoopVarsUnused env ctx t ∧ LoopVarsUnusedO env ctx f
  | .forDir k x coll t _ _ => Uniform env ctx coll ∧ LoopVarsUnused env ctx t ∧
    ∀ n, FreeT env n t → NotBound k x n
def LoopVarsUnusedO (env : Env) (ctx : Ctx) : Option (List Elem) → Prop
  | none => True
  | some t => LoopVarsUnused env ctx t
end

end Verif.Spec
