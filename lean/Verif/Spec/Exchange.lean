import Verif.Model.Body
import Verif.Spec.InPlace
/-!
C90: what it is to exchange one expression for another at one place inside of an expression, a template or a body.
-/

namespace Verif.Spec

/-- `Exchanged a b loops e e'`: `e'` is `e` with `b` instead of `a` at one place. With `loops`, the place may be in
the key, value or condition of a `for` expression, which are evaluated with other names defined than `e` itself. Places in the text of a
template are not meant, they are what `ExchangedText` is about. -/
inductive Exchanged (a b : Expr) (loops : Bool) : Expr → Expr → Prop
  | here : Exchanged a b loops a b
  | array (p q : List Expr) {x y} : Exchanged a b loops x y →
      Exchanged a b loops (.array (p ++ x :: q)) (.array (p ++ y :: q))
  | key (p q : List (ObjKey × Expr)) (v : Expr) {x y} : Exchanged a b loops x y →
      Exchanged a b loops (.object (p ++ (.expr x, v) :: q)) (.object (p ++ (.expr y, v) :: q))
  | value (p q : List (ObjKey × Expr)) (k : ObjKey) {x y} : Exchanged a b loops x y →
      Exchanged a b loops (.object (p ++ (k, x) :: q)) (.object (p ++ (k, y) :: q))
  | operand (ops : List TravOp) {x y} : Exchanged a b loops x y →
      Exchanged a b loops (.traversal x ops) (.traversal y ops)
  | index (e : Expr) (p q : List TravOp) {x y} : Exchanged a b loops x y →
      Exchanged a b loops (.traversal e (p ++ .index x :: q)) (.traversal e (p ++ .index y :: q))
  | arg (n : FuncName) (p q : List Expr) (expand : Bool) {x y} : Exchanged a b loops x y →
      Exchanged a b loops (.call n (p ++ x :: q) expand) (.call n (p ++ y :: q) expand)
  | paren {x y} : Exchanged a b loops x y → Exchanged a b loops (.paren x) (.paren y)
  | cond (t f : Expr) {x y} : Exchanged a b loops x y → Exchanged a b loops (.cond x t f) (.cond y t f)
  | condTrue (c f : Expr) {x y} : Exchanged a b loops x y → Exchanged a b loops (.cond c x f) (.cond c y f)
  | condFalse (c t : Expr) {x y} : Exchanged a b loops x y → Exchanged a b loops (.cond c t x) (.cond c t y)
  | unary (o : UnOp) {x y} : Exchanged a b loops x y → Exchanged a b loops (.unary o x) (.unary o y)
  | left (o : BinOp) (r : Expr) {x y} : Exchanged a b loops x y → Exchanged a b loops (.binary x o r) (.binary y o r)
  | right (l : Expr) (o : BinOp) {x y} : Exchanged a b loops x y → Exchanged a b loops (.binary l o x) (.binary l o y)
  | collection (k : Option Str) (i : Str) (ke : Option Expr) (ve : Expr) (g : Bool) (ce : Option Expr) {x y} :
      Exchanged a b loops x y → Exchanged a b loops (.forE k i x ke ve g ce) (.forE k i y ke ve g ce)
  | forKey (k : Option Str) (i : Str) (coll ve : Expr) (g : Bool) (ce : Option Expr) {x y} : loops = true →
      Exchanged a b loops x y → Exchanged a b loops (.forE k i coll (some x) ve g ce) (.forE k i coll (some y) ve g ce)
  | forValue (k : Option Str) (i : Str) (coll : Expr) (ke : Option Expr) (g : Bool) (ce : Option Expr) {x y} :
      loops = true → Exchanged a b loops x y →
      Exchanged a b loops (.forE k i coll ke x g ce) (.forE k i coll ke y g ce)
  | forCond (k : Option Str) (i : Str) (coll : Expr) (ke : Option Expr) (ve : Expr) (g : Bool) {x y} : loops = true →
      Exchanged a b loops x y →
      Exchanged a b loops (.forE k i coll ke ve g (some x)) (.forE k i coll ke ve g (some y))

/-- The same for the elements of a template. With `loops`, the place may be in the body of a `for` directive. -/
inductive ExchangedText (a b : Expr) (loops : Bool) : List Elem → List Elem → Prop
  | interp (p q : List Elem) (m : Strip) {x y} : Exchanged a b loops x y →
      ExchangedText a b loops (p ++ .interp x m :: q) (p ++ .interp y m :: q)
  | ifCond (p q : List Elem) (t : List Elem) (f : Option (List Elem)) (m₁ m₂ m₃ : Strip) {x y} : Exchanged a b loops x y →
      ExchangedText a b loops (p ++ .ifDir x t f m₁ m₂ m₃ :: q) (p ++ .ifDir y t f m₁ m₂ m₃ :: q)
  | ifTrue (p q : List Elem) (c : Expr) (f : Option (List Elem)) (m₁ m₂ m₃ : Strip) {t t'} :
      ExchangedText a b loops t t' →
      ExchangedText a b loops (p ++ .ifDir c t f m₁ m₂ m₃ :: q) (p ++ .ifDir c t' f m₁ m₂ m₃ :: q)
  | ifFalse (p q : List Elem) (c : Expr) (t : List Elem) (m₁ m₂ m₃ : Strip) {f f'} : ExchangedText a b loops f f' →
      ExchangedText a b loops (p ++ .ifDir c t (some f) m₁ m₂ m₃ :: q) (p ++ .ifDir c t (some f') m₁ m₂ m₃ :: q)
  | collection (p q : List Elem) (k : Option Str) (i : Str) (t : List Elem) (m₁ m₂ : Strip) {x y} :
      Exchanged a b loops x y →
      ExchangedText a b loops (p ++ .forDir k i x t m₁ m₂ :: q) (p ++ .forDir k i y t m₁ m₂ :: q)
  | body (p q : List Elem) (k : Option Str) (i : Str) (coll : Expr) (m₁ m₂ : Strip) {t t'} : loops = true →
      ExchangedText a b loops t t' →
      ExchangedText a b loops (p ++ .forDir k i coll t m₁ m₂ :: q) (p ++ .forDir k i coll t' m₁ m₂ :: q)

end Verif.Spec
