import Mathlib.Data.List.Forall2
import Verif.Model.InPlace
import Verif.Spec.EvalLoc
/-! An expression whose direct parts have been evaluated, for C78. -/

namespace Verif.Spec
open Verif

/-- `e'` is the value of `e`, as an expression. -/
def ValueOf (env : Env) (ctx : Ctx) (e e' : Expr) : Prop := ∃ v, eval env ctx e = .ok v ∧ e' = ofValue v

/-- A key with the value in place of the expression. -/
inductive SettledKey (B : Expr → Expr → Prop) : ObjKey → ObjKey → Prop
  | ident (x) : SettledKey B (.ident x) (.ident x)
  | expr {e e'} : B e e' → SettledKey B (.expr e) (.expr e')

/-- An operator with the value in place of the index. -/
inductive SettledOp (B : Expr → Expr → Prop) : TravOp → TravOp → Prop
  | same (o) : SettledOp B o o
  | index {e e'} : B e e' → SettledOp B (.index e) (.index e')

/-- `Settled B e e'`: `e'` is `e`, or it is `e` with those parts replaced that are evaluated before an expression
itself is evaluated in place, each `q` by a `q'` with `B q q'`. The entries of an object whose keys are then
equal are merged. -/
inductive Settled (B : Expr → Expr → Prop) : Expr → Expr → Prop
  | same (e) : Settled B e e
  | array {xs ys} : List.Forall₂ B xs ys → Settled B (.array xs) (.array ys)
  | object {es es'} : List.Forall₂ (fun p q => SettledKey B p.1 q.1 ∧ B p.2 q.2) es es' →
      Settled B (.object es) (.object (objCollect es'))
  | traversal {e ops ops'} : List.Forall₂ (SettledOp B) ops ops' → Settled B (.traversal e ops) (.traversal e ops')
  | call {n as as' x} : List.Forall₂ B as as' → Settled B (.call n as x) (.call n as' x)
  | paren {e e'} : B e e' → Settled B (.paren e) (.paren e')
  | condTrue {c t f t'} : B c (.bool true) → B t t' → Settled B (.cond c t f) (.cond (.bool true) t' f)
  | condFalse {c t f f'} : B c (.bool false) → B f f' → Settled B (.cond c t f) (.cond (.bool false) t f')
  | unary {o e e'} : B e e' → Settled B (.unary o e) (.unary o e')
  | binary {l o r l' r'} : B l l' → B r r' → Settled B (.binary l o r) (.binary l' o r')
  | forE {k x coll coll' ke ve g ce} : B coll coll' →
      Settled B (.forE k x coll ke ve g ce) (.forE k x coll' ke ve g ce)

/-- What an error `k` that names `x` says about the expression `e` it was met in. No expression is named only if a
template in `e` does not parse. Otherwise a part `y` of `e` raises the error by itself and fails with it in its
scope, and the expression that is named is, apart from the parts that have been evaluated, the one `y` stands in
directly, or `y` itself if it stands in none or (for loops and templates) if it happened in an iteration. -/
def NamesCause (env : Env) (ctx : Ctx) (e : Expr) (k : EvalErr) (x : Option Expr) : Prop :=
  (x = none ∧ ∃ t msg, Part env (.template t) e ∧ env.parseTemplate t.asStr = .error msg ∧ k = .message msg) ∨
  ∃ p p' y, x = some p' ∧ Part env p e ∧ Part env y e ∧
    (Direct env y p ∨ (p = y ∧ (y = e ∨ Loops y))) ∧ Raises y k ∧
    (∃ scopes, eval env (scopes ++ ctx) y = .error (.err k)) ∧
    ∃ scopes, Settled (ValueOf env (scopes ++ ctx)) p p'

end Verif.Spec
