import Verif.Spec.InPlace
/-! Evaluation in stages, for C79. -/

namespace Verif.Spec
open Verif

/-- What is defined in `c` is defined in `d`, in the same way. -/
def Extends (c d : Ctx) : Prop :=
  (∀ x v, c.var x = some v → d.var x = some v) ∧ ∀ n f, c.func n = some f → d.func n = some f

/-- Evaluating the entries of an object in place merges no two of them. -/
def KeepsEntries (env : Env) (ctx : Ctx) (es : List (ObjKey × Expr)) : Prop :=
  ∀ es' errs, inPlaceEntries ⟨eval env, evalTmpl env⟩ ctx es [] = .ok (es', errs) → es'.length = es.length

/-- That is so for all objects in `e`. -/
def Unmerged (env : Env) (ctx : Ctx) (e : Expr) : Prop := ∀ es, Within e (.object es) → KeepsEntries env ctx es

/-- Keys that are identifiers or strings without templates, no two of them equal: `{ a = 1, "b" = x }`. -/
def NamesOnce (es : List (ObjKey × Expr)) : Prop :=
  (∀ p ∈ es, (∃ x, p.1 = .ident x) ∨ ∃ s, p.1 = .expr (.string s)) ∧ (es.map Prod.fst).Nodup

mutual
/-- The objects in the template keep their entries, and the loop variables of its `for` directives are not defined. -/
def LoopVarsUndefined (env : Env) (ctx : Ctx) : List Elem → Prop
  | [] => True
  | el :: els => LoopVarsUndefined1 env ctx el ∧ LoopVarsUndefined env ctx els
def LoopVarsUndefined1 (env : Env) (ctx : Ctx) : Elem → Prop
  | .lit _ => True
  | .interp e _ => Unmerged env ctx e
  | .ifDir c t f _ _ _ => Unmerged env ctx c ∧ LoopVarsUndefined env ctx t ∧ LoopVarsUndefinedO env ctx f
  | .forDir k x coll t _ _ => Unmerged env ctx coll ∧ LoopVarsUndefined env ctx t ∧
    ctx.var x = none ∧ ∀ y, k = some y → ctx.var y = none
def LoopVarsUndefinedO (env : Env) (ctx : Ctx) : Option (List Elem) → Prop
  | none => True
  | some t => LoopVarsUndefined env ctx t
end

mutual
/-- The objects in the template keep their entries. -/
def UnmergedT (env : Env) (ctx : Ctx) : List Elem → Prop
  | [] => True
  | el :: els => UnmergedE env ctx el ∧ UnmergedT env ctx els
def UnmergedE (env : Env) (ctx : Ctx) : Elem → Prop
  | .lit _ => True
  | .interp e _ => Unmerged env ctx e
  | .ifDir c t f _ _ _ => Unmerged env ctx c ∧ UnmergedT env ctx t ∧ UnmergedO env ctx f
  | .forDir _ _ coll t _ _ => Unmerged env ctx coll ∧ UnmergedT env ctx t
def UnmergedO (env : Env) (ctx : Ctx) : Option (List Elem) → Prop
  | none => True
  | some t => UnmergedT env ctx t
end

end Verif.Spec
