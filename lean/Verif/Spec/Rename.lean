import Verif.Model.Eval
/-!
C91: renaming a variable in an expression.
-/

namespace Verif.Spec

mutual
/-- `Renamed env x y e e'`: `e'` is `e` with the variable `y` wherever `e` has `x`, where `y` does not appear in `e`,
and no loop in `e` has `x` or `y` as its variable. Templates count with what their texts parse to. Names of attributes
in objects and traversals are not variables. -/
inductive Renamed (env : Env) (x y : Str) : Expr → Expr → Prop
  | null : Renamed env x y .null .null
  | bool (b) : Renamed env x y (.bool b) (.bool b)
  | number (n) : Renamed env x y (.number n) (.number n)
  | string (s) : Renamed env x y (.string s) (.string s)
  | this : Renamed env x y (.var x) (.var y)
  | other {z} : z ≠ x → z ≠ y → Renamed env x y (.var z) (.var z)
  | array {xs ys} : RenamedAll env x y xs ys → Renamed env x y (.array xs) (.array ys)
  | object {es es'} : RenamedEntries env x y es es' → Renamed env x y (.object es) (.object es')
  | template {t t' els els'} : env.parseTemplate t.asStr = .ok els → env.parseTemplate t'.asStr = .ok els' →
      RenamedText env x y els els' → Renamed env x y (.template t) (.template t')
  | traversal {e e' ops ops'} : Renamed env x y e e' → RenamedOps env x y ops ops' →
      Renamed env x y (.traversal e ops) (.traversal e' ops')
  | call {n args args' b} : RenamedAll env x y args args' → Renamed env x y (.call n args b) (.call n args' b)
  | paren {e e'} : Renamed env x y e e' → Renamed env x y (.paren e) (.paren e')
  | cond {c c' t t' f f'} : Renamed env x y c c' → Renamed env x y t t' → Renamed env x y f f' →
      Renamed env x y (.cond c t f) (.cond c' t' f')
  | unary {o e e'} : Renamed env x y e e' → Renamed env x y (.unary o e) (.unary o e')
  | binary {l l' o r r'} : Renamed env x y l l' → Renamed env x y r r' →
      Renamed env x y (.binary l o r) (.binary l' o r')
  | forE {k z coll coll' ke ke' ve ve' g ce ce'} : k ≠ some x → k ≠ some y → z ≠ x → z ≠ y →
      Renamed env x y coll coll' → RenamedOpt env x y ke ke' → Renamed env x y ve ve' → RenamedOpt env x y ce ce' →
      Renamed env x y (.forE k z coll ke ve g ce) (.forE k z coll' ke' ve' g ce')
/-- All expressions of a list. -/
inductive RenamedAll (env : Env) (x y : Str) : List Expr → List Expr → Prop
  | nil : RenamedAll env x y [] []
  | cons {e e' es es'} : Renamed env x y e e' → RenamedAll env x y es es' → RenamedAll env x y (e :: es) (e' :: es')
/-- The keys and values of an object. -/
inductive RenamedEntries (env : Env) (x y : Str) : List (ObjKey × Expr) → List (ObjKey × Expr) → Prop
  | nil : RenamedEntries env x y [] []
  | ident {k v v' es es'} : Renamed env x y v v' → RenamedEntries env x y es es' →
      RenamedEntries env x y ((.ident k, v) :: es) ((.ident k, v') :: es')
  | expr {k k' v v' es es'} : Renamed env x y k k' → Renamed env x y v v' → RenamedEntries env x y es es' →
      RenamedEntries env x y ((.expr k, v) :: es) ((.expr k', v') :: es')
/-- The operators of a traversal. -/
inductive RenamedOps (env : Env) (x y : Str) : List TravOp → List TravOp → Prop
  | nil : RenamedOps env x y [] []
  | index {i i' os os'} : Renamed env x y i i' → RenamedOps env x y os os' →
      RenamedOps env x y (.index i :: os) (.index i' :: os')
  | other {o os os'} : (∀ i, o ≠ .index i) → RenamedOps env x y os os' → RenamedOps env x y (o :: os) (o :: os')
/-- An expression that may be missing. -/
inductive RenamedOpt (env : Env) (x y : Str) : Option Expr → Option Expr → Prop
  | none : RenamedOpt env x y none none
  | some {e e'} : Renamed env x y e e' → RenamedOpt env x y (some e) (some e')
/-- The elements of a template. -/
inductive RenamedText (env : Env) (x y : Str) : List Elem → List Elem → Prop
  | nil : RenamedText env x y [] []
  | lit {s els els'} : RenamedText env x y els els' → RenamedText env x y (.lit s :: els) (.lit s :: els')
  | interp {e e' m els els'} : Renamed env x y e e' → RenamedText env x y els els' →
      RenamedText env x y (.interp e m :: els) (.interp e' m :: els')
  | ifDir {c c' t t' m₁ m₂ m₃ els els'} : Renamed env x y c c' → RenamedText env x y t t' →
      RenamedText env x y els els' →
      RenamedText env x y (.ifDir c t none m₁ m₂ m₃ :: els) (.ifDir c' t' none m₁ m₂ m₃ :: els')
  | ifElse {c c' t t' f f' m₁ m₂ m₃ els els'} : Renamed env x y c c' → RenamedText env x y t t' →
      RenamedText env x y f f' → RenamedText env x y els els' →
      RenamedText env x y (.ifDir c t (some f) m₁ m₂ m₃ :: els) (.ifDir c' t' (some f') m₁ m₂ m₃ :: els')
  | forDir {k z q q' t t' m₁ m₂ els els'} : k ≠ some x → k ≠ some y → z ≠ x → z ≠ y → Renamed env x y q q' →
      RenamedText env x y t t' → RenamedText env x y els els' →
      RenamedText env x y (.forDir k z q t m₁ m₂ :: els) (.forDir k z q' t' m₁ m₂ :: els')
end

mutual
/-- The expression with `y` for `x`. Templates stay as they are. -/
def renameVar (x y : Str) : Expr → Expr
  | .null => .null
  | .bool b => .bool b
  | .number n => .number n
  | .string s => .string s
  | .template t => .template t
  | .var z => .var (if z = x then y else z)
  | .array xs => .array (renameAll x y xs)
  | .object es => .object (renameEntries x y es)
  | .traversal e ops => .traversal (renameVar x y e) (renameOps x y ops)
  | .call n args b => .call n (renameAll x y args) b
  | .paren e => .paren (renameVar x y e)
  | .cond c t f => .cond (renameVar x y c) (renameVar x y t) (renameVar x y f)
  | .unary o e => .unary o (renameVar x y e)
  | .binary l o r => .binary (renameVar x y l) o (renameVar x y r)
  | .forE k z coll ke ve g ce =>
    .forE k z (renameVar x y coll) (renameOpt x y ke) (renameVar x y ve) g (renameOpt x y ce)
def renameAll (x y : Str) : List Expr → List Expr
  | [] => []
  | e :: es => renameVar x y e :: renameAll x y es
def renameEntries (x y : Str) : List (ObjKey × Expr) → List (ObjKey × Expr)
  | [] => []
  | (.ident k, v) :: es => (.ident k, renameVar x y v) :: renameEntries x y es
  | (.expr k, v) :: es => (.expr (renameVar x y k), renameVar x y v) :: renameEntries x y es
def renameOps (x y : Str) : List TravOp → List TravOp
  | [] => []
  | .index i :: os => .index (renameVar x y i) :: renameOps x y os
  | .attrSplat :: os => .attrSplat :: renameOps x y os
  | .fullSplat :: os => .fullSplat :: renameOps x y os
  | .getAttr a :: os => .getAttr a :: renameOps x y os
  | .legacyIndex i :: os => .legacyIndex i :: renameOps x y os
def renameOpt (x y : Str) : Option Expr → Option Expr
  | none => none
  | some e => some (renameVar x y e)
end

mutual
/-- The variable `y` does not appear in the expression, no loop in it has the variable `x` or `y`, and it has no
templates. -/
def CanRename (x y : Str) : Expr → Prop
  | .null | .bool _ | .number _ | .string _ => True
  | .template _ => False
  | .var z => z ≠ y
  | .array xs => CanRenameAll x y xs
  | .object es => CanRenameEntries x y es
  | .traversal e ops => CanRename x y e ∧ CanRenameOps x y ops
  | .call _ args _ => CanRenameAll x y args
  | .paren e => CanRename x y e
  | .cond c t f => CanRename x y c ∧ CanRename x y t ∧ CanRename x y f
  | .unary _ e => CanRename x y e
  | .binary l _ r => CanRename x y l ∧ CanRename x y r
  | .forE k z coll ke ve _ ce => k ≠ some x ∧ k ≠ some y ∧ z ≠ x ∧ z ≠ y ∧ CanRename x y coll ∧ CanRenameOpt x y ke ∧
    CanRename x y ve ∧ CanRenameOpt x y ce
def CanRenameAll (x y : Str) : List Expr → Prop
  | [] => True
  | e :: es => CanRename x y e ∧ CanRenameAll x y es
def CanRenameEntries (x y : Str) : List (ObjKey × Expr) → Prop
  | [] => True
  | (.ident _, v) :: es => CanRename x y v ∧ CanRenameEntries x y es
  | (.expr k, v) :: es => CanRename x y k ∧ CanRename x y v ∧ CanRenameEntries x y es
def CanRenameOps (x y : Str) : List TravOp → Prop
  | [] => True
  | .index i :: os => CanRename x y i ∧ CanRenameOps x y os
  | .attrSplat :: os | .fullSplat :: os | .getAttr _ :: os | .legacyIndex _ :: os => CanRenameOps x y os
def CanRenameOpt (x y : Str) : Option Expr → Prop
  | none => True
  | some e => CanRename x y e
end

end Verif.Spec
