import Mathlib.Data.List.Forall2
import Verif.Model.Eval
/-!
What the evaluation properties C34 – C43 talk about, stated without the evaluator.
-/

namespace Verif.Spec
open Verif

/-! ### Scoping (C34) -/

/-- A name an expression may refer to. -/
inductive Name
  | var (x : Str)
  | func (f : FuncName)

/-- `n` is not one of the variables bound by a `for` with key variable `k`, value variable `x`. -/
def NotBound (k : Option Str) (x : Str) (n : Name) : Prop :=
  n ≠ .var x ∧ ∀ y, k = some y → n ≠ .var y

mutual
/-- `n` occurs free in the expression; templates count with what they parse to. -/
inductive Free (env : Env) : Name → Expr → Prop
  | var {x} : Free env (.var x) (.var x)
  | func {f args x} : Free env (.func f) (.call f args x)
  | array {n xs x} : x ∈ xs → Free env n x → Free env n (.array xs)
  | objKey {n es k v} : (ObjKey.expr k, v) ∈ es → Free env n k → Free env n (.object es)
  | objVal {n es k v} : (k, v) ∈ es → Free env n v → Free env n (.object es)
  | template {n t els} : env.parseTemplate t.asStr = .ok els → FreeT env n els →
      Free env n (.template t)
  | trav {n e ops} : Free env n e → Free env n (.traversal e ops)
  | travIdx {n e ops i} : .index i ∈ ops → Free env n i → Free env n (.traversal e ops)
  | arg {n f args x a} : a ∈ args → Free env n a → Free env n (.call f args x)
  | paren {n e} : Free env n e → Free env n (.paren e)
  | cond {n c t f} : Free env n c → Free env n (.cond c t f)
  | condT {n c t f} : Free env n t → Free env n (.cond c t f)
  | condF {n c t f} : Free env n f → Free env n (.cond c t f)
  | unary {n o e} : Free env n e → Free env n (.unary o e)
  | binL {n l o r} : Free env n l → Free env n (.binary l o r)
  | binR {n l o r} : Free env n r → Free env n (.binary l o r)
  | forColl {n k x coll ke ve g ce} : Free env n coll → Free env n (.forE k x coll ke ve g ce)
  | forVal {n k x coll ke ve g ce} : NotBound k x n → Free env n ve →
      Free env n (.forE k x coll ke ve g ce)
  | forKey {n k x coll ke ve g ce} : NotBound k x n → Free env n ke →
      Free env n (.forE k x coll (some ke) ve g ce)
  | forCond {n k x coll ke ve g ce} : NotBound k x n → Free env n ce →
      Free env n (.forE k x coll ke ve g (some ce))
/-- `n` occurs free in the template. -/
inductive FreeT (env : Env) : Name → List Elem → Prop
  | interp {n els e s} : .interp e s ∈ els → Free env n e → FreeT env n els
  | ifCond {n els c t f a b z} : .ifDir c t f a b z ∈ els → Free env n c → FreeT env n els
  | ifTrue {n els c t f a b z} : .ifDir c t f a b z ∈ els → FreeT env n t → FreeT env n els
  | ifFalse {n els c t f a b z} : .ifDir c t (some f) a b z ∈ els → FreeT env n f → FreeT env n els
  | forColl {n els k x coll t a b} : .forDir k x coll t a b ∈ els → Free env n coll → FreeT env n els
  | forBody {n els k x coll t a b} : .forDir k x coll t a b ∈ els → NotBound k x n →
      FreeT env n t → FreeT env n els
end

/-- `v` is the value of `x` in the innermost scope that declares `x`. -/
def Innermost (ctx : Ctx) (x : Str) (v : Value) : Prop :=
  ∃ inner frame outer, ctx = inner ++ frame :: outer ∧
    Map.get? x frame.vars = some v ∧ ∀ f ∈ inner, Map.get? x f.vars = none

/-- No scope declares `x`. -/
def Undeclared (ctx : Ctx) (x : Str) : Prop := ∀ f ∈ ctx, Map.get? x f.vars = none

/-! ### Equality of values (C36) -/

/-- Structural equality of values: objects as finite maps, numbers by `Number`'s equality. -/
inductive SemEq : Value → Value → Prop
  | null : SemEq .null .null
  | bool (b) : SemEq (.bool b) (.bool b)
  | string (s) : SemEq (.string s) (.string s)
  | number (a b) : N.eq a b = true → SemEq (.number a) (.number b)
  | array (xs ys) : xs.length = ys.length →
      (∀ (i : Nat) x y, xs[i]? = some x → ys[i]? = some y → SemEq x y) → SemEq (.array xs) (.array ys)
  | object (a b) : (∀ k, (Map.get? k a).isSome = (Map.get? k b).isSome) →
      (∀ k x y, Map.get? k a = some x → Map.get? k b = some y → SemEq x y) →
      SemEq (.object a) (.object b)

/-! ### Operators (C36) -/

/-- The operands an operator is defined on. -/
def Typed (l : Value) (op : BinOp) (r : Value) : Prop :=
  match op with
  | .eq | .notEq => True
  | .and | .or => (∃ a, l = .bool a) ∧ ∃ b, r = .bool b
  | _ => (∃ a, l = .number a) ∧ ∃ b, r = .number b

/-! ### Iteration (C37) -/

/-- The elements a `for` ranges over, with their keys: `(0, x0), (1, x1), …` or the entries. -/
def Elements : Value → Option (List (Value × Value))
  | .array xs => some (xs.zipIdx.map fun p => (.number (.posInt p.2), p.1))
  | .object es => some (es.map fun p => (.string p.1, p.2))
  | _ => none

/-- `d` is the scope `ctx` with the loop variables bound to the element `p`. -/
def IterScope (ctx : Ctx) (k : Option Str) (x : Str) (p : Value × Value) (d : Ctx) : Prop :=
  (∀ y, d.var y = if y = x then some p.2 else if k = some y then some p.1 else ctx.var y) ∧
    ∀ f, d.func f = ctx.func f

/-- The text of an object key. -/
def KeyText (env : Env) (v : Value) (s : Str) : Prop :=
  v = .string s ∨ (v = .bool true ∧ s = c!"true") ∨ (v = .bool false ∧ s = c!"false") ∨
    ∃ n, v = .number n ∧ s = env.showNumber n

/-! ### Functions (C40, C41) -/

mutual
/-- The set of values a parameter type stands for, following its documentation
(`crates/hcl-rs/src/eval/func.rs:10-36`): "`OneOf`: … If the `Vec` is empty, any type is
allowed". -/
inductive InType : ParamType → Value → Prop
  | any {v} : InType .any v
  | bool {b} : InType .bool (.bool b)
  | number {n} : InType .number (.number n)
  | string {s} : InType .string (.string s)
  | array {t xs} : (∀ x ∈ xs, InType t x) → InType (.array t) (.array xs)
  | object {t es} : (∀ e ∈ es, InType t e.2) → InType (.object t) (.object es)
  | null {t} : InType (.nullable t) .null
  | nullable {t v} : InType t v → InType (.nullable t) v
  | oneOf {ts v} : InSome ts v → InType (.oneOf ts) v
  | oneOfEmpty {v} : InType (.oneOf []) v
/-- The value is in one of the types. -/
inductive InSome : List ParamType → Value → Prop
  | head {t ts v} : InType t v → InSome (t :: ts) v
  | tail {t ts v} : InSome ts v → InSome (t :: ts) v
end

/-- The arguments fit the signature; `ok` says when a value fits a parameter type. -/
def FitsSignature (ok : ParamType → Value → Prop) (params : List ParamType) (variadic : Option ParamType)
    (args : List Value) : Prop :=
  ∃ positional rest, args = positional ++ rest ∧ List.Forall₂ ok params positional ∧
    match variadic with
    | none => rest = []
    | some t => ∀ a ∈ rest, ok t a

/-! ### Templates (C42, C43) -/

/-- Blanks that do not end a line. -/
def Blank (uni : Uni) (ch : Char) : Prop := uni.isWs ch = true ∧ ch ≠ '\n' ∧ ch ≠ '\r'

/-- `t` is `s` without its leading blanks and, if it follows them directly, one line break. -/
def TrimmedStart (uni : Uni) (s t : Str) : Prop :=
  ∃ blanks nl, s = blanks ++ nl ++ t ∧ (∀ ch ∈ blanks, Blank uni ch) ∧
    (nl = ['\n'] ∨ nl = ['\r', '\n'] ∨
      (nl = [] ∧ (∀ ch rest, t = ch :: rest → ¬ Blank uni ch ∧ ch ≠ '\n') ∧
        ∀ rest, t ≠ '\r' :: '\n' :: rest))

/-- `t` is `s` without its trailing blanks and, if it precedes them directly, one line break. -/
def TrimmedEnd (uni : Uni) (s t : Str) : Prop :=
  ∃ blanks nl, s = t ++ nl ++ blanks ∧ (∀ ch ∈ blanks, Blank uni ch) ∧
    (nl = ['\r', '\n'] ∨ (nl = ['\n'] ∧ ∀ init, t ≠ init ++ ['\r']) ∨
      (nl = [] ∧ ∀ ch init, t = init ++ [ch] → ¬ Blank uni ch ∧ ch ≠ '\n'))

/-- A literal between a marker `before` (that faces it iff its right side strips) and a marker
`after` (iff its left side strips). -/
def Trimmed (uni : Uni) (before after : Bool) (s t : Str) : Prop :=
  ∃ u, (if before then TrimmedStart uni s u else u = s) ∧ (if after then TrimmedEnd uni u t else t = u)

/-- The marker to the left of the `i`-th element faces it with a `~`. -/
def StripBefore (els : List Elem) (outer : Bool) (i : Nat) : Bool :=
  if i = 0 then outer
  else match els[i - 1]? with
    | some (.interp _ s) => s.stripEnd
    | some (.ifDir _ _ _ _ _ z) => z.stripEnd
    | some (.forDir _ _ _ _ _ z) => z.stripEnd
    | _ => false

/-- The marker to the right of the `i`-th element faces it with a `~`. -/
def StripAfter (els : List Elem) (outer : Bool) (i : Nat) : Bool :=
  match els[i + 1]? with
  | none => outer
  | some (.lit _) => false
  | some (.interp _ s) => s.stripStart
  | some (.ifDir _ _ _ a _ _) => a.stripStart
  | some (.forDir _ _ _ _ a _) => a.stripStart

mutual
/-- What a template renders to, given the meaning `ev` of expressions. `before` and `after` say
whether the enclosing directive's markers strip towards the template. -/
inductive Renders (env : Env) (ev : Ctx → Expr → Value → Prop) :
    Ctx → Bool → List Elem → Bool → Str → Prop
  | mk {ctx before els after} (texts : List Str) : texts.length = els.length →
      (∀ (i : Nat) el s, els[i]? = some el → texts[i]? = some s →
        RendersElem env ev ctx (StripBefore els before i) el (StripAfter els after i) s) →
      Renders env ev ctx before els after texts.flatten
/-- What one element renders to. -/
inductive RendersElem (env : Env) (ev : Ctx → Expr → Value → Prop) :
    Ctx → Bool → Elem → Bool → Str → Prop
  | lit {ctx before after s t} : Trimmed env.uni before after s t →
      RendersElem env ev ctx before (.lit s) after t
  | interpStr {ctx before after e m s} : ev ctx e (.string s) →
      RendersElem env ev ctx before (.interp e m) after s
  | interp {ctx before after e m v} : ev ctx e v → (∀ s, v ≠ .string s) →
      RendersElem env ev ctx before (.interp e m) after (env.showValue v)
  | ifTrue {ctx before after c t a b z s} : ev ctx c (.bool true) →
      Renders env ev ctx a.stripEnd t z.stripStart s →
      RendersElem env ev ctx before (.ifDir c t none a b z) after s
  | ifTrueElse {ctx before after c t f a b z s} : ev ctx c (.bool true) →
      Renders env ev ctx a.stripEnd t b.stripStart s →
      RendersElem env ev ctx before (.ifDir c t (some f) a b z) after s
  | ifFalse {ctx before after c t a b z} : ev ctx c (.bool false) →
      RendersElem env ev ctx before (.ifDir c t none a b z) after []
  | ifFalseElse {ctx before after c t f a b z s} : ev ctx c (.bool false) →
      Renders env ev ctx b.stripEnd f z.stripStart s →
      RendersElem env ev ctx before (.ifDir c t (some f) a b z) after s
  | forDir {ctx before after k x coll t a z cv ps} (ss : List Str) (scope : Nat → Ctx) :
      ev ctx coll cv → Elements cv = some ps → ss.length = ps.length →
      (∀ i p, ps[i]? = some p → IterScope ctx k x p (scope i)) →
      (∀ i s, ss[i]? = some s → Renders env ev (scope i) a.stripEnd t z.stripStart s) →
      RendersElem env ev ctx before (.forDir k x coll t a z) after ss.flatten
end

end Verif.Spec
