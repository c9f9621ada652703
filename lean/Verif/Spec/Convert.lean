import Verif.Model.Convert
/-!
When converting between `hcl-rs` and `hcl-edit` trees loses nothing (C27).
-/

namespace Verif.Spec
open Gram

/-- The text parses as a template and the parsed template prints as the same text. -/
def Reprints (P : PEnv) (E : FmtEnv) (s : Str) : Prop :=
  ∃ t, parseTemplate P s = .ok t ∧ showTemplate E t = s

/-- The keys of an object are pairwise different, as `==` on keys decides it. -/
def KeysDiffer (es : List (ObjKey × Expr)) : Prop :=
  es.Pairwise fun a b => ObjKey.beq a.1 b.1 = false

/-- The keys of an object are still pairwise different after conversion to `hcl-edit`. -/
def EditKeysDiffer (P : PEnv) (es : List (ObjKey × Expr)) : Prop :=
  es.Pairwise fun a b => EExpr.beqKey (toEditKey P a.1) (toEditKey P b.1) = false

mutual

/-- Every template text in the expression is reprinted, no heredoc has a strip mode, and the keys of
every object differ, also after conversion. -/
inductive Lossless (P : PEnv) (E : FmtEnv) : Expr → Prop
  | null : Lossless P E .null
  | bool (b) : Lossless P E (.bool b)
  | number (n) : Lossless P E (.number n)
  | string (s) : Lossless P E (.string s)
  | array {xs} : (∀ x ∈ xs, Lossless P E x) → Lossless P E (.array xs)
  | object {es} : (∀ e ∈ es, LosslessKey P E e.1) → (∀ e ∈ es, Lossless P E e.2) → KeysDiffer es →
      EditKeysDiffer P es → Lossless P E (.object es)
  | quoted {s} : Reprints P E s → Lossless P E (.template (.quoted s))
  | heredoc {d t} : Reprints P E t → Lossless P E (.template (.heredoc d t .none))
  | var (x) : Lossless P E (.var x)
  | traversal {e os} : Lossless P E e → (∀ o ∈ os, LosslessOp P E o) → Lossless P E (.traversal e os)
  | call {n as x} : (∀ a ∈ as, Lossless P E a) → Lossless P E (.call n as x)
  | paren {e} : Lossless P E e → Lossless P E (.paren e)
  | cond {c t f} : Lossless P E c → Lossless P E t → Lossless P E f → Lossless P E (.cond c t f)
  | unary {o e} : Lossless P E e → Lossless P E (.unary o e)
  | binary {l o r} : Lossless P E l → Lossless P E r → Lossless P E (.binary l o r)
  | forE {k v c ke ve g ce} : Lossless P E c → (∀ e ∈ ke, Lossless P E e) → Lossless P E ve →
      (∀ e ∈ ce, Lossless P E e) → Lossless P E (.forE k v c ke ve g ce)

/-- `Lossless` for the expression in an object key. -/
inductive LosslessKey (P : PEnv) (E : FmtEnv) : ObjKey → Prop
  | ident (x) : LosslessKey P E (.ident x)
  | expr {e} : Lossless P E e → LosslessKey P E (.expr e)

/-- `Lossless` for the expression in a traversal operator. -/
inductive LosslessOp (P : PEnv) (E : FmtEnv) : TravOp → Prop
  | attrSplat : LosslessOp P E .attrSplat
  | fullSplat : LosslessOp P E .fullSplat
  | getAttr (x) : LosslessOp P E (.getAttr x)
  | index {e} : Lossless P E e → LosslessOp P E (.index e)
  | legacyIndex (i) : LosslessOp P E (.legacyIndex i)

end

/-- `Lossless` for all expressions in a template element. An `if` directive without `else` must not
set the strip mode of the `else`. -/
inductive LosslessElem (P : PEnv) (E : FmtEnv) : Elem → Prop
  | lit (s) : LosslessElem P E (.lit s)
  | interp {e s} : Lossless P E e → LosslessElem P E (.interp e s)
  | ifDir {c t a z} : Lossless P E c → (∀ x ∈ t, LosslessElem P E x) →
      LosslessElem P E (.ifDir c t none a .none z)
  | ifElse {c t f a b z} : Lossless P E c → (∀ x ∈ t, LosslessElem P E x) →
      (∀ x ∈ f, LosslessElem P E x) → LosslessElem P E (.ifDir c t (some f) a b z)
  | forDir {k v c t a z} : Lossless P E c → (∀ x ∈ t, LosslessElem P E x) →
      LosslessElem P E (.forDir k v c t a z)

/-- `Lossless` for all expressions in a structure. -/
inductive LosslessStruct (P : PEnv) (E : FmtEnv) : Struct → Prop
  | attr {k e} : Lossless P E e → LosslessStruct P E (.attr k e)
  | block {i ls b} : (∀ s ∈ b, LosslessStruct P E s) → LosslessStruct P E (.block i ls b)

mutual

/-- An expression without templates, function calls and objects. -/
inductive Plain : Expr → Prop
  | null : Plain .null
  | bool (b) : Plain (.bool b)
  | number (n) : Plain (.number n)
  | string (s) : Plain (.string s)
  | array {xs} : (∀ x ∈ xs, Plain x) → Plain (.array xs)
  | var (x) : Plain (.var x)
  | traversal {e os} : Plain e → (∀ o ∈ os, PlainOp o) → Plain (.traversal e os)
  | paren {e} : Plain e → Plain (.paren e)
  | cond {c t f} : Plain c → Plain t → Plain f → Plain (.cond c t f)
  | unary {o e} : Plain e → Plain (.unary o e)
  | binary {l o r} : Plain l → Plain r → Plain (.binary l o r)
  | forE {k v c ke ve g ce} : Plain c → (∀ e ∈ ke, Plain e) → Plain ve → (∀ e ∈ ce, Plain e) →
      Plain (.forE k v c ke ve g ce)

/-- `Plain` for the expression in a traversal operator. -/
inductive PlainOp : TravOp → Prop
  | attrSplat : PlainOp .attrSplat
  | fullSplat : PlainOp .fullSplat
  | getAttr (x) : PlainOp (.getAttr x)
  | index {e} : Plain e → PlainOp (.index e)
  | legacyIndex (i) : PlainOp (.legacyIndex i)

end

/-- `Plain` for the expression in an object key. -/
def PlainKey : ObjKey → Prop
  | .ident _ => True
  | .expr e => Plain e

end Verif.Spec
