import Verif.Model.Macro
import Verif.Spec.Ident
/-!
The tokens of expressions, values and documents in the macros (C70), and what is assumed of the compiler.
-/

namespace Verif.Spec
open Macro

/-- The tokens of a literal with a minus sign or without. -/
def litToks : Bool → Lit → List TT
  | false, l => [.lit l]
  | true, l => [.punct '-', .lit l]

/-- The number that a literal with a minus sign or without stands for. -/
def litNum : Bool → N → N
  | false, n => n
  | true, .posInt 0 => .posInt 0
  | true, .posInt k => .negInt (-k)
  | true, .negInt i => .negInt i
  | true, .float x => .float x.neg

/-- Tokens that do not continue an expression of the program: none, a comma, a literal, or a word other
than the operator `as`. -/
def Stops : List TT → Prop
  | [] => True
  | .punct c :: _ => c = ','
  | .ident x :: _ => x ≠ c!"as"
  | .lit _ :: _ => True
  | .group _ _ :: _ => False

/-- What is assumed of the compiler, and of `to_expression`, `to_value` and `String::from`: literals are
expressions that end where they end, parenthesised expressions likewise, and a literal gives the string or
number it stands for. -/
structure Sane (R : Rust) : Prop where
  str : ∀ s rest, Stops rest → R.expr (.lit (.str s) :: rest) = .ok (R.ofLit false (.str s)) rest
  num : ∀ neg n rest, Stops rest →
    R.expr (litToks neg (.num n) ++ rest) = .ok (R.ofLit neg (.num n)) rest
  paren : ∀ us e rest, R.expr [.group .paren us] = .ok e [] → Stops rest →
    R.expr (.group .paren us :: rest) = .ok e rest
  strExpr : ∀ s, R.toExpr (R.ofLit false (.str s)) = some (.string s)
  numExpr : ∀ neg n, R.toExpr (R.ofLit neg (.num n)) = some (.number (litNum neg n))
  strValue : ∀ s, R.toValue (R.ofLit false (.str s)) = some (.string s)
  numValue : ∀ neg n, R.toValue (R.ofLit neg (.num n)) = some (.number (litNum neg n))
  strStr : ∀ s, R.toStr (R.ofLit false (.str s)) = some s

/-- The constructors of expressions or values. -/
structure Lang (α κ : Type) where
  null : α
  bool : Bool → α
  number : N → α
  string : Str → α
  array : List α → α
  /-- the object with the entries inserted one after the other -/
  object : List (κ × α) → α
  /-- an identifier as a key -/
  name : Str → κ

/-- `hcl::Expression`. -/
def exprLang : Lang Expr ObjKey where
  null := .null
  bool := .bool
  number := .number
  string := .string
  array := .array
  object es := .object (es.foldl (fun m e => objInsert e.1 e.2 m) [])
  name := .ident

/-- `hcl::Value`. -/
def valueLang : Lang Value Str where
  null := .null
  bool := .bool
  number := .number
  string := .string
  array := .array
  object es := .object (es.foldl (fun m e => Map.insert e.1 e.2 m) [])
  name := id

variable {R : Rust} {α κ : Type}

/-- The tokens of a key: an identifier, a literal, or an expression of the program in parentheses. `K`
gives the key for an expression of the program. -/
inductive WKey (R : Rust) (L : Lang α κ) (K : R.Ex → Option κ) : κ → List TT → Prop
  | ident (x : Str) : WKey R L K (L.name x) [.ident x]
  | str {s k} : K (R.ofLit false (.str s)) = some k → WKey R L K k [.lit (.str s)]
  | num {neg n k} : K (R.ofLit neg (.num n)) = some k → WKey R L K k (litToks neg (.num n))
  | paren {us e k} : R.expr us = .ok e [] → K e = some k → WKey R L K k [.group .paren us]

mutual

/-- The tokens of an expression or value. `V` gives it for an expression of the program, which has to be in
parentheses. -/
inductive Writes (R : Rust) (L : Lang α κ) (V : R.Ex → Option α) (K : R.Ex → Option κ) :
    α → List TT → Prop
  | null : Writes R L V K L.null [.ident c!"null"]
  | true : Writes R L V K (L.bool true) [.ident c!"true"]
  | false : Writes R L V K (L.bool false) [.ident c!"false"]
  | str (s : Str) : Writes R L V K (L.string s) [.lit (.str s)]
  | num (neg : Bool) (n : N) : Writes R L V K (L.number (litNum neg n)) (litToks neg (.num n))
  | paren {us e x} : R.expr [.group .paren us] = .ok e [] → V e = some x →
      Writes R L V K x [.group .paren us]
  | array {xs us} : WElems R L V K xs us → Writes R L V K (L.array xs) [.group .bracket us]
  | object {es us} : WItems R L V K es us → Writes R L V K (L.object es) [.group .brace us]

/-- Elements separated by commas, with or without a comma at the end. -/
inductive WElems (R : Rust) (L : Lang α κ) (V : R.Ex → Option α) (K : R.Ex → Option κ) :
    List α → List TT → Prop
  | nil : WElems R L V K [] []
  | last {x ts} : Writes R L V K x ts → WElems R L V K [x] ts
  | cons {x xs ts us} : Writes R L V K x ts → WElems R L V K xs us →
      WElems R L V K (x :: xs) (ts ++ .punct ',' :: us)

/-- Object items, with or without commas behind them. Without a comma the value has to be a single token
(so no negative number), and a next key in parentheses, `as` or a negative number are not possible. -/
inductive WItems (R : Rust) (L : Lang α κ) (V : R.Ex → Option α) (K : R.Ex → Option κ) :
    List (κ × α) → List TT → Prop
  | nil : WItems R L V K [] []
  | comma {k v es kt ts us} : WKey R L K k kt → Writes R L V K v ts → WItems R L V K es us →
      WItems R L V K ((k, v) :: es) (kt ++ .punct '=' :: ts ++ .punct ',' :: us)
  | bare {k v es kt t us} : WKey R L K k kt → Writes R L V K v [t] → WItems R L V K es us → Stops us →
      WItems R L V K ((k, v) :: es) (kt ++ .punct '=' :: t :: us)

end

/-- The tokens of an `Expression`. -/
def ExprToks (R : Rust) : Expr → List TT → Prop :=
  Writes R exprLang R.toExpr fun e => (R.toExpr e).map .expr

/-- The tokens of a `Value`. -/
def ValueToks (R : Rust) : Value → List TT → Prop := Writes R valueLang R.toValue R.toStr

/-- The tokens of labels. -/
inductive LabelToks : List Label → List TT → Prop
  | nil : LabelToks [] []
  | ident {x ls ts} : LabelToks ls ts → LabelToks (.ident x :: ls) (.ident x :: ts)
  | string {s ls ts} : LabelToks ls ts → LabelToks (.string s :: ls) (.lit (.str s) :: ts)

/-- The tokens of a document. The value of an attribute has to be a single token (so no negative
number). -/
inductive BodyToks (R : Rust) : List Struct → List TT → Prop
  | nil : BodyToks R [] []
  | attr {k e t b ts} : IsIdentifier R.U k → ExprToks R e [t] → BodyToks R b ts →
      BodyToks R (.attr k e :: b) (.ident k :: .punct '=' :: t :: ts)
  | block {i ls lt b us b' ts} : IsIdentifier R.U i → LabelToks ls lt → BodyToks R b us →
      BodyToks R b' ts →
      BodyToks R (.block i ls b :: b') (.ident i :: lt ++ .group .brace us :: ts)

end Verif.Spec
