import Verif.Model.Expr
import Verif.Model.Ident
/-!
Model of the macros `body!`, `structure!`, `attribute!`, `block!`, `expression!` and `value!`,
`crates/hcl-rs/src/macros.rs:85-900`.

A macro takes token trees and goes through its rules from top to bottom. The result is `none` if no rule
matches (the program does not compile), if an expression of the program does not have the type that is
needed (likewise), or if `to_expression(…).unwrap()` panics. The recursion of the macros is bounded, as by
`recursion_limit` of the compiler; a call of a function of this model may stand for several calls of a
macro that only hand on their arguments.

Simplifications: users do not write the tokens `@array`, `@object`, `@structures` and `@block` that select
the internal rules, nor the lists of labels in brackets that these hand on; a token is one character of
punctuation (so `==` is not one token); the parser of the compiler is a parameter.
-/

namespace Verif.Macro

/-- The delimiters of a group of tokens. -/
inductive Delim | paren | bracket | brace
  deriving DecidableEq, Repr

/-- Literals of the language of the program: strings and non-negative numbers. -/
inductive Lit
  | str (s : Str)
  | num (n : N)
  deriving DecidableEq, Repr

/-- Token trees. The names `null`, `true` and `false` are identifiers, like the keywords. -/
inductive TT
  | ident (x : Str)
  | lit (l : Lit)
  | punct (c : Char)
  | group (d : Delim) (ts : List TT)

/-- The outcome of matching a fragment such as `$e:expr`: the tokens cannot start one, they start one
that is not well-formed (which ends the compilation), or the fragment and the tokens behind it. -/
inductive Frag (α : Type)
  | no
  | bad
  | ok (a : α) (rest : List TT)

/-- The compiler and the program around the macro. -/
structure Rust where
  /-- expressions of the program -/
  Ex : Type
  /-- the fragment `$e:expr` -/
  expr : List TT → Frag Ex
  /-- a literal as an expression, with a minus sign or without -/
  ofLit : Bool → Lit → Ex
  /-- `hcl::expr::to_expression(&e).unwrap()` -/
  toExpr : Ex → Option Expr
  /-- `hcl::value::to_value(&e).unwrap()` -/
  toValue : Ex → Option Value
  /-- `(e).into()` where a string is needed -/
  toStr : Ex → Option Str
  /-- the character classes behind `Identifier::sanitized` -/
  U : Uni

/-- What `expression_internal!` and `value_internal!` put together; their rules are the same. -/
structure Alg (R : Rust) (α κ : Type) where
  null : α
  bool : Bool → α
  array : List α → α
  /-- the entries that are inserted, one after the other -/
  object : List (κ × α) → α
  /-- the rule for any other expression -/
  other : R.Ex → Option α
  /-- an identifier as a key -/
  keyIdent : Str → κ
  /-- a literal or a parenthesised expression as a key -/
  keyEx : R.Ex → Option κ

/-- The right hand sides of `expression_internal!`, `crates/hcl-rs/src/macros.rs:411-633`, and
`object_key!`, lines 359-371. -/
def exprAlg (R : Rust) : Alg R Expr ObjKey where
  null := .null
  bool := .bool
  array := .array
  object es := .object (es.foldl (fun m e => objInsert e.1 e.2 m) [])
  other := R.toExpr
  keyIdent := .ident
  keyEx e := (R.toExpr e).map .expr

/-- The right hand sides of `value_internal!`, `crates/hcl-rs/src/macros.rs:678-900`. -/
def valueAlg (R : Rust) : Alg R Value Str where
  null := .null
  bool := .bool
  array := .array
  object es := .object (es.foldl (fun m e => Map.insert e.1 e.2 m) [])
  other := R.toValue
  keyIdent := id
  keyEx := R.toStr

variable {R : Rust} {α κ : Type}

/-- The key of an object item and the tokens behind it: the rules "Munch an identifier key", "Munch a
literal key" and "Munch a parenthesized expression key", `crates/hcl-rs/src/macros.rs:575-588,842-855`. -/
def objKey (A : Alg R α κ) : List TT → Option (κ × List TT)
  | .ident x :: rest => some (A.keyIdent x, rest)
  | .lit l :: rest => (A.keyEx (R.ofLit false l)).map (·, rest)
  | .punct '-' :: .lit (.num n) :: rest => (A.keyEx (R.ofLit true (.num n))).map (·, rest)
  | .group .paren us :: rest =>
    match R.expr us with
    | .ok e [] => (A.keyEx e).map (·, rest)
    | _ => none
  | _ => none

/-- The comma that may follow an object item, `crates/hcl-rs/src/macros.rs:488-503,755-770`. -/
def optComma : List TT → List TT
  | .punct ',' :: rest => rest
  | ts => ts

mutual

/-- `expression_internal!($($expr)+)`, `crates/hcl-rs/src/macros.rs:596-632`;
`value_internal!($($expr)+)`, lines 863-899. -/
def expr (A : Alg R α κ) : Nat → List TT → Option α
  | 0, _ => none
  | n + 1, ts =>
    match ts with
    | [.ident ['n', 'u', 'l', 'l']] => some A.null
    | [.ident ['t', 'r', 'u', 'e']] => some (A.bool true)
    | [.ident ['f', 'a', 'l', 's', 'e']] => some (A.bool false)
    | [.group .bracket us] => (array A n [] true us).map A.array
    | [.group .brace us] => (object A n [] us).map A.object
    | ts =>
      match R.expr ts with
      | .ok e [] => A.other e
      | _ => none

/-- `expression_internal!(@array [elems] tokens)`, `crates/hcl-rs/src/macros.rs:420-473`;
`value_internal!`, lines 687-740. The flag tells that there is a comma behind the elements so far, or that
there are none. The rule for a comma also applies if there are no elements so far. -/
def array (A : Alg R α κ) : Nat → List α → Bool → List TT → Option (List α)
  | 0, _, _, _ => none
  | n + 1, acc, sep, ts =>
    match ts, sep with
    | [], _ => some acc
    | .ident ['n', 'u', 'l', 'l'] :: rest, true => array A n (acc ++ [A.null]) false rest
    | .ident ['t', 'r', 'u', 'e'] :: rest, true => array A n (acc ++ [A.bool true]) false rest
    | .ident ['f', 'a', 'l', 's', 'e'] :: rest, true => array A n (acc ++ [A.bool false]) false rest
    | .group .bracket us :: rest, true =>
      match expr A n [.group .bracket us] with
      | some x => array A n (acc ++ [x]) false rest
      | none => none
    | .group .brace us :: rest, true =>
      match expr A n [.group .brace us] with
      | some x => array A n (acc ++ [x]) false rest
      | none => none
    | .punct ',' :: rest, sep =>
      if acc.isEmpty || !sep then array A n acc true rest else none
    | ts, true =>
      match R.expr ts with
      | .ok e (.punct ',' :: rest) =>
        match A.other e with
        | some x => array A n (acc ++ [x]) true rest
        | none => none
      | .ok e [] => (A.other e).map fun x => acc ++ [x]
      | _ => none
    | _, false => none

/-- `expression_internal!(@object object () (tokens) (tokens))`, `crates/hcl-rs/src/macros.rs:485-588`;
`value_internal!`, lines 752-855. -/
def object (A : Alg R α κ) : Nat → List (κ × α) → List TT → Option (List (κ × α))
  | 0, _, _ => none
  | n + 1, acc, ts =>
    match ts with
    | [] => some acc
    | ts =>
      match objKey A ts with
      | some (k, .punct '=' :: vs) =>
        match objValue A n vs with
        | some (v, rest) => object A n (acc ++ [(k, v)]) (optComma rest)
        | none => none
      | _ => none

/-- The value of an object item and the tokens behind it: the rules for `(= …)`,
`crates/hcl-rs/src/macros.rs:505-556,772-823`. The rule for a last value without a comma is never reached,
since the rule before it applies to every token. -/
def objValue (A : Alg R α κ) : Nat → List TT → Option (α × List TT)
  | 0, _ => none
  | n + 1, ts =>
    match ts with
    | .ident ['n', 'u', 'l', 'l'] :: rest => some (A.null, rest)
    | .ident ['t', 'r', 'u', 'e'] :: rest => some (A.bool true, rest)
    | .ident ['f', 'a', 'l', 's', 'e'] :: rest => some (A.bool false, rest)
    | .group .bracket us :: rest => (expr A n [.group .bracket us]).map (·, rest)
    | .group .brace us :: rest => (expr A n [.group .brace us]).map (·, rest)
    | ts =>
      match R.expr ts with
      | .ok e (.punct ',' :: rest) => (A.other e).map (·, .punct ',' :: rest)
      | .bad => none
      | _ =>
        match ts with
        | t :: rest => (expr A n [t]).map (·, rest)
        | [] => none

end

/-- `expression!`, `crates/hcl-rs/src/macros.rs:402-407`. -/
def expression (R : Rust) (n : Nat) (ts : List TT) : Option Expr := expr (exprAlg R) n ts

/-- `value!`, `crates/hcl-rs/src/macros.rs:669-674`. -/
def value (R : Rust) (n : Nat) (ts : List TT) : Option Value := expr (valueAlg R) n ts

/-- The key of an attribute or the identifier of a block: `($key:expr)` or `$key:ident`, and the
conversion `(…).into()` to an `Identifier`, `crates/hcl-rs/src/macros.rs:253-264,144-152,328-336`,
`crates/hcl-rs/src/ident.rs:117-127`. -/
def name (R : Rust) : TT → Option Str
  | .ident x => some (Ident.newSanitized R.U x)
  | .group .paren us =>
    match R.expr us with
    | .ok e [] => (R.toStr e).map (Ident.newSanitized R.U)
    | _ => none
  | _ => none

/-- `attribute_internal!`, `crates/hcl-rs/src/macros.rs:247-265`. -/
def attr (R : Rust) (n : Nat) (key : TT) (ts : List TT) : Option Struct :=
  match name R key, expression R n ts with
  | some k, some e => some (.attr k e)
  | _, _ => none

/-- The labels of a block, the tokens of its body and those behind it: the rules of `@block`,
`crates/hcl-rs/src/macros.rs:124-142`, and of `block_internal!`, lines 304-326, with `block_label!`,
lines 341-355. -/
def labels (R : Rust) : List Label → List TT → Option (List Label × List TT × List TT)
  | acc, .group .brace us :: rest => some (acc, us, rest)
  | acc, .ident x :: rest => labels R (acc ++ [.ident x]) rest
  | acc, .lit l :: rest =>
    match R.toStr (R.ofLit false l) with
    | some s => labels R (acc ++ [.string s]) rest
    | none => none
  | acc, .group .paren us :: rest =>
    match R.expr us with
    | .ok e [] =>
      match R.toStr e with
      | some s => labels R (acc ++ [.string s]) rest
      | none => none
    | _ => none
  | _, _ => none

mutual

/-- `body_internal!($($tt)*)`, `crates/hcl-rs/src/macros.rs:160-168`. -/
def body (R : Rust) : Nat → List TT → Option (List Struct)
  | 0, _ => none
  | n + 1, ts =>
    match ts with
    | [.group .brace us] => body R n us
    | ts => structures R n [] ts

/-- `body_internal!(@structures [elems] tokens)`, `crates/hcl-rs/src/macros.rs:103-116`, and the block
rules, lines 124-152, with `structure_internal!`, lines 209-224. -/
def structures (R : Rust) : Nat → List Struct → List TT → Option (List Struct)
  | 0, _, _ => none
  | n + 1, acc, ts =>
    match ts with
    | [] => some acc
    | key :: .punct '=' :: t :: rest =>
      match attr R n key [t] with
      | some st => structures R n (acc ++ [st]) rest
      | none => none
    | t :: rest =>
      match name R t, labels R [] rest with
      | some i, some (ls, us, rest) =>
        match body R n us with
        | some b => structures R n (acc ++ [.block i ls b]) rest
        | none => none
      | _, _ => none

end

/-- `block_internal!`, `crates/hcl-rs/src/macros.rs:298-337`, and `block!`, lines 289-294. -/
def block (R : Rust) (n : Nat) : List TT → Option Struct
  | [.group .brace (t :: rest)] => go t rest
  | t :: rest => go t rest
  | [] => none
where
  /-- the rules behind that for braces -/
  go (t : TT) (rest : List TT) : Option Struct :=
    match name R t, labels R [] rest with
    | some i, some (ls, us, []) => (body R n us).map (.block i ls)
    | _, _ => none

end Verif.Macro
