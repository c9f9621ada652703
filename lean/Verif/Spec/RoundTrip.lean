import Verif.Spec.De
import Verif.Spec.Printable
/-!
Specification vocabulary for round trips: what the implementations of `Serialize` do that belong to the
types of `Ty`, and the data that survives.
-/

namespace Verif.Spec
open Verif

mutual

/-- `Impl U t d v`: to serialize the value `d` of type `t`, `Serialize for t` does `v`. The implementations
of the standard library and of `serde` (external) and the derived ones are taken from memory; those of this
crate are the ones of `C48`, `C57` to `C60`. The names of the fields of a struct and of the variants of an
enum are distinct, and are not those that this crate reserves for itself. The values have the ranges of
their types. A map has each key once. -/
inductive Impl (U : Uni) : Ty → Datum → SVal → Prop
  | bool (b : Bool) : Impl U .bool (.bool b) (.bool b)
  | sint {bits : Nat} {i : Int} : bits ≤ 64 → -2 ^ (bits - 1) ≤ i → i ≤ 2 ^ (bits - 1) - 1 →
      Impl U (.sint bits) (.int i) (.int i)
  | uint {bits n : Nat} : bits ≤ 32 → n < 2 ^ bits → Impl U (.uint bits) (.int n) (.uint n)
  | u64 {n : Nat} : n < 2 ^ 64 → Impl U (.uint 64) (.int n) (.u64 n)
  | f64 (x : F64) : Impl U .f64 (.f64 x) (.f64 x)
  | char (c : Char) : Impl U .char (.char c) (.char c)
  | string (s : Str) : Impl U .string (.str s) (.str s)
  | unit : Impl U .unit .unit .unit
  | none (t : Ty) : Impl U (.option t) .none .unit
  | some {t : Ty} {d : Datum} {v : SVal} : Impl U t d v → Impl U (.option t) (.some d) (.some v)
  | seq {t : Ty} {ds : List Datum} {vs : List SVal} : ImplAll U t ds vs → Impl U (.seq t) (.list ds) (.seq vs)
  | tuple {ts : List Ty} {ds : List Datum} {vs : List SVal} :
      ImplEach U ts ds vs → Impl U (.tuple ts) (.list ds) (.seq vs)
  | tupleStruct {ts : List Ty} {ds : List Datum} {vs : List SVal} :
      ImplEach U ts ds vs → Impl U (.tupleStruct ts) (.list ds) (.seq vs)
  | map {k t : Ty} {es : List (Datum × Datum)} {vs : List (SVal × SVal)} :
      ImplEntries U k t es vs → (es.map Prod.fst).Nodup → Impl U (.map k t) (.map es) (.map vs)
  | newtype {n : Str} {t : Ty} {d : Datum} {v : SVal} :
      Impl U t d v → Impl U (.newtype n t) (.newtype d) (.newtypeStruct n v)
  | struct {n : Str} {fs : List (Str × Ty)} {ds : List Datum} {vs : List (Str × SVal)} :
      n ≠ exprMarker → n ≠ structMarker → (fs.map Prod.fst).Nodup → ImplFields U fs ds vs →
      Impl U (.struct n fs) (.list ds) (.struct n vs)
  | unitVar {n x : Str} {vs : List (Str × VTy)} {i : Nat} :
      n ≠ c!"$hcl::Expression" → (vs.map Prod.fst).Nodup → vs[i]? = .some (x, .unit) →
      Impl U (.enum n vs) (.unitVar i) (.unitVariant x)
  | newtypeVar {n x : Str} {vs : List (Str × VTy)} {i : Nat} {t : Ty} {d : Datum} {v : SVal} :
      n ≠ c!"$hcl::Expression" → (vs.map Prod.fst).Nodup → vs[i]? = .some (x, .newtype t) → Impl U t d v →
      Impl U (.enum n vs) (.var i d) (.newtypeVariant x v)
  | tupleVar {n x : Str} {vs : List (Str × VTy)} {i : Nat} {ts : List Ty} {ds : List Datum} {ws : List SVal} :
      n ≠ c!"$hcl::Expression" → (vs.map Prod.fst).Nodup → vs[i]? = .some (x, .tuple ts) → ImplEach U ts ds ws →
      Impl U (.enum n vs) (.var i (.list ds)) (.tupleVariant x ws)
  | structVar {n x : Str} {vs : List (Str × VTy)} {i : Nat} {fs : List (Str × Ty)} {ds : List Datum}
      {ws : List (Str × SVal)} :
      n ≠ c!"$hcl::Expression" → (vs.map Prod.fst).Nodup → vs[i]? = .some (x, .struct fs) →
      (fs.map Prod.fst).Nodup → ImplFields U fs ds ws →
      Impl U (.enum n vs) (.var i (.list ds)) (.structVariant x ws)
  /-- `Block<T>` and `LabeledBlock<T>` -/
  | block {t : Ty} {d : Datum} {v : SVal} : Impl U t d v → Impl U t d (.block v)
  | labeled {t : Ty} {d : Datum} {v : SVal} : Impl U t d v → Impl U t d (.labeled v)
  /-- the types of this crate -/
  | number {n : N} {v : SVal} : WellFormed n → v = (Value.number n).sval → Impl U .number (.number n) v
  | ident {x : Str} : IsIdentifier U x → Impl U .ident (.str x) (.str x)
  | value {w : Value} {v : SVal} : w.WF → NumbersOk w → v = w.sval → Impl U .value (.value w) v
  | expr {e : Expr} : Sound U e → Impl U .expr (.expr e) (.hclExpr e)

/-- Each element of a `Vec`. -/
inductive ImplAll (U : Uni) : Ty → List Datum → List SVal → Prop
  | nil {t : Ty} : ImplAll U t [] []
  | cons {t : Ty} {d : Datum} {v : SVal} {ds : List Datum} {vs : List SVal} :
      Impl U t d v → ImplAll U t ds vs → ImplAll U t (d :: ds) (v :: vs)

/-- Each component of a tuple. -/
inductive ImplEach (U : Uni) : List Ty → List Datum → List SVal → Prop
  | nil : ImplEach U [] [] []
  | cons {t : Ty} {d : Datum} {v : SVal} {ts : List Ty} {ds : List Datum} {vs : List SVal} :
      Impl U t d v → ImplEach U ts ds vs → ImplEach U (t :: ts) (d :: ds) (v :: vs)

/-- Each entry of a map. -/
inductive ImplEntries (U : Uni) : Ty → Ty → List (Datum × Datum) → List (SVal × SVal) → Prop
  | nil {k t : Ty} : ImplEntries U k t [] []
  | cons {k t : Ty} {x y : Datum} {v w : SVal} {es : List (Datum × Datum)} {vs : List (SVal × SVal)} :
      Impl U k x v → Impl U t y w → ImplEntries U k t es vs →
      ImplEntries U k t ((x, y) :: es) ((v, w) :: vs)

/-- Each field of a struct. -/
inductive ImplFields (U : Uni) : List (Str × Ty) → List Datum → List (Str × SVal) → Prop
  | nil : ImplFields U [] [] []
  | cons {f : Str} {t : Ty} {d : Datum} {v : SVal} {fs : List (Str × Ty)} {ds : List Datum}
      {vs : List (Str × SVal)} :
      Impl U t d v → ImplFields U fs ds vs → ImplFields U ((f, t) :: fs) (d :: ds) ((f, v) :: vs)

end

/-- The value is serialized as `null`. -/
def nullLike : SVal → Bool
  | .unit => true
  | .some v => nullLike v
  | .newtypeStruct _ v => nullLike v
  | .block v => nullLike v
  | .labeled v => nullLike v
  | .hclExpr .null => true
  | _ => false

/-- The float is finite, and if it has no fraction it is the same after a conversion to `i64` and back:
neither negative zero nor out of the range of `i64`. -/
def FloatSafe (x : F64) : Prop :=
  x.isFinite = true ∧ (x.noFraction = true → F64.ofInt x.toI64 = x)

/-- The key is a string, a character or an integer. -/
def ExprKey : SVal → Prop
  | .str _ => True
  | .char _ => True
  | .int _ => True
  | .uint _ => True
  | .u64 _ => True
  | _ => False

/-- The key is a string, a character or an enum variant without data. -/
def ValueKey : SVal → Prop
  | .str _ => True
  | .char _ => True
  | .unitVariant _ => True
  | _ => False

mutual
/-- Data that survives in an expression: floats are safe, `Some` does not contain what is serialized as
`null`, the keys of maps are strings, characters or integers, and the names of enum variants with one value
are identifiers. -/
def ExprSafe (U : Uni) : SVal → Prop
  | .f64 x => FloatSafe x
  | .some v => nullLike v = false ∧ ExprSafe U v
  | .newtypeStruct _ v => ExprSafe U v
  | .newtypeVariant x v => IsIdentifier U x ∧ ExprSafe U v
  | .seq vs => ExprSafeAll U vs
  | .tupleVariant _ vs => ExprSafeAll U vs
  | .map es => ExprSafeEntries U es
  | .struct _ fs => ExprSafeFields U fs
  | .structVariant _ fs => ExprSafeFields U fs
  | .block v => ExprSafe U v
  | .labeled v => ExprSafe U v
  | _ => True
termination_by structural x => x
def ExprSafeAll (U : Uni) : List SVal → Prop
  | [] => True
  | v :: vs => ExprSafe U v ∧ ExprSafeAll U vs
termination_by structural x => x
def ExprSafeEntries (U : Uni) : List (SVal × SVal) → Prop
  | [] => True
  | e :: es => ExprSafeEntry U e ∧ ExprSafeEntries U es
termination_by structural x => x
def ExprSafeEntry (U : Uni) : SVal × SVal → Prop
  | (k, v) => ExprKey k ∧ ExprSafe U v
termination_by structural x => x
def ExprSafeFields (U : Uni) : List (Str × SVal) → Prop
  | [] => True
  | f :: fs => ExprSafeField U f ∧ ExprSafeFields U fs
termination_by structural x => x
def ExprSafeField (U : Uni) : Str × SVal → Prop
  | (_, v) => ExprSafe U v
termination_by structural x => x
end

mutual
/-- Data that survives in a value: floats are safe, `Some` does not contain what is serialized as `null`,
the keys of maps are strings, characters or enum variants without data, and there are no newtype structs
and no expressions of this crate. -/
def ValueSafe : SVal → Prop
  | .f64 x => FloatSafe x
  | .some v => nullLike v = false ∧ ValueSafe v
  | .newtypeStruct _ _ => False
  | .newtypeVariant _ v => ValueSafe v
  | .seq vs => ValueSafeAll vs
  | .tupleVariant _ vs => ValueSafeAll vs
  | .map es => ValueSafeEntries es
  | .struct _ fs => ValueSafeFields fs
  | .structVariant _ fs => ValueSafeFields fs
  | .block v => ValueSafe v
  | .labeled v => ValueSafe v
  | .hclExpr _ => False
  | _ => True
termination_by structural x => x
def ValueSafeAll : List SVal → Prop
  | [] => True
  | v :: vs => ValueSafe v ∧ ValueSafeAll vs
termination_by structural x => x
def ValueSafeEntries : List (SVal × SVal) → Prop
  | [] => True
  | e :: es => ValueSafeEntry e ∧ ValueSafeEntries es
termination_by structural x => x
def ValueSafeEntry : SVal × SVal → Prop
  | (k, v) => ValueKey k ∧ ValueSafe v
termination_by structural x => x
def ValueSafeFields : List (Str × SVal) → Prop
  | [] => True
  | f :: fs => ValueSafeField f ∧ ValueSafeFields fs
termination_by structural x => x
def ValueSafeField : Str × SVal → Prop
  | (_, v) => ValueSafe v
termination_by structural x => x
end

/-- The value is serialized as an expression whose text starts with the word `for`; only values of type
`Expression` can do that. -/
def forLike : SVal → Bool
  | .some v => forLike v
  | .newtypeStruct _ v => forLike v
  | .block v => forLike v
  | .labeled v => forLike v
  | .hclExpr e => startsFor e
  | _ => false

/-- The first element of an array must not start with `for`. -/
def headForLike : List SVal → Bool
  | v :: _ => forLike v
  | [] => false

/-- The key of a map can be written and read: a string whose markers are all escaped, a character, or an
integer that is not negative. A negative integer can be taken for a continuation of the entry in front. -/
def TextKey : SVal → Prop
  | .str s => StringSafe s
  | .char _ => True
  | .int i => 0 ≤ i
  | .uint _ => True
  | .u64 _ => True
  | _ => False

section
variable (E : FmtEnv) (bd : Build) (cfg : FmtCfg)

mutual
/-- Data that can be written and read: see `StringSafe` for strings and names, `NumberSafe` for numbers and
`Printable` for expressions. The name of a newtype variant is written without quotes, so it is neither a
keyword nor `for`. -/
def TextSafe : SVal → Prop
  | .int i => bd = .debug → i ≠ -2 ^ 63
  | .f64 x => ∀ n, N.fromF64 x = some n → NumberSafe E bd n
  | .str s => StringSafe s
  | .unitVariant x => StringSafe x
  | .some v => TextSafe v
  | .newtypeStruct _ v => TextSafe v
  | .newtypeVariant x v => x ∉ Syn.keywords ∧ x ≠ c!"for" ∧ TextSafe v
  | .seq vs => TextSafeAll vs ∧ headForLike vs = false
  | .tupleVariant x vs => StringSafe x ∧ TextSafeAll vs ∧ headForLike vs = false
  | .map es => TextSafeEntries es
  | .struct _ fs => TextSafeFields fs
  | .structVariant x fs => StringSafe x ∧ TextSafeFields fs
  | .block v => TextSafe v
  | .labeled v => TextSafe v
  | .hclExpr e => Printable E bd cfg false e
  | _ => True
termination_by structural x => x
def TextSafeAll : List SVal → Prop
  | [] => True
  | v :: vs => TextSafe v ∧ TextSafeAll vs
termination_by structural x => x
def TextSafeEntries : List (SVal × SVal) → Prop
  | [] => True
  | e :: es => TextSafeEntry e ∧ TextSafeEntries es
termination_by structural x => x
def TextSafeEntry : SVal × SVal → Prop
  | (k, v) => TextKey k ∧ TextSafe v
termination_by structural x => x
def TextSafeFields : List (Str × SVal) → Prop
  | [] => True
  | f :: fs => TextSafeField f ∧ TextSafeFields fs
termination_by structural x => x
def TextSafeField : Str × SVal → Prop
  | (x, v) => StringSafe x ∧ TextSafe v
termination_by structural x => x
end

end

end Verif.Spec
