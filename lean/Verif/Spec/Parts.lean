import Verif.Spec.Reads
/-!
What an operation is made of, for C68: the names of its parts and the parts themselves.

A struct is read from `Expression::Conditional`, `FuncCall`, `ForExpr`, `Traversal`, `Operation` and from a heredoc
as if it was an object with the fields of these types.
-/

namespace Verif.Spec
open Verif

/-- The text of an expression: strings and templates are text, everything else is written as an
interpolation by `format::to_interpolated_string`. -/
def textOf (E : FmtEnv) : Expr → Str
  | .string s => s
  | .template t => t.asStr
  | e => Fmt.toInterpolatedString (Fmt.expr E e)

/-- The fields of an operation. `opt`: a part that may be missing; `seq`: a part that is a list. -/
def partsOf : Expr → Option (List (Str × Src))
  | .cond c a b => some [(c!"cond_expr", .expr c), (c!"true_expr", .expr a), (c!"false_expr", .expr b)]
  | .call f args x => some [
      (c!"name", .access [(c!"namespace", .seq (f.namespaces.map .str)), (c!"name", .str f.name)]),
      (c!"args", .seq (args.map .expr)), (c!"expand_final", .bool x)]
  | .forE k v c ke ve g ce => some [(c!"key_var", .opt (k.map .str)), (c!"value_var", .str v),
      (c!"collection_expr", .expr c), (c!"key_expr", .opt (ke.map .expr)), (c!"value_expr", .expr ve),
      (c!"grouping", .bool g), (c!"cond_expr", .opt (ce.map .expr))]
  | .traversal e os => some [(c!"expr", .expr e), (c!"operators", .seq (os.map .travOp))]
  | .unary .neg e => some [(c!"operator", .str c!"-"), (c!"expr", .expr e)]
  | .unary .not e => some [(c!"operator", .str c!"!"), (c!"expr", .expr e)]
  | .binary l o r => some [(c!"lhs_expr", .expr l), (c!"operator", .str (signOf o)), (c!"rhs_expr", .expr r)]
  | .template (.heredoc d t .none) =>
    some [(c!"delimiter", .str d), (c!"template", .str t), (c!"strip", .str c!"<<")]
  | .template (.heredoc d t .indent) =>
    some [(c!"delimiter", .str d), (c!"template", .str t), (c!"strip", .str c!"<<-")]
  | _ => none
where
  /-- How a binary operator is written. -/
  signOf : BinOp → Str
    | .eq => c!"=="
    | .notEq => c!"!="
    | .lessEq => c!"<="
    | .greaterEq => c!">="
    | .less => c!"<"
    | .greater => c!">"
    | .plus => c!"+"
    | .minus => c!"-"
    | .mul => c!"*"
    | .div => c!"/"
    | .mod => c!"%"
    | .and => c!"&&"
    | .or => c!"||"

/-- What a field of a struct gets: what the part with its name is read as; or what a missing field is read as
(`None`, if the type is an `Option`). -/
def FieldOf (E : FmtEnv) (parts : List (Str × Src)) (f : Str × Ty) (d : Datum) : Prop :=
  (∃ s, (f.1, s) ∈ parts ∧ Deserializes E f.2 s d) ∨
    (f.1 ∉ parts.map Prod.fst ∧ d = .none ∧ ∃ t, f.2 = .option t)

/-- What an entry of a map gets. -/
def EntryOf (E : FmtEnv) (k v : Ty) (p : Str × Src) (d : Datum × Datum) : Prop :=
  Deserializes E k (.str p.1) d.1 ∧ Deserializes E v p.2 d.2

/-- What an entry of a `Value` gets. -/
def MemberOf (E : FmtEnv) (p : Str × Src) (q : Str × Value) : Prop :=
  q.1 = p.1 ∧ Deserializes E .value p.2 (.value q.2)

/-- The name of the variant that an operation is for an enum. Conditionals, calls, `for` expressions and traversals
are no variants. -/
def variantFor : Expr → Option Str
  | .unary _ _ => some c!"Unary"
  | .binary _ _ _ => some c!"Binary"
  | .template (.heredoc _ _ _) => some c!"Heredoc"
  | _ => none

/-- `ReadsParts E x ps t d`: the data of the variant `x`, which has the parts `ps`, is accepted for the type `t` as
`d`. It is an object with these entries, or, for an enum, again the variant `x`. -/
inductive ReadsParts (E : FmtEnv) (x : Str) (ps : List (Str × Src)) : Ty → Datum → Prop
  | ignored : ReadsParts E x ps .ignored .unit
  | value {es : List (Str × Value)} : List.Forall₂ (MemberOf E) ps es →
      ReadsParts E x ps .value (.value (.object es))
  | struct {n : Str} {fs : List (Str × Ty)} {ds : List Datum} : List.Forall₂ (FieldOf E ps) fs ds →
      ReadsParts E x ps (.struct n fs) (.list ds)
  | map {k v : Ty} {ds : List (Datum × Datum)} : List.Forall₂ (EntryOf E k v) ps ds →
      ReadsParts E x ps (.map k v) (.map ds)
  | newtypeVar {n : Str} {vs : List (Str × VTy)} {i : Nat} {t : Ty} {d : Datum} : vs[i]? = .some (x, .newtype t) →
      ReadsParts E x ps t d → ReadsParts E x ps (.enum n vs) (.var i d)
  | structVar {n : Str} {vs : List (Str × VTy)} {i : Nat} {fs : List (Str × Ty)} {ds : List Datum} :
      vs[i]? = .some (x, .struct fs) → List.Forall₂ (FieldOf E ps) fs ds →
      ReadsParts E x ps (.enum n vs) (.var i (.list ds))

/-- `ReadsOp E e ps t d`: the operation `e` with the parts `ps` is accepted for the type `t` as `d`: like every
expression, or by its parts. -/
inductive ReadsOp (E : FmtEnv) (e : Expr) (ps : List (Str × Src)) : Ty → Datum → Prop
  | string : ReadsOp E e ps .string (.str (textOf E e))
  | char {c : Char} : textOf E e = [c] → ReadsOp E e ps .char (.char c)
  | ident : IsIdentifier E.U (textOf E e) → ReadsOp E e ps .ident (.str (textOf E e))
  | value : ReadsOp E e ps .value (.value (toValue E e))
  | ignored : ReadsOp E e ps .ignored .unit
  | some {t : Ty} {d : Datum} : ReadsOp E e ps t d → ReadsOp E e ps (.option t) (.some d)
  | newtype {n : Str} {t : Ty} {d : Datum} : ReadsOp E e ps t d → ReadsOp E e ps (.newtype n t) (.newtype d)
  | struct {n : Str} {fs : List (Str × Ty)} {ds : List Datum} : List.Forall₂ (FieldOf E ps) fs ds →
      ReadsOp E e ps (.struct n fs) (.list ds)
  | map {k v : Ty} {ds : List (Datum × Datum)} : List.Forall₂ (EntryOf E k v) ps ds →
      ReadsOp E e ps (.map k v) (.map ds)
  | enum {n x : Str} {vs : List (Str × VTy)} {d : Datum} : variantFor e = .some x →
      ReadsParts E x ps (.enum n vs) d → ReadsOp E e ps (.enum n vs) d

/-- `ReadsText E s t d`: the text `s` of a template is accepted as the data of the variant `QuotedString`. -/
inductive ReadsText (E : FmtEnv) (s : Str) : Ty → Datum → Prop
  | string : ReadsText E s .string (.str s)
  | char {c : Char} : s = [c] → ReadsText E s .char (.char c)
  | ident : IsIdentifier E.U s → ReadsText E s .ident (.str s)
  | value : ReadsText E s .value (.value (.string s))
  | ignored : ReadsText E s .ignored .unit
  | newtypeVar {n : Str} {vs : List (Str × VTy)} {i : Nat} {t : Ty} {d : Datum} :
      vs[i]? = .some (c!"QuotedString", .newtype t) → ReadsText E s t d → ReadsText E s (.enum n vs) (.var i d)

/-- `ReadsQuoted E s t d`: the template `"s"` is accepted for the type `t` as `d`: as its text, also inside of `Some`,
newtypes and a variant `QuotedString`. -/
inductive ReadsQuoted (E : FmtEnv) (s : Str) : Ty → Datum → Prop
  | text {t : Ty} {d : Datum} : ReadsText E s t d → ReadsQuoted E s t d
  | some {t : Ty} {d : Datum} : ReadsQuoted E s t d → ReadsQuoted E s (.option t) (.some d)
  | newtype {n : Str} {t : Ty} {d : Datum} : ReadsQuoted E s t d → ReadsQuoted E s (.newtype n t) (.newtype d)

end Verif.Spec
