import Verif.Spec.Parts
/-!
Specification vocabulary for C68: which expressions are accepted for which type, and as what.
-/

namespace Verif.Spec
open Verif

/-- Without the parentheses around it. -/
def bare : Expr → Expr
  | .paren e => bare e
  | e => e
termination_by structural x => x

/-- Null, a boolean, a number, an array or an object. -/
def IsData : Expr → Prop
  | .null => True
  | .bool _ => True
  | .number _ => True
  | .array _ => True
  | .object _ => True
  | _ => False

/-- The text of a key: an identifier, a string or template, or what is written as an interpolation. Null, booleans,
numbers, arrays and objects are no text. -/
def textKey (E : FmtEnv) : ObjKey → Option Str
  | .ident x => some x
  | .expr e =>
    match bare e with
    | .null => none
    | .bool _ => none
    | .number _ => none
    | .array _ => none
    | .object _ => none
    | e => some (textOf E e)

/-- The key stands for one of the names: it is that name, or the number of its position. -/
inductive Denotes (E : FmtEnv) (names : List Str) : ObjKey → Str → Prop
  | text {k : ObjKey} {x : Str} : textKey E k = some x → x ∈ names → Denotes E names k x
  | pos {e : Expr} {i : Nat} {x : Str} : bare e = .number (.posInt i) → names[i]? = some x →
      Denotes E names (.expr e) x

/-- The key is text or a natural number: it can stand for a field. -/
def FieldKey (E : FmtEnv) (k : ObjKey) : Prop :=
  (∃ x, textKey E k = some x) ∨ ∃ e i, k = .expr e ∧ bare e = .number (.posInt i)

/-- All keys can stand for a field, and no two of them stand for the same one. (Entries that are no field may repeat
each other, and an identifier `a` and a string `"a"` are different keys of an object.) -/
def FieldsOnce (E : FmtEnv) (names : List Str) (es : List (ObjKey × Expr)) : Prop :=
  (∀ p ∈ es, FieldKey E p.1) ∧ es.Pairwise fun p q => ∀ x, Denotes E names p.1 x → ¬ Denotes E names q.1 x

mutual

/-- The expression as a `Value`: everything that is no data is text. There is none if a key is no text; of several
entries with the same text the last one counts. -/
def valueOf (E : FmtEnv) : Expr → Option Value
  | .null => some .null
  | .bool b => some (.bool b)
  | .number n => some (.number n)
  | .array es => (valuesOf E es).map .array
  | .object es => (entriesOf E es).map fun l => .object (Map.collect l)
  | .paren e => valueOf E e
  | e => some (.string (textOf E e))
termination_by structural x => x

def valuesOf (E : FmtEnv) : List Expr → Option (List Value)
  | [] => some []
  | e :: es => (valueOf E e).bind fun v => (valuesOf E es).map fun vs => v :: vs
termination_by structural x => x

def entriesOf (E : FmtEnv) : List (ObjKey × Expr) → Option (List (Str × Value))
  | [] => some []
  | (k, e) :: es => (textKey E k).bind fun x => (valueOf E e).bind fun v => (entriesOf E es).map fun l => (x, v) :: l
termination_by structural x => x

end

/-- The key as a `Value`. -/
def valueOfKey (E : FmtEnv) : ObjKey → Option Value
  | .ident x => some (.string x)
  | .expr e => valueOf E e

mutual

/-- The numbers in the expression are well formed, as all of the crate's numbers are. Operations, calls and so on count
as text, whatever is in them. -/
def Clean : Expr → Prop
  | .number n => WellFormed n
  | .array es => CleanList es
  | .object es => CleanEntries es
  | .paren e => Clean e
  | _ => True
termination_by structural x => x

def CleanList : List Expr → Prop
  | [] => True
  | e :: es => Clean e ∧ CleanList es
termination_by structural x => x

def CleanEntries : List (ObjKey × Expr) → Prop
  | [] => True
  | p :: es => CleanEntry p ∧ CleanEntries es
termination_by structural x => x

def CleanEntry : ObjKey × Expr → Prop
  | (k, v) => CleanKey k ∧ Clean v
termination_by structural x => x

def CleanKey : ObjKey → Prop
  | .ident _ => True
  | .expr e => Clean e
termination_by structural x => x

end

/-- The types whose visitors take data, and no text: numbers, booleans, sequences, maps and structs. -/
def DataTy : Ty → Prop
  | .bool => True
  | .sint _ => True
  | .uint _ => True
  | .f64 => True
  | .unit => True
  | .seq _ => True
  | .tuple _ => True
  | .map _ _ => True
  | .tupleStruct _ => True
  | .struct _ _ => True
  | .number => True
  | _ => False

mutual

/-- `ReadsE E t e d`: the expression `e` is accepted for the type `t` as `d`. -/
inductive ReadsE (E : FmtEnv) : Ty → Expr → Datum → Prop
  | bool (b : Bool) : ReadsE E .bool (.bool b) (.bool b)
  /-- integers in the range of the type -/
  | sint {bits : Nat} {n : N} {i : Int} : wholeOf n = .some i → -2 ^ (bits - 1) ≤ i → i ≤ 2 ^ (bits - 1) - 1 →
      ReadsE E (.sint bits) (.number n) (.int i)
  | uint {bits : Nat} {n : N} {i : Int} : wholeOf n = .some i → 0 ≤ i → i ≤ 2 ^ bits - 1 →
      ReadsE E (.uint bits) (.number n) (.int i)
  | f64 (n : N) : ReadsE E .f64 (.number n) (.f64 n.toF64)
  /-- every expression is text -/
  | char {e : Expr} {c : Char} : textOf E e = [c] → ReadsE E .char e (.char c)
  | string (e : Expr) : ReadsE E .string e (.str (textOf E e))
  | unit : ReadsE E .unit .null .unit
  | none {t : Ty} : ReadsE E (.option t) .null .none
  | some {t : Ty} {e : Expr} {d : Datum} : e ≠ .null → ReadsE E t e d → ReadsE E (.option t) e (.some d)
  | seq {t : Ty} {es : List Expr} {ds : List Datum} : ReadsAllE E t es ds → ReadsE E (.seq t) (.array es) (.list ds)
  | tuple {ts : List Ty} {es : List Expr} {ds : List Datum} : ReadsEachE E ts es ds →
      ReadsE E (.tuple ts) (.array es) (.list ds)
  | tupleStruct {ts : List Ty} {es : List Expr} {ds : List Datum} : ReadsEachE E ts es ds →
      ReadsE E (.tupleStruct ts) (.array es) (.list ds)
  | map {k t : Ty} {es : List (ObjKey × Expr)} {ds : List (Datum × Datum)} : ReadsEntriesE E k t es ds →
      ReadsE E (.map k t) (.object es) (.map ds)
  /-- a newtype struct: what is in it -/
  | newtype {n : Str} {t : Ty} {e : Expr} {d : Datum} : ReadsE E t e d → ReadsE E (.newtype n t) e (.newtype d)
  /-- a struct: an object with no field twice, or an array with the fields in order -/
  | struct {n : Str} {fs : List (Str × Ty)} {es : List (ObjKey × Expr)} {ds : List Datum} :
      FieldsOnce E (fs.map Prod.fst) es → ReadsFieldsE E (fs.map Prod.fst) fs es ds →
      ReadsE E (.struct n fs) (.object es) (.list ds)
  | structSeq {n : Str} {fs : List (Str × Ty)} {es : List Expr} {ds : List Datum} :
      ReadsEachE E (fs.map Prod.snd) es ds → ReadsE E (.struct n fs) (.array es) (.list ds)
  /-- an enum: the name of a variant without data, or an object whose first key is the name of a variant -/
  | unitVar {n x : Str} {vs : List (Str × VTy)} {i : Nat} : vs[i]? = .some (x, .unit) →
      ReadsE E (.enum n vs) (.string x) (.unitVar i)
  | unitVarNull {n : Str} {vs : List (Str × VTy)} {i : Nat} {k : ObjKey} {x : Str}
      {es : List (ObjKey × Expr)} : Denotes E (vs.map Prod.fst) k x → vs[i]? = .some (x, .unit) →
      ReadsE E (.enum n vs) (.object ((k, .null) :: es)) (.unitVar i)
  | newtypeVar {n : Str} {vs : List (Str × VTy)} {i : Nat} {t : Ty} {k : ObjKey} {x : Str} {w : Expr}
      {es : List (ObjKey × Expr)} {d : Datum} : Denotes E (vs.map Prod.fst) k x → vs[i]? = .some (x, .newtype t) →
      ReadsE E t w d →
      ReadsE E (.enum n vs) (.object ((k, w) :: es)) (.var i d)
  | tupleVar {n : Str} {vs : List (Str × VTy)} {i : Nat} {ts : List Ty} {k : ObjKey} {x : Str} {ws : List Expr}
      {es : List (ObjKey × Expr)} {ds : List Datum} : Denotes E (vs.map Prod.fst) k x →
      vs[i]? = .some (x, .tuple ts) → ReadsEachE E ts ws ds →
      ReadsE E (.enum n vs) (.object ((k, .array ws) :: es)) (.var i (.list ds))
  | structVar {n : Str} {vs : List (Str × VTy)} {i : Nat} {fs : List (Str × Ty)} {k : ObjKey} {x : Str}
      {ws es : List (ObjKey × Expr)} {ds : List Datum} : Denotes E (vs.map Prod.fst) k x →
      vs[i]? = .some (x, .struct fs) →
      FieldsOnce E (fs.map Prod.fst) ws → ReadsFieldsE E (fs.map Prod.fst) fs ws ds →
      ReadsE E (.enum n vs) (.object ((k, .object ws) :: es)) (.var i (.list ds))
  | ignored (e : Expr) : ReadsE E .ignored e .unit
  /-- the types of this crate -/
  | value {e : Expr} {v : Value} : valueOf E e = .some v → ReadsE E .value e (.value v)
  | number (n : N) : ReadsE E .number (.number n) (.number n)
  | numberParen {e : Expr} {d : Datum} : ReadsE E .number e d → ReadsE E .number (.paren e) d
  | ident {e : Expr} : IsIdentifier E.U (textOf E e) → ReadsE E .ident e (.str (textOf E e))
  /-- operations, calls and so on: see `Spec/Parts.lean` -/
  | op {e : Expr} {ps : List (Str × Src)} {t : Ty} {d : Datum} : partsOf e = .some ps → ReadsOp E e ps t d →
      ReadsE E t e d
  | quoted {s : Str} {t : Ty} {d : Datum} : ReadsQuoted E s t d → ReadsE E t (.template (.quoted s)) d
  | structVarOp {n : Str} {vs : List (Str × VTy)} {i : Nat} {fs : List (Str × Ty)} {k : ObjKey} {x : Str} {w : Expr}
      {ps : List (Str × Src)} {es : List (ObjKey × Expr)} {ds : List Datum} :
      Denotes E (vs.map Prod.fst) k x → vs[i]? = .some (x, .struct fs) → partsOf w = .some ps → List.Forall₂ (FieldOf E ps) fs ds →
      ReadsE E (.enum n vs) (.object ((k, w) :: es)) (.var i (.list ds))

/-- `ReadsKeyE E t k d`: the key `k` of an object is accepted for the type `t` as `d`. -/
inductive ReadsKeyE (E : FmtEnv) : Ty → ObjKey → Datum → Prop
  | char {k : ObjKey} {c : Char} : textKey E k = .some [c] → ReadsKeyE E .char k (.char c)
  | string {k : ObjKey} {x : Str} : textKey E k = .some x → ReadsKeyE E .string k (.str x)
  | ident {k : ObjKey} {x : Str} : textKey E k = .some x → IsIdentifier E.U x → ReadsKeyE E .ident k (.str x)
  | ignored (k : ObjKey) : ReadsKeyE E .ignored k .unit
  | value {k : ObjKey} {v : Value} : valueOfKey E k = .some v → ReadsKeyE E .value k (.value v)
  /-- data as a key: parentheses around it do not matter -/
  | data {t : Ty} {e : Expr} {d : Datum} : DataTy t → IsData (bare e) → ReadsE E t (bare e) d →
      ReadsKeyE E t (.expr e) d
  | none {t : Ty} {e : Expr} : bare e = .null → ReadsKeyE E (.option t) (.expr e) .none
  /-- a newtype struct: the first element of an array -/
  | newtype {n : Str} {t : Ty} {e w : Expr} {es : List Expr} {d : Datum} : bare e = .array (w :: es) → ReadsE E t w d →
      ReadsKeyE E (.newtype n t) (.expr e) (.newtype d)
  | identVar {n : Str} {vs : List (Str × VTy)} {i : Nat} {t : Ty} {x : Str} {d : Datum} :
      vs[i]? = .some (c!"Identifier", .newtype t) → ReadsKeyE E t (.ident x) d →
      ReadsKeyE E (.enum n vs) (.ident x) (.var i d)
  | exprVar {n : Str} {vs : List (Str × VTy)} {i : Nat} {t : Ty} {e : Expr} {d : Datum} :
      vs[i]? = .some (c!"Expression", .newtype t) → ReadsE E t e d →
      ReadsKeyE E (.enum n vs) (.expr e) (.var i d)
  | exprUnit {n : Str} {vs : List (Str × VTy)} {i : Nat} {e : Expr} : vs[i]? = .some (c!"Expression", .unit) →
      bare e = .null → ReadsKeyE E (.enum n vs) (.expr e) (.unitVar i)
  | exprTuple {n : Str} {vs : List (Str × VTy)} {i : Nat} {ts : List Ty} {e : Expr} {es : List Expr} {ds : List Datum} :
      vs[i]? = .some (c!"Expression", .tuple ts) → bare e = .array es → ReadsEachE E ts es ds →
      ReadsKeyE E (.enum n vs) (.expr e) (.var i (.list ds))
  | exprStruct {n : Str} {vs : List (Str × VTy)} {i : Nat} {fs : List (Str × Ty)} {e : Expr}
      {es : List (ObjKey × Expr)} {ds : List Datum} : vs[i]? = .some (c!"Expression", .struct fs) →
      bare e = .object es → FieldsOnce E (fs.map Prod.fst) es → ReadsFieldsE E (fs.map Prod.fst) fs es ds →
      ReadsKeyE E (.enum n vs) (.expr e) (.var i (.list ds))
  | exprStructSeq {n : Str} {vs : List (Str × VTy)} {i : Nat} {fs : List (Str × Ty)} {e : Expr} {es : List Expr}
      {ds : List Datum} : vs[i]? = .some (c!"Expression", .struct fs) → bare e = .array es →
      ReadsEachE E (fs.map Prod.snd) es ds → ReadsKeyE E (.enum n vs) (.expr e) (.var i (.list ds))

/-- Every element of an array is accepted. -/
inductive ReadsAllE (E : FmtEnv) : Ty → List Expr → List Datum → Prop
  | nil {t : Ty} : ReadsAllE E t [] []
  | cons {t : Ty} {e : Expr} {d : Datum} {es : List Expr} {ds : List Datum} : ReadsE E t e d →
      ReadsAllE E t es ds → ReadsAllE E t (e :: es) (d :: ds)

/-- An array has an element for each type; more elements are ignored. -/
inductive ReadsEachE (E : FmtEnv) : List Ty → List Expr → List Datum → Prop
  | nil {es : List Expr} : ReadsEachE E [] es []
  | cons {t : Ty} {e : Expr} {d : Datum} {ts : List Ty} {es : List Expr} {ds : List Datum} : ReadsE E t e d →
      ReadsEachE E ts es ds → ReadsEachE E (t :: ts) (e :: es) (d :: ds)

/-- Every entry of an object is accepted. -/
inductive ReadsEntriesE (E : FmtEnv) : Ty → Ty → List (ObjKey × Expr) → List (Datum × Datum) → Prop
  | nil {k t : Ty} : ReadsEntriesE E k t [] []
  | cons {k t : Ty} {x : ObjKey} {e : Expr} {c d : Datum} {es : List (ObjKey × Expr)} {ds : List (Datum × Datum)} :
      ReadsKeyE E k x c → ReadsE E t e d → ReadsEntriesE E k t es ds →
      ReadsEntriesE E k t ((x, e) :: es) ((c, d) :: ds)

/-- `ReadsFieldsE E names fs es ds`, with the `names` of all fields of the struct: an object has an entry for each field;
only fields that are an `Option` may be missing. Other entries are ignored. -/
inductive ReadsFieldsE (E : FmtEnv) : List Str → List (Str × Ty) → List (ObjKey × Expr) → List Datum → Prop
  | nil {ns : List Str} {es : List (ObjKey × Expr)} : ReadsFieldsE E ns [] es []
  | found {ns : List Str} {k : ObjKey} {f : Str} {t : Ty} {e : Expr} {d : Datum} {fs : List (Str × Ty)}
      {es : List (ObjKey × Expr)} {ds : List Datum} : (k, e) ∈ es → Denotes E ns k f → ReadsE E t e d →
      ReadsFieldsE E ns fs es ds → ReadsFieldsE E ns ((f, t) :: fs) es (d :: ds)
  | missing {ns : List Str} {f : Str} {t : Ty} {fs : List (Str × Ty)} {es : List (ObjKey × Expr)} {ds : List Datum} :
      (∀ p ∈ es, ¬ Denotes E ns p.1 f) → ReadsFieldsE E ns fs es ds →
      ReadsFieldsE E ns ((f, .option t) :: fs) es (.none :: ds)

end

mutual

/-- The types that are written in the same way in values and in expressions: without newtype structs, struct
variants and maps whose keys are enums. -/
def Portable : Ty → Prop
  | .option t => Portable t
  | .seq t => Portable t
  | .tuple ts => PortableTys ts
  | .map (.enum _ _) _ => False
  | .map _ t => Portable t
  | .newtype _ _ => False
  | .tupleStruct ts => PortableTys ts
  | .struct _ fs => PortableFields fs
  | .enum _ vs => PortableVariants vs
  | _ => True
termination_by structural x => x

def PortableTys : List Ty → Prop
  | [] => True
  | t :: ts => Portable t ∧ PortableTys ts
termination_by structural x => x

def PortableFields : List (Str × Ty) → Prop
  | [] => True
  | f :: fs => PortableField f ∧ PortableFields fs
termination_by structural x => x

def PortableField : Str × Ty → Prop
  | (_, t) => Portable t
termination_by structural x => x

def PortableVariants : List (Str × VTy) → Prop
  | [] => True
  | v :: vs => PortableVariant v ∧ PortableVariants vs
termination_by structural x => x

def PortableVariant : Str × VTy → Prop
  | (_, v) => PortableVTy v
termination_by structural x => x

def PortableVTy : VTy → Prop
  | .unit => True
  | .newtype t => Portable t
  | .tuple ts => PortableTys ts
  | .struct _ => False
termination_by structural x => x

end

end Verif.Spec
