import Verif.Spec.De
/-!
Specification vocabulary for C67: which values are accepted for which type, and as what.
-/

namespace Verif.Spec
open Verif

mutual

/-- The types of the user's data, and of this crate those that are data: the names of the fields of a struct
and of the variants of an enum are distinct, and no type has one of the names that this crate reserves
(`crates/hcl-rs/src/expr/de.rs:268`, `crates/hcl-rs/src/structure/body.rs:16-18`). -/
def UserTy : Ty → Prop
  | .option t => UserTy t
  | .seq t => UserTy t
  | .tuple ts => UserTys ts
  | .map k t => UserTy k ∧ UserTy t
  | .newtype n t => n ≠ c!"$hcl::Body" ∧ UserTy t
  | .tupleStruct ts => UserTys ts
  | .struct _ fs => (fs.map Prod.fst).Nodup ∧ UserFields fs
  | .enum n vs => (vs.map Prod.fst).Nodup ∧ n ≠ c!"$hcl::Expression" ∧ UserVariants vs
  | .unOp => False
  | .binOp => False
  | .strip => False
  | .expr => False
  | .body => False
  | _ => True
termination_by structural x => x

def UserTys : List Ty → Prop
  | [] => True
  | t :: ts => UserTy t ∧ UserTys ts
termination_by structural x => x

def UserFields : List (Str × Ty) → Prop
  | [] => True
  | f :: fs => UserField f ∧ UserFields fs
termination_by structural x => x

def UserField : Str × Ty → Prop
  | (_, t) => UserTy t
termination_by structural x => x

def UserVariants : List (Str × VTy) → Prop
  | [] => True
  | v :: vs => UserVariant v ∧ UserVariants vs
termination_by structural x => x

def UserVariant : Str × VTy → Prop
  | (_, v) => UserVTy v
termination_by structural x => x

def UserVTy : VTy → Prop
  | .unit => True
  | .newtype t => UserTy t
  | .tuple ts => UserTys ts
  | .struct fs => (fs.map Prod.fst).Nodup ∧ UserFields fs
termination_by structural x => x

end

/-- The number as an integer, if it is one. -/
def wholeOf : N → Option Int
  | .posInt n => some n
  | .negInt i => some i
  | .float _ => none

/-- `ReadsKey U k x d`: the key `x` of an object is accepted for the type `k` as `d`. -/
inductive ReadsKey (U : Uni) : Ty → Str → Datum → Prop
  | char (c : Char) : ReadsKey U .char [c] (.char c)
  | string (s : Str) : ReadsKey U .string s (.str s)
  | ident {x : Str} : IsIdentifier U x → ReadsKey U .ident x (.str x)
  | unitVar {n x : Str} {vs : List (Str × VTy)} {i : Nat} : vs[i]? = .some (x, .unit) →
      ReadsKey U (.enum n vs) x (.unitVar i)
  | ignored (s : Str) : ReadsKey U .ignored s .unit
  | value (s : Str) : ReadsKey U .value s (.value (.string s))

mutual

/-- `Reads U t v d`: the value `v` is accepted for the type `t` as `d`. -/
inductive Reads (U : Uni) : Ty → Value → Datum → Prop
  | bool (b : Bool) : Reads U .bool (.bool b) (.bool b)
  /-- integers in the range of the type -/
  | sint {bits : Nat} {n : N} {i : Int} : wholeOf n = .some i → -2 ^ (bits - 1) ≤ i → i ≤ 2 ^ (bits - 1) - 1 →
      Reads U (.sint bits) (.number n) (.int i)
  | uint {bits : Nat} {n : N} {i : Int} : wholeOf n = .some i → 0 ≤ i → i ≤ 2 ^ bits - 1 →
      Reads U (.uint bits) (.number n) (.int i)
  | f64 (n : N) : Reads U .f64 (.number n) (.f64 n.toF64)
  /-- strings of one character -/
  | char (c : Char) : Reads U .char (.string [c]) (.char c)
  | string (s : Str) : Reads U .string (.string s) (.str s)
  | unit : Reads U .unit .null .unit
  | none {t : Ty} : Reads U (.option t) .null .none
  | some {t : Ty} {v : Value} {d : Datum} : v ≠ .null → Reads U t v d → Reads U (.option t) v (.some d)
  | seq {t : Ty} {vs : List Value} {ds : List Datum} : ReadsAll U t vs ds → Reads U (.seq t) (.array vs) (.list ds)
  | tuple {ts : List Ty} {vs : List Value} {ds : List Datum} : ReadsEach U ts vs ds →
      Reads U (.tuple ts) (.array vs) (.list ds)
  | tupleStruct {ts : List Ty} {vs : List Value} {ds : List Datum} : ReadsEach U ts vs ds →
      Reads U (.tupleStruct ts) (.array vs) (.list ds)
  | map {k t : Ty} {es : List (Str × Value)} {ds : List (Datum × Datum)} : ReadsEntries U k t es ds →
      Reads U (.map k t) (.object es) (.map ds)
  /-- a newtype struct: an array, of which the first element counts -/
  | newtype {n : Str} {t : Ty} {v : Value} {vs : List Value} {d : Datum} : Reads U t v d →
      Reads U (.newtype n t) (.array (v :: vs)) (.newtype d)
  /-- a struct: an object, or an array with the fields in order -/
  | struct {n : Str} {fs : List (Str × Ty)} {es : List (Str × Value)} {ds : List Datum} : ReadsFields U fs es ds →
      Reads U (.struct n fs) (.object es) (.list ds)
  | structSeq {n : Str} {fs : List (Str × Ty)} {vs : List Value} {ds : List Datum} :
      ReadsEach U (fs.map Prod.snd) vs ds → Reads U (.struct n fs) (.array vs) (.list ds)
  /-- an enum: the name of a variant without data, or an object whose first key is the name of a variant with
  data -/
  | unitVar {n x : Str} {vs : List (Str × VTy)} {i : Nat} : vs[i]? = .some (x, .unit) →
      Reads U (.enum n vs) (.string x) (.unitVar i)
  | newtypeVar {n x : Str} {vs : List (Str × VTy)} {i : Nat} {t : Ty} {w : Value} {es : List (Str × Value)}
      {d : Datum} : vs[i]? = .some (x, .newtype t) → Reads U t w d →
      Reads U (.enum n vs) (.object ((x, w) :: es)) (.var i d)
  | tupleVar {n x : Str} {vs : List (Str × VTy)} {i : Nat} {ts : List Ty} {ws : List Value}
      {es : List (Str × Value)} {ds : List Datum} : vs[i]? = .some (x, .tuple ts) → ReadsEach U ts ws ds →
      Reads U (.enum n vs) (.object ((x, .array ws) :: es)) (.var i (.list ds))
  | structVar {n x : Str} {vs : List (Str × VTy)} {i : Nat} {fs : List (Str × Ty)} {ws es : List (Str × Value)}
      {ds : List Datum} : vs[i]? = .some (x, .struct fs) → ReadsFields U fs ws ds →
      Reads U (.enum n vs) (.object ((x, .object ws) :: es)) (.var i (.list ds))
  | structVarSeq {n x : Str} {vs : List (Str × VTy)} {i : Nat} {fs : List (Str × Ty)} {ws : List Value}
      {es : List (Str × Value)} {ds : List Datum} : vs[i]? = .some (x, .struct fs) →
      ReadsEach U (fs.map Prod.snd) ws ds →
      Reads U (.enum n vs) (.object ((x, .array ws) :: es)) (.var i (.list ds))
  | ignored (v : Value) : Reads U .ignored v .unit
  /-- the types of this crate -/
  | value (v : Value) : Reads U .value v (.value v)
  | number (n : N) : Reads U .number (.number n) (.number n)
  | ident {x : Str} : IsIdentifier U x → Reads U .ident (.string x) (.str x)

/-- Every element of an array is accepted. -/
inductive ReadsAll (U : Uni) : Ty → List Value → List Datum → Prop
  | nil {t : Ty} : ReadsAll U t [] []
  | cons {t : Ty} {v : Value} {d : Datum} {vs : List Value} {ds : List Datum} : Reads U t v d →
      ReadsAll U t vs ds → ReadsAll U t (v :: vs) (d :: ds)

/-- An array has an element for each type; more elements are ignored. -/
inductive ReadsEach (U : Uni) : List Ty → List Value → List Datum → Prop
  | nil {vs : List Value} : ReadsEach U [] vs []
  | cons {t : Ty} {v : Value} {d : Datum} {ts : List Ty} {vs : List Value} {ds : List Datum} : Reads U t v d →
      ReadsEach U ts vs ds → ReadsEach U (t :: ts) (v :: vs) (d :: ds)

/-- Every entry of an object is accepted. -/
inductive ReadsEntries (U : Uni) : Ty → Ty → List (Str × Value) → List (Datum × Datum) → Prop
  | nil {k t : Ty} : ReadsEntries U k t [] []
  | cons {k t : Ty} {x : Str} {v : Value} {c d : Datum} {es : List (Str × Value)} {ds : List (Datum × Datum)} :
      ReadsKey U k x c → Reads U t v d → ReadsEntries U k t es ds →
      ReadsEntries U k t ((x, v) :: es) ((c, d) :: ds)

/-- An object has an entry for each field; only fields that are an `Option` may be missing. Other entries are
ignored. -/
inductive ReadsFields (U : Uni) : List (Str × Ty) → List (Str × Value) → List Datum → Prop
  | nil {es : List (Str × Value)} : ReadsFields U [] es []
  | found {f : Str} {t : Ty} {v : Value} {d : Datum} {fs : List (Str × Ty)} {es : List (Str × Value)}
      {ds : List Datum} : (f, v) ∈ es → Reads U t v d → ReadsFields U fs es ds →
      ReadsFields U ((f, t) :: fs) es (d :: ds)
  | missing {f : Str} {t : Ty} {fs : List (Str × Ty)} {es : List (Str × Value)} {ds : List Datum} :
      f ∉ es.map Prod.fst → ReadsFields U fs es ds → ReadsFields U ((f, .option t) :: fs) es (.none :: ds)

end

end Verif.Spec
