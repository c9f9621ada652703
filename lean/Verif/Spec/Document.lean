import Verif.Spec.RoundTrip
/-!
Specification vocabulary for C65: the data that is written as a document and read back, with attributes,
blocks and labeled blocks.
-/

namespace Verif.Spec
open Verif

variable (E : FmtEnv) (bd : Build) (cfg : FmtCfg)

mutual

/-- Data that is a document or the body of a block: a struct whose fields, or a map whose entries, are
attributes and blocks; an enum variant with one value, which is an attribute or a block, or with fields, which is a
block; a newtype struct around any of these. -/
inductive DocBody : Ty → Datum → SVal → Prop
  | struct {n : Str} {fs : List (Str × Ty)} {ds : List Datum} {vs : List (Str × SVal)} :
      n ≠ exprMarker → n ≠ structMarker → (fs.map Prod.fst).Nodup → DocFields fs ds vs →
      DocBody (.struct n fs) (.list ds) (.struct n vs)
  | map {t : Ty} {es : List (Datum × Datum)} {vs : List (SVal × SVal)} :
      DocEntries t es vs → (es.map Prod.fst).Nodup → DocBody (.map .string t) (.map es) (.map vs)
  | newtypeVar {n x : Str} {vs : List (Str × VTy)} {i : Nat} {t : Ty} {d : Datum} {v : SVal} :
      n ≠ c!"$hcl::Expression" → (vs.map Prod.fst).Nodup → vs[i]? = .some (x, .newtype t) → IsIdentifier E.U x →
      DocField t d v → DocBody (.enum n vs) (.var i d) (.newtypeVariant x v)
  | structVar {n x : Str} {vs : List (Str × VTy)} {i : Nat} {fs : List (Str × Ty)} {ds : List Datum}
      {ws : List (Str × SVal)} :
      n ≠ c!"$hcl::Expression" → (vs.map Prod.fst).Nodup → vs[i]? = .some (x, .struct fs) → IsIdentifier E.U x →
      (fs.map Prod.fst).Nodup → DocFields fs ds ws → DocBody (.enum n vs) (.var i (.list ds)) (.structVariant x ws)
  | newtype {n : Str} {t : Ty} {d : Datum} {v : SVal} : n ≠ c!"$hcl::Body" → n ≠ labeledMarker → DocBody t d v →
      DocBody (.newtype n t) (.newtype d) (.newtypeStruct n v)

/-- The fields of a struct. -/
inductive DocFields : List (Str × Ty) → List Datum → List (Str × SVal) → Prop
  | nil : DocFields [] [] []
  | cons {f : Str} {t : Ty} {d : Datum} {v : SVal} {fs : List (Str × Ty)} {ds : List Datum}
      {vs : List (Str × SVal)} :
      IsIdentifier E.U f → DocField t d v → DocFields fs ds vs → DocFields ((f, t) :: fs) (d :: ds) ((f, v) :: vs)

/-- The entries of a map. -/
inductive DocEntries : Ty → List (Datum × Datum) → List (SVal × SVal) → Prop
  | nil {t : Ty} : DocEntries t [] []
  | cons {t : Ty} {x : Str} {d : Datum} {v : SVal} {es : List (Datum × Datum)} {vs : List (SVal × SVal)} :
      IsIdentifier E.U x → DocField t d v → DocEntries t es vs →
      DocEntries t ((.str x, d) :: es) ((.str x, v) :: vs)

/-- One field: an attribute, or a `Block<T>` or `LabeledBlock<T>`, possibly in an `Option`. -/
inductive DocField : Ty → Datum → SVal → Prop
  | attr {t : Ty} {d : Datum} {v : SVal} : Impl E.U t d v → AttrField v → ExprSafe E.U v → TextSafe E bd cfg v →
      DocField t d v
  | block {t : Ty} {d : Datum} {v : SVal} : DocBlocks t d v → DocField t d (.block v)
  | labeled {t : Ty} {d : Datum} {v : SVal} : DocLabeled t d v → DocField t d (.labeled v)
  | some {t : Ty} {d : Datum} {v : SVal} : DocField t d v → ¬ AttrField v → DocField (.option t) (.some d) (.some v)

/-- What is in a `Block`: one block, a sequence of at least two blocks, or labeled blocks. -/
inductive DocBlocks : Ty → Datum → SVal → Prop
  | one {t : Ty} {d : Datum} {v : SVal} : DocBody t d v → DocBlocks t d v
  | many {t : Ty} {ds : List Datum} {vs : List SVal} : DocBodies t ds vs → 2 ≤ ds.length →
      DocBlocks (.seq t) (.list ds) (.seq vs)
  | labeled {t : Ty} {d : Datum} {v : SVal} : DocLabeled t d v → DocBlocks t d (.labeled v)

/-- A sequence of blocks. -/
inductive DocBodies : Ty → List Datum → List SVal → Prop
  | nil {t : Ty} : DocBodies t [] []
  | cons {t : Ty} {d : Datum} {v : SVal} {ds : List Datum} {vs : List SVal} :
      DocBody t d v → DocBodies t ds vs → DocBodies t (d :: ds) (v :: vs)

/-- What is in a `LabeledBlock`: a struct with at least one field, a map with at least one entry, or an enum variant;
the names of the fields, the keys and the name of the variant are labels. -/
inductive DocLabeled : Ty → Datum → SVal → Prop
  | struct {n : Str} {fs : List (Str × Ty)} {ds : List Datum} {vs : List (Str × SVal)} :
      (fs.map Prod.fst).Nodup → fs ≠ [] → DocLabelFields fs ds vs → DocLabeled (.struct n fs) (.list ds) (.struct n vs)
  | newtypeVar {n x : Str} {vs : List (Str × VTy)} {i : Nat} {t : Ty} {d : Datum} {v : SVal} :
      n ≠ c!"$hcl::Expression" → (vs.map Prod.fst).Nodup → vs[i]? = .some (x, .newtype t) → StringSafe x →
      DocBlocks t d v → DocLabeled (.enum n vs) (.var i d) (.newtypeVariant x v)
  | map {t : Ty} {es : List (Datum × Datum)} {vs : List (SVal × SVal)} :
      DocLabels t es vs → (es.map Prod.fst).Nodup → es ≠ [] → DocLabeled (.map .string t) (.map es) (.map vs)

/-- The labels and the blocks they belong to. -/
inductive DocLabels : Ty → List (Datum × Datum) → List (SVal × SVal) → Prop
  | nil {t : Ty} : DocLabels t [] []
  | cons {t : Ty} {x : Str} {d : Datum} {v : SVal} {es : List (Datum × Datum)} {vs : List (SVal × SVal)} :
      StringSafe x → DocBlocks t d v → DocLabels t es vs →
      DocLabels t ((.str x, d) :: es) ((.str x, v) :: vs)

/-- The fields of a struct whose names are labels. -/
inductive DocLabelFields : List (Str × Ty) → List Datum → List (Str × SVal) → Prop
  | nil : DocLabelFields [] [] []
  | cons {f : Str} {t : Ty} {d : Datum} {v : SVal} {fs : List (Str × Ty)} {ds : List Datum}
      {vs : List (Str × SVal)} :
      StringSafe f → DocBlocks t d v → DocLabelFields fs ds vs →
      DocLabelFields ((f, t) :: fs) (d :: ds) ((f, v) :: vs)

end

/-- Data that is a document: like the body of a block, or an enum variant with several values, which is an
attribute with an array. -/
inductive DocRoot : Ty → Datum → SVal → Prop
  | body {t : Ty} {d : Datum} {v : SVal} : DocBody E bd cfg t d v → DocRoot t d v
  | tupleVar {n x : Str} {vs : List (Str × VTy)} {i : Nat} {ts : List Ty} {ds : List Datum} {ws : List SVal} :
      n ≠ c!"$hcl::Expression" → (vs.map Prod.fst).Nodup → vs[i]? = .some (x, .tuple ts) → IsIdentifier E.U x →
      ImplEach E.U ts ds ws → ExprSafe E.U (.seq ws) → TextSafe E bd cfg (.seq ws) →
      DocRoot (.enum n vs) (.var i (.list ds)) (.tupleVariant x ws)

end Verif.Spec
