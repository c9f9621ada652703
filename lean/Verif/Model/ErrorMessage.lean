import Verif.Basic
/-!
The message of a parse error. What the parsers note about their expectations is the argument.
-/

namespace Verif

/-- `StrContext` of the parser library: what a parser that failed was parsing, or what it expected. Expectations are
given by the text they display as. -/
inductive ParseNote
  | label (s : Str)
  | expected (s : Str)

/-- `find_map` for labels, `crates/hcl-edit/src/parser/error.rs:174-177`. -/
def ParseNote.asLabel : ParseNote → Option Str
  | .label s => some s
  | .expected _ => none

/-- `filter_map` for expectations, `crates/hcl-edit/src/parser/error.rs:179-185`. -/
def ParseNote.asExpected : ParseNote → Option Str
  | .expected s => some s
  | .label _ => none

/-- The loop over the expectations from the one with index `i`, where `n` is their number,
`crates/hcl-edit/src/parser/error.rs:202-210`. -/
def expectations (n : Nat) : Nat → List Str → Str
  | _, [] => []
  | i, e :: es =>
    (if i = n - 1 then c!" or " else if i > 0 then c!", " else []) ++ e ++ expectations n (i + 1) es

/-- `format_context_error`, `crates/hcl-edit/src/parser/error.rs:171-220`. -/
def errorMessage (notes : List ParseNote) (cause : Option Str) : Str :=
  let label := notes.findSome? ParseNote.asLabel
  let expected := notes.filterMap ParseNote.asExpected
  (match label with | some l => c!"invalid " ++ l ++ c!"; " | none => []) ++
  (if expected.isEmpty then c!"unexpected token"
   else c!"expected " ++ match expected with
    | [] => []
    | [e] => e
    | es => expectations es.length 0 es) ++
  (match cause with | some c => c!"; " ++ c | none => [])

end Verif
