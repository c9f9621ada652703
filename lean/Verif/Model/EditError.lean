import Verif.Model.EditParse
import Verif.Model.Format
/-!
Model of `locate_error`, `crates/hcl-edit/src/parser/error.rs:118-166`.

The function works on the bytes of the input. A byte is modelled by what the function can observe of
it: `some c` is the first byte of the UTF-8 encoding of the character `c` and `none` is one of the
other bytes of an encoding. (An encoding of one byte is the character itself, so `b == b'\n'` is
`b = some '\n'`; the first byte of a longer encoding tells its length, the others are recognised as
continuation bytes.)
-/

namespace Verif

/-- The bytes of a character. -/
def charBytes (c : Char) : List (Option Char) := some c :: List.replicate (c.utf8Size - 1) none

/-- `str::as_bytes`. -/
def strBytes (s : Str) : List (Option Char) := s.flatMap charBytes

/-- `std::str::from_utf8(bytes).map(|s| s.chars().count())`, `none` for an error. The first argument
is the number of continuation bytes that the current character still needs. -/
def countChars : Nat → List (Option Char) → Option Nat
  | 0, [] => some 0
  | 0, some c :: bs => (countChars (c.utf8Size - 1) bs).map (· + 1)
  | 0, none :: _ => none
  | _ + 1, [] => none
  | n + 1, none :: bs => countChars n bs
  | _ + 1, some _ :: _ => none

/-- `Location`, `crates/hcl-edit/src/parser/error.rs:91-96`. -/
structure Location where
  line : Nat
  column : Nat
  offset : Nat
deriving DecidableEq, Repr

/-- The start of the line with the byte at `offset`, `crates/hcl-edit/src/parser/error.rs:134-138`. -/
def lineBegin (input : List (Option Char)) (offset : Nat) : Nat :=
  match (input.take offset).reverse.findIdx? (· == some '\n') with
  | some pos => offset - pos
  | none => 0

/-- The line that begins the bytes, `crates/hcl-edit/src/parser/error.rs:141-146`. -/
def lineContext (bs : List (Option Char)) : List (Option Char) :=
  match bs.findIdx? (· == some '\n') with
  | some pos => bs.take pos
  | none => bs

/-- The number of characters of the bytes, or of the bytes if they are not valid UTF-8,
`crates/hcl-edit/src/parser/error.rs:154-155`. -/
def columnCount (bs : List (Option Char)) : Nat :=
  match countChars 0 bs with
  | some n => n
  | none => bs.length

/-- `locate_error`, `crates/hcl-edit/src/parser/error.rs:118-166`: the bytes of the line and the
location. `errOffset` is the byte offset of the error. -/
def locateError (s : Str) (errOffset : Nat) : List (Option Char) × Location :=
  let input := strBytes s
  if input.isEmpty then (input, ⟨1, 1, 0⟩)
  else
    let offset := min errOffset (input.length - 1)
    let columnOffset := errOffset - offset
    let lb := lineBegin input offset
    (lineContext (input.drop lb),
      { line := (input.take lb).countP (· == some '\n') + 1
        column := columnCount ((input.take (offset + 1)).drop lb) + columnOffset
        offset := offset })

/-- The byte offset of the character at an index. -/
def byteOffset (s : Str) (n : Nat) : Nat := (strBytes (s.take n)).length

/-- `Error::location`, `crates/hcl-edit/src/parser/error.rs:38-40`, of an error that the parser (which
is modelled on characters) reports at a character index. -/
def errorLocation (s : Str) (n : Nat) : Location := (locateError s (byteOffset s n)).2

/-- `Error::line`, `crates/hcl-edit/src/parser/error.rs:33-35`, as bytes. -/
def errorLine (s : Str) (n : Nat) : List (Option Char) := (locateError s (byteOffset s n)).1

/-- `String::from_utf8_lossy` (standard library) on the bytes of an encoded text. -/
def decodeBytes (bs : List (Option Char)) : Str := bs.filterMap id

/-- `ErrorInner::spacing`, `crates/hcl-edit/src/parser/error.rs:68-70`. -/
def errorSpacing (l : Location) : Str := List.replicate (natStr l.line).length ' '

/-- `fmt::Display for ErrorInner`, `crates/hcl-edit/src/parser/error.rs:73-91`; `{caret:>c$}` puts the caret at
the end of `c` characters. The message of the error (`format_context_error`) is a parameter. -/
def displayError (s : Str) (n : Nat) (message : Str) : Str :=
  let l := errorLocation s n
  let sp := errorSpacing l
  sp ++ c!"--> HCL parse error in line " ++ natStr l.line ++ c!", column " ++ natStr l.column ++ c!"\n" ++
    sp ++ c!" |\n" ++
    natStr l.line ++ c!" | " ++ decodeBytes (errorLine s n) ++ c!"\n" ++
    sp ++ c!" | " ++ (List.replicate (l.column - 1) ' ' ++ ['^']) ++ c!"---\n" ++
    sp ++ c!" |\n" ++
    sp ++ c!" = " ++ message

end Verif
