import Verif.Basic
/-!
Model of `crates/hcl-primitives/src/ident.rs`.
-/

namespace Verif

/-- `is_id_start`, `crates/hcl-primitives/src/ident.rs:290-292`. -/
def isIdStart (U : Uni) (ch : Char) : Bool := U.xidStart ch || ch == '_'

/-- `is_id_continue`, `crates/hcl-primitives/src/ident.rs:307-309`. -/
def isIdContinue (U : Uni) (ch : Char) : Bool := U.xidContinue ch || ch == '-'

/-- `is_ident`, `crates/hcl-primitives/src/ident.rs:333-342`: the first character is taken off the
iterator and checked with `is_id_start`, the rest with `is_id_continue`; empty is rejected. -/
def isIdent (U : Uni) (s : Str) : Bool :=
  match s with
  | [] => false
  | c :: cs => isIdStart U c && cs.all (isIdContinue U)

/-- `Ident::try_new`, `crates/hcl-primitives/src/ident.rs:66-77`. The identifier is its text;
`none` is the `Err` result (the message is not modelled). `Ident::new` (lines 33-42) is the same
with a panic instead of the error. -/
def Ident.tryNew (U : Uni) (s : Str) : Option Str :=
  if !isIdent U s then none else some s

/-- The loop body of `Ident::new_sanitized`, `crates/hcl-primitives/src/ident.rs:113-124`:
what is pushed for character `ch` at position `i`. -/
def Ident.sanitizeChar (U : Uni) (i : Nat) (ch : Char) : Str :=
  if i == 0 && isIdStart U ch then [ch]
  else if isIdContinue U ch then (if i == 0 then ['_', ch] else [ch])
  else ['_']

/-- The loop of `Ident::new_sanitized`, `crates/hcl-primitives/src/ident.rs:113-124`, starting at
position `i`. -/
def Ident.sanitizeLoop (U : Uni) : Nat → Str → Str
  | _, [] => []
  | i, ch :: rest => Ident.sanitizeChar U i ch ++ Ident.sanitizeLoop U (i + 1) rest

/-- `Ident::new_sanitized`, `crates/hcl-primitives/src/ident.rs:101-127`. -/
def Ident.newSanitized (U : Uni) (s : Str) : Str :=
  if s.isEmpty then ['_'] else Ident.sanitizeLoop U 0 s

end Verif
