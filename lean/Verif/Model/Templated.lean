import Verif.Basic
/-!
Model of `is_templated`, `crates/hcl-rs/src/util.rs`.

The code slides a window of three bytes; the windows it looks for consist of ASCII bytes (which never
occur inside a multi-byte character) and one arbitrary byte, so three characters find the same.
-/

namespace Verif

/-- The loop of `is_templated`, `crates/hcl-rs/src/util.rs:17-32`; `skip` is `skip_next`. -/
def isTemplatedGo (skip : Bool) : Str → Bool
  | a :: b :: c :: rest =>
    if skip then isTemplatedGo false (b :: c :: rest)
    else if (a = '$' ∧ b = '$' ∧ c = '{') ∨ (a = '%' ∧ b = '%' ∧ c = '{') then
      isTemplatedGo true (b :: c :: rest)
    else if (a = '$' ∨ a = '%') ∧ b = '{' then true
    else isTemplatedGo false (b :: c :: rest)
  | _ => false

/-- `is_templated`, `crates/hcl-rs/src/util.rs:7-35` (the length check counts bytes in the code; it only
skips strings without a window). -/
def isTemplated (s : Str) : Bool := if s.length < 3 then false else isTemplatedGo false s

end Verif
