/-!
Shared conventions of the model.

Text is modelled as `Str = List Char`. `c!"abc"` is notation for the explicit list
`['a', 'b', 'c']`, so that literals reduce in the kernel.
-/

namespace Verif

/-- Text: a list of Unicode scalar values (Rust `str` / `String`). -/
abbrev Str := List Char

/-- `c!"abc"` is the list of characters `['a','b','c']`. -/
macro:max "c!" s:str : term => do
  let cs := s.getString.toList.map (fun c => Lean.Syntax.mkCharLit c)
  `([$(cs.toArray),*])

/-- The external Unicode tables used by the code: `unicode_ident::is_xid_start`,
`unicode_ident::is_xid_continue` (`crates/hcl-primitives/src/ident.rs:291,308`) and
`char::is_whitespace` (`crates/hcl-edit/src/util.rs:40`, `crates/hcl-rs/src/eval/template.rs`).
They are parameters; the recorded facts are the ones the proofs use: the restriction of the
tables to ASCII, and that every start character is a continue character. -/
structure Uni where
  xidStart : Char → Bool
  xidContinue : Char → Bool
  isWs : Char → Bool
  start_continue : ∀ c, xidStart c = true → xidContinue c = true
  ascii_start : ∀ c : Char, c.toNat < 128 → xidStart c = c.isAlpha
  ascii_continue : ∀ c : Char, c.toNat < 128 → xidContinue c = (c.isAlphanum || c == '_')
  ascii_ws : ∀ c : Char, c.toNat < 128 →
    isWs c = (c == ' ' || c == '\t' || c == '\n' || c == '\r' || c == '\x0b' || c == '\x0c')

/-- The tables that contain nothing beyond ASCII. Used for concrete examples. -/
def Uni.ascii : Uni where
  xidStart c := c.isAlpha
  xidContinue c := c.isAlphanum || c == '_'
  isWs c := c == ' ' || c == '\t' || c == '\n' || c == '\r' || c == '\x0b' || c == '\x0c'
  start_continue c h := by simp [Char.isAlphanum, h]
  ascii_start _ _ := rfl
  ascii_continue _ _ := rfl
  ascii_ws _ _ := rfl

end Verif
