import Verif.Model.EditAst
import Verif.Model.Ident
/-!
Model of `crates/hcl-edit/src/parser/{trivia,number,string}.rs`.
-/

namespace Verif.Gram
open P

/-! ### trivia.rs -/

/-- `hash_line_comment`, `crates/hcl-edit/src/parser/trivia.rs:43-45`. -/
def hashComment : P Unit := do let _ ← chr '#'; let _ ← tillLineEnding; return ()

/-- `double_slash_line_comment`, `crates/hcl-edit/src/parser/trivia.rs:47-49`. -/
def slashComment : P Unit := do tag c!"//"; let _ ← tillLineEnding; return ()

/-- `inline_comment`, `crates/hcl-edit/src/parser/trivia.rs:51-55`. -/
def inlineComment : P Unit := do tag c!"/*"; let _ ← takeUntil c!"*/"; tag c!"*/"

/-- `comment`, `crates/hcl-edit/src/parser/trivia.rs:25-32`. -/
def comment : P Unit := do
  let c ← peek any
  if c = '#' then hashComment
  else if c = '/' then alt slashComment inlineComment
  else fail

/-- `line_comment`, `crates/hcl-edit/src/parser/trivia.rs:34-41`. -/
def lineComment : P Unit := do
  let c ← peek any
  if c = '#' then hashComment
  else if c = '/' then slashComment
  else fail

/-- `ws`, `crates/hcl-edit/src/parser/trivia.rs:7-14`: whitespace, line breaks and comments. -/
def ws : P Unit := do
  let _ ← multispace0
  let _ ← repeat0 (do comment; let _ ← multispace0; return ())
  return ()

/-- `sp`, `crates/hcl-edit/src/parser/trivia.rs:16-23`: blanks and inline comments. -/
def sp : P Unit := do
  let _ ← space0
  let _ ← repeat0 (do inlineComment; let _ ← space0; return ())
  return ()

/-! ### number.rs -/

/-- The value of a string of decimal digits. -/
def digitsVal (s : Str) : Nat := s.foldl (fun n c => 10 * n + (c.toNat - 48)) 0

/-- `exponent`, `crates/hcl-edit/src/parser/number.rs:31-39`: sign and digits. -/
def exponent : P (Bool × Str) := do
  let _ ← oneOf fun c => c == 'e' || c == 'E'
  let sign ← opt (oneOf fun c => c == '+' || c == '-')
  let ds ← cutErr digit1
  return (sign == some '-', ds)

/-- The decimal exponent a parsed exponent stands for. -/
def expVal (e : Bool × Str) : Int := if e.1 then -(digitsVal e.2 : Int) else digitsVal e.2

/-- `float`, `crates/hcl-edit/src/parser/number.rs:22-29`. `f64::from_str` on the consumed text is the
double nearest to the decimal value of the parts that were parsed. It accepts every text of this
shape, so `try_map` does not fail. -/
def float : P F64 := do
  let ds ← digit1
  let (frac, e) ← alt
    (do let _ ← chr '.'; let fs ← digit1; let e ← opt exponent; return (fs, e))
    (do let e ← exponent; return ([], some e))
  return F64.ofDecimal (digitsVal (ds ++ frac))
    ((match e with | some e => expVal e | none => 0) - frac.length)

/-- `integer`, `crates/hcl-edit/src/parser/number.rs:18-20`: `u64::from_str` fails on overflow. -/
def integer : P Nat :=
  verifyMap (fun s => if digitsVal s < 2 ^ 64 then some (digitsVal s) else none) digit1

/-- `number`, `crates/hcl-edit/src/parser/number.rs:10-16`. -/
def num : P N := alt (verifyMap N.fromF64 float) (P.map N.posInt integer)

/-- `winnow::ascii::dec_uint` for `u64`: no leading zeros, fails on overflow. -/
def decUint : P Nat :=
  verifyMap (fun s => if digitsVal s < 2 ^ 64 then some (digitsVal s) else none)
    (taken (alt
      (do let _ ← oneOf fun c => isDigit c && c != '0'
          let _ ← P.takeWhile isDigit
          return ())
      (do let _ ← chr '0'; return ())))

/-! ### string.rs -/

/-- `escaped_marker`, `crates/hcl-edit/src/parser/string.rs:122-129`, with the text of
`EscapedMarker::unescape`, lines 67-72. -/
def escapedMarker : P Str := do
  let s ← takeN 3
  if s = c!"$${" then return c!"${"
  else if s = c!"%%{" then return c!"%{"
  else fail

/-- `any_until`, `crates/hcl-edit/src/parser/string.rs:110-119`. -/
def anyUntil (litEnd : P Unit) : P Str :=
  taken (repeat1 (preceded (notP (alt (P.map (fun _ => ()) escapedMarker) litEnd)) any))

/-- The local `literal_end` of `string_literal`, `crates/hcl-edit/src/parser/string.rs:102-106`. -/
def quotedEnd : P Unit := do
  let c ← any
  if c = '"' ∨ c = '\\' then return ()
  else if c = '$' ∨ c = '%' then do let _ ← chr '{'; return ()
  else fail

/-- `string_literal`, `crates/hcl-edit/src/parser/string.rs:101-108`. -/
def stringLiteral : P Str := anyUntil quotedEnd

/-- ASCII hexadecimal digits. -/
def isHexDigit (c : Char) : Bool :=
  isDigit c || decide (97 ≤ c.toNat ∧ c.toNat ≤ 102) || decide (65 ≤ c.toNat ∧ c.toNat ≤ 70)

/-- The value of a hexadecimal digit. -/
def hexVal (c : Char) : Nat :=
  if isDigit c then c.toNat - 48 else if 97 ≤ c.toNat then c.toNat - 87 else c.toNat - 55

/-- `u32::from_str_radix(hex, 16)`; at most eight digits never overflow. -/
def hexNum (s : Str) : Nat := s.foldl (fun n c => 16 * n + hexVal c) 0

/-- `hexescape::<N>`, `crates/hcl-edit/src/parser/string.rs:163-170`. -/
def hexEscape (n : Nat) : P Char :=
  verifyMap (fun s => if s.length = n ∧ (hexNum s).isValidChar then some (Char.ofNat (hexNum s))
    else none) (takeWhileUpTo isHexDigit n)

/-- `escaped_char`, `crates/hcl-edit/src/parser/string.rs:132-161`. -/
def escapedChar : P Char := do
  let _ ← chr '\\'
  let c ← any
  if c = 'n' then return '\n'
  else if c = 'r' then return '\r'
  else if c = 't' then return '\t'
  else if c = '\\' then return '\\'
  else if c = '"' then return '"'
  else if c = '/' then return '/'
  else if c = 'b' then return Char.ofNat 8
  else if c = 'f' then return Char.ofNat 12
  else if c = 'u' then cutErr (hexEscape 4)
  else if c = 'U' then cutErr (hexEscape 8)
  else cutFail

/-- `quoted_string_fragment`, `crates/hcl-edit/src/parser/string.rs:75-82`: the text that
`build_string` appends for the fragment. -/
def quotedFragment : P Str :=
  alt escapedMarker (alt stringLiteral (P.map (fun c => [c]) escapedChar))

/-- `template_string_fragment`, `crates/hcl-edit/src/parser/string.rs:84-97`. -/
def templateFragment (litEnd : P Unit) : P Str := alt escapedMarker (anyUntil litEnd)

/-- The loop of `build_string`, `crates/hcl-edit/src/parser/string.rs:35-44`. Any error, also a cut,
ends it successfully; the input stays where the failing fragment parser left it. -/
def buildLoop (frag : P Str) : Nat → P Str
  | 0 => oof
  | n + 1 => fun i =>
    match frag i with
    | .ok s i' =>
      if i'.rest.length < i.rest.length then P.map (s ++ ·) (buildLoop frag n) i' else .panic
    | .back i' => .ok [] i'
    | .cut i' => .ok [] i'
    | .panic => .panic
    | .oof => .oof

/-- `build_string`, `crates/hcl-edit/src/parser/string.rs:19-46`. -/
def buildString (frag : P Str) : P Str :=
  P.bind frag fun s i => P.map (s ++ ·) (buildLoop frag (i.rest.length + 1)) i

/-- `string`, `crates/hcl-edit/src/parser/string.rs:12-17`. -/
def quotedString : P Str := do
  let _ ← chr '"'
  let s ← opt (buildString quotedFragment)
  let _ ← chr '"'
  return s.getD []

/-- `raw_string`, `crates/hcl-edit/src/parser/string.rs:172-177`. -/
def rawString (p : P α) : P Raw := P.map Raw.fromSpan (spanOf p)

/-- `str_ident`, `crates/hcl-edit/src/parser/string.rs:185-189`. -/
def strIdent (U : Uni) : P Str := do
  let c ← oneOf (isIdStart U)
  let cs ← P.takeWhile (isIdContinue U)
  return c :: cs

/-- `ident`, `crates/hcl-edit/src/parser/string.rs:179-183`. -/
def ident (U : Uni) : P DIdent := P.map (fun s => { name := s }) (strIdent U)

/-- `cut_char`, `crates/hcl-edit/src/parser/string.rs:191-193`. -/
def cutChar (c : Char) : P Char := cutErr (chr c)

/-- `cut_tag`, `crates/hcl-edit/src/parser/string.rs:195-197`. -/
def cutTag (t : Str) : P Unit := cutErr (tag t)

/-- `cut_ident`, `crates/hcl-edit/src/parser/string.rs:199-205`. -/
def cutIdent (U : Uni) : P DIdent := cutErr (ident U)

end Verif.Gram
