import Verif.Spec.Trivia
import Verif.Spec.Literal
import Verif.Model.Number
/-! What number literals, escape sequences and literal text in strings and templates stand for
(C13, C14, C17, C52), independent of the parser. -/

namespace Verif.Spec

/-- The text of the source between two offsets. -/
def slice (s : Str) (a b : Nat) : Str := (s.drop a).take (b - a)

/-- The text `t` is at offsets `a` to `b`. -/
def Tok (s t : Str) (a b : Nat) : Prop := b = a + t.length ∧ b ≤ s.length ∧ slice s a b = t

/-! ### Numbers -/

/-- Decimal digits. -/
def DecDigits (t : Str) : Prop := t ≠ [] ∧ ∀ c ∈ t, '0'.toNat ≤ c.toNat ∧ c.toNat ≤ '9'.toNat

/-- The value of decimal digits. -/
def decVal (t : Str) : Nat := t.foldl (fun n c => 10 * n + (c.toNat - '0'.toNat)) 0

/-- An exponent and its value. -/
def ExpText (x : Str) (e : Int) : Prop :=
  ∃ c ds, (c = 'e' ∨ c = 'E') ∧ DecDigits ds ∧
    (x = c :: ds ∧ e = decVal ds ∨ x = c :: '+' :: ds ∧ e = decVal ds ∨
      x = c :: '-' :: ds ∧ e = -(decVal ds : Int))

/-- A number without a sign and its value: integers are exact, anything else is the nearest double,
normalised. -/
inductive UNumText : Str → N → Prop
  | int {t} : DecDigits t → decVal t < 2 ^ 64 → UNumText t (.posInt (decVal t))
  | frac {i f x e n} : DecDigits i → DecDigits f → x = [] ∧ e = 0 ∨ ExpText x e →
      N.fromF64 (F64.ofDecimal (decVal (i ++ f)) (e - f.length)) = some n →
      UNumText (i ++ '.' :: f ++ x) n
  | exp {i x e n} : DecDigits i → ExpText x e →
      N.fromF64 (F64.ofDecimal (decVal i) e) = some n → UNumText (i ++ x) n

/-- A number and its value. -/
inductive NumText : Str → N → Prop
  | pos {t n} : UNumText t n → NumText t n
  | neg {w t n m} : Trivia false w → UNumText t n → n.neg .release = some m →
      NumText ('-' :: (w ++ t)) m

/-! ### Strings -/

/-- The value of a hexadecimal digit. -/
def hexDigitVal (c : Char) : Option Nat :=
  if '0'.toNat ≤ c.toNat ∧ c.toNat ≤ '9'.toNat then some (c.toNat - '0'.toNat)
  else if 'a'.toNat ≤ c.toNat ∧ c.toNat ≤ 'f'.toNat then some (c.toNat - 'a'.toNat + 10)
  else if 'A'.toNat ≤ c.toNat ∧ c.toNat ≤ 'F'.toNat then some (c.toNat - 'A'.toNat + 10)
  else none

/-- Hexadecimal digits and their value. -/
def HexText (ds : Str) (n : Nat) : Prop :=
  ∃ vs : List Nat, ds.map hexDigitVal = vs.map some ∧ n = vs.foldl (fun n v => 16 * n + v) 0

/-- The escape sequences that consist of a backslash and one character. -/
def escapeTable : List (Char × Char) :=
  [('n', '\n'), ('r', '\r'), ('t', '\t'), ('\\', '\\'), ('"', '"'), ('/', '/'),
    ('b', Char.ofNat 8), ('f', Char.ofNat 12)]

/-- An escape sequence and the character it stands for. -/
inductive Escape : Str → Char → Prop
  | simple {e c} : (e, c) ∈ escapeTable → Escape ['\\', e] c
  | unicode {k ds c} : k = 'u' ∧ ds.length = 4 ∨ k = 'U' ∧ ds.length = 8 → HexText ds c.toNat →
      Escape ('\\' :: k :: ds) c

/-- The text between the quotes of a quoted string without interpolations, and what it stands for. A
sigil in front of `{` is not part of such a text, except in `$${` and `%%{`. -/
inductive QuotedText : Str → Str → Prop
  | nil : QuotedText [] []
  | marker {c t v} : Sigil c → QuotedText t v → QuotedText (c :: c :: '{' :: t) (c :: '{' :: v)
  | esc {e c t v} : Escape e c → QuotedText t v → QuotedText (e ++ t) (c :: v)
  | char {c t v} : c ≠ '"' → c ≠ '\\' → (Sigil c → ¬ c!"{" <+: t ∧ ¬ [c, '{'] <+: t) →
      QuotedText t v → QuotedText (c :: t) (c :: v)

/-- Literal text at offsets `a` to `b` and what it stands for. Escape sequences are recognised in
quoted literals only. A sigil in front of `{` is not literal text, but `$${` and `%%{` are. -/
inductive LitAt (quoted : Bool) (s : Str) : Str → Nat → Nat → Prop
  | nil {a} : LitAt quoted s [] a a
  | marker {c v a x b} : Sigil c → Tok s [c, c, '{'] a x → LitAt quoted s v x b →
      LitAt quoted s (c :: '{' :: v) a b
  | esc {e c v a x b} : quoted = true → Tok s e a x → Escape e c → LitAt quoted s v x b →
      LitAt quoted s (c :: v) a b
  | char {c v a x b} : Tok s [c] a x → (quoted = true → c ≠ '"' ∧ c ≠ '\\') →
      (Sigil c → ¬ (∃ y, Tok s c!"{" x y) ∧ ¬ ∃ y, Tok s [c, c, '{'] a y) → LitAt quoted s v x b →
      LitAt quoted s (c :: v) a b

/-- A backslash, and the character after it if there is one, that do not start an escape
sequence. -/
def BadEscape (s : Str) (a b : Nat) : Prop :=
  a < b ∧ b ≤ a + 2 ∧ b ≤ s.length ∧ Tok s c!"\\" a (a + 1) ∧ ∀ e c y, Tok s e a y → ¬ Escape e c

/-- The text between the quotes of a quoted literal: the code also accepts a malformed escape
sequence at its end, and drops it. -/
def QuotedLit (s v : Str) (a b : Nat) : Prop :=
  ∃ x, LitAt true s v a x ∧ (x = b ∨ a < x ∧ BadEscape s x b)

/-- A quoted string with its quotes. -/
def QuotedAt (s v : Str) (a b : Nat) : Prop :=
  ∃ p q, Tok s c!"\"" a p ∧ QuotedLit s v p q ∧ Tok s c!"\"" q b

end Verif.Spec
