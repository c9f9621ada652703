import Verif.Spec.Syntax
import Verif.Spec.Literal
import Verif.Model.Format
/-!
The expressions, bodies and values whose formatted text is read back unchanged (C29, C51). The formatter
adds no parentheses and no escapes beyond those of strings, so what is excluded is what needs some: each
exclusion says what goes wrong.
-/

namespace Verif.Spec
open Syn

/-- After the first marker of the string no marker directly follows another `$` or `%`: otherwise the
markers are not all escaped, see `C13`. -/
def StringSafe (s : Str) : Prop :=
  ∀ a c d b, s = a ++ c :: d :: '{' :: b → Sigil c → Sigil d → ¬ HasMarker a

/-- Integers that fit. The smallest integer cannot be read in a debug build. For floats, that the
external crate which prints them (`ryu`) writes a text that denotes the float. -/
def NumberSafe (E : FmtEnv) (bd : Build) : N → Prop
  | .posInt n => n < 2 ^ 64
  | .negInt i => i < 0 ∧ -2 ^ 63 ≤ i ∧ (bd = .debug → i ≠ -2 ^ 63)
  | .float x => Num bd (E.showFloat x) (.float x)

/-- Neither a conditional nor an operation nor a traversal. -/
def atomic : Expr → Bool
  | .cond .. | .binary .. | .unary .. | .traversal .. => false
  | _ => true

/-- Neither a conditional nor a binary operation. -/
def operand : Expr → Bool
  | .cond .. | .binary .. => false
  | _ => true

/-- Is this a conditional? -/
def isCond : Expr → Bool
  | .cond .. => true
  | _ => false

/-- What the text of an expression starts with. -/
def leftmost : Expr → Expr
  | .cond c _ _ => leftmost c
  | .binary l _ _ => leftmost l
  | .traversal e _ => leftmost e
  | e => e
termination_by structural x => x

/-- The text starts with the word `for`, which at the start of an array or object would be taken for a
`for` expression. -/
def startsFor (e : Expr) : Bool :=
  match leftmost e with
  | .var x => decide (x = c!"for")
  | _ => false

/-- The text starts with a digit, so a minus sign in front of it belongs to the number. -/
def startsDigit (E : FmtEnv) (e : Expr) : Bool :=
  match leftmost e with
  | .number (.posInt _) => true
  | .number (.float x) => (E.showFloat x).head?.any Char.isDigit
  | _ => false

/-- The text starts, or may start, with a character that can continue an expression. -/
def startsOperator (e : Expr) : Bool :=
  match leftmost e with
  | .array _ | .paren _ | .unary _ _ | .forE _ _ _ none _ _ _ | .template (.heredoc _ _ _) => true
  | .number (.posInt _) => false
  | .number _ => true
  | _ => false

/-- The same for object keys. -/
def keyStartsFor : ObjKey → Bool
  | .ident x => decide (x = c!"for")
  | .expr e => startsFor e

def keyStartsOperator : ObjKey → Bool
  | .ident _ => false
  | .expr e => startsOperator e

/-- No item is taken for a continuation of the value in front of it; see the deviation at `Items`. -/
def ItemsSeparate : List (ObjKey × Expr) → Prop
  | (_, v) :: (k, w) :: es =>
    (opens v = true → keyStartsOperator k = false) ∧ ItemsSeparate ((k, w) :: es)
  | _ => True

/-- The first operator of a traversal is a legacy index. -/
def legacyFirst : List TravOp → Bool
  | .legacyIndex _ :: _ => true
  | _ => false

/-- The first element of an array must not start with `for`. -/
def headStartsFor : List Expr → Bool
  | e :: _ => startsFor e
  | [] => false

/-- The same for the first key of an object. -/
def headKeyStartsFor : List (ObjKey × Expr) → Bool
  | (k, _) :: _ => keyStartsFor k
  | [] => false

section
variable (E : FmtEnv) (bd : Build) (cfg : FmtCfg) (tm : Bool)

mutual

/-- Expressions whose text is read back unchanged, with `tm = false` without templates. A quoted template is written without escapes, so its
text must mean the same inside and outside of quotes. Heredocs whose indentation was removed are not covered:
they are written without indentation and read back as ordinary ones. -/
def Printable : Expr → Prop
  | .null => True
  | .bool _ => True
  | .number n => NumberSafe E bd n
  | .string s => StringSafe s
  | .array es => PrintableList es ∧ headStartsFor es = false
  | .object es => PrintableItems es ∧ headKeyStartsFor es = false ∧ KeysApart (es.map Prod.fst) ∧
      ItemsSeparate es
  | .template (.quoted s) => tm = true ∧ ∃ es, Tmpl E.U bd false es s ∧ Tmpl E.U bd true es s ∧ es.all isText = false
  | .template (.heredoc d s i) => tm = true ∧ i = .none ∧ IsIdentifier E.U d ∧ HeredocText E.U d s ∧
      ∃ es, Tmpl E.U bd false es s
  | .var x => IsIdentifier E.U x ∧ x ∉ keywords
  | .traversal e os => Printable e ∧ atomic e = true ∧ os ≠ [] ∧ PrintableOps os ∧
      (isNumber e = true → legacyFirst os = false)
  | .call n es x => (∀ y ∈ n.namespaces, IsIdentifier E.U y) ∧ IsIdentifier E.U n.name ∧
      PrintableList es ∧ (x = true → es ≠ [])
  | .paren e => Printable e
  | .cond c a b => Printable c ∧ isCond c = false ∧ Printable a ∧ Printable b
  | .unary o e => Printable e ∧ operand e = true ∧ (o = .neg → startsDigit E e = false)
  | .binary l o r => Printable l ∧ Printable r ∧ isCond l = false ∧ isCond r = false ∧ Syn.LeftOf o l ∧
      Syn.RightOf o r
  | .forE k v c ke ve g ce => (∀ x, k = some x → IsIdentifier E.U x) ∧ IsIdentifier E.U v ∧
      Printable c ∧ PrintableOpt ke ∧ Printable ve ∧ PrintableOpt ce ∧ (ke = none → g = false)
termination_by structural x => x

def PrintableOpt : Option Expr → Prop
  | none => True
  | some e => Printable e
termination_by structural x => x

def PrintableList : List Expr → Prop
  | [] => True
  | e :: es => Printable e ∧ PrintableList es
termination_by structural x => x

def PrintableItems : List (ObjKey × Expr) → Prop
  | [] => True
  | (k, v) :: es => PrintableKey k ∧ Printable v ∧ PrintableItems es
termination_by structural x => x

/-- Keys. A key that is a keyword or a variable is read as the value or as an identifier. With
`prefer_ident_keys` a string is written as an identifier if possible. -/
def PrintableKey : ObjKey → Prop
  | .ident x => IsIdentifier E.U x ∧ x ∉ keywords
  | .expr e => Printable e ∧ isVar e = false ∧
      (cfg.preferIdentKeys = true → ∀ s, e = .string s → ¬ IsIdentifier E.U s)
termination_by structural x => x

def PrintableOps : List TravOp → Prop
  | [] => True
  | o :: os => PrintableOp o ∧ PrintableOps os
termination_by structural x => x

def PrintableOp : TravOp → Prop
  | .attrSplat => True
  | .fullSplat => True
  | .getAttr x => IsIdentifier E.U x
  | .legacyIndex i => i < 2 ^ 64
  | .index e => Printable e
termination_by structural x => x

end

/-- Block labels whose text is read back unchanged. -/
def PrintableLabel : Label → Prop
  | .ident x => IsIdentifier E.U x
  | .string s => StringSafe s

mutual

/-- Bodies whose text is read back unchanged. -/
def PrintableStruct : Struct → Prop
  | .attr x e => IsIdentifier E.U x ∧ Printable E bd cfg tm e
  | .block x ls b => IsIdentifier E.U x ∧ (∀ l ∈ ls, PrintableLabel E l) ∧ (attrKeys b).Nodup ∧
      PrintableStructs b
termination_by structural x => x

def PrintableStructs : List Struct → Prop
  | [] => True
  | s :: ss => PrintableStruct s ∧ PrintableStructs ss
termination_by structural x => x

end

/-- Documents whose text is read back unchanged. -/
def PrintableBody (ss : List Struct) : Prop :=
  (attrKeys ss).Nodup ∧ PrintableStructs E bd cfg tm ss

/-! Values. -/

/-- The string has a `${` or `%{` that is not escaped and not at its end: the formatter takes it for a
template and writes it without any escapes. -/
def LooksTemplated (s : Str) : Prop := ∃ a c d b, s = a ++ c :: '{' :: d :: b ∧ Sigil c ∧ a.getLast? ≠ some c

/-- The first key of an object is not the word `for`. -/
def firstKeyFor : List (Str × Value) → Prop
  | (k, _) :: _ => k = c!"for"
  | [] => False

mutual

/-- Values whose text is read back unchanged. An object written with identifiers for keys must not start
with the key `for`. -/
def PrintableValue : Value → Prop
  | .null => True
  | .bool _ => True
  | .number n => NumberSafe E bd n
  | .string s => StringSafe s ∧ ¬ LooksTemplated s
  | .array vs => PrintableValues vs
  | .object es => (es.map Prod.fst).Nodup ∧ (cfg.preferIdentKeys = true → ¬ firstKeyFor es) ∧ PrintableEntries es
termination_by structural x => x

def PrintableValues : List Value → Prop
  | [] => True
  | v :: vs => PrintableValue v ∧ PrintableValues vs
termination_by structural x => x

def PrintableEntries : List (Str × Value) → Prop
  | [] => True
  | (k, v) :: es => StringSafe k ∧ PrintableValue v ∧ PrintableEntries es
termination_by structural x => x

end

end

end Verif.Spec
