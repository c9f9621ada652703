import Verif.Spec.SourceLit
import Verif.Spec.Ident
import Verif.Spec.Level
import Verif.Spec.Dedent
import Verif.Model.Expr
/-!
The concrete syntax of HCL as a relation between `hcl-rs` trees and the texts that spell them (C29, C51,
C61): which texts are a way to write an expression or a body. Whitespace and comments may be put
wherever the language allows them. The rules mention neither the parser nor the formatter.

The text of a template is part of an `hcl-rs` tree, and its elements are not. A template in quotes or a
heredoc is a way to write the text `s` if both spell the same elements.

Some rules carry a restriction that is not in the HCL specification, because the parser of this crate
deviates from it. They are marked with "Deviation".
-/

namespace Verif.Spec.Syn

/-- Whitespace and comments between two tokens. With `nl = false` without line breaks outside of block
comments. A line comment includes the end of its line. -/
inductive Gap : Bool → Str → Prop
  | nil {nl} : Gap nl []
  | blank {nl c t} : c = ' ' ∨ c = '\t' → Gap nl t → Gap nl (c :: t)
  | newline {c t} : c = '\n' ∨ c = '\r' → Gap true t → Gap true (c :: t)
  | line {x e t} : LineComment x → e = c!"\n" ∨ e = c!"\r\n" → Gap true t → Gap true (x ++ e ++ t)
  | block {nl x t} : BlockComment x → Gap nl t → Gap nl (x ++ t)

/-- The content of brackets or braces starts with `for` and a character that separates it from what
follows. This decides that it is a `for` expression, even if `for` is a key. -/
def ForStart (u : Str) : Prop :=
  ∃ g c r, u = g ++ c!"for" ++ c :: r ∧ Gap true g ∧ c ∈ [' ', '\t', '#', '/', '\n']

/-- The text, without the whitespace in front of it, starts with a character that could continue an
expression in front of it. -/
def Continues (w : Str) : Prop :=
  ∃ g c u, w = g ++ c :: u ∧ Gap true g ∧ ¬ StartsTrivia true (c :: u) ∧
    c ∈ ['?', '[', '(', '.', ':', '=', '!', '<', '>', '+', '-', '*', '/', '%', '&', '|']

/-- A number. -/
inductive Num (bd : Build) : Str → N → Prop
  | pos {t n} : UNumText t n → Num bd t n
  | neg {g t n m} : Gap false g → UNumText t n → n.neg bd = some m → Num bd ('-' :: (g ++ t)) m

/-- Deviation: an array, a function call or a `for` expression that is not in parentheses leaves the
parser in a state in which it continues the expression on the next line. -/
def opens : Expr → Bool
  | .array _ => true
  | .call _ _ _ => true
  | .forE _ _ _ _ _ _ _ => true
  | .traversal e _ => opens e
  | .unary _ e => opens e
  | .binary l _ r => opens l || opens r
  | .cond c t f => opens c || opens t || opens f
  | _ => false
termination_by structural x => x

/-- Is this a number? -/
def isNumber : Expr → Bool
  | .number _ => true
  | _ => false

/-- Is this a variable? -/
def isVar : Expr → Bool
  | .var _ => true
  | _ => false

/-- The expression can be the left operand of the operator without parentheses. -/
def LeftOf (o : BinOp) : Expr → Prop
  | .binary _ x _ => level o < level x ∨ level o = level x ∧ ¬comparison o
  | _ => True

/-- The expression can be the right operand of the operator without parentheses. -/
def RightOf (o : BinOp) : Expr → Prop
  | .binary _ x _ => level o < level x
  | _ => True

/-- Two expressions that are certainly different. -/
def apart : Expr → Expr → Bool
  | .null, .null => false
  | .bool a, .bool b => a != b
  | .number a, .number b => !N.eq a b
  | .string a, .string b => decide (a ≠ b)
  | .array _, .array _ => false
  | .object _, .object _ => false
  | .template _, .template _ => false
  | .var a, .var b => decide (a ≠ b)
  | .traversal a _, .traversal b _ => apart a b
  | .call n _ _, .call m _ _ => decide (n ≠ m)
  | .paren a, .paren b => apart a b
  | .cond a _ _, .cond b _ _ => apart a b
  | .unary o a, .unary p b => decide (o ≠ p) || apart a b
  | .binary a o b, .binary a' p b' => decide (o ≠ p) || apart a a' || apart b b'
  | .forE _ _ _ _ _ _ _, .forE _ _ _ _ _ _ _ => false
  | _, _ => true
termination_by structural x => x

/-- Two object keys that are certainly different. -/
def keyApart : ObjKey → ObjKey → Bool
  | .ident a, .ident b => decide (a ≠ b)
  | .expr a, .expr b => apart a b
  | _, _ => true

/-- All keys are different. -/
def KeysApart (ks : List ObjKey) : Prop := ks.Pairwise fun a b => keyApart a b = true

/-- The components of a function name after the first one. -/
inductive NameTail (U : Uni) (nl : Bool) : List Str → Str → Prop
  | nil : NameTail U nl [] []
  | cons {x xs g h t} : Gap nl g → IsIdentifier U x → Gap nl h → NameTail U nl xs t →
      NameTail U nl (x :: xs) (c!"::" ++ g ++ x ++ h ++ t)

/-- The words that are not variables. -/
def keywords : List Str := [c!"null", c!"true", c!"false"]

/-- What ends an object item. -/
inductive ItemSep : Str → Prop
  | comma : ItemSep c!","
  | newline {e} : e = c!"\n" ∨ e = c!"\r\n" → ItemSep e
  | line {x e} : LineComment x → e = c!"\n" ∨ e = c!"\r\n" → ItemSep (x ++ e)

/-- The end of `x` and the start of `y` together look like an escaped marker: `a$` and `${b}`. -/
def Joined (x y : Str) : Prop := ∃ c, Sigil c ∧ x.getLast? = some c ∧ [c, '{'] <+: y

/-- Literal text in a quoted template, or outside of quotes. -/
def LitText (quoted : Bool) (x v : Str) : Prop := if quoted then QuotedText x v else readLiteral x = some v

/-- Is this literal text? -/
def isText : Elem → Bool
  | .lit _ => true
  | _ => false

/-- The strip marker at the start of a control sequence. -/
def openTilde : Strip → Str
  | .start | .both => c!"~"
  | _ => []

/-- The strip marker at the end of a control sequence. -/
def closeTilde : Strip → Str
  | .end | .both => c!"~"
  | _ => []

/-- Blanks between tokens of the same line. -/
def SpaceOnly (b : Str) : Prop := ∀ c ∈ b, c = ' ' ∨ c = '\t'

/-- A line that ends a heredoc. Deviation: more may follow on the line. -/
def EndsHeredoc (U : Uni) (d l : Str) : Prop :=
  ∃ b r, l = b ++ d ++ r ∧ SpaceOnly b ∧ ∀ c k, r = c :: k → ¬ IdRest U c

/-- The lines of a heredoc: none of them ends it. Deviation: there is at least one. -/
structure HeredocText (U : Uni) (d t : Str) : Prop where
  last : t.getLast? = some '\n'
  lines : ∀ a l, t = a ++ l → a = [] ∨ a.getLast? = some '\n' → ¬ EndsHeredoc U d l

/-- Text without characters. -/
def isVoid : Elem → Bool
  | .lit [] => true
  | _ => false

/-- The elements without those that are empty. -/
def dropVoid (es : List Elem) : List Elem := es.filter fun e => !isVoid e

/-- The text of a template in which every control sequence is one character. -/
def flat : List Elem → Str
  | [] => []
  | .lit v :: es => v ++ flat es
  | _ :: es => 'x' :: flat es

/-- The number of whitespace characters at the start of a line. -/
def indentOf (U : Uni) (l : Str) : Nat := (l.takeWhile U.isWs).length

/-- The least indentation of the lines that are not empty is `k`, and not zero. Deviation: there are no
carriage returns. -/
structure Indented (U : Uni) (k : Nat) (es : List Elem) : Prop where
  pos : 0 < k
  all : ∀ l ∈ lines (flat es), l ≠ [] → k ≤ indentOf U l
  least : ∃ l ∈ lines (flat es), l ≠ [] ∧ indentOf U l = k
  plain : ∀ v, .lit v ∈ es → '\r' ∉ v

/-- There is no common indentation. Deviation: either the template starts with a control sequence, or it
is just text. -/
inductive Flush (U : Uni) : List Elem → Prop
  | control {e es} : isText e = false → Flush U (e :: es)
  | text {v} : '\r' ∉ v → (∃ l ∈ lines v, l ≠ [] ∧ indentOf U l = 0) ∨ (∀ l ∈ lines v, l = []) →
      Flush U [.lit v]

/-- The text without the first `j` characters of its first line and the first `k` characters of the
others. -/
def cutLines (k : Nat) : Nat → Str → Str
  | _, [] => []
  | j, c :: r =>
    if c = '\n' then '\n' :: cutLines k k r
    else if j = 0 then c :: cutLines k 0 r
    else cutLines k (j - 1) r

/-- The elements without the first `k` characters of every line. The first element is at the start of a
line if `b`. -/
def unindent (k : Nat) : Bool → List Elem → List Elem
  | _, [] => []
  | b, .lit v :: es => .lit (cutLines k (if b then k else 0) v) :: unindent k false es
  | _, e :: es => e :: unindent k false es

/-- A directive that consists of a keyword. -/
inductive Mark (kw : Str) : Strip → Str → Prop
  | mk {i g h} : Gap true g → Gap true h →
      Mark kw i (c!"%{" ++ openTilde i ++ g ++ kw ++ h ++ closeTilde i ++ c!"}")

/-- The variables of a `for` directive, each with the whitespace around it. -/
inductive Vars (U : Uni) : Option Str → Str → Str → Prop
  | value {v g h} : Gap true g → g ≠ [] → IsIdentifier U v → Gap true h → h ≠ [] →
      Vars U none v (g ++ v ++ h)
  | keyValue {k v g h g' h'} : Gap true g → g ≠ [] → IsIdentifier U k → Gap true h →
      Gap true g' → IsIdentifier U v → Gap true h' → h' ≠ [] →
      Vars U (some k) v (g ++ k ++ h ++ c!"," ++ g' ++ v ++ h')

mutual

/-- Expressions. With `nl = true` line breaks are whitespace. -/
inductive Full (U : Uni) (bd : Build) : Bool → Expr → Str → Prop
  | chain {nl e t} : Chain U bd nl e t → Full U bd nl e t
  | cond {nl c a b t₁ g₁ g₂ t₂ g₃ g₄ t₃} : Chain U bd nl c t₁ → Gap nl g₁ → Gap nl g₂ →
      Full U bd nl a t₂ → Gap nl g₃ → Gap nl g₄ → Full U bd nl b t₃ →
      Full U bd nl (.cond c a b)
        (t₁ ++ g₁ ++ c!"?" ++ g₂ ++ t₂ ++ g₃ ++ c!":" ++ g₄ ++ t₃)

/-- Operations. A dash is part of an identifier, so the operator `-` needs whitespace in front of it;
and `/` in front of `/` or `*` starts a comment. -/
inductive Chain (U : Uni) (bd : Build) : Bool → Expr → Str → Prop
  | term {nl e t} : Term U bd nl e t → Chain U bd nl e t
  | binary {nl l o r t₁ g h t₂} : Chain U bd nl l t₁ → Gap nl g → (o = .minus → g ≠ []) →
      Gap nl h → (o = .div → ∀ x, h ≠ '/' :: x) → Chain U bd nl r t₂ → LeftOf o l → RightOf o r →
      Chain U bd nl (.binary l o r) (t₁ ++ g ++ o.asStr ++ h ++ t₂)

/-- Operands. A `-` in front of digits belongs to the number. -/
inductive Term (U : Uni) (bd : Build) : Bool → Expr → Str → Prop
  | atom {nl e t} : Atom U bd nl e t → Term U bd nl e t
  | trav {nl e os t u} : Atom U bd nl e t → Steps U bd (nl || opens e) os u →
      (isNumber e = true → ∀ d ds, u = '.' :: d :: ds → ¬ ('0' ≤ d ∧ d ≤ '9')) →
      Term U bd nl (.traversal e os) (t ++ u)
  | unary {nl o e g t} : Gap false g → Term U bd nl e t →
      (o = .neg → ∀ d ds, t = d :: ds → ¬ ('0' ≤ d ∧ d ≤ '9')) →
      Term U bd nl (.unary o e) (o.asStr ++ g ++ t)

/-- Operands without the traversal after them. -/
inductive Atom (U : Uni) (bd : Build) : Bool → Expr → Str → Prop
  | null {nl} : Atom U bd nl .null c!"null"
  | bool {nl b} : Atom U bd nl (.bool b) (if b then c!"true" else c!"false")
  | var {nl x} : IsIdentifier U x → x ∉ keywords → Atom U bd nl (.var x) x
  | number {nl n t} : Num bd t n → Atom U bd nl (.number n) t
  | string {nl t v} : QuotedText t v → Atom U bd nl (.string v) (c!"\"" ++ t ++ c!"\"")
  | template {nl es s t} : Tmpl U bd false es s → Tmpl U bd true es t → es.all isText = false →
      Atom U bd nl (.template (.quoted s)) (c!"\"" ++ t ++ c!"\"")
  | heredoc {nl d e es s t b} : IsIdentifier U d → e = c!"\n" ∨ e = c!"\r\n" →
      Tmpl U bd false es s → Tmpl U bd false es t → HeredocText U d t → SpaceOnly b →
      Atom U bd nl (.template (.heredoc d s .none)) (c!"<<" ++ d ++ e ++ t ++ b ++ d)
  | indented {nl d e es k s t b} : IsIdentifier U d → e = c!"\n" ∨ e = c!"\r\n" → Indented U k es →
      Tmpl U bd false (dropVoid (unindent k true es)) s → Tmpl U bd false es t → HeredocText U d t →
      SpaceOnly b → Atom U bd nl (.template (.heredoc d s .indent)) (c!"<<-" ++ d ++ e ++ t ++ b ++ d)
  | flush {nl d e es s t b} : IsIdentifier U d → e = c!"\n" ∨ e = c!"\r\n" → Flush U es →
      Tmpl U bd false es s → Tmpl U bd false es t → HeredocText U d t → SpaceOnly b →
      Atom U bd nl (.template (.heredoc d s .none)) (c!"<<-" ++ d ++ e ++ t ++ b ++ d)
  | paren {nl e g t h} : Gap true g → Full U bd true e t → Gap true h →
      Atom U bd nl (.paren e) (c!"(" ++ g ++ t ++ h ++ c!")")
  | emptyArray {nl g} : Gap true g → Atom U bd nl (.array []) (c!"[" ++ g ++ c!"]")
  | array {nl es t} : Seq U bd es t → ¬ ForStart t →
      Atom U bd nl (.array es) (c!"[" ++ t ++ c!"]")
  | arrayComma {nl es t g} : Seq U bd es t → ¬ ForStart t → Gap true g →
      Atom U bd nl (.array es) (c!"[" ++ t ++ c!"," ++ g ++ c!"]")
  | object {nl es t} : Items U bd es t → ¬ ForStart t → KeysApart (es.map Prod.fst) →
      Atom U bd nl (.object es) (c!"{" ++ t ++ c!"}")
  | emptyCall {nl x xs ns n g t h} : IsIdentifier U x → Gap nl g → NameTail U nl xs t →
      x :: xs = ns ++ [n] → Gap true h →
      Atom U bd nl (.call ⟨ns, n⟩ [] false) (x ++ g ++ t ++ c!"(" ++ h ++ c!")")
  | call {nl x xs ns n g t es u} : IsIdentifier U x → Gap nl g → NameTail U nl xs t →
      x :: xs = ns ++ [n] → Seq U bd es u →
      Atom U bd nl (.call ⟨ns, n⟩ es false) (x ++ g ++ t ++ c!"(" ++ u ++ c!")")
  | callComma {nl x xs ns n g t es u h} : IsIdentifier U x → Gap nl g → NameTail U nl xs t →
      x :: xs = ns ++ [n] → Seq U bd es u → Gap true h →
      Atom U bd nl (.call ⟨ns, n⟩ es false) (x ++ g ++ t ++ c!"(" ++ u ++ c!"," ++ h ++ c!")")
  | callExpand {nl x xs ns n g t es u h} : IsIdentifier U x → Gap nl g → NameTail U nl xs t →
      x :: xs = ns ++ [n] → Seq U bd es u → Gap true h →
      Atom U bd nl (.call ⟨ns, n⟩ es true) (x ++ g ++ t ++ c!"(" ++ u ++ c!"..." ++ h ++ c!")")
  | forList {nl k v c ve ce i g t h j} : Intro U bd k v c i → Gap true g → Full U bd true ve t →
      Gap true h → Cond U bd ce j → (ce.isSome = true → h ≠ []) →
      Atom U bd nl (.forE k v c none ve false ce) (c!"[" ++ i ++ g ++ t ++ h ++ j ++ c!"]")
  | forObject {nl k v c ke ve ce i g₁ t₁ h₁ g₂ t₂ h₂ j} : Intro U bd k v c i →
      Gap true g₁ → Full U bd false ke t₁ → Gap true h₁ →
      Gap true g₂ → Full U bd false ve t₂ → Gap true h₂ → Cond U bd ce j →
      (ce.isSome = true → h₂ ≠ []) →
      Atom U bd nl (.forE k v c (some ke) ve false ce)
        (c!"{" ++ i ++ g₁ ++ t₁ ++ h₁ ++ c!"=>" ++ g₂ ++ t₂ ++ h₂ ++ j ++ c!"}")
  | forGroup {nl k v c ke ve ce i g₁ t₁ h₁ g₂ t₂ h₂ g₃ j} : Intro U bd k v c i →
      Gap true g₁ → Full U bd false ke t₁ → Gap true h₁ →
      Gap true g₂ → Full U bd false ve t₂ → Gap true h₂ → Gap true g₃ → Cond U bd ce j →
      Atom U bd nl (.forE k v c (some ke) ve true ce)
        (c!"{" ++ i ++ g₁ ++ t₁ ++ h₁ ++ c!"=>" ++ g₂ ++ t₂ ++ h₂ ++ c!"..." ++ g₃ ++ j ++ c!"}")

/-- Expressions with commas between them, at least one. -/
inductive Seq (U : Uni) (bd : Build) : List Expr → Str → Prop
  | one {e g t h} : Gap true g → Full U bd true e t → Gap true h → Seq U bd [e] (g ++ t ++ h)
  | cons {e es g t h u} : Gap true g → Full U bd true e t → Gap true h → Seq U bd es u →
      Seq U bd (e :: es) (g ++ t ++ h ++ c!"," ++ u)

/-- The content of an object. Deviation: the item after a value that `opens` must not look like a
continuation of the value. -/
inductive Items (U : Uni) (bd : Build) : List (ObjKey × Expr) → Str → Prop
  | nil {g} : Gap true g → Items U bd [] g
  | last {k v g t h a g' u h'} : Gap true g → Key U bd k t → Gap false h →
      a = c!"=" ∨ a = c!":" → Gap false g' → Full U bd false v u → Gap false h' →
      Items U bd [(k, v)] (g ++ t ++ h ++ a ++ g' ++ u ++ h')
  | cons {k v es g t h a g' u h' s w} : Gap true g → Key U bd k t → Gap false h →
      a = c!"=" ∨ a = c!":" → Gap false g' → Full U bd false v u → Gap false h' → ItemSep s →
      Items U bd es w → (opens v = true → s ≠ c!"," → ¬ Continues w) →
      Items U bd ((k, v) :: es) (g ++ t ++ h ++ a ++ g' ++ u ++ h' ++ s ++ w)

/-- An object key. -/
inductive Key (U : Uni) (bd : Build) : ObjKey → Str → Prop
  | ident {x} : IsIdentifier U x → x ∉ keywords → Key U bd (.ident x) x
  | expr {e t} : Full U bd false e t → isVar e = false → Key U bd (.expr e) t

/-- The introduction of a `for` expression, with the whitespace in front of it. -/
inductive Intro (U : Uni) (bd : Build) : Option Str → Str → Expr → Str → Prop
  | value {v c g w g₁ h₁ g₃ t h₃} : Gap true g →
      w ∈ [' ', '\t', '#', '/', '\n'] → Gap true (w :: g₁) → IsIdentifier U v →
      Gap true h₁ → h₁ ≠ [] →
      Gap true g₃ → g₃ ≠ [] → Full U bd false c t → Gap true h₃ →
      Intro U bd none v c
        (g ++ c!"for" ++ (w :: g₁) ++ v ++ h₁ ++ c!"in" ++ g₃ ++ t ++ h₃ ++ c!":")
  | keyValue {k v c g w g₁ h₁ g₂ h₂ g₃ t h₃} : Gap true g →
      w ∈ [' ', '\t', '#', '/', '\n'] → Gap true (w :: g₁) → IsIdentifier U k →
      Gap true h₁ → Gap true g₂ → IsIdentifier U v → Gap true h₂ → h₂ ≠ [] →
      Gap true g₃ → g₃ ≠ [] → Full U bd false c t → Gap true h₃ →
      Intro U bd (some k) v c
        (g ++ c!"for" ++ (w :: g₁) ++ k ++ h₁ ++ c!"," ++ g₂ ++ v ++ h₂ ++ c!"in" ++ g₃ ++ t ++
          h₃ ++ c!":")

/-- The condition of a `for` expression. -/
inductive Cond (U : Uni) (bd : Build) : Option Expr → Str → Prop
  | none : Cond U bd none []
  | some {e g t h} : Gap true g → g ≠ [] → Full U bd true e t → Gap true h →
      Cond U bd (some e) (c!"if" ++ g ++ t ++ h)

/-- Traversal operators with the whitespace in front of them, at least one. -/
inductive Steps (U : Uni) (bd : Build) : Bool → List TravOp → Str → Prop
  | one {nl o g t} : Gap nl g → Step U bd o t → Steps U bd nl [o] (g ++ t)
  | cons {nl o os g t u} : Gap nl g → Step U bd o t → Steps U bd nl os u →
      Steps U bd nl (o :: os) (g ++ t ++ u)

/-- A traversal operator. -/
inductive Step (U : Uni) (bd : Build) : TravOp → Str → Prop
  | getAttr {x g} : Gap true g → IsIdentifier U x → Step U bd (.getAttr x) (c!"." ++ g ++ x)
  | legacyIndex {g t} : Gap true g → DecDigits t → decVal t < 2 ^ 64 →
      t = c!"0" ∨ t.head? ≠ some '0' → Step U bd (.legacyIndex (decVal t)) (c!"." ++ g ++ t)
  | attrSplat {g} : Gap true g → Step U bd .attrSplat (c!"." ++ g ++ c!"*")
  | fullSplat {g h} : Gap true g → Gap true h → Step U bd .fullSplat (c!"[" ++ g ++ c!"*" ++ h ++ c!"]")
  | index {e g t h} : Gap true g → Full U bd true e t → Gap true h →
      Step U bd (.index e) (c!"[" ++ g ++ t ++ h ++ c!"]")

/-- Templates: text in which a marker that does not start a control sequence is escaped. In a quoted
template the quotes and backslashes of the text are escaped, too. -/
inductive Tmpl (U : Uni) (bd : Build) : Bool → List Elem → Str → Prop
  | nil {q} : Tmpl U bd q [] []
  | lit {q es x v t} : LitText q x v → x ≠ [] → (∀ e ∈ es.head?, isText e = false) → ¬ Joined x t →
      Tmpl U bd q es t → Tmpl U bd q (.lit v :: es) (x ++ t)
  | control {q e es x t} : Control U bd e x → Tmpl U bd q es t → Tmpl U bd q (e :: es) (x ++ t)

/-- Control sequences. Deviations: text between directives is not escaped, even if the directives are in
a quoted template; and no whitespace is needed between `if` and the condition. -/
inductive Control (U : Uni) (bd : Build) : Elem → Str → Prop
  | interp {e i g t h} : Gap true g → Full U bd true e t → Gap true h →
      Control U bd (.interp e i)
        (c!"${" ++ openTilde i ++ g ++ t ++ h ++ closeTilde i ++ c!"}")
  | ifDir {c es f i j k g g' t h x y z} : Gap true g → Gap true g' → Full U bd false c t →
      Gap true h → Tmpl U bd false es x → Else U bd f j y → Mark c!"endif" k z →
      ¬ Joined x (y ++ z) → ¬ Joined y z →
      Control U bd (.ifDir c es f i j k)
        (c!"%{" ++ openTilde i ++ g ++ c!"if" ++ g' ++ t ++ h ++ closeTilde i ++ c!"}" ++ x ++ y ++ z)
  | forDir {k v c es i j g w g' t h x z} : Gap true g → Vars U k v w → Gap true g' → g' ≠ [] →
      Full U bd false c t → Gap true h → Tmpl U bd false es x → Mark c!"endfor" j z →
      ¬ Joined x z →
      Control U bd (.forDir k v c es i j)
        (c!"%{" ++ openTilde i ++ g ++ c!"for" ++ w ++ c!"in" ++ g' ++ t ++ h ++ closeTilde i ++ c!"}" ++ x ++ z)

/-- The second branch of an `if` directive. -/
inductive Else (U : Uni) (bd : Build) : Option (List Elem) → Strip → Str → Prop
  | none : Else U bd none .none []
  | some {es i z x} : Mark c!"else" i z → Tmpl U bd false es x → Else U bd (some es) i (z ++ x)

end

/-- Block labels, each with the whitespace after it. -/
inductive Labels (U : Uni) : List Label → Str → Prop
  | nil : Labels U [] []
  | ident {x ls g t} : IsIdentifier U x → Gap false g → Labels U ls t →
      (∀ c r, g ++ t = c :: r → ¬ IdRest U c) → Labels U (.ident x :: ls) (x ++ g ++ t)
  | string {v ls q g t} : QuotedText q v → Gap false g → Labels U ls t →
      Labels U (.string v :: ls) (c!"\"" ++ q ++ c!"\"" ++ g ++ t)

/-- The end of a line: blanks, possibly a line comment, and the line ending. -/
inductive Eol : Str → Prop
  | plain {g e} : Gap false g → e = c!"\n" ∨ e = c!"\r\n" → Eol (g ++ e)
  | line {g x e} : Gap false g → LineComment x → e = c!"\n" ∨ e = c!"\r\n" → Eol (g ++ x ++ e)

/-- The keys of the attributes of a body. -/
def attrKeys : List Struct → List Str
  | [] => []
  | .attr k _ :: ss => k :: attrKeys ss
  | .block _ _ _ :: ss => attrKeys ss

mutual

/-- An attribute or a block. -/
inductive Structure (U : Uni) (bd : Build) : Struct → Str → Prop
  | attr {x e g h t} : IsIdentifier U x → Gap false g → Gap false h → Full U bd false e t →
      Structure U bd (.attr x e) (x ++ g ++ c!"=" ++ h ++ t)
  | block {x ls b g l e t} : IsIdentifier U x → Gap false g → Labels U ls l →
      (∀ c r, g ++ l = c :: r → ¬ IdRest U c) → Eol e → Body U bd b t →
      (attrKeys b).Nodup → Structure U bd (.block x ls b) (x ++ g ++ l ++ c!"{" ++ e ++ t ++ c!"}")
  | emptyBlock {x ls g l h} : IsIdentifier U x → Gap false g → Labels U ls l →
      (∀ c r, g ++ l = c :: r → ¬ IdRest U c) → Gap false h →
      Structure U bd (.block x ls []) (x ++ g ++ l ++ c!"{" ++ h ++ c!"}")
  | oneLine {x ls y e g l h₁ h₂ h₃ t h₄} : IsIdentifier U x → Gap false g → Labels U ls l →
      (∀ c r, g ++ l = c :: r → ¬ IdRest U c) → Gap false h₁ → IsIdentifier U y → Gap false h₂ →
      Gap false h₃ → Full U bd false e t → Gap false h₄ →
      Structure U bd (.block x ls [.attr y e])
        (x ++ g ++ l ++ c!"{" ++ h₁ ++ y ++ h₂ ++ c!"=" ++ h₃ ++ t ++ h₄ ++ c!"}")

/-- The lines of a body. -/
inductive Body (U : Uni) (bd : Build) : List Struct → Str → Prop
  | nil {g} : Gap true g → Body U bd [] g
  | cons {s ss g t e w} : Gap true g → Structure U bd s t → Eol e → Body U bd ss w →
      Body U bd (s :: ss) (g ++ t ++ e ++ w)

end

/-- A document: a body whose attributes have different keys. The line ending of the last line may be
missing, also after a comment. -/
inductive Doc (U : Uni) (bd : Build) : List Struct → Str → Prop
  | lines {ss t} : Body U bd ss t → (attrKeys ss).Nodup → Doc U bd ss t
  | last {ss s w t h} : Body U bd ss w → Structure U bd s t → Gap false h →
      (attrKeys (ss ++ [s])).Nodup → Doc U bd (ss ++ [s]) (w ++ t ++ h)
  | linesComment {ss t x} : Body U bd ss t → LineComment x → (attrKeys ss).Nodup → Doc U bd ss (t ++ x)
  | lastComment {ss s w t h x} : Body U bd ss w → Structure U bd s t → Gap false h → LineComment x →
      (attrKeys (ss ++ [s])).Nodup → Doc U bd (ss ++ [s]) (w ++ t ++ h ++ x)

end Verif.Spec.Syn
