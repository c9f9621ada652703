import Verif.Spec.SourceLit
import Verif.Spec.Ident
import Verif.Spec.Level
import Verif.Model.EditEq
import Verif.Model.EditDedent
/-!
The concrete syntax of HCL as a relation between a source text and a syntax tree (C17, C18, C53):
which pieces of the source a node stands for, which offsets its spans record and where its decor
(whitespace and comments) is. The rules mention the syntax tree, the tokens and the offsets, but not
the parser.

`Core U s nl e a b` reads: the expression `e`, without the decor around it, is written at offsets `a` to
`b` of the source `s`; between its parts there are line breaks only inside brackets, unless `nl`. One
exception belongs to the parser (`unlocks`).
-/

namespace Verif.Spec

/-- The text `t` is at offsets `a` to `b` if `c`, otherwise nothing. -/
def OptTok (s : Str) (c : Bool) (t : Str) (a b : Nat) : Prop := if c then Tok s t a b else a = b

/-- There is only whitespace and comments between the offsets (without line breaks unless `nl`). -/
def Triv (s : Str) (nl : Bool) (a b : Nat) : Prop := a ≤ b ∧ b ≤ s.length ∧ Trivia nl (slice s a b)

/-- There are only blanks and tabs between the offsets. -/
def Spaces (s : Str) (a b : Nat) : Prop :=
  a ≤ b ∧ b ≤ s.length ∧ ∀ c ∈ slice s a b, c = ' ' ∨ c = '\t'

/-- A line ending. -/
def LineEnding (s : Str) (a b : Nat) : Prop := Tok s c!"\n" a b ∨ Tok s c!"\r\n" a b

/-- The rest of a line in front of its line ending: blanks, block comments, and possibly a line
comment. -/
def LineTail (s : Str) (a b : Nat) : Prop :=
  ∃ x, Triv s false a x ∧ (x = b ∨ (x ≤ b ∧ b ≤ s.length ∧ LineComment (slice s x b)))

/-- An identifier. -/
def IdentAt (U : Uni) (s x : Str) (a b : Nat) : Prop := Tok s x a b ∧ IsIdentifier U x

/-! The metadata of a node at offsets `a` to `b` with a prefix that starts at `p` and a suffix that
ends at `q`. -/

/-- Prefix and suffix are recorded. -/
def decM (p a b q : Nat) : Meta :=
  ⟨⟨some (.fromSpan ⟨p, a⟩), some (.fromSpan ⟨b, q⟩)⟩, some ⟨a, b⟩⟩

/-- Only a prefix is recorded. -/
def preM (p a b : Nat) : Meta := ⟨⟨some (.fromSpan ⟨p, a⟩), none⟩, some ⟨a, b⟩⟩

/-- Only a suffix is recorded. -/
def sufM (a b q : Nat) : Meta := ⟨⟨none, some (.fromSpan ⟨b, q⟩)⟩, some ⟨a, b⟩⟩

/-- An object `for` expression with `...` and without a condition. -/
def groupedFor : EExpr → Bool
  | .forE _ _ _ _ _ _ _ true _ none => true
  | _ => false

/-- Where the suffix of a node ends, or the node itself if the suffix is empty. -/
def decStop (m : Meta) : Nat :=
  match m.decor.suf, m.span with
  | some (.spanned sp), _ => sp.stop
  | _, some sp => sp.stop
  | _, none => 0

/-- Where the `...` of a `for` expression ends: it follows the suffix of the value. -/
def groupStart : EExpr → Nat
  | .forE _ _ _ _ _ _ ve _ _ _ => decStop ve.getMeta + 3
  | _ => 0

/-- The suffix of an expression that ends at `b` and on which its parent did not set one. The parser stores
the whitespace between `...` and `}` of an object `for` expression there. -/
def OwnSuf (s : Str) (e : EExpr) (b : Nat) (r : Option Raw) : Prop :=
  r = none ∨ groupedFor e = true ∧ groupStart e + 1 ≤ b ∧ b ≤ s.length ∧
    r = some (.fromSpan ⟨groupStart e, b - 1⟩)

/-- The metadata of an expression on which its parent sets no decor. -/
def NodeM (s : Str) (e : EExpr) (a b : Nat) : Prop :=
  ∃ r, e.getMeta = ⟨⟨none, r⟩, some ⟨a, b⟩⟩ ∧ OwnSuf s e b r

/-- The metadata of an expression on which its parent sets a prefix. -/
def PreNodeM (s : Str) (e : EExpr) (p a b : Nat) : Prop :=
  ∃ r, e.getMeta = ⟨⟨some (.fromSpan ⟨p, a⟩), r⟩, some ⟨a, b⟩⟩ ∧ OwnSuf s e b r

/-- An identifier with whitespace around it (without line breaks unless `nl`). -/
def DecIdent (U : Uni) (s : Str) (nl : Bool) (d : DIdent) (p q : Nat) : Prop :=
  ∃ a b, Triv s nl p a ∧ IdentAt U s d.name a b ∧ Triv s nl b q ∧ d.m = decM p a b q

/-- An identifier with whitespace after it (without line breaks unless `nl`). -/
def SufIdent (U : Uni) (s : Str) (nl : Bool) (d : DIdent) (a q : Nat) : Prop :=
  ∃ b, IdentAt U s d.name a b ∧ Triv s nl b q ∧ d.m = sufM a b q

/-- The variables of a `for`. -/
def ForVars (U : Uni) (s : Str) (k : Option DIdent) (v : DIdent) (p q : Nat) : Prop :=
  (k = none ∧ DecIdent U s true v p q) ∨
    ∃ d x y, k = some d ∧ DecIdent U s true d p x ∧ Tok s c!"," x y ∧ DecIdent U s true v y q

/-- The components of a qualified name after the first one. -/
inductive PathTail (U : Uni) (s : Str) (nl : Bool) : List DIdent → Nat → Nat → Prop
  | nil {p} : PathTail U s nl [] p p
  | cons {d ds p x y q} : Tok s c!"::" p x → DecIdent U s nl d x y → PathTail U s nl ds y q →
      PathTail U s nl (d :: ds) p q

/-- A function name, qualified or not. -/
def Path (U : Uni) (s : Str) (nl : Bool) (ds : List DIdent) (a q : Nat) : Prop :=
  ∃ d tl x, ds = d :: tl ∧ SufIdent U s nl d a x ∧ PathTail U s nl tl x q

/-- What may follow the last argument of a function call. -/
def ArgsEnd (s : Str) (comma expand : Bool) (n : Nat) (a b : Nat) : Prop :=
  (comma = false ∧ expand = false ∧ a = b) ∨
    (n ≠ 0 ∧ comma = true ∧ expand = false ∧ Tok s c!"," a b) ∨
    (n ≠ 0 ∧ comma = false ∧ expand = true ∧ Tok s c!"..." a b)

/-- The start of an interpolation or a directive. -/
def Opens (s : Str) (st : Strip) (intro : Str) (a b : Nat) : Prop :=
  Tok s (intro ++ if st.stripStart then c!"~" else []) a b

/-- The end of an interpolation or a directive. -/
def Closes (s : Str) (st : Strip) (a b : Nat) : Prop :=
  Tok s ((if st.stripEnd then c!"~" else []) ++ c!"}") a b

/-- A directive that consists of a keyword only. -/
def Marker (s : Str) (kw : Str) (st : Strip) (pre trail : Raw) (a b : Nat) : Prop :=
  ∃ x₁ x₂ x₃ x₄, Opens s st c!"%{" a x₁ ∧ Triv s true x₁ x₂ ∧ pre = .fromSpan ⟨x₁, x₂⟩ ∧
    Tok s kw x₂ x₃ ∧ Triv s true x₃ x₄ ∧ trail = .fromSpan ⟨x₃, x₄⟩ ∧ Closes s st x₄ b

/-- What ends an object item. -/
def ItemEndAt (s : Str) : ItemEnd → Nat → Nat → Prop
  | .none, a, b => a = b
  | .newline, a, b => LineEnding s a b
  | .comma, a, b => Tok s c!"," a b

/-- The token between the key and the value of an object item. -/
def assignTok : Assign → Str
  | .colon => c!":"
  | .equals => c!"="

/-- The items of an object: items are inserted one after the other, and a later item with the key of
an earlier one replaces its value. -/
def insertItems : List EItem → List EItem → List EItem
  | acc, [] => acc
  | acc, .mk k v a t :: is => insertItems (itemInsert k v a t acc) is

/-- The elements and the recorded indentation of a heredoc, from the elements as written. -/
def heredocElems (U : Uni) (indented : Bool) (es : List EElem) : List EElem × Option Nat :=
  if indented then tmplDedent U es else (es, none)

/-- How the literals among template elements are read: as in a quoted string, as in a template, or
anyhow (after the indentation of a heredoc was removed from them). -/
inductive LitMode | quoted | plain | any

/-- A literal of a template. -/
def LitOK (s : Str) : LitMode → Str → Nat → Nat → Prop
  | .quoted, t, a, b => QuotedLit s t a b
  | .plain, t, a, b => LitAt false s t a b
  | .any, _, _, _ => True

/-- Does the expression begin with an array, a `for` expression or a function call? Line breaks belong
inside the brackets of these, but the parser goes on skipping line breaks behind them. -/
def unlocks : EExpr → Bool
  | .array _ _ _ _ | .forE _ _ _ _ _ _ _ _ _ _ | .call _ _ _ _ _ _ _ _ => true
  | .trav _ e _ => unlocks e
  | .cond _ c _ _ => unlocks c
  | .binary _ l _ _ _ => unlocks l
  | _ => false

/-- Is this a variable? -/
def isVariable : EExpr → Bool
  | .var _ _ => true
  | _ => false

/-- `e`, at offset `x`, is the operand of `o`: a term, and if `o` is a minus sign it does not start with a digit, as
the minus sign would belong to the number. -/
def OperandAt (s : Str) (o : UnOp) (e : EExpr) (x : Nat) : Prop :=
  isTerm e = true ∧ (o = .neg → ∀ c, s[x]? = some c → ¬ DecDigits [c])

mutual

/-- Expressions without the decor around them. -/
inductive Core (U : Uni) (s : Str) : Bool → EExpr → Nat → Nat → Prop
  | null {nl m a b} : Tok s c!"null" a b → Core U s nl (.null m) a b
  | bool {nl m v a b} : Tok s (if v then c!"true" else c!"false") a b → Core U s nl (.bool m v) a b
  | number {nl m n t a b} : NumText t n → Tok s t a b → Core U s nl (.number m n (some (.explicit t))) a b
  | string {nl m x a b} : QuotedAt s x a b → Core U s nl (.string m x) a b
  | array {nl m vs comma a p q r t b} : Tok s c!"[" a p → Elems U s vs p q →
      OptTok s comma c!"," q r → Triv s true r t → Tok s c!"]" t b →
      Core U s nl (.array m vs comma (.fromSpan ⟨r, t⟩)) a b
  | object {nl m is tr a p q b} : Tok s c!"{" a p → Items U s is tr p q → Tok s c!"}" q b →
      Core U s nl (.object m (insertItems [] is) tr) a b
  | strTmpl {nl m es a p q b} : Tok s c!"\"" a p → TElems U s .quoted es p q → Tok s c!"\"" q b →
      Core U s nl (.strTmpl m es) a b
  | heredoc {nl m d ind es₀ es n a p q r t b} :
      Tok s (c!"<<" ++ (if ind then c!"-" else []) ++ d) a p → IsIdentifier U d →
      LineEnding s p q → TElems U s .plain es₀ q r → TElems U s .any es q r →
      heredocElems U ind es₀ = (es, n) → Spaces s r t →
      Tok s d t b → Core U s nl (.heredoc m d (some ⟨q, r⟩) es n (.fromSpan ⟨r, t⟩)) a b
  | paren {nl m e a p x y q b} : Tok s c!"(" a p → Triv s true p x → Core U s true e x y →
      Triv s true y q → e.getMeta = decM p x y q → Tok s c!")" q b → Core U s nl (.paren m e) a b
  | var {nl m x a b} : IdentAt U s x a b → x ∉ [c!"null", c!"true", c!"false"] →
      Core U s nl (.var m x) a b
  | cond {nl m c t f a c₂ q p t₁ t₂ t₃ p' f₁ b} : Core U s nl c a c₂ → c.getMeta = sufM a c₂ q →
      notCond c = true →
      Triv s (nl || unlocks c) c₂ q → Tok s c!"?" q p →
      Triv s (nl || unlocks c) p t₁ → Core U s (nl || unlocks c) t t₁ t₂ →
      Triv s (nl || unlocks c) t₂ t₃ → t.getMeta = decM p t₁ t₂ t₃ →
      Tok s c!":" t₃ p' → Triv s (nl || unlocks c) p' f₁ → Core U s (nl || unlocks c) f f₁ b →
      PreNodeM s f p' f₁ b →
      Core U s nl (.cond m c t f) a b
  | call {nl m ns n as comma expand a p q r t u b} : Path U s nl (ns ++ [n]) a p → Tok s c!"(" p q →
      Elems U s as q r → ArgsEnd s comma expand as.length r t → Triv s true t u →
      Tok s c!")" u b → Core U s nl (.call m ns n {} as comma expand (.fromSpan ⟨t, u⟩)) a b
  | trav {nl m e os a x y b} : Core U s nl e a x → e.getMeta = sufM a x y →
      Triv s (nl || unlocks e) x y → Travs U s (nl || unlocks e) os y b → os ≠ [] → isHead e = true → Core U s nl (.trav m e os) a b
  | unary {nl m o e a p x b} : Tok s o.asStr a p → Triv s false p x → Core U s nl e x b →
      PreNodeM s e p x b → OperandAt s o e x → Core U s nl (.unary m (some ⟨a, p⟩) o e) a b
  | binary {nl m l o r a x y z w b' b} : Core U s nl l a x → NodeM s l a x →
      Triv s (nl || unlocks l) x y → Tok s o.asStr y z → Triv s (nl || unlocks l) z w →
      Core U s (nl || unlocks l) r w b' → NodeM s r w b' →
      LeftOf o l → RightOf o r → Dropped U s (nl || unlocks l) (some (.binary m l (decM x y z w) o r)) b' b →
      Core U s nl (.binary m l (decM x y z w) o r) a b
  | forList {nl m im k v c ve cm co a p q x y r t b} : Tok s c!"[" a p → Intro U s im k v c p q →
      Triv s true q x → Core U s true ve x y → Triv s true y r → ve.getMeta = decM q x y r →
      Cond U s cm co r t → Tok s c!"]" t b → Core U s nl (.forE m im k v c none ve false cm co) a b
  | forObj {nl m im k v c ke ve g cm co a p q x y r u x' y' w z t b} : Tok s c!"{" a p →
      Intro U s im k v c p q →
      Triv s true q x → Core U s false ke x y → Triv s true y r → ke.getMeta = decM q x y r →
      Tok s c!"=>" r u →
      Triv s true u x' → Core U s false ve x' y' → Triv s true y' w → ve.getMeta = decM u x' y' w →
      OptTok s g c!"..." w z → (g = true → co.isSome = true) → Cond U s cm co z t →
      Tok s c!"}" t b → Core U s nl (.forE m im k v c (some ke) ve g cm co) a b
  | forGroup {nl m im k v c ke ve a p q x y r u x' y' w z t b} : Tok s c!"{" a p →
      Intro U s im k v c p q →
      Triv s true q x → Core U s false ke x y → Triv s true y r → ke.getMeta = decM q x y r →
      Tok s c!"=>" r u →
      Triv s true u x' → Core U s false ve x' y' → Triv s true y' w → ve.getMeta = decM u x' y' w →
      Tok s c!"..." w z → Triv s true z t → Tok s c!"}" t b →
      Core U s nl (.forE m im k v c (some ke) ve true {} none) a b

/-- Operators and operands that the parser reads after an operation and drops. The first dropped
operator is a comparison that does not chain with one in the operation. -/
inductive Dropped (U : Uni) (s : Str) : Bool → Option EExpr → Nat → Nat → Prop
  | nil {nl t p} : Dropped U s nl t p p
  | cons {nl t o e p x y z b q} : (∀ e₀ ∈ t, Blocked o e₀) → Triv s nl p x →
      Tok s (BinOp.asStr o) x y → Triv s nl y z → Core U s nl e z b → Dropped U s nl none b q →
      Dropped U s nl t p q

/-- The introduction of a `for` expression. -/
inductive Intro (U : Uni) (s : Str) :
    Meta → Option DIdent → DIdent → EExpr → Nat → Nat → Prop
  | mk {k v c p x y z w c₁ c₂ r q} : Triv s true p x → Tok s c!"for" x y → ForVars U s k v y z →
      Tok s c!"in" z w → Triv s true w c₁ → Core U s false c c₁ c₂ → Triv s true c₂ r →
      c.getMeta = decM w c₁ c₂ r → Tok s c!":" r q → Intro U s (preM p x q) k v c p q

/-- The condition of a `for` expression. -/
inductive Cond (U : Uni) (s : Str) : Meta → Option EExpr → Nat → Nat → Prop
  | none {p} : Cond U s {} none p p
  | some {e p x y e₁ e₂ q} : Triv s true p x → Tok s c!"if" x y → Triv s true y e₁ →
      Core U s true e e₁ e₂ → Triv s true e₂ q → e.getMeta = decM y e₁ e₂ q →
      Cond U s (preM p x q) (some e) p q

/-- Expressions separated by commas. -/
inductive Elems (U : Uni) (s : Str) : List EExpr → Nat → Nat → Prop
  | nil {p} : Elems U s [] p p
  | cons {e es p a b q r} : Triv s true p a → Core U s true e a b → Triv s true b q →
      e.getMeta = decM p a b q → ElemsTail U s es q r → Elems U s (e :: es) p r

/-- A comma in front of every expression. -/
inductive ElemsTail (U : Uni) (s : Str) : List EExpr → Nat → Nat → Prop
  | nil {p} : ElemsTail U s [] p p
  | cons {e es c p a b q r} : Tok s c!"," c p → Triv s true p a → Core U s true e a b →
      Triv s true b q → e.getMeta = decM p a b q → ElemsTail U s es q r →
      ElemsTail U s (e :: es) c r

/-- The items of an object as written, and its trailing whitespace. -/
inductive Items (U : Uni) (s : Str) : List EItem → Raw → Nat → Nat → Prop
  | nil {p q} : Triv s true p q → Items U s [] (.fromSpan ⟨p, q⟩) p q
  | last {k v as p q} : Item U s k v as p q → Items U s [.mk k v as .none] .empty p q
  | cons {k v as t is tr p x y q} : Item U s k v as p x → t ≠ .none → ItemEndAt s t x y →
      Items U s is tr y q → Items U s (.mk k v as t :: is) tr p q

/-- One object item. The suffix of the value may contain a line comment. A variable as a key is an identifier. -/
inductive Item (U : Uni) (s : Str) : EKey → EExpr → Assign → Nat → Nat → Prop
  | ident {d v as p a b x y v₁ v₂ q} : Triv s true p a → IdentAt U s d.name a b →
      Triv s false b x → d.m = decM p a b x → Tok s (assignTok as) x y → Triv s false y v₁ →
      Core U s false v v₁ v₂ → LineTail s v₂ q → v.getMeta = decM y v₁ v₂ q →
      d.name ∉ [c!"null", c!"true", c!"false"] → Item U s (.ident d) v as p q
  | expr {e v as p a b x y v₁ v₂ q} : Triv s true p a → Core U s false e a b →
      Triv s false b x → e.getMeta = decM p a b x → Tok s (assignTok as) x y → Triv s false y v₁ →
      Core U s false v v₁ v₂ → LineTail s v₂ q → v.getMeta = decM y v₁ v₂ q →
      isVariable e = false → Item U s (.expr e) v as p q

/-- Traversal operators. -/
inductive Travs (U : Uni) (s : Str) : Bool → List ETrav → Nat → Nat → Prop
  | nil {nl p} : Travs U s nl [] p p
  | cons {nl o os p x b q} : Triv s nl p x → TravOp U s o x b → Travs U s nl os b q →
      Travs U s nl (.mk (preM p x b) o :: os) p q

/-- One traversal operator. -/
inductive TravOp (U : Uni) (s : Str) : ETravOp → Nat → Nat → Prop
  | attrSplat {a p x b} : Tok s c!"." a p → Triv s true p x → Tok s c!"*" x b →
      TravOp U s (.attrSplat (preM p x b)) a b
  | fullSplat {a p x y q b} : Tok s c!"[" a p → Triv s true p x → Tok s c!"*" x y →
      Triv s true y q → Tok s c!"]" q b → TravOp U s (.fullSplat (decM p x y q)) a b
  | getAttr {d a p x b} : Tok s c!"." a p → Triv s true p x → IdentAt U s d.name x b →
      d.m = preM p x b → TravOp U s (.getAttr d) a b
  | index {e a p x y q b} : Tok s c!"[" a p → Triv s true p x → Core U s true e x y →
      Triv s true y q → e.getMeta = decM p x y q → Tok s c!"]" q b → TravOp U s (.index e) a b
  | legacyIndex {n a p x b} : Tok s c!"." a p → Triv s true p x → Tok s (natStr n) x b → n < 2 ^ 64 →
      TravOp U s (.legacyIndex (preM p x b) n) a b

/-- Template elements. -/
inductive TElems (U : Uni) (s : Str) : LitMode → List EElem → Nat → Nat → Prop
  | nil {m p} : TElems U s m [] p p
  | cons {m e es p x q} : ElemAt U s m e p x → TElems U s m es x q → TElems U s m (e :: es) p q

/-- One template element. -/
inductive ElemAt (U : Uni) (s : Str) : LitMode → EElem → Nat → Nat → Prop
  | lit {m t a b} : a < b → b ≤ s.length → LitOK s m t a b → ElemAt U s m (.lit (some ⟨a, b⟩) t) a b
  | interp {m e st a p x y q b} : Opens s st c!"${" a p → Triv s true p x → Core U s true e x y →
      Triv s true y q → e.getMeta = decM p x y q → Closes s st q b →
      ElemAt U s m (.interp (some ⟨a, b⟩) e st) a b
  | ifDir {m c st t els ep et est a p x y c₁ c₂ q r u w b} : Opens s st c!"%{" a p →
      Triv s true p x → Tok s c!"if" x y → Triv s true y c₁ → Core U s false c c₁ c₂ →
      Triv s true c₂ q → c.getMeta = decM y c₁ c₂ q → Closes s st q r → TElems U s .plain t r u →
      Else U s els u w → Marker s c!"endif" est ep et w b →
      ElemAt U s m
        (.ifDir (some ⟨a, b⟩) (.fromSpan ⟨p, x⟩) c st (some ⟨r, u⟩) t els ep et est) a b
  | forDir {m k v c st t ep et est a p x y z w c₁ c₂ q r u b} : Opens s st c!"%{" a p →
      Triv s true p x → Tok s c!"for" x y → ForVars U s k v y z → Tok s c!"in" z w →
      Triv s true w c₁ → Core U s false c c₁ c₂ → Triv s true c₂ q → c.getMeta = decM w c₁ c₂ q →
      Closes s st q r → TElems U s .plain t r u → Marker s c!"endfor" est ep et u b →
      ElemAt U s m
        (.forDir (some ⟨a, b⟩) (.fromSpan ⟨p, x⟩) k v c st (some ⟨r, u⟩) t ep et est) a b

/-- The `else` branch of an `if` directive. -/
inductive Else (U : Uni) (s : Str) : Option EElse → Nat → Nat → Prop
  | none {p} : Else U s none p p
  | some {st pre trail es a x b} : Marker s c!"else" st pre trail a x → TElems U s .plain es x b →
      Else U s (some (.mk pre trail st (some ⟨x, b⟩) es)) a b

end

/-- Block labels. -/
inductive Labels (U : Uni) (s : Str) : List ELabel → Nat → Nat → Prop
  | nil {p} : Labels U s [] p p
  | ident {d ls p x q} : SufIdent U s false d p x → Labels U s ls x q →
      Labels U s (.ident d :: ls) p q
  | string {t ls p b x q} : QuotedAt s t p b → Triv s false b x →
      Labels U s ls x q → Labels U s (.string (sufM p b x) t :: ls) p q

/-- The keys of the attributes directly in a body. -/
def bodyKeys : List EStruct → List Str
  | [] => []
  | .attr _ k _ :: ss => k.name :: bodyKeys ss
  | .block _ _ _ _ :: ss => bodyKeys ss

/-- The metadata of a structure. -/
def structMeta : EStruct → Meta
  | .attr m _ _ => m
  | .block m _ _ _ => m

mutual

/-- Attributes and blocks without the decor around them. -/
inductive StructAt (U : Uni) (s : Str) : EStruct → Nat → Nat → Prop
  | attr {m k v a q r x b} : SufIdent U s false k a q → Tok s c!"=" q r → Triv s false r x →
      Core U s false v x b → PreNodeM s v r x b → StructAt U s (.attr m k v) a b
  | block {m i ls bd a q r t u b} : SufIdent U s false i a q → Labels U s ls q r →
      Tok s c!"{" r t → BlockBody U s bd t u → Tok s c!"}" u b →
      StructAt U s (.block m i ls bd) a b

/-- The body of a block, between the braces. -/
inductive BlockBody (U : Uni) (s : Str) : EBody → Nat → Nat → Prop
  | lines {ss p x y z q} : LineTail s p x → LineEnding s x y → Lines U s ss false y z →
      (bodyKeys ss).Nodup → Triv s true z q →
      BlockBody U s (.mk ⟨⟨some (.fromSpan ⟨p, x⟩), some (.fromSpan ⟨z, q⟩)⟩, some ⟨x, q⟩⟩ ss
        false false) p q
  | empty {p q} : Triv s false p q →
      BlockBody U s (.mk ⟨⟨none, some (.fromSpan ⟨p, q⟩)⟩, none⟩ [] true false) p q
  | single {k v p a b x q} : Triv s false p a → StructAt U s (.attr (decM p a b x) k v) a b →
      Triv s false b x → Triv s false x q →
      BlockBody U s (.mk ⟨⟨none, some (.fromSpan ⟨x, q⟩)⟩, none⟩ [.attr (decM p a b x) k v] true
        false) p q

/-- Structures, each on its own lines. The flag tells that the last one is not followed by a line
ending but by the end of the source. -/
inductive Lines (U : Uni) (s : Str) : List EStruct → Bool → Nat → Nat → Prop
  | nil {p} : Lines U s [] false p p
  | cons {st ss fin p a b c d q} : Triv s true p a → StructAt U s st a b →
      structMeta st = decM p a b c → LineTail s b c → LineEnding s c d → Lines U s ss fin d q →
      Lines U s (st :: ss) fin p q
  | last {st p a b} : Triv s true p a → StructAt U s st a b →
      structMeta st = decM p a b s.length → LineTail s b s.length →
      Lines U s [st] true p s.length

end

/-- A document. -/
inductive Document (U : Uni) (s : Str) : EBody → Prop
  | mk {ss fin z} : Lines U s ss fin 0 z → (bodyKeys ss).Nodup → Triv s true z s.length →
      Document U s
        (.mk ⟨⟨none, some (.fromSpan ⟨z, s.length⟩)⟩, some ⟨0, z⟩⟩ ss false fin)

end Verif.Spec
