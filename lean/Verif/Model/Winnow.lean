import Verif.Basic
/-!
The parser combinators of the crate `winnow` (1.0.3) that `crates/hcl-edit/src/parser` uses.

winnow is a dependency and not part of the repository, so these definitions are a model of its
documented contract, recorded as an assumption in DESIGN.md: what a combinator consumes, what it
returns, where it leaves the input when it fails, and whether the failure is a backtrack or a cut.

The input is `winnow::stream::LocatingSlice<&str>` (`crates/hcl-edit/src/parser/mod.rs:29`). Offsets
are counted in characters; the Rust offsets count bytes. Slicing at a character offset here
corresponds to slicing at the byte offset of that character.
-/

namespace Verif

/-- `LocatingSlice<&str>`: the offset of the next character and the remaining text. -/
structure Input where
  pos : Nat
  rest : Str
deriving DecidableEq, Repr

/-- The result of a parser: `Ok`, `Err(ErrMode::Backtrack)` or `Err(ErrMode::Cut)`, together with
the input as the parser left it, a panic, or `oof`: the model ran out of the fuel that bounds its
recursion (shown to be impossible by `C16`). -/
inductive Res (α : Type) where
  | ok (a : α) (i : Input)
  | back (i : Input)
  | cut (i : Input)
  | panic
  | oof
deriving DecidableEq, Repr

/-- `Range<usize>`. -/
structure Span where
  start : Nat
  stop : Nat
deriving DecidableEq, Repr

/-- A parser: `fn(&mut Input) -> ModalResult<O>`. -/
def P (α : Type) := Input → Res α

namespace P

/-- Runs a continuation on success and passes everything else on. -/
def bind (p : P α) (f : α → P β) : P β := fun i =>
  match p i with
  | .ok a i' => f a i'
  | .back i' => .back i'
  | .cut i' => .cut i'
  | .panic => .panic
  | .oof => .oof

/-- `winnow::combinator::empty.value(a)`. -/
def pure (a : α) : P α := fun i => .ok a i

instance : Monad P where
  pure := P.pure
  bind := P.bind

/-- `Parser::map`. -/
def map (f : α → β) (p : P α) : P β := P.bind p fun a => P.pure (f a)

/-- `winnow::combinator::fail`. -/
def fail : P α := fun i => .back i

/-- `cut_err(fail)`. -/
def cutFail : P α := fun i => .cut i

/-- A Rust panic. -/
def panic : P α := fun _ => .panic

/-- Out of fuel. -/
def oof : P α := fun _ => .oof

/-- `winnow::token::any`. -/
def any : P Char := fun i =>
  match i.rest with
  | [] => .back i
  | c :: cs => .ok c ⟨i.pos + 1, cs⟩

/-- `winnow::token::one_of` and a `char` used as a parser: nothing is consumed on failure. -/
def oneOf (f : Char → Bool) : P Char := fun i =>
  match i.rest with
  | [] => .back i
  | c :: cs => if f c then .ok c ⟨i.pos + 1, cs⟩ else .back i

/-- A `char` used as a parser. -/
def chr (c : Char) : P Char := oneOf (· == c)

/-- Removes a prefix from a text. -/
def dropPrefix : Str → Str → Option Str
  | [], s => some s
  | _ :: _, [] => none
  | a :: p, b :: s => if a = b then dropPrefix p s else none

/-- A `&str` used as a parser: nothing is consumed on failure. -/
def tag (t : Str) : P Unit := fun i =>
  match dropPrefix t i.rest with
  | some r => .ok () ⟨i.pos + t.length, r⟩
  | none => .back i

/-- `winnow::token::take(n)`: nothing is consumed when fewer than `n` characters are left. -/
def takeN (n : Nat) : P Str := fun i =>
  if i.rest.length < n then .back i
  else .ok (i.rest.take n) ⟨i.pos + n, i.rest.drop n⟩

/-- `winnow::token::take_while(0.., f)`. -/
def takeWhile (f : Char → Bool) : P Str := fun i =>
  .ok (i.rest.takeWhile f) ⟨i.pos + (i.rest.takeWhile f).length, i.rest.dropWhile f⟩

/-- `winnow::token::take_while(1.., f)`: nothing is consumed on failure. -/
def takeWhile1 (f : Char → Bool) : P Str := fun i =>
  match i.rest with
  | [] => .back i
  | c :: _ => if f c then takeWhile f i else .back i

/-- The longest prefix of at most `n` characters satisfying `f`. -/
def prefixUpTo (f : Char → Bool) : Nat → Str → Str
  | 0, _ => []
  | _ + 1, [] => []
  | n + 1, c :: cs => if f c then c :: prefixUpTo f n cs else []

/-- `winnow::token::take_while(1..=n, f)`: nothing is consumed on failure. -/
def takeWhileUpTo (f : Char → Bool) (n : Nat) : P Str := fun i =>
  let s := prefixUpTo f n i.rest
  if s.isEmpty then .back i else .ok s ⟨i.pos + s.length, i.rest.drop s.length⟩

/-- Splits a text before the first occurrence of `t`. -/
def splitAtTag (t : Str) : Str → Option (Str × Str)
  | [] => if t.isEmpty then some ([], []) else none
  | c :: cs =>
    match dropPrefix t (c :: cs) with
    | some _ => some ([], c :: cs)
    | none => (splitAtTag t cs).map fun (a, b) => (c :: a, b)

/-- `winnow::token::take_until(0.., t)`: nothing is consumed on failure. -/
def takeUntil (t : Str) : P Str := fun i =>
  match splitAtTag t i.rest with
  | some (a, b) => .ok a ⟨i.pos + a.length, b⟩
  | none => .back i

/-- `winnow::combinator::eof`. -/
def eof : P Unit := fun i => if i.rest.isEmpty then .ok () i else .back i

/-- `winnow::ascii::multispace0`. -/
def multispace0 : P Str := takeWhile fun c => c == ' ' || c == '\t' || c == '\r' || c == '\n'

/-- `winnow::ascii::space0`. -/
def space0 : P Str := takeWhile fun c => c == ' ' || c == '\t'

/-- ASCII digits. -/
def isDigit (c : Char) : Bool := decide (48 ≤ c.toNat ∧ c.toNat ≤ 57)

/-- `winnow::ascii::digit1`. -/
def digit1 : P Str := takeWhile1 isDigit

/-- `winnow::ascii::line_ending`: `\n` or `\r\n`. -/
def lineEnding : P Str := fun i =>
  match i.rest with
  | '\n' :: cs => .ok ['\n'] ⟨i.pos + 1, cs⟩
  | '\r' :: '\n' :: cs => .ok ['\r', '\n'] ⟨i.pos + 2, cs⟩
  | _ => .back i

/-- `winnow::ascii::till_line_ending`: everything up to the next `\n`, `\r\n` or the end of the
input. A `\r` that is not followed by `\n` is an error. -/
def tillLineEnding : P Str := fun i =>
  match takeWhile (fun c => c != '\n' && c != '\r') i with
  | .ok s i' =>
    match i'.rest with
    | '\r' :: '\n' :: _ => .ok s i'
    | '\r' :: _ => .back i'
    | _ => .ok s i'
  | r => r

/-- `winnow::combinator::cut_err`. -/
def cutErr (p : P α) : P α := fun i =>
  match p i with
  | .back i' => .cut i'
  | r => r

/-- `winnow::combinator::opt`. -/
def opt (p : P α) : P (Option α) := fun i =>
  match p i with
  | .ok a i' => .ok (some a) i'
  | .back _ => .ok none i
  | .cut i' => .cut i'
  | .panic => .panic
  | .oof => .oof

/-- `winnow::combinator::peek`: the input is reset in every case. -/
def peek (p : P α) : P α := fun i =>
  match p i with
  | .ok a _ => .ok a i
  | .back _ => .back i
  | .cut _ => .cut i
  | .panic => .panic
  | .oof => .oof

/-- `winnow::combinator::not`: the input is reset in every case. -/
def notP (p : P α) : P Unit := fun i =>
  match p i with
  | .ok _ _ => .back i
  | .back _ => .ok () i
  | .cut _ => .cut i
  | .panic => .panic
  | .oof => .oof

/-- `winnow::combinator::alt((p, q))`: `q` runs from the start if `p` backtracks. -/
def alt (p q : P α) : P α := fun i =>
  match p i with
  | .back _ => q i
  | r => r

/-- `winnow::combinator::preceded`. -/
def preceded (p : P α) (q : P β) : P β := P.bind p fun _ => q

/-- `winnow::combinator::terminated`. -/
def terminated (p : P α) (q : P β) : P α := P.bind p fun a => P.bind q fun _ => P.pure a

/-- `winnow::combinator::delimited`. -/
def delimited (p : P α) (q : P β) (r : P γ) : P β := preceded p (terminated q r)

/-- Everything a parser did to the input is undone when the value is rejected: `Parser::verify`,
`Parser::verify_map` and `Parser::try_map`. -/
def verifyMap (f : α → Option β) (p : P α) : P β := fun i =>
  match p i with
  | .ok a i' => match f a with
    | some b => .ok b i'
    | none => .back i
  | .back i' => .back i'
  | .cut i' => .cut i'
  | .panic => .panic
  | .oof => .oof

/-- `Parser::with_span` (and `Parser::span`). -/
def withSpan (p : P α) : P (α × Span) := fun i =>
  match p i with
  | .ok a i' => .ok (a, ⟨i.pos, i'.pos⟩) i'
  | .back i' => .back i'
  | .cut i' => .cut i'
  | .panic => .panic
  | .oof => .oof

/-- `Parser::span`. -/
def spanOf (p : P α) : P Span := map (·.2) (withSpan p)

/-- `Parser::with_taken`: the value and the text that was consumed. -/
def withTaken (p : P α) : P (α × Str) := fun i =>
  match p i with
  | .ok a i' => .ok (a, i.rest.take (i'.pos - i.pos)) i'
  | .back i' => .back i'
  | .cut i' => .cut i'
  | .panic => .panic
  | .oof => .oof

/-- `Parser::take`. -/
def taken (p : P α) : P Str := map (·.2) (withTaken p)

/-- The loop of `winnow::combinator::repeat(0.., p)`. A backtrack ends it and undoes the last
attempt. An iteration that consumes nothing trips winnow's assertion, modelled as a panic. The
first argument bounds the number of iterations of the model. -/
def repeatF (p : P α) : Nat → P (List α)
  | 0 => oof
  | n + 1 => fun i =>
    match p i with
    | .ok a i' =>
      if i'.rest.length < i.rest.length then
        match repeatF p n i' with
        | .ok as i'' => .ok (a :: as) i''
        | r => r
      else .panic
    | .back _ => .ok [] i
    | .cut i' => .cut i'
    | .panic => .panic
    | .oof => .oof

/-- `winnow::combinator::repeat(0.., p)`. Every iteration consumes at least one character, so the
number of remaining characters bounds the number of iterations. -/
def repeat0 (p : P α) : P (List α) := fun i => repeatF p (i.rest.length + 1) i

/-- `winnow::combinator::repeat(1.., p)`: a failure of the first iteration is returned as it is. -/
def repeat1 (p : P α) : P (List α) := P.bind p fun a => P.map (a :: ·) (repeat0 p)

/-- The loop of `winnow::combinator::separated` after the first element: a backtrack of the
separator or of the element after it ends the loop in front of the separator. -/
def sepF (p : P α) (sep : P β) : Nat → P (List α)
  | 0 => oof
  | n + 1 => fun i =>
    match P.bind sep (fun _ => p) i with
    | .ok a i' =>
      if i'.rest.length < i.rest.length then
        match sepF p sep n i' with
        | .ok as i'' => .ok (a :: as) i''
        | r => r
      else .panic
    | .back _ => .ok [] i
    | .cut i' => .cut i'
    | .panic => .panic
    | .oof => .oof

/-- `winnow::combinator::separated(1.., p, sep)`. -/
def separated1 (p : P α) (sep : P β) : P (List α) :=
  P.bind p fun a => fun i => P.map (a :: ·) (sepF p sep (i.rest.length + 1)) i

/-- `winnow::combinator::separated(0.., p, sep)`. -/
def separated0 (p : P α) (sep : P β) : P (List α) := fun i =>
  match p i with
  | .ok a i' => P.map (a :: ·) (sepF p sep (i'.rest.length + 1)) i'
  | .back _ => .ok [] i
  | .cut i' => .cut i'
  | .panic => .panic
  | .oof => .oof

/-- `input.checkpoint()`, and `current_token_start` / `previous_token_end` through its offset. -/
def getInput : P Input := fun i => .ok i i

/-- `input.reset(&checkpoint)`. -/
def setInput (cp : Input) : P Unit := fun _ => .ok () cp

/-- `peek(take(2usize)).parse_next(input)`, whose failure the callers handle as "no match". -/
def peek2 : P (Option (Char × Char)) := fun i =>
  match i.rest with
  | a :: b :: _ => .ok (some (a, b)) i
  | _ => .ok none i

end P
end Verif
