import Verif.Spec.SourceLit
import Verif.Spec.Dedent
import Verif.Model.EditEncode
/-!
Canonical spelling (C18): what has to be true of the constructs of a parsed document for its text to
be reproduced. The conditions are about the tree that the parser returned and the source `s`; spans
lead from a node to its text.

Everything else - whitespace and comments between tokens, the spelling of numbers, the order and
nesting of everything - is not restricted.
-/

namespace Verif.Spec

/-- The text of a span. -/
def spanText (s : Str) : Option Span → Str
  | some p => slice s p.start p.stop
  | none => []

/-- Where a span ends. -/
def spanStop : Option Span → Nat
  | some p => p.stop
  | none => 0

/-- Where a span starts. -/
def spanStart : Option Span → Nat
  | some p => p.start
  | none => 0

/-- The length of a piece of decor. -/
def decorLen : Option Raw → Nat
  | some (.explicit t) => t.length
  | _ => 0

/-- No text is recorded as the suffix of an expression. -/
def plainSuf (e : EExpr) : Bool :=
  match e.getMeta.decor.suf with
  | none => true
  | some .empty => true
  | _ => false

/-- Nothing or one blank, next to an operator. -/
def blankOrNone (s : Str) : Option Raw → Bool
  | some .empty => true
  | some (.spanned p) => decide (slice s p.start p.stop = c!" ")
  | _ => false

/-- Nothing, in front of a traversal operator. -/
def noDecor : Option Raw → Bool
  | some .empty => true
  | _ => false

/-- No `${` or `%{`. -/
def noMarker : Str → Bool
  | [] => true
  | c :: r => !(decide (Sigil c) && decide (r.head? = some '{')) && noMarker r

/-- The text is on one line and begins with a character that is not whitespace. -/
def inline (U : Uni) : Str → Bool
  | [] => false
  | c :: r => !U.isWs c && decide (c ≠ '\n') && decide ('\n' ∉ r)

/-- Every line is empty, or begins with `n` spaces and has more than that. -/
def indentedBy (n : Nat) (t : Str) : Bool :=
  (lines t).all fun l => l.isEmpty || decide (l.take n = List.replicate n ' ' ∧ n < l.length)

/-- How a literal of a template is printed: in a quoted template with escape sequences. -/
def litText (quoted : Bool) (t : Str) : Str :=
  if quoted then encEscaped (escapeMarkers t) else escapeMarkers t

mutual

/-- Something in the expression ends the use of escape sequences: a quoted template that is not inside
of an indented heredoc. (The printer forgets after a quoted template that it may be inside of
another one.) -/
def resets : EExpr → Bool
  | .null _ => false
  | .bool _ _ => false
  | .number _ _ _ => false
  | .string _ _ => false
  | .var _ _ => false
  | .array _ vs _ _ => resetsList vs
  | .object _ is _ => resetsItems is
  | .strTmpl _ _ => true
  | .heredoc _ _ _ es i _ => i.isNone && resetsElems es
  | .paren _ e => resets e
  | .cond _ c t f => resets c || resets t || resets f
  | .call _ _ _ _ as _ _ _ => resetsList as
  | .trav _ e os => resets e || resetsTravs os
  | .unary _ _ _ e => resets e
  | .binary _ l _ _ r => resets l || resets r
  | .forE _ _ _ _ c ke ve _ _ co => resets c || resetsOpt ke || resets ve || resetsOpt co
termination_by structural x => x

def resetsOpt : Option EExpr → Bool
  | some e => resets e
  | none => false
termination_by structural x => x

def resetsList : List EExpr → Bool
  | [] => false
  | e :: es => resets e || resetsList es
termination_by structural x => x

def resetsItems : List EItem → Bool
  | [] => false
  | .mk k v _ _ :: is => resetsKey k || resets v || resetsItems is
termination_by structural x => x

def resetsKey : EKey → Bool
  | .ident _ => false
  | .expr e => resets e
termination_by structural x => x

def resetsTravs : List ETrav → Bool
  | [] => false
  | .mk _ o :: os => resetsOp o || resetsTravs os
termination_by structural x => x

def resetsOp : ETravOp → Bool
  | .attrSplat _ => false
  | .fullSplat _ => false
  | .getAttr _ => false
  | .index e => resets e
  | .legacyIndex _ _ => false
termination_by structural x => x

def resetsElems : List EElem → Bool
  | [] => false
  | e :: es => resetsElem e || resetsElems es
termination_by structural x => x

def resetsElem : EElem → Bool
  | .lit _ _ => false
  | .interp _ e _ => resets e
  | .ifDir _ _ c _ _ t el _ _ _ => resets c || resetsElems t || resetsElse el
  | .forDir _ _ _ _ c _ _ t _ _ _ => resets c || resetsElems t
termination_by structural x => x

def resetsElse : Option EElse → Bool
  | some x => resetsElse' x
  | none => false
termination_by structural x => x

def resetsElse' : EElse → Bool
  | .mk _ _ _ _ es => resetsElems es
termination_by structural x => x

end

/-- Where the key of an object item ends, with the decor after it. -/
def keyStop : EKey → Nat
  | .ident d => spanStop d.m.span + decorLen d.m.decor.suf
  | .expr e => spanStop e.getMeta.span + decorLen e.getMeta.decor.suf

/-- The element is a literal. -/
def isLit : EElem → Bool
  | .lit _ _ => true
  | _ => false

/-- The conditions for a heredoc; `plain` and `ind` are those for its elements, with and without
indentation. -/
def canonHeredoc (s : Str) (q : Bool) (m : Meta) (ts : Option Span) (i : Option Nat)
    (plain ind : Bool) : Bool :=
  match i with
  | none => !q && plain &&
      decide (slice s (spanStart m.span) (spanStart m.span + 3) ≠ c!"<<-")
  | some n => indentedBy n (spanText s ts) && ind

mutual

/-- The expression is spelled canonically. `q` tells that it is inside of a quoted template. -/
def canon (U : Uni) (s : Str) (q : Bool) : EExpr → Bool
  | .null _ => true
  | .bool _ _ => true
  | .number _ _ _ => true
  | .var _ _ => true
  -- with the escape sequences that are printed
  | .string m x => decide (spanText s m.span = encQuoted x)
  -- no comma in an empty array (which the parser rejects anyway)
  | .array _ vs c _ => (!vs.isEmpty || !c) && canonList U s q vs
  | .object _ is _ => canonItems U s q is
  | .strTmpl _ es => canonElems U s true es
  -- a heredoc without `-`, not inside of a quoted template; or one with `-` whose indentation is the
  -- same number of spaces, without directives, and with interpolations on one line
  | .heredoc m _ ts es i _ => canonHeredoc s q m ts i (canonElems U s false es) (canonInd U s false es)
  | .paren _ e => canon U s q e
  | .cond _ c t f => canon U s q c && canon U s q t && canon U s q f && plainSuf f
  | .call _ _ _ _ as _ _ _ => canonList U s q as
  | .trav _ e os => canon U s q e && canonTravs U s q os
  | .unary _ _ _ e => canon U s q e && plainSuf e
  -- nothing or one blank on each side of an operator, and no operand dropped
  | .binary m l om _ r =>
    canon U s q l && canon U s q r && blankOrNone s om.decor.pre && blankOrNone s om.decor.suf &&
      plainSuf l && plainSuf r && decide (spanStop r.getMeta.span = spanStop m.span)
  -- nothing between `...` and `}`
  | .forE m _ _ _ c ke ve g _ co =>
    canon U s q c && canonOpt U s q ke && canon U s q ve && canonOpt U s q co &&
      (!g || co.isSome ||
        decide (spanStop m.span = spanStop ve.getMeta.span + decorLen ve.getMeta.decor.suf + 4))
termination_by structural x => x

/-- An optional expression. -/
def canonOpt (U : Uni) (s : Str) (q : Bool) : Option EExpr → Bool
  | some e => canon U s q e
  | none => true
termination_by structural x => x

/-- A list of expressions. -/
def canonList (U : Uni) (s : Str) (q : Bool) : List EExpr → Bool
  | [] => true
  | e :: es => canon U s q e && canonList U s q es
termination_by structural x => x

/-- The items of an object: the value is the one written after the key, that is, no value was replaced
by the one of a later item with the same key. -/
def canonItems (U : Uni) (s : Str) (q : Bool) : List EItem → Bool
  | [] => true
  | .mk k v _ _ :: is =>
    canonKey U s q k && canon U s q v &&
      decide (spanStart v.getMeta.span = keyStop k + 1 + decorLen v.getMeta.decor.pre) &&
      canonItems U s q is
termination_by structural x => x

/-- An object key. -/
def canonKey (U : Uni) (s : Str) (q : Bool) : EKey → Bool
  | .ident _ => true
  | .expr e => canon U s q e
termination_by structural x => x

/-- Traversal operators: nothing in front of each. -/
def canonTravs (U : Uni) (s : Str) (q : Bool) : List ETrav → Bool
  | [] => true
  | .mk m o :: os => noDecor m.decor.pre && canonOp U s q o && canonTravs U s q os
termination_by structural x => x

/-- A traversal operator. -/
def canonOp (U : Uni) (s : Str) (q : Bool) : ETravOp → Bool
  | .attrSplat _ => true
  | .fullSplat _ => true
  | .getAttr _ => true
  | .index e => canon U s q e
  | .legacyIndex _ _ => true
termination_by structural x => x

/-- The elements of a template; `f` tells whether escape sequences are printed. Literals are written
the way they are printed. -/
def canonElems (U : Uni) (s : Str) (f : Bool) : List EElem → Bool
  | [] => true
  | e :: es => canonElem U s f e && canonElems U s (f && !resetsElem e) es
termination_by structural x => x

/-- An element of a template. -/
def canonElem (U : Uni) (s : Str) (f : Bool) : EElem → Bool
  | .lit sp t => decide (spanText s sp = litText f t)
  | .interp _ e _ => canon U s f e
  | .ifDir _ _ c _ _ t el _ _ _ =>
    canon U s f c && canonElems U s (f && !resets c) t &&
      canonElse U s (f && !resets c && !resetsElems t) el
  | .forDir _ _ _ _ c _ _ t _ _ _ => canon U s f c && canonElems U s (f && !resets c) t
termination_by structural x => x

/-- The `else` branch of a directive. -/
def canonElse (U : Uni) (s : Str) (f : Bool) : Option EElse → Bool
  | some x => canonElse' U s f x
  | none => true
termination_by structural x => x

/-- The `else` branch of a directive. -/
def canonElse' (U : Uni) (s : Str) (f : Bool) : EElse → Bool
  | .mk _ _ _ _ es => canonElems U s f es
termination_by structural x => x

/-- The elements of an indented heredoc; `prev` tells that there is a literal in front. -/
def canonInd (U : Uni) (s : Str) (prev : Bool) : List EElem → Bool
  | [] => true
  | e :: es => canonIndElem U s prev e && canonInd U s (isLit e) es
termination_by structural x => x

/-- An element of an indented heredoc. -/
def canonIndElem (U : Uni) (s : Str) (prev : Bool) : EElem → Bool
  | .lit sp t => !prev && noMarker (spanText s sp) && noMarker t
  | .interp sp e _ => inline U (spanText s sp) && canon U s false e
  | _ => false
termination_by structural x => x

end

/-- A block label. -/
def canonLabel (s : Str) : ELabel → Bool
  | .ident _ => true
  | .string m x => decide (spanText s m.span = encQuoted x)

mutual

/-- An attribute or a block. -/
def canonStruct (U : Uni) (s : Str) : EStruct → Bool
  | .attr _ _ v => canon U s false v && plainSuf v
  | .block _ _ ls b => ls.all (canonLabel s) && canonBody U s b
termination_by structural x => x

/-- A body. -/
def canonBody (U : Uni) (s : Str) : EBody → Bool
  | .mk _ ss _ _ => canonStructs U s ss
termination_by structural x => x

/-- A list of attributes and blocks. -/
def canonStructs (U : Uni) (s : Str) : List EStruct → Bool
  | [] => true
  | x :: ss => canonStruct U s x && canonStructs U s ss
termination_by structural x => x

end

end Verif.Spec
