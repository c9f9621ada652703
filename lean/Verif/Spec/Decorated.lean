import Verif.Spec.Printable
import Verif.Model.Convert
/-!
Trees of `hcl-edit` whose printed text means what the tree says (C55). Such a tree may have been built
from scratch, parsed, or parsed and then changed. What the tree must satisfy is of two kinds: the
whitespace and comments that are set in it are such, and stand where the language allows them; and the
tree can be written at all, because the printer adds no parentheses.
-/

namespace Verif.Spec
open Syn

/-- What is written for a piece of whitespace: the default `d` if nothing is set. A part of a source text
that has not been resolved counts as not set. -/
def decorText (d : Str) : Option Raw → Str
  | some (.explicit s) => s
  | some .empty => []
  | _ => d

/-- What is written in front of a node. -/
def before (d : Str) (m : Meta) : Str := decorText d m.decor.pre

/-- What is written after a node. -/
def behind (d : Str) (m : Meta) : Str := decorText d m.decor.suf

/-- Nothing is set, or whitespace and comments; with `nl = false` without line breaks. -/
def BlankText (nl : Bool) (r : Option Raw) : Prop := Gap nl (decorText [] r)

/-- Whitespace and comments in front and behind. -/
def Around (nl : Bool) (m : Meta) : Prop := BlankText nl m.decor.pre ∧ BlankText nl m.decor.suf

/-- A text that may stand at the end of a line: blanks, and possibly a line comment. -/
def LineEnd (t : Str) : Prop := Eol (t ++ c!"\n")

/-- The whitespace in front of the name of a function. -/
def leadName : List DIdent → DIdent → Str
  | [], n => before [] n.m
  | d :: _, _ => before [] d.m

/-- The whitespace that an expression starts with, besides its own. -/
def lead : EExpr → Str
  | .cond _ c _ _ => before [] c.getMeta ++ lead c
  | .binary _ l _ _ _ => before [] l.getMeta ++ lead l
  | .trav _ e _ => before [] e.getMeta ++ lead e
  | .call _ ns n _ _ _ _ _ => leadName ns n
  | _ => []
termination_by structural x => x

/-- The whitespace that a traversal operator ends with. -/
def trailOp : ETravOp → Str
  | .attrSplat m => behind [] m
  | .getAttr d => behind [] d.m
  | .legacyIndex m _ => behind [] m
  | .fullSplat _ => []
  | .index _ => []

/-- The whitespace that traversal operators end with. -/
def trailOps : List ETrav → Str
  | [] => []
  | [.mk m o] => trailOp o ++ behind [] m
  | _ :: os => trailOps os

/-- The whitespace that an expression ends with, besides its own. -/
def trail : EExpr → Str
  | .cond _ _ _ f => trail f ++ behind [] f.getMeta
  | .binary _ _ _ _ r => trail r ++ behind [] r.getMeta
  | .unary _ _ _ e => trail e ++ behind [] e.getMeta
  | .trav _ _ os => trailOps os
  | .call _ _ _ am _ _ _ _ => behind [] am
  | _ => []
termination_by structural x => x

/-- The text starts with the word `for`, which at the start of an array or object may be taken for a
`for` expression. -/
def wordFor (e : Expr) : Bool :=
  match leftmost e with
  | .var x => decide (x = c!"for")
  | .call n _ _ => decide ((n.namespaces ++ [n.name]).head? = some c!"for")
  | _ => false

/-- The text starts with a number. -/
def firstNumber (e : Expr) : Bool := isNumber (leftmost e)

/-- The text may start with a character that could continue an expression in front of it. -/
def mayContinue (e : Expr) : Bool :=
  match leftmost e with
  | .array _ | .paren _ | .unary _ _ | .number _ | .forE _ _ _ none _ _ _ | .template (.heredoc _ _ _) => true
  | _ => false

/-- The same for the first of some expressions. -/
def headWordFor : List Expr → Bool
  | e :: _ => wordFor e
  | [] => false

/-- The same for object keys. -/
def keyWordFor : ObjKey → Bool
  | .ident x => decide (x = c!"for")
  | .expr e => wordFor e

/-- The same for the first of some object items. -/
def headKeyWordFor : List (ObjKey × Expr) → Bool
  | (k, _) :: _ => keyWordFor k
  | [] => false

/-- The same for the first of some object items. -/
def headContinues : List (ObjKey × Expr) → Bool
  | (.expr e, _) :: _ => mayContinue e
  | _ => false

/-- The number is written as it was read, or else as it is printed. -/
def NumberLaid (F : FmtEnv) (bd : Build) (n : N) : Option Raw → Prop
  | none => NumberSafe F bd n
  | some (.explicit t) => Num bd t n
  | some _ => False

/-- The first operator is a legacy index without whitespace in front of it. -/
def bareLegacy : List ETrav → Prop
  | .mk m (.legacyIndex _ _) :: _ => before [] m = []
  | _ => False

/-- An identifier with whitespace. -/
def LaidIdent (U : Uni) (nl : Bool) (d : DIdent) : Prop := IsIdentifier U d.name ∧ Around nl d.m

/-- The variables of a `for` expression. There must be something between `for` and the first one, and
between the last one and `in`. By default there is nothing in front of `in`. -/
def LaidVars (U : Uni) (k : Option DIdent) (v : DIdent) : Prop :=
  (∀ d, k = some d → LaidIdent U true d) ∧ LaidIdent U true v ∧
  (∀ c, (before c!" " (k.getD v).m).head? = some c → c ≠ '\r') ∧ before c!" " (k.getD v).m ≠ [] ∧
  behind [] v.m ≠ []

mutual

/-- There is no quoted template inside the expression. After one, the printer takes the text that follows
for text outside of quotes. A heredoc whose indentation is removed is printed on its own. -/
def noQuoted : EExpr → Bool
  | .null _ => true
  | .bool _ _ => true
  | .number _ _ _ => true
  | .string _ _ => true
  | .array _ vs _ _ => noQuotedList vs
  | .object _ is _ => noQuotedItems is
  | .strTmpl _ _ => false
  | .heredoc _ _ _ es i _ => i.isSome || noQuotedElems es
  | .paren _ e => noQuoted e
  | .var _ _ => true
  | .cond _ c t f => noQuoted c && noQuoted t && noQuoted f
  | .call _ _ _ _ as _ _ _ => noQuotedList as
  | .trav _ e os => noQuoted e && noQuotedOps os
  | .unary _ _ _ e => noQuoted e
  | .binary _ l _ _ r => noQuoted l && noQuoted r
  | .forE _ _ _ _ c ke ve _ _ co => noQuoted c && noQuotedOpt ke && noQuoted ve && noQuotedOpt co
termination_by structural x => x

/-- The same for an optional expression. -/
def noQuotedOpt : Option EExpr → Bool
  | none => true
  | some e => noQuoted e
termination_by structural x => x

/-- The same for expressions. -/
def noQuotedList : List EExpr → Bool
  | [] => true
  | e :: es => noQuoted e && noQuotedList es
termination_by structural x => x

/-- The same for object items. -/
def noQuotedItems : List EItem → Bool
  | [] => true
  | .mk k v _ _ :: is => noQuotedKey k && noQuoted v && noQuotedItems is
termination_by structural x => x

/-- The same for an object key. -/
def noQuotedKey : EKey → Bool
  | .ident _ => true
  | .expr e => noQuoted e
termination_by structural x => x

/-- The same for traversal operators. -/
def noQuotedOps : List ETrav → Bool
  | [] => true
  | .mk _ o :: os => noQuotedOp o && noQuotedOps os
termination_by structural x => x

/-- The same for a traversal operator. -/
def noQuotedOp : ETravOp → Bool
  | .attrSplat _ => true
  | .fullSplat _ => true
  | .getAttr _ => true
  | .index e => noQuoted e
  | .legacyIndex _ _ => true
termination_by structural x => x

/-- The same for template elements. -/
def noQuotedElems : List EElem → Bool
  | [] => true
  | e :: es => noQuotedElem e && noQuotedElems es
termination_by structural x => x

/-- The same for a template element. -/
def noQuotedElem : EElem → Bool
  | .lit _ _ => true
  | .interp _ e _ => noQuoted e
  | .ifDir _ _ c _ _ t el _ _ _ => noQuoted c && noQuotedElems t && noQuotedElseOpt el
  | .forDir _ _ _ _ c _ _ t _ _ _ => noQuoted c && noQuotedElems t
termination_by structural x => x

/-- The same for an optional `else`. -/
def noQuotedElseOpt : Option EElse → Bool
  | none => true
  | some x => noQuotedElse x
termination_by structural x => x

/-- The same for an `else`. -/
def noQuotedElse : EElse → Bool
  | .mk _ _ _ _ t => noQuotedElems t
termination_by structural x => x

end

/-- Text that is written in the same way inside and outside of quotes: no quotes, backslashes and control
characters. -/
def PlainText (s : Str) : Prop := ∀ c ∈ s, c ≠ '"' ∧ c ≠ '\\' ∧ 0x20 ≤ c.toNat ∧ c.toNat ≠ 0x7f

/-- The character that starts an element which is not text. -/
def sigilOf : EElem → Option Char
  | .lit _ _ => none
  | .interp _ _ _ => some '$'
  | .ifDir .. => some '%'
  | .forDir .. => some '%'

/-- Text is followed by something that is not text, and does not end with the character which that starts
with: `$${` would be an escaped marker. After the last element comes what starts with `nx`, if anything. -/
def TextEnds (nx : Option Char) (es : List EElem) : EElem → Prop
  | .lit _ s => match es with
    | [] => s.getLast? ≠ nx
    | e :: _ => sigilOf e ≠ none ∧ s.getLast? ≠ sigilOf e
  | _ => True

/-- The variables of a `for` directive. There must be something between `for` and the first one, and
between the last one and `in`. -/
def LaidDirVars (U : Uni) (k : Option DIdent) (v : DIdent) : Prop :=
  (∀ d, k = some d → LaidIdent U true d) ∧ LaidIdent U true v ∧ before c!" " (k.getD v).m ≠ [] ∧
  behind c!" " v.m ≠ []

section
variable (F : FmtEnv) (bd : Build)

mutual

/-- Expressions, apart from their own whitespace. With `nl = true` line breaks are whitespace. With
`j = true` the expression is inside of a quoted template, where the printer escapes the text of heredocs. Heredocs
with a removed indentation are not covered. -/
def Laid (j nl : Bool) : EExpr → Prop
  | .null _ => True
  | .bool _ _ => True
  | .number _ n r => NumberLaid F bd n r
  | .string _ s => StringSafe s
  | .array _ vs _ t => LaidList j vs ∧ headWordFor (toHclList F vs) = false ∧ BlankText true (some t)
  | .object _ is t => LaidItems j t is ∧ headKeyWordFor (toHclItems F is) = false ∧
      KeysApart ((toHclItems F is).map Prod.fst) ∧ BlankText true (some t)
  | .strTmpl _ es => LaidElems true true true none es ∧ (toHclElems F es).all isText = false
  | .heredoc _ d _ es none t => j = false ∧ IsIdentifier F.U d ∧ LaidElems false false false none es ∧
      HeredocText F.U d (showTemplate F es) ∧ SpaceOnly (decorText [] (some t))
  | .heredoc _ _ _ _ (some _) _ => False
  | .paren _ e => Around true e.getMeta ∧ Laid j true e
  | .var _ x => IsIdentifier F.U x ∧ x ∉ keywords
  | .cond _ c t f => Around nl c.getMeta ∧ Laid j nl c ∧ isCond (toHcl F c) = false ∧
      Around nl t.getMeta ∧ Laid j nl t ∧ Around nl f.getMeta ∧ Laid j nl f
  | .call _ ns n am as _ x t => (∀ d ∈ ns, LaidIdent F.U nl d) ∧ LaidIdent F.U nl n ∧ Around nl am ∧
      LaidList j as ∧ (x = true → as ≠ []) ∧ BlankText true (some t)
  | .trav _ e os => BlankText nl e.getMeta.decor.pre ∧ BlankText (nl || opens (toHcl F e)) e.getMeta.decor.suf ∧
      Laid j nl e ∧ atomic (toHcl F e) = true ∧ os ≠ [] ∧ LaidOps j nl (nl || opens (toHcl F e)) os ∧
      (isNumber (toHcl F e) = true → behind [] e.getMeta = [] → ¬ bareLegacy os)
  | .unary _ _ o e => BlankText false e.getMeta.decor.pre ∧ Gap false (lead e) ∧ BlankText nl e.getMeta.decor.suf ∧
      Laid j nl e ∧ operand (toHcl F e) = true ∧ (o = .neg → firstNumber (toHcl F e) = false)
  | .binary _ l om o r => Around nl l.getMeta ∧ Laid j nl l ∧ isCond (toHcl F l) = false ∧ Around nl om ∧
      Around nl r.getMeta ∧ Laid j nl r ∧ isCond (toHcl F r) = false ∧
      Syn.LeftOf o (toHcl F l) ∧ Syn.RightOf o (toHcl F r) ∧
      -- `a-b` is an identifier, and `a //b` has a comment
      (o = .minus → behind [] l.getMeta ++ before c!" " om ≠ []) ∧
      (o = .div → (behind c!" " om ++ before [] r.getMeta ++ lead r).head? ≠ some '/')
  | .forE _ im k v c ke ve g cm co => Around true im ∧ LaidVars F.U k v ∧
      Around true c.getMeta ∧ Laid j false c ∧ before c!" " c.getMeta ≠ [] ∧
      LaidOpt j ke ∧ (ke = none → g = false) ∧ Around true ve.getMeta ∧ Laid j ke.isNone ve ∧
      LaidCond j cm co ∧ (co ≠ none → g = false → behind [] ve.getMeta ++ before c!" " cm ≠ [])
termination_by structural x => x

/-- The key expression of a `for` expression. -/
def LaidOpt (j : Bool) : Option EExpr → Prop
  | none => True
  | some e => Around true e.getMeta ∧ Laid j false e
termination_by structural x => x

/-- The condition of a `for` expression. -/
def LaidCond (j : Bool) (cm : Meta) : Option EExpr → Prop
  | none => True
  | some e => Around true cm ∧ Around true e.getMeta ∧ Laid j true e ∧ before c!" " e.getMeta ≠ []
termination_by structural x => x

/-- Elements of an array, or arguments. -/
def LaidList (j : Bool) : List EExpr → Prop
  | [] => True
  | e :: es => Around true e.getMeta ∧ Laid j true e ∧ LaidList j es
termination_by structural x => x

/-- Object items. Only the last one may be without a comma or line break behind it. -/
def LaidItems (j : Bool) (last : Raw) : List EItem → Prop
  | [] => True
  | .mk k v _ t :: is => LaidKey j k ∧ BlankText false v.getMeta.decor.pre ∧ Laid j false v ∧
      (t = .comma → BlankText false v.getMeta.decor.suf) ∧
      (t = .newline → LineEnd (behind [] v.getMeta) ∧
        (opens (toHcl F v) = true → headContinues (toHclItems F is) = false)) ∧
      (t = .none → BlankText false v.getMeta.decor.suf ∧ is = [] ∧ BlankText false (some last)) ∧
      LaidItems j last is
termination_by structural x => x

/-- Object keys. -/
def LaidKey (j : Bool) : EKey → Prop
  | .ident d => IsIdentifier F.U d.name ∧ d.name ∉ keywords ∧ BlankText true d.m.decor.pre ∧
      BlankText false d.m.decor.suf
  | .expr e => BlankText true e.getMeta.decor.pre ∧ Laid j false e ∧ BlankText false e.getMeta.decor.suf ∧
      isVar (toHcl F e) = false
termination_by structural x => x

/-- Traversal operators. -/
def LaidOps (j nl nl' : Bool) : List ETrav → Prop
  | [] => True
  | .mk m o :: os => BlankText nl' m.decor.pre ∧ BlankText nl m.decor.suf ∧ LaidOp j nl o ∧ LaidOps j nl nl' os
termination_by structural x => x

/-- A traversal operator. -/
def LaidOp (j nl : Bool) : ETravOp → Prop
  | .attrSplat m => BlankText true m.decor.pre ∧ BlankText nl m.decor.suf
  | .fullSplat m => Around true m
  | .getAttr d => IsIdentifier F.U d.name ∧ BlankText true d.m.decor.pre ∧ BlankText nl d.m.decor.suf
  | .index e => Around true e.getMeta ∧ Laid j true e
  | .legacyIndex m n => n < 2 ^ 64 ∧ BlankText true m.decor.pre ∧ BlankText nl m.decor.suf
termination_by structural x => x

/-- Template elements. They are read as the parts of a quoted template if `q = true`, and printed as such
if `k = true`. With `j = true` there are quotes around, if only around a directive. The text of directives is read as
text outside of quotes. -/
def LaidElems (j q k : Bool) (nx : Option Char) : List EElem → Prop
  | [] => True
  | e :: es => LaidElem j q k e ∧ TextEnds nx es e ∧ LaidElems j q (k && noQuotedElem e) nx es
termination_by structural x => x

/-- A template element. -/
def LaidElem (j q k : Bool) : EElem → Prop
  | .lit _ s => s ≠ [] ∧ StringSafe s ∧ (q = k ∨ PlainText s)
  | .interp _ e _ => Around true e.getMeta ∧ Laid j true e
  | .ifDir _ p c _ _ t el ep et _ => BlankText true (some p) ∧ Around true c.getMeta ∧ Laid j false c ∧
      LaidElems j false (k && noQuoted c) (some '%') t ∧ LaidElseOpt j (k && noQuoted c && noQuotedElems t) el ∧
      BlankText true (some ep) ∧ BlankText true (some et)
  | .forDir _ p x v c _ _ t ep et _ => BlankText true (some p) ∧ LaidDirVars F.U x v ∧ Around true c.getMeta ∧
      Laid j false c ∧ before c!" " c.getMeta ≠ [] ∧ LaidElems j false (k && noQuoted c) (some '%') t ∧
      BlankText true (some ep) ∧ BlankText true (some et)
termination_by structural x => x

/-- The `else` of an `if` directive. -/
def LaidElseOpt (j k : Bool) : Option EElse → Prop
  | none => True
  | some x => LaidElse j k x
termination_by structural x => x

/-- The `else` of an `if` directive. -/
def LaidElse (j k : Bool) : EElse → Prop
  | .mk p t _ _ es => BlankText true (some p) ∧ BlankText true (some t) ∧ LaidElems j false k (some '%') es
termination_by structural x => x

end

/-- After an identifier with the whitespace `g` behind it, an identifier needs some whitespace. -/
def Separate (g : Str) : List ELabel → Prop
  | .ident d :: _ => g ++ before [] d.m ≠ []
  | _ => True

/-- Block labels. -/
def LaidLabels : List ELabel → Prop
  | [] => True
  | .ident d :: ls => LaidIdent F.U false d ∧ Separate (behind c!" " d.m) ls ∧ LaidLabels ls
  | .string m s :: ls => StringSafe s ∧ Around false m ∧ LaidLabels ls

/-- The whitespace of an attribute or block. -/
def ownMeta : EStruct → Meta
  | .attr m _ _ => m
  | .block m _ _ _ => m

/-- The attribute of a one-line block. -/
def LaidOneLine : List EStruct → Prop
  | [.attr m k v] => Around false m ∧ LaidIdent F.U false k ∧ Around false v.getMeta ∧ Laid F bd false false v
  | ss => ss = []

/-- Is the body of a block written on one line? -/
def onOneLine (oneline : Bool) : List EStruct → Bool
  | [] => oneline
  | [.attr _ _ _] => oneline
  | _ => false

mutual

/-- Attributes and blocks, without the whitespace behind them. -/
def LaidStruct : EStruct → Prop
  | .attr m k v => BlankText true m.decor.pre ∧ IsIdentifier F.U k.name ∧ BlankText true k.m.decor.pre ∧
      BlankText false k.m.decor.suf ∧ Around false v.getMeta ∧ Laid F bd false false v
  | .block m i ls b => BlankText true m.decor.pre ∧ IsIdentifier F.U i.name ∧ BlankText true i.m.decor.pre ∧
      BlankText false i.m.decor.suf ∧ Separate (behind c!" " i.m) ls ∧ LaidLabels F ls ∧ LaidBlock b
termination_by structural x => x

/-- The body of a block. -/
def LaidBlock : EBody → Prop
  | .mk m ss o _ =>
    (onOneLine o ss = true → Around false m ∧ LaidOneLine F bd ss) ∧
    (onOneLine o ss = false → LineEnd (before [] m) ∧ BlankText true m.decor.suf ∧ LaidLines false ss ∧
      (attrKeys (toHclStructs F ss)).Nodup)
termination_by structural x => x

/-- The lines of a body. With `om = true` without a line break behind the last one. -/
def LaidLines (om : Bool) : List EStruct → Prop
  | [] => True
  | s :: ss => LaidStruct s ∧
      (if om && ss.isEmpty then BlankText false (ownMeta s).decor.suf else LineEnd (behind [] (ownMeta s))) ∧
      LaidLines om ss
termination_by structural x => x

end

/-- Documents. -/
def LaidBody : EBody → Prop
  | .mk m ss _ om => LaidLines F bd om ss ∧ (attrKeys (toHclStructs F ss)).Nodup ∧
      BlankText true m.decor.pre ∧ BlankText (!(om && !ss.isEmpty)) m.decor.suf

end

end Verif.Spec
