import Verif.Model.EditDedent
import Verif.Model.Markers
/-!
Model of the encoder of `hcl-edit`, `crates/hcl-edit/src/encode/{mod,expr,structure,template}.rs`.

The writer never fails (a `String` or a formatter over one), so `fmt::Result` is always `Ok` and the
text written is returned. `EncodeState::escape` is the only other state.
-/

namespace Verif

/-- An encoding step: from the flag `EncodeState::escape` to the text written and the flag
afterwards, `crates/hcl-edit/src/encode/mod.rs:22-45`. -/
def W := Bool → Str × Bool

namespace W

/-- `buf.write_str`. -/
def str (s : Str) : W := fun b => (s, b)

/-- One step after the other. -/
def seq (a b : W) : W := fun f => ((a f).1 ++ (b (a f).2).1, (b (a f).2).2)

/-- `EncodeState::escaped`, `crates/hcl-edit/src/encode/mod.rs:32-40`: the flag is `false` afterwards,
whatever it was before. -/
def escaped (w : W) : W := fun _ => ((w true).1, false)

/-- A step with its own `EncodeState` (`encode/template.rs:43-47`), whose text is changed by `f`. -/
def fresh (f : Str → Str) (w : W) : W := fun b => (f (w false).1, b)

end W

/-- Sequencing of encoding steps. -/
infixr:65 " +> " => W.seq

/-- `RawString::encode_with_default`, `crates/hcl-edit/src/raw_string.rs:42-52`: the default stands in
for a raw string that was never despanned. -/
def Raw.enc (default : Str) : Raw → Str
  | .empty => []
  | .spanned _ => default
  | .explicit s => s

/-- `Decor::encode_prefix` and `Decor::encode_suffix`, `crates/hcl-edit/src/repr.rs:50-64`. -/
def encDecor (default : Str) : Option Raw → Str
  | some r => r.enc default
  | none => default

/-- `encode_decorated`, `crates/hcl-edit/src/encode/mod.rs:108-122`. -/
def deco (m : Meta) (p s : Str) (w : W) : W :=
  W.str (encDecor p m.decor.pre) +> w +> W.str (encDecor s m.decor.suf)

/-- The hexadecimal digits of `{:04X}`, `crates/hcl-edit/src/encode/mod.rs:142`. -/
def hexUpper (d : Nat) : Char := if d < 10 then Char.ofNat (48 + d) else Char.ofNat (55 + d)

/-- One character of `encode_escaped`, `crates/hcl-edit/src/encode/mod.rs:133-145`. The characters
that are written as `\u` are below 128, so two digits of the four are always zero. -/
def encEscChar (c : Char) : Str :=
  if c.toNat = 0x08 then c!"\\b"
  else if c.toNat = 0x09 then c!"\\t"
  else if c.toNat = 0x0a then c!"\\n"
  else if c.toNat = 0x0c then c!"\\f"
  else if c.toNat = 0x0d then c!"\\r"
  else if c.toNat = 0x22 then c!"\\\""
  else if c.toNat = 0x5c then c!"\\\\"
  else if c.toNat ≤ 0x1f ∨ c.toNat = 0x7f then
    ['\\', 'u', '0', '0', hexUpper (c.toNat / 16), hexUpper (c.toNat % 16)]
  else [c]

/-- `encode_escaped`, `crates/hcl-edit/src/encode/mod.rs:131-149`. -/
def encEscaped : Str → Str
  | [] => []
  | c :: cs => encEscChar c ++ encEscaped cs

/-- `encode_quoted_string`, `crates/hcl-edit/src/encode/mod.rs:124-129`. -/
def encQuoted (s : Str) : Str := '"' :: (encEscaped (escapeMarkers s) ++ ['"'])

/-- `Encode for Ident` with its decor, `crates/hcl-edit/src/encode/mod.rs:102-106`. -/
def DIdent.enc (p s : Str) (d : DIdent) : W := deco d.m p s (W.str d.name)

/-- `encode_strip`, `crates/hcl-edit/src/encode/template.rs:180-196`. -/
def encStrip (start : Str) (st : Strip) (w : W) : W :=
  W.str (start ++ if st.stripStart then c!"~" else []) +> w +>
    W.str ((if st.stripEnd then c!"~" else []) ++ c!"}")

/-- The directives without an expression, `crates/hcl-edit/src/encode/template.rs:123-142,170-178`. -/
def encMarker (kw : Str) (st : Strip) (p t : Raw) : W :=
  encStrip c!"%{" st (W.str (p.enc c!" " ++ kw ++ t.enc c!" "))

/-- `Encode for Element`, the literal, `crates/hcl-edit/src/encode/template.rs:71-78`. -/
def encLit (s : Str) : W := fun b =>
  (if b then encEscaped (escapeMarkers s) else escapeMarkers s, b)

/-- The namespace loop of `Encode for FuncName`, `crates/hcl-edit/src/encode/expr.rs:194-197`. -/
def encNamespace : List DIdent → W
  | [] => W.str []
  | d :: ds => d.enc [] [] +> W.str c!"::" +> encNamespace ds

/-- `Encode for Formatted<Number>`, `crates/hcl-edit/src/encode/mod.rs:71-82,96-100`: the text that
was read, if there is one. -/
def encNumber (E : FmtEnv) (n : N) : Option Raw → Str
  | some r => r.enc []
  | none => showNumber E n

/-- The body of a heredoc, `crates/hcl-edit/src/encode/template.rs:42-50`. -/
def encHere (w : W) : Option Nat → W
  | some n => W.fresh (fun s => indentBy s n false) w
  | none => w

/-- The key variable of a `for`, `crates/hcl-edit/src/encode/expr.rs:155-158` and
`encode/template.rs:153-156`. -/
def encKeyVar : Option DIdent → W
  | some d => d.enc c!" " [] +> W.str c!","
  | none => W.str []

/-- `Encode for ObjectValue`, the assignment, `crates/hcl-edit/src/encode/expr.rs:107-110`. -/
def Assign.enc : Assign → Str
  | .colon => c!":"
  | .equals => c!"="

/-- `Encode for ObjectValue`, the terminator, `crates/hcl-edit/src/encode/expr.rs:114-118`. -/
def ItemEnd.enc : ItemEnd → Str
  | .comma => c!","
  | .newline => c!"\n"
  | .none => []

mutual

/-- The `Encode` implementations of the expressions without their own decor,
`crates/hcl-edit/src/encode/expr.rs` (lines in the comments of the cases) and
`encode/template.rs:17-56`. -/
def EExpr.core (E : FmtEnv) : EExpr → W
  -- 12-16
  | .null _ => W.str c!"null"
  -- encode/mod.rs:84-88
  | .bool _ b => W.str (if b then c!"true" else c!"false")
  -- encode/mod.rs:71-82,96-100
  | .number _ n r => W.str (encNumber E n r)
  -- 30-32
  | .string _ s => W.str (encQuoted s)
  -- 57-80
  | .array _ vs c t =>
    W.str c!"[" +> EExpr.encList E [] vs +>
      W.str ((if !vs.isEmpty && c then c!"," else []) ++ t.enc [] ++ c!"]")
  -- 82-94
  | .object _ is t => W.str c!"{" +> EExpr.encItems E is +> W.str (t.enc [] ++ c!"}")
  -- encode/template.rs:17-29
  | .strTmpl _ es => W.str c!"\"" +> W.escaped (EExpr.encElems E es) +> W.str c!"\""
  -- encode/template.rs:31-56
  | .heredoc _ d _ es i t =>
    W.str (c!"<<" ++ (if i.isSome then c!"-" else []) ++ d ++ c!"\n") +>
      encHere (EExpr.encElems E es) i +> W.str (t.enc [] ++ d)
  -- 49-55
  | .paren _ e => W.str c!"(" +> deco e.getMeta [] [] (e.core E) +> W.str c!")"
  -- encode/mod.rs:102-106
  | .var _ x => W.str x
  -- 175-183
  | .cond _ c t f =>
    deco c.getMeta [] c!" " (c.core E) +> W.str c!"?" +> deco t.getMeta c!" " c!" " (t.core E) +>
      W.str c!":" +> deco f.getMeta c!" " [] (f.core E)
  -- 185-229
  | .call _ ns n am as c x t =>
    encNamespace ns +> n.enc [] [] +>
      deco am [] [] (W.str c!"(" +> EExpr.encList E [] as +>
        W.str ((if as.isEmpty then [] else if x then c!"..." else if c then c!"," else []) ++
          t.enc [] ++ c!")"))
  -- 251-261
  | .trav _ e os => deco e.getMeta [] [] (e.core E) +> EExpr.encTravs E os
  -- 230-235
  | .unary _ _ o e => W.str o.asStr +> deco e.getMeta [] [] (e.core E)
  -- 237-249
  | .binary _ l om o r =>
    deco l.getMeta [] [] (l.core E) +> deco om c!" " c!" " (W.str o.asStr) +>
      deco r.getMeta [] [] (r.core E)
  -- 124-173
  | .forE _ im k v c ke ve g cm co =>
    W.str (if ke.isSome then c!"{" else c!"[") +>
      deco im [] [] (W.str c!"for" +> encKeyVar k +> v.enc c!" " [] +> W.str c!"in" +>
        deco c.getMeta c!" " c!" " (c.core E) +> W.str c!":") +>
      EExpr.encForKey E ke +> deco ve.getMeta c!" " [] (ve.core E) +>
      W.str (if ke.isSome && g then c!"..." else []) +> EExpr.encForCond E cm co +>
      W.str (if ke.isSome then c!"}" else c!"]")

/-- The key expression of a `for`, `crates/hcl-edit/src/encode/expr.rs:131-134`. -/
def EExpr.encForKey (E : FmtEnv) : Option EExpr → W
  | some e => deco e.getMeta c!" " c!" " (e.core E) +> W.str c!"=>"
  | none => W.str []

/-- `Encode for ForCond`, `crates/hcl-edit/src/encode/expr.rs:142-144,168-173`. -/
def EExpr.encForCond (E : FmtEnv) (cm : Meta) : Option EExpr → W
  | some e => deco cm c!" " [] (W.str c!"if" +> deco e.getMeta c!" " [] (e.core E))
  | none => W.str []

/-- The loop over array elements and arguments, `crates/hcl-edit/src/encode/expr.rs:62-70,206-215`:
`p` is the default prefix of the next element, which is empty for the first one. -/
def EExpr.encList (E : FmtEnv) (p : Str) : List EExpr → W
  | [] => W.str []
  | e :: es =>
    W.str (if p.isEmpty then [] else c!",") +> deco e.getMeta p [] (e.core E) +>
      EExpr.encList E c!" " es

/-- `EncodeDecorated for ObjectKey`, `crates/hcl-edit/src/encode/expr.rs:96-103`. -/
def EKey.enc (E : FmtEnv) : EKey → W
  | .ident d => d.enc [] c!" "
  | .expr e => deco e.getMeta [] c!" " (e.core E)

/-- The loop over object items, `crates/hcl-edit/src/encode/expr.rs:86-89,96-122`. -/
def EExpr.encItems (E : FmtEnv) : List EItem → W
  | [] => W.str []
  | .mk k v a t :: is =>
    k.enc E +> W.str a.enc +> deco v.getMeta c!" " [] (v.core E) +> W.str t.enc +>
      EExpr.encItems E is

/-- `Encode for TraversalOperator`, `crates/hcl-edit/src/encode/expr.rs:263-284`. -/
def ETravOp.enc (E : FmtEnv) : ETravOp → W
  | .attrSplat m => W.str c!"." +> deco m [] [] (W.str c!"*")
  | .fullSplat m => W.str c!"[" +> deco m [] [] (W.str c!"*") +> W.str c!"]"
  | .getAttr d => W.str c!"." +> d.enc [] []
  | .index e => W.str c!"[" +> deco e.getMeta [] [] (e.core E) +> W.str c!"]"
  | .legacyIndex m n => W.str c!"." +> deco m [] [] (W.str (natStr n))

/-- The loop over traversal operators, `crates/hcl-edit/src/encode/expr.rs:255-257`. -/
def EExpr.encTravs (E : FmtEnv) : List ETrav → W
  | [] => W.str []
  | .mk m o :: os => deco m [] [] (o.enc E) +> EExpr.encTravs E os

/-- `Encode for Element`, `Interpolation`, `Directive`, `IfDirective`, `ForDirective` and their parts,
`crates/hcl-edit/src/encode/template.rs:71-168`. -/
def EElem.enc (E : FmtEnv) : EElem → W
  | .lit _ s => encLit s
  | .interp _ e st => encStrip c!"${" st (deco e.getMeta c!" " c!" " (e.core E))
  | .ifDir _ p c st _ t el ep et est =>
    encStrip c!"%{" st (W.str (p.enc c!" " ++ c!"if") +> deco c.getMeta [] c!" " (c.core E)) +>
      EExpr.encElems E t +> EExpr.encElseOpt E el +> encMarker c!"endif" est ep et
  | .forDir _ p k v c st _ t ep et est =>
    encStrip c!"%{" st (W.str (p.enc c!" " ++ c!"for") +> encKeyVar k +>
        v.enc c!" " c!" " +> W.str c!"in" +> deco c.getMeta c!" " c!" " (c.core E)) +>
      EExpr.encElems E t +> encMarker c!"endfor" est ep et

/-- The loop over template elements, `crates/hcl-edit/src/encode/template.rs:58-69`. -/
def EExpr.encElems (E : FmtEnv) : List EElem → W
  | [] => W.str []
  | e :: es => e.enc E +> EExpr.encElems E es

/-- `Encode for ElseTemplateExpr`, `crates/hcl-edit/src/encode/template.rs:123-132`. -/
def EExpr.encElse (E : FmtEnv) : EElse → W
  | .mk p t st _ es => encMarker c!"else" st p t +> EExpr.encElems E es

/-- The optional `else`, `crates/hcl-edit/src/encode/template.rs:100-102`. -/
def EExpr.encElseOpt (E : FmtEnv) : Option EElse → W
  | some x => EExpr.encElse E x
  | none => W.str []

end

/-- `EncodeDecorated for Expression`, `crates/hcl-edit/src/encode/expr.rs:24-47`. -/
def EExpr.enc (E : FmtEnv) (p s : Str) (e : EExpr) : W := deco e.getMeta p s (e.core E)

/-- `EncodeDecorated for BlockLabel`, `crates/hcl-edit/src/encode/structure.rs:72-81`. -/
def ELabel.enc : ELabel → W
  | .string m s => deco m [] c!" " (W.str (encQuoted s))
  | .ident d => d.enc [] c!" "

/-- The loop over labels, `crates/hcl-edit/src/encode/structure.rs:43-45`. -/
def encLabels : List ELabel → W
  | [] => W.str []
  | l :: ls => l.enc +> encLabels ls

/-- `Encode for Attribute`, `crates/hcl-edit/src/encode/structure.rs:31-37`. -/
def encAttr (E : FmtEnv) (k : DIdent) (v : EExpr) : W :=
  k.enc [] c!" " +> W.str c!"=" +> v.enc E c!" " []

/-- `Body::is_empty` or `Body::has_single_attribute`,
`crates/hcl-edit/src/encode/structure.rs:52`. -/
def onelineOk : List EStruct → Bool
  | [] => true
  | [.attr _ _ _] => true
  | _ => false

mutual

/-- `EncodeDecorated for Structure` with default decor `p`, `s`, and `Encode for Block`,
`crates/hcl-edit/src/encode/structure.rs:22-29,39-70`. -/
def EStruct.enc (E : FmtEnv) (p s : Str) : EStruct → W
  | .attr m k v => deco m p s (encAttr E k v)
  | .block m i ls (.mk bm ss o _) =>
    deco m p s (i.enc [] c!" " +> encLabels ls +> W.str c!"{" +>
      deco bm [] [] (if o && onelineOk ss then EStruct.encOneline E ss
        else W.str c!"\n" +> EStruct.encList E ss) +>
      W.str c!"}")

/-- The attribute of a one-line block, `crates/hcl-edit/src/encode/structure.rs:53-55`. -/
def EStruct.encOneline (E : FmtEnv) : List EStruct → W
  | [] => W.str []
  | s :: _ => EStruct.enc E c!" " c!" " s

/-- The loop over the structures of a block, `crates/hcl-edit/src/encode/structure.rs:59-62`. -/
def EStruct.encList (E : FmtEnv) : List EStruct → W
  | [] => W.str []
  | s :: ss => EStruct.enc E [] [] s +> W.str c!"\n" +> EStruct.encList E ss

end

/-- The loop of `Encode for Body`, `crates/hcl-edit/src/encode/structure.rs:10-16`. -/
def encStructs (E : FmtEnv) (om : Bool) : List EStruct → W
  | [] => W.str []
  | s :: ss =>
    s.enc E [] [] +> W.str (if !ss.isEmpty || !om then c!"\n" else []) +> encStructs E om ss

/-- `Display for Body`, `crates/hcl-edit/src/structure/body.rs:695-700`. -/
def EBody.show (E : FmtEnv) : EBody → Str
  | .mk m ss _ om => (deco m [] [] (encStructs E om ss) false).1

/-- `Display for Expression`, `crates/hcl-edit/src/expr/mod.rs`. -/
def EExpr.show (E : FmtEnv) (e : EExpr) : Str := (e.enc E [] [] false).1

/-- `Display for Template`, `crates/hcl-edit/src/template/mod.rs`. -/
def showTemplate (E : FmtEnv) (es : List EElem) : Str := (EExpr.encElems E es false).1

end Verif
