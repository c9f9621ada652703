import Verif.Model.Expr
import Verif.Model.Ident
import Verif.Model.Markers
import Verif.Model.Templated
/-!
Model of the formatter, `crates/hcl-rs/src/format/{mod,impls,escape}.rs`.

The writer is a `Vec<u8>` (or any writer that does not fail), modelled as the text written so far, so
every `Result` is `Ok`. The counters are natural numbers; a decrement below zero, which panics in a
debug build of the code, sets `panicked`.
-/

namespace Verif

/-- The decimal digit `d < 10`. -/
def digitChar (d : Nat) : Char := Char.ofNat (48 + d)

/-- Decimal digits of `n`, at most `fuel + 1` of them. -/
def natStrF : Nat → Nat → Str
  | 0, n => [digitChar (n % 10)]
  | fuel + 1, n => if n < 10 then [digitChar n] else natStrF fuel (n / 10) ++ [digitChar (n % 10)]

/-- `itoa::Buffer::format` for unsigned integers (external): decimal digits without leading zeros. -/
def natStr (n : Nat) : Str := natStrF n n

/-- `itoa::Buffer::format` for signed integers (external). -/
def intStr (i : Int) : Str := if i < 0 then '-' :: natStr i.natAbs else natStr i.natAbs

/-- What the formatter model does not fix: the Unicode tables and the decimal form of a finite float
(`ryu::Buffer::format_finite`, external). -/
structure FmtEnv where
  U : Uni
  showFloat : F64 → Str

/-- `Display for Number`, `crates/hcl-primitives/src/number.rs:384-392`. -/
def showNumber (E : FmtEnv) : N → Str
  | .posInt n => natStr n
  | .negInt i => intStr i
  | .float x => E.showFloat x

/-- `HEX_DIGITS`, `crates/hcl-rs/src/format/escape.rs:93`. -/
def hexDigit (d : Nat) : Char := if d < 10 then Char.ofNat (48 + d) else Char.ofNat (87 + d)

/-- The table `ESCAPE` with `CharEscape::from_escape_table` and `write_escaped`,
`crates/hcl-rs/src/format/escape.rs:21-107`. All bytes of a character outside ASCII have entry 0. -/
def escapeChar (c : Char) : Str :=
  if c = '"' then c!"\\\""
  else if c = '\\' then c!"\\\\"
  else if c.toNat = 0x08 then c!"\\b"
  else if c.toNat = 0x09 then c!"\\t"
  else if c.toNat = 0x0a then c!"\\n"
  else if c.toNat = 0x0c then c!"\\f"
  else if c.toNat = 0x0d then c!"\\r"
  else if c.toNat < 0x20 then
    ['\\', 'u', '0', '0', hexDigit (c.toNat / 16), hexDigit (c.toNat % 16)]
  else [c]

/-- The loop of `write_escaped_string`, `crates/hcl-rs/src/format/mod.rs:456-476`. -/
def escapeChars : Str → Str
  | [] => []
  | c :: cs => escapeChar c ++ escapeChars cs

/-- `FormatState`, `crates/hcl-rs/src/format/mod.rs:92-100`. -/
inductive FmtState
  | initial | attributeStart | attributeEnd | blockStart | blockEnd | blockBodyStart
  deriving DecidableEq, Repr

/-- `FormatConfig`, `crates/hcl-rs/src/format/mod.rs:102-108`. -/
structure FmtCfg where
  indent : Str
  dense : Bool
  compactArrays : Bool
  compactObjects : Bool
  preferIdentKeys : Bool
  deriving DecidableEq, Repr

/-- `Default for FormatConfig`, `crates/hcl-rs/src/format/mod.rs:110-120`. -/
def FmtCfg.default : FmtCfg := ⟨c!"  ", false, false, false, false⟩

/-- `Formatter`, `crates/hcl-rs/src/format/mod.rs:175-184`. -/
structure Fmt where
  out : Str
  cfg : FmtCfg
  state : FmtState
  firstElement : Bool
  currentIndent : Nat
  hasValue : Bool
  compactLevel : Nat
  nesting : List (Bool × Bool)
  panicked : Bool

namespace Fmt

/-- `FormatterBuilder::build`, `crates/hcl-rs/src/format/mod.rs:311-325`. -/
def new (cfg : FmtCfg) : Fmt := ⟨[], cfg, .initial, false, 0, false, 0, [], false⟩

/-- `write_bytes`, `write_string_fragment`, `crates/hcl-rs/src/format/mod.rs:446-448,688-691`. -/
def write (s : Str) (f : Fmt) : Fmt := { f with out := f.out ++ s }

/-- `current_indent -= 1`. -/
def decIndent (f : Fmt) : Fmt :=
  { f with currentIndent := f.currentIndent - 1, panicked := f.panicked || f.currentIndent == 0 }

/-- `write_quoted_string`, `crates/hcl-rs/src/format/mod.rs:432-436`. -/
def writeQuoted (s : Str) (f : Fmt) : Fmt := ((f.write c!"\"").write s).write c!"\""

/-- `write_quoted_string_escaped` and `write_escaped_string`,
`crates/hcl-rs/src/format/mod.rs:439-443,452-479`. -/
def writeQuotedEscaped (s : Str) (f : Fmt) : Fmt :=
  ((f.write c!"\"").write (escapeChars (escapeMarkers s))).write c!"\""

/-- `in_compact_mode`, `crates/hcl-rs/src/format/mod.rs:715-717`. -/
def inCompactMode (f : Fmt) : Bool := decide (f.compactLevel > 0)

/-- `compact_arrays`, `crates/hcl-rs/src/format/mod.rs:707-709`. -/
def compactArrays (f : Fmt) : Bool := f.cfg.compactArrays || f.inCompactMode

/-- `compact_objects`, `crates/hcl-rs/src/format/mod.rs:711-713`. -/
def compactObjects (f : Fmt) : Bool := f.cfg.compactObjects || f.inCompactMode

/-- The loop of `write_indent`, `crates/hcl-rs/src/format/mod.rs:663-669`. -/
def writeIndent : Nat → Fmt → Fmt
  | 0, f => f
  | n + 1, f => writeIndent n (f.write f.cfg.indent)

/-- `begin_array`, `crates/hcl-rs/src/format/mod.rs:482-491`. -/
def beginArray (f : Fmt) : Fmt :=
  let f := { f with nesting := (f.firstElement, f.hasValue) :: f.nesting }
  let f := if !f.compactArrays then { f with currentIndent := f.currentIndent + 1 } else f
  { f with hasValue := false, firstElement := true }.write c!"["

/-- `begin_array_value`, `crates/hcl-rs/src/format/mod.rs:494-509`. -/
def beginArrayValue (f : Fmt) : Fmt :=
  if f.firstElement then
    let f := { f with firstElement := false }
    if !f.compactArrays then writeIndent f.currentIndent (f.write c!"\n") else f
  else if f.compactArrays then f.write c!", "
  else writeIndent f.currentIndent (f.write c!",\n")

/-- `end_array_value`, `crates/hcl-rs/src/format/mod.rs:512-515`. -/
def endArrayValue (f : Fmt) : Fmt := { f with hasValue := true }

/-- The end of `end_array` and `end_object`, `crates/hcl-rs/src/format/mod.rs:529-532,594-597`. -/
def popNesting (f : Fmt) : Fmt :=
  match f.nesting with
  | (fe, hv) :: rest => { f with firstElement := fe, hasValue := hv, nesting := rest }
  | [] => f

/-- `end_array`, `crates/hcl-rs/src/format/mod.rs:518-534`. -/
def endArray (f : Fmt) : Fmt :=
  let f := if !f.compactArrays then
      let f := f.decIndent
      if f.hasValue then writeIndent f.currentIndent (f.write c!"\n") else f
    else f
  (f.write c!"]").popNesting

/-- `begin_object`, `crates/hcl-rs/src/format/mod.rs:537-546`. -/
def beginObject (f : Fmt) : Fmt :=
  let f := { f with nesting := (f.firstElement, f.hasValue) :: f.nesting }
  let f := if !f.compactObjects then { f with currentIndent := f.currentIndent + 1 } else f
  { f with hasValue := false, firstElement := true }.write c!"{"

/-- `begin_object_key`, `crates/hcl-rs/src/format/mod.rs:549-566`. -/
def beginObjectKey (f : Fmt) : Fmt :=
  if f.firstElement then
    let f := { f with firstElement := false }
    if f.compactObjects then f.write c!" " else writeIndent f.currentIndent (f.write c!"\n")
  else if f.compactObjects then f.write c!", "
  else writeIndent f.currentIndent (f.write c!"\n")

/-- `end_object`, `crates/hcl-rs/src/format/mod.rs:579-599`. -/
def endObject (f : Fmt) : Fmt :=
  let f := if f.compactObjects then (if f.hasValue then f.write c!" " else f)
    else
      let f := f.decIndent
      if f.hasValue then writeIndent f.currentIndent (f.write c!"\n") else f
  (f.write c!"}").popNesting

/-- `maybe_write_newline`, `crates/hcl-rs/src/format/mod.rs:641-661`. -/
def maybeWriteNewline (next : FmtState) (f : Fmt) : Fmt :=
  let newline :=
    if f.state = .attributeEnd ∧ f.cfg.dense = false then decide (next = .blockStart)
    else if f.state = .blockEnd ∧ f.cfg.dense = false then
      decide (next = .blockStart ∨ next = .attributeStart)
    else decide (f.state = .blockBodyStart)
  let f := if newline then f.write c!"\n" else f
  { f with state := next }

/-- `begin_attribute`, `crates/hcl-rs/src/format/mod.rs:602-605`. -/
def beginAttribute (f : Fmt) : Fmt :=
  let f := f.maybeWriteNewline .attributeStart
  writeIndent f.currentIndent f

/-- `end_attribute`, `crates/hcl-rs/src/format/mod.rs:613-616`. -/
def endAttribute (f : Fmt) : Fmt := { f with state := .attributeEnd }.write c!"\n"

/-- `begin_block`, `crates/hcl-rs/src/format/mod.rs:619-622`. -/
def beginBlock (f : Fmt) : Fmt :=
  let f := f.maybeWriteNewline .blockStart
  writeIndent f.currentIndent f

/-- `begin_block_body`, `crates/hcl-rs/src/format/mod.rs:625-629`. -/
def beginBlockBody (f : Fmt) : Fmt :=
  { f with currentIndent := f.currentIndent + 1, state := .blockBodyStart }.write c!" {"

/-- `end_block`, `crates/hcl-rs/src/format/mod.rs:632-637`. -/
def endBlock (f : Fmt) : Fmt :=
  let f := { f with state := .blockEnd }.decIndent
  (writeIndent f.currentIndent f).write c!"}\n"

/-- `with_compact_mode`, `crates/hcl-rs/src/format/mod.rs:697-705`. -/
def withCompactMode (g : Fmt → Fmt) (f : Fmt) : Fmt :=
  let f := g { f with compactLevel := f.compactLevel + 1 }
  { f with compactLevel := f.compactLevel - 1, panicked := f.panicked || f.compactLevel == 0 }

end Fmt

/-- `str::lines` (standard library): the lines without their terminators (`\n` or `\r\n`); `cur` is the
current line reversed. -/
def strLines (cur : Str) : Str → List Str
  | [] => if cur.isEmpty then [] else [cur.reverse]
  | '\n' :: rest =>
    (match cur with
      | '\r' :: cur' => cur'.reverse
      | _ => cur.reverse) :: strLines [] rest
  | c :: rest => strLines (c :: cur) rest

namespace Fmt

/-- The loop of `write_indented`, `crates/hcl-rs/src/format/mod.rs:672-679`. -/
def writeLines (n : Nat) : Bool → List Str → Fmt → Fmt
  | _, [], f => f
  | first, l :: ls, f =>
    let f := if first then f else f.write c!"\n"
    writeLines n false ls ((writeIndent n f).write l)

/-- `write_indented`, `crates/hcl-rs/src/format/mod.rs:671-686`. -/
def writeIndented (n : Nat) (s : Str) (f : Fmt) : Fmt :=
  let f := writeLines n true (strLines [] s) f
  if s.getLast? = some '\n' then f.write c!"\n" else f

/-- `Format for StrKey`, `crates/hcl-rs/src/format/impls.rs:193-204`. -/
def strKey (E : FmtEnv) (s : Str) (f : Fmt) : Fmt :=
  if f.cfg.preferIdentKeys && isIdent E.U s then f.write s else f.writeQuotedEscaped s

/-- `HeredocStripMode::as_str`, `crates/hcl-rs/src/expr/template_expr.rs:103-109`. -/
def heredocMark : HeredocStrip → Str
  | .none => c!"<<"
  | .indent => c!"<<-"

/-- `Format for TemplateExpr` and `Heredoc`, `crates/hcl-rs/src/format/impls.rs:208-241`. -/
def tmplExpr : TmplExpr → Fmt → Fmt
  | .quoted s, f => f.writeQuoted s
  | .heredoc delim t strip, f =>
    let f := (((f.write (heredocMark strip)).write delim).write c!"\n").write t
    let f := if t.getLast? = some '\n' then f else f.write c!"\n"
    match strip with
    | .none => f.write delim
    | .indent => writeIndented f.currentIndent delim f

/-- The namespace loop of `Format for FuncName`, `crates/hcl-rs/src/format/impls.rs:344-347`. -/
def namespaces : List Str → Fmt → Fmt
  | [], f => f
  | n :: ns, f => namespaces ns ((f.write n).write c!"::")

/-- `Format for FuncName`, `crates/hcl-rs/src/format/impls.rs:339-351`. -/
def funcName (n : FuncName) (f : Fmt) : Fmt := (namespaces n.namespaces f).write n.name

mutual
/-- `Format for Expression`, `crates/hcl-rs/src/format/impls.rs:111-137`, with those for `FuncCall`
(309-335), `Conditional` (355-368), `UnaryOp` (386-394), `BinaryOp` (398-409), `ForExpr` (413-455),
`Traversal` (267-278), `format_array` (573-587) and `format_object` (589-609). -/
def expr (E : FmtEnv) : Expr → Fmt → Fmt
  | .null, f => f.write c!"null"
  | .bool b, f => f.write (if b then c!"true" else c!"false")
  | .number n, f => f.write (showNumber E n)
  | .string s, f => f.writeQuotedEscaped s
  | .array xs, f => (exprElems E xs f.beginArray).endArray
  | .object es, f => (exprEntries E es f.beginObject).endObject
  | .template t, f => tmplExpr t f
  | .var x, f => f.write x
  | .traversal e ops, f => travOps E ops (expr E e f)
  | .call n args x, f =>
    let f := (funcName n f).write c!"("
    let f := f.withCompactMode (callArgs E true args)
    if x then f.write c!"...)" else f.write c!")"
  | .paren e, f => (expr E e (f.write c!"(")).write c!")"
  | .cond c t e, f =>
    f.withCompactMode fun f =>
      expr E e ((expr E t ((expr E c f).write c!" ? ")).write c!" : ")
  | .unary op e, f => expr E e (f.write op.asStr)
  | .binary l op r, f =>
    expr E r ((((expr E l f).write c!" ").write op.asStr).write c!" ")
  | .forE k v coll ke ve g ce, f =>
    let f := if ke.isSome then f.write c!"{" else f.write c!"["
    let f := f.write c!"for "
    let f := match k with
      | some k => (f.write k).write c!", "
      | none => f
    let f := (f.write v).write c!" in "
    let f := (expr E coll f).write c!" : "
    let f := match ke with
      | some ke => (expr E ke f).write c!" => "
      | none => f
    let f := expr E ve f
    let f := if ke.isSome && g then f.write c!"..." else f
    let f := match ce with
      | some ce => expr E ce (f.write c!" if ")
      | none => f
    if ke.isSome then f.write c!"}" else f.write c!"]"
/-- The loop of `format_array`, `crates/hcl-rs/src/format/impls.rs:580-584`. -/
def exprElems (E : FmtEnv) : List Expr → Fmt → Fmt
  | [], f => f
  | e :: es, f => exprElems E es (expr E e f.beginArrayValue).endArrayValue
/-- The loop of `format_object`, `crates/hcl-rs/src/format/impls.rs:600-606`, over `ObjectKey`s and
`Expression`s. -/
def exprEntries (E : FmtEnv) : List (ObjKey × Expr) → Fmt → Fmt
  | [], f => f
  | (k, v) :: es, f =>
    exprEntries E es (expr E v ((objKey E k f.beginObjectKey).write c!" = ")).endArrayValue
/-- `Format for ObjectKey`, `crates/hcl-rs/src/format/impls.rs:176-187`. -/
def objKey (E : FmtEnv) : ObjKey → Fmt → Fmt
  | .ident x, f => f.write x
  | .expr (.string s), f => strKey E s f
  | .expr e, f => expr E e f
/-- The argument loop of `Format for FuncCall`, `crates/hcl-rs/src/format/impls.rs:318-324`. -/
def callArgs (E : FmtEnv) : Bool → List Expr → Fmt → Fmt
  | _, [], f => f
  | first, e :: es, f => callArgs E false es (expr E e (if first then f else f.write c!", "))
/-- The operator loop of `Format for Traversal`, `crates/hcl-rs/src/format/impls.rs:273-275`. -/
def travOps (E : FmtEnv) : List TravOp → Fmt → Fmt
  | [], f => f
  | op :: ops, f => travOps E ops (travOp E op f)
/-- `Format for TraversalOperator`, `crates/hcl-rs/src/format/impls.rs:282-305`. -/
def travOp (E : FmtEnv) : TravOp → Fmt → Fmt
  | .attrSplat, f => f.write c!".*"
  | .fullSplat, f => f.write c!"[*]"
  | .getAttr x, f => (f.write c!".").write x
  | .legacyIndex i, f => (f.write c!".").write (natStr i)
  | .index e, f => (expr E e (f.write c!"[")).write c!"]"
end

mutual
/-- `Format for Value`, `crates/hcl-rs/src/format/impls.rs:141-161`. -/
def value (E : FmtEnv) : Value → Fmt → Fmt
  | .null, f => f.write c!"null"
  | .bool b, f => f.write (if b then c!"true" else c!"false")
  | .number n, f => f.write (showNumber E n)
  | .string s, f => if isTemplated s then f.writeQuoted s else f.writeQuotedEscaped s
  | .array xs, f => (valueElems E xs f.beginArray).endArray
  | .object es, f => (valueEntries E es f.beginObject).endObject
/-- The loop of `format_array` over `Value`s. -/
def valueElems (E : FmtEnv) : List Value → Fmt → Fmt
  | [], f => f
  | e :: es, f => valueElems E es (value E e f.beginArrayValue).endArrayValue
/-- The loop of `format_object` over `StrKey`s and `Value`s. -/
def valueEntries (E : FmtEnv) : List (Str × Value) → Fmt → Fmt
  | [], f => f
  | (k, v) :: es, f =>
    valueEntries E es (value E v ((strKey E k f.beginObjectKey).write c!" = ")).endArrayValue
end

/-- `format_strip`, `crates/hcl-rs/src/format/impls.rs:611-627`. -/
def strip (s : Strip) (g : Fmt → Fmt) (f : Fmt) : Fmt :=
  let f := if s.stripStart then f.write c!"~" else f
  let f := g f
  if s.stripEnd then f.write c!"~" else f

/-- `format_interpolation`, `crates/hcl-rs/src/format/impls.rs:629-637`. -/
def interpolation (s : Strip) (g : Fmt → Fmt) (f : Fmt) : Fmt :=
  (strip s g (f.write c!"${")).write c!"}"

/-- `format_directive`, `crates/hcl-rs/src/format/impls.rs:639-651`. -/
def directive (s : Strip) (g : Fmt → Fmt) (f : Fmt) : Fmt :=
  (strip s (fun f => (g (f.write c!" ")).write c!" ") (f.write c!"%{")).write c!"}"

mutual
/-- `Format for Template`, `crates/hcl-rs/src/format/impls.rs:459-470`. -/
def template (E : FmtEnv) : List Elem → Fmt → Fmt
  | [], f => f
  | e :: es, f => template E es (elem E e f)
/-- `Format for Element`, `crates/hcl-rs/src/format/impls.rs:474-488`, `Interpolation` (492-499),
`IfDirective` (517-535) and `ForDirective` (539-560). -/
def elem (E : FmtEnv) : Elem → Fmt → Fmt
  | .lit s, f => f.write (escapeMarkers s)
  | .interp e s, f => interpolation s (expr E e) f
  | .ifDir c t fl a b z, f =>
    let f := directive a (fun f => expr E c (f.write c!"if ")) f
    let f := template E t f
    let f := match fl with
      | some fl => template E fl (directive b (fun f => f.write c!"else") f)
      | none => f
    directive z (fun f => f.write c!"endif") f
  | .forDir k v coll t a z, f =>
    let f := directive a (fun f =>
      let f := f.write c!"for "
      let f := match k with
        | some k => (f.write k).write c!", "
        | none => f
      expr E coll ((f.write v).write c!" in ")) f
    let f := template E t f
    directive z (fun f => f.write c!"endfor") f
end

/-- `Format for BlockLabel`, `crates/hcl-rs/src/format/impls.rs:97-107`. -/
def label : Label → Fmt → Fmt
  | .ident x, f => f.write x
  | .string s, f => f.writeQuotedEscaped s

/-- The label loop of `Format for Block`, `crates/hcl-rs/src/format/impls.rs:84-87`. -/
def labels : List Label → Fmt → Fmt
  | [], f => f
  | l :: ls, f => labels ls (label l (f.write c!" "))

mutual
/-- `Format for Body`, `crates/hcl-rs/src/format/impls.rs:32-43`. -/
def body (E : FmtEnv) : List Struct → Fmt → Fmt
  | [], f => f
  | s :: ss, f => body E ss (structure' E s f)
/-- `Format for Structure`, `Attribute` and `Block`, `crates/hcl-rs/src/format/impls.rs:47-93`. -/
def structure' (E : FmtEnv) : Struct → Fmt → Fmt
  | .attr k e, f => (expr E e ((f.beginAttribute.write k).write c!" = ")).endAttribute
  | .block i ls b, f => (body E b (labels ls (f.beginBlock.write i)).beginBlockBody).endBlock
end

/-- `Format::format_string`, `crates/hcl-rs/src/format/mod.rs:67-89`: the buffer is drained. -/
def formatString (g : Fmt → Fmt) (f : Fmt) : Str × Fmt :=
  let f := g f
  (f.out, { f with out := [] })

/-- `to_interpolated_string`, `crates/hcl-rs/src/format/mod.rs:777-786`. -/
def toInterpolatedString (g : Fmt → Fmt) : Str :=
  let f := Fmt.new { FmtCfg.default with compactArrays := true, compactObjects := true }
  (formatString g { f with out := c!"${" }).1 ++ c!"}"

end Fmt
end Verif
