import Verif.Model.Ser
import Verif.Model.JsonSpec
/-!
Model of deserialization from HCL: `crates/hcl-rs/src/de/mod.rs`, `crates/hcl-rs/src/expr/de.rs`,
`crates/hcl-rs/src/structure/de.rs`, `crates/hcl-rs/src/value/de.rs`,
`crates/hcl-primitives/src/de.rs` and the `Deserialize` implementations of `Number`, `Ident` and the
operators.

A `Deserializer` is a `Src`. Its methods are one function, from the method (`Req`) to the method of the
visitor it calls (`Ev`). A type that can be deserialized is a `Ty`: the types of the standard library and
the ones for which `serde_derive` (external, from memory) makes the implementation, closed under each
other, and the types of this crate. Its visitor is a function from `Ev`. Deserialization (`de`) asks
the deserializer for what the type wants and passes the answer to its visitor, which deserializes the
parts. Error messages are not modelled.
-/

namespace Verif

/-- The methods of `serde::Deserializer` (external), up to methods that no deserializer here
distinguishes: `num` is any of the integer and float methods, `str` also `deserialize_string`, `bytes`
also `deserialize_byte_buf`, `unit` also `deserialize_unit_struct`. -/
inductive Req
  | any
  | bool
  | num
  | char
  | str
  | bytes
  | option
  | unit
  | newtype (name : Str)
  | seq
  | tuple
  | tupleStruct
  | map
  | struct
  | enum (name : Str)
  | identifier
  | ignored
  deriving DecidableEq

/-- The deserializers. -/
inductive Src
  /-- `ValueDeserializer`, `crates/hcl-rs/src/value/de.rs:95-97` -/
  | value (v : Value)
  /-- `Deserializer for Expression`, `crates/hcl-rs/src/expr/de.rs:296-517` -/
  | expr (e : Expr)
  /-- `Deserializer for ObjectKey`, `crates/hcl-rs/src/expr/de.rs:1079-1109` -/
  | key (k : ObjKey)
  /-- `Deserializer for TemplateExpr`, `crates/hcl-rs/src/expr/de.rs:1170-1190` -/
  | tmpl (t : TmplExpr)
  /-- `Deserializer for Operation`, `crates/hcl-rs/src/expr/de.rs:878-898` -/
  | unaryOp (op : UnOp) (e : Expr)
  | binaryOp (l : Expr) (op : BinOp) (r : Expr)
  /-- `Deserializer for TraversalOperator`, `crates/hcl-rs/src/expr/de.rs:638-670` -/
  | travOp (o : TravOp)
  /-- `Deserializer for Structure`, `crates/hcl-rs/src/structure/de.rs:26-46` -/
  | struct (s : Struct)
  /-- `Deserializer for BlockLabel`, `crates/hcl-rs/src/structure/de.rs:150-170` -/
  | label (l : Label)
  /-- `de::Deserializer`, `crates/hcl-rs/src/de/mod.rs:17-19` -/
  | doc (b : List Struct)
  /-- `StringDeserializer` and `StrDeserializer` (serde) -/
  | str (s : Str)
  /-- `BoolDeserializer` (serde) -/
  | bool (b : Bool)
  /-- `Deserializer for Number`, `crates/hcl-primitives/src/number.rs:450-470` -/
  | num (n : N)
  /-- `NewtypeStructDeserializer`, `crates/hcl-rs/src/de/mod.rs:273-307` -/
  | newtype (s : Src)
  /-- `OptionDeserializer`, `crates/hcl-rs/src/de/mod.rs:308-345` -/
  | opt (o : Option Src)
  /-- `SeqDeserializer` (serde) -/
  | seq (ss : List Src)
  /-- `MapDeserializer` (serde), which also deserializes a `VecMap` (external) and an `IndexMap`
  (external) -/
  | map (es : List (Src × Src))
  /-- `MapAccessDeserializer` (serde) with a struct of this crate, `crates/hcl-rs/src/macros.rs:1208-1222` -/
  | access (fs : List (Str × Src))
  /-- `MissingFieldDeserializer` (serde) -/
  | missing

/-- The implementations of `VariantAccess`. -/
inductive VAcc
  /-- `UnitOnly` (serde) -/
  | unitOnly
  /-- `VariantAccess`, `crates/hcl-rs/src/de/mod.rs:381-430` -/
  | source (s : Src)
  /-- `VariantAccess for Expression`, `crates/hcl-rs/src/expr/de.rs:534-584` -/
  | expr (e : Expr)
  /-- `VariantAccess for ObjectKey`, `crates/hcl-rs/src/expr/de.rs:1126-1160` -/
  | key (k : ObjKey)
  /-- `VariantAccess for TraversalOperator`, `crates/hcl-rs/src/expr/de.rs:687-722` -/
  | travOp (o : TravOp)
  /-- `VariantAccess`, `crates/hcl-rs/src/value/de.rs:193-230` -/
  | value (v : Value)
  /-- `MapAsEnum` (serde) -/
  | entry (s : Src)

/-- The method of `serde::de::Visitor` that is called. `ends`: afterwards it is checked that nothing is
left of the sequence. Maps do not need that, every visitor here takes all entries. For `enum`, the
deserializer of the variant's name comes first. -/
inductive Ev
  | err
  | unit
  | bool (b : Bool)
  | u64 (n : Nat)
  | i64 (i : Int)
  | f64 (x : F64)
  /-- `visit_str` and `visit_string` -/
  | str (s : Str)
  | none
  | some (s : Src)
  | newtype (s : Src)
  | seq (ss : List Src) (ends : Bool)
  | map (es : List (Src × Src))
  | enum (name : Src) (acc : VAcc)

/-- `HeredocStripMode::as_str`, `crates/hcl-rs/src/expr/template_expr.rs:105-110`. -/
def HeredocStrip.asStr : HeredocStrip → Str
  | .none => c!"<<"
  | .indent => c!"<<-"

/-- `FromStr for HeredocStripMode`, `crates/hcl-rs/src/expr/template_expr.rs:113-123`. -/
def HeredocStrip.fromStr (s : Str) : Option HeredocStrip :=
  if s = c!"<<" then some .none else if s = c!"<<-" then some .indent else .none

namespace De

/-- `deserialize_any for Number`, `crates/hcl-primitives/src/number.rs:453-462`; every other method
forwards to it. -/
def number : N → Ev
  | .posInt n => .u64 n
  | .negInt i => .i64 i
  | .float x => .f64 x

/-- `IntoDeserializer for Vec` (serde), as `SeqAccess`. -/
def exprs (es : List Expr) : List Src := es.map .expr

/-- `IntoDeserializer for VecMap` (external), as `MapAccess`. -/
def entries (es : List (ObjKey × Expr)) : List (Src × Src) := es.map fun p => (.key p.1, .expr p.2)

/-- `IntoDeserializer for IndexMap` (external), as `MapAccess`. -/
def valueEntries (es : List (Str × Value)) : List (Src × Src) := es.map fun p => (.str p.1, .value p.2)

/-- The keys of the structs of this crate are string slices. -/
def named (fs : List (Str × Src)) : List (Src × Src) := fs.map fun p => (.str p.1, p.2)

/-- `TraversalAccess`, `crates/hcl-rs/src/expr/de.rs:586-628`. -/
def traversalAccess (e : Expr) (ops : List TravOp) : List (Str × Src) :=
  [(c!"expr", .expr e), (c!"operators", .seq (ops.map .travOp))]

/-- `FuncNameAccess`, `crates/hcl-rs/src/expr/de.rs:775-818`. -/
def funcNameAccess (n : FuncName) : List (Str × Src) :=
  [(c!"namespace", .seq (n.namespaces.map .str)), (c!"name", .str n.name)]

/-- `FuncCallAccess`, `crates/hcl-rs/src/expr/de.rs:724-773`. -/
def funcCallAccess (n : FuncName) (args : List Expr) (x : Bool) : List (Str × Src) :=
  [(c!"name", .access (funcNameAccess n)), (c!"args", .seq (exprs args)), (c!"expand_final", .bool x)]

/-- `ConditionalAccess`, `crates/hcl-rs/src/expr/de.rs:820-868`. -/
def conditionalAccess (c t f : Expr) : List (Str × Src) :=
  [(c!"cond_expr", .expr c), (c!"true_expr", .expr t), (c!"false_expr", .expr f)]

/-- `UnaryOpAccess`, `crates/hcl-rs/src/expr/de.rs:900-943`. -/
def unaryAccess (op : UnOp) (e : Expr) : List (Str × Src) :=
  [(c!"operator", .str op.asStr), (c!"expr", .expr e)]

/-- `BinaryOpAccess`, `crates/hcl-rs/src/expr/de.rs:945-994`. -/
def binaryAccess (l : Expr) (op : BinOp) (r : Expr) : List (Str × Src) :=
  [(c!"lhs_expr", .expr l), (c!"operator", .str op.asStr), (c!"rhs_expr", .expr r)]

/-- `ForExprAccess`, `crates/hcl-rs/src/expr/de.rs:996-1069`. -/
def forAccess (k : Option Str) (v : Str) (c : Expr) (ke : Option Expr) (ve : Expr) (g : Bool)
    (ce : Option Expr) : List (Str × Src) :=
  [(c!"key_var", .opt (k.map .str)), (c!"value_var", .str v), (c!"collection_expr", .expr c),
    (c!"key_expr", .opt (ke.map .expr)), (c!"value_expr", .expr ve), (c!"grouping", .bool g),
    (c!"cond_expr", .opt (ce.map .expr))]

/-- `HeredocAccess`, `crates/hcl-rs/src/expr/de.rs:1192-1240`. -/
def heredocAccess (d t : Str) (m : HeredocStrip) : List (Str × Src) :=
  [(c!"delimiter", .str d), (c!"template", .str t), (c!"strip", .str m.asStr)]

/-- `AttributeAccess`, `crates/hcl-rs/src/structure/de.rs:48-90`. -/
def attrAccess (k : Str) (e : Expr) : List (Str × Src) := [(c!"key", .str k), (c!"expr", .expr e)]

/-- `BlockAccess`, `crates/hcl-rs/src/structure/de.rs:92-140`; the body is deserialized by
`NewtypeStructDeserializer` (lines 10-16). -/
def blockAccess (i : Str) (ls : List Label) (b : List Struct) : List (Str × Src) :=
  [(c!"identifier", .str i), (c!"labels", .seq (ls.map .label)),
    (c!"body", .newtype (.seq (b.map .struct)))]

variable (E : FmtEnv)

/-- `deserialize_string for Expression`, `crates/hcl-rs/src/expr/de.rs:390-402`. -/
def exprString : Expr → Ev
  | .string s => .str s
  | .template t => .str t.asStr
  | e => .str (Fmt.toInterpolatedString (Fmt.expr E e))

/-- `deserialize_any for Expression`, `crates/hcl-rs/src/expr/de.rs:303-318`. -/
def exprAny : Expr → Ev
  | .null => .unit
  | .bool b => .bool b
  | .number n => number n
  | .string s => .str s
  | .array es => .seq (exprs es) false
  | .object es => .map (entries es)
  | .template t => .str t.asStr
  | .paren e => exprAny e
  | e => exprString E e
termination_by structural x => x

/-- `deserialize_any for Operation`, `crates/hcl-rs/src/expr/de.rs:881-889`. -/
def unaryAny (op : UnOp) (e : Expr) : Ev := .map (named (unaryAccess op e))
def binaryAny (l : Expr) (op : BinOp) (r : Expr) : Ev := .map (named (binaryAccess l op r))

/-- `deserialize_any for TemplateExpr`, `crates/hcl-rs/src/expr/de.rs:1173-1181`. -/
def tmplAny : TmplExpr → Ev
  | .quoted s => .str s
  | .heredoc d t m => .map (named (heredocAccess d t m))

/-- `variant_name`, `crates/hcl-rs/src/expr/de.rs:1267-1276` (and `crates/hcl-rs/src/macros.rs:1190-1206`). -/
def exprName : Expr → Str
  | .null => c!"Null"
  | .bool _ => c!"Bool"
  | .number _ => c!"Number"
  | .string _ => c!"String"
  | .array _ => c!"Array"
  | .object _ => c!"Object"
  | .template _ => c!"TemplateExpr"
  | .var _ => c!"Variable"
  | .traversal _ _ => c!"Traversal"
  | .call _ _ _ => c!"FuncCall"
  | .paren _ => c!"Parenthesis"
  | .cond _ _ _ => c!"Conditional"
  | .unary _ _ => c!"Operation"
  | .binary _ _ _ => c!"Operation"
  | .forE _ _ _ _ _ _ _ => c!"ForExpr"

/-- `variant_name for TemplateExpr`. -/
def tmplName : TmplExpr → Str
  | .quoted _ => c!"QuotedString"
  | .heredoc _ _ _ => c!"Heredoc"

/-- `variant_name for ObjectKey`. -/
def keyName : ObjKey → Str
  | .ident _ => c!"Identifier"
  | .expr _ => c!"Expression"

/-- `variant_name for TraversalOperator`. -/
def travName : TravOp → Str
  | .attrSplat => c!"AttrSplat"
  | .fullSplat => c!"FullSplat"
  | .getAttr _ => c!"GetAttr"
  | .index _ => c!"Index"
  | .legacyIndex _ => c!"LegacyIndex"

/-- `variant_name for Structure`, `crates/hcl-rs/src/structure/de.rs:172-175`. -/
def structName : Struct → Str
  | .attr _ _ => c!"Attribute"
  | .block _ _ _ => c!"Block"

/-- `variant_name for BlockLabel`. -/
def labelName : Label → Str
  | .ident _ => c!"Identifier"
  | .string _ => c!"String"

/-- `deserialize_enum for Expression`, `crates/hcl-rs/src/expr/de.rs:330-352`. -/
def exprEnum (name : Str) (e : Expr) : Ev :=
  if name = c!"$hcl::Expression" then .enum (.str (exprName e)) (.expr e)
  else
    match e with
    | .string s => .enum (.str s) .unitOnly
    | .object [] => .err
    | .object ((k, v) :: _) => .enum (.key k) (.entry (.expr v))
    | .unary op x => .enum (.str c!"Unary") (.source (.unaryOp op x))
    | .binary l op r => .enum (.str c!"Binary") (.source (.binaryOp l op r))
    | .template t => .enum (.str (tmplName t)) (.source (.tmpl t))
    | _ => .err

/-- `deserialize_map for Expression`, `crates/hcl-rs/src/expr/de.rs:472-486`. -/
def exprMap : Expr → Ev
  | .object es => .map (entries es)
  | .cond c t f => .map (named (conditionalAccess c t f))
  | .call n as x => .map (named (funcCallAccess n as x))
  | .forE k v c ke ve g ce => .map (named (forAccess k v c ke ve g ce))
  | .traversal e os => .map (named (traversalAccess e os))
  | .unary op e => unaryAny op e
  | .binary l op r => binaryAny l op r
  | .template t => tmplAny t
  | _ => .err

/-- `deserialize_seq for Expression`, `crates/hcl-rs/src/expr/de.rs:443-451`. -/
def exprSeq : Expr → Ev
  | .array es => .seq (exprs es) false
  | _ => .err

/-- The methods of `Deserializer for Expression`, `crates/hcl-rs/src/expr/de.rs:280-517`. -/
def exprAsk (e : Expr) : Req → Ev
  | .any => exprAny E e
  | .bool => match e with
    | .bool b => .bool b
    | _ => .err
  | .num => match e with
    | .number n => number n
    | _ => .err
  | .char => exprString E e
  | .str => exprString E e
  | .identifier => exprString E e
  | .bytes => match e with
    | .string s => .str s
    | .array es => .seq (exprs es) false
    | _ => .err
  | .option => match e with
    | .null => .none
    | e => .some (.expr e)
  | .unit => match e with
    | .null => .unit
    | _ => .err
  | .newtype _ => .newtype (.expr e)
  | .seq => exprSeq e
  | .tuple => exprSeq e
  | .tupleStruct => exprSeq e
  | .map => exprMap e
  | .struct => match e with
    | .array es => .seq (exprs es) false
    | e => exprMap e
  | .enum name => exprEnum name e
  | .ignored => .unit

/-- `deserialize_any for ValueDeserializer`, `crates/hcl-rs/src/value/de.rs:116-128`. -/
def valueAny : Value → Ev
  | .null => .unit
  | .bool b => .bool b
  | .number n => number n
  | .string s => .str s
  | .array vs => .seq (vs.map .value) false
  | .object es => .map (valueEntries es)

/-- `deserialize_enum for ValueDeserializer`, `crates/hcl-rs/src/value/de.rs:140-154`, and the
`EnumAccess` of objects, lines 175-191. -/
def valueEnum : Value → Ev
  | .string s => .enum (.str s) .unitOnly
  | .object [] => .err
  | .object ((k, v) :: _) => .enum (.str k) (.value v)
  | _ => .err

/-- The methods of `Deserializer for ValueDeserializer`, `crates/hcl-rs/src/value/de.rs:113-161`. -/
def valueAsk (v : Value) : Req → Ev
  | .option => match v with
    | .null => .none
    | v => .some (.value v)
  | .enum _ => valueEnum v
  | _ => valueAny v

/-- `deserialize_any for ObjectKey`, `crates/hcl-rs/src/expr/de.rs:1082-1090`. -/
def keyAny : ObjKey → Ev
  | .ident x => .str x
  | .expr e => exprAny E e

/-- `deserialize_any for TraversalOperator`, `crates/hcl-rs/src/expr/de.rs:641-651`. -/
def travAny : TravOp → Ev
  | .attrSplat => .unit
  | .fullSplat => .unit
  | .getAttr x => .str x
  | .index e => exprAny E e
  | .legacyIndex i => .u64 i

/-- `deserialize_any for Structure`, `crates/hcl-rs/src/structure/de.rs:29-37`. -/
def structAny : Struct → Ev
  | .attr k e => .map (named (attrAccess k e))
  | .block i ls b => .map (named (blockAccess i ls b))

/-- `deserialize_any for BlockLabel`, `crates/hcl-rs/src/structure/de.rs:153-161`. -/
def labelAny (l : Label) : Ev := .str l.asStr

/-- The methods of every deserializer. `enum` is `EnumAccess::new(self)`
(`crates/hcl-rs/src/macros.rs:1172-1188`, `crates/hcl-rs/src/de/mod.rs:346-379`) or `visit_enum(self)` with
`EnumAccess for ObjectKey` and `TraversalOperator` (`crates/hcl-rs/src/expr/de.rs:1111-1124,672-685`).
What is not listed is forwarded to `deserialize_any` (`forward_to_deserialize_any!`). Of
`MapDeserializer`, `deserialize_seq` and `deserialize_tuple` visit the entries as pairs. -/
def ask : Src → Req → Ev
  | .value v, r => valueAsk v r
  | .expr e, r => exprAsk E e r
  | .key k, .enum _ => .enum (.str (keyName k)) (.key k)
  | .key k, _ => keyAny E k
  | .tmpl t, .enum _ => .enum (.str (tmplName t)) (.source (.tmpl t))
  | .tmpl t, _ => tmplAny t
  | .unaryOp op e, .enum _ => .enum (.str c!"Unary") (.source (.unaryOp op e))
  | .unaryOp op e, _ => unaryAny op e
  | .binaryOp l op r, .enum _ => .enum (.str c!"Binary") (.source (.binaryOp l op r))
  | .binaryOp l op r, _ => binaryAny l op r
  | .travOp o, .enum _ => .enum (.str (travName o)) (.travOp o)
  | .travOp o, _ => travAny E o
  | .struct s, .enum _ => .enum (.str (structName s)) (.source (.struct s))
  | .struct s, _ => structAny s
  | .label l, .enum _ => .enum (.str (labelName l)) (.source (.label l))
  | .label l, _ => labelAny l
  -- `crates/hcl-rs/src/de/mod.rs:216-262`
  | .doc b, .newtype name =>
    if name = c!"$hcl::Body" then .newtype (.seq (b.map .struct))
    else exprAsk E (bodyToJson b) (.newtype name)
  | .doc b, .enum name => exprEnum name (bodyToJson b)
  | .doc b, _ => exprAny E (bodyToJson b)
  | .str s, .enum _ => .enum (.str s) .unitOnly
  | .str s, _ => .str s
  | .bool b, _ => .bool b
  | .num n, _ => number n
  | .newtype s, _ => .newtype s
  | .opt none, _ => .none
  | .opt (some s), _ => .some s
  | .seq ss, _ => .seq ss true
  | .map es, .seq => .seq (es.map fun p => .seq [p.1, p.2]) true
  | .map es, .tuple => .seq (es.map fun p => .seq [p.1, p.2]) true
  | .map es, _ => .map es
  | .access [], .enum _ => .err
  | .access ((k, s) :: _), .enum _ => .enum (.str k) (.entry s)
  | .access fs, _ => .map (named fs)
  | .missing, .option => .none
  | .missing, _ => .err

/-- `VariantAccess::tuple_variant`. -/
def VAcc.tuple : VAcc → Ev
  | .unitOnly => .err
  | .source s => ask E s .seq
  | .expr e => exprSeq e
  | .key k => ask E (.key k) .seq
  | .travOp o => ask E (.travOp o) .seq
  | .value v => valueAny v
  | .entry s => ask E s .tuple

/-- `VariantAccess::struct_variant`. -/
def VAcc.struct : VAcc → Ev
  | .unitOnly => .err
  | .source s => ask E s .map
  | .expr e => exprMap e
  | .key k => ask E (.key k) .map
  | .travOp o => ask E (.travOp o) .map
  | .value v => valueAny v
  | .entry s => ask E s .map

end De

mutual
/-- The types that can be deserialized. `Box<T>` and the wrappers `Block<T>` and `LabeledBlock<T>`
(`crates/hcl-rs/src/ser/blocks.rs:146-155,295-304`) are deserialized like `T`. -/
inductive Ty
  | bool
  /-- `i8`, `i16`, `i32`, `i64`: the number of bits -/
  | sint (bits : Nat)
  /-- `u8`, `u16`, `u32`, `u64` -/
  | uint (bits : Nat)
  | f64
  | char
  | string
  /-- `()` and derived unit structs -/
  | unit
  | option (t : Ty)
  /-- `Vec<T>` -/
  | seq (t : Ty)
  | tuple (ts : List Ty)
  /-- a map: the entries that are inserted -/
  | map (k v : Ty)
  /-- derived -/
  | newtype (name : Str) (t : Ty)
  | tupleStruct (ts : List Ty)
  | struct (name : Str) (fs : List (Str × Ty))
  | enum (name : Str) (vs : List (Str × VTy))
  /-- `IgnoredAny` -/
  | ignored
  /-- the types of this crate -/
  | value
  | number
  | ident
  | unOp
  | binOp
  | strip
  | expr
  | body
/-- The variants of an enum. -/
inductive VTy
  | unit
  | newtype (t : Ty)
  | tuple (ts : List Ty)
  | struct (fs : List (Str × Ty))
end

/-- A deserialized value. -/
inductive Datum
  | bool (b : Bool)
  | int (i : Int)
  | f64 (x : F64)
  | char (c : Char)
  | str (s : Str)
  | unit
  | none
  | some (d : Datum)
  | newtype (d : Datum)
  /-- `Vec`, tuples, tuple structs, and the fields of a struct in the order of its declaration -/
  | list (ds : List Datum)
  /-- the entries that are inserted in a map -/
  | map (es : List (Datum × Datum))
  /-- the position of the variant in the declaration, and what it contains: a `list` for tuple and struct
  variants -/
  | unitVar (i : Nat)
  | var (i : Nat) (d : Datum)
  | value (v : Value)
  | number (n : N)
  | unOp (o : UnOp)
  | binOp (o : BinOp)
  | strip (m : HeredocStrip)
  | expr (e : Expr)
  | body (b : List Struct)

/-- The result of a deserialization; `out`: the model has run out of fuel, see `de`. -/
inductive DRes (α : Type)
  | ok (a : α)
  | err
  | out
  deriving DecidableEq

namespace DRes

/-- `?`. -/
def bind {α β : Type} : DRes α → (α → DRes β) → DRes β
  | .ok a, f => f a
  | .err, _ => .err
  | .out, _ => .out

/-- `map`. -/
def map {α β : Type} (f : α → β) (r : DRes α) : DRes β := r.bind fun a => .ok (f a)

/-- `ok_or`. -/
def ofOption {α : Type} : Option α → DRes α
  | some a => .ok a
  | none => .err

/-- Collect the results, or the first error. -/
def each {α β : Type} (f : α → DRes β) : List α → DRes (List β)
  | [] => .ok []
  | a :: as => (f a).bind fun b => (each f as).bind fun bs => .ok (b :: bs)

end DRes

namespace De

/-- Derived `Deserialize` of the types of this crate: `ObjectKey`,
`crates/hcl-rs/src/expr/mod.rs:290-297`. -/
def keyTy : Ty := .enum c!"ObjectKey" [(c!"Identifier", .newtype .ident), (c!"Expression", .newtype .expr)]

/-- `TraversalOperator`, `crates/hcl-rs/src/expr/traversal.rs:108-125`. -/
def travOpTy : Ty := .enum c!"TraversalOperator" [(c!"AttrSplat", .unit), (c!"FullSplat", .unit),
  (c!"GetAttr", .newtype .ident), (c!"Index", .newtype .expr), (c!"LegacyIndex", .newtype (.uint 64))]

/-- `Traversal`, `crates/hcl-rs/src/expr/traversal.rs:6-12`. -/
def traversalTy : Ty := .struct c!"Traversal" [(c!"expr", .expr), (c!"operators", .seq travOpTy)]

/-- `FuncName`, `crates/hcl-rs/src/expr/func_call.rs:8-14`. -/
def funcNameTy : Ty := .struct c!"FuncName" [(c!"namespace", .seq .ident), (c!"name", .ident)]

/-- `FuncCall`, `crates/hcl-rs/src/expr/func_call.rs:62-71`. -/
def funcCallTy : Ty := .struct c!"FuncCall"
  [(c!"name", funcNameTy), (c!"args", .seq .expr), (c!"expand_final", .bool)]

/-- `Conditional`, `crates/hcl-rs/src/expr/conditional.rs:6-14`. -/
def conditionalTy : Ty := .struct c!"Conditional"
  [(c!"cond_expr", .expr), (c!"true_expr", .expr), (c!"false_expr", .expr)]

/-- `UnaryOp`, `BinaryOp` and `Operation`, `crates/hcl-rs/src/expr/operation.rs:9-61`. -/
def unaryTy : Ty := .struct c!"UnaryOp" [(c!"operator", .unOp), (c!"expr", .expr)]
def binaryTy : Ty := .struct c!"BinaryOp" [(c!"lhs_expr", .expr), (c!"operator", .binOp), (c!"rhs_expr", .expr)]
def operationTy : Ty := .enum c!"Operation" [(c!"Unary", .newtype unaryTy), (c!"Binary", .newtype binaryTy)]

/-- `ForExpr`, `crates/hcl-rs/src/expr/for_expr.rs:7-30`. -/
def forTy : Ty := .struct c!"ForExpr" [(c!"key_var", .option .ident), (c!"value_var", .ident),
  (c!"collection_expr", .expr), (c!"key_expr", .option .expr), (c!"value_expr", .expr),
  (c!"grouping", .bool), (c!"cond_expr", .option .expr)]

/-- `Heredoc` and `TemplateExpr`, `crates/hcl-rs/src/expr/template_expr.rs:11-21,59-67`. -/
def heredocTy : Ty := .struct c!"Heredoc" [(c!"delimiter", .ident), (c!"template", .string), (c!"strip", .strip)]
def tmplTy : Ty := .enum c!"TemplateExpr" [(c!"QuotedString", .newtype .string), (c!"Heredoc", .newtype heredocTy)]

/-- The variants of `Expression` and what they contain, `crates/hcl-rs/src/expr/de.rs:228-266` and
`crates/hcl-rs/src/expr/mod.rs:41-72`. -/
def exprVariants : List (Str × VTy) :=
  [(c!"Null", .unit), (c!"Bool", .newtype .bool), (c!"Number", .newtype .number),
    (c!"String", .newtype .string), (c!"Array", .newtype (.seq .expr)),
    (c!"Object", .newtype (.map keyTy .expr)), (c!"TemplateExpr", .newtype tmplTy),
    (c!"Variable", .newtype .ident), (c!"Traversal", .newtype traversalTy),
    (c!"FuncCall", .newtype funcCallTy), (c!"Parenthesis", .newtype .expr),
    (c!"Conditional", .newtype conditionalTy), (c!"Operation", .newtype operationTy),
    (c!"ForExpr", .newtype forTy)]

/-- `BlockLabel`, `crates/hcl-rs/src/structure/block.rs:115-121`. -/
def labelTy : Ty := .enum c!"BlockLabel" [(c!"Identifier", .newtype .ident), (c!"String", .newtype .string)]

/-- `Attribute`, `crates/hcl-rs/src/structure/attribute.rs:18-24`. -/
def attrTy : Ty := .struct c!"Attribute" [(c!"key", .ident), (c!"expr", .expr)]

/-- `Block`, `crates/hcl-rs/src/structure/block.rs:18-26`. -/
def blockTy : Ty := .struct c!"Block" [(c!"identifier", .ident), (c!"labels", .seq labelTy), (c!"body", .body)]

/-- `Structure`, `crates/hcl-rs/src/structure/mod.rs:71-77`. -/
def structTy : Ty := .enum c!"Structure" [(c!"Attribute", .newtype attrTy), (c!"Block", .newtype blockTy)]

/-! The constructors of the types of this crate, applied to deserialized parts. That a part has another
form is ruled out by the type system. -/

def asExpr : Datum → Option Expr
  | .expr e => some e
  | _ => none

def asStr : Datum → Option Str
  | .str s => some s
  | _ => none

def asValue : Datum → Option Value
  | .value v => some v
  | _ => none

def asOpt {α : Type} (f : Datum → Option α) : Datum → Option (Option α)
  | .none => some none
  | .some d => (f d).map some
  | _ => none

def asKey : Datum → Option ObjKey
  | .var 0 (.str x) => some (.ident x)
  | .var 1 (.expr e) => some (.expr e)
  | _ => none

def asEntry : Datum × Datum → Option (ObjKey × Expr)
  | (k, v) => (asKey k).bind fun k => (asExpr v).map fun v => (k, v)

def asTravOp : Datum → Option TravOp
  | .unitVar 0 => some .attrSplat
  | .unitVar 1 => some .fullSplat
  | .var 2 (.str x) => some (.getAttr x)
  | .var 3 (.expr e) => some (.index e)
  | .var 4 (.int i) => some (.legacyIndex i.toNat)
  | _ => none

def asTmpl : Datum → Option TmplExpr
  | .var 0 (.str s) => some (.quoted s)
  | .var 1 (.list [.str d, .str t, .strip m]) => some (.heredoc d t m)
  | _ => none

/-- `visit_enum`, `crates/hcl-rs/src/expr/de.rs:228-248`. An object is collected by `VecMap`'s visitor
(external). -/
def asExprVariant : Datum → Option Expr
  | .unitVar 0 => some .null
  | .var 1 (.bool b) => some (.bool b)
  | .var 2 (.number n) => some (.number n)
  | .var 3 (.str s) => some (.string s)
  | .var 4 (.list ds) => (ds.mapM asExpr).map .array
  | .var 5 (.map es) => (es.mapM asEntry).map fun es => .object (objCollect es)
  | .var 6 d => (asTmpl d).map .template
  | .var 7 (.str x) => some (.var x)
  | .var 8 (.list [.expr e, .list os]) => (os.mapM asTravOp).map (.traversal e)
  | .var 9 (.list [.list [.list ns, .str n], .list as, .bool x]) =>
    (ns.mapM asStr).bind fun ns => (as.mapM asExpr).map fun as => .call ⟨ns, n⟩ as x
  | .var 10 (.expr e) => some (.paren e)
  | .var 11 (.list [.expr c, .expr t, .expr f]) => some (.cond c t f)
  | .var 12 (.var 0 (.list [.unOp o, .expr e])) => some (.unary o e)
  | .var 12 (.var 1 (.list [.expr l, .binOp o, .expr r])) => some (.binary l o r)
  | .var 13 (.list [k, .str v, .expr c, ke, .expr ve, .bool g, ce]) =>
    (asOpt asStr k).bind fun k => (asOpt asExpr ke).bind fun ke =>
      (asOpt asExpr ce).map fun ce => .forE k v c ke ve g ce
  | _ => none

def asLabel : Datum → Option Label
  | .var 0 (.str x) => some (.ident x)
  | .var 1 (.str s) => some (.string s)
  | _ => none

def asStruct : Datum → Option Struct
  | .var 0 (.list [.str k, .expr e]) => some (.attr k e)
  | .var 1 (.list [.str i, .list ls, .body b]) => (ls.mapM asLabel).map fun ls => .block i ls b
  | _ => none

def asBody : Datum → Option (List Struct)
  | .list ds => ds.mapM asStruct
  | _ => none

/-- The method that a type calls first. -/
def want : Ty → Req
  | .bool => .bool
  | .sint _ => .num
  | .uint _ => .num
  | .f64 => .num
  | .char => .char
  | .string => .str
  | .unit => .unit
  | .option _ => .option
  | .seq _ => .seq
  | .tuple _ => .tuple
  | .map _ _ => .map
  | .newtype n _ => .newtype n
  | .tupleStruct _ => .tupleStruct
  | .struct _ _ => .struct
  | .enum n _ => .enum n
  | .ignored => .ignored
  -- `crates/hcl-rs/src/value/de.rs:91`
  | .value => .any
  -- `crates/hcl-primitives/src/number.rs:445`
  | .number => .any
  -- `crates/hcl-primitives/src/ident.rs:267-275`, `crates/hcl-primitives/src/internal_string.rs:193-200`
  | .ident => .str
  -- `crates/hcl-primitives/src/expr.rs:167-194`
  | .unOp => .any
  | .binOp => .any
  -- `crates/hcl-rs/src/expr/de.rs:1250-1257`
  | .strip => .any
  -- `crates/hcl-rs/src/expr/de.rs:268`
  | .expr => .enum c!"$hcl::Expression"
  -- `crates/hcl-rs/src/structure/body.rs:16-18`
  | .body => .newtype c!"$hcl::Body"

/-- The identifier of a variant (derived, and `FieldVisitor`, `crates/hcl-rs/src/expr/de.rs:57-130`):
a name or a position. -/
def variantOf (names : List Str) : Ev → DRes Nat
  | .str s => .ofOption (names.findIdx? fun x => x == s)
  | .u64 n => if n < names.length then .ok n else .err
  | _ => .err

/-- The identifier of a field (derived): `none` is ignored. -/
def fieldOf (names : List Str) : Ev → DRes (Option Nat)
  | .str s => .ok (names.findIdx? fun x => x == s)
  | .u64 n => .ok (if n < names.length then some n else none)
  | _ => .err

section
variable (E : FmtEnv) (rec : Ty → Src → DRes Datum)

/-- `next_element` for each of the types. -/
def elements : List Ty → List Src → DRes (List Datum × List Src)
  | [], ss => .ok ([], ss)
  | _ :: _, [] => .err
  | t :: ts, s :: ss =>
    (rec t s).bind fun d => (elements ts ss).bind fun r => .ok (d :: r.1, r.2)

/-- `visit_seq` of the derived visitors and of tuples. -/
def visitTuple (ts : List Ty) : Ev → DRes Datum
  | .seq ss ends => (elements rec ts ss).bind fun r =>
    if ends = true ∧ r.2 ≠ [] then .err else .ok (.list r.1)
  | _ => .err

/-- The loop over the entries of a struct (derived): the fields found so far. -/
def fields (fs : List (Str × Ty)) : List (Nat × Datum) → List (Src × Src) → DRes (List (Nat × Datum))
  | acc, [] => .ok acc
  | acc, (k, v) :: es =>
    (fieldOf (fs.map Prod.fst) (ask E k .identifier)).bind fun i =>
      match i with
      | none => (rec .ignored v).bind fun _ => fields fs acc es
      | some i =>
        if acc.any (fun p : Nat × Datum => p.1 == i) then .err
        else match fs[i]? with
          | some (_, t) => (rec t v).bind fun d => fields fs ((i, d) :: acc) es
          | none => .err

/-- The fields in order; one that was not found is deserialized by `missing_field`. -/
def gather (acc : List (Nat × Datum)) : Nat → List (Str × Ty) → DRes (List Datum)
  | _, [] => .ok []
  | i, (_, t) :: fs =>
    (match acc.find? (fun p : Nat × Datum => p.1 == i) with
      | some p => DRes.ok p.2
      | none => rec t .missing).bind fun d => (gather acc (i + 1) fs).bind fun ds => .ok (d :: ds)

/-- `visit_map` and `visit_seq` of derived structs and struct variants. -/
def visitStruct (fs : List (Str × Ty)) : Ev → DRes Datum
  | .map es => (fields E rec fs [] es).bind fun acc => (gather rec acc 0 fs).map .list
  | ev => visitTuple rec (fs.map Prod.snd) ev

/-- `VariantAccess::unit_variant`. -/
def unitVariant : VAcc → DRes Unit
  | .unitOnly => .ok ()
  | .source s => (rec .unit s).map fun _ => ()
  | .expr e => if Expr.beq e .null then .ok () else .err
  | .key k => (rec .unit (.key k)).map fun _ => ()
  | .travOp o => (rec .unit (.travOp o)).map fun _ => ()
  | .value _ => .err
  | .entry s => (rec .unit s).map fun _ => ()

/-- The deserializer that `newtype_variant_seed for Expression` passes on,
`crates/hcl-rs/src/expr/de.rs:545-565`. -/
def exprContent : Expr → Option Src
  | .null => none
  | .bool b => some (.bool b)
  | .number n => some (.num n)
  | .string s => some (.str s)
  | .array es => some (.seq (exprs es))
  | .object es => some (.map (entries es))
  | .template t => some (.tmpl t)
  | .var x => some (.str x)
  | .traversal e os => some (.access (traversalAccess e os))
  | .call n as x => some (.access (funcCallAccess n as x))
  | .paren e => some (.expr e)
  | .cond c t f => some (.access (conditionalAccess c t f))
  | .unary op e => some (.unaryOp op e)
  | .binary l op r => some (.binaryOp l op r)
  | .forE k v c ke ve g ce => some (.access (forAccess k v c ke ve g ce))

/-- `VariantAccess::newtype_variant_seed`. -/
def newtypeVariant (t : Ty) : VAcc → DRes Datum
  | .unitOnly => .err
  | .source s => rec t s
  | .expr e => match exprContent e with
    | some s => rec t s
    | none => .err
  | .key (.expr e) => rec t (.expr e)
  | .key k => rec t (.key k)
  | .travOp (.index e) => rec t (.expr e)
  | .travOp (.getAttr x) => rec t (.str x)
  | .travOp o => rec t (.travOp o)
  | .value v => rec t (.value v)
  | .entry s => rec t s

/-- What a variant of a derived enum deserializes, given its position. -/
def variantContent (i : Nat) (acc : VAcc) : VTy → DRes Datum
  | .unit => (unitVariant rec acc).map fun _ => .unitVar i
  | .newtype t => (newtypeVariant rec t acc).map (.var i)
  | .tuple ts => (visitTuple rec ts (VAcc.tuple E acc)).map (.var i)
  | .struct fs => (visitStruct E rec fs (VAcc.struct E acc)).map (.var i)

/-- `visit_enum` of derived enums. -/
def visitEnum (vs : List (Str × VTy)) (name : Src) (acc : VAcc) : DRes Datum :=
  (variantOf (vs.map Prod.fst) (ask E name .identifier)).bind fun i =>
    match vs[i]? with
    | some v => variantContent E rec i acc v.2
    | none => .err

/-- `ValueVisitor`, `crates/hcl-rs/src/value/de.rs:13-89`. -/
def visitValue : Ev → DRes Value
  | .unit => .ok .null
  | .none => .ok .null
  | .bool b => .ok (.bool b)
  | .i64 i => .ok (.number (.ofI64 i))
  | .u64 n => .ok (.number (.posInt n))
  | .f64 x => .ok (match N.fromF64 x with
    | some n => .number n
    | none => .null)
  | .str s => .ok (.string s)
  | .some s => (rec .value s).bind fun d => .ofOption (asValue d)
  | .seq ss _ => (DRes.each (fun s => (rec .value s).bind fun d => .ofOption (asValue d)) ss).map .array
  | .map es =>
    (DRes.each (fun p : Src × Src => (rec .string p.1).bind fun k => (DRes.ofOption (asStr k)).bind fun k =>
      (rec .value p.2).bind fun d => (DRes.ofOption (asValue d)).bind fun v => .ok (k, v)) es).map
        fun es => .object (Map.collect es)
  | _ => .err

/-- `ExpressionVisitor`, `crates/hcl-rs/src/expr/de.rs:157-249`. -/
def visitExpr : Ev → DRes Expr
  | .unit => .ok .null
  | .none => .ok .null
  | .bool b => .ok (.bool b)
  | .i64 i => .ok (.number (.ofI64 i))
  | .u64 n => .ok (.number (.posInt n))
  | .f64 x => .ok (match N.fromF64 x with
    | some n => .number n
    | none => .null)
  | .str s => .ok (.string s)
  | .some s => (rec .expr s).bind fun d => .ofOption (asExpr d)
  | .seq ss _ => (DRes.each (fun s => (rec .expr s).bind fun d => .ofOption (asExpr d)) ss).map .array
  | .map es =>
    (DRes.each (fun p : Src × Src => (rec keyTy p.1).bind fun k => (DRes.ofOption (asKey k)).bind fun k =>
      (rec .expr p.2).bind fun d => (DRes.ofOption (asExpr d)).bind fun v => .ok (k, v)) es).map
        fun es => .object (objCollect es)
  | .enum name acc => (visitEnum E rec exprVariants name acc).bind fun d => .ofOption (asExprVariant d)
  | _ => .err

/-- `IgnoredAny` (serde). -/
def visitIgnored : Ev → DRes Datum
  | .err => .err
  | .some s => rec .ignored s
  | .newtype s => rec .ignored s
  | .seq ss _ => (DRes.each (rec .ignored) ss).map fun _ => .unit
  | .map es => (DRes.each (fun p : Src × Src => (rec .ignored p.1).bind fun _ => rec .ignored p.2) es).map
      fun _ => .unit
  | .enum name acc => (rec .ignored name).bind fun _ => newtypeVariant rec .ignored acc
  | _ => .ok .unit

/-- The visitors of the other types with one deserialized part less. -/
def visitInt (lo hi : Int) : Ev → DRes Datum
  | .i64 i => if lo ≤ i ∧ i ≤ hi then .ok (.int i) else .err
  | .u64 n => if lo ≤ n ∧ n ≤ hi then .ok (.int n) else .err
  | _ => .err

/-- `FromStrVisitor`, `crates/hcl-rs/src/de/mod.rs:435-463` and `crates/hcl-primitives/src/de.rs`; of the
types that are made from strings. -/
def visitStr {α : Type} (f : Str → Option α) (g : α → Datum) : Ev → DRes Datum
  | .str s => (DRes.ofOption (f s)).map g
  | _ => .err

/-- The visitor of each type. -/
def visit : Ty → Ev → DRes Datum
  | .bool, .bool b => .ok (.bool b)
  | .bool, _ => .err
  | .sint b, ev => visitInt (-2 ^ (b - 1)) (2 ^ (b - 1) - 1) ev
  | .uint b, ev => visitInt 0 (2 ^ b - 1) ev
  | .f64, .f64 x => .ok (.f64 x)
  | .f64, .i64 i => .ok (.f64 (.ofInt i))
  | .f64, .u64 n => .ok (.f64 (.ofInt n))
  | .f64, _ => .err
  | .char, .str [c] => .ok (.char c)
  | .char, _ => .err
  | .string, ev => visitStr some .str ev
  | .unit, .unit => .ok .unit
  | .unit, _ => .err
  | .option _, .unit => .ok .none
  | .option _, .none => .ok .none
  | .option t, .some s => (rec t s).map .some
  | .option _, _ => .err
  | .seq t, .seq ss _ => (DRes.each (rec t) ss).map .list
  | .seq _, _ => .err
  | .tuple ts, ev => visitTuple rec ts ev
  | .map k v, .map es =>
    (DRes.each (fun p : Src × Src => (rec k p.1).bind fun x => (rec v p.2).bind fun y => .ok (x, y)) es).map
      .map
  | .map _ _, _ => .err
  | .newtype _ t, .newtype s => (rec t s).map .newtype
  | .newtype _ t, .seq ss ends => (visitTuple rec [t] (.seq ss ends)).bind fun d =>
    match d with
    | .list [d] => .ok (.newtype d)
    | _ => .err
  | .newtype _ _, _ => .err
  | .tupleStruct ts, ev => visitTuple rec ts ev
  | .struct _ fs, ev => visitStruct E rec fs ev
  | .enum _ vs, .enum name acc => visitEnum E rec vs name acc
  | .enum _ _, _ => .err
  | .ignored, ev => visitIgnored rec ev
  | .value, ev => (visitValue rec ev).map .value
  -- `NumberVisitor`, `crates/hcl-primitives/src/number.rs:420-443`
  | .number, .i64 i => .ok (.number (.ofI64 i))
  | .number, .u64 n => .ok (.number (.posInt n))
  | .number, .f64 x => (DRes.ofOption (N.fromF64 x)).map .number
  | .number, _ => .err
  | .ident, ev => visitStr (Ident.tryNew E.U) .str ev
  | .unOp, ev => visitStr UnOp.fromStr .unOp ev
  | .binOp, ev => visitStr BinOp.fromStr .binOp ev
  | .strip, ev => visitStr HeredocStrip.fromStr .strip ev
  | .expr, ev => (visitExpr E rec ev).map .expr
  | .body, .newtype s => (rec (.seq structTy) s).bind fun d => (DRes.ofOption (asBody d)).map .body
  | .body, .seq ss ends => (visitTuple rec [.seq structTy] (.seq ss ends)).bind fun d =>
    match d with
    | .list [d] => (DRes.ofOption (asBody d)).map .body
    | _ => .err
  | .body, _ => .err

end

/-- `T::deserialize(deserializer)`. The number bounds the depth of the recursion; what holds for one
depth holds for every greater one. -/
def de (E : FmtEnv) : Nat → Ty → Src → DRes Datum
  | 0, _, _ => .out
  | n + 1, t, s => visit E (de E n) t (ask E s (want t))

end De

end Verif
