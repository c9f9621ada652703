import Verif.Model.EvalLoc
import Verif.Model.Format
/-!
Model of the messages of evaluation errors, `crates/hcl-rs/src/eval/error.rs` and
`crates/hcl-rs/src/eval/func.rs`. `Verif.Model.Eval` keeps the errors of a function call as structured data; here
is the text that the code makes of them.
-/

namespace Verif

mutual
/-- `Display for ParamType`, `crates/hcl-rs/src/eval/func.rs:85-112`. -/
def ParamType.display : ParamType → Str
  | .any => c!"`any`"
  | .bool => c!"`bool`"
  | .number => c!"`number`"
  | .string => c!"`string`"
  | .array t => c!"`array(" ++ t.display ++ c!")`"
  | .object t => c!"`object(" ++ t.display ++ c!")`"
  | .nullable t => c!"`nullable(" ++ t.display ++ c!")`"
  | .oneOf [] => c!"`any`"
  | .oneOf (t :: ts) => t.display ++ ParamType.displayMore ts
/-- The alternatives after the first, `crates/hcl-rs/src/eval/func.rs:98-108`: the last one after `or`, the others
after a comma. -/
def ParamType.displayMore : List ParamType → Str
  | [] => []
  | [t] => c!" or " ++ t.display
  | t :: ts => c!", " ++ t.display ++ ParamType.displayMore ts
end

/-- `Display for Value`, `crates/hcl-rs/src/value/mod.rs:203-209`, with `format::to_string`
(`crates/hcl-rs/src/format/mod.rs:743-751`), which uses the default formatter. -/
def Value.display (E : FmtEnv) (v : Value) : Str := (Fmt.value E v (Fmt.new .default)).out

/-- `Display for Expression`, `crates/hcl-rs/src/expr/mod.rs:279-286`. -/
def Expr.display (E : FmtEnv) (e : Expr) : Str := (Fmt.expr E e (Fmt.new .default)).out

/-- `Display for FuncName`, `crates/hcl-rs/src/expr/func_call.rs:53-59`. -/
def FuncName.display (n : FuncName) : Str := (Fmt.funcName n (Fmt.new .default)).out

/-- The messages of `FuncDef::call`, `crates/hcl-rs/src/eval/func.rs:214-241`; a message of the function itself is
passed on. -/
def CallErr.display (E : FmtEnv) : CallErr → Str
  | .arity params args => c!"expected " ++ natStr params ++ c!" positional arguments, got " ++ natStr args
  | .argType pos t v => c!"expected argument at position " ++ natStr pos ++ c!" to be of type " ++ t.display ++
      c!", got `" ++ v.display E ++ c!"`"
  | .varArgType pos t v => c!"expected variadic argument at position " ++ natStr pos ++ c!" to be of type " ++
      t.display ++ c!", got `" ++ v.display E ++ c!"`"
  | .user msg => msg

/-- `Display for ErrorKind`, `crates/hcl-rs/src/eval/error.rs:234-263`. -/
def EvalErr.display (E : FmtEnv) : EvalErr → Str
  | .message s => s
  | .undefinedVar x => c!"undefined variable `" ++ x ++ c!"`"
  | .undefinedFunc f => c!"undefined function `" ++ f.display ++ c!"`"
  | .unexpected v expected => c!"unexpected value `" ++ v.display E ++ c!"`, expected " ++ expected
  | .index i => c!"index out of bounds: " ++ natStr i
  | .noSuchKey k => c!"no such key: `" ++ k ++ c!"`"
  | .keyExists k => c!"key `" ++ k ++ c!"` already exists"
  | .unaryOp op v => c!"unary operator `" ++ op.asStr ++ c!"` is not applicable to `" ++ v.display E ++ c!"`"
  | .binaryOp l op r => c!"binary operator `" ++ op.asStr ++ c!"` is not applicable to `" ++ l.display E ++
      c!"` and `" ++ r.display E ++ c!"`"
  | .funcCall f e => c!"error calling function `" ++ f.display ++ c!"`: " ++ e.display E

/-- `Display for ErrorInner`, `crates/hcl-rs/src/eval/error.rs:177-187`: the kind and the expression. -/
def errorDisplay (E : FmtEnv) (kind : EvalErr) (expr : Option Expr) : Str :=
  kind.display E ++ match expr with
    | some e => c!" in expression `" ++ e.display E ++ c!"`"
    | none => []

/-- `Display for Errors`, `crates/hcl-rs/src/eval/error.rs:53-67`. -/
def errorsDisplay (E : FmtEnv) (es : List (EvalErr × Option Expr)) : Str :=
  match es with
  | [e] => errorDisplay E e.1 e.2
  | _ => natStr es.length ++ c!" errors occurred:\n" ++
      (es.map fun e => c!"- " ++ errorDisplay E e.1 e.2 ++ c!"\n").flatten

end Verif
