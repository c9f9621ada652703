import Verif.Model.Eval
/-! Defining functions and reading their arguments, `crates/hcl-rs/src/eval/func.rs:182-440`. -/

namespace Verif

/-- `FuncArgs`, `crates/hcl-rs/src/eval/func.rs:359-363`. -/
structure FuncArgs where
  values : List Value
  posArgsLen : Nat

/-- `FuncArgs::into_values` and the values behind `Deref`, `crates/hcl-rs/src/eval/func.rs:374-376` and 393-399. -/
def FuncArgs.intoValues (a : FuncArgs) : List Value := a.values

/-- `FuncArgs::positional_args`, `crates/hcl-rs/src/eval/func.rs:379-383`. The iterator (407-418) is the list of what it
yields. -/
def FuncArgs.positionalArgs (a : FuncArgs) : List Value := a.values.take a.posArgsLen

/-- `FuncArgs::variadic_args`, `crates/hcl-rs/src/eval/func.rs:386-390`. The iterator (426-437) is the list of what it
yields. -/
def FuncArgs.variadicArgs (a : FuncArgs) : List Value := a.values.drop a.posArgsLen

/-- `FuncDefBuilder`, `crates/hcl-rs/src/eval/func.rs:257-260`. -/
structure FuncDefBuilder where
  params : List ParamType
  variadicParam : Option ParamType

/-- `FuncDef::builder`, `crates/hcl-rs/src/eval/func.rs:202-207`. -/
def FuncDef.builder : FuncDefBuilder := ⟨[], none⟩

/-- `FuncDefBuilder::param`, `crates/hcl-rs/src/eval/func.rs:282-285`. -/
def FuncDefBuilder.param (b : FuncDefBuilder) (t : ParamType) : FuncDefBuilder := { b with params := b.params ++ [t] }

/-- `FuncDefBuilder::params`, `crates/hcl-rs/src/eval/func.rs:310-316`. -/
def FuncDefBuilder.addParams (b : FuncDefBuilder) (ts : List ParamType) : FuncDefBuilder :=
  { b with params := b.params ++ ts }

/-- `FuncDefBuilder::variadic_param`, `crates/hcl-rs/src/eval/func.rs:336-339`. -/
def FuncDefBuilder.variadic (b : FuncDefBuilder) (t : ParamType) : FuncDefBuilder := { b with variadicParam := some t }

/-- `FuncDefBuilder::build`, `crates/hcl-rs/src/eval/func.rs:343-349`. The function of a `FuncDef` takes the values in the
model; the `FuncArgs` that `FuncDef::call` makes of them (`func.rs:243-245`) are made here. -/
def FuncDefBuilder.build (b : FuncDefBuilder) (func : FuncArgs → Except Str Value) : FuncDef :=
  ⟨fun values => func ⟨values, b.params.length⟩, b.params, b.variadicParam⟩

/-- `FuncDef::new`, `crates/hcl-rs/src/eval/func.rs:192-197`. -/
def FuncDef.new (func : FuncArgs → Except Str Value) (params : List ParamType) : FuncDef :=
  (FuncDef.builder.addParams params).build func

end Verif
