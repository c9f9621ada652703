import Verif.Model.Eval
/-!
The builders of expressions and templates. A sequence of calls of builder methods is a list of steps.
-/

namespace Verif

/-- `FuncCall`, `crates/hcl-rs/src/expr/func_call.rs:62-71`. -/
structure CallB where
  name : FuncName
  args : List Expr
  expandFinal : Bool

/-- The methods of `FuncCallBuilder`, `crates/hcl-rs/src/expr/func_call.rs:105-118`. -/
inductive CallStep
  | arg (e : Expr)
  | expandFinal (yes : Bool)

/-- `FuncCall::new`, `crates/hcl-rs/src/expr/func_call.rs:75-84`, as called by `FuncCall::builder` (87-94). -/
def CallB.new (name : FuncName) : CallB := ⟨name, [], false⟩

/-- `FuncCallBuilder::arg` and `FuncCallBuilder::expand_final`,
`crates/hcl-rs/src/expr/func_call.rs:105-118`. -/
def CallB.step (b : CallB) : CallStep → CallB
  | .arg e => { b with args := b.args ++ [e] }
  | .expandFinal yes => { b with expandFinal := yes }

/-- `FuncCall::builder(name)`, the steps, and `build`, `crates/hcl-rs/src/expr/func_call.rs:87-124`. -/
def buildCall (name : FuncName) (steps : List CallStep) : Expr :=
  let b := steps.foldl CallB.step (CallB.new name)
  .call b.name b.args b.expandFinal

/-- `FuncName::new`, `crates/hcl-rs/src/expr/func_call.rs:18-23`. -/
def FuncName.new (name : Str) : FuncName := ⟨[], name⟩

/-- `FuncName::with_namespace`, `crates/hcl-rs/src/expr/func_call.rs:26-33`. -/
def FuncName.withNamespace (f : FuncName) (ns : List Str) : FuncName := { f with namespaces := ns }

/-- `FuncName::is_namespaced`, `crates/hcl-rs/src/expr/func_call.rs:36-38`. -/
def FuncName.isNamespaced (f : FuncName) : Bool := !f.namespaces.isEmpty

/-- The methods of `TraversalBuilder`, `crates/hcl-rs/src/expr/traversal.rs:68-96`. -/
inductive TravStep
  | attr (x : Str)
  | attrSplat
  | fullSplat
  | index (e : Expr)

/-- The pushes of `TraversalBuilder`, `crates/hcl-rs/src/expr/traversal.rs:68-96`. -/
def travStep (ops : List TravOp) : TravStep → List TravOp
  | .attr x => ops ++ [.getAttr x]
  | .attrSplat => ops ++ [.attrSplat]
  | .fullSplat => ops ++ [.fullSplat]
  | .index e => ops ++ [.index e]

/-- `Traversal::builder(expr)`, the steps, and `build`, `crates/hcl-rs/src/expr/traversal.rs:30-38,99-104`. -/
def buildTraversal (e : Expr) (steps : List TravStep) : Expr := .traversal e (steps.foldl travStep [])

/-- `ForExpr`, `crates/hcl-rs/src/expr/for_expr.rs:8-30`, without the fields that `ForExpr::new` sets for good. -/
structure ForB where
  keyVar : Option Str
  keyExpr : Option Expr
  grouping : Bool
  cond : Option Expr

/-- The methods of `ForExpr`, `crates/hcl-rs/src/expr/for_expr.rs:55-84`. -/
inductive ForStep
  | keyVar (k : Str)
  | keyExpr (e : Expr)
  | condExpr (e : Expr)
  | grouping (yes : Bool)

/-- `with_key_var`, `with_key_expr`, `with_cond_expr` and `with_grouping`,
`crates/hcl-rs/src/expr/for_expr.rs:55-84`. -/
def ForB.step (b : ForB) : ForStep → ForB
  | .keyVar k => { b with keyVar := some k }
  | .keyExpr e => { b with keyExpr := some e }
  | .condExpr e => { b with cond := some e }
  | .grouping yes => { b with grouping := yes }

/-- `ForExpr::new` and the steps, `crates/hcl-rs/src/expr/for_expr.rs:37-84`. -/
def buildFor (x : Str) (coll value : Expr) (steps : List ForStep) : Expr :=
  let b := steps.foldl ForB.step ⟨none, none, false, none⟩
  .forE b.keyVar x coll b.keyExpr value b.grouping b.cond

/-- The methods of `Template`, `crates/hcl-rs/src/template/mod.rs:141-171`. -/
inductive TmplStep
  | element (e : Elem)
  | literal (s : Str)
  /-- `add_interpolation` of an expression: `From<T> for Interpolation` (283-293). -/
  | interpolation (e : Expr)

/-- `add_element`, `add_literal` and `add_interpolation`, `crates/hcl-rs/src/template/mod.rs:141-163`;
`add_directive` (166-171) is `add_element` of a directive. -/
def tmplStep (els : List Elem) : TmplStep → List Elem
  | .element e => els ++ [e]
  | .literal s => els ++ [.lit s]
  | .interpolation e => els ++ [.interp e .none]

/-- `Template::new` and the steps, `crates/hcl-rs/src/template/mod.rs:110-114,141-171`. -/
def buildTemplate (steps : List TmplStep) : List Elem := steps.foldl tmplStep []

/-- `IfDirective`, `crates/hcl-rs/src/template/mod.rs:328-348`, without the fields that `IfDirective::new` sets for
good. -/
structure IfB where
  falseT : Option (List Elem)
  ifS : Strip
  elseS : Strip
  endS : Strip

/-- The methods of `IfDirective`, `crates/hcl-rs/src/template/mod.rs:370-397`. -/
inductive IfStep
  | falseTemplate (t : List Elem)
  | ifStrip (s : Strip)
  | elseStrip (s : Strip)
  | endifStrip (s : Strip)

/-- `with_false_template`, `with_if_strip`, `with_else_strip` and `with_endif_strip`,
`crates/hcl-rs/src/template/mod.rs:370-397`. -/
def IfB.step (b : IfB) : IfStep → IfB
  | .falseTemplate t => { b with falseT := some t }
  | .ifStrip s => { b with ifS := s }
  | .elseStrip s => { b with elseS := s }
  | .endifStrip s => { b with endS := s }

/-- `IfDirective::new` and the steps, `crates/hcl-rs/src/template/mod.rs:354-397`. -/
def buildIf (c : Expr) (t : List Elem) (steps : List IfStep) : Elem :=
  let b := steps.foldl IfB.step ⟨none, .none, .none, .none⟩
  .ifDir c t b.falseT b.ifS b.elseS b.endS

/-- `ForDirective`, `crates/hcl-rs/src/template/mod.rs:402-418`, without the fields that `ForDirective::new` sets for
good. -/
structure LoopB where
  keyVar : Option Str
  forS : Strip
  endS : Strip

/-- The methods of `ForDirective`, `crates/hcl-rs/src/template/mod.rs:440-457`. -/
inductive LoopStep
  | keyVar (k : Str)
  | forStrip (s : Strip)
  | endforStrip (s : Strip)

/-- `with_key_var`, `with_for_strip` and `with_endfor_strip`, `crates/hcl-rs/src/template/mod.rs:440-457`. -/
def LoopB.step (b : LoopB) : LoopStep → LoopB
  | .keyVar k => { b with keyVar := some k }
  | .forStrip s => { b with forS := s }
  | .endforStrip s => { b with endS := s }

/-- `ForDirective::new` and the steps, `crates/hcl-rs/src/template/mod.rs:424-457`. -/
def buildForDirective (x : Str) (coll : Expr) (t : List Elem) (steps : List LoopStep) : Elem :=
  let b := steps.foldl LoopB.step ⟨none, .none, .none⟩
  .forDir b.keyVar x coll t b.forS b.endS

end Verif
