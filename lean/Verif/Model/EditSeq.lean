import Verif.Model.EditAst
/-!
Model of the operations that change an array, `crates/hcl-edit/src/expr/array.rs:40-165`, or the arguments of a function
call, `crates/hcl-edit/src/expr/func_call.rs:106-242`. The two have the same operations on a `Vec<Expression>`, apart
from `set_expand_final`, which only the arguments have. Capacities are not modelled.
-/

namespace Verif

/-- `Array`, `crates/hcl-edit/src/expr/array.rs:32-38`, and `FuncArgs`, `crates/hcl-edit/src/expr/func_call.rs:96-103`,
without decor and span. For an array `expand` stays false. -/
structure ESeq where
  values : List EExpr := []
  trailing : Raw := .empty
  comma : Bool := false
  expand : Bool := false

/-- A call of a method that takes `&mut self`. `set` writes through `get_mut`. -/
inductive SeqOp
  | clear
  | set (i : Nat) (e : EExpr)
  | insert (i : Nat) (e : EExpr)
  | push (e : EExpr)
  | pop
  | remove (i : Nat)
  | extend (es : List EExpr)
  | setTrailing (t : Raw)
  | setComma (b : Bool)
  | setExpand (b : Bool)

namespace ESeq

/-- `extend`, `crates/hcl-edit/src/expr/array.rs:198-210`: it pushes each. -/
def pushAll (s : ESeq) : List EExpr → ESeq
  | [] => s
  | e :: es => pushAll { s with values := s.values ++ [e] } es

/-- One call: the new state and the expression it gives back, or `none` if it panics.
`crates/hcl-edit/src/expr/array.rs:70-72,84-86,95-97,105-107,111-113,125-127,151-153,163-165` and
`crates/hcl-edit/src/expr/func_call.rs:136-138,150-152,160-162,166-168,176-178,190-192,216-218,228-230,240-242`. -/
def step (s : ESeq) : SeqOp → Option (ESeq × Option EExpr)
  | .clear => some ({ s with values := [] }, none)
  | .set i e =>
    match s.values[i]? with
    | some old => some ({ s with values := s.values.set i e }, some old)
    | none => some (s, none)
  | .insert i e =>
    if i ≤ s.values.length then
      some ({ s with values := s.values.take i ++ e :: s.values.drop i }, none)
    else none
  | .push e => some ({ s with values := s.values ++ [e] }, none)
  | .pop => some ({ s with values := s.values.dropLast }, s.values.getLast?)
  | .remove i =>
    match s.values[i]? with
    | some old => some ({ s with values := s.values.take i ++ s.values.drop (i + 1) }, some old)
    | none => none
  | .extend es => some (s.pushAll es, none)
  | .setTrailing t => some ({ s with trailing := t }, none)
  | .setComma b => some ({ s with comma := b }, none)
  | .setExpand b => some ({ s with expand := b }, none)

/-- A history of calls of the methods of `crates/hcl-edit/src/expr/array.rs:40-165`: the last state and what each gave
back. -/
def run (s : ESeq) : List SeqOp → Option (ESeq × List (Option EExpr))
  | [] => some (s, [])
  | o :: os =>
    match s.step o with
    | none => none
    | some (s, r) =>
      match run s os with
      | none => none
      | some (s, rs) => some (s, r :: rs)

end ESeq
end Verif
