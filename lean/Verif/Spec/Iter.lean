import Verif.Model.Iter
/-! What iterators give out and builders build (C72). -/

namespace Verif.Spec

/-- A row of things that are taken from the front (`false`) or from the back (`true`). -/
def taken {β : Type} : List Bool → List β → List (Option β)
  | [], _ => []
  | false :: cs, l => l.head? :: taken cs l.tail
  | true :: cs, l => l.getLast? :: taken cs l.dropLast

/-- The end that a call takes from. -/
def direction : Iter.Call → Option Bool
  | .next => some false
  | .nextBack => some true
  | .len => none

/-- What a call that takes something returns. -/
def given {β : Type} : Iter.Ret β → Option (Option β)
  | .item x => some x
  | .len _ => none

/-- The attributes of a body, in order. -/
def attrRow : List Struct → List (Str × Expr)
  | [] => []
  | .attr k e :: ss => (k, e) :: attrRow ss
  | .block _ _ _ :: ss => attrRow ss

/-- The blocks of a body, in order. -/
def blockRow : List Struct → List (Str × List Label × List Struct)
  | [] => []
  | .attr _ _ :: ss => blockRow ss
  | .block i ls b :: ss => (i, ls, b) :: blockRow ss

/-- The structures that a call of a builder adds. -/
def added : Iter.BCall → List Struct
  | .label _ | .labels _ => []
  | .attribute k e => [.attr k e]
  | .attributes as => as.map fun a => .attr a.1 a.2
  | .block i ls b => [.block i ls b]
  | .blocks bs => bs.map fun b => .block b.1 b.2.1 b.2.2
  | .structure s => [s]
  | .structures ss => ss

/-- The labels that a call of a builder adds. -/
def addedLabels : Iter.BCall → List Label
  | .label l => [l]
  | .labels ls => ls
  | _ => []

end Verif.Spec
