import Verif.Model.Value
/-!
Model of the bulk conversion of the `hcl2json` tool, `crates/hcl2json/src/main.rs`.

The code maps over the paths with a `rayon` parallel iterator (external). Its contract as modelled
here: every item has its own slot (results of a split are concatenated left before right, so the
collection lists the slots by index); the items are processed in any order by any number of threads;
`collect::<Result<_>>()` keeps one error that was produced first in some order, and once an error is
kept the remaining items may or may not be processed. Processing a file (`process_file`, 153-159) is
a function of the path: the files do not change during the run. Reading, printing of warnings and
JSON output are not modelled.
-/

namespace Verif.Bulk

/-- What the thread pool has produced so far. -/
structure State (E β : Type) where
  /-- the kept error of `collect::<Result<_>>()` -/
  saved : Option E
  slot : Nat → Option β

/-- Something a worker thread does: process item `i`, or skip it because an error is kept. -/
inductive Event
  | process (i : Nat)
  | skip (i : Nat)

variable {P E β : Type}

/-- Processing item `i` under `collect::<Result<_>>()`, `crates/hcl2json/src/main.rs:137-141`. `none`:
not something the pool can do. -/
def stepResult (f : P → Except E β) (paths : List P) (s : State E β) : Event → Option (State E β)
  | .process i => match paths[i]? with
    | none => none
    | some p => match f p with
      | .ok b => some { s with slot := fun j => if j = i then some b else s.slot j }
      | .error e => some { s with saved := match s.saved with | some e' => some e' | none => some e }
  | .skip _ => if s.saved.isSome then some s else none

/-- Processing item `i` under `filter_map(…).collect::<Vec<_>>()`,
`crates/hcl2json/src/main.rs:125-135`. -/
def stepFilter (f : P → Except E β) (paths : List P) (s : State E β) : Event → Option (State E β)
  | .process i => match paths[i]? with
    | none => none
    | some p => match f p with
      | .ok b => some { s with slot := fun j => if j = i then some b else s.slot j }
      | .error _ => some s
  | .skip _ => none

/-- A sequence of events. -/
def runEvents {S : Type} (step : S → Event → Option S) : S → List Event → Option S
  | s, [] => some s
  | s, e :: es => match step s e with
    | none => none
    | some s' => runEvents step s' es

/-- The initial state of the pool. -/
def State.init : State E β := ⟨none, fun _ => none⟩

/-- Every item has been dealt with. -/
def Complete (n : Nat) (es : List Event) : Prop :=
  ∀ i, i < n → Event.process i ∈ es ∨ Event.skip i ∈ es

/-- The slots in index order. -/
def State.collect (s : State E β) (n : Nat) : List β := (List.range n).filterMap s.slot

/-- `bulk_convert` up to the list of results, `crates/hcl2json/src/main.rs:121-142`, when the pool
deals with the items as in `es`. `none`: `es` is not a possible run. -/
def bulk (continueOnError : Bool) (f : P → Except E β) (paths : List P) (es : List Event) :
    Option (Except E (List β)) :=
  if continueOnError then
    (runEvents (stepFilter f paths) State.init es).map fun s => .ok (s.collect paths.length)
  else
    (runEvents (stepResult f paths) State.init es).map fun s =>
      match s.saved with
      | some e => .error e
      | none => .ok (s.collect paths.length)

/-- The JSON value that is written, `crates/hcl2json/src/main.rs:144-148`. -/
def output (filePaths : Bool) (results : List (Str × Value)) : Value :=
  if filePaths then .object (Map.collect results) else .array (results.map Prod.snd)

end Verif.Bulk
