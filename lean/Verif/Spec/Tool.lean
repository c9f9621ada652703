import Verif.Model.Tool
/-! What `hcl2json` reads, for C81. -/

namespace Verif.Spec
open Verif Tool

/-- The entries before the first one that cannot be read. -/
def readable {α : Type} : List (Option α) → List α
  | some a :: rest => a :: readable rest
  | _ => []

/-- The files an argument stands for: itself, or the files in a directory that match, in the order of the walk, up to
the first entry that cannot be read. -/
def filesOf (w : World) (a : Args) (p : Str) : List Str :=
  if w.isDir p then
    match a.glob with
    | none => []
    | some pattern => match w.matcher p pattern with
      | none => []
      | some m => ((readable (w.walk p)).filter fun q => q.2 && m q.1).map Prod.fst
  else [p]

/-- The directory can be walked to the end. -/
def Walks (w : World) (p : Str) : Prop := none ∉ w.walk p

/-- Directories among the arguments come with a valid pattern. -/
def Globs (w : World) (a : Args) : Prop :=
  ∀ p ∈ a.paths, w.isDir p = true → ∃ pattern, a.glob = some pattern ∧ (w.matcher p pattern).isSome

/-- The file can be read as HCL, and this is its value. -/
def FileIs (L : Lib) (w : World) (a : Args) (p : Str) (v : Value) : Prop :=
  ∃ t, w.file p = some t ∧ Reads L a.simplify t v

end Verif.Spec
