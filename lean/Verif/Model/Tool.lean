import Verif.Model.Bulk
import Verif.Model.EditParse
import Verif.Model.Convert
import Verif.Spec.De
import Verif.Spec.Eval
/-!
Model of the `hcl2json` tool, `crates/hcl2json/src/main.rs`, on top of the models of the parser, of in-place evaluation,
of deserialization and of the parallel map (`Model/Bulk.lean`).

The file system, `walkdir` and `globset` (external) are functions: they do not change during the run. Paths are their
text. `serde_json::Value` (external, with `preserve_order`) is deserialized like the crate's `Value`: by
`deserialize_any`, with strings as keys. The JSON text, warnings and the texts of errors are not modelled.
-/

namespace Verif.Tool
open Bulk

/-- `Args`, `crates/hcl2json/src/main.rs:18-60`, without `pretty`. -/
structure Args where
  glob : Option Str
  filePaths : Bool
  continueOnError : Bool
  simplify : Bool
  paths : List Str

/-- Why the tool fails. -/
inductive Fault
  /-- `--glob is required if directory arguments are specified`, 86 -/
  | globRequired
  /-- the pattern is not valid, 91-94 -/
  | pattern
  /-- a directory cannot be walked, 96-99 -/
  | walk
  /-- a file cannot be opened or read, or is not UTF-8 -/
  | io
  /-- the text is not HCL or cannot be deserialized -/
  | hcl
deriving DecidableEq

/-- What the tool finds around it. -/
structure World where
  /-- `Path::is_dir` -/
  isDir : Str → Bool
  /-- the text of a file, if it can be read -/
  file : Str → Option Str
  stdin : Option Str
  /-- what the pattern joined to the directory matches, if it is valid -/
  matcher : (dir pattern : Str) → Option (Str → Bool)
  /-- the entries of a directory, sorted by file name, with `Path::is_file`; `none` is an entry that cannot be read -/
  walk : Str → List (Option (Str × Bool))

/-- What the libraries do, see the models of the parser, the formatter and the evaluator. -/
structure Lib where
  E : FmtEnv
  build : Build
  env : Env

/-- `read_hcl`, `crates/hcl2json/src/main.rs:161-176`, returns `Ok(v)` for a text, with `from_reader`
(`crates/hcl-rs/src/de/mod.rs:142-151`) and `from_body` (209-214). The errors of in-place evaluation are ignored. -/
def Reads (L : Lib) (simplify : Bool) (text : Str) (v : Value) : Prop :=
  ∃ b, parseBody ⟨L.E.U, L.build⟩ text = .ok b ∧
    if simplify then
      ∃ b' errs, inPlaceBody ⟨eval L.env, evalTmpl L.env⟩ Ctx.new (toHclBody L.E b) = .ok (b', errs) ∧
        Spec.Deserializes L.E .value (.doc b') (.value v)
    else Spec.Deserializes L.E .value (.doc (toHclBody L.E b)) (.value v)

open Classical in
/-- `read_hcl`, `crates/hcl2json/src/main.rs:161-176`. A panic is not told apart from an error. -/
noncomputable def readHcl (L : Lib) (a : Args) (text : Option Str) : Except Fault Value :=
  match text with
  | none => .error .io
  | some t => if h : ∃ v, Reads L a.simplify t v then .ok h.choose else .error .hcl

/-- `process_file`, `crates/hcl2json/src/main.rs:153-159`. -/
noncomputable def processFile (L : Lib) (w : World) (a : Args) (path : Str) : Except Fault (Str × Value) :=
  match readHcl L a (w.file path) with
  | .ok v => .ok (path, v)
  | .error e => .error e

/-- `glob_files`, `crates/hcl2json/src/main.rs:189-199`: the paths so far, and whether it returns `Ok`. -/
def globFiles (m : Str → Bool) : List (Option (Str × Bool)) → List Str → List Str × Bool
  | [], paths => (paths, true)
  | none :: _, paths => (paths, false)
  | some (p, isFile) :: rest, paths => globFiles m rest (if isFile && m p then paths ++ [p] else paths)

/-- The loop of `main` over the arguments, `crates/hcl2json/src/main.rs:82-110`. -/
def gather (w : World) (a : Args) : List Str → List Str → Except Fault (List Str)
  | [], paths => .ok paths
  | p :: ps, paths =>
    if w.isDir p then
      match a.glob with
      | none => .error .globRequired
      | some pattern =>
        match w.matcher p pattern with
        | none => .error .pattern
        | some m =>
          let r := globFiles m (w.walk p) paths
          if r.2 || a.continueOnError then gather w a ps r.1 else .error .walk
    else gather w a ps (paths ++ [p])

/-- `bulk_convert`, `crates/hcl2json/src/main.rs:121-151`, up to writing the value. -/
noncomputable def bulkConvert (L : Lib) (w : World) (a : Args) (paths : List Str) (es : List Event) :
    Option (Except Fault Value) :=
  (bulk a.continueOnError (processFile L w a) paths es).map fun
    | .ok rs => .ok (output a.filePaths rs)
    | .error e => .error e

/-- `main`, `crates/hcl2json/src/main.rs:62-113`: the value that is written, when the thread pool deals with the files
as in `es`. `none`: `es` is not a possible run. -/
noncomputable def run (L : Lib) (w : World) (a : Args) (es : List Event) : Option (Except Fault Value) :=
  let many := match gather w a a.paths [] with
    | .ok paths => bulkConvert L w a paths es
    | .error e => some (.error e)
  match a.paths with
  | [] => some (readHcl L a w.stdin)
  | [p] =>
    if p = c!"-" then some (readHcl L a w.stdin)
    else if w.isDir p then many
    else some (readHcl L a (w.file p))
  | _ => many

end Verif.Tool
