import Verif.Model.EditAst
import Verif.Model.Format
/-!
Model of `crates/hcl-edit/src/util.rs` and of `Template::dedent`,
`crates/hcl-edit/src/template/mod.rs:402-437`.
-/

namespace Verif

/-- The loop of `dedent_by`, `crates/hcl-edit/src/util.rs:6-14`. -/
def dedentLines (n : Nat) : Bool → List Str → Str
  | _, [] => []
  | skip, l :: ls =>
    (if skip then l else if l.isEmpty then [] else l.drop n) ++ '\n' :: dedentLines n false ls

/-- `dedent_by`, `crates/hcl-edit/src/util.rs:3-24`. -/
def dedentBy (s : Str) (n : Nat) (skipFirst : Bool) : Str :=
  let d := dedentLines n skipFirst (strLines [] s)
  if d.getLast? = some '\n' ∧ s.getLast? ≠ some '\n' then d.dropLast else d

/-- The loop of `min_leading_whitespace`, `crates/hcl-edit/src/util.rs:35-51`; the outer `Option` is
`none` for the early `return None`. -/
def minWsLines (U : Uni) : Bool → Option Nat → List Str → Option (Option Nat)
  | _, acc, [] => some acc
  | skip, acc, l :: ls =>
    if skip || l.isEmpty then minWsLines U false acc ls
    else
      let w := (l.takeWhile U.isWs).length
      if w = 0 then none
      else minWsLines U false (some (match acc with | none => w | some a => min a w)) ls

/-- `min_leading_whitespace`, `crates/hcl-edit/src/util.rs:26-54`. -/
def minLeadingWs (U : Uni) (s : Str) (skipFirst : Bool) : Option Nat :=
  if s.isEmpty then none
  else match minWsLines U skipFirst none (strLines [] s) with
    | none => none
    | some r => r

/-- The loop of `indent_by`, `crates/hcl-edit/src/util.rs:61-73`, after the first line. -/
def indentRest (n : Nat) : List Str → Str
  | [] => []
  | l :: ls =>
    '\n' :: ((if l.isEmpty then [] else List.replicate n ' ') ++ l ++ indentRest n ls)

/-- `indent_by`, `crates/hcl-edit/src/util.rs:56-80`. -/
def indentBy (s : Str) (n : Nat) (skipFirst : Bool) : Str :=
  (match strLines [] s with
    | [] => []
    | l :: ls => (if !skipFirst && !l.isEmpty then List.replicate n ' ' else []) ++ l ++
        indentRest n ls) ++
  (if s.getLast? = some '\n' then ['\n'] else [])

/-- The first loop of `Template::dedent`, `crates/hcl-edit/src/template/mod.rs:408-420`; the outer
`Option` is `none` for the early `return None`. -/
def tmplIndent (U : Uni) : Bool → Option Nat → List EElem → Option (Option Nat)
  | _, acc, [] => some acc
  | skip, acc, .lit _ s :: rest =>
    let acc := match minLeadingWs U s skip with
      | some w => some (match acc with | none => w | some a => min a w)
      | none => acc
    tmplIndent U (s.getLast? != some '\n') acc rest
  | skip, acc, _ :: rest => if skip then tmplIndent U skip acc rest else none

/-- The second loop of `Template::dedent`, `crates/hcl-edit/src/template/mod.rs:422-433`. -/
def tmplStrip (n : Nat) : Bool → List EElem → List EElem
  | _, [] => []
  | skip, .lit sp s :: rest =>
    let d := dedentBy s n skip
    .lit sp d :: tmplStrip n (d.getLast? != some '\n') rest
  | _, e :: rest => e :: tmplStrip n true rest

/-- `Template::dedent`, `crates/hcl-edit/src/template/mod.rs:404-437`: the dedented elements and the
indent that was stripped. -/
def tmplDedent (U : Uni) (es : List EElem) : List EElem × Option Nat :=
  match tmplIndent U false none es with
  | none => (es, none)
  | some none => (es, none)
  | some (some n) => (tmplStrip n false es, some n)

end Verif
