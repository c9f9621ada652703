import Verif.Lemmas.Rename
import Verif.Props.EvalScope
/-!
C91: the names of loop variables, and of the variables a caller declares, do not matter.
-/

namespace Verif.Props
open Spec

/-- C91: a caller can declare a variable by another name, if the expression uses the other name and did not before.
Results and errors are the same. -/
theorem C91_declared (env : Env) (c : Ctx) (x y : Str) (v : Value) (e e' : Expr) (h : Renamed env x y e e') :
    eval env (c.declareVar y v) e' = eval env (c.declareVar x v) e :=
  renamed_kept h _ _ (knows_declare x y c v)

/-- C91: the same for the elements of a template. -/
theorem C91_declared_text (env : Env) (c : Ctx) (x y : Str) (v : Value) (els els' : List Elem) (a b : Strip)
    (h : RenamedText env x y els els') :
    evalTmpl env (c.declareVar y v) els' a b = evalTmpl env (c.declareVar x v) els a b :=
  (renamedText_kept h).text _ _ (knows_declare x y c v) a b

/-- C91: the same for all attributes of a body and of the blocks in it. -/
theorem C91_declared_body (env : Env) (c : Ctx) (x y : Str) (v : Value) (body body' : List Struct)
    (h : SameShape (Renamed env x y) body body') :
    evalBody (evalRec env) (c.declareVar y v) body' = evalBody (evalRec env) (c.declareVar x v) body :=
  evalBody_kept (knows_declare x y c v) body body' h

/-- C91: `[for x in coll : …]` and `{for k, x in coll : … => …}` can use another name for the variable that holds the
elements. The collection is outside of the loop and keeps its names, even if `x` or `y` are among them. The key
variable can have any name. -/
theorem C91_value_variable (env : Env) (c : Ctx) (k : Option Str) (x y : Str) (coll ve ve' : Expr)
    (ke ke' ce ce' : Option Expr) (g : Bool) (hk : RenamedOpt env x y ke ke') (hv : Renamed env x y ve ve')
    (hc : RenamedOpt env x y ce ce') :
    eval env c (.forE k y coll ke' ve' g ce') = eval env c (.forE k x coll ke ve g ce) := by
  rw [eval_for, eval_for]
  exact for_kept (knows_value x y c k) (renamedOpt_kept hk) (renamed_kept hv) (renamedOpt_kept hc) coll coll rfl

/-- C91: the same for the variable that holds the keys. -/
theorem C91_key_variable (env : Env) (c : Ctx) (x y v : Str) (coll ve ve' : Expr) (ke ke' ce ce' : Option Expr)
    (g : Bool) (hx : v ≠ x) (hy : v ≠ y) (hk : RenamedOpt env x y ke ke') (hv : Renamed env x y ve ve')
    (hc : RenamedOpt env x y ce ce') :
    eval env c (.forE (some y) v coll ke' ve' g ce') = eval env c (.forE (some x) v coll ke ve g ce) := by
  rw [eval_for, eval_for]
  exact for_kept (knows_key hx hy c) (renamedOpt_kept hk) (renamed_kept hv) (renamedOpt_kept hc) coll coll rfl

/-- C91: every loop without templates in which `y` does not appear, and whose inner loops have other variables, can use
`y` for `x`. -/
theorem C91_any_new_name (env : Env) (c : Ctx) (k : Option Str) (x y : Str) (coll ve : Expr) (ke ce : Option Expr)
    (g : Bool) (hk : CanRenameOpt x y ke) (hv : CanRename x y ve) (hc : CanRenameOpt x y ce) :
    eval env c (.forE k y coll (renameOpt x y ke) (renameVar x y ve) g (renameOpt x y ce)) =
      eval env c (.forE k x coll ke ve g ce) :=
  C91_value_variable env c k x y coll ve _ ke _ ce _ g (renamed_opt ke hk) (renamed_renameVar ve hv) (renamed_opt ce hc)

/-- C91: the same for `%{ for x in coll }…%{ endfor }` in a template. -/
theorem C91_directive_value_variable (env : Env) (c : Ctx) (k : Option Str) (x y : Str) (coll : Expr)
    (t t' rest : List Elem) (m₁ m₂ a b : Strip) (h : RenamedText env x y t t') :
    evalTmpl env c (.forDir k y coll t' m₁ m₂ :: rest) a b = evalTmpl env c (.forDir k x coll t m₁ m₂ :: rest) a b :=
  directive_kept (knows_value x y c k) (renamedText_kept h) coll m₁ m₂ rest a b

/-- C91: and for the key variable of a directive. -/
theorem C91_directive_key_variable (env : Env) (c : Ctx) (x y v : Str) (coll : Expr) (t t' rest : List Elem)
    (m₁ m₂ a b : Strip) (hx : v ≠ x) (hy : v ≠ y) (h : RenamedText env x y t t') :
    evalTmpl env c (.forDir (some y) v coll t' m₁ m₂ :: rest) a b =
      evalTmpl env c (.forDir (some x) v coll t m₁ m₂ :: rest) a b :=
  directive_kept (knows_key hx hy c) (renamedText_kept h) coll m₁ m₂ rest a b

/-- C91: the other name must be a new one: `[for x in [null] : y]` is not `[for y in [null] : y]`. -/
theorem C91_new_name : ∃ (env : Env) (c : Ctx),
    eval env c (.forE none c!"x" (.array [.null]) none (.var c!"y") false none) = .ok (.array [.bool true]) ∧
    eval env c (.forE none c!"y" (.array [.null]) none (.var c!"y") false none) = .ok (.array [.null]) := by
  refine ⟨exEnv, Ctx.declareVar c!"y" (.bool true) Ctx.new, ?_, ?_⟩
  · exact eval_of_evalF 5 rfl (by simp)
  · exact eval_of_evalF 5 rfl (by simp)

/-- C91: and the key variable cannot take the name of the value variable: `[for k, v in [true] : k]` is not
`[for v, v in [true] : v]`. -/
theorem C91_two_names : ∃ (env : Env) (c : Ctx),
    eval env c (.forE (some c!"k") c!"v" (.array [.bool true]) none (.var c!"k") false none) =
      .ok (.array [.number (.posInt 0)]) ∧
    eval env c (.forE (some c!"v") c!"v" (.array [.bool true]) none (.var c!"v") false none) =
      .ok (.array [.bool true]) := by
  refine ⟨exEnv, Ctx.new, ?_, ?_⟩
  · exact eval_of_evalF 5 rfl (by simp)
  · exact eval_of_evalF 5 rfl (by simp)

/-- `{ (x) = f(z, x[x].x), x = [for w in x : w + x] }` with `y` for `x`. -/
example (env : Env) (f : FuncName) : Renamed env c!"x" c!"y"
    (.object [(.expr (.var c!"x"),
        .call f [.var c!"z", .traversal (.var c!"x") [.index (.var c!"x"), .getAttr c!"x"]] false),
      (.ident c!"x", .forE none c!"w" (.var c!"x") none (.binary (.var c!"w") .plus (.var c!"x")) false none)])
    (.object [(.expr (.var c!"y"),
        .call f [.var c!"z", .traversal (.var c!"y") [.index (.var c!"y"), .getAttr c!"x"]] false),
      (.ident c!"x", .forE none c!"w" (.var c!"y") none (.binary (.var c!"w") .plus (.var c!"y")) false none)]) :=
  .object (.expr .this (.call (.cons (.other (by decide) (by decide))
      (.cons (.traversal .this (.index .this (.other (fun _ h => by cases h) .nil))) .nil)))
    (.ident (.forE (by decide) (by decide) (by decide) (by decide) .this .none
      (.binary (.other (by decide) (by decide)) .this) .none) .nil))
/-- `x + f(x)` can have `y` for `x`. -/
example (f : FuncName) : CanRename c!"x" c!"y" (.binary (.var c!"x") .plus (.call f [.var c!"x"] false)) := by
  simp [CanRename, CanRenameAll]
/-- `"${x}"` with `y` for `x`. -/
example : Renamed { exEnv with
    parseTemplate s := if s = c!"${x}" then .ok [.interp (.var c!"x") .none] else .ok [.interp (.var c!"y") .none] }
    c!"x" c!"y" (.template (.quoted c!"${x}")) (.template (.quoted c!"${y}")) :=
  .template rfl rfl (.interp .this .nil)
/-- `a${x}%{ if x }b%{ endif }` with `y` for `x`. -/
example (env : Env) : RenamedText env c!"x" c!"y"
    [.lit c!"a", .interp (.var c!"x") .none, .ifDir (.var c!"x") [.lit c!"b"] none .none .none .none]
    [.lit c!"a", .interp (.var c!"y") .none, .ifDir (.var c!"y") [.lit c!"b"] none .none .none .none] :=
  .lit (.interp .this (.ifDir .this (.lit .nil) .nil))
/-- `a = x`, `b { c = z }` with `y` for `x`. -/
example (env : Env) : SameShape (Renamed env c!"x" c!"y")
    [.attr c!"a" (.var c!"x"), .block c!"b" [] [.attr c!"c" (.var c!"z")]]
    [.attr c!"a" (.var c!"y"), .block c!"b" [] [.attr c!"c" (.var c!"z")]] :=
  .cons (.attr .this) (.cons (.block (.cons (.attr (.other (by decide) (by decide))) .nil)) .nil)

end Verif.Props
