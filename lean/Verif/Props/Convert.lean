import Verif.Lemmas.Convert
/-!
C27: conversion between the trees of `hcl-rs` and `hcl-edit`. C28: conversion between values and
expressions.
-/

namespace Verif.Props
open Verif.Spec Gram

variable {P : PEnv} {E : FmtEnv}

/-! ### C27 -/

/-- Converting an expression to `hcl-edit` and back returns it. Missing from the full claim, which is
false (see below): template texts that are not reprinted verbatim, heredocs with a strip mode, and
objects with keys that `hcl-edit` takes for equal. -/
theorem C27_expr_partial {e : Expr} (h : Lossless P E e) : toHcl E (toEdit P e) = e :=
  toHcl_toEdit e h

/-- The same for templates. -/
theorem C27_template_partial {es : List Elem} (h : ∀ e ∈ es, LosslessElem P E e) :
    toHclElems E (toEditElems P es) = es :=
  toHclElems_toEditElems es h

/-- The same for bodies. -/
theorem C27_body_partial {b : List Struct} (h : ∀ s ∈ b, LosslessStruct P E s) :
    toHclBody E (toEditBody P b) = b :=
  toHclStructs_toEditStructs b h

/-- Object keys that are identifiers or expressions without templates, calls and objects stay
different when they are converted. -/
theorem C27_plain_keys {es : List (ObjKey × Expr)} (hp : ∀ e ∈ es, PlainKey e.1)
    (h : KeysDiffer es) : EditKeysDiffer P es :=
  editKeysDiffer_of_plain hp h

/-- The environment of the examples. -/
private def P0 : PEnv := ⟨Uni.ascii, .release⟩
/-- The environment of the examples. -/
private def E0 : FmtEnv := ⟨Uni.ascii, fun _ => []⟩

/-- `"a ${ b } $${c}"` is reprinted. -/
private theorem reprints0 : Reprints P0 E0 c!"a ${ b } $${c}" := ⟨_, rfl, rfl⟩

/-- `{ a = [f("a ${ b } $${c}"...)], (1 + b.c[0]) = <<EOT … }` meets the hypothesis. -/
example : Lossless P0 E0 (.object
    [(.ident c!"a", .array [.call ⟨[], c!"f"⟩ [.template (.quoted c!"a ${ b } $${c}")] true]),
     (.expr (.paren (.binary (.number (.posInt 1)) .plus
        (.traversal (.var c!"b") [.getAttr c!"c", .index (.number (.posInt 0))]))),
      .template (.heredoc c!"EOT" c!"a ${ b } $${c}" .none))]) := by
  have hk : KeysDiffer
    [(.ident c!"a", .array [.call ⟨[], c!"f"⟩ [.template (.quoted c!"a ${ b } $${c}")] true]),
     (.expr (.paren (.binary (.number (.posInt 1)) .plus
        (.traversal (.var c!"b") [.getAttr c!"c", .index (.number (.posInt 0))]))),
      .template (.heredoc c!"EOT" c!"a ${ b } $${c}" .none))] := by
    refine .cons ?_ (.cons (fun _ h => nomatch h) .nil)
    intro x hx
    rcases List.mem_singleton.1 hx with rfl
    rfl
  have hp : Plain (.paren (.binary (.number (.posInt 1)) .plus
        (.traversal (.var c!"b") [.getAttr c!"c", .index (.number (.posInt 0))]))) := by
    refine .paren (.binary (.number _) (.traversal (.var _) ?_))
    intro o ho
    simp only [List.mem_cons, List.not_mem_nil, or_false] at ho
    rcases ho with rfl | rfl
    · exact .getAttr _
    · exact .index (.number _)
  refine .object ?_ ?_ hk (C27_plain_keys ?_ hk)
  · intro e he
    simp only [List.mem_cons, List.not_mem_nil, or_false] at he
    rcases he with rfl | rfl
    · exact .ident _
    · refine .expr (.paren (.binary (.number _) (.traversal (.var _) ?_)))
      intro o ho
      simp only [List.mem_cons, List.not_mem_nil, or_false] at ho
      rcases ho with rfl | rfl
      · exact .getAttr _
      · exact .index (.number _)
  · intro e he
    simp only [List.mem_cons, List.not_mem_nil, or_false] at he
    rcases he with rfl | rfl
    · refine .array fun x hx => ?_
      rcases List.mem_singleton.1 hx with rfl
      refine .call fun x hx => ?_
      rcases List.mem_singleton.1 hx with rfl
      exact .quoted reprints0
    · exact .heredoc reprints0
  · intro e he
    simp only [List.mem_cons, List.not_mem_nil, or_false] at he
    rcases he with rfl | rfl
    · trivial
    · exact hp

/-- An `if` directive with `else` inside a `for` directive meets the hypothesis. -/
example : ∀ e ∈ [Elem.lit c!"x", .forDir none c!"v" (.var c!"l")
      [.ifDir (.var c!"v") [.interp (.var c!"v") .both] (some [.lit c!"no"]) .none .both .start]
      .none .none], LosslessElem P E e := by
  intro e he
  simp only [List.mem_cons, List.not_mem_nil, or_false] at he
  rcases he with rfl | rfl
  · exact .lit _
  · refine .forDir (.var _) fun x hx => ?_
    rcases List.mem_singleton.1 hx with rfl
    refine .ifElse (.var _) (fun x hx => ?_) fun x hx => ?_
    · rcases List.mem_singleton.1 hx with rfl
      exact .interp (.var _)
    · rcases List.mem_singleton.1 hx with rfl
      exact .lit _

/-- A block with labels and a nested attribute meets the hypothesis. -/
example : ∀ s ∈ [Struct.block c!"b" [.ident c!"l", .string c!"m n"] [.attr c!"k" (.bool true)]],
    LosslessStruct P E s := by
  intro s hs
  rcases List.mem_singleton.1 hs with rfl
  refine .block fun x hx => ?_
  rcases List.mem_singleton.1 hx with rfl
  exact .attr (.bool _)

/-- The strip mode of a heredoc is lost, whatever its text: C27 is false as stated. -/
theorem C27_strip_mode_lost (d t : Str) :
    ∃ t', toHcl E (toEdit P (.template (.heredoc d t .indent))) = .template (.heredoc d t' .none) :=
  ⟨_, rfl⟩

/-- Hence the expression is changed. -/
theorem C27_strip_mode_fails (d t : Str) :
    toHcl E (toEdit P (.template (.heredoc d t .indent))) ≠ .template (.heredoc d t .indent) := by
  obtain ⟨t', h⟩ := C27_strip_mode_lost (P := P) (E := E) d t
  rw [h]
  simp

/-- A template text that does not parse is lost: the conversion yields the empty template. -/
theorem C27_unparsed_lost {s : Str} (h : (parseTemplate P s).isOk = false) :
    toHcl E (toEdit P (.template (.quoted s))) = .template (.quoted []) := by
  have : templateOrDefault P s = [] := by
    unfold templateOrDefault
    cases hp : parseTemplate P s <;> first | rfl | (rw [hp] at h; cases h)
  rw [toEdit, toHcl, this]
  rfl

/-- `"${a"` is such a text. -/
example : (parseTemplate P0 c!"${a").isOk = false := by decide +kernel

/-- `{ f(x...) = 1, f(x) = 2 }` loses an entry: `hcl-rs` takes the keys for different, `hcl-edit`
takes them for equal. -/
theorem C27_entry_lost : KeysDiffer
      [(.expr (.call ⟨[], c!"f"⟩ [.var c!"x"] true), .number (.posInt 1)),
       (.expr (.call ⟨[], c!"f"⟩ [.var c!"x"] false), .number (.posInt 2))] ∧
    toHcl E (toEdit P (.object
      [(.expr (.call ⟨[], c!"f"⟩ [.var c!"x"] true), .number (.posInt 1)),
       (.expr (.call ⟨[], c!"f"⟩ [.var c!"x"] false), .number (.posInt 2))])) =
    .object [(.expr (.call ⟨[], c!"f"⟩ [.var c!"x"] true), .number (.posInt 2))] := by
  constructor
  · refine .cons ?_ (.cons (fun _ h => nomatch h) .nil)
    intro x hx
    rcases List.mem_singleton.1 hx with rfl
    rfl
  · rfl

/-- The strip mode for an `else` that is not there is lost. -/
theorem C27_else_strip_lost (c : Expr) (t : List Elem) (a b z : Strip) (hb : b ≠ .none) :
    toHclElems E (toEditElems P [.ifDir c t none a b z]) ≠ [.ifDir c t none a b z] := by
  intro h
  simp only [toEditElems, toEditElem, toEditElse, toHclElems, toHclElem, elseStrip, List.cons.injEq,
    Elem.ifDir.injEq] at h
  exact hb h.1.2.2.2.2.1.symm

/-! ### C28 -/

/-- Converting a value to an expression and back returns it. -/
theorem C28_roundtrip {v : Value} (h : v.WF) : toValue E (ofValue v) = v := toValue_ofValue v h

/-- Evaluating the expression form of a value yields the value, in every context. -/
theorem C28_eval {env : Env} {c : Ctx} {v : Value} (h : v.WF) : eval env c (ofValue v) = .ok v :=
  eval_ofValue v h

/-- A nested value meets the hypothesis. -/
example : (Value.object [(c!"a", .array [.null, .string c!"${x}", .number (.negInt (-1))]),
    (c!"for", .object [])]).WF := by
  simp [Value.WF, Value.WFList, Value.WFObj]

end Verif.Props
