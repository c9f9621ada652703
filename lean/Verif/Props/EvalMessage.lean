import Verif.Lemmas.EvalMessage
import Verif.Props.EvalFunc
import Verif.Props.Roundtrip
/-! C85: the messages of evaluation errors tell the errors apart.

`Spec/EvalMessage.lean` says for which errors and what it means that two errors are the same. -/

namespace Verif.Props
open Spec Gram Syn

/-- C85: two errors with the same message are the same error, in expressions with the same text. Missing: errors with
text from elsewhere, see `Definite`. -/
theorem C85_message_partial (E : FmtEnv) {k k' : EvalErr} (hk : Definite E k) (hk' : Definite E k')
    (e e' : Option Expr) (h : errorDisplay E k e = errorDisplay E k' e') :
    SameError k k' ∧ e.map (Expr.display E) = e'.map (Expr.display E) := by
  have behind : ∀ e : Option Expr, Behind (match e with
      | some e => c!" in expression `" ++ e.display E ++ c!"`"
      | none => []) := by
    intro e
    cases e with
    | none => exact .inl rfl
    | some e => exact .inr ⟨e.display E ++ c!"`", by simp [List.append_assoc]⟩
  obtain ⟨h1, h2⟩ := kind_uniq hk hk' (behind e) (behind e') h
  refine ⟨h1, ?_⟩
  cases e <;> cases e' <;> simp at h2 ⊢
  exact h2

/-- C85: so are the expressions, if their text can be read back (C51). -/
theorem C85_expression_partial (E : FmtEnv) {k k' : EvalErr} (hk : Definite E k) (hk' : Definite E k')
    (e e' : Expr) (he : Printable E .release .default false e) (he' : Printable E .release .default false e')
    (h : errorDisplay E k (some e) = errorDisplay E k' (some e')) : SameError k k' ∧ e = e' := by
  obtain ⟨h1, h2⟩ := C85_message_partial E hk hk' _ _ h
  refine ⟨h1, ?_⟩
  have hi : Syn.Gap false FmtCfg.default.indent := .blank (.inl rfl) (.blank (.inl rfl) .nil)
  obtain ⟨v, h3, -, h4⟩ := C51_expr_partial E .release .default false hi e he
  obtain ⟨v', h3', -, h4'⟩ := C51_expr_partial E .release .default false hi e' he'
  have h5 : formatExpr E .default e = formatExpr E .default e' := by injection h2
  rw [h5, h3'] at h3
  injection h3 with h3
  rw [← h4 E (printable_noTemplate _ he), ← h4' E (printable_noTemplate _ he'), h3]

/-- C85: two parameter types that are named alike in a message allow the same values. -/
theorem C85_types (t t' : ParamType) (h : t.display = t'.display) : ∀ v, InType t v ↔ InType t' v :=
  (display_uniq (r := []) (r' := []) (by rw [h]) (by rintro sep (rfl | rfl) u h <;> cases h)
    (by rintro sep (rfl | rfl) u h <;> cases h)).1

/-- C85: and functions accept the same arguments for them. Missing: `OneOf` without alternatives. -/
theorem C85_arguments_partial (t t' : ParamType) (ht : NoEmptyOneOf t) (ht' : NoEmptyOneOf t')
    (h : t.display = t'.display) (v : Value) : t.satisfiedBy v = t'.satisfiedBy v := by
  rw [Bool.eq_iff_iff, satisfiedBy_iff t v ht, satisfiedBy_iff t' v ht']
  exact C85_types t t' h v

/-- C85: the message of several errors starts with their number. -/
theorem C85_number (E : FmtEnv) {es es' : List (EvalErr × Option Expr)} (h1 : es.length ≠ 1) (h1' : es'.length ≠ 1)
    (h : errorsDisplay E es = errorsDisplay E es') : es.length = es'.length := by
  have many : ∀ {es : List (EvalErr × Option Expr)}, es.length ≠ 1 → ∃ u,
      errorsDisplay E es = natStr es.length ++ ' ' :: u := by
    intro es hl
    match es with
    | [] => exact ⟨_, by simp [errorsDisplay]; rfl⟩
    | [_] => exact absurd rfl hl
    | a :: b :: es => exact ⟨_, by simp [errorsDisplay]; rfl⟩
  obtain ⟨u, hu⟩ := many h1
  obtain ⟨u', hu'⟩ := many h1'
  rw [hu, hu'] at h
  exact (nat_uniq (noDigit_cons (by decide)) (noDigit_cons (by decide)) h).1

/-- C85: it lists the message of each error, in order. Missing: messages with line breaks. -/
theorem C85_list_partial (E : FmtEnv) {es es' : List (EvalErr × Option Expr)} (h1 : es.length ≠ 1)
    (h1' : es'.length ≠ 1) (hn : ∀ p ∈ es, '\n' ∉ errorDisplay E p.1 p.2) (hn' : ∀ p ∈ es', '\n' ∉ errorDisplay E p.1 p.2)
    (h : errorsDisplay E es = errorsDisplay E es') :
    es.map (fun p => errorDisplay E p.1 p.2) = es'.map fun p => errorDisplay E p.1 p.2 := by
  have hl := C85_number E h1 h1' h
  have many : ∀ {es : List (EvalErr × Option Expr)}, es.length ≠ 1 → errorsDisplay E es = natStr es.length ++
      (c!" errors occurred:\n" ++ ((es.map fun p => errorDisplay E p.1 p.2).map fun s => c!"- " ++ s ++ c!"\n").flatten) := by
    intro es hl
    match es with
    | [] => simp [errorsDisplay]
    | [_] => exact absurd rfl hl
    | a :: b :: es => simp [errorsDisplay, List.append_assoc, Function.comp_def]
  rw [many h1, many h1', hl] at h
  refine lines_uniq (by simpa using hl) (fun a ha => ?_) (fun a ha => ?_)
    (List.append_cancel_left (List.append_cancel_left h))
  · obtain ⟨p, hp, rfl⟩ := List.mem_map.1 ha
    exact hn p hp
  · obtain ⟨p, hp, rfl⟩ := List.mem_map.1 ha
    exact hn' p hp

/-- C85: the message of several errors has a line with their number and then their messages, in order. -/
theorem C85_lines (E : FmtEnv) (es : List (EvalErr × Option Expr)) (h : 2 ≤ es.length) : errorsDisplay E es =
    unlines ((natStr es.length ++ c!" errors occurred:") :: es.map fun p => c!"- " ++ errorDisplay E p.1 p.2) := by
  match es, h with
  | a :: b :: es, _ => simp [errorsDisplay, unlines, List.append_assoc, List.flatMap]; rfl

/-- C85: a single error has its own message. -/
theorem C85_single (E : FmtEnv) (k : EvalErr) (e : Option Expr) : errorsDisplay E [(k, e)] = errorDisplay E k e := rfl

/-! Where the property fails. -/

/-- A key can look like the text behind it. -/
theorem C85_key_fails (E : FmtEnv) : errorDisplay E (.noSuchKey c!"a` in expression `b") none =
    errorDisplay E (.noSuchKey c!"a") (some (.var c!"b")) := by
  simp [errorDisplay, EvalErr.display, Expr.display, Fmt.expr, Fmt.write, Fmt.new]

/-- A function's own message can look like any other. -/
theorem C85_own_fails (E : FmtEnv) : errorDisplay E (.funcCall ⟨[], c!"f"⟩ (.arity 1 2)) none =
    errorDisplay E (.funcCall ⟨[], c!"f"⟩ (.user c!"expected 1 positional arguments, got 2")) none := by
  simp [errorDisplay, EvalErr.display, CallErr.display]
  decide +kernel

/-- `OneOf` without alternatives is called `any`, but no argument is accepted for it. -/
theorem C85_arguments_fails : (ParamType.oneOf []).display = ParamType.any.display ∧
    ∀ v, (ParamType.oneOf []).satisfiedBy v = false ∧ ParamType.any.satisfiedBy v = true :=
  ⟨rfl, fun _ => ⟨rfl, rfl⟩⟩

/-- With line breaks in the messages, the same text stands for other errors. -/
theorem C85_list_fails (E : FmtEnv) :
    errorsDisplay E [(.noSuchKey c!"a`\n- no such key: `b", none), (.noSuchKey c!"c", none)] =
      errorsDisplay E [(.noSuchKey c!"a", none), (.noSuchKey c!"b`\n- no such key: `c", none)] := by
  simp [errorsDisplay, errorDisplay, EvalErr.display]

/-! Concrete cases. -/

private def E5 : FmtEnv := ⟨.ascii, fun _ => c!"1.5"⟩

/-- `f("a")` for a function that takes lists of numbers or strings, or null. -/
private def wrong : EvalErr :=
  .funcCall ⟨[c!"m"], c!"f"⟩ (.argType 0 (.oneOf [.array (.oneOf [.number, .string]), .nullable .bool]) (.string c!"a"))

example : errorDisplay E5 wrong (some (.var c!"x")) = c!"error calling function `m::f`: expected argument at position 0 to be of type `array(`number` or `string`)` or `nullable(`bool`)`, got `\"a\"` in expression `x`" := by
  decide +kernel

example : Definite E5 wrong := by
  refine ⟨⟨?_, ?_⟩, ?_⟩
  · simp only [List.mem_singleton, forall_eq]
    exact ⟨_, _, rfl, .inl (by decide), by simp⟩
  · exact ⟨_, _, rfl, .inl (by decide), by simp⟩
  · refine ⟨fun a c d b h => ?_, fun ⟨a, c, d, b, h, _⟩ => ?_⟩ <;>
      · have := congrArg List.length h
        simp at this
        omega

/-- Other alternatives, the same text: they are the same type. -/
example : (ParamType.oneOf [.bool, .oneOf [.number, .string]]).display =
    (ParamType.oneOf [.oneOf [.bool, .number], .string]).display := rfl

example : Definite E5 (.binaryOp (.bool true) .plus (.array [.null])) := ⟨trivial, trivial, trivial⟩

example : errorsDisplay E5 [(.index 3, none), (.undefinedVar c!"x", none)] =
    c!"2 errors occurred:\n- index out of bounds: 3\n- undefined variable `x`\n" := by decide +kernel

end Verif.Props
