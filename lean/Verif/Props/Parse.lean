import Verif.Lemmas.Despan
import Verif.Lemmas.ParseTop
import Verif.Lemmas.Location
import Verif.Lemmas.ParseDepth
/-! C16, C17, C20, C26, C53: parsing with `hcl-edit`. -/

namespace Verif.Props
open Gram Spec

/-- Example environment: a release build. -/
private def Er : PEnv := ⟨.ascii, .release⟩
/-- Example environment: a debug build. -/
private def Ed : PEnv := ⟨.ascii, .debug⟩
private def Ef : FmtEnv := ⟨.ascii, fun _ => []⟩

/-! ### C16: parsing terminates with a result or an error

`Outcome.oof` stands for a run that does not end: the fuel of the model (the length of the input plus
one) is used up. A panic is possible in one case only: a build with overflow checks that negates the
literal 9223372036854775808. -/

/-- Parsing ends with a document, an error at an offset of the input, or the panic. -/
theorem C16_parse_body (E : PEnv) (s : Str) :
    (∃ b, parseBody E s = .ok b) ∨ (∃ n, parseBody E s = .err n ∧ n ≤ s.length) ∨
      (parseBody E s = .panic ∧ NegOverflow E s) := by
  have h := parseBody_ok E s
  revert h
  cases parseBody E s with
  | ok b => exact fun _ => .inl ⟨b, rfl⟩
  | err n => exact fun h => .inr (.inl ⟨n, rfl, h⟩)
  | panic => exact fun h => .inr (.inr ⟨rfl, h⟩)
  | oof => exact False.elim

theorem C16_parse_expr (E : PEnv) (s : Str) :
    (∃ e, parseExpr E s = .ok e) ∨ (∃ n, parseExpr E s = .err n ∧ n ≤ s.length) ∨
      (parseExpr E s = .panic ∧ NegOverflow E s) := by
  have h := parseExpr_ok E s
  revert h
  cases parseExpr E s with
  | ok b => exact fun _ => .inl ⟨b, rfl⟩
  | err n => exact fun h => .inr (.inl ⟨n, rfl, h⟩)
  | panic => exact fun h => .inr (.inr ⟨rfl, h⟩)
  | oof => exact False.elim

theorem C16_parse_template (E : PEnv) (s : Str) :
    (∃ t, parseTemplate E s = .ok t) ∨ (∃ n, parseTemplate E s = .err n ∧ n ≤ s.length) ∨
      (parseTemplate E s = .panic ∧ NegOverflow E s) := by
  have h := parseTemplate_ok E s
  revert h
  cases parseTemplate E s with
  | ok b => exact fun _ => .inl ⟨b, rfl⟩
  | err n => exact fun h => .inr (.inl ⟨n, rfl, h⟩)
  | panic => exact fun h => .inr (.inr ⟨rfl, h⟩)
  | oof => exact False.elim

/-- Without overflow checks every input gives a document or an error. -/
theorem C16_release (U : Uni) (s : Str) :
    ((∃ b, parseBody ⟨U, .release⟩ s = .ok b) ∨ ∃ n, parseBody ⟨U, .release⟩ s = .err n) ∧
    ((∃ e, parseExpr ⟨U, .release⟩ s = .ok e) ∨ ∃ n, parseExpr ⟨U, .release⟩ s = .err n) ∧
    ((∃ t, parseTemplate ⟨U, .release⟩ s = .ok t) ∨ ∃ n, parseTemplate ⟨U, .release⟩ s = .err n) := by
  refine ⟨?_, ?_, ?_⟩
  · rcases C16_parse_body ⟨U, .release⟩ s with h | ⟨n, h, -⟩ | ⟨-, h, -⟩
    · exact .inl h
    · exact .inr ⟨n, h⟩
    · cases h
  · rcases C16_parse_expr ⟨U, .release⟩ s with h | ⟨n, h, -⟩ | ⟨-, h, -⟩
    · exact .inl h
    · exact .inr ⟨n, h⟩
    · cases h
  · rcases C16_parse_template ⟨U, .release⟩ s with h | ⟨n, h, -⟩ | ⟨-, h, -⟩
    · exact .inl h
    · exact .inr ⟨n, h⟩
    · cases h

/-- With overflow checks the panic happens: the property as stated does not hold. -/
theorem C16_debug_panics : ∃ E s, parseExpr E s = .panic ∧ parseBody E (c!"a = " ++ s) = .panic :=
  ⟨Ed, c!"-9223372036854775808", rfl, rfl⟩

/-- The bound the model puts on the depth of the recursion is not observable: the parsers give the same
results for every greater bound, so the results are those of the unbounded recursion of the code. -/
theorem C16_depth (E : PEnv) (s : Str) (n : Nat) (hn : s.length < n) :
    parseComplete (parsers E n).body EBody.raws (EBody.despan s) s = parseBody E s ∧
    parseComplete ((parsers E n).expr false) EExpr.raws (EExpr.despan s) s = parseExpr E s ∧
    parseComplete (parsers E n).template EExpr.rawsElems (EExpr.despanElems s) s = parseTemplate E s := by
  have h := parsers_sub (E := E) (Nat.succ_le_of_lt hn)
  refine ⟨parseComplete_sub h.body fun h' => ?_, parseComplete_sub (h.expr false) fun h' => ?_,
    parseComplete_sub h.template fun h' => ?_⟩
  · have := parseBody_ok E s
    rw [show parseBody E s = .oof from h'] at this
    exact this
  · have := parseExpr_ok E s
    rw [show parseExpr E s = .oof from h'] at this
    exact this
  · have := parseTemplate_ok E s
    rw [show parseTemplate E s = .oof from h'] at this
    exact this

-- a smaller bound is observable: the hypothesis is needed
example : (match parseComplete ((parsers Ed 1).expr false) EExpr.raws (EExpr.despan c!"[[1]]") c!"[[1]]" with
    | .oof => true | _ => false) = true := by decide +kernel

-- all three outcomes occur
example : (parseBody Ed c!"a = [1, 2]\nb \"x\" {\n  c = a[0] + 1\n}\n").isOk = true := by decide +kernel
example : (parseBody Ed c!"a = [1, 2\nb").errAt.isSome = true := by decide +kernel
example : (parseTemplate Ed c!"a %{ if b }${c}%{ else }$${d}%{ endif }").isOk = true := by decide +kernel

/-! ### C17: a successful parse consumes the whole input

`Document`, `Core` and `TElems` (in `Spec/Source.lean`) relate a tree to the text between two offsets:
the tokens and the decor of the tree, one after the other, without gaps. The tree that is returned is
that tree with the text of its decor filled in (`despan`).

The flag of `Core` tells whether line breaks are whitespace (they are not in `parseExpr` and in
attributes, but in brackets).

The part that is missing: the grammar has a rule for operators that are read and then dropped
(`Dropped`), and for literals that end at a malformed escape sequence (`BadEscape`). The two witnesses
below show that they are needed. -/

theorem C17_body_partial (E : PEnv) (s : Str) (b : EBody) (h : parseBody E s = .ok b) :
    ∃ b₀, Document E.U s b₀ ∧ b = b₀.despan s := by
  have h' := parseBody_ok E s
  rw [h] at h'
  obtain ⟨b₀, h1, h2⟩ := h'
  exact ⟨b₀, h2, h1⟩

theorem C17_expr_partial (E : PEnv) (s : Str) (e : EExpr) (h : parseExpr E s = .ok e) :
    ∃ e₀, Core E.U s false e₀ 0 s.length ∧ NodeM s e₀ 0 s.length ∧ e = e₀.despan s := by
  have h' := parseExpr_ok E s
  rw [h] at h'
  obtain ⟨b₀, h1, h2, h3⟩ := h'
  exact ⟨b₀, h2, h3, h1⟩

theorem C17_template_partial (E : PEnv) (s : Str) (t : List EElem) (h : parseTemplate E s = .ok t) :
    ∃ t₀, TElems E.U s .plain t₀ 0 s.length ∧ t = EExpr.despanElems s t₀ := by
  have h' := parseTemplate_ok E s
  rw [h] at h'
  obtain ⟨b₀, h1, h2⟩ := h'
  exact ⟨b₀, h2, h1⟩

/-- The text after the first comparison is consumed and does not occur in the tree: the tree is the
one of the expression without it, up to its outermost span. -/
theorem C17_operand_dropped : ∃ e e', parseExpr Er c!"a == b == c" = .ok e ∧
    parseExpr Er c!"a == b" = .ok e' ∧ e.mapMeta (fun _ => {}) = e'.mapMeta (fun _ => {}) ∧
    e.show Ef = c!"a == b" := ⟨_, _, rfl, rfl, rfl, rfl⟩

/-- The malformed escape sequence is consumed and does not occur in the tree. -/
theorem C17_escape_dropped : ∃ e, parseExpr Er c!"\"foo\\xbar\"" = .ok e ∧
    e.show Ef = c!"\"foobar\"" := ⟨_, rfl, rfl⟩

example : (parseBody Er c!"a = 1 # one\nb {\n  c = \"${a + 1}\"\n}").isOk = true := by decide +kernel
example : (parseExpr Er c!"{ for k, v in a.*.b : k => f(v...) if v }").isOk = true := by decide +kernel
example : (parseTemplate Er c!"x ${ a ? b : c } %{~ for v in x ~}y%{ endfor }").isOk = true := by decide +kernel

/-! ### C20: no attribute is defined twice -/

theorem C20_unique_keys (E : PEnv) (s : Str) (b : EBody) (h : parseBody E s = .ok b) :
    UniqueKeys b := by
  obtain ⟨b₀, h1, rfl⟩ := C17_body_partial E s b h
  exact h1.unique.despan s

-- the same key at different levels is accepted, on the same level it is an error
example : (parseBody Er c!"a = 1\nb {\n  a = 1\n}\nb {\n  a = 1\n}\n").isOk = true := by decide +kernel
example : (parseBody Er c!"b {\n  a = 1\n  c = 1\n  a = 1\n}\n").errAt.isSome = true := by decide +kernel

/-! ### C26: error locations -/

/-- The line, the offset and the text of the line of an error before the end of the input are exact.
The column is exact if the character there, or everything before it on the line, is encoded in one
byte. Otherwise (see `C26_column_wrong`) it counts bytes. At the end of the input the offset is the one of the last
byte and the column is the one after the last character. -/
theorem C26_location_partial (E : PEnv) (s : Str) (n : Nat) (h : parseBody E s = .err n ∨
    parseExpr E s = .err n ∨ parseTemplate E s = .err n) :
    (∃ hn : n < s.length,
      (errorLocation s n).offset = byteOffset s n ∧
      (errorLocation s n).line = lineNumber s n ∧
      errorLine s n = strBytes (lineText s n) ∧
      ((s[n].utf8Size = 1 ∨ ∀ c ∈ linePrefix s n, c.utf8Size = 1) →
        (errorLocation s n).column = columnNumber s n)) ∨
    (n = s.length ∧ s ≠ [] ∧
      (errorLocation s n).offset = byteOffset s n - 1 ∧
      (errorLocation s n).line = lineNumber s (n - 1) ∧
      errorLine s n = strBytes (lineText s (n - 1)) ∧
      (errorLocation s n).column = columnNumber s (n - 1) + 1) ∨
    (n = 0 ∧ s = [] ∧ errorLocation s n = ⟨1, 1, 0⟩) := by
  have hle : n ≤ s.length := by
    rcases h with h | h | h
    · have h' := parseBody_ok E s; rw [h] at h'; exact h'
    · have h' := parseExpr_ok E s; rw [h] at h'; exact h'
    · have h' := parseTemplate_ok E s; rw [h] at h'; exact h'
  unfold errorLocation errorLine
  rcases Nat.lt_or_ge n s.length with hn | hn
  · refine .inl ⟨hn, ?_⟩
    rw [locate_before hn]
    refine ⟨rfl, rfl, rfl, ?_⟩
    intro hc
    dsimp only
    by_cases h1 : s[n].utf8Size = 1
    · rw [if_pos h1]
    · rw [if_neg h1]
      have hc := hc.resolve_left h1
      unfold columnNumber
      congr 1
      revert hc
      generalize linePrefix s n = p
      intro hc
      induction p with
      | nil => rfl
      | cons c cs ih =>
        rw [strBytes_cons, List.length_append, charBytes_length, hc c (List.mem_cons_self ..),
          ih fun d hd => hc d (List.mem_cons_of_mem _ hd), List.length_cons, Nat.add_comm]
  · obtain rfl : n = s.length := by omega
    by_cases hs : s = []
    · subst hs; exact .inr (.inr ⟨rfl, rfl, rfl⟩)
    · refine .inr (.inl ⟨rfl, hs, ?_⟩)
      rw [locate_end hs]
      exact ⟨rfl, rfl, rfl, rfl⟩

/-- The column is wrong when the error is at a character outside ASCII and another one is before it
on the line: here the error is at the sixth character of the line and column 7 is reported. -/
theorem C26_column_wrong : ∃ E s n, parseExpr E s = .err n ∧ n < s.length ∧
    columnNumber s n = 6 ∧ (errorLocation s n).column = 7 :=
  ⟨Er, c!"\"é\" +é", _, rfl, by decide, rfl, rfl⟩

example : (parseBody Er c!"a = 1\nb = é ]").errAt = some 10 := by decide +kernel
example : (parseBody Er c!"a = 1\nb = [\"é\" ]]\n").errAt = some 16 := by decide +kernel
example : errorLocation c!"a = 1\nb = [\"é\" ]]\n" 16 = ⟨2, 11, 17⟩ := rfl
example : (parseBody Er c!"a = 1\nb = [").errAt = some 11 := by decide +kernel
example : errorLocation c!"a = 1\nb = [" 11 = ⟨2, 6, 10⟩ := rfl

/-! ### C53: spans -/

/-- The spans of a parsed document lie in the input and nest, and those of identifiers, keywords,
numbers and operators cover their text. -/
theorem C53_body_spans (E : PEnv) (s : Str) (b : EBody) (h : parseBody E s = .ok b) :
    Nested s 0 s.length b.tree := by
  obtain ⟨b₀, h1, rfl⟩ := C17_body_partial E s b h
  rw [EBody.despan_tree]
  exact h1.good.1

theorem C53_expr_spans (E : PEnv) (s : Str) (e : EExpr) (h : parseExpr E s = .ok e) :
    Nested s 0 s.length e.tree ∧ e.span? = some ⟨0, s.length⟩ := by
  obtain ⟨e₀, h1, h2, rfl⟩ := C17_expr_partial E s e h
  rw [EExpr.despan_tree]
  refine ⟨(h1.good.node (Nat.le_of_lt h1.bounds.1) h2).1, ?_⟩
  obtain ⟨r, h3, -⟩ := h2
  revert h3
  cases e₀ <;> simp only [EExpr.getMeta, EExpr.span?, EExpr.despan, Meta.despan] <;>
    intro h3 <;> rw [h3]

theorem C53_template_spans (E : PEnv) (s : Str) (t : List EElem) (h : parseTemplate E s = .ok t) :
    ∀ x ∈ EExpr.treeElems t, Nested s 0 s.length x := by
  obtain ⟨t₀, h1, rfl⟩ := C17_template_partial E s t h
  rw [EExpr.despan_treeElems]
  exact h1.good.1

/-- Resolving the spans of the decor never fails: whenever the grammar accepts a text, the spans of
the decor of the tree are spans of the input. -/
theorem C53_decor_in_input (E : PEnv) (s : Str) (i : Input) :
    (∀ b, P.terminated (parsersFor E s).body P.eof ⟨0, s⟩ = .ok b i →
      (∀ r ∈ b.raws, r.inInput s = true) ∧ parseBody E s = .ok (b.despan s)) ∧
    (∀ e, P.terminated ((parsersFor E s).expr false) P.eof ⟨0, s⟩ = .ok e i →
      (∀ r ∈ e.raws, r.inInput s = true) ∧ parseExpr E s = .ok (e.despan s)) ∧
    (∀ t, P.terminated (parsersFor E s).template P.eof ⟨0, s⟩ = .ok t i →
      (∀ r ∈ EExpr.rawsElems t, r.inInput s = true) ∧
        parseTemplate E s = .ok (EExpr.despanElems s t)) := by
  refine ⟨fun b h => ?_, fun e h => ?_, fun t h => ?_⟩
  · have h1 := (bodyQ_document (terminated_val (parsersFor_ok E s).body h)).good.2
    refine ⟨h1, ?_⟩
    unfold parseBody parseComplete
    rw [h]
    exact if_pos (List.all_eq_true.mpr h1)
  · have h0 := terminated_val ((parsersFor_ok E s).expr false) h
    have h1 := (h0.1.good.node (Nat.le_of_lt h0.1.bounds.1) h0.2).2
    refine ⟨h1, ?_⟩
    unfold parseExpr parseComplete
    rw [h]
    exact if_pos (List.all_eq_true.mpr h1)
  · have h1 := (terminated_val (parsersFor_ok E s).template h).good.2
    refine ⟨h1, ?_⟩
    unfold parseTemplate parseComplete
    rw [h]
    exact if_pos (List.all_eq_true.mpr h1)

example : (parseBody Er c!"/* x */ a = f ( 1 /* y */ , b.*.c ) # z\n").isOk = true := by decide +kernel

/-- The decor of a parsed document has become text, no matter where it is in the tree. The list
`raws` covers all decor except that of the operator of a binary operation and that of a traversal
operator as a whole; see `C53_operator_decor_spanned`. -/
theorem C53_decor_text (E : PEnv) (s : Str) :
    (∀ b, parseBody E s = .ok b → ∀ r ∈ b.raws, ∀ sp, r ≠ .spanned sp) ∧
    (∀ e, parseExpr E s = .ok e → ∀ r ∈ e.raws, ∀ sp, r ≠ .spanned sp) ∧
    (∀ t, parseTemplate E s = .ok t → ∀ r ∈ EExpr.rawsElems t, ∀ sp, r ≠ .spanned sp) := by
  refine ⟨fun b h => ?_, fun e h => ?_, fun t h => ?_⟩
  · obtain ⟨b₀, -, rfl⟩ := C17_body_partial E s b h
    intro r hr
    rw [EBody.despan_raws] at hr
    obtain ⟨r, -, rfl⟩ := List.mem_map.mp hr
    exact r.despan_text s
  · obtain ⟨b₀, -, -, rfl⟩ := C17_expr_partial E s e h
    intro r hr
    rw [EExpr.despan_raws] at hr
    obtain ⟨r, -, rfl⟩ := List.mem_map.mp hr
    exact r.despan_text s
  · obtain ⟨b₀, -, rfl⟩ := C17_template_partial E s t h
    intro r hr
    rw [EExpr.despan_rawsElems] at hr
    obtain ⟨r, -, rfl⟩ := List.mem_map.mp hr
    exact r.despan_text s

/-- Decor of the operator of a parsed binary operation. -/
private def opDecor : Outcome EExpr → Option Decor
  | .ok (.binary _ _ om _ _) => some om.decor
  | _ => none

/-- The decor of a binary operator is not resolved: it remains a span of the source. -/
theorem C53_operator_decor_spanned :
    opDecor (parseExpr Er c!"1  +  2") = some ⟨some (.spanned ⟨1, 3⟩), some (.spanned ⟨4, 6⟩)⟩ := by decide +kernel

end Verif.Props
