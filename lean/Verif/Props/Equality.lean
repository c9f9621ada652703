import Verif.Lemmas.Content
import Verif.Model.EditParse
/-! C25: what the equality of `hcl-edit` compares. C56: equality is an equivalence. -/

namespace Verif.Props
open Spec

private def va (m : Meta) : EExpr := .var m c!"a"
private def sp1 : Meta := { decor := ⟨some (.explicit c!" /* x */ "), none⟩, span := some ⟨3, 8⟩ }

/-- **C25**: two expressions compare equal exactly when their contents are the same. The content
leaves out the decor and span of every node and the notation of numbers. It also leaves out the
`...` of a call (`C25_expand_fails`), and it keeps the whitespace in front of closing brackets and in
template directives (`C25_trailing_fails`, `C25_directive_fails`), so this is not the full property. -/
theorem C25_expr_partial (a b : EExpr) (ha : Proper (content a)) (hb : Proper (content b)) :
    EExpr.beq a b = true ↔ Same (content a) (content b) := by
  rw [beq_content]; exact Content.beq_iff _ ha hb

/-- **C25** for templates. -/
theorem C25_template_partial (a b : List EElem) (ha : ∀ c ∈ elemsContent a, Proper c)
    (hb : ∀ c ∈ elemsContent b, Proper c) :
    EExpr.beqElems a b = true ↔ SameAll (elemsContent a) (elemsContent b) := by
  rw [beqElems_content]; exact Content.beqs_iff _ ha hb

/-- **C25** for documents. -/
theorem C25_body_partial (a b : EBody) (ha : Proper (bodyContent a)) (hb : Proper (bodyContent b)) :
    EBody.beq a b = true ↔ Same (bodyContent a) (bodyContent b) := by
  rw [bodyBeq_content]; exact Content.beq_iff _ ha hb

/-- **C25**: decor, spans and the notation of numbers never matter, whatever else is in the trees:
trees with the same content can be exchanged in a comparison. -/
theorem C25_decor_ignored (a a' b b' : EExpr) (ha : content a = content a')
    (hb : content b = content b') : EExpr.beq a b = EExpr.beq a' b' := by
  rw [beq_content, beq_content, ha, hb]

/-- The same for documents. -/
theorem C25_body_decor_ignored (a a' b b' : EBody) (ha : bodyContent a = bodyContent a')
    (hb : bodyContent b = bodyContent b') : EBody.beq a b = EBody.beq a' b' := by
  rw [bodyBeq_content, bodyBeq_content, ha, hb]

/-- The property is false of the code: `f(a...)` and `f(a)` are not the same, but compare equal. -/
theorem C25_expand_fails (m : Meta) :
    EExpr.beq (.call m [] ⟨{}, c!"f"⟩ {} [va {}] false true .empty)
      (.call m [] ⟨{}, c!"f"⟩ {} [va {}] false false .empty) = true := by rfl

/-- The property is false of the code: `[a, ]` and `[a,]` differ in whitespace only, but do not compare
equal. -/
theorem C25_trailing_fails (m : Meta) :
    EExpr.beq (.array m [va {}] true (.explicit c!" ")) (.array m [va {}] true .empty) = false := by
  rfl

/-- The same with the parser's trees of the two texts; whitespace in front of the element does not
matter. -/
theorem C25_parsed_fails :
    ∃ a b c, parseExpr ⟨.ascii, .release⟩ c!"[a,]" = .ok a ∧
      parseExpr ⟨.ascii, .release⟩ c!"[ a,]" = .ok b ∧
      parseExpr ⟨.ascii, .release⟩ c!"[a, ]" = .ok c ∧ EExpr.beq a b = true ∧ EExpr.beq a c = false :=
  ⟨_, _, _, rfl, rfl, rfl, rfl, rfl⟩

/-- The property is false of the code: `%{ if a }%{ endif }` and `%{if a }%{ endif }` differ in
whitespace only, but do not compare equal. -/
theorem C25_directive_fails :
    EExpr.beqElems [.ifDir none (.explicit c!" ") (va {}) .none none [] none .empty .empty .none]
      [.ifDir none .empty (va {}) .none none [] none .empty .empty .none] = false := by
  rfl

example : Proper (content (.object {} [.mk (.ident ⟨sp1, c!"a"⟩) (.number {} (.posInt 1) none) .equals .comma,
    .mk (.expr (.var {} c!"a")) (.array {} [va sp1] true .empty) .colon .newline] .empty)) := by
  have h1 : Proper (.node c!"value" [.assign .equals, .term .comma] [.node c!"number" [.num (.posInt 1)] []]) :=
    .node (by simp) (by
      intro c hc
      rw [List.mem_singleton.mp hc]
      exact .node (by simp [WellFormed]) (by simp))
  have h2 : Proper (.node c!"variable" [.text c!"a"] []) := .node (by simp) (by simp)
  refine .map (by simp) ?_ ?_ ?_
  · intro e he
    rcases List.mem_cons.mp he with rfl | he
    · exact .node (by simp) (by simp)
    · rw [List.mem_singleton.mp he]
      exact .node (by simp) (by intro c hc; rw [List.mem_singleton.mp hc]; exact h2)
  · intro e he
    rcases List.mem_cons.mp he with rfl | he
    · exact h1
    · rw [List.mem_singleton.mp he]
      refine .node (by simp) ?_
      intro c hc
      rw [List.mem_singleton.mp hc]
      exact .node (by simp) (by intro c hc; rw [List.mem_singleton.mp hc]; exact h2)
  · refine .cons ?_ (.cons (fun _ h => nomatch h) .nil)
    intro e he
    rw [List.mem_singleton.mp he]
    intro h
    cases h

example : content (va {}) = content (va sp1) := rfl
example : EExpr.beq (va {}) (va sp1) = true := rfl
example : EExpr.beq (.paren {} (va {})) (va {}) = false := rfl

/-! ### C56 -/

/-- **C56** for `hcl-edit` expressions. -/
theorem C56_edit_equivalence (a b c : EExpr) (ha : Proper (content a)) (hb : Proper (content b))
    (hc : Proper (content c)) : EExpr.beq a a = true ∧ (EExpr.beq a b = true → EExpr.beq b a = true) ∧
      (EExpr.beq a b = true → EExpr.beq b c = true → EExpr.beq a c = true) := by
  rw [C25_expr_partial a a ha ha, C25_expr_partial a b ha hb, C25_expr_partial b a hb ha,
    C25_expr_partial b c hb hc, C25_expr_partial a c ha hc]
  exact ⟨.refl _, .symm, .trans⟩

/-- **C56** for `hcl-edit` documents. -/
theorem C56_body_equivalence (a b c : EBody) (ha : Proper (bodyContent a)) (hb : Proper (bodyContent b))
    (hc : Proper (bodyContent c)) :
    EBody.beq a a = true ∧ (EBody.beq a b = true → EBody.beq b a = true) ∧
      (EBody.beq a b = true → EBody.beq b c = true → EBody.beq a c = true) := by
  rw [C25_body_partial a a ha ha, C25_body_partial a b ha hb, C25_body_partial b a hb ha,
    C25_body_partial b c hb hc, C25_body_partial a c ha hc]
  exact ⟨.refl _, .symm, .trans⟩

/-- Two `hcl-rs` expressions compare equal exactly when they are the same up to the order of object
entries. -/
theorem C56_expr_iff (a b : Expr) (ha : Proper (exprContent a)) (hb : Proper (exprContent b)) :
    Expr.beq a b = true ↔ Same (exprContent a) (exprContent b) := by
  rw [exprBeq_content]; exact Content.beq_iff _ ha hb

/-- **C56** for `hcl-rs` expressions. -/
theorem C56_expr_equivalence (a b c : Expr) (ha : Proper (exprContent a)) (hb : Proper (exprContent b))
    (hc : Proper (exprContent c)) : Expr.beq a a = true ∧ (Expr.beq a b = true → Expr.beq b a = true) ∧
      (Expr.beq a b = true → Expr.beq b c = true → Expr.beq a c = true) := by
  rw [C56_expr_iff a a ha ha, C56_expr_iff a b ha hb, C56_expr_iff b a hb ha, C56_expr_iff b c hb hc,
    C56_expr_iff a c ha hc]
  exact ⟨.refl _, .symm, .trans⟩

example : Proper (exprContent (.call ⟨[], c!"f"⟩ [.object [(.ident c!"a", .null)]] true)) := by
  refine .node (by simp) fun c hc => ?_
  rw [List.mem_singleton.mp hc]
  refine .map (by simp) ?_ ?_ (.cons (fun _ h => nomatch h) .nil) <;> intro e he <;> rw [List.mem_singleton.mp he]
  · exact .node (by simp) (by simp)
  · exact .node (by simp) (by simp)

end Verif.Props
