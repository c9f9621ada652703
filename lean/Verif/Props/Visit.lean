import Verif.Lemmas.Visit
/-! C24: what the default visitors reach. -/

namespace Verif.Props
open Verif.Spec

/-- The default `Visit` calls the method of a node inside a document exactly when the node can be
reached without passing from a `for` directive to its collection. Missing from the full claim, which
is false (see below): the collections of `for` directives. -/
theorem C24_visited_partial {n l : Node} : l ∈ visitNode false n ↔ Inside toCollection n l := by
  have : skips false = toCollection := by
    funext a b; simp [skips]
  rw [visited_iff, this]

/-- In particular every expression in a document that is not part of the collection of a `for`
directive is visited. -/
theorem C24_exprs_partial {b : EBody} {e : EExpr} (h : Inside toCollection (.body b) (.expr e)) :
    .expr e ∈ visitBody false b :=
  C24_visited_partial.2 h

/-- Nothing but the parts of a document is visited. -/
theorem C24_only_parts {n l : Node} (h : l ∈ visitNode false n) : Inside anyStep n l := by
  have key : ∀ {n l}, Inside toCollection n l → Inside anyStep n l := by
    intro n l h
    induction h with
    | refl n => exact .refl n
    | step hp _ _ ih => exact .step hp rfl ih
  exact key (C24_visited_partial.1 h)

/-- Every node is visited before its parts, and the parts are visited once each, in source order. -/
theorem C24_order (n : Node) : visitNode false n =
    n :: ((parts n).filter fun m => !toCollection n m).flatMap (visitNode false) := by
  have h := visitNode_eq (mt := false) n
  simpa [skips] using h

/-- `VisitMut` reaches the same nodes, except that it does not pass from an object key to what it
consists of or from an attribute to its key. -/
theorem C24_mut_partial {n l : Node} : l ∈ visitNode true n ↔
    Inside (fun a b => toCollection a b || toKey a b) n l := by
  have : skips true = fun a b => toCollection a b || toKey a b := by
    funext a b; simp [skips]
  rw [visited_iff, this]

/-- An expression in an interpolation in a `for` directive in a string of a nested block is inside
the document. -/
example : Inside toCollection
    (.body (.mk {} [.block {} { name := c!"b" } [] (.mk {} [.attr {} { name := c!"k" }
      (.strTmpl {} [.forDir none .empty none { name := c!"x" } (.var {} c!"xs") .none none
        [.interp none (.var {} c!"x") .none] .empty .empty .none])] false false)] false false))
    (.expr (.var {} c!"x")) := by
  refine .step (List.mem_cons_self ..) rfl ?_
  refine .step (m := .body _) (by simp [parts]; rfl) rfl ?_
  refine .step (List.mem_cons_self ..) rfl ?_
  refine .step (m := .expr _) (by simp [parts]; rfl) rfl ?_
  refine .step (List.mem_cons_self ..) rfl ?_
  refine .step (m := .elem _) (by simp [parts]; rfl) rfl ?_
  exact .step (List.mem_cons_self ..) rfl (.refl _)

/-- The collection of a `for` directive is not visited, whatever it is, unless it occurs elsewhere in
the directive: C24 is false as stated. -/
theorem C24_collection_fails (x y : Str) (h : x ≠ y) :
    Inside anyStep (.elem (.forDir none .empty none { name := x } (.var {} y) .none none
        [.interp none (.var {} x) .none] .empty .empty .none)) (.expr (.var {} y)) ∧
      .expr (.var {} y) ∉ visitNode false (.elem (.forDir none .empty none { name := x } (.var {} y)
        .none none [.interp none (.var {} x) .none] .empty .empty .none)) := by
  constructor
  · exact .step (by simp [parts]) rfl (.refl _)
  · simp [visitNode, visitElem, visitElems, visitExpr, visitIdent, visitIdentOpt]
    exact fun hxy => h hxy.symm

end Verif.Props
