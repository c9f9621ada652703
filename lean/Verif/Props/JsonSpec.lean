import Verif.Lemmas.JsonSpec
/-! C46, C47: conversion of a body to its JSON form keeps blocks and attributes. -/

namespace Verif.Props
open Verif Spec

/-- C46 (partial): if nothing else in the body competes for the path, then following identifier and
labels of a block through the JSON objects leads to all blocks with that identifier and these labels,
in source order: the object of the one block, or the array of the objects of all of them. Missing:
bodies with competing names, where the property fails (`C46_false`). -/
theorem C46_blocks_partial (b : List Struct) (ident : Str) (labels : List Label)
    (hne : blocksAt (blockPath ident labels) b ≠ []) (h : NoClash (blockPath ident labels) b) :
    at? (blockPath ident labels) (bodyToJson b) =
      some (blocksJson bodyToJson (blocksAt (blockPath ident labels) b)) := by
  have hi := bodyNodes_inv b [] [] (Inv.nil (blockPath ident labels) (by simp [blockPath])) h
  have := hi.at (by simpa using hne)
  rw [List.nil_append] at this
  unfold bodyToJson
  rw [this]
  match blocksAt (blockPath ident labels) b with
  | [] => rfl
  | [x] => rfl
  | x :: y :: zs => rfl

/-- Two blocks `a "x"`, another block and an attribute: the hypotheses are met and the two bodies are
collected into an array. -/
example :
    let b : List Struct := [.block c!"a" [.string c!"x"] [.attr c!"p" .null],
      .attr c!"q" (.bool true), .block c!"a" [.ident c!"y"] [],
      .block c!"a" [.ident c!"x"] [.attr c!"r" .null]]
    blocksAt (blockPath c!"a" [.string c!"x"]) b ≠ [] ∧ NoClash (blockPath c!"a" [.string c!"x"]) b ∧
      at? [c!"a", c!"x"] (bodyToJson b) = some (.array [
        .object [(.expr (.string c!"p"), .null)], .object [(.expr (.string c!"r"), .null)]]) := by
  refine ⟨by simp [blocksAt, blockPath, Label.asStr], ?_, by
    simp [bodyToJson, bodyNodes, structNodes, JNode.mergeAll, blockNode, JNode.merge, JNode.toExpr,
      JNode.entriesToExpr, Map.insert, Map.get?, objCollect, objInsert, at?, field, Label.asStr,
      ObjKey.beq, Expr.beq]⟩
  intro s hs
  simp only [List.mem_cons, List.not_mem_nil, or_false] at hs
  rcases hs with rfl | rfl | rfl | rfl <;>
    simp [blockPath, Label.asStr, List.cons_prefix_cons]

/-- C46 fails in general: an unlabelled block is lost when a labelled block of the same type follows,
and a block is lost when an attribute of the same name follows. -/
theorem C46_false :
    (∃ b : List Struct, blocksAt (blockPath c!"a" []) b = [[.attr c!"p" .null]] ∧
      at? (blockPath c!"a" []) (bodyToJson b) ≠
        some (blocksJson bodyToJson (blocksAt (blockPath c!"a" []) b)) ∧
      (∀ s ∈ b, ∀ k e, s ≠ .attr k e)) ∧
    ∃ b : List Struct, blocksAt (blockPath c!"a" []) b = [[.attr c!"p" .null]] ∧
      at? (blockPath c!"a" []) (bodyToJson b) = some (.bool true) := by
  refine ⟨⟨[.block c!"a" [] [.attr c!"p" .null], .block c!"a" [.string c!"x"] []], ?_, ?_, ?_⟩,
    ⟨[.block c!"a" [] [.attr c!"p" .null], .attr c!"a" (.bool true)], ?_, ?_⟩⟩
  · simp [blocksAt, blockPath]
  · simp [bodyToJson, bodyNodes, structNodes, JNode.mergeAll, blockNode, JNode.merge, JNode.toExpr,
      JNode.entriesToExpr, Map.insert, Map.get?, objCollect, objInsert, at?, field, Label.asStr,
      blockPath, blocksAt, blocksJson]
  · simp
  · simp [blocksAt, blockPath]
  · simp [bodyToJson, bodyNodes, structNodes, JNode.mergeAll, blockNode, JNode.toExpr,
      JNode.entriesToExpr, Map.insert, Map.get?, objCollect, objInsert, at?, field, blockPath]

/-- C47 (partial): an attribute that is not followed by an attribute or a block of the same name is
found in the JSON object under its key with its expression. Missing: attributes followed by a block of
the same name, which are lost (`C47_false`). -/
theorem C47_attributes_partial (pre post : List Struct) (k : Str) (e : Expr)
    (h : ∀ s ∈ post, structName s ≠ k) :
    at? [k] (bodyToJson (pre ++ .attr k e :: post)) = some e := by
  have hnd := bodyNodes_nodup (pre ++ .attr k e :: post) (m := []) (by simp)
  have hf := field_object k _ hnd
  have hg : Map.get? k (bodyNodes [] (pre ++ .attr k e :: post)) = some (.expr e) := by
    rw [bodyNodes_append, bodyNodes, bodyNodes_get post h]
    simp only [structNodes, Map.get?_insert, if_pos]
  rw [hg] at hf
  simp only [bodyToJson, JNode.toExpr, at?, hf]
  rfl

example : (∀ s ∈ [Struct.block c!"b" [] [], .attr c!"c" .null], structName s ≠ c!"a") := by
  simp [structName]

/-- C47 fails in general: an attribute is lost when a block of the same name follows. The body is a
valid one: the attribute key is unique. -/
theorem C47_false : ∃ b : List Struct, b = [.attr c!"a" (.bool true), .block c!"a" [] []] ∧
    at? [c!"a"] (bodyToJson b) = some (.object []) := by
  refine ⟨_, rfl, ?_⟩
  simp [bodyToJson, bodyNodes, structNodes, JNode.mergeAll, blockNode, JNode.merge, JNode.toExpr,
      JNode.entriesToExpr, Map.insert, Map.get?, objCollect, objInsert, at?, field]

/-- C47: the object has a field for a name exactly if some attribute or block of the body has that
name: nothing is invented and no name disappears, whatever collides. -/
theorem C47_names (b : List Struct) (k : Str) :
    (at? [k] (bodyToJson b)).isSome ↔ ∃ s ∈ b, structName s = k := by
  have hnd := bodyNodes_nodup b (m := []) (by simp)
  have hf := field_object k _ hnd
  have key : ∀ (b : List Struct) (m : List (Str × JNode)),
      (Map.get? k (bodyNodes m b)).isSome ↔ (Map.get? k m).isSome ∨ ∃ s ∈ b, structName s = k := by
    intro b
    induction b with
    | nil => intro m; simp [bodyNodes]
    | cons s b ih =>
      intro m
      rw [bodyNodes, ih]
      have : (Map.get? k (structNodes m s)).isSome ↔ (Map.get? k m).isSome ∨ structName s = k := by
        cases s with
        | attr k' e => simp only [structNodes, Map.get?_insert, structName]; split <;> simp_all
        | block i ls bd =>
          simp only [structNodes, mergeAll_one, Map.get?_insert, structName]; split <;> simp_all
      rw [this]
      simp only [List.mem_cons, exists_eq_or_imp, or_assoc]
  simp only [bodyToJson, JNode.toExpr, at?, hf]
  have := key b []
  simp only [Map.get?, Option.isSome_none, Bool.false_eq_true, false_or] at this
  rw [← this]
  cases Map.get? k (bodyNodes [] b) <;> simp [at?]

end Verif.Props
