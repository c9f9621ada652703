import Verif.Model.StructValue
import Verif.Lemmas.JsonSpec
import Verif.Lemmas.From
/-!
C89: the conversions of parts of a document into values.
-/

namespace Verif.Spec

variable {E : FmtEnv}

/-- The value inside of objects with one entry each, one for each of the names. -/
def nest : List Str → Value → Value
  | [], v => v
  | k :: ks, v => .object [(k, nest ks v)]

/-- The entries of an object. -/
def objectEntries : Value → List (Str × Value)
  | .object es => es
  | _ => []

/-! ### Lemmas -/

private theorem toExpr_blockNode (body : Expr) : ∀ ls : List Label,
    toValue E (blockNode body ls).toExpr = nest (ls.map Label.asStr) (toValue E body)
  | [] => rfl
  | l :: ls => by
    simp only [blockNode, JNode.toExpr, JNode.entriesToExpr, objCollect, List.foldl_cons, List.foldl_nil,
      objInsert, toValue, toValueEntries, keyString, Map.collect, Map.insert, toExpr_blockNode body ls,
      List.map_cons, nest]

private theorem entriesToExpr_map : ∀ es : List (Str × JNode), JNode.entriesToExpr es =
    (es.map fun p => (p.1, p.2.toExpr)).map fun p => (.expr (.string p.1), p.2)
  | [] => rfl
  | (k, n) :: es => by rw [JNode.entriesToExpr, entriesToExpr_map es]; rfl

private theorem bodyToValue_eq (b : List Struct) : bodyToValue E b =
    .object ((bodyNodes [] b).map fun p => (p.1, toValue E p.2.toExpr)) := by
  have hn := bodyNodes_nodup b (m := []) (by simp)
  rw [bodyToValue, bodyToJson, JNode.toExpr, toValue, entriesToExpr_map, toValueEntries_objCollect,
    collect_collect, List.map_map]
  rw [Map.collect_nodup (by simpa [List.map_map, Function.comp_def] using hn)]
  rfl

private theorem insert_append {V : Type} {k : Str} {v : V} : ∀ {m n : List (Str × V)}, k ∉ m.map Prod.fst →
    Map.insert k v (m ++ n) = m ++ Map.insert k v n
  | [], _, _ => rfl
  | (k', v') :: m, n, h => by
    simp only [List.map_cons, List.mem_cons, not_or] at h
    simp only [List.cons_append, Map.insert, if_neg (Ne.symm h.1), insert_append h.2]

private theorem get_append {V : Type} {k : Str} : ∀ {m n : List (Str × V)}, k ∉ m.map Prod.fst →
    Map.get? k (m ++ n) = Map.get? k n
  | [], _, _ => rfl
  | (k', v') :: m, n, h => by
    simp only [List.map_cons, List.mem_cons, not_or] at h
    simp only [List.cons_append, Map.get?, if_neg (Ne.symm h.1), get_append h.2]

private theorem structNodes_append {m n : List (Str × JNode)} {s : Struct} (h : structName s ∉ m.map Prod.fst) :
    structNodes (m ++ n) s = m ++ structNodes n s := by
  cases s with
  | attr k e => exact insert_append h
  | block i ls b =>
    simp only [structNodes, JNode.mergeAll, get_append (show i ∉ m.map Prod.fst from h)]
    cases Map.get? i n <;> exact insert_append h

private theorem bodyNodes_beside {m : List (Str × JNode)} : ∀ (b : List Struct) (n : List (Str × JNode)),
    (∀ s ∈ b, structName s ∉ m.map Prod.fst) → bodyNodes (m ++ n) b = m ++ bodyNodes n b
  | [], _, _ => rfl
  | s :: b, n, h => by
    rw [bodyNodes, structNodes_append (h s (by simp)), bodyNodes_beside b _ fun s hs => h s (by simp [hs]),
      bodyNodes]

private theorem keys_insert_sub {V : Type} {k x : Str} {v : V} {m : List (Str × V)}
    (h : x ∈ (Map.insert k v m).map Prod.fst) : x = k ∨ x ∈ m.map Prod.fst := by
  rw [map_keys_insert] at h
  split at h
  · exact .inr h
  · simpa [or_comm] using h

private theorem keys_bodyNodes {x : Str} : ∀ (b : List Struct) (m : List (Str × JNode)),
    x ∈ (bodyNodes m b).map Prod.fst → x ∈ m.map Prod.fst ∨ ∃ s ∈ b, structName s = x
  | [], _, h => .inl h
  | s :: b, m, h => by
    rw [bodyNodes] at h
    rcases keys_bodyNodes b _ h with h | ⟨s', hs, e⟩
    · have : x = structName s ∨ x ∈ m.map Prod.fst := by
        cases s with
        | attr k e => exact keys_insert_sub h
        | block i ls b' =>
          simp only [structNodes, JNode.mergeAll] at h
          cases hg : Map.get? i m <;> rw [hg] at h <;> exact keys_insert_sub h
      rcases this with e | h
      · exact .inr ⟨s, by simp, e.symm⟩
      · exact .inl h
    · exact .inr ⟨s', by simp [hs], e⟩

/-! ### Properties -/

/-- **C89**: an attribute is an object with its key and value; a block is its body inside of one object for its
identifier and one for each label, in order. -/
theorem C89_shape :
    (∀ k e, structToValue E (.attr k e) = .object [(k, toValue E e)]) ∧
    (∀ i ls b, structToValue E (.block i ls b) = nest (i :: ls.map Label.asStr) (bodyToValue E b)) := by
  refine ⟨fun _ _ => rfl, fun i ls b => ?_⟩
  simp only [structToValue, blockToValue, JNode.entriesToExpr, objCollect, List.foldl_cons, List.foldl_nil,
    objInsert, toValue, toValueEntries, keyString, Map.collect, Map.insert, toExpr_blockNode, nest, bodyToValue]

/-- **C89**: an attribute or block converts to the same value as the document with nothing else in it. -/
theorem C89_alone (s : Struct) : structToValue E s = bodyToValue E [s] := by
  rw [bodyToValue_eq]
  cases s with
  | attr k e => rfl
  | block i ls b =>
    rw [C89_shape.2]
    simp only [bodyNodes, structNodes, JNode.mergeAll, Map.get?, Map.insert, List.map_cons, List.map_nil,
      toExpr_blockNode, nest]
    rfl

/-- **C89**: where the attributes and blocks of two documents have no name in common, the value of both
together has the entries of the one, then those of the other. -/
theorem C89_append {a b : List Struct} (h : ∀ s ∈ a, ∀ t ∈ b, structName s ≠ structName t) :
    bodyToValue E (a ++ b) = .object (objectEntries (bodyToValue E a) ++ objectEntries (bodyToValue E b)) := by
  simp only [bodyToValue_eq, objectEntries, bodyNodes_append]
  rw [← List.map_append]
  congr 2
  have := bodyNodes_beside (m := bodyNodes [] a) b [] fun t ht hk => by
    rcases keys_bodyNodes a [] hk with hk | ⟨s, hs, e⟩
    · simp at hk
    · exact h s hs t ht e
  rwa [List.append_nil] at this

/-- **C89**: a document in which no name appears twice is an object with one entry for each of its attributes and
blocks, in order. -/
theorem C89_document : ∀ {b : List Struct}, (b.map structName).Nodup →
    bodyToValue E b = .object (b.flatMap fun s => objectEntries (structToValue E s))
  | [], _ => rfl
  | s :: b, h => by
    obtain ⟨h1, h2⟩ := List.nodup_cons.mp h
    have := C89_append (E := E) (a := [s]) (b := b) fun x hx t ht e => by
      rw [List.mem_singleton.mp hx] at e
      exact h1 (List.mem_map.mpr ⟨t, ht, e.symm⟩)
    rw [List.singleton_append] at this
    rw [this, C89_document h2, ← C89_alone]
    rfl

/-! ### A document -/

private def doc : List Struct :=
  [.attr c!"a" (.bool true), .block c!"b" [.ident c!"x", .string c!"y z"] [.attr c!"a" .null],
    .block c!"c" [] []]

example : (doc.map structName).Nodup := by decide

example : bodyToValue E doc = .object [(c!"a", .bool true),
    (c!"b", .object [(c!"x", .object [(c!"y z", .object [(c!"a", .null)])])]), (c!"c", .object [])] := by
  rw [C89_document (by decide)]
  rfl

end Verif.Spec
