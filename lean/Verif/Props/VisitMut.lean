import Verif.Lemmas.VisitMut
/-! C71: a mutable visitor rewrites the nodes it reaches and leaves everything else as it is.

`Rewritten` (in `Spec/VisitMut.lean`) says what becomes of a node in terms of its parts: `parts` and `shell`
take a node apart, and `node_eq` says that together they determine it. -/

namespace Verif.Props
open Spec

variable {σ : Type}

/-- A visit of a document by a visitor with any overridden methods and any state: every node is handed to its
method after the nodes before it, the parts of a node are replaced by what becomes of them, and everything
else stays as it is: the decor, the spans and the skipped parts. Nothing else is a result. -/
theorem C71_body (V : Visitor σ) (b b' : EBody) (s s' : σ) :
    mutBody V b s = (b', s') ↔ Rewritten V (.body b) s (.body b') s' := by
  have h := mutBody_rewritten (V := V) b s
  constructor
  · intro e
    rw [e] at h
    exact h
  · intro h'
    obtain ⟨h1, h2⟩ := h.det h'
    injection h1 with h1
    exact Prod.ext h1 h2

/-- The same for an expression. -/
theorem C71_expression (V : Visitor σ) (e e' : EExpr) (s s' : σ) :
    mutExpr V e s = (e', s') ↔ Rewritten V (.expr e) s (.expr e') s' := by
  have h := mutExpr_rewritten (V := V) e s
  constructor
  · intro e
    rw [e] at h
    exact h
  · intro h'
    obtain ⟨h1, h2⟩ := h.det h'
    injection h1 with h1
    exact Prod.ext h1 h2

/-- A document none of whose nodes the visitor changes stays as it is, to the last space and comment: it is
enough that its methods do nothing for the nodes that it reaches. -/
theorem C71_unchanged (V : Visitor σ) (b : EBody) (s : σ)
    (h : ∀ m, Inside (fun a b => toCollection a b || toKey a b) (.body b) m →
      ∀ s, methodBefore V m s = none ∧ methodAfter V m s = (m, s)) : mutBody V b s = (b, s) := by
  obtain ⟨h1, h2⟩ := (mutBody_rewritten (V := V) b s).same h
  injection h1 with h1
  exact Prod.ext h1 h2

/-- A visitor that overrides nothing changes nothing. -/
theorem C71_default (b : EBody) (s : σ) : mutBody ({} : Visitor σ) b s = (b, s) :=
  C71_unchanged _ b s fun m _ _ => by cases m <;> exact ⟨rfl, rfl⟩

/-! ### Attribute keys -/

/-- The key of an attribute. -/
private def keyOf : EStruct → Option Str
  | .attr _ k _ => some k.name
  | .block _ _ _ _ => none

/-- The bodies inside have unique keys. -/
private def Sound : EStruct → Prop
  | .attr _ _ _ => True
  | .block _ _ _ b => UniqueKeys b

private theorem fits {x y : EStruct} (h : Accessible x y) : keyOf y = keyOf x ∧ (Sound x → Sound y) := by
  cases x <;> cases y <;> simp_all [keyOf, Sound, Accessible]

private theorem bodyKeys_eq (ss : List EStruct) : bodyKeys ss = ss.filterMap keyOf := by
  induction ss with
  | nil => rfl
  | cons x ss ih => cases x <;> simp [bodyKeys, keyOf, ih, List.filterMap_cons]

private theorem unique_iff {m ss o n} : UniqueKeys (.mk m ss o n) ↔ (bodyKeys ss).Nodup ∧ ∀ x ∈ ss, Sound x := by
  constructor
  · rintro ⟨h1, h2⟩
    refine ⟨h1, fun x hx => ?_⟩
    cases x with
    | attr => trivial
    | block m i ls b => exact h2 _ _ _ _ hx
  · rintro ⟨h1, h2⟩
    exact .mk h1 fun m i ls b hb => h2 _ hb

private theorem run_fits {V : Visitor σ} (hV : Permitted V) {x : EStruct} {d : σ → EStruct × σ} {s : σ}
    (hd : keyOf (d s).1 = keyOf x ∧ (Sound x → Sound (d s).1)) :
    keyOf (V.struct.run x d s).1 = keyOf x ∧ (Sound x → Sound (V.struct.run x d s).1) := by
  unfold Hook.run
  cases hp : V.struct.pre x s with
  | some r => exact fits (hV.structPre x s r hp)
  | none =>
    obtain ⟨h1, h2⟩ := fits (hV.structPost (d s).1 (d s).2)
    exact ⟨h1.trans hd.1, fun h => h2 (hd.2 h)⟩

mutual

private theorem struct_keeps {V : Visitor σ} (hV : Permitted V) : ∀ (x : EStruct) (s : σ),
    keyOf (mutStruct V x s).1 = keyOf x ∧ (Sound x → Sound (mutStruct V x s).1)
  | .attr m k v, s => by rw [mutStruct]; exact run_fits hV ⟨rfl, fun _ => trivial⟩
  | .block m i ls b, s => by
    rw [mutStruct]; exact run_fits hV ⟨rfl, fun h => body_keeps hV b _ h⟩
termination_by structural x => x

private theorem body_keeps {V : Visitor σ} (hV : Permitted V) : ∀ (b : EBody) (s : σ),
    UniqueKeys b → UniqueKeys (mutBody V b s).1
  | .mk m ss o n, s, h => by
    rw [mutBody]
    unfold Hook.run
    cases hp : V.body.pre (.mk m ss o n) s with
    | some r => exact hV.bodyPre _ s r h hp
    | none =>
      refine hV.bodyPost _ _ ?_
      obtain ⟨h1, h2⟩ := unique_iff.mp h
      obtain ⟨h3, h4⟩ := structs_keep hV ss s
      exact unique_iff.mpr ⟨by rw [h3]; exact h1, h4 h2⟩
termination_by structural x => x

private theorem structs_keep {V : Visitor σ} (hV : Permitted V) : ∀ (xs : List EStruct) (s : σ),
    bodyKeys (mutStructs V xs s).1 = bodyKeys xs ∧
      ((∀ x ∈ xs, Sound x) → ∀ x ∈ (mutStructs V xs s).1, Sound x)
  | [], s => by rw [mutStructs]; exact ⟨rfl, fun h => h⟩
  | x :: xs, s => by
    rw [mutStructs]
    obtain ⟨h1, h2⟩ := struct_keeps hV x s
    obtain ⟨h3, h4⟩ := structs_keep hV xs (mutStruct V x s).2
    constructor
    · rw [bodyKeys_eq, bodyKeys_eq] at h3 ⊢
      simp only [List.filterMap_cons, h1, h3]
    · intro h y hy
      rcases List.mem_cons.mp hy with rfl | hy
      · exact h2 (h _ (.head _))
      · exact h4 (fun z hz => h z (.tail _ hz)) y hy
termination_by structural x => x

end

/-- No visitor makes a document define an attribute twice. -/
theorem C71_unique_keys (V : Visitor σ) (hV : Permitted V) (b : EBody) (s : σ) (h : UniqueKeys b) :
    UniqueKeys (mutBody V b s).1 :=
  body_keeps hV b s h

/-! ### An example: the visitor of the documentation -/

/-- `VariableNamespacer`, which counts in addition. -/
private def namespacer : Visitor Nat where
  expr := {
    pre := fun
      | .var m x, s => some (.trav { decor := m.decor } (.var {} c!"var") [.mk {} (.getAttr ⟨{ span := m.span }, x⟩)],
          s + 1)
      | _, _ => none }

private theorem permitted : Permitted namespacer where
  bodyPre _ _ _ _ h := nomatch h
  bodyPost _ _ h := h
  structPre _ _ _ h := nomatch h
  structPost x s := by cases x <;> simp [namespacer, Accessible]

-- `b "l" { a = "x${ y }" }` becomes `b "l" { a = "x${ var.y }" }`
private def sp : Meta := { decor := { pre := some (.explicit c!" "), suf := some (.explicit c!" ") } }
private def doc (e : EExpr) : EBody :=
  .mk {} [.block {} { name := c!"b" } [.string {} c!"l"] (.mk {} [.attr sp { name := c!"a" }
    (.strTmpl sp [.lit none c!"x", .interp none e .none])] true false)] false false

example : mutBody namespacer (doc (.var sp c!"y")) 0 =
    (doc (.trav sp (.var {} c!"var") [.mk {} (.getAttr { name := c!"y" })]), 1) := rfl

example : UniqueKeys (doc (.var sp c!"y")) :=
  unique_iff.mpr ⟨by decide, fun x hx => by
    obtain rfl := List.mem_singleton.mp hx
    exact unique_iff.mpr ⟨by decide, fun x hx => by obtain rfl := List.mem_singleton.mp hx; trivial⟩⟩

-- a document without variables is one that the visitor does not change
example : ∀ m, Inside (fun a b => toCollection a b || toKey a b)
    (.body (.mk {} [.attr sp { name := c!"a" } (.bool sp true)] false false)) m →
    ∀ s, methodBefore namespacer m s = none ∧ methodAfter namespacer m s = (m, s) := by
  intro m h
  cases h with
  | refl => exact fun _ => ⟨rfl, rfl⟩
  | step hp _ h =>
    obtain rfl := List.mem_singleton.mp hp
    cases h with
    | refl => exact fun _ => ⟨rfl, rfl⟩
    | step hp hs h =>
      rcases List.mem_cons.mp hp with rfl | hp
      · cases hs
      · obtain rfl := List.mem_singleton.mp hp
        cases h with
        | refl => exact fun _ => ⟨rfl, rfl⟩
        | step hp => cases hp

end Verif.Props
