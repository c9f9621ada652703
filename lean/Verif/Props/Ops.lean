import Verif.Model.Ops
/-! Properties C03 and C04 (operators). -/

namespace Verif.Props
open Verif

/-- **C03**: parsing the spelling of a unary operator gives the operator back, and only spellings
of operators are accepted. -/
theorem C03_unary (s : Str) (op : UnOp) : UnOp.fromStr s = some op ↔ s = op.asStr := by
  constructor
  · intro h
    unfold UnOp.fromStr at h
    split at h <;> (try split at h) <;> simp_all [UnOp.asStr] <;> (subst h; rfl)
  · rintro rfl; cases op <;> rfl

private theorem ite_some {p : Prop} [Decidable p] {α : Type} {a op : α} {x : Option α}
    (h : (if p then some a else x) = some op) : (p ∧ a = op) ∨ x = some op := by
  by_cases hp : p
  · rw [if_pos hp] at h; exact Or.inl ⟨hp, Option.some.inj h⟩
  · rw [if_neg hp] at h; exact Or.inr h

/-- **C03**: the same for binary operators. -/
theorem C03_binary (s : Str) (op : BinOp) : BinOp.fromStr s = some op ↔ s = op.asStr := by
  constructor
  · intro h
    unfold BinOp.fromStr at h
    iterate 13
      replace h := ite_some h
      rcases h with ⟨h1, h2⟩ | h
      · subst h2; exact h1
    exact absurd h (by simp)
  · rintro rfl; cases op <;> decide

/-- **C03**: distinct operators have distinct spellings. -/
theorem C03_binary_injective (a b : BinOp) (h : a.asStr = b.asStr) : a = b := by
  have := (C03_binary a.asStr a).2 rfl
  rw [h, (C03_binary b.asStr b).2 rfl] at this
  exact (Option.some.inj this).symm

theorem C03_unary_injective (a b : UnOp) (h : a.asStr = b.asStr) : a = b := by
  have := (C03_unary a.asStr a).2 rfl
  rw [h, (C03_unary b.asStr b).2 rfl] at this
  exact (Option.some.inj this).symm

example : BinOp.fromStr c!"<=" = some .lessEq := by decide
example : BinOp.fromStr c!"=" = none := by decide

/-- The HCL specification's operator table ("Operations"), listed from the loosest binding level to
the tightest. -/
def specLevels : List (List BinOp) :=
  [[.or], [.and], [.eq, .notEq], [.greater, .greaterEq, .less, .lessEq], [.plus, .minus],
   [.mul, .div, .mod]]

/-- Position of an operator's level in the specification's table. -/
def specLevel (op : BinOp) : Nat := specLevels.findIdx (fun l => decide (op ∈ l))

/-- **C04**: for every pair of operators, `precedence` orders them as the specification's table
does; the table is complete. -/
theorem C04_precedence (a b : BinOp) :
    specLevel a < 6 ∧ (a.precedence < b.precedence ↔ specLevel a < specLevel b) := by
  cases a <;> cases b <;> decide

example : specLevel .plus < specLevel .mul := by decide

end Verif.Props
