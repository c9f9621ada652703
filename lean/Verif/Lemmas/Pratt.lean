import Verif.Spec.Chain
/-! The operator precedence parser. -/

namespace Verif.Gram
open Spec

theorem level_eq (o : BinOp) : level o = o.precedence := by cases o <;> rfl

theorem comparison_iff (o : BinOp) : comparison o ↔ o.nonAssoc = true := by
  cases o <;> simp [comparison, BinOp.nonAssoc]

theorem nonAssoc_prec {a b : BinOp} (h : level a = level b) : a.nonAssoc = b.nonAssoc := by
  revert h; cases a <;> cases b <;> decide

theorem prec_bounds (a : BinOp) : 1 ≤ level a ∧ level a ≤ 6 := by
  cases a <;> decide

/-- The binding power for the right operand. -/
def rbpOf (o : BinOp) : Nat := if o.nonAssoc then level o * 10 + 1 else level o * 10

/-- The binding power left for the next operator. -/
def nbpOf (o : BinOp) : Nat := if o.nonAssoc then level o * 10 else level o * 10 + 1

/-- A comparison on the right spine of the tree has the precedence of the operator. -/
def Blocks (o : BinOp) : OpTree → Prop
  | .operand _ => False
  | .op _ x r => (x.op.nonAssoc = true ∧ level x.op = level o) ∨ Blocks o r

/-- The operators of the tree bind tighter than the binding power. -/
def TopAbove (rbp : Nat) (t : OpTree) : Prop := ∀ x ∈ t.top, rbp < level x * 10

/-- The state of the loop: the tree so far, the binding power for the next operator, the tokens. -/
inductive St : OpTree → Nat → List (DBinOp × EExpr) → Prop
  | operand {e ops} : St (.operand e) bpMax ops
  | op {l o r ops} :
      (∀ x e tl, ops = (x, e) :: tl → level x.op * 10 ≤ rbpOf o.op ∨ Blocks x.op r) →
      St (.op l o r) (nbpOf o.op) ops

/-- The expression for a tree. -/
def build : OpTree → EExpr
  | .operand e => e
  | .op l o r => mkBinary (build l) o (build r)

theorem build_tree (t : OpTree) : IsTree t (build t) := by
  induction t with
  | operand e => exact .operand
  | op l o r h1 h2 =>
    unfold build mkBinary
    split
    · exact .op h1 h2
    · exact .op h1 h2

theorem prattLoop_spec (n : Nat) : ∀ (rbp nbp : Nat) (lhs : EExpr) (ops : List (DBinOp × EExpr))
    (t : OpTree), ops.length < n → lhs = build t → ByPrecedence t → TopAbove rbp t → St t nbp ops →
    ∃ t' used, (prattLoop n rbp nbp lhs ops).1 = build t' ∧ ByPrecedence t' ∧ TopAbove rbp t' ∧
      t'.first = t.first ∧ t'.rest = t.rest ++ used ∧
      ops = used ++ (prattLoop n rbp nbp lhs ops).2 ∧
      ∀ x e tl, (prattLoop n rbp nbp lhs ops).2 = (x, e) :: tl →
        level x.op * 10 ≤ rbp ∨ Blocks x.op t' := by
  induction n with
  | zero => intro _ _ _ _ _ h; omega
  | succ n ih =>
    intro rbp nbp lhs ops t hn ht hp ha hs
    cases ops with
    | nil =>
      exact ⟨t, [], ht, hp, ha, rfl, (List.append_nil _).symm, rfl, nofun⟩
    | cons p rest =>
      obtain ⟨o, e⟩ := p
      have hb := prec_bounds o.op
      unfold prattLoop
      dsimp only
      rw [← level_eq]
      by_cases hc : rbp < level o.op * 10 ∧ level o.op * 10 < nbp
      · rw [if_pos hc]
        simp only [List.length_cons] at hn
        obtain ⟨r, used₁, r1, r2, r3, r4, r5, r6, r7⟩ :=
          ih (rbpOf o.op) bpMax e rest (.operand e) (by omega) rfl .operand nofun .operand
        rw [show (if o.op.nonAssoc = true then level o.op * 10 + 1 else level o.op * 10)
          = rbpOf o.op from rfl,
          show (if o.op.nonAssoc = true then level o.op * 10 else level o.op * 10 + 1)
          = nbpOf o.op from rfl]
        generalize prattLoop n (rbpOf o.op) bpMax e rest = res at *
        have hlen : res.2.length ≤ rest.length := by rw [r6, List.length_append]; omega
        have hR : ∀ x ∈ r.top, level o.op < level x := by
          intro x hx
          have := r3 x hx
          unfold rbpOf at this
          split at this <;> omega
        have hL : ∀ x ∈ t.top, level o.op < level x ∨
            (level o.op = level x ∧ ¬comparison o.op) := by
          intro x hx
          cases hs with
          | operand => cases hx
          | op _ =>
            rename_i l y r' _
            obtain rfl : y.op = x := Option.some.inj hx
            have h2 := hc.2
            unfold nbpOf at h2
            split at h2
            · left; omega
            · rename_i hna
              rcases Nat.lt_or_eq_of_le (show level o.op ≤ level y.op from by omega) with h | h
              · exact .inl h
              · right
                refine ⟨h, ?_⟩
                rw [comparison_iff, nonAssoc_prec h]
                exact hna
        obtain ⟨t', used₂, q1, q2, q3, q4, q5, q6, q7⟩ :=
          ih rbp (nbpOf o.op) (mkBinary lhs o res.1) res.2 (.op t o r) (by omega)
            (by rw [ht, r1]; rfl) (.op hp r2 hL hR)
            (fun x hx => by obtain rfl := Option.some.inj hx; exact hc.1) (.op r7)
        refine ⟨t', (o, e) :: (used₁ ++ used₂), q1, q2, q3, q4, ?_, ?_, q7⟩
        · rw [q5]
          show t.rest ++ (o, r.first) :: r.rest ++ used₂ = _
          rw [r5, r4, List.append_assoc]
          rfl
        · rw [List.cons_append, List.append_assoc, ← q6, ← r6]
      · rw [if_neg hc]
        refine ⟨t, [], ht, hp, ha, rfl, (List.append_nil _).symm, rfl, ?_⟩
        intro x e' tl h
        injection h with h h'
        injection h with h h''
        subst h
        rcases Nat.lt_or_ge rbp (level o.op * 10) with h1 | h1
        · right
          have h2 : nbp ≤ level o.op * 10 := by omega
          cases hs with
          | operand => unfold bpMax at h2; omega
          | op hs =>
            rename_i l x r
            rcases hs o e rest rfl with h3 | h3
            · left
              unfold rbpOf at h3
              unfold nbpOf at h2
              by_cases hx : x.op.nonAssoc = true
              · rw [if_pos hx] at h2 h3
                exact ⟨hx, by omega⟩
              · rw [if_neg hx] at h2 h3
                omega
            · exact .inr h3
        · exact .inl h1

theorem byPrec_ge {t : OpTree} (h : ByPrecedence t) :
    ∀ a ∈ t.top, ∀ z ∈ t.rest, level a ≤ level z.1.op := by
  induction h with
  | operand => nofun
  | op _ _ hl hr ihl ihr =>
    rename_i l o r _ _
    rintro a ha z hz
    obtain rfl := Option.some.inj ha
    rcases List.mem_append.mp hz with hz | hz
    · cases l with
      | operand e => cases hz
      | op l' o' r' =>
        have := ihl _ rfl z hz
        rcases hl _ rfl with h | h <;> omega
    · rcases List.mem_cons.mp hz with rfl | hz
      · exact Nat.le_refl _
      · cases r with
        | operand e => cases hz
        | op l' o' r' =>
          have := ihr _ rfl z hz
          have := hr _ rfl
          omega

theorem left_ge {l r : OpTree} {o : DBinOp} (h : ByPrecedence (.op l o r)) :
    ∀ z ∈ l.rest, level o.op ≤ level z.1.op := fun z hz =>
  byPrec_ge h _ rfl z (List.mem_append_left _ hz)

theorem left_gt {l r : OpTree} {o : DBinOp} (h : ByPrecedence (.op l o r)) (hc : comparison o.op) :
    ∀ z ∈ l.rest, level o.op < level z.1.op := by
  intro z hz
  cases h with
  | op hl _ h1 _ =>
    cases l with
    | operand e => cases hz
    | op l' o' r' =>
      have := byPrec_ge hl _ rfl z hz
      rcases h1 _ rfl with h | h
      · omega
      · exact absurd hc h.2

theorem right_gt {l r : OpTree} {o : DBinOp} (h : ByPrecedence (.op l o r)) :
    ∀ z ∈ r.rest, level o.op < level z.1.op := by
  intro z hz
  cases h with
  | op _ hr _ h2 =>
    cases r with
    | operand e => cases hz
    | op l' o' r' =>
      have := byPrec_ge hr _ rfl z hz
      have := h2 _ rfl
      omega

/-- Splitting a list at two places. -/
theorem append_cons_split {α : Type} {a b c d : List α} {x y : α}
    (h : a ++ x :: b = c ++ y :: d) :
    (∃ m, c = a ++ x :: m ∧ b = m ++ y :: d) ∨ (a = c ∧ x = y ∧ b = d) ∨
      (∃ m, a = c ++ y :: m ∧ d = m ++ x :: b) := by
  induction a generalizing c with
  | nil =>
    cases c with
    | nil => injection h with h1 h2; exact .inr (.inl ⟨rfl, h1, h2⟩)
    | cons z c => injection h with h1 h2; subst h1; exact .inl ⟨c, rfl, h2⟩
  | cons w a ih =>
    cases c with
    | nil => injection h with h1 h2; subst h1; exact .inr (.inr ⟨a, rfl, h2.symm⟩)
    | cons z c =>
      injection h with h1 h2
      subst h1
      rcases ih h2 with ⟨m, h3, h4⟩ | ⟨h3, h4, h5⟩ | ⟨m, h3, h4⟩
      · exact .inl ⟨m, by rw [h3]; rfl, h4⟩
      · exact .inr (.inl ⟨by rw [h3], h4, h5⟩)
      · exact .inr (.inr ⟨m, by rw [h3]; rfl, h4⟩)

theorem byPrec_noClash {t : OpTree} (h : ByPrecedence t) : ¬Clash t.rest := by
  induction t with
  | operand e =>
    rintro ⟨pre, x, mid, y, post, h1, -⟩
    cases pre <;> cases h1
  | op l o r ihl ihr =>
    have hl := left_ge h
    have hr := right_gt h
    have hlc := left_gt h
    cases h with
    | op h1 h2 _ _ =>
    rintro ⟨pre, x, mid, y, post, h3, h4, h5, h6⟩
    have h3 : l.rest ++ (o, r.first) :: r.rest = pre ++ x :: (mid ++ y :: post) := h3
    rcases append_cons_split h3 with ⟨m, h7, h8⟩ | ⟨h7, h8, h9⟩ | ⟨m, h7, h8⟩
    · exact ihr h2 ⟨m, x, mid, y, post, h8, h4, h5, h6⟩
    · have : y ∈ r.rest := by rw [h9]; simp
      have := hr y this
      rw [← h8] at h5
      dsimp only at h5
      omega
    · rcases append_cons_split h8 with ⟨k, h9, h10⟩ | ⟨h9, h10, h11⟩ | ⟨k, h9, h10⟩
      · -- both are in the left operand
        exact ihl h1 ⟨pre, x, mid, y, k, by rw [h7, h9], h4, h5, h6⟩
      · subst h10
        dsimp only at h5
        have hx : x ∈ l.rest := by rw [h7]; simp
        have hcmp : comparison o.op := by
          rw [comparison_iff, ← nonAssoc_prec h5, ← comparison_iff]; exact h4
        have := hlc hcmp x hx
        omega
      · have hx : x ∈ l.rest := by rw [h7]; simp
        have h1' := hl x hx
        have := h6 (o, r.first) (by rw [h9]; simp)
        dsimp only at this
        omega

theorem blocks_clash {t : OpTree} {x : DBinOp} {e : EExpr} {tl : List (DBinOp × EExpr)}
    (hp : ByPrecedence t) (h : Blocks x.op t) : Clash (t.rest ++ (x, e) :: tl) := by
  induction t with
  | operand e => exact h.elim
  | op l o r _ ihr =>
    have hr := right_gt hp
    cases hp with
    | op h1 h2 _ _ =>
    rcases h with ⟨h3, h4⟩ | h3
    · exact ⟨l.rest, (o, r.first), r.rest, (x, e), tl, by
        show l.rest ++ (o, r.first) :: r.rest ++ (x, e) :: tl = _
        rw [List.append_assoc, List.cons_append], (comparison_iff _).mpr h3, h4, hr⟩
    · obtain ⟨pre, y, mid, z, post, h5, h6⟩ := ihr h2 h3
      refine ⟨l.rest ++ (o, r.first) :: pre, y, mid, z, post, ?_, h6⟩
      show l.rest ++ (o, r.first) :: r.rest ++ (x, e) :: tl = _
      rw [List.append_assoc, List.cons_append, h5, List.append_assoc, List.cons_append]

/-- The parentheses are determined by the chain. -/
theorem byPrec_unique {t u : OpTree} (ht : ByPrecedence t) (hu : ByPrecedence u)
    (hf : t.first = u.first) (hr : t.rest = u.rest) : t = u := by
  induction t generalizing u with
  | operand e =>
    cases u with
    | operand e' => rw [show e = e' from hf]
    | op l o r =>
      exfalso
      have : ([] : List (DBinOp × EExpr)) = l.rest ++ (o, r.first) :: r.rest := hr
      cases h : l.rest <;> rw [h] at this <;> cases this
  | op l o r ihl ihr =>
    cases u with
    | operand e =>
      exfalso
      have : l.rest ++ (o, r.first) :: r.rest = [] := hr
      cases h : l.rest <;> rw [h] at this <;> cases this
    | op l' o' r' =>
      have hr' : l.rest ++ (o, r.first) :: r.rest = l'.rest ++ (o', r'.first) :: r'.rest := hr
      rcases append_cons_split hr' with ⟨m, h7, h8⟩ | ⟨h7, h8, h9⟩ | ⟨m, h7, h8⟩
      · exfalso
        have h1 := left_ge hu (o, r.first) (by rw [h7]; simp)
        have h2 := right_gt ht (o', r'.first) (by rw [h8]; simp)
        dsimp only at h1 h2
        omega
      · injection h8 with h8 h8'
        cases ht with
        | op ht1 ht2 _ _ =>
        cases hu with
        | op hu1 hu2 _ _ =>
        rw [ihl ht1 hu1 hf h7, h8, ihr ht2 hu2 h8' h9]
      · exfalso
        have h1 := left_ge ht (o', r'.first) (by rw [h7]; simp)
        have h2 := right_gt hu (o, r.first) (by rw [h8]; simp)
        dsimp only at h1 h2
        omega

/-- The whole chain, or a part of it that ends in front of a comparison. -/
theorem parseBinaryOp_spec (lhs : EExpr) (ops : List (DBinOp × EExpr)) :
    ∃ t drop, parseBinaryOp lhs ops = build t ∧ ByPrecedence t ∧ t.first = lhs ∧
      ops = t.rest ++ drop ∧ ∀ x e tl, drop = (x, e) :: tl → Blocks x.op t := by
  obtain ⟨t, used, h1, h2, h3, h4, h5, h6, h7⟩ := prattLoop_spec (ops.length + 1) 0 bpMax lhs ops
    (.operand lhs) (Nat.lt_succ_self _) rfl .operand nofun .operand
  refine ⟨t, (prattLoop (ops.length + 1) 0 bpMax lhs ops).2, h1, h2, h4, ?_, ?_⟩
  · rw [h5]; exact h6
  · intro x e tl h
    rcases h7 x e tl h with h8 | h8
    · have := prec_bounds x.op; omega
    · exact h8

end Verif.Gram
