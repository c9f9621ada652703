import Verif.Lemmas.ParseLex
/-! Facts about the concrete syntax relation `Verif.Spec.Core`. -/

namespace Verif.Spec
open Gram

variable {U : Uni} {s : Str}

theorem OptTok.le {c : Bool} {t : Str} {a b : Nat} (h : OptTok s c t a b) : a ≤ b := by
  unfold OptTok at h
  split at h
  · exact h.le
  · omega

theorem LineEnding.lt {a b : Nat} (h : LineEnding s a b) : a < b := by
  rcases h with h | h <;> (have := h.1; simp at this; omega)

theorem LineEnding.bound {a b : Nat} (h : LineEnding s a b) : b ≤ s.length := by
  rcases h with h | h <;> exact h.bound

theorem LineTail.le {a b : Nat} (h : LineTail s a b) : a ≤ b := by
  obtain ⟨x, h1, h2⟩ := h
  have := h1.le
  rcases h2 with rfl | ⟨h2, -⟩ <;> omega

theorem LineTail.bound {a b : Nat} (h : LineTail s a b) : b ≤ s.length := by
  obtain ⟨x, h1, h2⟩ := h
  rcases h2 with rfl | ⟨-, h2, -⟩
  · exact h1.bound
  · exact h2

theorem Tok.lt {t : Str} {a b : Nat} (h : Tok s t a b) (ht : t ≠ []) : a < b := by
  have := h.1; have := List.length_pos_iff.mpr ht; omega

theorem DecIdent.lt {nl : Bool} {d : DIdent} {p q : Nat} (h : DecIdent U s nl d p q) : p < q := by
  obtain ⟨a, b, h1, h2, h3, -⟩ := h
  have := h1.le; have := identAt_lt h2; have := h3.le; omega

theorem SufIdent.lt {nl : Bool} {d : DIdent} {p q : Nat} (h : SufIdent U s nl d p q) : p < q := by
  obtain ⟨b, h1, h2, -⟩ := h
  have := identAt_lt h1; have := h2.le; omega

theorem ForVars.le {k : Option DIdent} {v : DIdent} {p q : Nat} (h : ForVars U s k v p q) : p ≤ q := by
  rcases h with ⟨-, h⟩ | ⟨d, x, y, -, h1, h2, h3⟩
  · exact Nat.le_of_lt h.lt
  · have := h1.lt; have := h2.le; have := h3.lt; omega

theorem PathTail.le {nl : Bool} {ds : List DIdent} {p q : Nat} (h : PathTail U s nl ds p q) : p ≤ q := by
  induction h with
  | nil => exact Nat.le_refl _
  | cons h1 h2 _ ih => have := h1.le; have := h2.lt; omega

theorem Path.lt {nl : Bool} {ds : List DIdent} {p q : Nat} (h : Path U s nl ds p q) : p < q := by
  obtain ⟨d, tl, x, -, h1, h2⟩ := h
  have := h1.lt; have := h2.le; omega

theorem ArgsEnd.le {c x : Bool} {n a b : Nat} (h : ArgsEnd s c x n a b) : a ≤ b := by
  rcases h with ⟨-, -, h⟩ | ⟨-, -, -, h⟩ | ⟨-, -, -, h⟩
  · omega
  · exact h.le
  · exact h.le

theorem Marker.le {kw : Str} {st : Strip} {p t : Raw} {a b : Nat} (h : Marker s kw st p t a b) :
    a ≤ b := by
  obtain ⟨x₁, x₂, x₃, x₄, h1, h2, -, h3, h4, -, h5⟩ := h
  have := h1.le; have := h2.le; have := h3.le; have := h4.le; have := h5.le; omega

theorem Closes.bound {st : Strip} {a b : Nat} (h : Closes s st a b) : b ≤ s.length := Tok.bound h
theorem Closes.le {st : Strip} {a b : Nat} (h : Closes s st a b) : a ≤ b := Tok.le h
theorem Opens.le {st : Strip} {t : Str} {a b : Nat} (h : Opens s st t a b) : a ≤ b := Tok.le h
theorem Opens.lt {st : Strip} {t : Str} {a b : Nat} (h : Opens s st t a b) (ht : t ≠ []) : a < b :=
  Tok.lt h (by simp [ht])

theorem Marker.bound {kw : Str} {st : Strip} {p t : Raw} {a b : Nat} (h : Marker s kw st p t a b) :
    b ≤ s.length := by
  obtain ⟨x₁, x₂, x₃, x₄, h1, h2, -, h3, h4, -, h5⟩ := h
  exact h5.bound

theorem ItemEndAt.le {t : ItemEnd} {a b : Nat} (h : ItemEndAt s t a b) : a ≤ b := by
  cases t
  · exact Nat.le_of_eq h
  · exact Nat.le_of_lt (LineEnding.lt h)
  · exact Tok.le h

mutual

theorem Core.bounds : ∀ {nl e a b}, Core U s nl e a b → a < b ∧ b ≤ s.length
  | _, _, _, _, .null h => ⟨h.lt (by simp), h.bound⟩
  | _, _, _, _, .bool (v := v) h => ⟨h.lt (by cases v <;> simp), h.bound⟩
  | _, _, _, _, .number h1 h => ⟨h.lt (numText_ne h1), h.bound⟩
  | _, _, _, _, .string h => h.bounds
  | _, _, _, _, .array h1 h2 h3 h4 h5 =>
    ⟨by have := h1.lt (by simp); have := h2.le; have := h3.le; have := h4.le; have := h5.le; omega,
      h5.bound⟩
  | _, _, _, _, .object h1 h2 h3 =>
    ⟨by have := h1.lt (by simp); have := h2.le; have := h3.le; omega, h3.bound⟩
  | _, _, _, _, .strTmpl h1 h2 h3 =>
    ⟨by have := h1.lt (by simp); have := h2.le; have := h3.le; omega, h3.bound⟩
  | _, _, _, _, .heredoc h1 _ h3 h4 _ _ h6 h7 =>
    ⟨by have := h1.le; have := h3.lt; have := h4.le; have := h6.1; have := h7.le; omega, h7.bound⟩
  | _, _, _, _, .paren h1 h2 h3 h4 _ h6 =>
    ⟨by have := h1.le; have := h2.le; have := h3.bounds; have := h4.le; have := h6.le; omega,
      h6.bound⟩
  | _, _, _, _, .var h _ => ⟨identAt_lt h, h.1.bound⟩
  | _, _, _, _, .cond h1 _ _ h3 h4 h5 h6 h7 _ h9 h10 h11 _ =>
    ⟨by have := h1.bounds; have := h3.le; have := h4.le; have := h5.le; have := h6.bounds
        have := h7.le; have := h9.le; have := h10.le; have := h11.bounds; omega, h11.bounds.2⟩
  | _, _, _, _, .call h1 h2 h3 h4 h5 h6 =>
    ⟨by have := h1.lt; have := h2.le; have := h3.le; have := h4.le; have := h5.le; have := h6.le
        omega, h6.bound⟩
  | _, _, _, _, .trav h1 _ h3 h4 h5 _ =>
    ⟨by have := h1.bounds; have := h3.le; have := h4.le; omega, h4.bound h3.bound⟩
  | _, _, _, _, .unary h1 h2 h3 _ _ =>
    ⟨by have := h1.le; have := h2.le; have := h3.bounds; omega, h3.bounds.2⟩
  | _, _, _, _, .binary h1 _ h3 h4 h5 h6 _ _ _ h8 =>
    ⟨by have := h1.bounds; have := h3.le; have := h4.le; have := h5.le; have := h6.bounds
        have := h8.le; omega, h8.bound h6.bounds.2⟩
  | _, _, _, _, .forList h1 h2 h3 h4 h5 _ h7 h8 =>
    ⟨by have := h1.le; have := h2.le; have := h3.le; have := h4.bounds; have := h5.le
        have := h7.le; have := h8.le; omega, h8.bound⟩
  | _, _, _, _, .forObj h1 h2 h3 h4 h5 _ h7 h8 h9 h10 _ h12 _ h14 h15 =>
    ⟨by have := h1.le; have := h2.le; have := h3.le; have := h4.bounds; have := h5.le
        have := h7.le; have := h8.le; have := h9.bounds; have := h10.le; have := h12.le
        have := h14.le; have := h15.le; omega, h15.bound⟩
  | _, _, _, _, .forGroup h1 h2 h3 h4 h5 _ h7 h8 h9 h10 _ h12 h13 h14 =>
    ⟨by have := h1.le; have := h2.le; have := h3.le; have := h4.bounds; have := h5.le
        have := h7.le; have := h8.le; have := h9.bounds; have := h10.le; have := h12.le
        have := h13.le; have := h14.le; omega, h14.bound⟩

theorem Dropped.le : ∀ {nl t a b}, Dropped U s nl t a b → a ≤ b
  | _, _, _, _, .nil => Nat.le_refl _
  | _, _, _, _, .cons _ h1 h2 h3 h4 h5 => by
    have := h1.le; have := h2.le; have := h3.le; have := h4.bounds; have := h5.le; omega

theorem Dropped.bound : ∀ {nl t a b}, Dropped U s nl t a b → a ≤ s.length → b ≤ s.length
  | _, _, _, _, .nil, h => h
  | _, _, _, _, .cons _ _ _ _ h4 h5, _ => h5.bound h4.bounds.2

theorem Intro.le : ∀ {im k v c p q}, Intro U s im k v c p q → p ≤ q
  | _, _, _, _, _, _, .mk h1 h2 h3 h4 h5 h6 h7 _ h9 => by
    have := h1.le; have := h2.le; have := h3.le; have := h4.le; have := h5.le; have := h6.bounds
    have := h7.le; have := h9.le; omega

theorem Cond.le : ∀ {cm co p q}, Cond U s cm co p q → p ≤ q
  | _, _, _, _, .none => Nat.le_refl _
  | _, _, _, _, .some h1 h2 h3 h4 h5 _ => by
    have := h1.le; have := h2.le; have := h3.le; have := h4.bounds; have := h5.le; omega

theorem Elems.le : ∀ {e a b}, Elems U s e a b → a ≤ b
  | _, _, _, .nil => Nat.le_refl _
  | _, _, _, .cons h1 h2 h3 _ h5 => by
    have := h1.le; have := h2.bounds; have := h3.le; have := h5.le; omega

theorem ElemsTail.le : ∀ {e a b}, ElemsTail U s e a b → a ≤ b
  | _, _, _, .nil => Nat.le_refl _
  | _, _, _, .cons h0 h1 h2 h3 _ h5 => by
    have := h0.le; have := h1.le; have := h2.bounds; have := h3.le; have := h5.le; omega

theorem Items.le : ∀ {is tr a b}, Items U s is tr a b → a ≤ b
  | _, _, _, _, .nil h => h.le
  | _, _, _, _, .last h => h.le
  | _, _, _, _, .cons h1 _ h2 h3 => by
    have := h1.le; have := h2.le; have := h3.le; omega

theorem Item.le : ∀ {k v as a b}, Item U s k v as a b → a ≤ b
  | _, _, _, _, _, .ident h1 h2 h3 _ h5 h6 h7 h8 _ _ => by
    have := h1.le; have := identAt_lt h2; have := h3.le; have := h5.le; have := h6.le
    have := h7.bounds; have := h8.le; omega
  | _, _, _, _, _, .expr h1 h2 h3 _ h5 h6 h7 h8 _ _ => by
    have := h1.le; have := h2.bounds; have := h3.le; have := h5.le; have := h6.le
    have := h7.bounds; have := h8.le; omega

theorem Travs.le : ∀ {nl os a b}, Travs U s nl os a b → a ≤ b
  | _, _, _, _, .nil => Nat.le_refl _
  | _, _, _, _, .cons h1 h2 h3 => by
    have := h1.le; have := h2.bounds; have := h3.le; omega

theorem Travs.bound : ∀ {nl os a b}, Travs U s nl os a b → a ≤ s.length → b ≤ s.length
  | _, _, _, _, .nil, h => h
  | _, _, _, _, .cons _ h2 h3, _ => h3.bound h2.bounds.2

theorem TravOp.bounds : ∀ {o a b}, TravOp U s o a b → a < b ∧ b ≤ s.length
  | _, _, _, .attrSplat h1 h2 h3 =>
    ⟨by have := h1.lt (by simp); have := h2.le; have := h3.le; omega, h3.bound⟩
  | _, _, _, .fullSplat h1 h2 h3 h4 h5 =>
    ⟨by have := h1.lt (by simp); have := h2.le; have := h3.le; have := h4.le; have := h5.le; omega,
      h5.bound⟩
  | _, _, _, .getAttr h1 h2 h3 _ =>
    ⟨by have := h1.lt (by simp); have := h2.le; have := identAt_lt h3; omega, h3.1.bound⟩
  | _, _, _, .index h1 h2 h3 h4 _ h6 =>
    ⟨by have := h1.lt (by simp); have := h2.le; have := h3.bounds; have := h4.le; have := h6.le
        omega, h6.bound⟩
  | _, _, _, .legacyIndex h1 h2 h3 _ =>
    ⟨by have := h1.lt (by simp); have := h2.le; have := h3.le; omega, h3.bound⟩

theorem TElems.le : ∀ {m es a b}, TElems U s m es a b → a ≤ b
  | _, _, _, _, .nil => Nat.le_refl _
  | _, _, _, _, .cons h1 h2 => by have := h1.bounds; have := h2.le; omega

theorem ElemAt.bounds : ∀ {m e a b}, ElemAt U s m e a b → a < b ∧ b ≤ s.length
  | _, _, _, _, .lit h1 h2 _ => ⟨h1, h2⟩
  | _, _, _, _, .interp h1 h2 h3 h4 _ h6 =>
    ⟨by have := h1.lt (by simp); have := h2.le; have := h3.bounds; have := h4.le; have := h6.le
        omega, h6.bound⟩
  | _, _, _, _, .ifDir h1 h2 h3 h4 h5 h6 _ h8 h9 h10 h11 =>
    ⟨by have := h1.lt (by simp); have := h2.le; have := h3.le; have := h4.le; have := h5.bounds
        have := h6.le; have := h8.le; have := h9.le; have := h10.le; have := h11.le; omega,
      h11.bound⟩
  | _, _, _, _, .forDir h1 h2 h3 h4 h5 h6 h7 h8 _ h10 h11 h12 =>
    ⟨by have := h1.lt (by simp); have := h2.le; have := h3.le; have := h4.le; have := h5.le
        have := h6.le; have := h7.bounds; have := h8.le; have := h10.le; have := h11.le
        have := h12.le; omega, h12.bound⟩

theorem Else.le : ∀ {el a b}, Else U s el a b → a ≤ b
  | _, _, _, .none => Nat.le_refl _
  | _, _, _, .some h1 h2 => by have := h1.le; have := h2.le; omega

end

theorem Dropped.blocked {nl : Bool} {e e' : EExpr} {a b : Nat} (h : Dropped U s nl (some e) a b)
    (he : ∀ o, Blocked o e → Blocked o e') : Dropped U s nl (some e') a b := by
  cases h with
  | nil => exact .nil
  | cons h1 h2 h3 h4 h5 h6 =>
    exact .cons (fun _ h => by cases h; exact he _ (h1 _ rfl)) h2 h3 h4 h5 h6

theorem isTerm_mapMeta (e : EExpr) (g : Meta → Meta) : isTerm (e.mapMeta g) = isTerm e := by
  cases e <;> rfl

theorem isHead_mapMeta (e : EExpr) (g : Meta → Meta) : isHead (e.mapMeta g) = isHead e := by
  cases e <;> rfl

theorem notCond_mapMeta (e : EExpr) (g : Meta → Meta) : notCond (e.mapMeta g) = notCond e := by
  cases e <;> rfl

theorem isVariable_mapMeta (e : EExpr) (g : Meta → Meta) : isVariable (e.mapMeta g) = isVariable e := by
  cases e <;> rfl

theorem notCond_of_isTerm {e : EExpr} (h : isTerm e = true) : notCond e = true := by
  cases e <;> first | rfl | cases h

/-- The decor of an expression is not part of its `Core`. -/
theorem Core.mapMeta {nl : Bool} {e : EExpr} {a b : Nat} (g : Meta → Meta) (h : Core U s nl e a b) :
    Core U s nl (e.mapMeta g) a b := by
  cases h with
  | null h => exact .null h
  | bool h => exact .bool h
  | number h1 h => exact .number h1 h
  | string h1 => exact .string h1
  | array h1 h2 h3 h4 h5 => exact .array h1 h2 h3 h4 h5
  | object h1 h2 h3 => exact .object h1 h2 h3
  | strTmpl h1 h2 h3 => exact .strTmpl h1 h2 h3
  | heredoc h1 h2 h3 h4 h5 h6 h7 h8 => exact .heredoc h1 h2 h3 h4 h5 h6 h7 h8
  | paren h1 h2 h3 h4 h5 h6 => exact .paren h1 h2 h3 h4 h5 h6
  | var h h' => exact .var h h'
  | cond h1 h2 h3 h4 h5 h6 h7 h8 h9 h10 h11 h12 h13 =>
    exact .cond h1 h2 h3 h4 h5 h6 h7 h8 h9 h10 h11 h12 h13
  | call h1 h2 h3 h4 h5 h6 => exact .call h1 h2 h3 h4 h5 h6
  | trav h1 h2 h3 h4 h5 h6 => exact .trav h1 h2 h3 h4 h5 h6
  | unary h1 h2 h3 h4 h5 => exact .unary h1 h2 h3 h4 h5
  | binary h1 h2 h3 h4 h5 h6 h7 h8 h9 h10 =>
    exact .binary h1 h2 h3 h4 h5 h6 h7 h8 h9 (h10.blocked fun _ h => h)
  | forList h1 h2 h3 h4 h5 h6 h7 h8 => exact .forList h1 h2 h3 h4 h5 h6 h7 h8
  | forObj h1 h2 h3 h4 h5 h6 h7 h8 h9 h10 h11 h12 h13 h14 h15 =>
    exact .forObj h1 h2 h3 h4 h5 h6 h7 h8 h9 h10 h11 h12 h13 h14 h15
  | forGroup h1 h2 h3 h4 h5 h6 h7 h8 h9 h10 h11 h12 h13 h14 =>
    exact .forGroup h1 h2 h3 h4 h5 h6 h7 h8 h9 h10 h11 h12 h13 h14

theorem unlocks_mapMeta (e : EExpr) (g : Meta → Meta) : unlocks (e.mapMeta g) = unlocks e := by
  cases e <;> rfl

/-! Where line breaks are not allowed there are none where they are. -/

theorem Triv.any {nl : Bool} {a b : Nat} (h : Triv s nl a b) : Triv s true a b := by
  exact h.widen

theorem SufIdent.any {nl : Bool} {d : DIdent} {p q : Nat} (h : SufIdent U s nl d p q) :
    SufIdent U s true d p q := by
  obtain ⟨b, h1, h2, h3⟩ := h
  exact ⟨b, h1, h2.any, h3⟩

theorem DecIdent.any {nl : Bool} {d : DIdent} {p q : Nat} (h : DecIdent U s nl d p q) :
    DecIdent U s true d p q := by
  obtain ⟨a, b, h1, h2, h3, h4⟩ := h
  exact ⟨a, b, h1.any, h2, h3.any, h4⟩

theorem PathTail.any {nl : Bool} {ds : List DIdent} {p q : Nat} (h : PathTail U s nl ds p q) :
    PathTail U s true ds p q := by
  induction h with
  | nil => exact .nil
  | cons h1 h2 _ ih => exact .cons h1 h2.any ih

theorem Path.any {nl : Bool} {ds : List DIdent} {p q : Nat} (h : Path U s nl ds p q) :
    Path U s true ds p q := by
  obtain ⟨d, tl, x, h1, h2, h3⟩ := h
  exact ⟨d, tl, x, h1, h2.any, h3.any⟩

theorem Travs.any {nl : Bool} {os : List ETrav} {a b : Nat} (h : Travs U s nl os a b) :
    Travs U s true os a b := by
  induction os generalizing a with
  | nil => cases h; exact .nil
  | cons o os ih => cases h with | cons h1 h2 h3 => exact .cons h1.any h2 (ih h3)

mutual

theorem Core.any : ∀ {nl e a b}, Core U s nl e a b → Core U s true e a b
  | _, _, _, _, .null h => .null h
  | _, _, _, _, .bool h => .bool h
  | _, _, _, _, .number h1 h => .number h1 h
  | _, _, _, _, .string h1 => .string h1
  | _, _, _, _, .array h1 h2 h3 h4 h5 => .array h1 h2 h3 h4 h5
  | _, _, _, _, .object h1 h2 h3 => .object h1 h2 h3
  | _, _, _, _, .strTmpl h1 h2 h3 => .strTmpl h1 h2 h3
  | _, _, _, _, .heredoc h1 h2 h3 h4 h5 h6 h7 h8 => .heredoc h1 h2 h3 h4 h5 h6 h7 h8
  | _, _, _, _, .paren h1 h2 h3 h4 h5 h6 => .paren h1 h2 h3 h4 h5 h6
  | _, _, _, _, .var h h' => .var h h'
  | _, _, _, _, .cond h1 h2 h3 h4 h5 h6 h7 h8 h9 h10 h11 h12 h13 =>
    .cond h1.any h2 h3 h4.any h5 h6.any h7.any h8.any h9 h10 h11.any h12.any h13
  | _, _, _, _, .call h1 h2 h3 h4 h5 h6 => .call h1.any h2 h3 h4 h5 h6
  | _, _, _, _, .trav h1 h2 h3 h4 h5 h6 => .trav h1.any h2 h3.any h4.any h5 h6
  | _, _, _, _, .unary h1 h2 h3 h4 h5 => .unary h1 h2 h3.any h4 h5
  | _, _, _, _, .binary h1 h2 h3 h4 h5 h6 h7 h8 h9 h10 =>
    .binary h1.any h2 h3.any h4 h5.any h6.any h7 h8 h9 h10.any
  | _, _, _, _, .forList h1 h2 h3 h4 h5 h6 h7 h8 => .forList h1 h2 h3 h4 h5 h6 h7 h8
  | _, _, _, _, .forObj h1 h2 h3 h4 h5 h6 h7 h8 h9 h10 h11 h12 h13 h14 h15 =>
    .forObj h1 h2 h3 h4 h5 h6 h7 h8 h9 h10 h11 h12 h13 h14 h15
  | _, _, _, _, .forGroup h1 h2 h3 h4 h5 h6 h7 h8 h9 h10 h11 h12 h13 h14 =>
    .forGroup h1 h2 h3 h4 h5 h6 h7 h8 h9 h10 h11 h12 h13 h14

theorem Dropped.any : ∀ {nl t a b}, Dropped U s nl t a b → Dropped U s true t a b
  | _, _, _, _, .nil => .nil
  | _, _, _, _, .cons h1 h2 h3 h4 h5 h6 => .cons h1 h2.any h3 h4.any h5.any h6.any

end

theorem Triv.imp {n n' : Bool} {a b : Nat} (h : Triv s n a b) (hn : n = true → n' = true) :
    Triv s n' a b := by
  cases n
  · cases n'
    · exact h
    · exact h.any
  · rw [hn rfl]; exact h

theorem Core.imp {n n' : Bool} {e : EExpr} {a b : Nat} (h : Core U s n e a b)
    (hn : n = true → n' = true) : Core U s n' e a b := by
  cases n
  · cases n'
    · exact h
    · exact h.any
  · rw [hn rfl]; exact h

theorem getMeta_mapMeta (e : EExpr) (g : Meta → Meta) : (e.mapMeta g).getMeta = g e.getMeta := by
  cases e <;> rfl

theorem groupStart_mapMeta (e : EExpr) (g : Meta → Meta) : groupStart (e.mapMeta g) = groupStart e := by
  cases e <;> rfl

theorem decStop_decM {p a b q : Nat} (h : b ≤ q) : decStop (decM p a b q) = q := by
  unfold decStop decM Raw.fromSpan
  by_cases hb : b < q
  · simp [hb]
  · simp [hb]; omega

theorem groupedFor_mapMeta (e : EExpr) (g : Meta → Meta) :
    groupedFor (e.mapMeta g) = groupedFor e := by
  cases e with
  | forE m im k v c ke ve gr cm co => cases ke <;> cases gr <;> cases co <;> rfl
  | _ => rfl

theorem TElems.append {m : LitMode} {es fs : List EElem} {a b c : Nat} (h1 : TElems U s m es a b)
    (h2 : TElems U s m fs b c) : TElems U s m (es ++ fs) a c := by
  induction es generalizing a with
  | nil => cases h1; exact h2
  | cons e es ih => cases h1 with | cons h h' => exact .cons h (ih h')

theorem TElems.split {m : LitMode} {es fs : List EElem} {a c : Nat}
    (h : TElems U s m (es ++ fs) a c) : ∃ b, TElems U s m es a b ∧ TElems U s m fs b c := by
  induction es generalizing a with
  | nil => exact ⟨a, .nil, h⟩
  | cons e es ih =>
    cases h with
    | cons h h' =>
      obtain ⟨b, h1, h2⟩ := ih h'
      exact ⟨b, .cons h h1, h2⟩

theorem Tok.split {t u : Str} {a b : Nat} (h : Tok s (t ++ u) a b) :
    ∃ x, Tok s t a x ∧ Tok s u x b := by
  have hd := tok_drop h
  have hl : b = a + (t.length + u.length) := by have := h.1; simpa using this
  have hb := h.bound
  rw [List.append_assoc] at hd
  obtain ⟨h1, h2⟩ := drop_append hd (by omega)
  refine ⟨a + t.length, h1, ?_⟩
  have := (drop_append h2 (by omega)).1
  rwa [Nat.add_assoc, ← hl] at this

theorem LineEnding.lit {a b : Nat} (h : LineEnding s a b) : LitAt false s (slice s a b) a b := by
  rcases h with h | h
  · rw [h.text]
    exact .char h nofun (fun h => by rcases h with h | h <;> cases h) .nil
  · rw [h.text]
    obtain ⟨x, h1, h2⟩ := Tok.split (t := c!"\r") (u := c!"\n") h
    exact .char h1 nofun (fun h => by rcases h with h | h <;> cases h)
      (.char h2 nofun (fun h => by rcases h with h | h <;> cases h) .nil)

theorem TElems.addLineEnding {es : List EElem} {le : Str} {a x b : Nat}
    (h : TElems U s .plain es a x) (hx : x < b) (hb : b ≤ s.length) (hl : LitAt false s le x b) :
    TElems U s .plain (Gram.addLineEnding es le ⟨x, b⟩) a b := by
  unfold Gram.addLineEnding
  rcases List.eq_nil_or_concat es with rfl | ⟨es, l, rfl⟩
  · simp only [List.getLast?_nil, List.nil_append]
    cases h
    exact .cons (.lit hx hb hl) .nil
  · simp only [List.concat_eq_append, List.getLast?_append, List.getLast?_singleton, Option.some_or,
      List.dropLast_concat] at h ⊢
    split
    · rename_i sp t heq
      cases heq
      obtain ⟨y, h1, h2⟩ := h.split
      cases h2 with
      | cons h2 h3 =>
        cases h3
        cases h2 with
        | lit h4 h5 h6 =>
          exact h1.append (.cons (.lit (by simp only; omega) hb (LitAt.append h6 hl)) .nil)
    · exact h.append (.cons (.lit hx hb hl) .nil)

theorem ElemAt.any {m : LitMode} {e : EElem} {a b : Nat} (h : ElemAt U s m e a b) :
    ElemAt U s .any e a b := by
  cases h with
  | lit h1 h2 _ => exact .lit h1 h2 trivial
  | interp h1 h2 h3 h4 h5 h6 => exact .interp h1 h2 h3 h4 h5 h6
  | ifDir h1 h2 h3 h4 h5 h6 h7 h8 h9 h10 h11 =>
    exact .ifDir h1 h2 h3 h4 h5 h6 h7 h8 h9 h10 h11
  | forDir h1 h2 h3 h4 h5 h6 h7 h8 h9 h10 h11 h12 =>
    exact .forDir h1 h2 h3 h4 h5 h6 h7 h8 h9 h10 h11 h12

theorem TElems.any {m : LitMode} {es : List EElem} {a b : Nat} (h : TElems U s m es a b) :
    TElems U s .any es a b := by
  induction es generalizing a with
  | nil => cases h; exact .nil
  | cons e es ih => cases h with | cons h h' => exact .cons h.any (ih h')

theorem TElems.strip {m : LitMode} {n : Nat} {es : List EElem} {sk : Bool} {a b : Nat}
    (h : TElems U s m es a b) : TElems U s .any (tmplStrip n sk es) a b := by
  induction es generalizing a sk with
  | nil => cases h; exact .nil
  | cons e es ih =>
    cases h with
    | cons h h' =>
      cases h with
      | lit h1 h2 => exact .cons (.lit h1 h2 trivial) (ih h')
      | interp h1 h2 h3 h4 h5 h6 => exact .cons (.interp h1 h2 h3 h4 h5 h6) (ih h')
      | ifDir h1 h2 h3 h4 h5 h6 h7 h8 h9 h10 h11 =>
        exact .cons (.ifDir h1 h2 h3 h4 h5 h6 h7 h8 h9 h10 h11) (ih h')
      | forDir h1 h2 h3 h4 h5 h6 h7 h8 h9 h10 h11 h12 =>
        exact .cons (.forDir h1 h2 h3 h4 h5 h6 h7 h8 h9 h10 h11 h12) (ih h')

theorem TElems.heredoc {m : LitMode} {ind : Bool} {es : List EElem} {a b : Nat}
    (h : TElems U s m es a b) : TElems U s .any (heredocElems U ind es).1 a b := by
  unfold heredocElems tmplDedent
  repeat' split
  · exact h.any
  · exact h.any
  · exact h.strip
  · exact h.any

end Verif.Spec
