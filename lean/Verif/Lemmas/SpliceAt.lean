import Verif.Lemmas.Splice
/-! Helper lemmas for C77: where in the source of a document the text of one of its expressions is. -/

set_option linter.unusedSimpArgs false
set_option linter.unusedVariables false

namespace Verif.Spec
open Verif Gram

variable {U : Uni} {s : Str} {E : FmtEnv} {x y : EExpr} {p r : Nat} {v : Str}

/-- The step prints the source between `a` and `b`, with `v` in place of the text between `p` and `r`. -/
def Slot (s v : Str) (w : W) (a b p r : Nat) : Prop :=
  a ≤ p ∧ p ≤ r ∧ r ≤ b ∧ w false = (slice s a p ++ v ++ slice s r b, false)

theorem Slot.left {w u : W} {a b c : Nat} (h : Slot s v w a b p r) (hu : Prints s false u b c) :
    Slot s v (w +> u) a c p r := by
  obtain ⟨h1, h2, h3, h4⟩ := h
  obtain ⟨g1, g2⟩ := hu.2 false nofun
  have g2 : (u false).2 = false := by
    cases hf : (u false).2 with
    | false => rfl
    | true => exact absurd (g2 hf) nofun
  refine ⟨h1, h2, Nat.le_trans h3 hu.1, ?_⟩
  rw [W.seq_apply, h4]
  simp only [g1, g2, List.append_assoc, ← slice_append h3 hu.1]

theorem Slot.right {w u : W} {a b c : Nat} (hu : Prints s false u a b) (h : Slot s v w b c p r) :
    Slot s v (u +> w) a c p r := by
  obtain ⟨h1, h2, h3, h4⟩ := h
  obtain ⟨g1, g2⟩ := hu.2 false nofun
  have g2 : (u false).2 = false := by
    cases hf : (u false).2 with
    | false => rfl
    | true => exact absurd (g2 hf) nofun
  refine ⟨Nat.le_trans hu.1 h1, h2, h3, ?_⟩
  rw [W.seq_apply, g2, h4]
  simp only [g1, List.append_assoc, ← slice_append hu.1 h1]

theorem Slot.deco {w : W} {m : Meta} {d₁ d₂ : Str} {k a b q : Nat} (h1 : Pc s (encDecor d₁ m.decor.pre) k a)
    (h2 : Slot s v w a b p r) (h3 : Pc s (encDecor d₂ m.decor.suf) b q) : Slot s v (deco m d₁ d₂ w) k q p r :=
  .right h1.prints (h2.left h3.prints)

theorem deco_congr {m m' : Meta} (h : m.decor = m'.decor) (d₁ d₂ : Str) (w : W) : deco m d₁ d₂ w = deco m' d₁ d₂ w := by
  funext f
  simp only [deco_apply, h]

/-- The changed expression `e'` has the decor of the expression `e` and prints the source with `v` in the
place. -/
def Slotted (E : FmtEnv) (s v : Str) (e e' : EExpr) (a b p r : Nat) : Prop :=
  Slot s v (e'.core E) a b p r ∧ e'.getMeta.decor = (e.despan s).getMeta.decor

theorem Slotted.dec {e e' : EExpr} {d₁ d₂ : Str} {k a b q : Nat} (h : Slotted E s v e e' a b p r)
    (hm : e.getMeta = decM k a b q) (h1 : k ≤ a) (h2 : b ≤ q) :
    Slot s v (Verif.deco e'.getMeta d₁ d₂ (e'.core E)) k q p r := by
  rw [deco_congr h.2, getMeta_despan, hm]
  exact .deco (decor_pc h1 d₁) h.1 (decor_pc h2 d₂)

theorem Slotted.suf {e e' : EExpr} {d₂ : Str} {a b q : Nat} (h : Slotted E s v e e' a b p r)
    (hm : e.getMeta = sufM a b q) (h2 : b ≤ q) : Slot s v (Verif.deco e'.getMeta [] d₂ (e'.core E)) a q p r := by
  rw [deco_congr h.2, getMeta_despan, hm]
  exact .deco .nil h.1 (decor_pc h2 d₂)

theorem Slotted.pre {e e' : EExpr} {d₁ : Str} {k a b : Nat} (h : Slotted E s v e e' a b p r)
    (hm : PreNodeM s e k a b) (h1 : k ≤ a) (hp : plainSuf (e.despan s) = true) :
    Slot s v (Verif.deco e'.getMeta d₁ [] (e'.core E)) k b p r := by
  rw [deco_congr h.2]
  refine .deco ?_ h.1 (plainSuf_pc hp)
  obtain ⟨r, hm, -⟩ := hm
  rw [getMeta_despan, hm]
  exact decor_pc h1 d₁

theorem Slotted.node {e e' : EExpr} {a b : Nat} (h : Slotted E s v e e' a b p r) (hm : NodeM s e a b)
    (hp : plainSuf (e.despan s) = true) : Slot s v (Verif.deco e'.getMeta [] [] (e'.core E)) a b p r := by
  rw [deco_congr h.2]
  refine .deco ?_ h.1 (plainSuf_pc hp)
  obtain ⟨r, hm, -⟩ := hm
  rw [getMeta_despan, hm]
  exact .nil

/-- The change is inside of the expression. -/
def Deep (x y : EExpr) : EExpr → EExpr → Prop
  | .array m vs c t, e' => ∃ xs z z' ys, vs = xs ++ z :: ys ∧ Swap x y z z' ∧ e' = .array m (xs ++ z' :: ys) c t
  | .object m is t, e' => ∃ xs k k' w w' a i ys, is = xs ++ .mk k w a i :: ys ∧
      e' = .object m (xs ++ .mk k' w' a i :: ys) t ∧
      ((∃ z z', k = .expr z ∧ k' = .expr z' ∧ w' = w ∧ Swap x y z z') ∨ (k' = k ∧ Swap x y w w'))
  | .paren m e, e' => ∃ z, e' = .paren m z ∧ Swap x y e z
  | .cond m c t f, e' => ∃ z, (e' = .cond m z t f ∧ Swap x y c z) ∨ (e' = .cond m c z f ∧ Swap x y t z) ∨
      (e' = .cond m c t z ∧ Swap x y f z)
  | .call m ns n am vs c ex t, e' => ∃ xs z z' ys, vs = xs ++ z :: ys ∧ Swap x y z z' ∧
      e' = .call m ns n am (xs ++ z' :: ys) c ex t
  | .trav m o os, e' => (∃ z, e' = .trav m z os ∧ Swap x y o z) ∨
      ∃ xs om z z' ys, os = xs ++ .mk om (.index z) :: ys ∧ Swap x y z z' ∧
        e' = .trav m o (xs ++ .mk om (.index z') :: ys)
  | .unary m sp o e, e' => ∃ z, e' = .unary m sp o z ∧ Swap x y e z
  | .binary m l om o r, e' => ∃ z, (e' = .binary m z om o r ∧ Swap x y l z) ∨ (e' = .binary m l om o z ∧ Swap x y r z)
  | .forE m im k w c ke ve g cm co, e' => ∃ z, (e' = .forE m im k w z ke ve g cm co ∧ Swap x y c z) ∨
      (∃ o, ke = some o ∧ e' = .forE m im k w c (some z) ve g cm co ∧ Swap x y o z) ∨
      (e' = .forE m im k w c ke z g cm co ∧ Swap x y ve z) ∨
      (∃ o, co = some o ∧ e' = .forE m im k w c ke ve g cm (some z) ∧ Swap x y o z)
  | _, _ => False

theorem Swap.split {e e' : EExpr} (h : Swap x y e e') : (e = x ∧ e' = y) ∨ Deep x y e e' := by
  cases h with
  | here => exact .inl ⟨rfl, rfl⟩
  | array h => exact .inr ⟨_, _, _, _, rfl, h, rfl⟩
  | key h => exact .inr ⟨_, _, _, _, _, _, _, _, rfl, rfl, .inl ⟨_, _, rfl, rfl, rfl, h⟩⟩
  | value h => exact .inr ⟨_, _, _, _, _, _, _, _, rfl, rfl, .inr ⟨rfl, h⟩⟩
  | paren h => exact .inr ⟨_, rfl, h⟩
  | cond h => exact .inr ⟨_, .inl ⟨rfl, h⟩⟩
  | whenTrue h => exact .inr ⟨_, .inr (.inl ⟨rfl, h⟩)⟩
  | whenFalse h => exact .inr ⟨_, .inr (.inr ⟨rfl, h⟩)⟩
  | arg h => exact .inr ⟨_, _, _, _, rfl, h, rfl⟩
  | operand h => exact .inr (.inl ⟨_, rfl, h⟩)
  | index h => exact .inr (.inr ⟨_, _, _, _, _, rfl, h, rfl⟩)
  | unary h => exact .inr ⟨_, rfl, h⟩
  | lhs h => exact .inr ⟨_, .inl ⟨rfl, h⟩⟩
  | rhs h => exact .inr ⟨_, .inr ⟨rfl, h⟩⟩
  | coll h => exact .inr ⟨_, .inl ⟨rfl, h⟩⟩
  | forKey h => exact .inr ⟨_, .inr (.inl ⟨_, rfl, rfl, h⟩)⟩
  | forValue h => exact .inr ⟨_, .inr (.inr (.inl ⟨rfl, h⟩))⟩
  | forCond h => exact .inr ⟨_, .inr (.inr (.inr ⟨_, rfl, rfl, h⟩))⟩

/-- The expressions `x` and `y`: `x` has the span `p..r`, and `y` the decor of `x`. -/
structure At (x y : EExpr) (p r : Nat) : Prop where
  span : x.getMeta.span = some ⟨p, r⟩
  decor : y.getMeta.decor = x.getMeta.decor

theorem slot_of {e e' : EExpr} {a b : Nat} (hx : At x y p r) (hm : e.getMeta.span = some ⟨a, b⟩) (hle : a ≤ b)
    (h : Deep x y (e.despan s) e' → Slotted E s (y.core E false).1 e e' a b p r) (hs : Swap x y (e.despan s) e') :
    Slotted E s (y.core E false).1 e e' a b p r := by
  rcases hs.split with ⟨h1, rfl⟩ | h'
  · subst h1
    have hsp := hx.span
    rw [getMeta_despan] at hsp
    have hsp : e.getMeta.span = some ⟨p, r⟩ := hsp
    rw [hm] at hsp
    cases hsp
    refine ⟨⟨Nat.le_refl _, hle, Nat.le_refl _, ?_⟩, hx.decor⟩
    rw [slice_self, slice_self, List.nil_append, List.append_nil]
    exact Prod.ext rfl (still_core _)
  · exact h h'

theorem despanList_cons {e : EExpr} {es : List EExpr} : EExpr.despanList s (e :: es) = e.despan s :: EExpr.despanList s es := rfl

set_option maxHeartbeats 1000000 in
mutual

theorem _root_.Verif.Spec.Core.slot (E : FmtEnv) (hcr : '\r' ∉ s) (hx : At x y p r) : ∀ {nl e a b}, Core U s nl e a b →
    e.getMeta.span = some ⟨a, b⟩ → canon U s false (e.despan s) = true → a ≤ b → ∀ {e'}, Swap x y (e.despan s) e' →
    Slotted E s (y.core E false).1 e e' a b p r
  | _, _, _, _, .null h, hm, _, hle, _, hs => slot_of hx hm hle (fun h => h.elim) hs
  | _, _, _, _, .bool h, hm, _, hle, _, hs => slot_of hx hm hle (fun h => h.elim) hs
  | _, _, _, _, .number _ h, hm, _, hle, _, hs => slot_of hx hm hle (fun h => h.elim) hs
  | _, _, _, _, .string h, hm, _, hle, _, hs => slot_of hx hm hle (fun h => h.elim) hs
  | _, _, _, _, .strTmpl h1 h2 h3, hm, _, hle, _, hs => slot_of hx hm hle (fun h => h.elim) hs
  | _, _, _, _, .heredoc h1 _ h2 h3 h4 h5 h6 h7, hm, _, hle, _, hs => slot_of hx hm hle (fun h => h.elim) hs
  | _, _, _, _, .var h _, hm, _, hle, _, hs => slot_of hx hm hle (fun h => h.elim) hs
  | _, _, _, _, .array (vs := vs) (comma := c) h1 h2 h3 h4 h5, hm, hc, hle, e', hs => by
    refine slot_of hx hm hle ?_ hs
    rintro ⟨xs, z, z', ys, hv, hz, rfl⟩
    simp only [EExpr.despan, canon, Bool.and_eq_true, despanList_isEmpty] at hc
    refine ⟨.right h1.prints (.left (h2.slot E hcr hx hc.2 hv hz) (Pc.prints ((Pc.append ?_ (raw_pc h4.le _)).append h5.pc))), rfl⟩
    rw [mid_isEmpty]
    exact h3.pc
  | _, _, _, _, .object h1 h2 h3, hm, hc, hle, e', hs => by
    refine slot_of hx hm hle ?_ hs
    simp only [EExpr.despan, canon] at hc
    have he := insertItems_eq h2 (acc := []) (fun _ h => nomatch h) (canonItems_adj hc)
    rw [List.nil_append] at he
    rw [he] at hc
    simp only [EExpr.despan, he]
    rintro ⟨xs, k, k', w, w', a, i, ys, hv, rfl, hk⟩
    have := Slot.right h1.prints ((h2.slot E hcr hx hc hv hk).left h3.prints)
    rw [W.assoc] at this
    exact ⟨this, rfl⟩
  | _, _, _, _, .paren h1 h2 h3 h4 h5 h6, hm, hc, hle, e', hs => by
    refine slot_of hx hm hle ?_ hs
    rintro ⟨z, rfl, hz⟩
    have hp := (h3.prints E hcr (by rw [h5]; rfl) hc).1
    exact ⟨.right h1.prints (((h3.slot E hcr hx (by rw [h5]; rfl) hc hp hz).dec h5 h2.le h4.le).left h6.prints), rfl⟩
  | _, _, _, _, .cond h1 h2 h3 h4 h5 h6 h7 h8 h9 h10 h11 h12 h13, hm, hc, hle, e', hs => by
    refine slot_of hx hm hle ?_ hs
    simp only [EExpr.despan, canon, Bool.and_eq_true] at hc
    obtain ⟨⟨⟨c1, c2⟩, c3⟩, c4⟩ := hc
    have g1 := h1.prints E hcr (by rw [h2]; rfl) c1
    have g2 := h7.prints E hcr (by rw [h9]; rfl) c2
    have g3 := h12.prints E hcr (by obtain ⟨r, hr, -⟩ := h13; rw [hr]) c3
    have i1 := g1.suf (d₂ := c!" ") h2 h4.le
    have i2 := g2.dec (d₁ := c!" ") (d₂ := c!" ") h9 h6.le h8.le
    have i3 := g3.pre (d₁ := c!" ") h13 h11.le c4
    rintro ⟨z, ⟨rfl, hz⟩ | ⟨rfl, hz⟩ | ⟨rfl, hz⟩⟩
    · exact ⟨((h1.slot E hcr hx (by rw [h2]; rfl) c1 g1.1 hz).suf h2 h4.le).left
        (h5.prints.seq (i2.seq (h10.prints.seq i3))), rfl⟩
    · exact ⟨.right i1 (.right h5.prints (((h7.slot E hcr hx (by rw [h9]; rfl) c2 g2.1 hz).dec h9 h6.le h8.le).left
        (h10.prints.seq i3))), rfl⟩
    · exact ⟨.right i1 (.right h5.prints (.right i2 (.right h10.prints
        ((h12.slot E hcr hx (by obtain ⟨r, hr, -⟩ := h13; rw [hr]) c3 g3.1 hz).pre h13 h11.le c4)))), rfl⟩
  | _, _, _, _, .call h1 h2 h3 h4 h5 h6, hm, hc, hle, e', hs => by
    refine slot_of hx hm hle ?_ hs
    simp only [EExpr.despan, canon] at hc
    rintro ⟨xs, z, z', ys, hv, hz, rfl⟩
    have h4 := h4.pc
    rw [← despanList_isEmpty (s := s), hv, mid_isEmpty] at h4
    have := Slot.right (Path.prints h1) (Slot.deco (m := {}) (d₁ := []) (d₂ := []) .nil
      (.right h2.prints ((h3.slot E hcr hx hc hv hz).left
        (Pc.prints ((h4.append (raw_pc h5.le ([] : Str))).append h6.pc)))) .nil)
    rw [W.assoc] at this
    refine ⟨?_, rfl⟩
    simp only [EExpr.core, mid_isEmpty]
    exact this
  | _, _, _, _, .trav h1 h2 h3 h4 _ _, hm, hc, hle, e', hs => by
    refine slot_of hx hm hle ?_ hs
    simp only [EExpr.despan, canon, Bool.and_eq_true] at hc
    have g1 := h1.prints E hcr (by rw [h2]; rfl) hc.1
    rintro (⟨z, rfl, hz⟩ | ⟨xs, om, z, z', ys, hv, hz, rfl⟩)
    · exact ⟨((h1.slot E hcr hx (by rw [h2]; rfl) hc.1 g1.1 hz).suf h2 h3.le).left (h4.prints E hcr hc.2), rfl⟩
    · exact ⟨.right (g1.suf h2 h3.le) (h4.slot E hcr hx hc.2 hv hz), rfl⟩
  | _, _, _, _, .unary h1 h2 h3 h4 _, hm, hc, hle, e', hs => by
    refine slot_of hx hm hle ?_ hs
    simp only [EExpr.despan, canon, Bool.and_eq_true] at hc
    have g1 := h3.prints E hcr (by obtain ⟨r, hr, -⟩ := h4; rw [hr]) hc.1
    rintro ⟨z, rfl, hz⟩
    exact ⟨.right h1.prints ((h3.slot E hcr hx (by obtain ⟨r, hr, -⟩ := h4; rw [hr]) hc.1 g1.1 hz).pre h4 h2.le hc.2), rfl⟩
  | _, _, _, _, .binary (b' := b') (b := b) h1 h2 h3 h4 h5 h6 h7 _ _ h8, hm, hc, hle, e', hs => by
    refine slot_of hx hm hle ?_ hs
    simp only [EExpr.despan, canon, Bool.and_eq_true, decide_eq_true_eq] at hc
    obtain ⟨⟨⟨⟨⟨⟨c1, c2⟩, c3⟩, c4⟩, c5⟩, c6⟩, c7⟩ := hc
    have i1 := h1.prints E hcr (by obtain ⟨r, hr, -⟩ := h2; rw [hr]) c1
    have i2 := h6.prints E hcr (by obtain ⟨r, hr, -⟩ := h7; rw [hr]) c2
    have e : b' = b := by
      obtain ⟨r₂, hr₂, -⟩ := h7
      rw [getMeta_despan, hr₂] at c7
      exact c7.trans (congrArg spanStop hm)
    subst e
    rintro ⟨z, ⟨rfl, hz⟩ | ⟨rfl, hz⟩⟩
    · exact ⟨((h1.slot E hcr hx (by obtain ⟨r, hr, -⟩ := h2; rw [hr]) c1 i1.1 hz).node h2 c5).left
        (Prints.seq (Prints.deco (blank_pc h3.le c3) h4.prints (blank_pc h5.le c4)) (i2.node h7 c6)), rfl⟩
    · exact ⟨.right (i1.node h2 c5) (.right (Prints.deco (blank_pc h3.le c3) h4.prints (blank_pc h5.le c4))
        ((h6.slot E hcr hx (by obtain ⟨r, hr, -⟩ := h7; rw [hr]) c2 i2.1 hz).node h7 c6)), rfl⟩
  | _, _, _, _, .forList h1 h2 h3 h4 h5 h6 h7 h8, hm, hc, hle, e', hs => by
    refine slot_of hx hm hle ?_ hs
    simp only [EExpr.despan, canon, Bool.and_eq_true] at hc
    obtain ⟨⟨⟨⟨c1, -⟩, c2⟩, c3⟩, -⟩ := hc
    have g1 := h2.prints E hcr c1
    have g2 := h4.prints E hcr (by rw [h6]; rfl) c2
    have i2 := g2.dec (d₁ := c!" ") (d₂ := []) h6 h3.le h5.le
    have g3 := h7.prints E hcr c3
    rintro ⟨z, ⟨rfl, hz⟩ | ⟨o, ho, -⟩ | ⟨rfl, hz⟩ | ⟨o, ho, rfl, hz⟩⟩
    · exact ⟨.right h1.prints ((h2.slot E hcr hx c1 hz).left (Pc.nil.prints.seq (i2.seq (Pc.nil.prints.seq
        (g3.seq h8.prints))))), rfl⟩
    · cases ho
    · exact ⟨.right h1.prints (.right g1 (.right Pc.nil.prints
        (((h4.slot E hcr hx (by rw [h6]; rfl) c2 g2.1 hz).dec h6 h3.le h5.le).left (Pc.nil.prints.seq
          (g3.seq h8.prints))))), rfl⟩
    · exact ⟨.right h1.prints (.right g1 (.right Pc.nil.prints (.right i2 (.right Pc.nil.prints
        ((h7.slot E hcr hx c3 ho hz).left h8.prints))))), rfl⟩
  | _, _, _, _, .forObj h1 h2 h3 h4 h5 h6 h7 h8 h9 h10 h11 h12 _ h13 h14, hm, hc, hle, e', hs => by
    refine slot_of hx hm hle ?_ hs
    simp only [EExpr.despan, canon, Bool.and_eq_true] at hc
    obtain ⟨⟨⟨⟨c1, c2⟩, c3⟩, c4⟩, -⟩ := hc
    have g1 := h2.prints E hcr c1
    have g2 := h4.prints E hcr (by rw [h6]; rfl) c2
    have i2 := (g2.dec (d₁ := c!" ") (d₂ := c!" ") h6 h3.le h5.le).seq h7.prints
    have g3 := h9.prints E hcr (by rw [h11]; rfl) c3
    have i3 := g3.dec (d₁ := c!" ") (d₂ := []) h11 h8.le h10.le
    have g4 := h13.prints E hcr c4
    rintro ⟨z, ⟨rfl, hz⟩ | ⟨o, ho, rfl, hz⟩ | ⟨rfl, hz⟩ | ⟨o, ho, rfl, hz⟩⟩
    · exact ⟨.right h1.prints ((h2.slot E hcr hx c1 hz).left (i2.seq (i3.seq (h12.pc.prints.seq
        (g4.seq h14.prints))))), rfl⟩
    · cases ho
      exact ⟨.right h1.prints (.right g1 ((((h4.slot E hcr hx (by rw [h6]; rfl) c2 g2.1 hz).dec h6 h3.le h5.le).left
        h7.prints).left (i3.seq (h12.pc.prints.seq (g4.seq h14.prints))))), rfl⟩
    · exact ⟨.right h1.prints (.right g1 (.right i2
        (((h9.slot E hcr hx (by rw [h11]; rfl) c3 g3.1 hz).dec h11 h8.le h10.le).left (h12.pc.prints.seq
          (g4.seq h14.prints))))), rfl⟩
    · exact ⟨.right h1.prints (.right g1 (.right i2 (.right i3 (.right h12.pc.prints
        ((h13.slot E hcr hx c4 ho hz).left h14.prints))))), rfl⟩
  | _, _, _, _, .forGroup (u := u) (x' := x') (y' := y') (w := w) (z := z) (t := t) (b := b)
      h1 h2 h3 h4 h5 h6 h7 h8 h9 h10 h11 h12 h13 h14, hm, hc, hle, e', hs => by
    refine slot_of hx hm hle ?_ hs
    simp only [EExpr.despan, canon, Bool.and_eq_true] at hc
    obtain ⟨⟨⟨⟨c1, c2⟩, c3⟩, -⟩, c5⟩ := hc
    have e : t = z := by
      have c5 := of_decide_eq_true c5
      have e1 : b = spanStop (Meta.despan s _).span := (congrArg spanStop hm).symm
      have e2 := e1.trans c5
      rw [getMeta_despan, h11] at e2
      have e3 : decorLen ((decM u x' y' w).despan s).decor.suf = w - y' := decorLen_span h10.le h10.bound
      rw [e3] at e2
      have e2 : b = y' + (w - y') + 4 := e2
      have := h12.1; have := h14.1; have := h10.le
      simp at *
      omega
    subst e
    have g1 := h2.prints E hcr c1
    have g2 := h4.prints E hcr (by rw [h6]; rfl) c2
    have i2 := (g2.dec (d₁ := c!" ") (d₂ := c!" ") h6 h3.le h5.le).seq h7.prints
    have g3 := h9.prints E hcr (by rw [h11]; rfl) c3
    have i3 := g3.dec (d₁ := c!" ") (d₂ := []) h11 h8.le h10.le
    rintro ⟨z, ⟨rfl, hz⟩ | ⟨o, ho, rfl, hz⟩ | ⟨rfl, hz⟩ | ⟨o, ho, -⟩⟩
    · exact ⟨.right h1.prints ((h2.slot E hcr hx c1 hz).left (i2.seq (i3.seq (h12.prints.seq
        (Pc.nil.prints.seq h14.prints))))), rfl⟩
    · cases ho
      exact ⟨.right h1.prints (.right g1 ((((h4.slot E hcr hx (by rw [h6]; rfl) c2 g2.1 hz).dec h6 h3.le h5.le).left
        h7.prints).left (i3.seq (h12.prints.seq (Pc.nil.prints.seq h14.prints))))), rfl⟩
    · exact ⟨.right h1.prints (.right g1 (.right i2
        (((h9.slot E hcr hx (by rw [h11]; rfl) c3 g3.1 hz).dec h11 h8.le h10.le).left (h12.prints.seq
          (Pc.nil.prints.seq h14.prints))))), rfl⟩
    · cases ho

theorem _root_.Verif.Spec.Intro.slot (E : FmtEnv) (hcr : '\r' ∉ s) (hx : At x y p r) : ∀ {im k w c a b},
    Intro U s im k w c a b → canon U s false (c.despan s) = true → ∀ {z}, Swap x y (c.despan s) z →
    Slot s (y.core E false).1 (deco (im.despan s) [] [] (W.str c!"for" +> encKeyVar (k.map (DIdent.despan s)) +>
      (w.despan s).enc c!" " [] +> W.str c!"in" +>
        deco z.getMeta c!" " c!" " (z.core E) +> W.str c!":")) a b p r
  | _, _, _, _, _, _, .mk h1 h2 h3 h4 h5 h6 h7 h8 h9, hc, _, hz => by
    have g := h6.prints E hcr (by rw [h8]; rfl) hc
    have := Slot.right h2.prints (.right (ForVars.prints (d₂ := []) h3) (.right h4.prints
      (((h6.slot E hcr hx (by rw [h8]; rfl) hc g.1 hz).dec (d₁ := c!" ") (d₂ := c!" ") h8 h5.le h7.le).left h9.prints)))
    rw [W.assoc] at this
    exact .deco (decor_pc h1.le _) this .nil

theorem _root_.Verif.Spec.Cond.slot (E : FmtEnv) (hcr : '\r' ∉ s) (hx : At x y p r) : ∀ {cm co a b},
    Cond U s cm co a b → canonOpt U s false (EExpr.despanOpt s co) = true → ∀ {o z}, EExpr.despanOpt s co = some o →
    Swap x y o z → Slot s (y.core E false).1 (EExpr.encForCond E (cm.despan s) (some z)) a b p r
  | _, _, _, _, .none, _, _, _, ho, _ => nomatch ho
  | _, _, _, _, .some h1 h2 h3 h4 h5 h6, hc, _, _, ho, hz => by
    cases ho
    have g := h4.prints E hcr (by rw [h6]; rfl) hc
    exact .deco (decor_pc h1.le _) (.right h2.prints
      ((h4.slot E hcr hx (by rw [h6]; rfl) hc g.1 hz).dec h6 h3.le h5.le)) .nil

theorem _root_.Verif.Spec.Elems.slot (E : FmtEnv) (hcr : '\r' ∉ s) (hx : At x y p r) : ∀ {es a b}, Elems U s es a b →
    canonList U s false (EExpr.despanList s es) = true → ∀ {xs z z' ys}, EExpr.despanList s es = xs ++ z :: ys →
    Swap x y z z' → Slot s (y.core E false).1 (EExpr.encList E [] (xs ++ z' :: ys)) a b p r
  | _, _, _, .nil, _, xs, _, _, _, hv, _ => by cases xs <;> cases hv
  | _, _, _, .cons h1 h2 h3 h4 h5, hc, xs, _, _, _, hv, hz => by
    simp only [EExpr.despanList, canonList, Bool.and_eq_true] at hc
    rw [despanList_cons] at hv
    have g := h2.prints E hcr (by rw [h4]; rfl) hc.1
    cases xs with
    | nil =>
      injection hv with hv1 hv2
      subst hv1 hv2
      exact .right Pc.nil.prints (((h2.slot E hcr hx (by rw [h4]; rfl) hc.1 g.1 hz).dec h4 h1.le h3.le).left
        (h5.prints E hcr hc.2))
    | cons u xs =>
      injection hv with hv1 hv2
      subst hv1
      exact .right Pc.nil.prints (.right (g.dec h4 h1.le h3.le) (h5.slot E hcr hx hc.2 hv2 hz))

theorem _root_.Verif.Spec.ElemsTail.slot (E : FmtEnv) (hcr : '\r' ∉ s) (hx : At x y p r) : ∀ {es a b},
    ElemsTail U s es a b →
    canonList U s false (EExpr.despanList s es) = true → ∀ {xs z z' ys}, EExpr.despanList s es = xs ++ z :: ys →
    Swap x y z z' → Slot s (y.core E false).1 (EExpr.encList E c!" " (xs ++ z' :: ys)) a b p r
  | _, _, _, .nil, _, xs, _, _, _, hv, _ => by cases xs <;> cases hv
  | _, _, _, .cons h0 h1 h2 h3 h4 h5, hc, xs, _, _, _, hv, hz => by
    simp only [EExpr.despanList, canonList, Bool.and_eq_true] at hc
    rw [despanList_cons] at hv
    have g := h2.prints E hcr (by rw [h4]; rfl) hc.1
    cases xs with
    | nil =>
      injection hv with hv1 hv2
      subst hv1 hv2
      exact .right h0.prints (((h2.slot E hcr hx (by rw [h4]; rfl) hc.1 g.1 hz).dec h4 h1.le h3.le).left
        (h5.prints E hcr hc.2))
    | cons u xs =>
      injection hv with hv1 hv2
      subst hv1
      exact .right h0.prints (.right (g.dec h4 h1.le h3.le) (h5.slot E hcr hx hc.2 hv2 hz))

theorem _root_.Verif.Spec.Items.slot (E : FmtEnv) (hcr : '\r' ∉ s) (hx : At x y p r) : ∀ {is tr a b},
    Items U s is tr a b → canonItems U s false (EExpr.despanItems s is) = true →
    ∀ {xs k k' w w' as i ys}, EExpr.despanItems s is = xs ++ .mk k w as i :: ys →
    ((∃ z z', k = .expr z ∧ k' = .expr z' ∧ w' = w ∧ Swap x y z z') ∨ (k' = k ∧ Swap x y w w')) →
    Slot s (y.core E false).1 (EExpr.encItems E (xs ++ .mk k' w' as i :: ys) +> W.str ((tr.despan s).enc [])) a b p r
  | _, _, _, _, .nil h, _, xs, _, _, _, _, _, _, _, hv, _ => by cases xs <;> cases hv
  | _, _, _, _, .last h, hc, xs, _, _, _, _, _, _, _, hv, hk => by
    simp only [EExpr.despanItems, canonItems, Bool.and_eq_true] at hc
    simp only [EExpr.despanItems] at hv
    cases xs with
    | nil =>
      injection hv with hv1 hv2
      injection hv1 with hk1 hw1 ha1 hi1
      subst hk1 hw1 ha1 hi1 hv2
      have := (h.slot E hcr hx hc.1.1.1 hc.1.1.2 hk).left (Pc.nil.prints.seq (Pc.nil.prints.seq
        (Pc.nil (s := s)).prints))
      simp only [W.assoc] at this
      simp only [List.nil_append, EExpr.encItems, W.assoc]
      exact this
    | cons u xs =>
      injection hv with _ hv
      cases xs <;> cases hv
  | _, _, _, _, .cons h1 _ h2 h3, hc, xs, _, _, _, _, _, _, _, hv, hk => by
    simp only [EExpr.despanItems, canonItems, Bool.and_eq_true] at hc
    simp only [EExpr.despanItems] at hv
    cases xs with
    | nil =>
      injection hv with hv1 hv2
      injection hv1 with hk1 hw1 ha1 hi1
      subst hk1 hw1 ha1 hi1 hv2
      have := (h1.slot E hcr hx hc.1.1.1 hc.1.1.2 hk).left ((h2.pc hcr).prints.seq (h3.prints E hcr hc.2))
      simp only [W.assoc] at this
      simpa only [List.nil_append, EExpr.encItems, W.assoc] using this
    | cons u xs =>
      injection hv with hv1 hv
      subst hv1
      have := Slot.right (h1.prints E hcr hc.1.1.1 hc.1.1.2) (.right (h2.pc hcr).prints (h3.slot E hcr hx hc.2 hv hk))
      simp only [W.assoc] at this
      simpa only [List.cons_append, EExpr.encItems, W.assoc] using this

theorem _root_.Verif.Spec.Item.slot (E : FmtEnv) (hcr : '\r' ∉ s) (hx : At x y p r) : ∀ {k w as a b},
    Item U s k w as a b → canonKey U s false (k.despan s) = true →
    canon U s false (w.despan s) = true → ∀ {k' w'},
    ((∃ z z', k.despan s = .expr z ∧ k' = .expr z' ∧ w' = w.despan s ∧ Swap x y z z') ∨
      (k' = k.despan s ∧ Swap x y (w.despan s) w')) →
    Slot s (y.core E false).1 (k'.enc E +> W.str as.enc +> deco w'.getMeta c!" " [] (w'.core E)) a b p r
  | _, _, _, _, _, .ident (d := d) h1 h2 h3 h4 h5 h6 h7 h8 h9 _, _, hv, _, _, hk => by
    have g := h7.prints E hcr (by rw [h9]; rfl) hv
    rcases hk with ⟨z, z', hk, -⟩ | ⟨rfl, hz⟩
    · cases hk
    · refine Slot.right ?_ (.right (assign_pc h5).prints
        ((h7.slot E hcr hx (by rw [h9]; rfl) hv g.1 hz).dec h9 h6.le h8.le))
      show Prints s false (Verif.deco (d.m.despan s) [] c!" " (W.str d.name)) _ _
      rw [h4]
      exact .deco (decor_pc h1.le _) h2.1.prints (decor_pc h3.le _)
  | _, _, _, _, _, .expr h1 h2 h3 h4 h5 h6 h7 h8 h9 _, hk, hv, _, _, hs => by
    have g1 := h2.prints E hcr (by rw [h4]; rfl) hk
    have g2 := h7.prints E hcr (by rw [h9]; rfl) hv
    rcases hs with ⟨z, z', he, rfl, rfl, hz⟩ | ⟨rfl, hz⟩
    · injection he with he
      subst he
      exact ((h2.slot E hcr hx (by rw [h4]; rfl) hk g1.1 hz).dec h4 h1.le h3.le).left ((assign_pc h5).prints.seq
        (g2.dec h9 h6.le h8.le))
    · exact .right (g1.dec h4 h1.le h3.le) (.right (assign_pc h5).prints
        ((h7.slot E hcr hx (by rw [h9]; rfl) hv g2.1 hz).dec h9 h6.le h8.le))

theorem _root_.Verif.Spec.Travs.slot (E : FmtEnv) (hcr : '\r' ∉ s) (hx : At x y p r) : ∀ {nl os a b}, Travs U s nl os a b →
    canonTravs U s false (EExpr.despanTravs s os) = true → ∀ {xs om z z' ys},
    EExpr.despanTravs s os = xs ++ .mk om (.index z) :: ys → Swap x y z z' →
    Slot s (y.core E false).1 (EExpr.encTravs E (xs ++ .mk om (.index z') :: ys)) a b p r
  | _, _, _, _, .nil, _, xs, _, _, _, _, hv, _ => by cases xs <;> cases hv
  | _, _, _, _, .cons h1 h2 h3, hc, xs, _, _, _, _, hv, hz => by
    simp only [EExpr.despanTravs, canonTravs, Bool.and_eq_true] at hc
    simp only [EExpr.despanTravs] at hv
    have j1 := fun z z' ho hz => h2.slot E hcr hx hc.1.2 (z := z) (z' := z') ho hz
    have j2 := fun xs om z z' ys hv hz => h3.slot E hcr hx hc.2 (xs := xs) (om := om) (z := z) (z' := z') (ys := ys) hv hz
    have i1 := h2.prints E hcr hc.1.2
    have i2 := h3.prints E hcr hc.2
    have e := noDecor_eq h1.le hc.1.1
    subst e
    cases xs with
    | nil =>
      injection hv with hv1 hv2
      injection hv1 with hm ho
      subst hm hv2
      refine Slot.left (Slot.deco ?_ (j1 _ _ ho hz) .nil) i2
      show Pc s (Raw.enc [] (.fromSpan ⟨_, _⟩)) _ _
      rw [Raw.fromSpan, if_neg (Nat.lt_irrefl _)]
      exact .nil
    | cons u xs =>
      injection hv with hv1 hv
      subst hv1
      refine Slot.right (Prints.deco ?_ i1 .nil) (j2 _ _ _ _ _ hv hz)
      show Pc s (Raw.enc [] (.fromSpan ⟨_, _⟩)) _ _
      rw [Raw.fromSpan, if_neg (Nat.lt_irrefl _)]
      exact .nil

theorem _root_.Verif.Spec.TravOp.slot (E : FmtEnv) (hcr : '\r' ∉ s) (hx : At x y p r) : ∀ {o a b}, TravOp U s o a b →
    canonOp U s false (o.despan s) = true → ∀ {z z'}, o.despan s = .index z → Swap x y z z' →
    Slot s (y.core E false).1 ((ETravOp.index z').enc E) a b p r
  | _, _, _, .attrSplat h1 h2 h3, _, _, _, ho, _ => nomatch ho
  | _, _, _, .fullSplat h1 h2 h3 h4 h5, _, _, _, ho, _ => nomatch ho
  | _, _, _, .getAttr h1 h2 h3 h4, _, _, _, ho, _ => nomatch ho
  | _, _, _, .index h1 h2 h3 h4 h5 h6, hc, _, _, ho, hz => by
    injection ho with ho
    subst ho
    have g := h3.prints E hcr (by rw [h5]; rfl) hc
    exact .right h1.prints (((h3.slot E hcr hx (by rw [h5]; rfl) hc g.1 hz).dec h5 h2.le h4.le).left h6.prints)
  | _, _, _, .legacyIndex h1 h2 h3 _, _, _, _, ho, _ => nomatch ho

end

/-- Inversion for structures. -/
def DeepStruct (x y : EExpr) : EStruct → EStruct → Prop
  | .attr m k e, z' => ∃ e', z' = .attr m k e' ∧ Swap x y e e'
  | .block m i ls (.mk bm ss o om), z' => ∃ xs z u ys, ss = xs ++ z :: ys ∧
      z' = .block m i ls (.mk bm (xs ++ u :: ys) o om) ∧ SwapStruct x y z u

theorem SwapStruct.split {z z' : EStruct} (h : SwapStruct x y z z') : DeepStruct x y z z' := by
  cases h with
  | attr h => exact ⟨_, rfl, h⟩
  | block h => exact ⟨_, _, _, _, rfl, rfl, h⟩

theorem SwapStruct.oneline {z z' : EStruct} (h : SwapStruct x y z z') (xs ys : List EStruct) :
    onelineOk (xs ++ z' :: ys) = onelineOk (xs ++ z :: ys) :=
  oneline_swap (fun m k v e => by subst e; cases h; exact ⟨_, rfl⟩)
    (fun m i ls b e => by subst e; cases h; exact ⟨_, rfl⟩) xs ys

mutual

theorem _root_.Verif.Spec.StructAt.slot (E : FmtEnv) (hcr : '\r' ∉ s) (hx : At x y p r) : ∀ {st a b},
    StructAt U s st a b → canonStruct U s (st.despan s) = true → ∀ {k q}, structMeta st = decM k a b q →
    k ≤ a → b ≤ q → ∀ {d₁ d₂ : Str} {st'}, SwapStruct x y (st.despan s) st' →
    Slot s (y.core E false).1 (st'.enc E d₁ d₂) k q p r
  | _, _, _, .attr (m := m) (k := k) (v := v) h1 h2 h3 h4 h5, hc, _, _, hm, hp, hr, d₁, d₂, _, hs => by
    obtain ⟨e', rfl, hz⟩ := hs.split
    simp only [EStruct.despan, canonStruct, Bool.and_eq_true] at hc
    have g := h4.prints E hcr (by obtain ⟨r, hr, -⟩ := h5; rw [hr]) hc.1
    have i := h4.slot E hcr hx (by obtain ⟨r, hr, -⟩ := h5; rw [hr]) hc.1 g.1 hz
    have hm : m = _ := hm
    show Slot s _ (Verif.deco (m.despan s) d₁ d₂ (encAttr E (k.despan s) e')) _ _ p r
    rw [hm]
    exact .deco (decor_pc hp _)
      (.right (SufIdent.prints h1) (.right h2.prints (i.pre h5 h3.le hc.2))) (decor_pc hr _)
  | _, _, _, .block (m := m) (i := i) (ls := ls) (bd := .mk bm ss o om) h1 h2 h3 h4 h5, hc, _, _, hm,
      hp, hr, d₁, d₂, _, hs => by
    simp only [EStruct.despan, EBody.despan] at hs
    obtain ⟨xs, z, u, ys, hv, rfl, hz⟩ := hs.split
    simp only [EStruct.despan, canonStruct, Bool.and_eq_true] at hc
    have ih := h4.slot E hcr hx hc.2 hv hz
    have hm : m = _ := hm
    simp only [EStruct.enc]
    rw [hm]
    exact .deco (decor_pc hp _)
      (.right (SufIdent.prints h1) (.right (Labels.prints h2 hc.1) (.right h3.prints (ih.left h5.prints))))
      (decor_pc hr _)

theorem _root_.Verif.Spec.BlockBody.slot (E : FmtEnv) (hcr : '\r' ∉ s) (hx : At x y p r) : ∀ {bm ss o om a b},
    BlockBody U s (.mk bm ss o om) a b → canonBody U s (EBody.despan s (.mk bm ss o om)) = true →
    ∀ {xs z u ys}, EStruct.despanList s ss = xs ++ z :: ys → SwapStruct x y z u →
    Slot s (y.core E false).1 (deco (bm.despan s) [] [] (if o && onelineOk (xs ++ u :: ys)
      then EStruct.encOneline E (xs ++ u :: ys)
      else W.str c!"\n" +> EStruct.encList E (xs ++ u :: ys))) a b p r
  | _, _, _, _, _, _, .lines h1 h2 h3 _ h4, hc, _, _, _, _, hv, hz => by
    simp only [EBody.despan, canonBody] at hc
    have ih := h3.slot E hcr hx hc hv hz
    rw [encStructs_false] at ih
    exact .deco (decor_pc h1.le _) (.right (LineEnding.tok h2 hcr).prints ih) (decor_pc h4.le _)
  | _, _, _, _, _, _, .empty h, _, xs, _, _, _, hv, _ => by cases xs <;> cases hv
  | _, _, _, _, _, _, .single h1 h2 h3 h4, hc, xs, _, _, _, hv, hz => by
    simp only [EBody.despan, canonBody, EStruct.despanList, canonStructs, Bool.and_eq_true] at hc
    simp only [EStruct.despanList] at hv
    rw [hz.oneline]
    cases xs with
    | nil =>
      injection hv with hv1 hv2
      subst hv1 hv2
      have ih := h2.slot E hcr hx hc.1 rfl h1.le h3.le (d₁ := c!" ") (d₂ := c!" ") hz
      exact .deco .nil ih (decor_pc h4.le _)
    | cons w xs =>
      injection hv with _ hv
      cases xs <;> cases hv

theorem _root_.Verif.Spec.Lines.slot (E : FmtEnv) (hcr : '\r' ∉ s) (hx : At x y p r) : ∀ {ss fin a b},
    Lines U s ss fin a b → canonStructs U s (EStruct.despanList s ss) = true →
    ∀ {xs z u ys}, EStruct.despanList s ss = xs ++ z :: ys → SwapStruct x y z u →
    Slot s (y.core E false).1 (encStructs E fin (xs ++ u :: ys)) a b p r
  | _, _, _, _, .nil, _, xs, _, _, _, hv, _ => by cases xs <;> cases hv
  | _, _, _, _, .cons (ss := ss) (fin := fin) h1 h2 h3 h4 h5 h6, hc, xs, z, u, ys, hv, hz => by
    simp only [EStruct.despanList, canonStructs, Bool.and_eq_true] at hc
    simp only [EStruct.despanList] at hv
    have hn : (!(EStruct.despanList s ss).isEmpty || !fin) = true := by
      rw [despanStructs_isEmpty]
      cases h6 <;> simp
    have nl := (LineEnding.tok h5 hcr).prints (q := false)
    cases xs with
    | nil =>
      injection hv with hv1 hv2
      subst hv1 hv2
      refine Slot.left (h2.slot E hcr hx hc.1 h3 h1.le h4.le (d₁ := []) (d₂ := []) hz) (Prints.seq ?_ (h6.prints E hcr hc.2))
      rw [hn]
      exact nl
    | cons w xs =>
      injection hv with hv1 hv
      subst hv1
      refine Slot.right (h2.prints E hcr hc.1 h3 h1.le h4.le (d₁ := []) (d₂ := [])) (.right ?_ (h6.slot E hcr hx hc.2 hv hz))
      have hn : (!(xs ++ u :: ys).isEmpty || !fin) = true := by rw [mid_isEmpty]; rfl
      have hn : (!(xs.append (u :: ys)).isEmpty || !fin) = true := hn
      rw [hn]
      exact nl
  | _, _, _, _, .last h1 h2 h3 h4, hc, xs, _, _, _, hv, hz => by
    simp only [EStruct.despanList, canonStructs, Bool.and_eq_true] at hc
    simp only [EStruct.despanList] at hv
    cases xs with
    | nil =>
      injection hv with hv1 hv2
      subst hv1 hv2
      have i1 := h2.slot E hcr hx hc.1 h3 h1.le h4.le (d₁ := []) (d₂ := []) hz
      exact i1.left (Pc.nil.prints.seq Pc.nil.prints)
    | cons w xs =>
      injection hv with _ hv
      cases xs <;> cases hv

end

theorem Document.slot (E : FmtEnv) (hcr : '\r' ∉ s) (hx : At x y p r) {b b' : EBody} (h : Document U s b)
    (hc : canonBody U s (b.despan s) = true) (hs : SwapBody x y (b.despan s) b') :
    p ≤ r ∧ r ≤ s.length ∧ b'.show E = slice s 0 p ++ (y.core E false).1 ++ slice s r s.length := by
  cases h with
  | @mk ss fin z h1 _ h2 =>
    simp only [EBody.despan, canonBody] at hc hs
    generalize hv : EStruct.despanList s ss = ws at hs
    cases hs with
    | mk hz =>
      obtain ⟨g1, g2, g3, g4⟩ := Slot.deco (m := ⟨⟨none, some _⟩, none⟩) (d₁ := []) (d₂ := []) .nil
        (h1.slot E hcr hx hc hv hz) (decor_pc h2.le _)
      exact ⟨g2, g3, congrArg Prod.fst g4⟩

end Verif.Spec
