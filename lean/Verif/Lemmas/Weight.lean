import Verif.Lemmas.Canon
import Verif.Lemmas.Halt
/-! Helper lemmas for C76: printing a parsed template does not make it heavier, where only braces and the
characters of Unicode escapes weigh something. -/

set_option linter.unusedSimpArgs false
set_option linter.unusedVariables false

namespace Verif.Spec
open Gram

/-- What a character weighs: braces, the letters of Unicode escapes and the characters that are written as
Unicode escapes. -/
def wt (c : Char) : Nat :=
  if c.toNat = 123 ∨ c.toNat = 117 ∨ c.toNat = 85 ∨ c.toNat = 127 ∨
    (c.toNat ≤ 31 ∧ c.toNat ≠ 8 ∧ c.toNat ≠ 9 ∧ c.toNat ≠ 10 ∧ c.toNat ≠ 12 ∧ c.toNat ≠ 13) then 1 else 0

/-- What a text weighs. -/
def kap : Str → Nat
  | [] => 0
  | c :: cs => wt c + kap cs

theorem wt_le (c : Char) : wt c ≤ 1 := by unfold wt; split <;> omega

@[simp] theorem kap_nil : kap [] = 0 := rfl
@[simp] theorem kap_cons (c : Char) (s : Str) : kap (c :: s) = wt c + kap s := rfl

@[simp] theorem kap_append (a b : Str) : kap (a ++ b) = kap a + kap b := by
  induction a with
  | nil => simp
  | cons c a ih => simp [ih, Nat.add_assoc]

@[simp] theorem kap_reverse (a : Str) : kap a.reverse = kap a := by
  induction a with
  | nil => rfl
  | cons c a ih => simp [ih, Nat.add_comm]

theorem wt_space : wt ' ' = 0 := by decide

@[simp] theorem kap_spaces (n : Nat) : kap (List.replicate n ' ') = 0 := by
  induction n with
  | zero => rfl
  | succ n ih => rw [List.replicate_succ, kap_cons, ih, wt_space]

theorem kap_drop (n : Nat) (a : Str) : kap (a.drop n) ≤ kap a := by
  have := kap_append (a.take n) (a.drop n)
  rw [List.take_append_drop] at this
  omega

theorem kap_take (n : Nat) (a : Str) : kap (a.take n) ≤ kap a := by
  have := kap_append (a.take n) (a.drop n)
  rw [List.take_append_drop] at this
  omega

/-! ### Lines -/

/-- What lines weigh. -/
def kaps : List Str → Nat
  | [] => 0
  | l :: ls => kap l + kaps ls

theorem kap_strLines (s : Str) : ∀ cur, kaps (strLines cur s) = kap cur + kap s := by
  induction s with
  | nil =>
    intro cur
    rw [strLines]
    cases cur <;> simp [kaps, Nat.add_comm]
  | cons c s ih =>
    intro cur
    by_cases hc : c = '\n'
    · subst hc
      have hn : wt '\n' = 0 := by decide
      have hr : wt '\r' = 0 := by decide
      rw [strLines.eq_def]
      simp only [kaps, ih]
      split <;> simp [hn, hr]
    · rw [strLines]
      · rw [ih]; simp; omega
      · exact hc

theorem kap_indentRest (n : Nat) : ∀ ls, kap (indentRest n ls) = kaps ls
  | [] => rfl
  | l :: ls => by
    have hn : wt '\n' = 0 := by decide
    rw [indentRest, kaps, kap_cons, kap_append, kap_append, kap_indentRest n ls, hn]
    split <;> simp

theorem kap_indentBy (s : Str) (n : Nat) (k : Bool) : kap (indentBy s n k) = kap s := by
  have h := kap_strLines s []
  have hn : kap ['\n'] = 0 := by decide
  unfold indentBy
  rw [kap_append]
  have e : kap (if s.getLast? = some '\n' then ['\n'] else []) = 0 := by split <;> simp [hn]
  rw [e]
  split
  · rename_i h'; rw [h'] at h; simpa [kaps] using h
  · rename_i l ls h'
    rw [h'] at h
    rw [kap_append, kap_append, kap_indentRest]
    have : kap (if (!k && !l.isEmpty) = true then List.replicate n ' ' else []) = 0 := by split <;> simp
    rw [this]
    simpa [kaps] using h

theorem kap_dedentLines (n : Nat) : ∀ (k : Bool) ls, kap (dedentLines n k ls) ≤ kaps ls
  | _, [] => Nat.le_refl _
  | k, l :: ls => by
    have hn : wt '\n' = 0 := by decide
    have ih := kap_dedentLines n false ls
    have hd := kap_drop n l
    rw [dedentLines, kaps, kap_append, kap_cons, hn]
    split
    · omega
    · split
      · simp; omega
      · omega

theorem kap_dedentBy (s : Str) (n : Nat) (k : Bool) : kap (dedentBy s n k) ≤ kap s := by
  have h := kap_strLines s []
  have h' := kap_dedentLines n k (strLines [] s)
  simp only [kap_nil, Nat.zero_add] at h
  unfold dedentBy
  dsimp only
  split
  · rw [List.dropLast_eq_take]
    exact Nat.le_trans (kap_take ..) (by omega)
  · omega

/-! ### Escapes -/

theorem wt_sigil {c : Char} (h : Sigil c) : wt c = 0 := by
  rcases h with rfl | rfl <;> decide

theorem kap_escOwned (s : Str) : kap (escapeMarkersOwned s) = kap s := by
  induction s using Markers.owned_induction with
  | hnil => rfl
  | hns c r h ih => rw [Markers.escOwned_nonsigil h]; simp [ih]
  | hm c r h ih => rw [Markers.escOwned_marker h]; simp [ih, wt_sigil h]
  | hs c d r h hd ih => rw [Markers.escOwned_sigil h hd]; simp [ih]
  | h1 c h => rw [Markers.escOwned_sigil_nil h]

theorem kap_esc (s : Str) : kap (escapeMarkers s) = kap s := by
  induction s with
  | nil => rfl
  | cons c s ih =>
    rw [escapeMarkers]
    split
    · exact kap_escOwned _
    · simp [ih]

theorem kap_encEscChar (c : Char) : kap (encEscChar c) = wt c := by
  have hx : ∀ n < 128, kap ['\\', 'u', '0', '0', hexUpper (n / 16), hexUpper (n % 16)] = 1 := by decide +kernel
  unfold encEscChar
  by_cases h1 : c.toNat = 0x08
  · rw [if_pos h1]; simp [wt, h1]
  rw [if_neg h1]
  by_cases h2 : c.toNat = 0x09
  · rw [if_pos h2]; simp [wt, h2]
  rw [if_neg h2]
  by_cases h3 : c.toNat = 0x0a
  · rw [if_pos h3]; simp [wt, h3]
  rw [if_neg h3]
  by_cases h4 : c.toNat = 0x0c
  · rw [if_pos h4]; simp [wt, h4]
  rw [if_neg h4]
  by_cases h5 : c.toNat = 0x0d
  · rw [if_pos h5]; simp [wt, h5]
  rw [if_neg h5]
  by_cases h6 : c.toNat = 0x22
  · rw [if_pos h6]; simp [wt, h6]
  rw [if_neg h6]
  by_cases h7 : c.toNat = 0x5c
  · rw [if_pos h7]; simp [wt, h7]
  rw [if_neg h7]
  split
  · rename_i h
    rw [hx c.toNat (by omega), wt, if_pos (by omega)]
  · simp

theorem kap_encEscaped : ∀ s, kap (encEscaped s) = kap s
  | [] => rfl
  | c :: s => by rw [encEscaped, kap_append, kap_encEscChar, kap_encEscaped s, kap_cons]

theorem kap_encLit (t : Str) (f : Bool) : kap (encLit t f).1 = kap t := by
  unfold encLit
  cases f
  · exact kap_esc t
  · exact (kap_encEscaped _).trans (kap_esc t)

theorem kap_quoted (t : Str) : kap (encQuoted t) = kap t := by
  have : wt '"' = 0 := by decide
  simp [encQuoted, kap_encEscaped, kap_esc, this]

theorem kap_escape {e : Str} {c : Char} (h : Escape e c) : wt c ≤ kap e := by
  cases h with
  | simple h =>
    simp only [escapeTable, List.mem_cons, Prod.mk.injEq, List.not_mem_nil, or_false] at h
    rcases h with ⟨rfl, rfl⟩ | ⟨rfl, rfl⟩ | ⟨rfl, rfl⟩ | ⟨rfl, rfl⟩ | ⟨rfl, rfl⟩ | ⟨rfl, rfl⟩ | ⟨rfl, rfl⟩ |
      ⟨rfl, rfl⟩ <;> decide
  | unicode h _ =>
    have h1 := wt_le c
    have h2 : wt 'u' = 1 := by decide
    have h3 : wt 'U' = 1 := by decide
    rcases h with ⟨rfl, -⟩ | ⟨rfl, -⟩ <;> simp <;> omega

variable {U : Uni} {s : Str} {E : FmtEnv}

/-- What the source weighs between two offsets. -/
def kp (s : Str) (a b : Nat) : Nat := kap (slice s a b)

theorem kp_add {a b c : Nat} (h1 : a ≤ b) (h2 : b ≤ c) : kp s a b + kp s b c = kp s a c := by
  unfold kp; rw [← kap_append, slice_append h1 h2]

theorem kp_mono {a b a' b' : Nat} (h1 : a' ≤ a) (h2 : a ≤ b) (h3 : b ≤ b') : kp s a b ≤ kp s a' b' := by
  have e1 := kp_add (s := s) h1 (Nat.le_trans h2 h3)
  have e2 := kp_add (s := s) h2 h3
  omega

theorem kap_lit {q : Bool} {t : Str} {a b : Nat} (h : LitAt q s t a b) : a ≤ b ∧ kap t ≤ kp s a b := by
  induction h with
  | nil => exact ⟨Nat.le_refl _, Nat.zero_le _⟩
  | marker hs h1 _ ih =>
    have e := kp_add (s := s) h1.le ih.1
    have e1 : kp s _ _ = _ := congrArg kap h1.text
    rw [e1] at e
    simp only [kap_cons, kap_nil] at *
    exact ⟨Nat.le_trans h1.le ih.1, by omega⟩
  | esc _ h1 h2 _ ih =>
    have e := kp_add (s := s) h1.le ih.1
    have e1 : kp s _ _ = _ := congrArg kap h1.text
    rw [e1] at e
    have := kap_escape h2
    simp only [kap_cons, kap_nil] at *
    exact ⟨Nat.le_trans h1.le ih.1, by omega⟩
  | char h1 _ _ _ ih =>
    have e := kp_add (s := s) h1.le ih.1
    have e1 : kp s _ _ = _ := congrArg kap h1.text
    rw [e1] at e
    simp only [kap_cons, kap_nil] at *
    exact ⟨Nat.le_trans h1.le ih.1, by omega⟩

theorem kap_quotedLit {t : Str} {a b : Nat} (h : QuotedLit s t a b) : a ≤ b ∧ kap t ≤ kp s a b := by
  obtain ⟨x, h1, h2⟩ := h
  have := kap_lit h1
  rcases h2 with rfl | ⟨-, h2, -⟩
  · exact this
  · exact ⟨by omega, Nat.le_trans this.2 (kp_mono (Nat.le_refl _) this.1 (Nat.le_of_lt h2))⟩

theorem kap_quotedAt {t : Str} {a b : Nat} (h : QuotedAt s t a b) : a ≤ b ∧ kap t ≤ kp s a b := by
  obtain ⟨p, q, h1, h2, h3⟩ := h
  have := kap_quotedLit h2
  have e1 := h1.le
  have e2 := h3.le
  exact ⟨by omega, Nat.le_trans this.2 (kp_mono e1 this.1 e2)⟩

/-! ### What is printed weighs the same with and without escapes -/

/-- The weight does not depend on the flag. -/
def Steady (w : W) : Prop := ∀ f, kap (w f).1 = kap (w false).1

/-- The weight of what is printed. -/
def wgt (w : W) : Nat := kap (w false).1

theorem Steady.str (t : Str) : Steady (W.str t) := fun _ => rfl

theorem Steady.seq {a b : W} (ha : Steady a) (hb : Steady b) : Steady (a +> b) := fun f => by
  rw [W.seq_apply, W.seq_apply, kap_append, kap_append, ha f, hb, hb (a false).2]

theorem Steady.deco {m : Meta} {p q : Str} {w : W} (h : Steady w) : Steady (deco m p q w) :=
  (Steady.str _).seq (h.seq (.str _))

theorem Steady.escaped {w : W} : Steady (W.escaped w) := fun _ => rfl

theorem Steady.strip {t : Str} {st : Strip} {w : W} (h : Steady w) : Steady (encStrip t st w) :=
  (Steady.str _).seq (h.seq (.str _))

theorem Steady.ident {d : DIdent} {p q : Str} : Steady (d.enc p q) := Steady.deco (.str _)

theorem Steady.marker {kw : Str} {st : Strip} {p t : Raw} : Steady (encMarker kw st p t) := .strip (.str _)

theorem Steady.here {w : W} (h : Steady w) : ∀ i, Steady (encHere w i)
  | none => h
  | some _ => fun _ => rfl

theorem Steady.keyVar : ∀ k, Steady (encKeyVar k)
  | none => .str _
  | some _ => Steady.ident.seq (.str _)

theorem Steady.namespace : ∀ ds, Steady (encNamespace ds)
  | [] => .str _
  | _ :: ds => Steady.ident.seq ((Steady.str _).seq (Steady.namespace ds))

theorem Steady.lit {t : Str} : Steady (encLit t) := fun f => by rw [kap_encLit, kap_encLit]

mutual

theorem flat_core : ∀ e : EExpr, Steady (e.core E)
  | .null _ => .str _
  | .bool _ _ => .str _
  | .number _ _ _ => .str _
  | .string _ _ => .str _
  | .array _ vs _ _ => (Steady.str _).seq ((flat_list vs _).seq (.str _))
  | .object _ is _ => (Steady.str _).seq ((flat_items is).seq (.str _))
  | .strTmpl _ es => (Steady.str _).seq (Steady.escaped.seq (.str _))
  | .heredoc _ _ _ es i _ => (Steady.str _).seq ((Steady.here (flat_elems es) i).seq (.str _))
  | .paren _ e => (Steady.str _).seq ((Steady.deco (flat_core e)).seq (.str _))
  | .var _ _ => .str _
  | .cond _ c t f => (Steady.deco (flat_core c)).seq ((Steady.str _).seq ((Steady.deco (flat_core t)).seq
      ((Steady.str _).seq (Steady.deco (flat_core f)))))
  | .call _ ns n _ as _ _ _ => (Steady.namespace ns).seq (Steady.ident.seq
      (Steady.deco ((Steady.str _).seq ((flat_list as _).seq (.str _)))))
  | .trav _ e os => (Steady.deco (flat_core e)).seq (flat_travs os)
  | .unary _ _ _ e => (Steady.str _).seq (Steady.deco (flat_core e))
  | .binary _ l _ _ r => (Steady.deco (flat_core l)).seq ((Steady.deco (.str _)).seq (Steady.deco (flat_core r)))
  | .forE _ _ k _ c ke ve _ cm co => (Steady.str _).seq ((Steady.deco ((Steady.str _).seq ((Steady.keyVar k).seq
      (Steady.ident.seq ((Steady.str _).seq ((Steady.deco (flat_core c)).seq (.str _))))))).seq
      ((flat_forKey ke).seq ((Steady.deco (flat_core ve)).seq ((Steady.str _).seq ((flat_forCond cm co).seq
        (.str _))))))

theorem flat_forKey : ∀ k, Steady (EExpr.encForKey E k)
  | none => .str _
  | some e => (Steady.deco (flat_core e)).seq (.str _)

theorem flat_forCond (cm : Meta) : ∀ k, Steady (EExpr.encForCond E cm k)
  | none => .str _
  | some e => Steady.deco ((Steady.str _).seq (Steady.deco (flat_core e)))

theorem flat_list : ∀ (es : List EExpr) (p : Str), Steady (EExpr.encList E p es)
  | [], _ => .str _
  | e :: es, _ => (Steady.str _).seq ((Steady.deco (flat_core e)).seq (flat_list es _))

theorem flat_key : ∀ k : EKey, Steady (k.enc E)
  | .ident _ => Steady.ident
  | .expr e => Steady.deco (flat_core e)

theorem flat_items : ∀ is : List EItem, Steady (EExpr.encItems E is)
  | [] => .str _
  | .mk k v _ _ :: is => (flat_key k).seq ((Steady.str _).seq ((Steady.deco (flat_core v)).seq
      ((Steady.str _).seq (flat_items is))))

theorem flat_op : ∀ o : ETravOp, Steady (o.enc E)
  | .attrSplat _ => (Steady.str _).seq (Steady.deco (.str _))
  | .fullSplat _ => (Steady.str _).seq ((Steady.deco (.str _)).seq (.str _))
  | .getAttr _ => (Steady.str _).seq Steady.ident
  | .index e => (Steady.str _).seq ((Steady.deco (flat_core e)).seq (.str _))
  | .legacyIndex _ _ => (Steady.str _).seq (Steady.deco (.str _))

theorem flat_travs : ∀ os : List ETrav, Steady (EExpr.encTravs E os)
  | [] => .str _
  | .mk _ o :: os => (Steady.deco (flat_op o)).seq (flat_travs os)

theorem flat_elem : ∀ e : EElem, Steady (e.enc E)
  | .lit _ _ => .lit
  | .interp _ e _ => .strip (Steady.deco (flat_core e))
  | .ifDir _ _ c _ _ t el _ _ _ => (Steady.strip ((Steady.str _).seq (Steady.deco (flat_core c)))).seq
      ((flat_elems t).seq ((flat_elseOpt el).seq .marker))
  | .forDir _ _ k _ c _ _ t _ _ _ => (Steady.strip ((Steady.str _).seq ((Steady.keyVar k).seq (Steady.ident.seq
      ((Steady.str _).seq (Steady.deco (flat_core c))))))).seq ((flat_elems t).seq .marker)

theorem flat_elems : ∀ es : List EElem, Steady (EExpr.encElems E es)
  | [] => .str _
  | e :: es => (flat_elem e).seq (flat_elems es)

theorem flat_else : ∀ e : EElse, Steady (EExpr.encElse E e)
  | .mk _ _ _ _ es => Steady.marker.seq (flat_elems es)

theorem flat_elseOpt : ∀ e, Steady (EExpr.encElseOpt E e)
  | none => .str _
  | some e => flat_else e

end

end Verif.Spec
