import Verif.Spec.Decorated
import Verif.Lemmas.RunLex
/-! Whether the printer escapes literals: the flag after an encoding step, and the text of literals. -/

namespace Verif.Gram
open P Spec Syn

variable {F : FmtEnv}

/-- The step leaves the flag as it is, or, with `q = false`, clears it. -/
def Fl (w : W) (q : Bool) : Prop := ∀ b, (w b).2 = (b && q)

theorem Fl.str (t : Str) : Fl (W.str t) true := fun b => (Bool.and_true b).symm

theorem Fl.seq {v w : W} {p q : Bool} (h1 : Fl v p) (h2 : Fl w q) : Fl (v +> w) (p && q) := fun b => by
  show (w (v b).2).2 = _
  rw [h2, h1, Bool.and_assoc]

theorem Fl.cast {w : W} {p q : Bool} (h : Fl w p) (e : p = q) : Fl w q := e ▸ h

theorem Fl.deco {w : W} {q : Bool} (h : Fl w q) {m : Meta} {p s : Str} : Fl (deco m p s w) (true && (q && true)) :=
  (Fl.str _).seq (h.seq (Fl.str _))

theorem Fl.ident {d : DIdent} {p s : Str} : Fl (d.enc p s) true := (Fl.str _).deco

theorem Fl.names : ∀ ns, Fl (encNamespace ns) true
  | [] => Fl.str _
  | _ :: ns => Fl.seq Fl.ident ((Fl.str _).seq (Fl.names ns))

theorem Fl.keyVar : ∀ k, Fl (encKeyVar k) true
  | none => Fl.str _
  | some _ => Fl.ident.seq (Fl.str _)

theorem Fl.strip {w : W} {q : Bool} (h : Fl w q) {s : Str} {st : Strip} : Fl (encStrip s st w) (true && (q && true)) :=
  (Fl.str _).seq (h.seq (Fl.str _))

theorem Fl.marker {kw : Str} {st : Strip} {p t : Raw} : Fl (encMarker kw st p t) true := (Fl.str _).strip

theorem Fl.here {w : W} {q : Bool} (h : Fl w q) : ∀ i, Fl (encHere w i) (i.isSome || q)
  | none => h
  | some _ => fun b => by simp [encHere, W.fresh]

theorem Fl.escaped {w : W} : Fl (W.escaped w) false := fun b => (Bool.and_false b).symm

/-- Finds what a step does to the flag. -/
macro "fl" : tactic => `(tactic| refine Fl.cast (by
  with_reducible repeat' first | assumption | exact Fl.str _ | exact Fl.ident | exact Fl.names _ | exact Fl.keyVar _ | exact Fl.marker | exact Fl.escaped | apply Fl.seq | apply Fl.deco | apply Fl.strip | apply Fl.here) ?_)

mutual

theorem flag : ∀ e : EExpr, Fl (e.core F) (noQuoted e)
  | .null _ => by simp only [EExpr.core, noQuoted]; fl; rfl
  | .bool _ _ => by simp only [EExpr.core, noQuoted]; fl; rfl
  | .number _ _ _ => by simp only [EExpr.core, noQuoted]; fl; rfl
  | .string _ _ => by simp only [EExpr.core, noQuoted]; fl; rfl
  | .array _ vs _ _ => by have h := flagList vs; simp only [EExpr.core, noQuoted]; have := h []; fl; simp
  | .object _ is _ => by have h := flagItems is; simp only [EExpr.core, noQuoted]; fl; simp
  | .strTmpl _ es => by simp only [EExpr.core, noQuoted]; fl; simp
  | .heredoc _ _ _ es i _ => by have h := flagElems es; simp only [EExpr.core, noQuoted]; fl; simp
  | .paren _ e => by have h := flag e; simp only [EExpr.core, noQuoted]; fl; simp
  | .var _ _ => by simp only [EExpr.core, noQuoted]; fl; rfl
  | .cond _ c t f => by
    have h := flag c; have h2 := flag t; have h3 := flag f; simp only [EExpr.core, noQuoted]; fl; simp [Bool.and_assoc]
  | .call _ _ _ _ as _ _ _ => by have h := flagList as; simp only [EExpr.core, noQuoted]; have := h []; fl; simp
  | .trav _ e os => by have h := flag e; have h2 := flagOps os; simp only [EExpr.core, noQuoted]; fl; simp
  | .unary _ _ _ e => by have h := flag e; simp only [EExpr.core, noQuoted]; fl; simp
  | .binary _ l _ _ r => by have h := flag l; have h2 := flag r; simp only [EExpr.core, noQuoted]; fl; simp
  | .forE _ _ _ _ c ke ve _ cm co => by
    have h := flag c; have h2 := flag ve; have h3 := flagKey ke; have h4 := flagCond co cm
    simp only [EExpr.core, noQuoted]; fl; simp [Bool.and_assoc]
termination_by structural x => x

theorem flagKey : ∀ e : Option EExpr, Fl (EExpr.encForKey F e) (noQuotedOpt e)
  | none => by simp only [EExpr.encForKey, noQuotedOpt]; fl; rfl
  | some e => by have h := flag e; simp only [EExpr.encForKey, noQuotedOpt]; fl; simp
termination_by structural x => x

theorem flagCond : ∀ e : Option EExpr, ∀ cm, Fl (EExpr.encForCond F cm e) (noQuotedOpt e)
  | none => by intro cm; simp only [EExpr.encForCond, noQuotedOpt]; fl; rfl
  | some e => by have h := flag e; intro cm; simp only [EExpr.encForCond, noQuotedOpt]; fl; simp
termination_by structural x => x

theorem flagList : ∀ es : List EExpr, ∀ p, Fl (EExpr.encList F p es) (noQuotedList es)
  | [] => by intro p; simp only [EExpr.encList, noQuotedList]; fl; rfl
  | e :: es => by
    have h := flag e; have h2 := flagList es c!" "; intro p; simp only [EExpr.encList, noQuotedList]; fl; simp
termination_by structural x => x

theorem flagItems : ∀ is : List EItem, Fl (EExpr.encItems F is) (noQuotedItems is)
  | [] => by simp only [EExpr.encItems, noQuotedItems]; fl; rfl
  | .mk k v _ _ :: is => by
    have h := flagObjKey k; have h2 := flag v; have h3 := flagItems is
    simp only [EExpr.encItems, noQuotedItems]; fl; simp [Bool.and_assoc]
termination_by structural x => x

theorem flagObjKey : ∀ k : EKey, Fl (k.enc F) (noQuotedKey k)
  | .ident _ => by simp only [EKey.enc, noQuotedKey]; fl; rfl
  | .expr e => by have h := flag e; simp only [EKey.enc, noQuotedKey]; fl; simp
termination_by structural x => x

theorem flagOps : ∀ os : List ETrav, Fl (EExpr.encTravs F os) (noQuotedOps os)
  | [] => by simp only [EExpr.encTravs, noQuotedOps]; fl; rfl
  | .mk _ o :: os => by have h := flagOp o; have h2 := flagOps os; simp only [EExpr.encTravs, noQuotedOps]; fl; simp
termination_by structural x => x

theorem flagOp : ∀ o : ETravOp, Fl (o.enc F) (noQuotedOp o)
  | .attrSplat _ => by simp only [ETravOp.enc, noQuotedOp]; fl; rfl
  | .fullSplat _ => by simp only [ETravOp.enc, noQuotedOp]; fl; rfl
  | .getAttr _ => by simp only [ETravOp.enc, noQuotedOp]; fl; rfl
  | .index e => by have h := flag e; simp only [ETravOp.enc, noQuotedOp]; fl; simp
  | .legacyIndex _ _ => by simp only [ETravOp.enc, noQuotedOp]; fl; rfl
termination_by structural x => x

theorem flagElems : ∀ es : List EElem, Fl (EExpr.encElems F es) (noQuotedElems es)
  | [] => by simp only [EExpr.encElems, noQuotedElems]; fl; rfl
  | e :: es => by have h := flagElem e; have h2 := flagElems es; simp only [EExpr.encElems, noQuotedElems]; fl; rfl
termination_by structural x => x

theorem flagElem : ∀ e : EElem, Fl (e.enc F) (noQuotedElem e)
  | .lit _ s => by simp only [EElem.enc, noQuotedElem]; exact fun b => (Bool.and_true b).symm
  | .interp _ e _ => by have h := flag e; simp only [EElem.enc, noQuotedElem]; fl; simp
  | .ifDir _ _ c _ _ t el _ _ _ => by
    have h := flag c; have h2 := flagElems t; have h3 := flagElseOpt el
    simp only [EElem.enc, noQuotedElem]; fl; simp [Bool.and_assoc]
  | .forDir _ _ _ _ c _ _ t _ _ _ => by
    have h := flag c; have h2 := flagElems t; simp only [EElem.enc, noQuotedElem]; fl; simp
termination_by structural x => x

theorem flagElseOpt : ∀ x : Option EElse, Fl (EExpr.encElseOpt F x) (noQuotedElseOpt x)
  | none => by simp only [EExpr.encElseOpt, noQuotedElseOpt]; fl; rfl
  | some x => by have h := flagElse x; simp only [EExpr.encElseOpt, noQuotedElseOpt]; fl; rfl
termination_by structural x => x

theorem flagElse : ∀ x : EElse, Fl (EExpr.encElse F x) (noQuotedElse x)
  | .mk _ _ _ _ t => by have h := flagElems t; simp only [EExpr.encElse, noQuotedElse]; fl; simp
termination_by structural x => x

end

/-! ### Literals -/

theorem encEscChar_last {d c : Char} (hc : Sigil c) (h : (encEscChar d).getLast? = some c) : d = c := by
  have hs : c = '$' ∨ c = '%' := hc
  have hx : ∀ n < 16, hexUpper n ≠ '$' ∧ hexUpper n ≠ '%' := by decide
  have hm := hx (d.toNat % 16) (Nat.mod_lt _ (by decide))
  unfold encEscChar at h
  repeat' split at h
  all_goals first
    | (simp only [List.getLast?_singleton, Option.some.injEq] at h; exact h)
    | (exfalso; simp only [List.getLast?_cons_cons, List.getLast?_singleton, Option.some.injEq] at h
       rcases hs with rfl | rfl <;> first | exact hm.1 h | exact hm.2 h | exact absurd h (by decide))

theorem encEscChar_ne (d : Char) : encEscChar d ≠ [] := by
  unfold encEscChar
  repeat' split
  all_goals nofun

theorem encEscaped_last {c : Char} (hc : Sigil c) : ∀ {s : Str}, (encEscaped s).getLast? = some c → s.getLast? = some c
  | [], h => h
  | [d], h => by
    simp only [encEscaped, List.append_nil] at h
    rw [encEscChar_last hc h]; rfl
  | d :: e :: s, h => by
    rw [List.getLast?_cons_cons]
    rw [encEscaped, List.getLast?_append] at h
    cases hl : (encEscaped (e :: s)).getLast? with
    | none =>
      rw [List.getLast?_eq_none_iff, encEscaped, List.append_eq_nil_iff] at hl
      exact absurd hl.1 (encEscChar_ne _)
    | some x =>
      rw [hl] at h
      exact encEscaped_last hc (hl.trans h)

theorem escOwned_last (s : Str) : (escapeMarkersOwned s).getLast? = s.getLast? := by
  induction s using Markers.owned_induction with
  | hnil => rfl
  | hns d r hd ih => rw [Markers.escOwned_nonsigil hd]; simp [List.getLast?_cons, ih]
  | hm d r hd ih => rw [Markers.escOwned_marker hd]; simp [List.getLast?_cons, ih]
  | hs d e r hd he ih => rw [Markers.escOwned_sigil hd he]; simp [List.getLast?_cons, ih]
  | h1 d hd => rw [Markers.escOwned_sigil_nil hd]

theorem esc_last : ∀ s : Str, (escapeMarkers s).getLast? = s.getLast?
  | [] => rfl
  | c :: s => by
    rw [escapeMarkers]
    split
    · exact escOwned_last _
    · simp [List.getLast?_cons, esc_last s]

/-- What is left of the text of a literal by escaping: the characters of the text. -/
theorem escOwned_mem (s : Str) : ∀ c ∈ escapeMarkersOwned s, c ∈ s := by
  induction s using Markers.owned_induction with
  | hnil => exact fun _ h => h
  | hns d r hd ih => rw [Markers.escOwned_nonsigil hd]; simp; exact fun c h => .inr (ih c h)
  | hm d r hd ih =>
    rw [Markers.escOwned_marker hd]; simp
    exact fun c h => .inr (.inr (ih c h))
  | hs d e r hd he ih =>
    rw [Markers.escOwned_sigil hd he]; simp
    exact fun c h => .inr (.inr (ih c h))
  | h1 d hd => rw [Markers.escOwned_sigil_nil hd]; exact fun _ h => h

theorem esc_mem : ∀ s : Str, ∀ c ∈ escapeMarkers s, c ∈ s
  | [], _, h => h
  | d :: s, c, h => by
    rw [escapeMarkers] at h
    split at h
    · exact escOwned_mem _ c h
    · rcases List.mem_cons.mp h with rfl | h
      · exact List.mem_cons_self
      · exact List.mem_cons_of_mem _ (esc_mem s c h)

theorem PlainText.encEscaped : ∀ {s : Str}, PlainText s → encEscaped s = s
  | [], _ => rfl
  | c :: s, h => by
    have h1 := h c List.mem_cons_self
    have h2 := PlainText.encEscaped (s := s) fun d hd => h d (List.mem_cons_of_mem _ hd)
    rw [Verif.encEscaped, h2]
    have n1 : c.toNat ≠ 0x22 := fun he => h1.1 (Char.toNat_inj.mp he)
    have n2 : c.toNat ≠ 0x5c := fun he => h1.2.1 (Char.toNat_inj.mp he)
    have : encEscChar c = [c] := by
      unfold encEscChar
      have := h1.2.2.1
      have := h1.2.2.2
      repeat rw [if_neg (by omega)]
    rw [this]; rfl

/-- The text of a literal. -/
theorem lit_text {q k : Bool} {s : Str} (h : StringSafe s) (hk : q = k ∨ PlainText s) : LitText q (encLit s k).1 s := by
  have h1 : QuotedText (encEscaped (escapeMarkers s)) s := encEscaped_text _ _ (Markers.read_esc s h)
  have h2 : readLiteral (escapeMarkers s) = some s := Markers.read_esc s h
  have h3 : PlainText s → encEscaped (escapeMarkers s) = escapeMarkers s := fun hp =>
    PlainText.encEscaped fun c hc => hp c (esc_mem s c hc)
  cases q <;> cases k
  · exact h2
  · have := h3 (hk.resolve_left nofun)
    show readLiteral (encEscaped (escapeMarkers s)) = some s
    rw [this]; exact h2
  · have := h3 (hk.resolve_left nofun)
    show QuotedText (escapeMarkers s) s
    rw [← this]; exact h1
  · exact h1

theorem lit_last {k : Bool} {s : Str} {c : Char} (hc : Sigil c) (h : (encLit s k).1.getLast? = some c) : s.getLast? = some c := by
  cases k
  · exact (esc_last s).symm.trans h
  · exact (esc_last s).symm.trans (encEscaped_last hc h)

theorem lit_ne {k : Bool} {s : Str} (hs : s ≠ []) : (encLit s k).1 ≠ [] := by
  have h1 : escapeMarkers s ≠ [] := fun h => by
    have := esc_last s
    rw [h] at this
    exact hs (List.getLast?_eq_none_iff.mp this.symm)
  cases k
  · exact h1
  · show encEscaped (escapeMarkers s) ≠ []
    cases he : escapeMarkers s with
    | nil => exact absurd he h1
    | cons c t =>
      rw [encEscaped]
      intro h
      exact encEscChar_ne c (List.append_eq_nil_iff.mp h).1

end Verif.Gram
