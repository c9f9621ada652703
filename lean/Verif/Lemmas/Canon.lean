import Verif.Lemmas.Source
import Verif.Lemmas.Markers
import Verif.Lemmas.Dedent
import Verif.Lemmas.Despan
import Verif.Spec.Canon
/-! Printing a canonically spelled tree gives its source (C18). -/

set_option linter.unusedSimpArgs false
set_option linter.unusedVariables false

namespace Verif.Spec
open Gram

variable {U : Uni} {s : Str} {E : FmtEnv}

/-! ### The escape flag -/

@[simp] theorem W.str_apply (t : Str) (f : Bool) : W.str t f = (t, f) := rfl
@[simp] theorem W.seq_apply (a b : W) (f : Bool) :
    (a +> b) f = ((a f).1 ++ (b (a f).2).1, (b (a f).2).2) := rfl
@[simp] theorem deco_apply (m : Meta) (p q : Str) (w : W) (f : Bool) :
    deco m p q w f = (encDecor p m.decor.pre ++ ((w f).1 ++ encDecor q m.decor.suf), (w f).2) := rfl
@[simp] theorem ident_apply (p q : Str) (d : DIdent) (f : Bool) :
    d.enc p q f = (encDecor p d.m.decor.pre ++ (d.name ++ encDecor q d.m.decor.suf), f) := rfl
@[simp] theorem escaped_apply (w : W) (f : Bool) : W.escaped w f = ((w true).1, false) := rfl
@[simp] theorem encStrip_apply (t : Str) (st : Strip) (w : W) (f : Bool) :
    encStrip t st w f = ((t ++ if st.stripStart then c!"~" else []) ++ ((w f).1 ++
      ((if st.stripEnd then c!"~" else []) ++ c!"}")), (w f).2) := rfl
@[simp] theorem encMarker_snd (kw : Str) (st : Strip) (p t : Raw) (f : Bool) :
    (encMarker kw st p t f).2 = f := rfl
@[simp] theorem encLit_snd (t : Str) (f : Bool) : (encLit t f).2 = f := rfl

@[simp] theorem encNamespace_snd : ∀ (ds : List DIdent) (f : Bool), (encNamespace ds f).2 = f
  | [], _ => rfl
  | _ :: ds, f => encNamespace_snd ds f

@[simp] theorem encKeyVar_snd (k : Option DIdent) (f : Bool) : (encKeyVar k f).2 = f := by
  cases k <;> rfl

theorem encHere_snd (w : W) (i : Option Nat) (f : Bool) :
    (encHere w i f).2 = if i.isSome then f else (w f).2 := by
  cases i <;> rfl

mutual

theorem core_flag : ∀ (e : EExpr) (f : Bool), (e.core E f).2 = (f && !resets e)
  | .null _, f => by simp [EExpr.core, resets]
  | .bool _ _, f => by simp [EExpr.core, resets]
  | .number _ _ _, f => by simp [EExpr.core, resets]
  | .string _ _, f => by simp [EExpr.core, resets]
  | .var _ _, f => by simp [EExpr.core, resets]
  | .array _ vs _ _, f => by simp [EExpr.core, resets, encList_flag vs]
  | .object _ is _, f => by simp [EExpr.core, resets, encItems_flag is]
  | .strTmpl _ es, f => by simp [EExpr.core, resets]
  | .heredoc _ _ _ es i _, f => by
    cases i <;> simp [EExpr.core, resets, encElems_flag es, encHere_snd]
  | .paren _ e, f => by simp [EExpr.core, resets, core_flag e]
  | .cond _ a b c, f => by
    simp [EExpr.core, resets, core_flag a, core_flag b, core_flag c, Bool.and_assoc]
  | .call _ _ _ _ as _ _ _, f => by simp [EExpr.core, resets, encList_flag as]
  | .trav _ e os, f => by
    simp [EExpr.core, resets, core_flag e, encTravs_flag os, Bool.and_assoc]
  | .unary _ _ _ e, f => by simp [EExpr.core, resets, core_flag e]
  | .binary _ l _ _ r, f => by
    simp [EExpr.core, resets, core_flag l, core_flag r, Bool.and_assoc]
  | .forE _ _ _ _ c ke ve _ _ co, f => by
    simp [EExpr.core, resets, core_flag c, core_flag ve, encForKey_flag ke, encForCond_flag co,
      Bool.and_assoc]

theorem encForKey_flag : ∀ (e : Option EExpr) (f : Bool),
    (EExpr.encForKey E e f).2 = (f && !resetsOpt e)
  | none, f => by simp [EExpr.encForKey, resetsOpt]
  | some e, f => by simp [EExpr.encForKey, resetsOpt, core_flag e]

theorem encForCond_flag : ∀ (e : Option EExpr) {m : Meta} (f : Bool),
    (EExpr.encForCond E m e f).2 = (f && !resetsOpt e)
  | none, _, f => by simp [EExpr.encForCond, resetsOpt]
  | some e, _, f => by simp [EExpr.encForCond, resetsOpt, core_flag e]

theorem encList_flag : ∀ (es : List EExpr) {p : Str} (f : Bool),
    (EExpr.encList E p es f).2 = (f && !resetsList es)
  | [], _, f => by simp [EExpr.encList, resetsList]
  | e :: es, _, f => by
    simp [EExpr.encList, resetsList, core_flag e, encList_flag es, Bool.and_assoc]

theorem encItems_flag : ∀ (is : List EItem) (f : Bool),
    (EExpr.encItems E is f).2 = (f && !resetsItems is)
  | [], f => by simp [EExpr.encItems, resetsItems]
  | .mk k v _ _ :: is, f => by
    simp [EExpr.encItems, resetsItems, key_flag k, core_flag v, encItems_flag is, Bool.and_assoc]

theorem key_flag : ∀ (k : EKey) (f : Bool), (k.enc E f).2 = (f && !resetsKey k)
  | .ident _, f => by simp [EKey.enc, resetsKey]
  | .expr e, f => by simp [EKey.enc, resetsKey, core_flag e]

theorem encTravs_flag : ∀ (os : List ETrav) (f : Bool),
    (EExpr.encTravs E os f).2 = (f && !resetsTravs os)
  | [], f => by simp [EExpr.encTravs, resetsTravs]
  | .mk _ o :: os, f => by
    simp [EExpr.encTravs, resetsTravs, op_flag o, encTravs_flag os, Bool.and_assoc]

theorem op_flag : ∀ (o : ETravOp) (f : Bool), (o.enc E f).2 = (f && !resetsOp o)
  | .attrSplat _, f => by simp [ETravOp.enc, resetsOp]
  | .fullSplat _, f => by simp [ETravOp.enc, resetsOp]
  | .getAttr _, f => by simp [ETravOp.enc, resetsOp]
  | .index e, f => by simp [ETravOp.enc, resetsOp, core_flag e]
  | .legacyIndex _ _, f => by simp [ETravOp.enc, resetsOp]

theorem encElems_flag : ∀ (es : List EElem) (f : Bool),
    (EExpr.encElems E es f).2 = (f && !resetsElems es)
  | [], f => by simp [EExpr.encElems, resetsElems]
  | e :: es, f => by
    simp [EExpr.encElems, resetsElems, elem_flag e, encElems_flag es, Bool.and_assoc]

theorem elem_flag : ∀ (e : EElem) (f : Bool), (e.enc E f).2 = (f && !resetsElem e)
  | .lit _ _, f => by simp [EElem.enc, resetsElem]
  | .interp _ e _, f => by simp [EElem.enc, resetsElem, core_flag e]
  | .ifDir _ _ c _ _ t el _ _ _, f => by
    simp [EElem.enc, resetsElem, core_flag c, encElems_flag t, encElseOpt_flag el, Bool.and_assoc]
  | .forDir _ _ _ _ c _ _ t _ _ _, f => by
    simp [EElem.enc, resetsElem, core_flag c, encElems_flag t, Bool.and_assoc]

theorem encElseOpt_flag : ∀ (e : Option EElse) (f : Bool),
    (EExpr.encElseOpt E e f).2 = (f && !resetsElse e)
  | none, f => by simp [EExpr.encElseOpt, resetsElse]
  | some x, f => by simp [EExpr.encElseOpt, resetsElse, encElse_flag x]

theorem encElse_flag : ∀ (e : EElse) (f : Bool), (EExpr.encElse E e f).2 = (f && !resetsElse' e)
  | .mk _ _ _ _ es, f => by simp [EExpr.encElse, resetsElse', encElems_flag es]

end

/-! ### Pieces of the source -/

/-- The text at the offsets. -/
def Pc (s t : Str) (a b : Nat) : Prop := a ≤ b ∧ slice s a b = t

theorem Pc.append {t u : Str} {a b c : Nat} (h1 : Pc s t a b) (h2 : Pc s u b c) :
    Pc s (t ++ u) a c :=
  ⟨Nat.le_trans h1.1 h2.1, by rw [← slice_append h1.1 h2.1, h1.2, h2.2]⟩

theorem Pc.nil {a : Nat} : Pc s [] a a := ⟨Nat.le_refl _, slice_self s a⟩

theorem Tok.pc {t : Str} {a b : Nat} (h : Tok s t a b) : Pc s t a b := ⟨h.le, h.text⟩

theorem OptTok.pc {c : Bool} {t : Str} {a b : Nat} (h : OptTok s c t a b) :
    Pc s (if c then t else []) a b := by
  unfold OptTok at h
  cases c
  · cases h; exact .nil
  · exact Tok.pc h

theorem raw_pc {a b : Nat} (h : a ≤ b) (d : Str) :
    Pc s (((Raw.fromSpan ⟨a, b⟩).despan s).enc d) a b := by
  refine ⟨h, ?_⟩
  unfold Raw.fromSpan
  split
  · show slice s a b = (Raw.ofStr (Span.slice ⟨a, b⟩ s)).enc d
    unfold Raw.ofStr
    show slice s a b = (if (slice s a b).isEmpty then Raw.empty else Raw.explicit (slice s a b)).enc d
    split
    · rename_i h; exact List.isEmpty_iff.1 h
    · rfl
  · rename_i h'
    have : a = b := by simp only at h'; omega
    rw [this]; exact slice_self s b

theorem decor_pc {a b : Nat} (h : a ≤ b) (d : Str) :
    Pc s (encDecor d (Option.map (Raw.despan s) (some (.fromSpan ⟨a, b⟩)))) a b := raw_pc h d

/-- The step writes the text at the offsets, with any escape flag that is not set unless `q`. -/
def Prints (s : Str) (q : Bool) (w : W) (a b : Nat) : Prop :=
  a ≤ b ∧ ∀ f, (f = true → q = true) → (w f).1 = slice s a b ∧ ((w f).2 = true → q = true)

theorem Prints.seq {q : Bool} {v w : W} {a b c : Nat} (h1 : Prints s q v a b)
    (h2 : Prints s q w b c) : Prints s q (v +> w) a c := by
  refine ⟨Nat.le_trans h1.1 h2.1, fun f hf => ?_⟩
  obtain ⟨g1, g2⟩ := h1.2 f hf
  obtain ⟨g3, g4⟩ := h2.2 _ g2
  exact ⟨by rw [W.seq_apply, ← slice_append h1.1 h2.1, g1, g3], g4⟩

theorem Pc.prints {q : Bool} {t : Str} {a b : Nat} (h : Pc s t a b) : Prints s q (W.str t) a b :=
  ⟨h.1, fun _ hf => ⟨h.2.symm, hf⟩⟩

theorem Tok.prints {q : Bool} {t : Str} {a b : Nat} (h : Tok s t a b) : Prints s q (W.str t) a b :=
  h.pc.prints

theorem Prints.deco {q : Bool} {w : W} {m : Meta} {d₁ d₂ : Str} {p a b r : Nat}
    (h1 : Pc s (encDecor d₁ m.decor.pre) p a) (h2 : Prints s q w a b)
    (h3 : Pc s (encDecor d₂ m.decor.suf) b r) : Prints s q (deco m d₁ d₂ w) p r :=
  h1.prints.seq (h2.seq h3.prints)

theorem getMeta_despan (e : EExpr) : (e.despan s).getMeta = e.getMeta.despan s := by
  cases e <;> rfl

theorem span_despan (m : Meta) : (m.despan s).span = m.span := rfl

/-- With a prefix and a suffix. -/
theorem Prints.dec {q : Bool} {e : EExpr} {d₁ d₂ : Str} {p a b r : Nat} {w : W}
    (h : Prints s q w a b) (hm : e.getMeta = decM p a b r) (h1 : p ≤ a) (h2 : b ≤ r) :
    Prints s q (Verif.deco (e.despan s).getMeta d₁ d₂ w) p r := by
  rw [getMeta_despan, hm]
  exact .deco (decor_pc h1 d₁) h (decor_pc h2 d₂)

/-- With a suffix. -/
theorem Prints.suf {q : Bool} {e : EExpr} {d₂ : Str} {a b r : Nat} {w : W}
    (h : Prints s q w a b) (hm : e.getMeta = sufM a b r) (h2 : b ≤ r) :
    Prints s q (Verif.deco (e.despan s).getMeta [] d₂ w) a r := by
  rw [getMeta_despan, hm]
  exact .deco .nil h (decor_pc h2 d₂)

theorem plainSuf_pc {e : EExpr} (h : plainSuf (e.despan s) = true) {a : Nat} :
    Pc s (encDecor [] (e.despan s).getMeta.decor.suf) a a := by
  unfold plainSuf at h
  split at h
  · rename_i h'; rw [h']; exact .nil
  · rename_i h'; rw [h']; exact .nil
  · cases h

/-- With a prefix. -/
theorem Prints.pre {q : Bool} {e : EExpr} {d₁ : Str} {p a b : Nat} {w : W}
    (h : Prints s q w a b) (hm : PreNodeM s e p a b) (h1 : p ≤ a)
    (hp : plainSuf (e.despan s) = true) :
    Prints s q (Verif.deco (e.despan s).getMeta d₁ [] w) p b := by
  refine .deco ?_ h (plainSuf_pc hp)
  obtain ⟨r, hm, -⟩ := hm
  rw [getMeta_despan, hm]
  exact decor_pc h1 d₁

/-- Without decor. -/
theorem Prints.node {q : Bool} {e : EExpr} {a b : Nat} {w : W}
    (h : Prints s q w a b) (hm : NodeM s e a b) (hp : plainSuf (e.despan s) = true) :
    Prints s q (Verif.deco (e.despan s).getMeta [] [] w) a b := by
  refine .deco ?_ h (plainSuf_pc hp)
  obtain ⟨r, hm, -⟩ := hm
  rw [getMeta_despan, hm]
  exact .nil

/-! ### Tokens -/

theorem SufIdent.prints {nl q : Bool} {d : DIdent} {a b : Nat} {d₂ : Str}
    (h : SufIdent U s nl d a b) : Prints s q ((d.despan s).enc [] d₂) a b := by
  obtain ⟨x, h1, h2, h3⟩ := h
  show Prints s q (Verif.deco (d.m.despan s) [] d₂ (W.str d.name)) a b
  rw [h3]
  exact .deco .nil h1.1.prints (decor_pc h2.le _)

theorem DecIdent.prints {q nl : Bool} {d : DIdent} {a b : Nat} {d₁ d₂ : Str}
    (h : DecIdent U s nl d a b) : Prints s q ((d.despan s).enc d₁ d₂) a b := by
  obtain ⟨x, y, h1, h2, h3, h4⟩ := h
  show Prints s q (Verif.deco (d.m.despan s) d₁ d₂ (W.str d.name)) a b
  rw [h4]
  exact .deco (decor_pc h1.le _) h2.1.prints (decor_pc h3.le _)

theorem ForVars.prints {q : Bool} {k : Option DIdent} {v : DIdent} {a b : Nat} {d₂ : Str}
    (h : ForVars U s k v a b) :
    Prints s q (encKeyVar (k.map (DIdent.despan s)) +> (v.despan s).enc c!" " d₂) a b := by
  rcases h with ⟨rfl, h⟩ | ⟨d, x, y, rfl, h1, h2, h3⟩
  · exact Pc.nil.prints.seq h.prints
  · exact (h1.prints.seq h2.prints).seq h3.prints

theorem W.assoc (a b c : W) : (a +> b) +> c = a +> b +> c := by
  funext f
  simp [W.seq, List.append_assoc]

theorem PathTail.prints {q nl : Bool} : ∀ {tl : List DIdent} {d : DIdent} {x y z : Nat} {ns : List DIdent}
    {n : DIdent}, d :: tl = ns ++ [n] → (∀ d₂, Prints s q ((d.despan s).enc [] d₂) x y) →
    PathTail U s nl tl y z →
    Prints s q (encNamespace (ns.map (DIdent.despan s)) +> (n.despan s).enc [] []) x z
  | [], d, x, y, z, ns, n, he, hd, h => by
    cases h
    cases ns with
    | nil => simp at he; subst he; exact Pc.nil.prints.seq (hd [])
    | cons _ ns => simp at he
  | d' :: tl, d, x, y, z, ns, n, he, hd, h => by
    cases ns with
    | nil => simp at he
    | cons a ns =>
      simp only [List.cons_append, List.cons.injEq] at he
      obtain ⟨rfl, he⟩ := he
      cases h with
      | cons h1 h2 h3 =>
        have := PathTail.prints (q := q) he (fun d₂ => h2.prints) h3
        rw [List.map_cons, encNamespace, W.assoc, W.assoc]
        exact (hd []).seq (h1.prints.seq this)

theorem Path.prints {q : Bool} {ns : List DIdent} {n : DIdent} {a b : Nat}
    {nl : Bool} (h : Path U s nl (ns ++ [n]) a b) :
    Prints s q (encNamespace (ns.map (DIdent.despan s)) +> (n.despan s).enc [] []) a b := by
  obtain ⟨d, tl, x, he, h1, h2⟩ := h
  exact PathTail.prints he.symm (fun _ => h1.prints) h2

theorem ArgsEnd.pc {c x : Bool} {as : List EExpr} {a b : Nat} (h : ArgsEnd s c x as.length a b) :
    Pc s (if as.isEmpty then [] else if x then c!"..." else if c then c!"," else []) a b := by
  rcases h with ⟨rfl, rfl, rfl⟩ | ⟨hn, rfl, rfl, h⟩ | ⟨hn, rfl, rfl, h⟩
  · cases as <;> exact .nil
  · cases as with
    | nil => exact absurd rfl hn
    | cons e es => exact h.pc
  · cases as with
    | nil => exact absurd rfl hn
    | cons e es => exact h.pc

theorem despanList_isEmpty (es : List EExpr) : (EExpr.despanList s es).isEmpty = es.isEmpty := by
  cases es <;> rfl

theorem LineEnding.tok {a b : Nat} (h : LineEnding s a b) (hcr : '\r' ∉ s) : Tok s c!"\n" a b := by
  rcases h with h | h
  · exact h
  · refine absurd ?_ hcr
    have : '\r' ∈ slice s a b := by rw [h.text]; simp
    exact List.mem_of_mem_drop (List.mem_of_mem_take this)

theorem ItemEndAt.pc {t : ItemEnd} {a b : Nat} (h : ItemEndAt s t a b) (hcr : '\r' ∉ s) :
    Pc s t.enc a b := by
  cases t with
  | none => cases h; exact .nil
  | newline => exact (LineEnding.tok h hcr).pc
  | comma => exact Tok.pc h

theorem assign_pc {t : Assign} {a b : Nat} (h : Tok s (assignTok t) a b) : Pc s t.enc a b := by
  cases t <;> exact h.pc

theorem Marker.prints {q : Bool} {kw : Str} {st : Strip} {p t : Raw} {a b : Nat}
    (h : Marker s kw st p t a b) :
    Prints s q (encMarker kw st (p.despan s) (t.despan s)) a b := by
  obtain ⟨x₁, x₂, x₃, x₄, h1, h2, rfl, h3, h4, rfl, h5⟩ := h
  exact (Tok.prints h1).seq
    ((((raw_pc h2.le _).append h3.pc).append (raw_pc h4.le _)).prints.seq (Tok.prints h5))

/-! ### Objects -/

/-- Where the value of an item starts, without its decor. -/
def valStart (v : EExpr) : Nat := spanStart v.getMeta.span

/-- The value was written after the key. -/
def Adj (s : Str) : EItem → Prop
  | .mk k v _ _ => spanStart (v.despan s).getMeta.span =
      keyStop (k.despan s) + 1 + decorLen (v.despan s).getMeta.decor.pre

/-- The value was written behind the one that follows the key. -/
def Late (s : Str) (k : EKey) (v : EExpr) : Prop :=
  keyStop (k.despan s) + 1 + decorLen (v.despan s).getMeta.decor.pre <
    spanStart (v.despan s).getMeta.span

theorem decorLen_span {a b : Nat} (h : a ≤ b) (hb : b ≤ s.length) :
    decorLen (Option.map (Raw.despan s) (some (.fromSpan ⟨a, b⟩))) = b - a := by
  show decorLen (some ((Raw.fromSpan ⟨a, b⟩).despan s)) = b - a
  unfold Raw.fromSpan
  split
  · rename_i h'
    show decorLen (some (Raw.ofStr (slice s a b))) = b - a
    have hl := slice_length (s := s) (a := a) hb
    unfold Raw.ofStr
    split
    · rename_i he
      rw [List.isEmpty_iff.1 he] at hl
      exact hl
    · exact hl
  · rename_i h'
    simp only at h'
    have : a = b := by omega
    subst this
    show 0 = _
    omega

/-- Where an item and its parts are. -/
theorem Item.pos {k : EKey} {v : EExpr} {as : Assign} {p q : Nat} (h : Item U s k v as p q) :
    ∃ x y, p < x ∧ x < y ∧ y ≤ q ∧ keyStop (k.despan s) = x ∧
      spanStart (v.despan s).getMeta.span = x + 1 + decorLen (v.despan s).getMeta.decor.pre ∧
      spanStart (v.despan s).getMeta.span = y ∧ Adj s (.mk k v as .none) := by
  have key : ∀ {x y v₁ v₂ : Nat}, Tok s (assignTok as) x y → Triv s false y v₁ →
      v.getMeta = decM y v₁ v₂ q → keyStop (k.despan s) = x →
      spanStart (v.despan s).getMeta.span = x + 1 + decorLen (v.despan s).getMeta.decor.pre ∧
      spanStart (v.despan s).getMeta.span = v₁ ∧ y = x + 1 := by
    intro x y v₁ v₂ h5 h6 h9 hk
    rw [getMeta_despan, h9]
    have h1 : decorLen ((decM y v₁ v₂ q).despan s).decor.pre = v₁ - y := decorLen_span h6.le h6.bound
    have h2 : spanStart ((decM y v₁ v₂ q).despan s).span = v₁ := rfl
    have h3 : y = x + 1 := by have := h5.1; cases as <;> exact this
    rw [h1, h2]
    have := h6.le
    exact ⟨by omega, rfl, h3⟩
  cases h with
  | ident h1 h2 h3 h4 h5 h6 h7 h8 h9 _h10 =>
    rename_i d a b x y v₁ v₂
    have hk : keyStop (EKey.despan s (.ident d)) = x := by
      show spanStop (d.m.despan s).span + decorLen (d.m.despan s).decor.suf = x
      rw [h4]
      have : decorLen ((decM p a b x).despan s).decor.suf = x - b := decorLen_span h3.le h3.bound
      rw [this]
      show b + (x - b) = x
      have := h3.le; omega
    obtain ⟨g1, g2, g3⟩ := key h5 h6 h9 hk
    refine ⟨x, v₁, ?_, ?_, ?_, hk, g1, g2, ?_⟩
    · have := h1.le; have := identAt_lt h2; have := h3.le; omega
    · have := h6.le; omega
    · have := h7.bounds; have := h8.le; omega
    · show spanStart _ = keyStop _ + 1 + _
      rw [hk, g1]
  | expr h1 h2 h3 h4 h5 h6 h7 h8 h9 _h10 =>
    rename_i e a b x y v₁ v₂
    have hk : keyStop (EKey.despan s (.expr e)) = x := by
      show spanStop (e.despan s).getMeta.span + decorLen (e.despan s).getMeta.decor.suf = x
      rw [getMeta_despan, h4]
      have : decorLen ((decM p a b x).despan s).decor.suf = x - b := decorLen_span h3.le h3.bound
      rw [this]
      show b + (x - b) = x
      have := h3.le; omega
    obtain ⟨g1, g2, g3⟩ := key h5 h6 h9 hk
    refine ⟨x, v₁, ?_, ?_, ?_, hk, g1, g2, ?_⟩
    · have := h1.le; have := h2.bounds; have := h3.le; omega
    · have := h6.le; omega
    · have := h7.bounds; have := h8.le; omega
    · show spanStart _ = keyStop _ + 1 + _
      rw [hk, g1]

/-- The keys are in front of `p`. -/
def Before (s : Str) (p : Nat) (acc : List EItem) : Prop := ∀ i ∈ acc, keyStop (i.key.despan s) < p

theorem Before.mono {p q : Nat} {acc : List EItem} (h : Before s p acc) (hq : p ≤ q) :
    Before s q acc := fun i hi => Nat.lt_of_lt_of_le (h i hi) hq

/-- What inserting an item after the others does. -/
theorem itemInsert_cases {k : EKey} {v : EExpr} {as : Assign} {p q : Nat} (h : Item U s k v as p q)
    (t : ItemEnd) : ∀ {acc : List EItem}, Before s p acc →
      (itemInsert k v as t acc = acc ++ [.mk k v as t] ∨
        ∃ i ∈ itemInsert k v as t acc, Late s i.key i.value) ∧ Before s q (itemInsert k v as t acc)
        ∧ (∀ i ∈ acc, Late s i.key i.value → ∃ j ∈ itemInsert k v as t acc, Late s j.key j.value) := by
  obtain ⟨x, y, h1, h2, h3, h4, h5, h6, -⟩ := h.pos
  intro acc
  induction acc with
  | nil =>
    intro _
    refine ⟨.inl rfl, ?_, nofun⟩
    intro i hi
    cases List.mem_singleton.1 hi
    show keyStop (k.despan s) < q
    omega
  | cons i acc ih =>
    intro hb
    obtain ⟨k', v', a', t'⟩ := i
    have hk' : keyStop (k'.despan s) < p := hb _ (List.mem_cons_self ..)
    have late : Late s k' v := by
      show _ < _
      rw [h5]; omega
    obtain ⟨g1, g2, g3⟩ := ih fun i hi => hb i (List.mem_cons_of_mem _ hi)
    rw [itemInsert]
    split
    · refine ⟨.inr ⟨_, List.mem_cons_self .., late⟩, ?_, fun _ _ _ => ⟨_, List.mem_cons_self .., late⟩⟩
      intro i hi
      rcases List.mem_cons.1 hi with rfl | hi
      · show keyStop (k'.despan s) < q; omega
      · exact Nat.lt_of_lt_of_le (hb i (List.mem_cons_of_mem _ hi)) (by omega)
    · refine ⟨?_, ?_, ?_⟩
      · rcases g1 with g1 | ⟨i, hi, hl⟩
        · exact .inl (by rw [g1]; rfl)
        · exact .inr ⟨i, List.mem_cons_of_mem _ hi, hl⟩
      · intro i hi
        rcases List.mem_cons.1 hi with rfl | hi
        · show keyStop (k'.despan s) < q; omega
        · exact g2 i hi
      · intro i hi hl
        rcases List.mem_cons.1 hi with rfl | hi
        · exact ⟨_, List.mem_cons_self .., hl⟩
        · obtain ⟨j, hj, hl⟩ := g3 i hi hl
          exact ⟨j, List.mem_cons_of_mem _ hj, hl⟩

theorem insertItems_late : ∀ {is : List EItem} {acc : List EItem} {tr : Raw} {p q : Nat},
    Items U s is tr p q → Before s p acc → (∃ i ∈ acc, Late s i.key i.value) →
    ∃ j ∈ insertItems acc is, Late s j.key j.value
  | [], acc, tr, p, q, _, _, h => h
  | .mk k v a t :: is, acc, tr, p, q, h, hb, ⟨i, hi, hl⟩ => by
    rw [insertItems]
    cases h with
    | last h => exact (itemInsert_cases h .none hb).2.2 i hi hl
    | cons h1 h2 h3 h4 =>
      obtain ⟨-, g2, g3⟩ := itemInsert_cases h1 t hb
      exact insertItems_late h4 (g2.mono h3.le) (g3 i hi hl)

theorem insertItems_eq : ∀ {is : List EItem} {acc : List EItem} {tr : Raw} {p q : Nat},
    Items U s is tr p q → Before s p acc →
    (∀ j ∈ insertItems acc is, ¬ Late s j.key j.value) → insertItems acc is = acc ++ is
  | [], acc, tr, p, q, _, _, _ => by simp [insertItems]
  | .mk k v a t :: is, acc, tr, p, q, h, hb, hn => by
    rw [insertItems] at hn ⊢
    cases h with
    | last h =>
      rcases (itemInsert_cases h .none hb).1 with g | ⟨i, hi, hl⟩
      · exact g
      · exact absurd hl (hn i hi)
    | cons h1 h2 h3 h4 =>
      obtain ⟨g1, g2, g3⟩ := itemInsert_cases h1 t hb
      rcases g1 with g1 | g1
      · rw [g1] at hn g2 ⊢
        rw [insertItems_eq h4 (g2.mono h3.le) hn]
        simp
      · obtain ⟨j, hj, hl⟩ := insertItems_late h4 (g2.mono h3.le) g1
        exact absurd hl (hn j hj)

theorem canonItems_adj {q : Bool} : ∀ {is : List EItem},
    canonItems U s q (EExpr.despanItems s is) = true → ∀ j ∈ is, ¬ Late s j.key j.value
  | [], _, _, h => nomatch h
  | .mk k v a t :: is, h, j, hj => by
    simp only [EExpr.despanItems, canonItems, Bool.and_eq_true, decide_eq_true_eq] at h
    rcases List.mem_cons.1 hj with rfl | hj
    · intro hl
      have h1 : keyStop (k.despan s) + 1 + decorLen (v.despan s).getMeta.decor.pre <
        spanStart (v.despan s).getMeta.span := hl
      have h2 := h.1.2
      omega
    · exact canonItems_adj h.2 j hj

/-! ### Indented heredocs -/

theorem esc_noMarker : ∀ {t : Str}, noMarker t = true → escapeMarkers t = t
  | [], _ => rfl
  | c :: r, h => by
    simp only [noMarker, Bool.and_eq_true, Bool.not_eq_true', Bool.and_eq_false_imp,
      decide_eq_true_eq, decide_eq_false_iff_not] at h
    rw [Markers.esc_cons, esc_noMarker h.2]
    rintro ⟨d, b, he, hd⟩
    injection he with h1 h2
    exact h.1 (h1 ▸ hd) (by rw [h2]; rfl)

theorem noMarker_append : ∀ {a b : Str}, noMarker (a ++ b) = true → noMarker b = true
  | [], _, h => h
  | _ :: _, _, h => noMarker_append (by
    rw [List.cons_append, noMarker, Bool.and_eq_true] at h
    exact h.2)

theorem slice_tok {c : Char} {a x b : Nat} (h1 : Tok s [c] a x) (h2 : x ≤ b) :
    slice s a b = c :: slice s x b := by
  rw [← slice_append h1.le h2, h1.text]; rfl

theorem lit_noMarker {t : Str} {a b : Nat} (h : LitAt false s t a b) :
    a ≤ b ∧ (noMarker (slice s a b) = true → t = slice s a b) := by
  induction h with
  | nil => exact ⟨Nat.le_refl _, fun _ => (slice_self s _).symm⟩
  | marker hs h1 h2 ih =>
    rename_i c v a x b
    refine ⟨Nat.le_trans h1.le ih.1, fun hn => ?_⟩
    rw [← slice_append h1.le ih.1, h1.text] at hn
    simp [noMarker, hs] at hn
  | esc hq => cases hq
  | char h1 _ _ h2 ih =>
    refine ⟨Nat.le_trans h1.le ih.1, fun hn => ?_⟩
    have e := slice_tok h1 ih.1
    rw [e] at hn ⊢
    rw [← ih.2 (noMarker_append (a := [_]) hn)]

/-- The text an element was read from. -/
def elemText (s : Str) : EElem → Str
  | .lit sp _ => spanText s sp
  | .interp sp _ _ => spanText s sp
  | .ifDir sp _ _ _ _ _ _ _ _ _ => spanText s sp
  | .forDir sp _ _ _ _ _ _ _ _ _ _ => spanText s sp

/-- The text an element was read from if it is on one line, and something else otherwise. -/
def elemInline (U : Uni) (s : Str) (e : EElem) : Str :=
  if inline U (elemText s e) then elemText s e else c!"x"

theorem inline_iff {U : Uni} : ∀ {t : Str}, inline U t = true ↔ Inline U t
  | [] => by simp [inline, Inline]
  | c :: r => by simp [inline, Inline, and_assoc]

theorem elemInline_inline (e : EElem) : Inline U (elemInline U s e) := by
  unfold elemInline
  split
  · rename_i h; exact inline_iff.1 h
  · refine ⟨?_, by decide, by simp⟩
    rw [U.ascii_ws 'x' (by decide)]
    decide

/-- What the elements of an indented heredoc are when the dedented ones are canonical. -/
theorem TElems.indented (hcr : '\r' ∉ s) (n : Nat) : ∀ {es : List EElem} {sk prev : Bool} {a b : Nat},
    TElems U s .plain es a b → canonInd U s prev (EExpr.despanElems s (tmplStrip n sk es)) = true →
      outline (elemInline U s) es = slice s a b ∧ Regular es ∧ (prev = true → NoLit es)
  | [], _, _, _, _, h, _ => by
    cases h
    exact ⟨(slice_self s _).symm, trivial, fun _ _ _ _ h => nomatch h⟩
  | .lit sp t :: es, sk, prev, a, b, h, hc => by
    cases h with
    | cons h1 h2 =>
      rename_i x
      cases h1 with
      | lit g1 g2 g3 =>
        simp only [tmplStrip, EExpr.despanElems, canonInd, canonIndElem, isLit, Bool.and_eq_true,
          Bool.not_eq_true'] at hc
        obtain ⟨⟨⟨c1, c2⟩, -⟩, c3⟩ := hc
        obtain ⟨i1, i2, i3⟩ := TElems.indented hcr n h2 c3
        have ht : t = slice s a x := (lit_noMarker g3).2 c2
        refine ⟨?_, ⟨?_, ?_, i2, i3 rfl⟩, fun hp => ?_⟩
        · rw [outline, i1, ht, slice_append (Nat.le_of_lt g1) h2.le]
        · intro he
          have := slice_length (s := s) (a := a) g2
          rw [← ht, he] at this
          simp at this; omega
        · intro hr
          rw [ht] at hr
          exact hcr (List.mem_of_mem_drop (List.mem_of_mem_take hr))
        · rw [c1] at hp; cases hp
  | .interp sp e st :: es, sk, prev, a, b, h, hc => by
    cases h with
    | cons h1 h2 =>
      rename_i x
      have hb := h1.bounds
      cases h1 with
      | interp g1 g2 g3 g4 g5 g6 =>
        simp only [tmplStrip, EExpr.despanElems, canonInd, canonIndElem, isLit, Bool.and_eq_true] at hc
        obtain ⟨⟨c1, -⟩, c3⟩ := hc
        obtain ⟨i1, i2, i3⟩ := TElems.indented hcr n h2 c3
        refine ⟨?_, i2, fun _ _ _ _ h => nomatch h⟩
        rw [outline, i1]
        · unfold elemInline
          rw [if_pos (by exact c1), ← slice_append (Nat.le_of_lt hb.1) h2.le]
          rfl
        · exact nofun
  | .ifDir .. :: es, sk, prev, a, b, h, hc => by
    simp [tmplStrip, EExpr.despanElems, canonInd, canonIndElem] at hc
  | .forDir .. :: es, sk, prev, a, b, h, hc => by
    simp [tmplStrip, EExpr.despanElems, canonInd, canonIndElem] at hc

theorem indented_text (hcr : '\r' ∉ s) {n : Nat} {es : List EElem} {a b : Nat}
    (h : TElems U s .plain es a b)
    (hc : canonInd U s false (EExpr.despanElems s (tmplStrip n false es)) = true)
    (hi : indentedBy n (slice s a b) = true) :
    indentBy (outline (elemInline U s) (tmplStrip n false es)) n false = slice s a b := by
  obtain ⟨h1, h2, -⟩ := h.indented hcr n hc
  have hl : ∀ l ∈ lines (slice s a b), l = [] ∨ ∃ r, r ≠ [] ∧ l = List.replicate n ' ' ++ r := by
    intro l hm
    have := List.all_eq_true.1 hi l hm
    simp only [Bool.or_eq_true, List.isEmpty_iff, decide_eq_true_eq] at this
    rcases this with h | ⟨h, h'⟩
    · exact .inl h
    · refine .inr ⟨l.drop n, ?_, by rw [← h, List.take_append_drop]⟩
      intro he
      have := congrArg List.length he
      simp at this; omega
  rw [tmplStrip_eq (U := U) elemInline_inline n es false h2, h1]
  · exact indentBy_dl n _ (fun hr => hcr (List.mem_of_mem_drop (List.mem_of_mem_take hr))) hl
  · rw [h1]
    intro w hw
    obtain ⟨l, hm, hne, rfl⟩ := mem_widths.1 hw
    rcases hl l hm with rfl | ⟨r, -, rfl⟩
    · exact absurd rfl hne
    · exact width_spaces (by rw [U.ascii_ws ' ' (by decide)]; decide) n r

/-! ### Expressions -/

/-- With a given escape flag. -/
def PAt (s : Str) (f : Bool) (w : W) (a b : Nat) : Prop := a ≤ b ∧ (w f).1 = slice s a b

theorem PAt.seq {f g : Bool} {v w : W} {a b c : Nat} (h1 : PAt s f v a b) (h2 : (v f).2 = g)
    (h3 : PAt s g w b c) : PAt s f (v +> w) a c := by
  subst h2
  exact ⟨Nat.le_trans h1.1 h3.1, by rw [W.seq_apply, ← slice_append h1.1 h3.1, h1.2, h3.2]⟩

theorem Prints.at {f : Bool} {w : W} {a b : Nat} (h : Prints s f w a b) : PAt s f w a b :=
  ⟨h.1, (h.2 f id).1⟩

theorem PAt.prints {w : W} {a b : Nat} (h : PAt s false w a b) (hf : (w false).2 = false) :
    Prints s false w a b := by
  refine ⟨h.1, fun f g => ?_⟩
  cases f
  · exact ⟨h.2, fun h => by rw [hf] at h; cases h⟩
  · cases g rfl

theorem Prints.mono {w : W} {a b : Nat} {q : Bool} (h : Prints s false w a b) (hq : q = false) :
    Prints s q w a b := hq ▸ h

theorem Closes.pc {st : Strip} {a b : Nat} (h : Closes s st a b) :
    Pc s ((if st.stripEnd then c!"~" else []) ++ c!"}") a b := Tok.pc h

theorem Prints.strip {q : Bool} {t : Str} {st : Strip} {w : W} {a p r b : Nat}
    (h1 : Opens s st t a p) (h2 : Prints s q w p r) (h3 : Closes s st r b) :
    Prints s q (encStrip t st w) a b :=
  (Tok.prints h1).seq (h2.seq (Tok.prints h3))

theorem blank_pc {x y : Nat} (h : x ≤ y) (hb : blankOrNone s (some (.fromSpan ⟨x, y⟩)) = true) :
    Pc s (encDecor c!" " (some (.fromSpan ⟨x, y⟩))) x y := by
  revert hb
  unfold Raw.fromSpan
  split
  · intro hb
    exact ⟨h, of_decide_eq_true hb⟩
  · rename_i h'
    simp only at h'
    intro _
    have : x = y := by omega
    subst this
    exact .nil

theorem noDecor_eq {x y : Nat} (h : x ≤ y) (hb : noDecor (some (.fromSpan ⟨x, y⟩)) = true) : x = y := by
  revert hb
  unfold Raw.fromSpan
  split
  · intro hb; cases hb
  · rename_i h'
    simp only at h'
    intro _
    omega

theorem W.str_append (t u : Str) : W.str (t ++ u) = W.str t +> W.str u := rfl

/-- Despanning an element. -/
def despanElem (s : Str) : EElem → EElem
  | .lit sp t => .lit sp t
  | .interp sp e st => .interp sp (e.despan s) st
  | .ifDir sp p c st ts t el ep et est =>
    .ifDir sp (p.despan s) (c.despan s) st ts (EExpr.despanElems s t) (EExpr.despanElse s el)
      (ep.despan s) (et.despan s) est
  | .forDir sp p k v c st ts t ep et est =>
    .forDir sp (p.despan s) (k.map (DIdent.despan s)) (v.despan s) (c.despan s) st ts
      (EExpr.despanElems s t) (ep.despan s) (et.despan s) est

theorem despanElems_cons (e : EElem) (es : List EElem) :
    EExpr.despanElems s (e :: es) = despanElem s e :: EExpr.despanElems s es := by
  cases e <;> rfl

theorem outline_cons (f : EElem → Str) (e : EElem) (es : List EElem) :
    outline f (e :: es) = outline f [e] ++ outline f es := by
  cases e <;> simp [outline]

mutual

theorem _root_.Verif.Spec.Core.prints (E : FmtEnv) (hcr : '\r' ∉ s) : ∀ {nl e a b}, Core U s nl e a b → ∀ {q},
    e.getMeta.span = some ⟨a, b⟩ → canon U s q (e.despan s) = true →
    Prints s q ((e.despan s).core E) a b
  | _, _, _, _, .null h, _, _, _ => h.prints
  | _, _, _, _, .bool h, _, _, _ => h.prints
  | _, _, _, _, .number _ h, _, _, _ => h.prints
  | _, _, _, _, .string h, _, hm, hc => by
    have := of_decide_eq_true hc
    refine Pc.prints ⟨?_, ?_⟩
    · obtain ⟨p, q, h1, ⟨x, h2, h3⟩, h4⟩ := h
      have := h1.le; have := h4.le; have := h2.le
      rcases h3 with rfl | ⟨_, h3, _⟩ <;> omega
    · rw [← this]
      show _ = spanText s _
      exact (congrArg (spanText s) hm).symm
  | _, _, _, _, .array (vs := vs) (comma := c) h1 h2 h3 h4 h5, _, _, hc => by
    simp only [EExpr.despan, canon, Bool.and_eq_true, despanList_isEmpty] at hc
    refine h1.prints.seq ((h2.prints E hcr hc.2).seq (Pc.prints ((Pc.append ?_ (raw_pc h4.le _)).append h5.pc)))
    rw [despanList_isEmpty]
    have := h3.pc
    have hc := hc.1
    cases hv : vs.isEmpty <;> cases c <;> simp_all
  | _, _, _, _, .object h1 h2 h3, _, _, hc => by
    simp only [EExpr.despan, canon] at hc
    have he := insertItems_eq h2 (acc := []) (fun _ h => nomatch h) (canonItems_adj hc)
    rw [List.nil_append] at he
    rw [he] at hc ⊢
    have := h1.prints.seq ((h2.prints E hcr hc).seq h3.prints)
    rw [W.assoc] at this
    exact this
  | _, _, _, _, .strTmpl h1 h2 h3, _, _, hc => by
    simp only [EExpr.despan, canon] at hc
    have := (h2.prints E hcr).1 hc
    refine h1.prints.seq (Prints.seq ⟨this.1, fun f _ => ⟨this.2, nofun⟩⟩ h3.prints)
  | _, _, _, _, .heredoc (es := es) (es₀ := es₀) (ind := ind) (n := n) h1 _ h2 h3 h4 h5 h6 h7, q, hm, hc => by
    simp only [EExpr.despan, canon] at hc
    have ih := h4.prints E hcr
    have hnl := LineEnding.tok h2 hcr
    have hend := ((raw_pc h6.1 ([] : Str)).append h7.pc).prints (q := q)
    cases ind with
    | false =>
      simp only [heredocElems, Bool.false_eq_true, if_false, Prod.mk.injEq] at h5
      obtain ⟨rfl, rfl⟩ := h5
      simp only [canonHeredoc, Bool.and_eq_true, Bool.not_eq_true'] at hc
      have he := ih.1 hc.1.2
      refine Prints.seq (Pc.prints (h1.pc.append hnl.pc)) (Prints.seq ?_ hend)
      exact (he.prints (by rw [encElems_flag]; rfl)).mono hc.1.1
    | true =>
      cases n with
      | none =>
        simp only [canonHeredoc, Bool.and_eq_true, decide_eq_true_eq] at hc
        refine absurd ?_ hc.2
        obtain ⟨x, g1, g2⟩ := h1.split
        have hm' := congrArg spanStart hm
        have hx := g1.1
        have ht := g1.text
        rw [hx] at ht
        refine Eq.trans ?_ ht
        exact congrArg (fun k => slice s k (k + 3)) hm'
      | some n =>
        simp only [canonHeredoc, Bool.and_eq_true] at hc
        have hs : es = tmplStrip n false es₀ := by
          simp only [heredocElems, if_true, tmplDedent] at h5
          split at h5
          · cases h5
          · cases h5
          · injection h5 with h5 h6
            injection h6 with h6
            rw [← h5, h6]
        subst hs
        have ht := ih.2 hc.2
        have hi := indented_text hcr h3 hc.2 hc.1
        refine Prints.seq (Pc.prints (h1.pc.append hnl.pc)) (Prints.seq ⟨h3.le, fun f hf => ⟨?_, hf⟩⟩ hend)
        show indentBy (EExpr.encElems E _ false).1 n false = _
        rw [ht, hi]
  | _, _, _, _, .paren h1 h2 h3 h4 h5 h6, _, _, hc =>
    h1.prints.seq (((h3.prints E hcr (by rw [h5]; rfl) hc).dec h5 h2.le h4.le).seq h6.prints)
  | _, _, _, _, .var h _, _, _, _ => h.1.prints
  | _, _, _, _, .cond h1 h2 h3 h4 h5 h6 h7 h8 h9 h10 h11 h12 h13, _, _, hc => by
    simp only [EExpr.despan, canon, Bool.and_eq_true] at hc
    obtain ⟨⟨⟨c1, c2⟩, c3⟩, c4⟩ := hc
    refine ((h1.prints E hcr (by rw [h2]; rfl) c1).suf h2 h4.le).seq (h5.prints.seq
      (((h7.prints E hcr (by rw [h9]; rfl) c2).dec h9 h6.le h8.le).seq (h10.prints.seq ?_)))
    exact (h12.prints E hcr (by obtain ⟨r, hr, -⟩ := h13; rw [hr]) c3).pre h13 h11.le c4
  | _, _, _, _, .call h1 h2 h3 h4 h5 h6, _, _, hc => by
    simp only [EExpr.despan, canon] at hc
    have := (Path.prints h1).seq (Prints.deco (m := {}) (d₁ := []) (d₂ := []) .nil
      (h2.prints.seq ((h3.prints E hcr hc).seq
        (Pc.prints ((h4.pc.append (raw_pc h5.le ([] : Str))).append h6.pc)))) .nil)
    rw [W.assoc] at this
    simp only [EExpr.despan, EExpr.core, despanList_isEmpty]
    exact this
  | _, _, _, _, .trav h1 h2 h3 h4 _ _, _, _, hc => by
    simp only [EExpr.despan, canon, Bool.and_eq_true] at hc
    exact ((h1.prints E hcr (by rw [h2]; rfl) hc.1).suf h2 h3.le).seq (h4.prints E hcr hc.2)
  | _, _, _, _, .unary h1 h2 h3 h4 _, _, _, hc => by
    simp only [EExpr.despan, canon, Bool.and_eq_true] at hc
    exact h1.prints.seq
      ((h3.prints E hcr (by obtain ⟨r, hr, -⟩ := h4; rw [hr]) hc.1).pre h4 h2.le hc.2)
  | _, _, _, _, .binary (b' := b') (b := b) h1 h2 h3 h4 h5 h6 h7 _ _ h8, _, hm, hc => by
    simp only [EExpr.despan, canon, Bool.and_eq_true, decide_eq_true_eq] at hc
    obtain ⟨⟨⟨⟨⟨⟨c1, c2⟩, c3⟩, c4⟩, c5⟩, c6⟩, c7⟩ := hc
    have i1 := h1.prints E hcr (by obtain ⟨r, hr, -⟩ := h2; rw [hr]) c1
    have i2 := h6.prints E hcr (by obtain ⟨r, hr, -⟩ := h7; rw [hr]) c2
    have e : b' = b := by
      obtain ⟨r₂, hr₂, -⟩ := h7
      rw [getMeta_despan, hr₂] at c7
      exact c7.trans (congrArg spanStop hm)
    subst e
    exact Prints.seq (i1.node h2 c5)
      (Prints.seq (Prints.deco (blank_pc h3.le c3) h4.prints (blank_pc h5.le c4)) (i2.node h7 c6))
  | _, _, _, _, .forList h1 h2 h3 h4 h5 h6 h7 h8, _, _, hc => by
    simp only [EExpr.despan, canon, Bool.and_eq_true] at hc
    obtain ⟨⟨⟨⟨c1, -⟩, c2⟩, c3⟩, -⟩ := hc
    exact h1.prints.seq ((h2.prints E hcr c1).seq (Pc.nil.prints.seq
      (((h4.prints E hcr (by rw [h6]; rfl) c2).dec h6 h3.le h5.le).seq (Pc.nil.prints.seq
        ((h7.prints E hcr c3).seq h8.prints)))))
  | _, _, _, _, .forObj h1 h2 h3 h4 h5 h6 h7 h8 h9 h10 h11 h12 _ h13 h14, _, _, hc => by
    simp only [EExpr.despan, canon, Bool.and_eq_true] at hc
    obtain ⟨⟨⟨⟨c1, c2⟩, c3⟩, c4⟩, -⟩ := hc
    exact h1.prints.seq ((h2.prints E hcr c1).seq
      ((((h4.prints E hcr (by rw [h6]; rfl) c2).dec h6 h3.le h5.le).seq h7.prints).seq
        (((h9.prints E hcr (by rw [h11]; rfl) c3).dec h11 h8.le h10.le).seq (h12.pc.prints.seq
          ((h13.prints E hcr c4).seq h14.prints)))))
  | _, _, _, _, .forGroup (u := u) (x' := x') (y' := y') (w := w) (z := z) (t := t) (b := b)
      h1 h2 h3 h4 h5 h6 h7 h8 h9 h10 h11 h12 h13 h14, _, hm, hc => by
    simp only [EExpr.despan, canon, Bool.and_eq_true] at hc
    obtain ⟨⟨⟨⟨c1, c2⟩, c3⟩, -⟩, c5⟩ := hc
    have e : t = z := by
      have c5 := of_decide_eq_true c5
      have e1 : b = spanStop (Meta.despan s _).span := (congrArg spanStop hm).symm
      have e2 := e1.trans c5
      rw [getMeta_despan, h11] at e2
      have e3 : decorLen ((decM u x' y' w).despan s).decor.suf = w - y' := decorLen_span h10.le h10.bound
      rw [e3] at e2
      have e2 : b = y' + (w - y') + 4 := e2
      have := h12.1; have := h14.1; have := h10.le
      simp at *
      omega
    subst e
    exact h1.prints.seq ((h2.prints E hcr c1).seq
      ((((h4.prints E hcr (by rw [h6]; rfl) c2).dec h6 h3.le h5.le).seq h7.prints).seq
        (((h9.prints E hcr (by rw [h11]; rfl) c3).dec h11 h8.le h10.le).seq (h12.prints.seq
          (Pc.nil.prints.seq h14.prints)))))

theorem _root_.Verif.Spec.Intro.prints (E : FmtEnv) (hcr : '\r' ∉ s) : ∀ {im k v c p r},
    Intro U s im k v c p r → ∀ {q}, canon U s q (c.despan s) = true →
    Prints s q (deco (im.despan s) [] [] (W.str c!"for" +> encKeyVar (k.map (DIdent.despan s)) +>
      (v.despan s).enc c!" " [] +> W.str c!"in" +>
        deco (c.despan s).getMeta c!" " c!" " ((c.despan s).core E) +> W.str c!":")) p r
  | _, _, _, _, _, _, .mk h1 h2 h3 h4 h5 h6 h7 h8 h9, _, hc => by
    have := h2.prints.seq ((ForVars.prints (d₂ := []) h3).seq (h4.prints.seq
      (((h6.prints E hcr (by rw [h8]; rfl) hc).dec (d₁ := c!" ") (d₂ := c!" ") h8 h5.le h7.le).seq
        h9.prints)))
    rw [W.assoc] at this
    exact .deco (decor_pc h1.le _) this .nil

theorem _root_.Verif.Spec.Cond.prints (E : FmtEnv) (hcr : '\r' ∉ s) : ∀ {cm co p r},
    Cond U s cm co p r → ∀ {q}, canonOpt U s q (EExpr.despanOpt s co) = true →
    Prints s q (EExpr.encForCond E (cm.despan s) (EExpr.despanOpt s co)) p r
  | _, _, _, _, .none, _, _ => Pc.nil.prints
  | _, _, _, _, .some h1 h2 h3 h4 h5 h6, _, hc =>
    .deco (decor_pc h1.le _)
      (h2.prints.seq ((h4.prints E hcr (by rw [h6]; rfl) hc).dec h6 h3.le h5.le)) .nil

theorem _root_.Verif.Spec.Elems.prints (E : FmtEnv) (hcr : '\r' ∉ s) : ∀ {es a b}, Elems U s es a b →
    ∀ {q}, canonList U s q (EExpr.despanList s es) = true →
    Prints s q (EExpr.encList E [] (EExpr.despanList s es)) a b
  | _, _, _, .nil, _, _ => Pc.nil.prints
  | _, _, _, .cons h1 h2 h3 h4 h5, _, hc => by
    simp only [EExpr.despanList, canonList, Bool.and_eq_true] at hc
    exact Pc.nil.prints.seq (((h2.prints E hcr (by rw [h4]; rfl) hc.1).dec h4 h1.le h3.le).seq
      (h5.prints E hcr hc.2))

theorem _root_.Verif.Spec.ElemsTail.prints (E : FmtEnv) (hcr : '\r' ∉ s) : ∀ {es a b},
    ElemsTail U s es a b → ∀ {q}, canonList U s q (EExpr.despanList s es) = true →
    Prints s q (EExpr.encList E c!" " (EExpr.despanList s es)) a b
  | _, _, _, .nil, _, _ => Pc.nil.prints
  | _, _, _, .cons h0 h1 h2 h3 h4 h5, _, hc => by
    simp only [EExpr.despanList, canonList, Bool.and_eq_true] at hc
    exact h0.prints.seq (((h2.prints E hcr (by rw [h4]; rfl) hc.1).dec h4 h1.le h3.le).seq
      (h5.prints E hcr hc.2))

theorem _root_.Verif.Spec.Items.prints (E : FmtEnv) (hcr : '\r' ∉ s) : ∀ {is tr a b},
    Items U s is tr a b → ∀ {q}, canonItems U s q (EExpr.despanItems s is) = true →
    Prints s q (EExpr.encItems E (EExpr.despanItems s is) +> W.str ((tr.despan s).enc [])) a b
  | _, _, _, _, .nil h, _, _ => Pc.nil.prints.seq (raw_pc h.le _).prints
  | _, _, _, _, .last h, _, hc => by
    simp only [EExpr.despanItems, canonItems, Bool.and_eq_true] at hc
    have := (h.prints E hcr hc.1.1.1 hc.1.1.2).seq (Pc.nil.prints.seq (Pc.nil.prints.seq
      (Pc.nil (s := s)).prints))
    simp only [W.assoc] at this
    simp only [EExpr.despanItems, EExpr.encItems, W.assoc]
    exact this
  | _, _, _, _, .cons h1 _ h2 h3, _, hc => by
    simp only [EExpr.despanItems, canonItems, Bool.and_eq_true] at hc
    have := (h1.prints E hcr hc.1.1.1 hc.1.1.2).seq ((h2.pc hcr).prints.seq (h3.prints E hcr hc.2))
    simp only [W.assoc] at this
    simpa only [EExpr.despanItems, EExpr.encItems, W.assoc] using this

theorem _root_.Verif.Spec.Item.prints (E : FmtEnv) (hcr : '\r' ∉ s) : ∀ {k v as a b},
    Item U s k v as a b → ∀ {q}, canonKey U s q (k.despan s) = true →
    canon U s q (v.despan s) = true →
    Prints s q ((k.despan s).enc E +> W.str as.enc +>
      deco (v.despan s).getMeta c!" " [] ((v.despan s).core E)) a b
  | _, _, _, _, _, .ident (d := d) h1 h2 h3 h4 h5 h6 h7 h8 h9 _, q, _, hv => by
    refine Prints.seq ?_ ((assign_pc h5).prints.seq
      ((h7.prints E hcr (by rw [h9]; rfl) hv).dec h9 h6.le h8.le))
    show Prints s q (Verif.deco (d.m.despan s) [] c!" " (W.str d.name)) _ _
    rw [h4]
    exact .deco (decor_pc h1.le _) h2.1.prints (decor_pc h3.le _)
  | _, _, _, _, _, .expr h1 h2 h3 h4 h5 h6 h7 h8 h9 _, _, hk, hv =>
    ((h2.prints E hcr (by rw [h4]; rfl) hk).dec h4 h1.le h3.le).seq ((assign_pc h5).prints.seq
      ((h7.prints E hcr (by rw [h9]; rfl) hv).dec h9 h6.le h8.le))

theorem _root_.Verif.Spec.Travs.prints (E : FmtEnv) (hcr : '\r' ∉ s) : ∀ {nl os a b}, Travs U s nl os a b →
    ∀ {q}, canonTravs U s q (EExpr.despanTravs s os) = true →
    Prints s q (EExpr.encTravs E (EExpr.despanTravs s os)) a b
  | _, _, _, _, .nil, _, _ => Pc.nil.prints
  | _, _, _, _, .cons h1 h2 h3, _, hc => by
    simp only [EExpr.despanTravs, canonTravs, Bool.and_eq_true] at hc
    have i1 := h2.prints E hcr hc.1.2
    have i2 := h3.prints E hcr hc.2
    have := noDecor_eq h1.le hc.1.1
    subst this
    refine Prints.seq (Prints.deco ?_ i1 .nil) i2
    show Pc s (Raw.enc [] (.fromSpan ⟨_, _⟩)) _ _
    rw [Raw.fromSpan, if_neg (Nat.lt_irrefl _)]
    exact .nil

theorem _root_.Verif.Spec.TravOp.prints (E : FmtEnv) (hcr : '\r' ∉ s) : ∀ {o a b}, TravOp U s o a b →
    ∀ {q}, canonOp U s q (o.despan s) = true → Prints s q ((o.despan s).enc E) a b
  | _, _, _, .attrSplat h1 h2 h3, _, _ =>
    h1.prints.seq (.deco (decor_pc h2.le _) h3.prints .nil)
  | _, _, _, .fullSplat h1 h2 h3 h4 h5, _, _ =>
    h1.prints.seq ((Prints.deco (decor_pc h2.le _) h3.prints (decor_pc h4.le _)).seq h5.prints)
  | _, _, _, .getAttr (d := d) h1 h2 h3 h4, q, _ => by
    refine h1.prints.seq ?_
    show Prints s q (Verif.deco (d.m.despan s) [] [] (W.str d.name)) _ _
    rw [h4]
    exact .deco (decor_pc h2.le _) h3.1.prints .nil
  | _, _, _, .index h1 h2 h3 h4 h5 h6, _, hc =>
    h1.prints.seq (((h3.prints E hcr (by rw [h5]; rfl) hc).dec h5 h2.le h4.le).seq h6.prints)
  | _, _, _, .legacyIndex h1 h2 h3 _, _, _ =>
    h1.prints.seq (.deco (decor_pc h2.le _) h3.prints .nil)

theorem _root_.Verif.Spec.TElems.prints (E : FmtEnv) (hcr : '\r' ∉ s) : ∀ {m es a b},
    TElems U s m es a b →
    (∀ {f}, canonElems U s f (EExpr.despanElems s es) = true →
      PAt s f (EExpr.encElems E (EExpr.despanElems s es)) a b) ∧
    (∀ {prev}, canonInd U s prev (EExpr.despanElems s es) = true →
      (EExpr.encElems E (EExpr.despanElems s es) false).1 = outline (elemInline U s) es)
  | _, _, _, _, .nil => ⟨fun _ => ⟨Nat.le_refl _, (slice_self s _).symm⟩, fun _ => rfl⟩
  | _, _, _, _, .cons h1 h2 => by
    obtain ⟨i1, j1⟩ := h1.prints E hcr
    obtain ⟨i2, j2⟩ := h2.prints E hcr
    rw [despanElems_cons]
    refine ⟨fun hc => ?_, fun hc => ?_⟩
    · rw [canonElems, Bool.and_eq_true] at hc
      exact PAt.seq (i1 hc.1) (elem_flag _ _) (i2 hc.2)
    · rw [canonInd, Bool.and_eq_true] at hc
      rw [outline_cons, ← j2 hc.2, ← j1 hc.1, EExpr.encElems, W.seq_apply]
      show _ ++ (EExpr.encElems E _ (EElem.enc E _ false).2).1 = _
      rw [elem_flag, Bool.false_and]

theorem _root_.Verif.Spec.ElemAt.prints (E : FmtEnv) (hcr : '\r' ∉ s) : ∀ {m e a b},
    ElemAt U s m e a b →
    (∀ {f}, canonElem U s f (despanElem s e) = true → PAt s f ((despanElem s e).enc E) a b) ∧
    (∀ {prev}, canonIndElem U s prev (despanElem s e) = true →
      ((despanElem s e).enc E false).1 = outline (elemInline U s) [e])
  | _, _, _, _, .lit h1 h2 h3 => by
    refine ⟨fun hc => ?_, fun hc => ?_⟩
    · rw [despanElem, canonElem, decide_eq_true_eq] at hc
      exact ⟨Nat.le_of_lt h1, hc.symm⟩
    · simp only [despanElem, canonIndElem, Bool.and_eq_true] at hc
      show escapeMarkers _ = _ ++ []
      rw [esc_noMarker hc.2, List.append_nil]
  | _, _, _, _, .interp h1 h2 h3 h4 h5 h6 => by
    have ih := fun {q} => h3.prints E hcr (q := q) (by rw [h5]; rfl)
    refine ⟨fun hc => (Prints.strip h1 ((ih hc).dec h5 h2.le h4.le) h6).at, fun hc => ?_⟩
    simp only [despanElem, canonIndElem, Bool.and_eq_true] at hc
    have i2 := (Prints.strip h1 ((ih hc.2).dec (d₁ := c!" ") (d₂ := c!" ") h5 h2.le h4.le) h6).at
    refine i2.2.trans ?_
    show _ = elemInline U s _ ++ []
    rw [List.append_nil, elemInline, if_pos (by exact hc.1)]
    rfl
  | _, _, _, _, .ifDir h1 h2 h3 h4 h5 h6 h7 h8 h9 h10 h11 => by
    refine ⟨fun hc => ?_, fun hc => by simp [despanElem, canonIndElem] at hc⟩
    simp only [despanElem, canonElem, Bool.and_eq_true] at hc
    obtain ⟨⟨c1, c2⟩, c3⟩ := hc
    have hs := (Prints.strip h1 ((((raw_pc h2.le c!" ").append h3.pc).prints).seq
      ((h5.prints E hcr (by rw [h7]; rfl) c1).dec (d₁ := []) (d₂ := c!" ") h7 h4.le h6.le)) h8).at
    refine PAt.seq hs ?_ (PAt.seq ((h9.prints E hcr).1 c2) ?_ (PAt.seq (h10.prints E hcr c3) rfl
      (Marker.prints (q := _) h11).at))
    · simp [core_flag]
    · simp [encElems_flag]
  | _, _, _, _, .forDir h1 h2 h3 h4 h5 h6 h7 h8 h9 h10 h11 h12 => by
    refine ⟨fun hc => ?_, fun hc => by simp [despanElem, canonIndElem] at hc⟩
    simp only [despanElem, canonElem, Bool.and_eq_true] at hc
    obtain ⟨c1, c2⟩ := hc
    have hw := (((raw_pc h2.le c!" ").append h3.pc).prints).seq ((ForVars.prints (d₂ := c!" ") h4).seq
      (h5.prints.seq
        ((h7.prints E hcr (by rw [h9]; rfl) c1).dec (d₁ := c!" ") (d₂ := c!" ") h9 h6.le h8.le)))
    rw [W.assoc] at hw
    have hs := (Prints.strip h1 hw h10).at
    refine PAt.seq hs ?_ (PAt.seq ((h11.prints E hcr).1 c2) rfl (Marker.prints (q := _) h12).at)
    simp [core_flag]

theorem _root_.Verif.Spec.Else.prints (E : FmtEnv) (hcr : '\r' ∉ s) : ∀ {el a b},
    Else U s el a b → ∀ {f}, canonElse U s f (EExpr.despanElse s el) = true →
    PAt s f (EExpr.encElseOpt E (EExpr.despanElse s el)) a b
  | _, _, _, .none, _, _ => ⟨Nat.le_refl _, (slice_self s _).symm⟩
  | _, _, _, .some h1 h2, f, hc => by
    simp only [EExpr.despanElse, canonElse, canonElse'] at hc
    exact PAt.seq (Marker.prints h1).at rfl ((h2.prints E hcr).1 hc)

end

/-! ### Bodies -/

theorem Labels.prints : ∀ {ls a b}, Labels U s ls a b →
    (ls.map (ELabel.despan s)).all (canonLabel s) = true →
    Prints s false (encLabels (ls.map (ELabel.despan s))) a b
  | _, _, _, .nil, _ => Pc.nil.prints
  | _, _, _, .ident h1 h2, hc => by
    simp only [List.map_cons, List.all_cons, Bool.and_eq_true] at hc
    exact (SufIdent.prints h1).seq (Labels.prints h2 hc.2)
  | _, _, _, .string (t := t) h1 h2 h3, hc => by
    simp only [List.map_cons, List.all_cons, Bool.and_eq_true] at hc
    have := of_decide_eq_true hc.1
    refine Prints.seq (Prints.deco .nil (Pc.prints ⟨Nat.le_of_lt h1.bounds.1, ?_⟩) (decor_pc h2.le _))
      (Labels.prints h3 hc.2)
    exact this

theorem encStructs_false (E : FmtEnv) : ∀ ss : List EStruct,
    encStructs E false ss = EStruct.encList E ss
  | [] => rfl
  | s :: ss => by
    rw [encStructs, EStruct.encList, encStructs_false E ss]
    simp

theorem despanStructs_isEmpty (ss : List EStruct) :
    (EStruct.despanList s ss).isEmpty = ss.isEmpty := by
  cases ss <;> rfl

mutual

theorem _root_.Verif.Spec.StructAt.prints (E : FmtEnv) (hcr : '\r' ∉ s) : ∀ {st a b},
    StructAt U s st a b → canonStruct U s (st.despan s) = true → ∀ {p r}, structMeta st = decM p a b r →
    p ≤ a → b ≤ r → ∀ {d₁ d₂ : Str}, Prints s false ((st.despan s).enc E d₁ d₂) p r
  | _, _, _, .attr (m := m) (k := k) (v := v) h1 h2 h3 h4 h5, hc, p, r, hm, hp, hr, d₁, d₂ => by
    simp only [EStruct.despan, canonStruct, Bool.and_eq_true] at hc
    have i := h4.prints E hcr (by obtain ⟨r, hr, -⟩ := h5; rw [hr]) hc.1
    have hm : m = _ := hm
    show Prints s false (Verif.deco (m.despan s) d₁ d₂ (encAttr E (k.despan s) (v.despan s))) p r
    rw [hm]
    exact .deco (decor_pc hp _)
      ((SufIdent.prints h1).seq (h2.prints.seq (i.pre h5 h3.le hc.2))) (decor_pc hr _)
  | _, _, _, .block (m := m) (i := i) (ls := ls) (bd := .mk bm ss o om) h1 h2 h3 h4 h5, hc, p, r, hm,
      hp, hr, d₁, d₂ => by
    simp only [EStruct.despan, canonStruct, Bool.and_eq_true] at hc
    have ih := h4.prints E hcr hc.2
    have hm : m = _ := hm
    simp only [EStruct.despan, EBody.despan, EStruct.enc]
    rw [hm]
    exact .deco (decor_pc hp _)
      ((SufIdent.prints h1).seq ((Labels.prints h2 hc.1).seq (h3.prints.seq (ih.seq h5.prints))))
      (decor_pc hr _)

theorem _root_.Verif.Spec.BlockBody.prints (E : FmtEnv) (hcr : '\r' ∉ s) : ∀ {bm ss o om p q},
    BlockBody U s (.mk bm ss o om) p q → canonBody U s (EBody.despan s (.mk bm ss o om)) = true →
    Prints s false (deco (bm.despan s) [] [] (if o && onelineOk (EStruct.despanList s ss)
      then EStruct.encOneline E (EStruct.despanList s ss)
      else W.str c!"\n" +> EStruct.encList E (EStruct.despanList s ss))) p q
  | _, _, _, _, _, _, .lines h1 h2 h3 _ h4, hc => by
    simp only [EBody.despan, canonBody] at hc
    have ih := h3.prints E hcr hc
    rw [encStructs_false] at ih
    exact .deco (decor_pc h1.le _) ((LineEnding.tok h2 hcr).prints.seq ih) (decor_pc h4.le _)
  | _, _, _, _, _, _, .empty h, _ => .deco .nil Pc.nil.prints (decor_pc h.le _)
  | _, _, _, _, _, _, .single h1 h2 h3 h4, hc => by
    simp only [EBody.despan, canonBody, EStruct.despanList, canonStructs, Bool.and_eq_true] at hc
    have ih := h2.prints E hcr hc.1 rfl h1.le h3.le (d₁ := c!" ") (d₂ := c!" ")
    exact .deco .nil ih (decor_pc h4.le _)

theorem _root_.Verif.Spec.Lines.prints (E : FmtEnv) (hcr : '\r' ∉ s) : ∀ {ss fin p q},
    Lines U s ss fin p q → canonStructs U s (EStruct.despanList s ss) = true →
    Prints s false (encStructs E fin (EStruct.despanList s ss)) p q
  | _, _, _, _, .nil, _ => Pc.nil.prints
  | _, _, _, _, .cons (ss := ss) (fin := fin) h1 h2 h3 h4 h5 h6, hc => by
    simp only [EStruct.despanList, canonStructs, Bool.and_eq_true] at hc
    have i1 := h2.prints E hcr hc.1 h3 h1.le h4.le (d₁ := []) (d₂ := [])
    have i2 := h6.prints E hcr hc.2
    refine i1.seq (Prints.seq ?_ i2)
    have hn : (!(EStruct.despanList s ss).isEmpty || !fin) = true := by
      rw [despanStructs_isEmpty]
      cases h6 <;> simp
    rw [hn]
    exact (LineEnding.tok h5 hcr).prints
  | _, _, _, _, .last h1 h2 h3 h4, hc => by
    simp only [EStruct.despanList, canonStructs, Bool.and_eq_true] at hc
    have i1 := h2.prints E hcr hc.1 h3 h1.le h4.le (d₁ := []) (d₂ := [])
    exact i1.seq (Pc.nil.prints.seq Pc.nil.prints)

end

theorem slice_all (s : Str) : slice s 0 s.length = s := by simp [slice]

theorem Document.show (E : FmtEnv) (hcr : '\r' ∉ s) {b : EBody} (h : Document U s b)
    (hc : canonBody U s (b.despan s) = true) : (b.despan s).show E = s := by
  cases h with
  | mk h1 _ h2 =>
    simp only [EBody.despan, canonBody] at hc
    have := (Prints.deco (m := ⟨⟨none, some _⟩, none⟩) (d₁ := []) (d₂ := []) .nil (h1.prints E hcr hc)
      (decor_pc h2.le _)).2 false nofun
    exact this.1.trans (slice_all s)

end Verif.Spec
