import Verif.Lemmas.Heavy
import Verif.Lemmas.ParseTop
/-! Helper lemmas for C76: the printed text of a parsed tree weighs at most as much as its source. -/

set_option linter.unusedSimpArgs false
set_option linter.unusedVariables false

namespace Verif.Spec
open Gram

variable {U : Uni} {s : Str} {E : FmtEnv}

/-- The printed text weighs at most as much as the source between the offsets. -/
def Light (s : Str) (w : W) (a b : Nat) : Prop := a ≤ b ∧ ∀ f, kap (w f).1 ≤ kp s a b

theorem Light.seq {v w : W} {a b c : Nat} (h1 : Light s v a b) (h2 : Light s w b c) : Light s (v +> w) a c := by
  refine ⟨Nat.le_trans h1.1 h2.1, fun f => ?_⟩
  have e1 := h1.2 f
  have e2 := h2.2 (v f).2
  have e3 := kp_add (s := s) h1.1 h2.1
  rw [W.seq_apply, kap_append]
  omega

theorem Prints.light {w : W} {a b : Nat} (h : Prints s true w a b) : Light s w a b :=
  ⟨h.1, fun f => Nat.le_of_eq (congrArg kap (h.2 f fun _ => rfl).1)⟩

theorem Pc.light {t : Str} {a b : Nat} (h : Pc s t a b) : Light s (W.str t) a b := Prints.light h.prints

theorem Tok.light {t : Str} {a b : Nat} (h : Tok s t a b) : Light s (W.str t) a b := h.pc.light

/-- Texts without weight can stand for anything. -/
theorem Light.zero {t : Str} {a b : Nat} (h : a ≤ b) (ht : kap t = 0) : Light s (W.str t) a b :=
  ⟨h, fun _ => by show kap t ≤ _; omega⟩

theorem Light.mono {w : W} {a b b' : Nat} (h : Light s w a b) (hb : b ≤ b') : Light s w a b' :=
  ⟨Nat.le_trans h.1 hb, fun f => Nat.le_trans (h.2 f) (kp_mono (Nat.le_refl _) h.1 hb)⟩

theorem Light.le {v w : W} {a b : Nat} (h : Light s w a b) (hv : ∀ f, kap (v f).1 ≤ kap (w f).1) :
    Light s v a b := ⟨h.1, fun f => Nat.le_trans (hv f) (h.2 f)⟩

theorem Light.plus {w : W} {a b n : Nat} (h : Light s w a b) (v : W) (hv : ∀ f, kap (v f).1 ≤ n) (f : Bool) :
    kap ((w +> v) f).1 ≤ kp s a b + n := by
  rw [W.seq_apply, kap_append]
  exact Nat.add_le_add (h.2 f) (hv _)

theorem Light.deco {w : W} {m : Meta} {d₁ d₂ : Str} {p a b r : Nat}
    (h1 : Light s (W.str (encDecor d₁ m.decor.pre)) p a) (h2 : Light s w a b)
    (h3 : Light s (W.str (encDecor d₂ m.decor.suf)) b r) : Light s (deco m d₁ d₂ w) p r :=
  h1.seq (h2.seq h3)

theorem Light.dec {e : EExpr} {d₁ d₂ : Str} {p a b r : Nat} {w : W}
    (h : Light s w a b) (hm : e.getMeta = decM p a b r) (h1 : p ≤ a) (h2 : b ≤ r) :
    Light s (Verif.deco (e.despan s).getMeta d₁ d₂ w) p r := by
  rw [getMeta_despan, hm]
  exact .deco (decor_pc h1 d₁).light h (decor_pc h2 d₂).light

theorem Light.suf {e : EExpr} {d₂ : Str} {a b r : Nat} {w : W}
    (h : Light s w a b) (hm : e.getMeta = sufM a b r) (h2 : b ≤ r) :
    Light s (Verif.deco (e.despan s).getMeta [] d₂ w) a r := by
  rw [getMeta_despan, hm]
  exact .deco Pc.nil.light h (decor_pc h2 d₂).light

/-- Decor that is still a span is printed as the default. -/
theorem Light.span {d : Str} {a b : Nat} (h : a ≤ b) (hd : kap d = 0) :
    Light s (W.str (encDecor d (some (.fromSpan ⟨a, b⟩)))) a b := by
  refine .zero h ?_
  show kap (Raw.enc d (.fromSpan ⟨a, b⟩)) = 0
  unfold Raw.fromSpan
  split
  · exact hd
  · rfl

/-- An expression weighs at most as much as its source, even with the suffix of a grouped `for`. -/
def CoreW (E : FmtEnv) (s : Str) (e : EExpr) (a b : Nat) : Prop :=
  Light s ((e.despan s).core E) a b ∧ (groupedFor e = true → ∀ f,
    kap ((e.despan s).core E f).1 + kp s (groupStart e) (b - 1) ≤ kp s a b)

theorem CoreW.pre {e : EExpr} {d₁ : Str} {p a b : Nat} (h : CoreW E s e a b) (hm : PreNodeM s e p a b)
    (h1 : p ≤ a) : Light s (Verif.deco (e.despan s).getMeta d₁ [] ((e.despan s).core E)) p b := by
  obtain ⟨r, hm, ho⟩ := hm
  rw [getMeta_despan, hm]
  refine (decor_pc h1 d₁).light.seq ⟨h.1.1, fun f => ?_⟩
  rcases ho with rfl | ⟨hg, h2, h3, rfl⟩
  · have := h.1.2 f
    show kap (_ ++ []) ≤ _
    rw [List.append_nil]; exact this
  · have h4 := h.2 hg f
    have e := (decor_pc (s := s) (a := groupStart e) (b := b - 1) (by omega) []).2
    rw [W.seq_apply, kap_append]
    refine Nat.le_trans (Nat.le_of_eq ?_) h4
    congr 1
    show kap (encDecor [] (Option.map (Raw.despan s) (some (Raw.fromSpan ⟨groupStart _, b - 1⟩)))) = _
    rw [← e]; rfl

theorem CoreW.node {e : EExpr} {a b : Nat} (h : CoreW E s e a b) (hm : NodeM s e a b) :
    Light s (Verif.deco (e.despan s).getMeta [] [] ((e.despan s).core E)) a b := by
  obtain ⟨r, hm, ho⟩ := hm
  rw [getMeta_despan, hm]
  refine Pc.nil.light.seq ⟨h.1.1, fun f => ?_⟩
  rcases ho with rfl | ⟨hg, h2, h3, rfl⟩
  · have := h.1.2 f
    show kap (_ ++ []) ≤ _
    rw [List.append_nil]; exact this
  · have h4 := h.2 hg f
    have e := (decor_pc (s := s) (a := groupStart e) (b := b - 1) (by omega) []).2
    rw [W.seq_apply, kap_append]
    refine Nat.le_trans (Nat.le_of_eq ?_) h4
    congr 1
    show kap (encDecor [] (Option.map (Raw.despan s) (some (Raw.fromSpan ⟨groupStart _, b - 1⟩)))) = _
    rw [← e]; rfl

theorem CoreW.of {e : EExpr} {a b : Nat} (h : Light s ((e.despan s).core E) a b) (hg : groupedFor e = false) :
    CoreW E s e a b := ⟨h, fun h' => by rw [hg] at h'; cases h'⟩

/-! ### Weights of trees -/

theorem wgt_seq {v w : W} (h : Steady w) : wgt (v +> w) = wgt v + wgt w := by
  unfold wgt
  rw [W.seq_apply, kap_append, h]

theorem wgt_items (k : EKey) (v : EExpr) (a : Assign) (t : ItemEnd) (is : List EItem) :
    wgt (EExpr.encItems E (.mk k v a t :: is)) =
      wgt (k.enc E) + wgt (deco v.getMeta c!" " [] (v.core E)) + wgt (EExpr.encItems E is) := by
  have ha : kap a.enc = 0 := by cases a <;> decide
  have ht : kap t.enc = 0 := by cases t <;> decide
  have f1 := flat_items (E := E) is
  have f2 : Steady (W.str t.enc +> EExpr.encItems E is) := (Steady.str _).seq f1
  have f3 : Steady (deco v.getMeta c!" " [] (v.core E) +> W.str t.enc +> EExpr.encItems E is) :=
    (Steady.deco (flat_core v)).seq f2
  rw [EExpr.encItems, wgt_seq ((Steady.str _).seq f3), wgt_seq f3, wgt_seq f2, wgt_seq f1]
  show _ + (kap a.enc + (_ + (kap t.enc + _))) = _
  omega

theorem wgt_itemInsert (k : EKey) (v : EExpr) (a : Assign) (t : ItemEnd) : ∀ acc : List EItem,
    wgt (EExpr.encItems E (EExpr.despanItems s (itemInsert k v a t acc))) ≤
      wgt (EExpr.encItems E (EExpr.despanItems s acc)) +
        wgt (EExpr.encItems E (EExpr.despanItems s [.mk k v a t]))
  | [] => Nat.le_add_left ..
  | .mk k' v' a' t' :: acc => by
    have ih := wgt_itemInsert k v a t acc
    rw [itemInsert]
    split
    · simp only [EExpr.despanItems, wgt_items]; omega
    · simp only [EExpr.despanItems, wgt_items] at ih ⊢; omega

theorem wgt_insertItems : ∀ is acc : List EItem,
    wgt (EExpr.encItems E (EExpr.despanItems s (insertItems acc is))) ≤
      wgt (EExpr.encItems E (EExpr.despanItems s acc)) + wgt (EExpr.encItems E (EExpr.despanItems s is))
  | [], acc => Nat.le_add_right ..
  | .mk k v a t :: is, acc => by
    rw [insertItems]
    have h1 := wgt_insertItems is (itemInsert k v a t acc)
    have h2 := wgt_itemInsert (E := E) (s := s) k v a t acc
    simp only [EExpr.despanItems, wgt_items] at h1 h2 ⊢
    have : wgt (EExpr.encItems E []) = 0 := rfl
    omega

theorem wgt_elems (e : EElem) (es : List EElem) :
    wgt (EExpr.encElems E (e :: es)) = wgt (e.enc E) + wgt (EExpr.encElems E es) := by
  rw [EExpr.encElems, wgt_seq (flat_elems es)]

theorem wgt_tmplStrip (n : Nat) : ∀ (es : List EElem) (sk : Bool),
    wgt (EExpr.encElems E (EExpr.despanElems s (tmplStrip n sk es))) ≤
      wgt (EExpr.encElems E (EExpr.despanElems s es))
  | [], _ => Nat.le_refl _
  | .lit sp t :: es, sk => by
    rw [tmplStrip]
    simp only [EExpr.despanElems, wgt_elems]
    have h1 := wgt_tmplStrip n es ((dedentBy t n sk).getLast? != some '\n')
    have h2 := kap_dedentBy t n sk
    have h3 : ∀ u, wgt ((EElem.lit sp u).enc E) = kap u := fun u => kap_encLit u false
    rw [h3, h3]
    omega
  | .interp sp e st :: es, sk => by
    rw [tmplStrip]
    · simp only [EExpr.despanElems, wgt_elems]
      have h1 := wgt_tmplStrip n es true
      omega
    · nofun
  | .ifDir .. :: es, sk => by
    rw [tmplStrip]
    · simp only [EExpr.despanElems, wgt_elems]
      have h1 := wgt_tmplStrip n es true
      omega
    · nofun
  | .forDir .. :: es, sk => by
    rw [tmplStrip]
    · simp only [EExpr.despanElems, wgt_elems]
      have h1 := wgt_tmplStrip n es true
      omega
    · nofun

theorem wgt_heredoc {ind : Bool} {es₀ es : List EElem} {n : Option Nat} (h : heredocElems U ind es₀ = (es, n)) :
    wgt (EExpr.encElems E (EExpr.despanElems s es)) ≤ wgt (EExpr.encElems E (EExpr.despanElems s es₀)) := by
  unfold heredocElems at h
  split at h
  · unfold tmplDedent at h
    split at h
    · cases h; exact Nat.le_refl _
    · cases h; exact Nat.le_refl _
    · cases h; exact wgt_tmplStrip ..
  · cases h; exact Nat.le_refl _

/-! ### Expressions -/

theorem Light.strip {t : Str} {st : Strip} {w : W} {a p r b : Nat}
    (h1 : Opens s st t a p) (h2 : Light s w p r) (h3 : Closes s st r b) : Light s (encStrip t st w) a b :=
  (Tok.light h1).seq (h2.seq (Tok.light h3))

theorem Light.nil {a : Nat} : Light s (W.str []) a a := Pc.nil.light

mutual

theorem _root_.Verif.Spec.Core.light (E : FmtEnv) : ∀ {nl e a b}, Core U s nl e a b → CoreW E s e a b
  | _, _, _, _, .null h => .of h.light rfl
  | _, _, _, _, .bool h => .of h.light rfl
  | _, _, _, _, .number _ h => .of h.light rfl
  | _, _, _, _, .string (x := x) h => by
    have := kap_quotedAt h
    refine .of ⟨this.1, fun f => ?_⟩ rfl
    show kap (encQuoted x) ≤ _
    rw [kap_quoted]; exact this.2
  | _, _, _, _, .array (vs := vs) (comma := c) h1 h2 h3 h4 h5 => by
    refine .of (h1.light.seq ((h2.light E).seq ?_)) rfl
    rw [W.str_append, W.str_append]
    refine Light.seq (Light.seq (.zero h3.pc.1 ?_) (raw_pc h4.le _).light) h5.light
    split <;> decide
  | _, _, _, _, .object (is := is) (tr := tr) h1 h2 h3 => by
    have i := h2.light E
    have hw := wgt_insertItems (E := E) (s := s) is []
    have j : Light s (EExpr.encItems E (EExpr.despanItems s (insertItems [] is)) +>
        W.str ((tr.despan s).enc [])) _ _ := Light.le i fun f => ?_
    · have k := h1.light.seq (Light.seq j h3.light)
      rw [W.assoc] at k
      exact .of k rfl
    · rw [W.seq_apply, W.seq_apply, kap_append, kap_append]
      have e1 := flat_items (E := E) (EExpr.despanItems s (insertItems [] is)) f
      have e2 := flat_items (E := E) (EExpr.despanItems s is) f
      have e3 : wgt (EExpr.encItems E (EExpr.despanItems s [])) = 0 := rfl
      show _ + kap ((Raw.despan s _).enc []) ≤ _ + kap ((Raw.despan s _).enc [])
      unfold wgt at hw e3
      omega
  | _, _, _, _, .strTmpl h1 h2 h3 => by
    have i := h2.light E (by nofun)
    exact .of (h1.light.seq (Light.seq ⟨i.1, fun f => i.2 true⟩ h3.light)) rfl
  | _, _, _, _, .heredoc (d := d) (es := es) (es₀ := es₀) (ind := ind) (n := n) (p := p) (q := q) h1 _ h2 h3 h4 h5 h6 h7 => by
    have i := h3.light E (by nofun)
    have hw := wgt_heredoc (E := E) (s := s) h5
    have h2' : p ≤ q := by rcases h2 with h | h <;> exact h.pc.1
    have hnl : Light s (W.str c!"\n") p q := .zero h2' (by decide)
    have hend := ((raw_pc h6.1 ([] : Str)).append h7.pc).light
    refine .of ?_ rfl
    refine Light.seq (b := q) ?_ (Light.seq (Light.le i fun f => ?_) hend)
    · rw [W.str_append]
      refine Light.seq (Light.le h1.light fun f => ?_) hnl
      have : wt '-' = 0 := by decide
      cases n <;> cases ind <;> simp [W.str, this]
    · have e1 := flat_elems (E := E) (EExpr.despanElems s es)
      have e2 := flat_elems (E := E) (EExpr.despanElems s es₀) f
      unfold wgt at hw
      cases n with
      | none => 
        have := e1 f
        simp only [encHere]; omega
      | some n =>
        show kap (indentBy (EExpr.encElems E (EExpr.despanElems s es) false).1 n false) ≤ _
        rw [kap_indentBy]; omega
  | _, _, _, _, .paren h1 h2 h3 h4 h5 h6 =>
    .of (h1.light.seq (((h3.light E).1.dec h5 h2.le h4.le).seq h6.light)) rfl
  | _, _, _, _, .var h _ => .of h.1.light rfl
  | _, _, _, _, .cond h1 h2 h3 h4 h5 h6 h7 h8 h9 h10 h11 h12 h13 =>
    .of (((h1.light E).1.suf h2 h4.le).seq (h5.light.seq (((h7.light E).1.dec h9 h6.le h8.le).seq
      (h10.light.seq ((h12.light E).pre h13 h11.le))))) rfl
  | _, _, _, _, .call (as := as) h1 h2 h3 h4 h5 h6 => by
    have := (Path.prints (q := true) h1).light.seq (Light.deco (m := {}) (d₁ := []) (d₂ := []) .nil
      (h2.light.seq ((h3.light E).seq
        (Pc.light ((h4.pc.append (raw_pc h5.le ([] : Str))).append h6.pc)))) .nil)
    rw [W.assoc] at this
    refine .of ?_ rfl
    simp only [EExpr.despan, EExpr.core, despanList_isEmpty]
    exact this
  | _, _, _, _, .trav h1 h2 h3 h4 _ _ => .of (((h1.light E).1.suf h2 h3.le).seq (h4.light E)) rfl
  | _, _, _, _, .unary h1 h2 h3 h4 _ => .of (h1.light.seq ((h3.light E).pre h4 h2.le)) rfl
  | _, _, _, _, .binary h1 h2 h3 h4 h5 h6 h7 _ _ h8 =>
    .of ((((h1.light E).node h2).seq ((Light.deco (.span h3.le (by decide)) h4.light
      (.span h5.le (by decide))).seq ((h6.light E).node h7))).mono h8.le) rfl
  | _, _, _, _, .forList h1 h2 h3 h4 h5 h6 h7 h8 =>
    .of (h1.light.seq ((h2.light E).seq (Light.nil.seq
      (((h4.light E).1.dec h6 h3.le h5.le).seq (Light.nil.seq ((h7.light E).seq h8.light)))))) rfl
  | _, _, _, _, .forObj (co := co) (g := g) h1 h2 h3 h4 h5 h6 h7 h8 h9 h10 h11 h12 hg h13 h14 =>
    .of (h1.light.seq ((h2.light E).seq
      ((((h4.light E).1.dec h6 h3.le h5.le).seq h7.light).seq
        (((h9.light E).1.dec h11 h8.le h10.le).seq (h12.pc.light.seq ((h13.light E).seq h14.light))))))
      (by cases g <;> cases co <;> first | rfl | (exact absurd (hg rfl) (by simp)))
  | _, _, a, b, .forGroup (m := m) (im := im) (k := k) (v := v) (c := c) (ke := ke) (ve := ve) (w := w) (z := z) (t := t)
      h1 h2 h3 h4 h5 h6 h7 h8 h9 h10 h11 h12 h13 h14 => by
    have i := h1.light.seq ((h2.light E).seq
      ((((h4.light E).1.dec (d₁ := c!" ") (d₂ := c!" ") h6 h3.le h5.le).seq h7.light).seq
        (((h9.light E).1.dec (d₁ := c!" ") (d₂ := []) h11 h8.le h10.le).seq h12.light)))
    have hz : w + 3 = z := by have := h12.1; simpa using this.symm
    have hb : b - 1 = t := by have := h14.1; simp at this; omega
    have j : ∀ f, kap (((EExpr.forE m im k v c (some ke) ve true {} none).despan s).core E f).1 ≤
        kp s a z + kp s t b := fun f => by
      have e1 := Light.plus i (W.str [] +> W.str c!"}") (fun g => h14.light.2 g) f
      simp only [W.assoc] at e1
      simp only [EExpr.despan, EExpr.despanOpt, EExpr.core, EExpr.encForKey, EExpr.encForCond, W.assoc]
      exact e1
    have h3' : groupStart (EExpr.forE m im k v c (some ke) ve true {} none) = z := by
      show decStop ve.getMeta + 3 = z
      rw [h11, decStop_decM h10.le, hz]
    have h4' := kp_add (s := s) i.1 h13.le
    have h5' := kp_add (s := s) (Nat.le_trans i.1 h13.le) h14.pc.1
    refine ⟨⟨Nat.le_trans i.1 (Nat.le_trans h13.le h14.pc.1), fun f => ?_⟩, fun _ f => ?_⟩
    · have := j f; omega
    · have := j f; rw [h3', hb]; omega

theorem _root_.Verif.Spec.Intro.light (E : FmtEnv) : ∀ {im k v c p r}, Intro U s im k v c p r →
    Light s (deco (im.despan s) [] [] (W.str c!"for" +> encKeyVar (k.map (DIdent.despan s)) +>
      (v.despan s).enc c!" " [] +> W.str c!"in" +>
        deco (c.despan s).getMeta c!" " c!" " ((c.despan s).core E) +> W.str c!":")) p r
  | _, _, _, _, _, _, .mk h1 h2 h3 h4 h5 h6 h7 h8 h9 => by
    have := h2.light.seq ((ForVars.prints (q := true) (d₂ := []) h3).light.seq (h4.light.seq
      (((h6.light E).1.dec (d₁ := c!" ") (d₂ := c!" ") h8 h5.le h7.le).seq h9.light)))
    rw [W.assoc] at this
    exact .deco (decor_pc h1.le _).light this .nil

theorem _root_.Verif.Spec.Cond.light (E : FmtEnv) : ∀ {cm co p r}, Cond U s cm co p r →
    Light s (EExpr.encForCond E (cm.despan s) (EExpr.despanOpt s co)) p r
  | _, _, _, _, .none => .nil
  | _, _, _, _, .some h1 h2 h3 h4 h5 h6 =>
    .deco (decor_pc h1.le _).light (h2.light.seq ((h4.light E).1.dec h6 h3.le h5.le)) .nil

theorem _root_.Verif.Spec.Elems.light (E : FmtEnv) : ∀ {es a b}, Elems U s es a b →
    Light s (EExpr.encList E [] (EExpr.despanList s es)) a b
  | _, _, _, .nil => .nil
  | _, _, _, .cons h1 h2 h3 h4 h5 =>
    Light.nil.seq (((h2.light E).1.dec h4 h1.le h3.le).seq (h5.light E))

theorem _root_.Verif.Spec.ElemsTail.light (E : FmtEnv) : ∀ {es a b}, ElemsTail U s es a b →
    Light s (EExpr.encList E c!" " (EExpr.despanList s es)) a b
  | _, _, _, .nil => .nil
  | _, _, _, .cons h0 h1 h2 h3 h4 h5 =>
    h0.light.seq (((h2.light E).1.dec h4 h1.le h3.le).seq (h5.light E))

theorem _root_.Verif.Spec.Items.light (E : FmtEnv) : ∀ {is tr a b}, Items U s is tr a b →
    Light s (EExpr.encItems E (EExpr.despanItems s is) +> W.str ((tr.despan s).enc [])) a b
  | _, _, _, _, .nil h => Light.nil.seq (raw_pc h.le _).light
  | _, _, _, _, .last h => by
    have := (h.light E).seq (Light.nil.seq (Light.nil.seq (Light.nil (s := s))))
    simp only [W.assoc] at this
    simp only [EExpr.despanItems, EExpr.encItems, W.assoc]
    exact this
  | _, _, _, _, .cons (t := t) h1 _ h2 h3 => by
    have ht : kap t.enc = 0 := by cases t <;> decide
    have := (h1.light E).seq ((Light.zero h2.le ht).seq (h3.light E))
    simp only [W.assoc] at this
    simpa only [EExpr.despanItems, EExpr.encItems, W.assoc] using this

theorem _root_.Verif.Spec.Item.light (E : FmtEnv) : ∀ {k v as a b}, Item U s k v as a b →
    Light s ((k.despan s).enc E +> W.str as.enc +>
      deco (v.despan s).getMeta c!" " [] ((v.despan s).core E)) a b
  | _, _, _, _, _, .ident (d := d) h1 h2 h3 h4 h5 h6 h7 h8 h9 _ => by
    refine Light.seq ?_ ((assign_pc h5).light.seq ((h7.light E).1.dec h9 h6.le h8.le))
    show Light s (Verif.deco (d.m.despan s) [] c!" " (W.str d.name)) _ _
    rw [h4]
    exact .deco (decor_pc h1.le _).light h2.1.light (decor_pc h3.le _).light
  | _, _, _, _, _, .expr h1 h2 h3 h4 h5 h6 h7 h8 h9 _ =>
    ((h2.light E).1.dec h4 h1.le h3.le).seq ((assign_pc h5).light.seq
      ((h7.light E).1.dec h9 h6.le h8.le))

theorem _root_.Verif.Spec.Travs.light (E : FmtEnv) : ∀ {nl os a b}, Travs U s nl os a b →
    Light s (EExpr.encTravs E (EExpr.despanTravs s os)) a b
  | _, _, _, _, .nil => .nil
  | _, _, _, _, .cons h1 h2 h3 =>
    Light.seq (Light.deco (.span h1.le (by decide)) (h2.light E) .nil) (h3.light E)

theorem _root_.Verif.Spec.TravOp.light (E : FmtEnv) : ∀ {o a b}, TravOp U s o a b →
    Light s ((o.despan s).enc E) a b
  | _, _, _, .attrSplat h1 h2 h3 => h1.light.seq (.deco (decor_pc h2.le _).light h3.light .nil)
  | _, _, _, .fullSplat h1 h2 h3 h4 h5 =>
    h1.light.seq ((Light.deco (decor_pc h2.le _).light h3.light (decor_pc h4.le _).light).seq h5.light)
  | _, _, _, .getAttr (d := d) h1 h2 h3 h4 => by
    refine h1.light.seq ?_
    show Light s (Verif.deco (d.m.despan s) [] [] (W.str d.name)) _ _
    rw [h4]
    exact .deco (decor_pc h2.le _).light h3.1.light .nil
  | _, _, _, .index h1 h2 h3 h4 h5 h6 =>
    h1.light.seq (((h3.light E).1.dec h5 h2.le h4.le).seq h6.light)
  | _, _, _, .legacyIndex h1 h2 h3 _ => h1.light.seq (.deco (decor_pc h2.le _).light h3.light .nil)

theorem _root_.Verif.Spec.TElems.light (E : FmtEnv) : ∀ {m es a b}, TElems U s m es a b → m ≠ .any →
    Light s (EExpr.encElems E (EExpr.despanElems s es)) a b
  | _, _, _, _, .nil, _ => .nil
  | _, _, _, _, .cons h1 h2, hm => by
    rw [despanElems_cons]
    exact (h1.light E hm).seq (h2.light E hm)

theorem _root_.Verif.Spec.ElemAt.light (E : FmtEnv) : ∀ {m e a b}, ElemAt U s m e a b → m ≠ .any →
    Light s ((despanElem s e).enc E) a b
  | m, _, a, b, .lit (t := t) h1 h2 h3, hm => by
    have : kap t ≤ kp s a b := by
      cases m with
      | quoted => exact (kap_quotedLit h3).2
      | plain => exact (kap_lit h3).2
      | any => exact absurd rfl hm
    exact ⟨Nat.le_of_lt h1, fun f => by show kap (encLit t f).1 ≤ _; rw [kap_encLit]; exact this⟩
  | _, _, _, _, .interp h1 h2 h3 h4 h5 h6, _ => Light.strip h1 ((h3.light E).1.dec h5 h2.le h4.le) h6
  | _, _, _, _, .ifDir h1 h2 h3 h4 h5 h6 h7 h8 h9 h10 h11, _ =>
    (Light.strip h1 ((((raw_pc h2.le c!" ").append h3.pc).light).seq
      ((h5.light E).1.dec (d₁ := []) (d₂ := c!" ") h7 h4.le h6.le)) h8).seq
      ((h9.light E (by nofun)).seq ((h10.light E).seq (Marker.prints (q := true) h11).light))
  | _, _, _, _, .forDir h1 h2 h3 h4 h5 h6 h7 h8 h9 h10 h11 h12, _ => by
    have hw := (((raw_pc h2.le c!" ").append h3.pc).light).seq
      ((ForVars.prints (q := true) (d₂ := c!" ") h4).light.seq (h5.light.seq
        ((h7.light E).1.dec (d₁ := c!" ") (d₂ := c!" ") h9 h6.le h8.le)))
    rw [W.assoc] at hw
    exact (Light.strip h1 hw h10).seq ((h11.light E (by nofun)).seq (Marker.prints (q := true) h12).light)

theorem _root_.Verif.Spec.Else.light (E : FmtEnv) : ∀ {el a b}, Else U s el a b →
    Light s (EExpr.encElseOpt E (EExpr.despanElse s el)) a b
  | _, _, _, .none => .nil
  | _, _, _, .some h1 h2 => (Marker.prints (q := true) h1).light.seq (h2.light E (by nofun))

end

/-- What a parsed template prints weighs at most as much as its text. -/
theorem parsed_light {P : PEnv} {s : Str} {es : List EElem} (h : parseTemplate P s = .ok es) (E : FmtEnv) :
    kap (EExpr.encElems E es false).1 ≤ kap s := by
  have h1 := parseTemplate_ok P s
  rw [h] at h1
  obtain ⟨t₀, rfl, h2⟩ := h1
  have h3 := (h2.light E (by nofun)).2 false
  rw [kp, slice_all] at h3
  exact h3

variable {env : Env}

theorem template_step {P : PEnv} {F : FmtEnv} (hr : ReadsTemplates env P F) {t t' : TmplExpr} {els : List Elem} {x : Expr}
    (h : env.parseTemplate t.asStr = .ok els) (hx : InElems x els) (hb : Below env (.template t') x) :
    kap t'.asStr < kap t.asStr := by
  obtain ⟨es, h1, rfl⟩ := hr _ _ h
  have h2 := elems_heavy es hx hb false
  have h3 := parsed_light h1 F
  omega

/-- Parts outside of templates are smaller. -/
theorem direct_size {p q : Expr} (h : Direct env q p) (ht : ∀ t, p ≠ .template t) : sizeOf q < sizeOf p := by
  cases h with
  | array h => have := List.sizeOf_lt_of_mem h; simp; omega
  | key h => have := List.sizeOf_lt_of_mem h; simp at *; omega
  | value h => have := List.sizeOf_lt_of_mem h; simp at *; omega
  | template h hx => exact absurd rfl (ht _)
  | index h => have := List.sizeOf_lt_of_mem h; simp at *; omega
  | arg h => have := List.sizeOf_lt_of_mem h; simp; omega
  | _ => simp <;> omega

theorem acc_aux (hlt : ∀ (t : TmplExpr) els x t', env.parseTemplate t.asStr = .ok els → InElems x els →
      Below env (.template t') x → kap t'.asStr < kap t.asStr) :
    ∀ k n e, sizeOf e < n → (∀ t, Below env (.template t) e → kap t.asStr < k) → Acc (Direct env) e := by
  intro k
  induction k with
  | zero =>
    intro n
    induction n with
    | zero => intro e h; exact absurd h (Nat.not_lt_zero _)
    | succ n ih =>
      intro e hn hk
      refine ⟨_, fun q hq => ?_⟩
      by_cases ht : ∃ t, e = .template t
      · obtain ⟨t, rfl⟩ := ht
        exact absurd (hk t .self) (Nat.not_lt_zero _)
      · have ht : ∀ t, e ≠ .template t := fun t h => ht ⟨t, h⟩
        have := direct_size hq ht
        exact ih q (by omega) fun t hb => hk t (.step hb hq ht)
  | succ k ihk =>
    intro n
    induction n with
    | zero => intro e h; exact absurd h (Nat.not_lt_zero _)
    | succ n ih =>
      intro e hn hk
      refine ⟨_, fun q hq => ?_⟩
      by_cases ht : ∃ t, e = .template t
      · obtain ⟨t, rfl⟩ := ht
        cases hq with
        | template h hx =>
          have h0 := hk t .self
          exact ihk (sizeOf q + 1) q (Nat.lt_succ_self _) fun t' hb => by
            have := hlt _ _ _ _ h hx hb
            omega
      · have ht : ∀ t, e ≠ .template t := fun t h => ht ⟨t, h⟩
        have := direct_size hq ht
        exact ih q (by omega) fun t hb => hk t (.step hb hq ht)

theorem acc_template (hlt : ∀ (t : TmplExpr) els x t', env.parseTemplate t.asStr = .ok els → InElems x els →
      Below env (.template t') x → kap t'.asStr < kap t.asStr) (t : TmplExpr) : Acc (Direct env) (.template t) := by
  refine acc_aux hlt (kap t.asStr + 1) (sizeOf (Expr.template t) + 1) _ (Nat.lt_succ_self _) fun t' h => ?_
  cases h with
  | self => exact Nat.lt_succ_self _
  | step _ _ h => exact absurd rfl (h t)

/-- Every expression has finitely many parts, also inside its templates. -/
theorem acc_all (hlt : ∀ (t : TmplExpr) els x t', env.parseTemplate t.asStr = .ok els → InElems x els →
      Below env (.template t') x → kap t'.asStr < kap t.asStr) :
    ∀ n e, sizeOf e < n → Acc (Direct env) e := by
  intro n
  induction n with
  | zero => intro e h; exact absurd h (Nat.not_lt_zero _)
  | succ n ih =>
    intro e hn
    by_cases ht : ∃ t, e = .template t
    · obtain ⟨t, rfl⟩ := ht
      exact acc_template hlt t
    · refine ⟨_, fun q hq => ?_⟩
      have := direct_size hq fun t h => ht ⟨t, h⟩
      exact ih q (by omega)

theorem acc_reads {P : PEnv} {F : FmtEnv} (hr : ReadsTemplates env P F) (e : Expr) : Acc (Direct env) e :=
  acc_all (fun _ _ _ _ h hx hb => template_step hr h hx hb) (sizeOf e + 1) e (Nat.lt_succ_self _)

end Verif.Spec
