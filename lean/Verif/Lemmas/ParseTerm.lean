import Verif.Lemmas.ParseHead
import Verif.Lemmas.ParseExpr
/-! Triples for the grammar functions of objects, templates and terms. -/

namespace Verif.Gram
open P Spec

variable {pan : Prop} {s : Str} {E : PEnv} {R : PRec} {lo : Nat} {m : LitMode}

/-! ### Objects -/

/-- The key of an item, before its prefix is set. -/
def KeyQ (U : Uni) (s : Str) (a : Nat) (k : EKey) (x : Nat) : Prop :=
  ∃ b, Triv s false b x ∧ ((∃ d, k = .ident d ∧ IdentAt U s d.name a b ∧ d.m = sufM a b x ∧
      d.name ∉ [c!"null", c!"true", c!"false"]) ∨
    ∃ e, k = .expr e ∧ Core U s false e a b ∧ e.getMeta = sufM a b x ∧ isVariable e = false)

theorem tri_objectKey (hR : RecOK E.U pan s lo R) : Tri pan s lo (objectKey R) (KeyQ E.U s) := by
  refine ((hR.expr false).map.suffixDecorated tri_sp').conseq fun a k x _ _ _ h => ?_
  obtain ⟨v, b, ⟨e, rfl, h1, r, h2, h2'⟩, ⟨_, h3⟩, rfl⟩ := h
  refine ⟨b, h3, ?_⟩
  have gen : (toObjectKey e = .expr e ∧ isVariable e = false) ∨ ∃ m x, e = .var m x := by
    cases e <;> first | exact .inl ⟨rfl, rfl⟩ | exact .inr ⟨_, _, rfl⟩
  rcases gen with ⟨g, g'⟩ | ⟨m, x, rfl⟩
  · right
    rw [g]
    refine ⟨_, rfl, (h1.mapMeta _).mapMeta _, ?_, ?_⟩
    · rw [getMeta_mapMeta, getMeta_mapMeta, h2]; rfl
    · rw [isVariable_mapMeta, isVariable_mapMeta, g']
  · left
    cases h1 with
    | var h1 hk => exact ⟨_, rfl, h1, rfl, hk⟩

theorem tri_objectAssign : Tri pan s lo objectAssign fun a x b => Tok s (assignTok x) a b := by
  intro a _ _
  stp tri_any => c b hc
  split
  · rename_i h; subst h; exact wp_pure (by omega) (by omega) hc
  split
  · rename_i h; subst h; exact wp_pure (by omega) (by omega) hc
  · exact wp_cutFail (by omega) (by omega)

theorem tri_objectValue (hR : RecOK E.U pan s lo R) : Tri pan s lo (objectValue R) fun x p q =>
    ∃ y, Tok s (assignTok p.2) x y ∧ DecQ E.U s false false y p.1 q := by
  intro x _ _
  stp tri_objectAssign => a y h1
  stp (decorated_expr tri_sp' (hR.expr false) tri_sp') => e q h2
  exact wp_pure (by omega) (by omega) ⟨y, h1, h2⟩

/-- An item, its decor complete. -/
theorem item_ok {U : Uni} {k : EKey} {v : EExpr} {as : Assign} {p a x y v₁ v₂ q : Nat}
    (h1 : Triv s true p a) (h2 : KeyQ U s a k x) (h3 : Tok s (assignTok as) x y)
    (h4 : Triv s false y v₁) (h5 : Core U s false v v₁ v₂) (h6 : LineTail s v₂ q)
    (h7 : v.getMeta = decM y v₁ v₂ q) :
    Item U s (k.mapMeta (Meta.setPre (.fromSpan ⟨p, a⟩))) v as p q := by
  obtain ⟨b, hb, ⟨d, rfl, k1, k2, k3⟩ | ⟨e, rfl, k1, k2, k3⟩⟩ := h2
  · refine .ident h1 k1 hb ?_ h3 h4 h5 h6 h7 k3
    show Meta.setPre _ d.m = _
    rw [k2]; rfl
  · refine .expr h1 (k1.mapMeta _) hb ?_ h3 h4 h5 h6 h7 (by rw [isVariable_mapMeta, k3])
    rw [getMeta_mapMeta, k2]; rfl

theorem tok_peek {c : Char} {t : Str} {a b d : Nat} (h1 : Tok s [c] a d) (h2 : Tok s t a b)
    (hl : t.length = 1) : t = [c] := by
  have e1 := h1.1
  have e2 := h2.1
  simp only [List.length_cons, List.length_nil] at e1
  have : b = d := by omega
  subst this
  rw [← h2.text, h1.text]

/-- What ends an item; a line comment goes to the suffix of the value. -/
theorem itemEnd_tri {U : Uni} {v : EExpr} {c : Char} {y v₁ v₂ q d : Nat} (hc : Tok s [c] q d)
    (h1 : Core U s false v v₁ v₂) (h2 : Triv s false v₂ q) (h3 : v.getMeta = decM y v₁ v₂ q)
    (hq : q ≤ s.length) :
    Wp pan s q (fun x b => q < b ∧ ∃ q', Core U s false x.1 v₁ v₂ ∧ LineTail s v₂ q' ∧
      x.1.getMeta = decM y v₁ v₂ q' ∧ x.2 ≠ .none ∧ ItemEndAt s x.2 q' b) (itemEnd v c (inp s q)) := by
  have htail : LineTail s v₂ q := ⟨q, h2, .inl rfl⟩
  unfold itemEnd
  by_cases h : c = '\r'
  · rw [if_pos h]
    stp (tri_tag (lo := q)) => _ b hb
    have := hb.1; simp at this
    exact wp_pure (by omega) (by omega)
      ⟨by omega, q, h1, htail, h3, nofun, Or.inr hb⟩
  rw [if_neg h]; clear h
  by_cases h : c = '\n'
  · rw [if_pos h]
    stp (tri_tag (lo := q)) => _ b hb
    have := hb.1; simp at this
    exact wp_pure (by omega) (by omega)
      ⟨by omega, q, h1, htail, h3, nofun, Or.inl hb⟩
  rw [if_neg h]; clear h
  by_cases h : c = ','
  · rw [if_pos h]; subst h
    stp (tri_takeN (lo := q) (n := 1)) => t b hb
    have := hb.1.1
    have ht := tok_peek hc hb.1 hb.2
    exact wp_pure (by omega) (by omega)
      ⟨by omega, q, h1, htail, h3, nofun, by subst ht; exact hb.1⟩
  rw [if_neg h]; clear h
  by_cases h : c = '#' ∨ c = '/'
  · rw [if_pos h]
    stp (tri_lineComment (lo := q)).spanOf => sp' r hr
    obtain ⟨rfl, _, hr⟩ := hr
    stp (tri_lineEnding (lo := q)) => t b hb
    have hle : LineEnding s r b := by
      rcases hb with ⟨hb, rfl | rfl⟩
      · exact .inl hb
      · exact .inr hb
    have := hle.lt
    refine wp_pure (by omega) (by omega) ⟨by omega, r, h1.mapMeta _, ⟨q, h2, .inr ⟨by omega, by omega,
      hr.2.2.1⟩⟩, ?_, nofun, hle⟩
    have hcs : commentSuffix v ⟨q, r⟩ = ⟨v₂, r⟩ := by
      unfold commentSuffix
      rw [h3]
      show (match some (Raw.fromSpan ⟨v₂, q⟩) with | some (.spanned s) => _ | _ => _) = _
      have := h2.le
      by_cases hv : v₂ < q
      · rw [show Raw.fromSpan ⟨v₂, q⟩ = .spanned ⟨v₂, q⟩ from if_pos hv]
      · rw [show Raw.fromSpan ⟨v₂, q⟩ = .empty from if_neg hv]
        have : v₂ = q := by omega
        subst this; rfl
    rw [hcs]
    unfold EExpr.setSuf
    rw [getMeta_mapMeta, h3]; rfl
  rw [if_neg h]
  exact wp_cutFail (by omega) hq

theorem objectLoop_tri (hR : RecOK E.U pan s lo R) (n : Nat) : ∀ (items : List EItem) (p : Nat),
    lo ≤ p → p ≤ s.length → s.length - p < n →
    Wp pan s p (fun e q => ∃ is tr, e = .object {} (insertItems items is) tr ∧ Items E.U s is tr p q)
      (objectLoop R n items (inp s p)) := by
  induction n with
  | zero => intro _ p _ _ h; omega
  | succ n ih =>
    intro items p _ _ _
    unfold objectLoop
    stp (tri_ws' (lo := lo)).rawString => tr a h1
    obtain ⟨rfl, _, h1⟩ := h1
    stp (tri_any (lo := lo)).peek => c a' hc
    obtain ⟨rfl, -⟩ := hc
    split
    · exact wp_pure (by omega) (by omega) ⟨[], _, rfl, .nil h1⟩
    · stp (tri_objectKey hR) => k x h2
      stp (tri_objectValue hR) => va q h3
      obtain ⟨v, as⟩ := va
      obtain ⟨y, h3, v₁, v₂, h4, h5, h6, h7⟩ := h3
      dsimp only
      stp (tri_any (lo := lo)).peek => c' q' hc'
      obtain ⟨rfl, d, _, _, hc'⟩ := hc'
      split
      · exact wp_pure (by omega) (by omega)
          ⟨[.mk _ v as .none], _, rfl, .last (item_ok h1 h2 h3 h4 h5 ⟨q', h6, .inl rfl⟩ h7)⟩
      · refine wp_bind (Q := fun x b => q' < b ∧ ∃ q, Core E.U s false x.1 v₁ v₂ ∧ LineTail s v₂ q ∧
          x.1.getMeta = decM y v₁ v₂ q ∧ x.2 ≠ .none ∧ ItemEndAt s x.2 q b)
          ((itemEnd_tri hc' h5 h6 h7 (by omega)).mono (by omega) fun _ _ _ _ h => h) ?_
        rintro ⟨v', t⟩ b _ _ ⟨hlt, q, k1, k2, k3, k4, k5⟩
        refine (ih _ b (by omega) (by omega) (by omega)).mono (by omega) ?_
        rintro e z _ _ ⟨is, tr, rfl, hi⟩
        exact ⟨.mk _ v' as t :: is, tr, rfl, .cons (item_ok h1 h2 h3 h4 k1 k2 k3) k4 k5 hi⟩

theorem tri_objectItems (hR : RecOK E.U pan s lo R) : Tri pan s lo (objectItems R) fun p e q =>
    ∃ is tr, e = .object {} (insertItems [] is) tr ∧ Items E.U s is tr p q := by
  intro p h1 h2
  unfold objectItems
  exact objectLoop_tri hR _ [] p h1 h2 (by simp only [List.length_drop]; omega)

theorem ownSuf_group {m im cm : Meta} {k : Option DIdent} {v : DIdent} {c ke ve : EExpr}
    {u x y w z t b : Nat} (h1 : y ≤ w) (h2 : ve.getMeta = decM u x y w) (h3 : Tok s c!"..." w z)
    (h4 : Triv s true z t) (h5 : Tok s c!"}" t b) :
    groupedFor (.forE m im k v c (some ke) ve true cm none) = true ∧
      groupStart (.forE m im k v c (some ke) ve true cm none) + 1 ≤ b ∧ b ≤ s.length ∧
      some (Raw.fromSpan ⟨z, t⟩) =
        some (Raw.fromSpan ⟨groupStart (.forE m im k v c (some ke) ve true cm none), b - 1⟩) := by
  have e : groupStart (.forE m im k v c (some ke) ve true cm none) = z := by
    show decStop ve.getMeta + 3 = z
    rw [h2, decStop_decM h1]
    exact h3.1.symm
  have hb : b = t + 1 := h5.1
  refine ⟨rfl, ?_, h5.bound, ?_⟩
  · rw [e]; have := h4.le; omega
  · rw [e, hb]; rfl

theorem tri_object (hR : RecOK E.U pan s (lo + 1) R) (nl : Bool) :
    Tri pan s lo (object E R nl) fun a x b => ∃ u, TermQ E.U s nl u a x.1 b ∧ x.2 = (nl || u) := by
  intro a _ _
  refine Tri.step (tri_chr (lo := lo)) (by omega) (by omega) (by omega) fun _ p _ _ h1 => ?_
  have := tok_one h1
  have key : Tri pan s (lo + 1)
      (forOrItems (P.map (·, true) (forObjectExpr E R)) (P.map (·, nl) (objectItems R))) fun p x t =>
      ∀ a b, Tok s c!"{" a p → Tok s c!"}" t b →
        ∃ u, TermQ E.U s nl u a x.1 b ∧ x.2 = (nl || u) := by
    refine Tri.forOrItems ((tri_forObjectExpr hR).map.conseq ?_) ((tri_objectItems hR).map.conseq ?_)
    · rintro p x t _ ht ht' ⟨e, rfl, mm, im, k, v, c, ke, ve, q, x, y, r, u, x', y', w, z, k1, k2, k3, k4,
        k5, k6, k7, k8, k9, k10, ⟨g, cm, co, rfl, rfl, k11, k12, k13⟩ | ⟨k11, k12, rfl, rfl⟩⟩ a b h1 h2
      · exact ⟨true, ⟨.forObj h1 k1 k2 k3 k4 k5 k6 k7 k8 k9 k10 k11 k12 k13 h2, rfl, rfl, .inl rfl, rfl⟩,
          (Bool.or_true _).symm⟩
      · exact ⟨true, ⟨.forGroup h1 k1 k2 k3 k4 k5 k6 k7 k8 k9 k10 k11 k12 h2, rfl, rfl,
          .inr (ownSuf_group k9.le k10 k11 k12 h2), rfl⟩, (Bool.or_true _).symm⟩
    · rintro p x t _ _ _ ⟨e, rfl, is, tr, rfl, k1⟩ a b h1 h2
      exact ⟨false, ⟨.object h1 k1 h2, rfl, rfl, .inl rfl, rfl⟩, (Bool.or_false _).symm⟩
  fin (key.terminated tri_cutChar) => e b he
  obtain ⟨_, t, _, _, he, h2⟩ := he
  exact he a b h1 h2

/-! ### Templates -/

theorem strip_ofBools (a b : Bool) :
    (Strip.ofBools a b).stripStart = a ∧ (Strip.ofBools a b).stripEnd = b := by
  cases a <;> cases b <;> exact ⟨rfl, rfl⟩

/-- `control` at `lo` with a parser inside that is only assumed to behave after the introduction. -/
theorem Tri.control {Q : Nat → α → Nat → Prop} {p : P α} {intro : Str} (hi : intro ≠ [])
    (h : Tri pan s (lo + 1) p Q) :
    Tri pan s lo (control intro p) fun a x b => ∃ y z, Opens s x.2 intro a y ∧ y ≤ z ∧ Q y x.1 z ∧
      Closes s x.2 z b := by
  intro a _ _
  stp (tri_tag (lo := lo)) => _ b h1
  have := h1.lt hi
  stp (tri_chr (lo := lo)).opt => o c h2
  stp h => x d h3
  stp (tri_chr (lo := lo)).opt => o' e h4
  stp (tri_cutChar (lo := lo)) => _ f h5
  refine wp_pure (by omega) (by omega) ⟨c, d, ?_, by omega, h3, ?_⟩
  · unfold Opens
    rw [(strip_ofBools _ _).1]
    cases o with
    | none =>
      obtain rfl : c = b := h2
      simpa using h1
    | some o => exact h1.append h2
  · unfold Closes
    rw [(strip_ofBools _ _).2]
    cases o' with
    | none =>
      obtain rfl : e = d := h4
      simpa using h5
    | some o => exact h4.append h5

theorem tri_interpolation (hR : RecOK E.U pan s (lo + 1) R) :
    Tri pan s lo (interpolation R) fun a e b => ElemAt E.U s m (e.setSpan ⟨a, b⟩) a b := by
  intro a _ _
  stp (Tri.control (by simp) (decorated_expr tri_ws' (hR.expr true) tri_ws')) => x b hx
  obtain ⟨e, st⟩ := x
  obtain ⟨p, q, h1, _, ⟨x, y, k1, k2, k3, k4⟩, h2⟩ := hx
  exact wp_pure (by omega) (by omega) (.interp h1 k1 k2 k3 k4 h2)

theorem tri_marker {kw : P Unit} {t : Str} (h : Tri pan s (lo + 1) kw fun a _ b => Tok s t a b) :
    Tri pan s lo (marker kw) fun a x b => Marker s t x.2 x.1.1 x.1.2 a b := by
  have h' : Tri pan s (lo + 1) (do
      let a ← rawString ws; kw; let b ← rawString ws; return (a, b) : P (Raw × Raw)) fun a x b =>
      ∃ p q, Triv s true a p ∧ x.1 = .fromSpan ⟨a, p⟩ ∧ Tok s t p q ∧ Triv s true q b ∧
        x.2 = .fromSpan ⟨q, b⟩ := by
    intro a _ _
    stp tri_ws'.rawString => r p h1
    obtain ⟨rfl, _, h1⟩ := h1
    stp h => _ q h2
    stp tri_ws'.rawString => r b h3
    obtain ⟨rfl, _, h3⟩ := h3
    exact wp_pure (by omega) (by omega) ⟨p, q, h1, rfl, h2, h3, rfl⟩
  refine (Tri.control (by simp) h').conseq fun a x b _ _ _ h => ?_
  obtain ⟨y, z, h1, -, ⟨p, q, k1, k2, k3, k4, k5⟩, h2⟩ := h
  exact ⟨y, p, q, z, h1, k1, k2, k3, k4, k5, h2⟩

theorem tri_elseExpr (hR : RecOK E.U pan s (lo + 1) R) : Tri pan s lo (elseExpr R) fun a e b =>
    Else E.U s (some e) a b := by
  intro a _ _
  stp (tri_marker tri_tag) => x b h1
  obtain ⟨⟨p, t⟩, st⟩ := x
  have : a < b := by
    obtain ⟨x₁, x₂, x₃, x₄, k1, k2, -, k3, k4, -, k5⟩ := h1
    have := k1.lt (by simp); have := k2.le; have := k3.le; have := k4.le; have := k5.le; omega
  stp hR.template.withSpan => y c h2
  obtain ⟨es, ts⟩ := y
  obtain ⟨rfl, h2⟩ := h2
  exact wp_pure (by omega) (by omega) (.some h1 h2)

theorem tri_ifDirective (hR : RecOK E.U pan s (lo + 1) R) :
    Tri pan s lo (ifDirective R) fun a e b => ElemAt E.U s m (e.setSpan ⟨a, b⟩) a b := by
  have h : Tri pan s (lo + 1) (do
      let p ← rawString ws
      tag c!"if"
      let c ← decorated ws (R.expr false) ws
      return (p, c) : P (Raw × EExpr)) fun p x q => ∃ x' y c₁ c₂, Triv s true p x' ∧
        x.1 = .fromSpan ⟨p, x'⟩ ∧ Tok s c!"if" x' y ∧ Triv s true y c₁ ∧ Core E.U s false x.2 c₁ c₂ ∧
        Triv s true c₂ q ∧ x.2.getMeta = decM y c₁ c₂ q := by
    intro p _ _
    stp tri_ws'.rawString => r x h1
    obtain ⟨rfl, _, h1⟩ := h1
    stp tri_tag => _ y h2
    stp (decorated_expr tri_ws' (hR.expr false) tri_ws') => c q h3
    obtain ⟨c₁, c₂, k1, k2, k3, k4⟩ := h3
    exact wp_pure (by omega) (by omega) ⟨x, y, c₁, c₂, h1, rfl, h2, k1, k2, k3, k4⟩
  intro a _ _
  stp (Tri.control (by simp) h) => x r hx
  obtain ⟨⟨pr, c⟩, st⟩ := x
  obtain ⟨p, q, h1, _, ⟨x', y, c₁, c₂, k1, rfl, k3, k4, k5, k6, k7⟩, h2⟩ := hx
  have : a < r := by have := h1.lt (by simp); have := h2.le; omega
  dsimp only
  stp hR.template.withSpan => z u h3
  obtain ⟨es, ts⟩ := z
  obtain ⟨rfl, h3⟩ := h3
  stp (tri_elseExpr hR).opt => els w h4
  stp (tri_marker (lo := lo) tri_cutTag) => m b h5
  obtain ⟨⟨ep, et⟩, est⟩ := m
  refine wp_pure (by omega) (by omega) (.ifDir h1 k1 k3 k4 k5 k6 k7 h2 h3 ?_ h5)
  cases els with
  | none =>
    obtain rfl : w = u := h4
    exact .none
  | some e => exact h4

theorem tri_forDirective (hR : RecOK E.U pan s (lo + 1) R) :
    Tri pan s lo (forDirective E R) fun a e b => ElemAt E.U s m (e.setSpan ⟨a, b⟩) a b := by
  have hopt : Tri pan s (lo + 1) (do let _ ← chr ','; decorated ws (cutIdent E.U) ws : P DIdent)
      fun a d b => ∃ y, Tok s c!"," a y ∧ DecIdent E.U s true d y b := by
    intro a _ _
    stp tri_chr => _ y h1
    fin (decorated_ident tri_ws' tri_ws') => d z h2
    exact ⟨y, h1, h2⟩
  have h : Tri pan s (lo + 1) (do
      let p ← rawString ws
      tag c!"for"
      let a ← decorated ws (cutIdent E.U) ws
      let b ← opt (do let _ ← chr ','; decorated ws (cutIdent E.U) ws)
      cutTag c!"in"
      let c ← decorated ws (R.expr false) ws
      return (p, a, b, c) : P (Raw × DIdent × Option DIdent × EExpr)) fun p x q =>
        ∃ x' y z w c₁ c₂, Triv s true p x' ∧ x.1 = .fromSpan ⟨p, x'⟩ ∧ Tok s c!"for" x' y ∧
        ForVars E.U s (match x.2.2.1 with | some _ => some x.2.1 | none => none)
          (match x.2.2.1 with | some b => b | none => x.2.1) y z ∧ Tok s c!"in" z w ∧
        Triv s true w c₁ ∧ Core E.U s false x.2.2.2 c₁ c₂ ∧
        Triv s true c₂ q ∧ x.2.2.2.getMeta = decM w c₁ c₂ q := by
    intro p _ _
    stp tri_ws'.rawString => r x h1
    obtain ⟨rfl, _, h1⟩ := h1
    stp tri_tag => _ y h2
    stp (decorated_ident tri_ws' tri_ws') => d z₀ h3
    stp hopt.opt => o z h4
    stp tri_cutTag => _ w h5
    stp (decorated_expr tri_ws' (hR.expr false) tri_ws') => c q h6
    obtain ⟨c₁, c₂, k1, k2, k3, k4⟩ := h6
    refine wp_pure (by omega) (by omega) ⟨x, y, z, w, c₁, c₂, h1, rfl, h2, ?_, h5, k1, k2, k3, k4⟩
    cases o with
    | none =>
      obtain rfl : z = z₀ := h4
      exact .inl ⟨rfl, h3⟩
    | some v =>
      obtain ⟨y', h4, h4'⟩ := h4
      exact .inr ⟨d, z₀, y', rfl, h3, h4, h4'⟩
  intro a _ _
  stp (Tri.control (by simp) h) => x r hx
  obtain ⟨⟨pr, d, o, c⟩, st⟩ := x
  obtain ⟨p, q, h1, _, ⟨x', y, z, w, c₁, c₂, k1, rfl, k3, k4, k5, k6, k7, k8, k9⟩, h2⟩ := hx
  have : a < r := by have := h1.lt (by simp); have := h2.le; omega
  dsimp only
  stp hR.template.withSpan => z u h3
  obtain ⟨es, ts⟩ := z
  obtain ⟨rfl, h3⟩ := h3
  stp (tri_marker (lo := lo) tri_cutTag) => m b h5
  obtain ⟨⟨ep, et⟩, est⟩ := m
  cases o with
  | none => exact wp_pure (by omega) (by omega) (.forDir h1 k1 k3 k4 k5 k6 k7 k8 k9 h2 h3 h5)
  | some v => exact wp_pure (by omega) (by omega) (.forDir h1 k1 k3 k4 k5 k6 k7 k8 k9 h2 h3 h5)

theorem tri_element (hR : RecOK E.U pan s (lo + 1) R) {lit : P Str}
    (hl : Tri pan s lo lit fun a t b => a < b ∧ LitOK s m t a b) :
    Tri pan s lo (element E R lit) fun a e b => ElemAt E.U s m e a b := by
  have h : Tri pan s lo (P.alt (P.map (EElem.lit none) lit) (P.alt (interpolation R) (directive E R)))
      fun a e b => (∃ t, e = .lit none t ∧ a < b ∧ LitOK s m t a b) ∨
        ElemAt E.U s m (e.setSpan ⟨a, b⟩) a b := by
    refine Tri.alt hl.map
      ((tri_interpolation hR).alt' ((tri_ifDirective hR).alt' (tri_forDirective hR)))
      (fun a e b h => ?_) (fun _ _ _ h => .inr h)
    obtain ⟨t, rfl, h⟩ := h
    exact .inl ⟨t, rfl, h⟩
  refine h.withSpan.map.conseq fun a e b _ _ hb h => ?_
  obtain ⟨⟨e, sp'⟩, rfl, h1, h2⟩ := h
  dsimp only at h1
  subst h1
  rcases h2 with ⟨t, rfl, h2⟩ | h2
  · exact .lit h2.1 hb h2.2
  · exact h2

theorem chain_telems {U : Uni} {es : List EElem} {a b : Nat}
    (h : Chain (fun a e b => ElemAt U s m e a b) es a b) : TElems U s m es a b := by
  induction h with
  | nil => exact .nil
  | cons _ h2 _ ih => exact .cons h2 ih

theorem tri_elements (hR : RecOK E.U pan s (lo + 1) R) {lit : P Str}
    (hl : Tri pan s lo lit fun a t b => a < b ∧ LitOK s m t a b) :
    Tri pan s lo (elements E R lit) fun a es b => TElems E.U s m es a b :=
  ((tri_element hR hl).repeat0 fun _ _ _ _ _ h => h.bounds.1).conseq fun _ _ _ _ _ _ h =>
    chain_telems h.1

theorem tri_stringTemplate (hR : RecOK E.U pan s (lo + 1) R) :
    Tri pan s lo (stringTemplate E R) fun a es b => ∃ p q, Tok s ['"'] a p ∧
      TElems E.U s .quoted es p q ∧
      Tok s ['"'] q b := by
  refine (tri_chr.preceded ((tri_elements (m := .quoted) hR tri_quotedLit).terminated
    tri_chr)).conseq fun a es b _ _ _ h => ?_
  obtain ⟨_, p, _, h1, _, q, _, _, h2, h3⟩ := h
  exact ⟨p, q, h1, h2, h3⟩

theorem tri_templateEnd : Tri pan s lo templateEnd fun _ _ _ => True :=
  tri_tag.alt tri_tag (fun _ _ _ _ => trivial) (fun _ _ _ _ => trivial)

theorem tri_template (hR : RecOK E.U pan s (lo + 1) R) :
    Tri pan s lo (Gram.template E R) fun a es b => TElems E.U s .plain es a b :=
  tri_elements hR (tri_plainLit tri_templateEnd
    (endOK_tags (fun _ _ h => (alt_back h).1) (fun _ _ h => ⟨_, (alt_back h).2⟩))
    (noCut_alt noCut_tag noCut_tag))

theorem tri_heredocEnd {d : Str} : Tri pan s lo (heredocEnd E d) fun _ _ _ => True := by
  intro a _ _
  stp tri_lineEnding => _ b _
  stp (tri_takeWhile : Tri pan s lo space0 _) => _ c _
  stp tri_tag => _ e _
  fin tri_oneOf.notP => _ f _
  trivial

theorem tri_heredocLitEnd {d : Str} : Tri pan s lo (heredocLitEnd E d) fun _ _ _ => True :=
  tri_tag.alt (Tri.alt (T := fun _ _ _ => True) tri_tag tri_heredocEnd (fun _ _ _ _ => trivial)
    (fun _ _ _ _ => trivial)) (fun _ _ _ _ => trivial) (fun _ _ _ _ => trivial)

theorem noCut_lineEnding : NoCut lineEnding := by
  intro i j h
  unfold lineEnding at h
  split at h <;> cases h

theorem noCut_heredocLitEnd {d : Str} : NoCut (heredocLitEnd E d) := by
  refine noCut_alt noCut_tag (noCut_alt noCut_tag ?_)
  refine noCut_bind noCut_lineEnding fun _ => noCut_bind ?_ fun _ => noCut_bind noCut_tag fun _ =>
    noCut_notP noCut_oneOf
  intro i j h; cases h

theorem tri_lineEnding' : Tri pan s lo lineEnding fun a _ b => LineEnding s a b :=
  tri_lineEnding.conseq fun a t b _ _ _ h => by
    rcases h with ⟨h, rfl | rfl⟩
    · exact .inl h
    · exact .inr h

theorem tri_heredocTemplate (hR : RecOK E.U pan s (lo + 1) R) {d : Str} :
    Tri pan s lo (heredocTemplate E R d) fun a es b => TElems E.U s .plain es a b := by
  have h : Tri pan s lo (do
      let es ← elements E R (buildString (templateFragment (heredocLitEnd E d)))
      let (le, s) ← withSpan lineEnding
      return addLineEnding es le s : P (List EElem)) fun a es b => TElems E.U s .plain es a b := by
    intro a _ _
    stp (tri_elements (m := .plain) hR (tri_plainLit tri_heredocLitEnd
      (endOK_tags (fun _ _ h => (alt_back h).1) (fun _ _ h => (alt_back (alt_back h).2).1))
      noCut_heredocLitEnd)) => es x h1
    stp tri_lineEnding.withSpan => y b h2
    obtain ⟨le, sp'⟩ := y
    obtain ⟨rfl, h2, h2'⟩ := h2
    have h3 : LineEnding s x b := by
      rcases h2' with h | h <;> dsimp only at h h2 <;> subst h
      · exact .inl h2
      · exact .inr h2
    have h4 := h3.lit
    rw [h2.text] at h4
    exact wp_pure (by omega) (by omega) (h1.addLineEnding h3.lt (by omega) h4)
  intro a _ _
  stp h.opt => o b h1
  cases o with
  | none =>
    obtain rfl : b = a := h1
    exact wp_pure (by omega) (by omega) .nil
  | some es => exact wp_pure (by omega) (by omega) h1

theorem tri_space0 : Tri pan s lo space0 fun a _ b => Spaces s a b :=
  tri_takeWhile.conseq fun a t b _ h1 h2 h => by
    refine ⟨h1, h2, fun c hc => ?_⟩
    rw [h.1.text] at hc
    have := h.2.1 c hc
    simpa using this

theorem tri_heredocStart : Tri pan s lo (heredocStart E) fun a x q => ∃ p,
    Tok s (c!"<<" ++ (if x.1 then c!"-" else []) ++ x.2) a p ∧ IsIdentifier E.U x.2 ∧
      LineEnding s p q := by
  intro a _ _
  stp tri_tag => _ b h1
  stp tri_chr.opt => o c h2
  stp tri_strIdent.cutErr => d p h3
  stp tri_lineEnding'.cutErr => _ q h4
  refine wp_pure (by omega) (by omega) ⟨p, ?_, h3.2, h4⟩
  cases o with
  | none =>
    obtain rfl : c = b := h2
    exact h1.append h3.1
  | some o => exact (h1.append h2).append h3.1

theorem tri_heredoc (hR : RecOK E.U pan s (lo + 1) R) {nl : Bool} :
    Tri pan s lo (heredoc E R) (TermQ E.U s nl false) := by
  intro a _ _
  stp (tri_heredocStart (lo := lo)) => x q h1
  obtain ⟨ind, d⟩ := x
  obtain ⟨p, h1, h2, h3⟩ := h1
  dsimp only
  stp (tri_heredocTemplate hR).withSpan => y r h4
  obtain ⟨es, ts⟩ := y
  obtain ⟨rfl, h4⟩ := h4
  dsimp only at h4 ⊢
  stp (tri_space0 (lo := lo)).rawString => tr t h5
  obtain ⟨rfl, _, h5⟩ := h5
  have hend : Tri pan s lo (do tag d; notP (oneOf (isIdContinue E.U)) : P Unit) fun a _ b =>
      Tok s d a b := by
    intro a _ _
    stp tri_tag => _ b h1
    fin tri_oneOf.notP => _ c h2
    obtain ⟨rfl, -⟩ := h2
    exact h1
  stp hend.cutErr => _ b h6
  have hcore : Core E.U s nl (.heredoc {} d (some ⟨q, r⟩) (heredocElems E.U ind es).1
      (heredocElems E.U ind es).2 (.fromSpan ⟨r, t⟩)) a b :=
    .heredoc h1 h2 h3 h4 h4.heredoc rfl h5 h6
  exact wp_pure (by omega) (by omega) ⟨hcore, rfl, rfl, .inl rfl, rfl⟩

theorem tri_stringlike (hR : RecOK E.U pan s (lo + 1) R) {nl : Bool} :
    Tri pan s lo (stringlike E R) (TermQ E.U s nl false) := by
  refine Tri.alt tri_quotedString.map (tri_stringTemplate hR).map (fun a e b h => ?_)
    (fun a e b h => ?_)
  · obtain ⟨t, rfl, h⟩ := h
    exact ⟨.string h, rfl, rfl, .inl rfl, rfl⟩
  · obtain ⟨t, rfl, p, q, h1, h2, h3⟩ := h
    exact ⟨.strTmpl h1 h2 h3, rfl, rfl, .inl rfl, rfl⟩

/-! ### Terms and expressions -/

theorem tri_termCore (hpan : NegOverflow E s → pan) (hR : RecOK E.U pan s (lo + 1) R) (hD : TermsNum R) (nl : Bool) :
    Tri pan s lo (termCore E R nl) fun a x b => ∃ u, TermQ E.U s nl u a x.1 b ∧ x.2 = (nl || u) := by
  intro a _ _
  stp (tri_any (lo := lo)).peek => c a' hc
  obtain ⟨rfl, _, _, _, hc⟩ := hc
  have key' : ∀ {p : P EExpr}, Wp pan s a' (TermQ E.U s nl false a') (p (inp s a')) →
      Wp pan s a' (fun x b => ∃ u, TermQ E.U s nl u a' x.1 b ∧ x.2 = (nl || u)) (P.map (·, nl) p (inp s a')) := by
    intro p hp
    unfold P.map P.bind
    revert hp
    cases p (inp s a') with
    | ok x i => exact fun ⟨q, h1, h2, h3, h4⟩ => ⟨q, h1, h2, h3, false, h4, (Bool.or_false nl).symm⟩
    | _ => exact id
  have key : ∀ {p : P EExpr} (n u : Bool), n = (nl || u) → Tri pan s lo p (TermQ E.U s nl u) →
      Wp pan s a' (fun x b => ∃ u, TermQ E.U s nl u a' x.1 b ∧ x.2 = (nl || u))
        (P.map (·, n) p (inp s a')) := by
    intro p n u hn hp
    refine hp.map.fin (by omega) (by omega) (by omega) fun x b _ _ h => ?_
    obtain ⟨e, rfl, h⟩ := h
    exact ⟨u, h, hn⟩
  have ho := (Bool.or_false nl).symm
  by_cases h : c = '"'
  · rw [if_pos h]; exact key nl false ho (tri_stringlike hR)
  rw [if_neg h]; clear h
  by_cases h : c = '['
  · rw [if_pos h]; exact key true true (Bool.or_true _).symm (tri_array hR)
  rw [if_neg h]; clear h
  by_cases h : c = '{'
  · rw [if_pos h]; exact tri_object hR nl a' (by omega) (by omega)
  rw [if_neg h]; clear h
  by_cases h : isDigit c = true
  · rw [if_pos h]; exact key nl false ho tri_numberTerm
  rw [if_neg h]; clear h
  by_cases h : c = '<'
  · rw [if_pos h]; exact key nl false ho (tri_heredoc hR)
  rw [if_neg h]; clear h
  by_cases h : c = '-'
  · rw [if_pos h]; exact key' (wp_minus hpan hR hD nl (by omega) (by omega))
  rw [if_neg h]; clear h
  by_cases h : c = '!'
  · rw [if_pos h]
    refine key' (wp_unaryOp hR hD nl (by omega) (by omega) fun hc' => ?_)
    rw [tok_head hc, h] at hc'
    exact absurd hc' (by decide)
  rw [if_neg h]; clear h
  by_cases h : c = '('
  · rw [if_pos h]; exact key nl false ho (tri_parenthesis hR)
  rw [if_neg h]; clear h
  by_cases h : isIdStart E.U c = true
  · rw [if_pos h]; exact tri_identlike hR nl a' (by omega) (by omega)
  rw [if_neg h]
  exact wp_cutFail (by omega) (by omega)

theorem termQ_nodeM {U : Uni} {nl u : Bool} {e : EExpr} {a b : Nat} (h : TermQ U s nl u a e b) :
    ExprQ U s nl a (e.setSpan ⟨a, b⟩) b ∧ isTerm (e.setSpan ⟨a, b⟩) = true ∧
      unlocks (e.setSpan ⟨a, b⟩) = u := by
  obtain ⟨h1, h4, h2, h3, h5⟩ := h
  refine ⟨⟨h1.mapMeta _, e.getMeta.decor.suf, ?_, ?_⟩, by
    unfold EExpr.setSpan; rw [isTerm_mapMeta]; exact h4, by
    unfold EExpr.setSpan; rw [unlocks_mapMeta]; exact h5⟩
  · unfold EExpr.setSpan
    rw [getMeta_mapMeta]
    show Meta.mk ⟨e.getMeta.decor.pre, e.getMeta.decor.suf⟩ _ = _
    rw [h2]
  · unfold OwnSuf EExpr.setSpan at *
    rw [groupedFor_mapMeta, groupStart_mapMeta]; exact h3

theorem tri_termInner (hpan : NegOverflow E s → pan) (hR : RecOK E.U pan s (lo + 1) R) (hT : TermsEnd E R) (hD : TermsNum R) (nl : Bool) :
    Tri pan s lo (termInner E R nl) fun a x b =>
      ExprQ E.U s nl a x.1 b ∧ isTerm x.1 = true ∧ x.2 = (nl || unlocks x.1) := by
  intro a _ _
  stp (tri_getInput (lo := lo)) => st a' hst
  obtain ⟨rfl, rfl⟩ := hst
  stp (tri_termCore hpan hR hD nl).self.withSpan => x b hx
  obtain ⟨⟨e, nl'⟩, sp'⟩ := x
  obtain ⟨rfl, ⟨u, hx, hu⟩, hself⟩ := hx
  have hinv := (termCore_inv hself).2
  obtain ⟨he, ht, rfl⟩ := termQ_nodeM hx
  have := he.1.bounds
  dsimp only at he ht hu ⊢
  stp (tri_getInput (lo := lo)) => cp b' hcp
  obtain ⟨rfl, rfl⟩ := hcp
  stp (tri_wsOrSp (lo := lo)).self.spanOf => suf c hc
  obtain ⟨rfl, _, hc, hws⟩ := hc
  stp (tri_peek2 (lo := lo)).self => nx c' hnx
  obtain ⟨⟨rfl, -⟩, hpk⟩ := hnx
  rw [peek2_ahead] at hpk
  injection hpk with hpk
  split
  · rename_i hst
    stp (tri_traversal hR nl').self.withSpan => y d hd
    obtain ⟨ops, sp'⟩ := y
    obtain ⟨rfl, ⟨hd, hne⟩, hts⟩ := hd
    have hh : isHead e = true := by
      rcases hinv with h | ⟨rfl, k, e', h⟩
      · exact h
      · exact absurd hts (ended_no_traversal (by omega) (hT _ _ _ _ h) hws (hpk ▸ hst) _ _)
    rw [← unlocks_mapMeta _ (Meta.setSuf (Raw.fromSpan ⟨b', c'⟩))] at hu
    rw [hu] at hc hd
    exact wp_pure (by omega) (by omega)
      ⟨⟨.trav (he.1.mapMeta _) (nodeM_setSuf he.2) hc hd hne
        (by unfold EExpr.setSuf EExpr.setSpan; rw [isHead_mapMeta, isHead_mapMeta]; exact hh), none, rfl, .inl rfl⟩, rfl, hu⟩
  · exact wp_setInput (wp_pure (by omega) (by omega) ⟨he, ht, hu⟩)

theorem tri_exprInner (hpan : NegOverflow E s → pan) (hR : RecOK E.U pan s (lo + 1) R) (hT : TermsEnd E R) (hD : TermsNum R) (nl : Bool) :
    Tri pan s lo (exprInner E R nl) (ExprQ E.U s nl) := by
  intro a _ _
  stp (tri_getInput (lo := lo)) => st a' hst
  obtain ⟨rfl, rfl⟩ := hst
  stp (tri_termInner hpan hR hT hD nl) => x b hx
  obtain ⟨e, nl'⟩ := x
  obtain ⟨hx, ht, hu⟩ := hx
  have := hx.1.bounds
  dsimp only at hx ht hu ⊢
  exact exprLoop_tri hR nl' nl a' _ hu hx (notCond_of_isTerm ht) (.inl ht) (by omega) (by omega) (by omega)
    (by simp only [List.length_drop]; omega)

end Verif.Gram
