import Verif.Lemmas.Reformat
import Verif.Lemmas.ParseHead
import Verif.Lemmas.ParseTop
import Verif.Spec.TemplateText
/-! What can be read as a template can be displayed, for C82. -/

namespace Verif.Gram
open P Spec

/-- Literals. -/
def isLitE : EElem → Bool
  | .lit .. => true
  | _ => false

/-- A list that starts with a literal. -/
def headLitE (es : List EElem) : Bool := es.head?.any isLitE

mutual

/-- There are no two literals next to each other in the branches of a directive. -/
inductive ApartE : EElem → Prop
  | lit {s t} : ApartE (.lit s t)
  | interp {s e st} : ApartE (.interp s e st)
  | ifDir {s p c st ts t els ep et est} : ApartEs t → ApartElse els → ApartE (.ifDir s p c st ts t els ep et est)
  | forDir {s p k v c st ts t ep et est} : ApartEs t → ApartE (.forDir s p k v c st ts t ep et est)

/-- There are no two literals next to each other. -/
inductive ApartEs : List EElem → Prop
  | nil : ApartEs []
  | cons {e es} : ApartE e → (isLitE e = true → headLitE es = false) → ApartEs es → ApartEs (e :: es)

/-- The same for an `else`. -/
inductive ApartElse : Option EElse → Prop
  | none : ApartElse none
  | some {p t s ts es} : ApartEs es → ApartElse (some (.mk p t s ts es))

end

theorem ApartE.setSpan {e : EElem} (s : Span) (h : ApartE e) : ApartE (e.setSpan s) := by
  cases h with
  | lit => exact .lit
  | interp => exact .interp
  | ifDir h1 h2 => exact .ifDir h1 h2
  | forDir h => exact .forDir h

/-- The parser does not succeed here. -/
def Stuck (p : P α) (i : Input) : Prop := ∀ x j, p i ≠ .ok x j

theorem buildLoop_end {frag : P Str} : ∀ {n : Nat} {i j : Input} {t : Str}, buildLoop frag n i = .ok t j →
    ∃ k, Fails (frag k) j
  | n + 1, i, j, t, h => by
    unfold buildLoop at h
    split at h
    · split at h
      · obtain ⟨a, h1, -⟩ := map_inv h
        exact buildLoop_end h1
      · cases h
    · rename_i h1; cases h; exact ⟨i, .inl h1⟩
    · rename_i h1; cases h; exact ⟨i, .inr h1⟩
    · cases h
    · cases h

theorem fragment_stays {p : P Unit} (hc : NoCut p) {k j : Input} (h : Fails (templateFragment p k) j) :
    j = k ∧ templateFragment p k = .back k := by
  have hj : j = k := by
    rcases h with h | h
    · unfold templateFragment at h
      exact anyUntil_err hc _ _ (.inl (alt_back h).2)
    · exact absurd h (noCut_alt noCut_escapedMarker (anyUntil_noCut hc) _ _)
  refine ⟨hj, ?_⟩
  rcases h with h | h
  · rw [h, hj]
  · exact absurd h (noCut_alt noCut_escapedMarker (anyUntil_noCut hc) _ _)

/-- After a literal there is no literal. -/
theorem literal_stuck {p : P Unit} (hc : NoCut p) {i j : Input} {t : Str}
    (h : buildString (templateFragment p) i = .ok t j) : Stuck (buildString (templateFragment p)) j := by
  obtain ⟨a, k, -, h2⟩ := bind_inv (p := templateFragment p)
    (f := fun s i => P.map (s ++ ·) (buildLoop (templateFragment p) (i.rest.length + 1)) i) h
  obtain ⟨b, h3, -⟩ := map_inv h2
  obtain ⟨m, h4⟩ := buildLoop_end h3
  obtain ⟨rfl, h5⟩ := fragment_stays hc h4
  intro x l hx
  obtain ⟨c, n, h6, -⟩ := bind_inv (p := templateFragment p)
    (f := fun s i => P.map (s ++ ·) (buildLoop (templateFragment p) (i.rest.length + 1)) i) hx
  rw [h5] at h6
  cases h6

theorem opt_inv {p : P α} {i j : Input} {x : Option α} (h : opt p i = .ok x j) :
    x = none ∨ ∃ a, x = some a ∧ p i = .ok a j := by
  unfold opt at h
  cases hp : p i with
  | ok a k => rw [hp] at h; cases h; exact .inr ⟨a, rfl, rfl⟩
  | back k => rw [hp] at h; cases h; exact .inl rfl
  | _ => rw [hp] at h; cases h

variable {E : PEnv} {R : PRec}

theorem apart_else (hR : Yields ApartEs R.template) {i j : Input} {x : EElse} (h : elseExpr R i = .ok x j) :
    ApartElse (some x) := by
  unfold elseExpr at h
  obtain ⟨⟨⟨p, t⟩, s⟩, k, -, h⟩ := bind_inv h
  obtain ⟨⟨es, ts⟩, l, h1, h⟩ := bind_inv h
  cases h
  exact .some (hR _ _ _ (withSpan_inv h1))

theorem apart_if (hR : Yields ApartEs R.template) : Yields (fun e => ApartE e ∧ isLitE e = false) (ifDirective R) := by
  intro i x j h
  unfold ifDirective at h
  obtain ⟨⟨⟨p, c⟩, s⟩, k, -, h⟩ := bind_inv h
  obtain ⟨⟨es, ts⟩, l, h1, h⟩ := bind_inv h
  obtain ⟨els, m, h2, h⟩ := bind_inv h
  obtain ⟨⟨⟨ep, et⟩, st⟩, n, -, h⟩ := bind_inv h
  cases h
  refine ⟨.ifDir (hR _ _ _ (withSpan_inv h1)) ?_, rfl⟩
  rcases opt_inv h2 with rfl | ⟨a, rfl, h3⟩
  · exact .none
  · exact apart_else hR h3

theorem apart_for (hR : Yields ApartEs R.template) : Yields (fun e => ApartE e ∧ isLitE e = false) (forDirective E R) := by
  intro i x j h
  unfold forDirective at h
  obtain ⟨⟨⟨p, a, b, c⟩, s⟩, k, -, h⟩ := bind_inv h
  obtain ⟨⟨es, ts⟩, l, h1, h⟩ := bind_inv h
  obtain ⟨⟨⟨ep, et⟩, st⟩, n, -, h⟩ := bind_inv h
  cases b <;> cases h <;> exact ⟨.forDir (hR _ _ _ (withSpan_inv h1)), rfl⟩

theorem apart_interp : Yields (fun e => ApartE e ∧ isLitE e = false) (Gram.interpolation R) := by
  intro i x j h
  unfold Gram.interpolation at h
  obtain ⟨⟨e, s⟩, k, -, h⟩ := bind_inv h
  cases h
  exact ⟨.interp, rfl⟩

theorem isLitE_setSpan {e : EElem} {s : Span} : isLitE (e.setSpan s) = isLitE e := by cases e <;> rfl

theorem apart_element (hR : Yields ApartEs R.template) {lit : P Str} {i j : Input} {e : EElem}
    (h : element E R lit i = .ok e j) : ApartE e ∧ (isLitE e = true → ∃ t, lit i = .ok t j) := by
  unfold element at h
  obtain ⟨⟨a, s⟩, h1, rfl⟩ := map_inv h
  have h2 := withSpan_inv h1
  dsimp only at h2 ⊢
  rw [isLitE_setSpan]
  unfold P.alt at h2
  cases hc : P.map (EElem.lit none) lit i with
  | ok x k =>
    rw [hc] at h2
    cases h2
    obtain ⟨t, h3, rfl⟩ := map_inv hc
    exact ⟨ApartE.setSpan _ .lit, fun _ => ⟨t, h3⟩⟩
  | back k =>
    rw [hc] at h2
    have h3 := Yields.alt apart_interp (Yields.alt (apart_if hR) (apart_for (E := E) hR)) i a j h2
    exact ⟨h3.1.setSpan _, fun h => by rw [h3.2] at h; cases h⟩
  | _ => rw [hc] at h2; cases h2

theorem apart_repeat (hR : Yields ApartEs R.template) {lit : P Str}
    (hl : ∀ i t j, lit i = .ok t j → Stuck lit j) : ∀ {n : Nat} {i j : Input} {es : List EElem},
    repeatF (element E R lit) n i = .ok es j → ApartEs es ∧ (Stuck lit i → headLitE es = false)
  | n + 1, i, j, es, h => by
    unfold repeatF at h
    split at h
    · rename_i a i' ha
      have h1 := apart_element hR ha
      split at h
      · split at h
        · rename_i as i'' has
          cases h
          have h2 := apart_repeat hR hl has
          refine ⟨.cons h1.1 (fun h => ?_) h2.1, fun hs => ?_⟩
          · obtain ⟨t, ht⟩ := h1.2 h
            exact h2.2 (hl _ _ _ ht)
          · show isLitE a = false
            by_contra hb
            obtain ⟨t, ht⟩ := h1.2 (by simpa using hb)
            exact hs _ _ ht
        · rename_i r hr
          exact absurd h (hr _ _)
      · cases h
    · cases h; exact ⟨.nil, fun _ => rfl⟩
    · cases h
    · cases h
    · cases h

theorem apart_template (hR : Yields ApartEs R.template) : Yields ApartEs (template E R) := by
  intro i x j h
  unfold template elements repeat0 at h
  exact (apart_repeat hR (fun i t j h => literal_stuck (noCut_alt noCut_tag noCut_tag) h) h).1

theorem apart_parsers : ∀ n, Yields ApartEs (parsers E n).template
  | 0 => .oof
  | n + 1 => apart_template (apart_parsers n)

/-- A template that was read has no two literals next to each other. -/
theorem parseTemplate_apart {s : Str} {t : List EElem} (h : parseTemplate E s = .ok t) :
    ∃ t₀, t = EExpr.despanElems s t₀ ∧ TElems E.U s .plain t₀ 0 s.length ∧ ApartEs t₀ := by
  unfold parseTemplate parseComplete at h
  split at h
  · rename_i a i ha
    split at h
    · cases h
      refine ⟨a, rfl, terminated_val (parsersFor_ok E s).template ha, ?_⟩
      unfold terminated at ha
      obtain ⟨b, k, h1, h2⟩ := bind_inv (f := fun a => P.bind eof fun _ => P.pure a) ha
      obtain ⟨_, _, -, h3⟩ := bind_inv (f := fun _ => P.pure b) h2
      cases h3
      exact apart_parsers _ _ _ _ h1
    · cases h
  all_goals cases h

end Verif.Gram

namespace Verif.Spec
open Syn Gram

variable {E : FmtEnv} {bd : Build} {cfg : FmtCfg} {s : Str}

/-- What follows at an offset. -/
def NextAt (s : Str) (q : Nat) (c : Char) : Prop := ∃ y, Tok s [c, '{'] q y

theorem tok_prefix {t u : Str} {a b : Nat} (h : Tok s (t ++ u) a b) (ht : t ≠ []) : ∃ y, Tok s t a y := by
  have h1 := tok_drop h
  rw [List.append_assoc] at h1
  exact ⟨_, tok_of_drop h1 ht⟩

/-- A literal does not end in the character that follows it with a brace. -/
theorem litAt_last {c : Char} (hs : Sigil c) : ∀ {v : Str} {a b : Nat}, LitAt false s v a b → NextAt s b c → v.getLast? ≠ some c
  | _, _, _, .nil, _ => nofun
  | _, _, _, .marker (v := v) _ _ h, hn => by
    rw [List.getLast?_cons_cons]
    cases v with
    | nil =>
      intro h
      cases h
      rcases hs with h | h <;> cases h
    | cons d v => rw [List.getLast?_cons_cons]; exact litAt_last hs h hn
  | _, _, _, .esc h _ _ _, _ => by cases h
  | _, _, _, .char (v := v) h1 _ h3 h4, hn => by
    cases v with
    | cons d v => rw [List.getLast?_cons_cons]; exact litAt_last hs h4 hn
    | nil =>
      intro h
      cases h
      cases h4
      obtain ⟨y, hy⟩ := hn
      have h5 := tok_drop h1
      rw [tok_drop hy] at h5
      exact (h3 hs).2 ⟨_, tok_of_drop h5 (by simp)⟩

theorem elemAt_next {m : LitMode} {e : EElem} {a b : Nat} (h : ElemAt E.U s m e a b) (hl : isLitE e = false) :
    ∃ c, sigilOfElem (toHclElem E e) = some c ∧ Sigil c ∧ NextAt s a c := by
  cases h with
  | lit => cases hl
  | interp h => exact ⟨'$', rfl, .inl rfl, tok_prefix (t := c!"${") h (by simp)⟩
  | ifDir h => exact ⟨'%', rfl, .inr rfl, tok_prefix (t := c!"%{") h (by simp)⟩
  | forDir h => exact ⟨'%', rfl, .inr rfl, tok_prefix (t := c!"%{") h (by simp)⟩

theorem marker_next {kw : Str} {st : Strip} {p t : Raw} {a b : Nat} (h : Marker s kw st p t a b) : NextAt s a '%' := by
  obtain ⟨_, _, _, _, h, -⟩ := h
  exact tok_prefix (t := c!"%{") h (by simp)

theorem else_next {els : Option EElse} {kw : Str} {st : Strip} {p t : Raw} {u w b : Nat} (h : Else E.U s els u w)
    (hm : Marker s kw st p t w b) : NextAt s u '%' := by
  cases h with
  | none => exact marker_next hm
  | some h => exact marker_next h

theorem sigil_despan (e : EElem) (es : List EElem) : ∃ e' es', EExpr.despanElems s (e :: es) = e' :: es' ∧
    sigilOfElem (toHclElem E e') = sigilOfElem (toHclElem E e) := by
  cases e <;> exact ⟨_, _, rfl, rfl⟩

/-- The text behind a branch or a template. -/
def Behind? (s : Str) (q : Nat) (next : Option Char) : Prop := ∀ c, next = some c → Sigil c ∧ NextAt s q c

theorem litFollow_of {t : Str} {a b q : Nat} {es : List EElem} {next : Option Char} (ht : LitAt false s t a b)
    (h : TElems E.U s .plain es b q) (hl : headLitE es = false) (hn : Behind? s q next) :
    LitFollow t next (toHclElems E (EExpr.despanElems s es)) := by
  cases h with
  | nil =>
    intro c hc
    exact litAt_last (hn c hc).1 ht (hn c hc).2
  | cons h1 _ =>
    rename_i e es' x _
    obtain ⟨c, h2, h3, h4⟩ := elemAt_next h1 hl
    obtain ⟨e', es'', h5, h6⟩ := sigil_despan (E := E) (s := s) e es'
    rw [h5]
    exact ⟨c, h6.trans h2, litAt_last h3 ht h4⟩

theorem Else.strip {els : Option EElse} {p q : Nat} (h : Else E.U s els p q) :
    toHclElseOpt E (EExpr.despanElse s els) = Option.none → elseStrip (EExpr.despanElse s els) = Strip.none := by
  cases h with
  | none => exact fun _ => rfl
  | some => nofun

theorem _root_.Verif.Gram.ApartEs.inv {e : EElem} {es : List EElem} (h : ApartEs (e :: es)) :
    ApartE e ∧ (isLitE e = true → headLitE es = false) ∧ ApartEs es := by
  cases h with
  | cons h1 h2 h3 => exact ⟨h1, h2, h3⟩

theorem _root_.Verif.Gram.ApartE.ifInv {s p c st ts t els ep et est} (h : ApartE (.ifDir s p c st ts t els ep et est)) :
    ApartEs t ∧ ApartElse els := by
  cases h with
  | ifDir h1 h2 => exact ⟨h1, h2⟩

theorem _root_.Verif.Gram.ApartE.forInv {s p k v c st ts t ep et est} (h : ApartE (.forDir s p k v c st ts t ep et est)) :
    ApartEs t := by
  cases h with
  | forDir h1 => exact h1

theorem _root_.Verif.Gram.ApartElse.inv {p t s ts es} (h : ApartElse (some (.mk p t s ts es))) : ApartEs es := by
  cases h with
  | some h1 => exact h1

theorem telems_cons {m : LitMode} {e : EElem} {es : List EElem} {p q : Nat} (h : TElems E.U s m (e :: es) p q) :
    ∃ x, ElemAt E.U s m e p x ∧ TElems E.U s m es x q := by
  cases h with
  | cons h1 h2 => exact ⟨_, h1, h2⟩

theorem elem_cons (e : EElem) (es : List EElem) : ∃ e', EExpr.despanElems s [e] = [e'] ∧
    toHclElems E (EExpr.despanElems s (e :: es)) = toHclElem E e' :: toHclElems E (EExpr.despanElems s es) := by
  cases e <;> exact ⟨_, rfl, rfl⟩

/-- The content of an element of the source. -/
theorem elemFollow {m : LitMode} {e e' : EElem} {es : List EElem} {a x q : Nat} {next : Option Char} (hm : m = .plain)
    (h1 : ElemAt E.U s m e a x) (h2 : TElems E.U s m es x q) (ha : ApartEs (e :: es)) (hn : Behind? s q next)
    (he : EExpr.despanElems s [e] = [e']) :
    ∀ t, toHclElem E e' = .lit t → LitFollow t next (toHclElems E (EExpr.despanElems s es)) := by
  subst hm
  cases h1 with
  | lit _ _ hl =>
    cases he
    intro t ht
    cases ht
    exact litFollow_of hl h2 (ha.inv.2.1 rfl) hn
  | interp => cases he; nofun
  | ifDir => cases he; nofun
  | forDir => cases he; nofun

mutual

theorem TElems.shown : ∀ {m es p q}, TElems E.U s m es p q → m = .plain → ∀ next, ApartEs es → Behind? s q next →
    TameElems E bd cfg (toHclElems E (EExpr.despanElems s es)) →
    ShownElems E bd cfg true next (toHclElems E (EExpr.despanElems s es))
  | _, _, _, _, .nil, _, _, _, _, _ => trivial
  | _, _, _, _, .cons (e := e) (es := es) h1 h2, hm, next, ha, hn, ht => by
    obtain ⟨e', he, hc⟩ := elem_cons (E := E) (s := s) e es
    rw [hc] at ht ⊢
    exact ⟨h1.shown hm ha.inv.1 e' he ht.1, elemFollow hm h1 h2 ha hn he, h2.shown hm next ha.inv.2.2 hn ht.2⟩

theorem ElemAt.shown : ∀ {m e p q}, ElemAt E.U s m e p q → m = .plain → ApartE e → ∀ e', EExpr.despanElems s [e] = [e'] →
    TameElem E bd cfg (toHclElem E e') → ShownElem E bd cfg true (toHclElem E e')
  | _, _, _, _, .lit hab _ hl, hm, _, e', he, ht => by
    subst hm
    cases he
    exact ⟨by rintro rfl; cases (hl : LitAt false s [] _ _); exact Nat.lt_irrefl _ hab, ht⟩
  | _, _, _, _, .interp _ _ h3 _ _ _, _, _, e', he, ht => by
    cases he
    exact h3.tame ht
  | _, _, _, _, .ifDir _ _ _ _ h5 _ _ _ h9 h10 h11, _, ha, e', he, ht => by
    cases he
    exact ⟨h5.tame ht.1, h9.shown rfl (some '%') ha.ifInv.1
      (fun c hc => by cases hc; exact ⟨.inr rfl, else_next h10 h11⟩) ht.2.1, h10.shown ha.ifInv.2 (marker_next h11) ht.2.2, h10.strip⟩
  | _, _, _, _, .forDir _ _ _ h4 _ _ h7 _ _ _ h11 h12, _, ha, e', he, ht => by
    cases he
    exact ⟨(forVars_names h4).1, (forVars_names h4).2, h7.tame ht.1,
      h11.shown rfl (some '%') ha.forInv (fun c hc => by cases hc; exact ⟨.inr rfl, marker_next h12⟩) ht.2⟩

theorem Else.shown : ∀ {els p q}, Else E.U s els p q → ApartElse els → NextAt s q '%' →
    TameElse E bd cfg (toHclElseOpt E (EExpr.despanElse s els)) →
    ShownElse E bd cfg true (toHclElseOpt E (EExpr.despanElse s els))
  | _, _, _, .none, _, _, _ => trivial
  | _, _, _, .some _ h2, ha, hn, ht => h2.shown rfl (some '%') ha.inv (fun c hc => by cases hc; exact ⟨.inr rfl, hn⟩) ht

end

end Verif.Spec
