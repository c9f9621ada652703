import Verif.Lemmas.SpellHead
import Verif.Lemmas.EscapeFlag
/-! The printed text of a tree of `hcl-edit` spells what the tree converts to. -/

namespace Verif.Gram
open P Spec Syn

variable {F : FmtEnv} {bd : Build}

/-! ### Encoding steps that write a fixed text -/

/-- The step writes the text; with `j = false` only if literals are not escaped, and they are not afterwards. -/
def Wr (j : Bool) (w : W) (t : Str) : Prop := ∀ b, (b = true → j = true) → (w b).1 = t ∧ ((w b).2 = true → j = true)

variable {j : Bool}

theorem Wr.str (t : Str) : Wr j (W.str t) t := fun _ h => ⟨rfl, h⟩

theorem Wr.seq {v w : W} {s t : Str} (h1 : Wr j v s) (h2 : Wr j w t) : Wr j (v +> w) (s ++ t) := fun b h => by
  show (v b).1 ++ (w (v b).2).1 = _ ∧ ((w (v b).2).2 = true → j = true)
  rw [(h1 b h).1, (h2 _ (h1 b h).2).1]
  exact ⟨rfl, (h2 _ (h1 b h).2).2⟩

theorem Wr.cast {w : W} {s t : Str} (h : Wr j w s) (e : s = t) : Wr j w t := e ▸ h

theorem encDecor_text (d : Str) (r : Option Raw) : encDecor d r = decorText d r := by
  rcases r with _ | (_ | _ | _) <;> rfl

theorem Wr.deco {w : W} {t : Str} (h : Wr j w t) {m : Meta} {p s : Str} :
    Wr j (deco m p s w) (before p m ++ (t ++ behind s m)) := by
  unfold Verif.deco before behind
  rw [encDecor_text, encDecor_text]
  exact (Wr.str _).seq (h.seq (Wr.str _))

theorem Wr.ident {d : DIdent} {p s : Str} : Wr j (d.enc p s) (before p d.m ++ (d.name ++ behind s d.m)) := (Wr.str _).deco

/-- Finds the text that a step writes. -/
macro "wr" : tactic => `(tactic| refine Wr.cast (by
  with_reducible repeat' first | assumption | exact Wr.str _ | exact Wr.ident | apply Wr.seq | apply Wr.deco) ?_)

theorem raw_enc (r : Raw) : r.enc [] = decorText [] (some r) := by cases r <;> rfl

theorem blanks_text {nl : Bool} {r : Option Raw} (h : BlankText nl r) {d : Str} (hd : Gap nl d) : Gap nl (decorText d r) := by
  rcases r with _ | (_ | _ | _)
  · exact hd
  · exact h
  · exact hd
  · exact h

theorem blanks_mono {a b : Bool} {r : Option Raw} (h : BlankText a r) (hab : a = true → b = true) : BlankText b r := Gap.mono h hab

theorem gap_true {b : Bool} {g : Str} (h : Gap b g) : Gap true g := h.mono fun _ => rfl

theorem gap_false {b : Bool} {g : Str} (h : Gap false g) : Gap b g := h.mono nofun

theorem _root_.Verif.Spec.Around.before {nl : Bool} {m : Meta} (h : Around nl m) {d : Str} (hd : Gap nl d) : Gap nl (Spec.before d m) :=
  blanks_text h.1 hd

theorem _root_.Verif.Spec.Around.behind {nl : Bool} {m : Meta} (h : Around nl m) {d : Str} (hd : Gap nl d) : Gap nl (Spec.behind d m) :=
  blanks_text h.2 hd

theorem eol_after {g e : Str} (hg : Gap false g) (h : Eol e) : Eol (g ++ e) := by
  cases h with
  | plain h1 h2 => rw [← List.append_assoc]; exact .plain (hg.append h1) h2
  | line h1 h2 h3 => rw [← List.append_assoc, ← List.append_assoc]; exact .line (hg.append h1) h2 h3

theorem eol_itemSep {e : Str} (h : Eol e) : ∃ g s, e = g ++ s ∧ Gap false g ∧ ItemSep s ∧ s ≠ c!"," := by
  cases h with
  | plain h1 h2 =>
    refine ⟨_, _, rfl, h1, .newline h2, ?_⟩
    rintro rfl
    rcases h2 with h2 | h2 <;> cases h2
  | line h1 h2 h3 =>
    refine ⟨_, _, List.append_assoc _ _ _, h1, .line h2 h3, ?_⟩
    obtain ⟨c, t, rfl, hc⟩ := lineComment_head h2
    intro h
    injection h with h _
    subst h
    rcases hc with hc | hc <;> cases hc

/-! ### Expressions -/

/-- What is shown of an expression. -/
def Ok (F : FmtEnv) (bd : Build) (j nl : Bool) (e : EExpr) : Prop :=
  ∃ t, Wr j (e.core F) (lead e ++ t ++ trail e) ∧ Lev F.U bd nl (toHcl F e) t ∧ Gap nl (lead e) ∧ Gap nl (trail e)

theorem ok_atom {nl : Bool} {e : EExpr} {t : Str} (h1 : Wr j (e.core F) t) (h2 : lead e = []) (h3 : trail e = [])
    (h4 : Atom F.U bd nl (toHcl F e) t) : Ok F bd j nl e :=
  ⟨t, h1.cast (by rw [h2, h3]; simp), lev_atom h4, by rw [h2]; exact .nil, by rw [h3]; exact .nil⟩

/-- The text of an expression with whitespace around it. -/
theorem Ok.around {nl : Bool} {e : EExpr} (h : Ok F bd j nl e) {b : Bool} (hb : nl = true → b = true) (ha : Around b e.getMeta)
    {p s : Str} (hp : Gap b p) (hs : Gap b s) :
    ∃ g t h, Wr j (deco e.getMeta p s (e.core F)) (g ++ t ++ h) ∧ Gap b g ∧ Gap b h ∧ Lev F.U bd nl (toHcl F e) t ∧
      (before p e.getMeta ≠ [] → g ≠ []) ∧ (behind s e.getMeta ≠ [] → h ≠ []) ∧ g = before p e.getMeta ++ lead e := by
  obtain ⟨t, h1, h2, h3, h4⟩ := h
  refine ⟨before p e.getMeta ++ lead e, t, trail e ++ behind s e.getMeta, ?_, (ha.before hp).append (h3.mono hb),
    (h4.mono hb).append (ha.behind hs), h2, fun h => ?_, fun h => ?_, rfl⟩
  · wr; simp
  · simp [h]
  · simp [h]

theorem raw_def {d : Str} (r : Raw) : r.enc d = decorText d (some r) := by cases r <;> rfl

theorem Wr.strip {w : W} {t : Str} (h : Wr j w t) {s : Str} {st : Strip} :
    Wr j (encStrip s st w) (s ++ openTilde st ++ t ++ closeTilde st ++ c!"}") := by
  unfold encStrip
  wr
  cases st <;> simp [Strip.stripStart, Strip.stripEnd, openTilde, closeTilde]

theorem last_append {x t : Str} (h : t ≠ []) : (x ++ t).getLast? = t.getLast? := by
  rw [List.getLast?_append]
  cases hl : t.getLast? with
  | none => exact absurd (List.getLast?_eq_none_iff.mp hl) h
  | some => rfl

theorem Wr.marker {kw : Str} {st : Strip} {p t : Raw} (hp : BlankText true (some p)) (ht : BlankText true (some t)) :
    ∃ x, Wr j (encMarker kw st p t) x ∧ Mark kw st x ∧ (∃ r, x = '%' :: '{' :: r) ∧ x.getLast? = some '}' := by
  refine ⟨_, (Wr.str _).strip, ?_, ?_, ?_⟩
  · have := Mark.mk (kw := kw) (i := st) (blanks_text hp (d := c!" ") gap_blank) (blanks_text ht (d := c!" ") gap_blank)
    simp only [raw_def]
    simpa using this
  · simp
  · exact last_append (t := c!"}") nofun

theorem seq_text {v w : W} {q : Bool} (h : Fl v q) (b : Bool) : ((v +> w) b).1 = (v b).1 ++ (w (b && q)).1 := by
  show (v b).1 ++ (w (v b).2).1 = _
  rw [h]

/-- How the text of template elements starts. -/
def Begins (t : Str) : List EElem → Prop
  | [] => t = []
  | e :: _ => t ≠ [] ∧ ∀ c, sigilOf e = some c → ∃ r, t = c :: '{' :: r

theorem not_joined_last {x y : Str} (h : ∀ c, Sigil c → (∃ r, y = c :: '{' :: r) → x.getLast? ≠ some c) : ¬ Joined x y := by
  rintro ⟨c, hc, h1, ⟨r, rfl⟩⟩
  exact h c hc ⟨r, rfl⟩ h1

theorem brace_not_sigil {c : Char} (h : Sigil c) : some '}' ≠ some c := by
  rcases h with rfl | rfl <;> decide

theorem string_enc {s : Str} (h : StringSafe s) : QuotedText (encEscaped (escapeMarkers s)) s :=
  encEscaped_text _ _ (Markers.read_esc s h)

theorem number_enc {n : N} {r : Option Raw} (h : NumberLaid F bd n r) : Num bd (encNumber F n r) n := by
  rcases r with _ | (_ | _ | _)
  · exact number_text h
  · exact h.elim
  · exact h.elim
  · exact h

/-- The name of a function. -/
theorem name_enc {U : Uni} {nl : Bool} {n : DIdent} (hn : LaidIdent U nl n) : ∀ ns : List DIdent,
    (∀ d ∈ ns, LaidIdent U nl d) → ∃ w x xs, Wr j (encNamespace ns +> n.enc [] []) (leadName ns n ++ w) ∧
      x :: xs = ns.map DIdent.name ++ [n.name] ∧ IsIdentifier U x ∧ Gap nl (leadName ns n) ∧
      ∀ g₀, Gap nl g₀ → ∃ g t, w ++ g₀ = x ++ g ++ t ∧ Gap nl g ∧ NameTail U nl xs t
  | [], _ => by
    refine ⟨n.name ++ behind [] n.m, n.name, [], ?_, rfl, hn.1, hn.2.before .nil, fun g₀ h => ?_⟩
    · unfold encNamespace leadName
      wr; simp
    · exact ⟨behind [] n.m ++ g₀, [], by simp, (hn.2.behind .nil).append h, .nil⟩
  | d :: ns, h => by
    obtain ⟨w, x, xs, h1, h2, h3, h4, h5⟩ := name_enc hn ns fun y hy => h y (List.mem_cons_of_mem _ hy)
    have hd := h d List.mem_cons_self
    refine ⟨d.name ++ behind [] d.m ++ c!"::" ++ leadName ns n ++ w, d.name, x :: xs, ?_, by rw [h2]; rfl, hd.1,
      hd.2.before .nil, fun g₀ hg => ?_⟩
    · have : encNamespace (d :: ns) +> n.enc [] [] = d.enc [] [] +> W.str c!"::" +> (encNamespace ns +> n.enc [] []) := by
        rw [encNamespace]
        funext b
        simp [W.seq, W.str]
      rw [this]
      wr; simp [leadName]
    · obtain ⟨g, t, h6, h7, h8⟩ := h5 g₀ hg
      refine ⟨behind [] d.m, _, ?_, hd.2.behind .nil, .cons h4 h3 h7 h8⟩
      simp only [List.append_assoc] at h6 ⊢
      rw [h6]

theorem step_chars {U : Uni} {o : TravOp} {t : Str} (h : Step U bd o t) : ∃ a b r, t = a :: b :: r := by
  have : ∀ (c : Char) (x y : Str), y ≠ [] → ∃ a b r, (c :: x) ++ y = a :: b :: r := by
    intro c x y hy
    cases x with
    | nil => cases y with
      | nil => exact absurd rfl hy
      | cons d y => exact ⟨_, _, _, rfl⟩
    | cons d x => exact ⟨_, _, _, rfl⟩
  cases h with
  | getAttr _ h =>
    obtain ⟨c, cs, rfl, -⟩ := ident_headIs h
    exact this _ _ _ nofun
  | legacyIndex _ h => exact this _ _ _ h.1
  | attrSplat => exact this _ _ _ nofun
  | fullSplat => exact this _ _ _ nofun
  | index => exact this _ _ _ nofun

theorem isNumber_trail {e : EExpr} (h : isNumber (toHcl F e) = true) : trail e = [] := by
  cases e <;> first | rfl | (simp only [toHcl, isNumber] at h; cases h)

/-- The variables of a `for` expression. -/
theorem vars_enc {k : Option DIdent} {v : DIdent} (h : LaidVars F.U k v) {im : Meta} (hi : Gap true (before [] im))
    {c : Expr} {w : W} {g₃ t h₃ : Str} (e₃ : Wr j w (g₃ ++ t ++ h₃)) (hg : Gap true g₃) (hn : g₃ ≠ [])
    (hc : Full F.U bd false c t) (hh : Gap true h₃) :
    ∃ u, Wr j (encKeyVar k +> v.enc c!" " [] +> W.str c!"in" +> w +> W.str c!":") u ∧
      Intro F.U bd (k.map DIdent.name) v.name c (before [] im ++ (c!"for" ++ u)) := by
  obtain ⟨h1, h2, h3, h4, h5⟩ := h
  have head : ∀ d : DIdent, LaidIdent F.U true d → (∀ c, (before c!" " d.m).head? = some c → c ≠ '\r') →
      before c!" " d.m ≠ [] → ∃ w g₁, before c!" " d.m = w :: g₁ ∧ w ∈ [' ', '\t', '#', '/', '\n'] ∧ Gap true (w :: g₁) := by
    intro d hd hr he
    cases hb : before c!" " d.m with
    | nil => exact absurd hb he
    | cons w g₁ =>
      have hgap := hd.2.before (d := c!" ") gap_blank
      rw [hb] at hgap hr
      refine ⟨w, g₁, rfl, ?_, hgap⟩
      have := hr w rfl
      rcases gap_head hgap w g₁ rfl with rfl | rfl | rfl | rfl | rfl | rfl <;> first | decide | exact absurd rfl this
  cases k with
  | none =>
    obtain ⟨w, g₁, hb, hw, hgw⟩ := head v h2 h3 h4
    refine ⟨_, ?_, by
      have := Intro.value hi hw hgw h2.1 (h2.2.behind .nil) h5 hg hn hc hh
      simp only [List.append_assoc] at this
      exact this⟩
    · unfold encKeyVar
      wr; simp [hb]
  | some k =>
    obtain ⟨w, g₁, hb, hw, hgw⟩ := head k (h1 k rfl) h3 h4
    refine ⟨_, ?_, by
      have := Intro.keyValue hi hw hgw (h1 k rfl).1 ((h1 k rfl).2.behind .nil) (h2.2.before (d := c!" ") gap_blank) h2.1
        (h2.2.behind .nil) h5 hg hn hc hh
      simp only [List.append_assoc] at this
      exact this⟩
    · unfold encKeyVar
      wr; simp [hb]

mutual

/-- What can be printed inside of quotes can be printed outside of them. -/
theorem laidElems_plain : ∀ (es : List EElem) {q k : Bool} {nx : Option Char}, LaidElems F bd j q k nx es →
    LaidElems F bd j false false nx es
  | [], _, _, _, _ => by simp only [LaidElems]
  | e :: es, _, _, _, h => by
    simp only [LaidElems, Bool.false_and] at h ⊢
    exact ⟨laidElem_plain e h.1, h.2.1, laidElems_plain es h.2.2⟩
termination_by structural x => x

theorem laidElem_plain : ∀ (e : EElem) {q k : Bool}, LaidElem F bd j q k e → LaidElem F bd j false false e
  | .lit _ _, _, _, h => by simp only [LaidElem] at h ⊢; exact ⟨h.1, h.2.1, .inl trivial⟩
  | .interp _ _ _, _, _, h => by simp only [LaidElem] at h ⊢; exact h
  | .ifDir _ _ _ _ _ t el _ _ _, _, _, h => by
    simp only [LaidElem, Bool.false_and] at h ⊢
    exact ⟨h.1, h.2.1, h.2.2.1, laidElems_plain t h.2.2.2.1, laidElse_plain el h.2.2.2.2.1, h.2.2.2.2.2⟩
  | .forDir _ _ _ _ _ _ _ t _ _ _, _, _, h => by
    simp only [LaidElem, Bool.false_and] at h ⊢
    exact ⟨h.1, h.2.1, h.2.2.1, h.2.2.2.1, h.2.2.2.2.1, laidElems_plain t h.2.2.2.2.2.1, h.2.2.2.2.2.2⟩
termination_by structural x => x

theorem laidElse_plain : ∀ (x : Option EElse) {k : Bool}, LaidElseOpt F bd j k x → LaidElseOpt F bd j false x
  | none, _, _ => by simp only [LaidElseOpt]
  | some (.mk _ _ _ _ t), _, h => by
    simp only [LaidElseOpt, LaidElse] at h ⊢
    exact ⟨h.1, h.2.1, laidElems_plain t h.2.2⟩
termination_by structural x => x

end

theorem and_hk {j k b : Bool} (h : k = true → j = true) (hb : (k && b) = true) : j = true :=
  h (Bool.and_eq_true _ _ ▸ hb).1

mutual

theorem ok : ∀ (e : EExpr) {j : Bool} (nl : Bool), Laid F bd j nl e → Ok F bd j nl e
  | .null _, j, _, _ => ok_atom (.str _) rfl rfl .null
  | .bool _ _, j, _, _ => ok_atom (.str _) rfl rfl .bool
  | .number _ n r, j, _, h => ok_atom (.str _) rfl rfl (.number (number_enc (by simpa only [Laid] using h)))
  | .string _ s, j, _, h => ok_atom (t := encQuoted s) (.str _) rfl rfl
      (by have := Atom.string (U := F.U) (bd := bd) (nl := ‹_›) (string_enc (by simpa only [Laid] using h)); exact this)
  | .array _ [] c t, j, nl, h => by
    simp only [Laid] at h
    refine ok_atom (t := c!"[" ++ decorText [] (some t) ++ c!"]") ?_ rfl rfl ?_
    · simp only [EExpr.core, EExpr.encList]; wr; simp [raw_enc]
    · simp only [toHcl, toHclList]; exact .emptyArray h.2.2
  | .array _ (e :: es) c t, j, nl, h => by
    rw [Laid] at h
    obtain ⟨h1, h2, h3⟩ := h
    obtain ⟨u, h4, h5⟩ := okList (e :: es) nofun h1 [] .nil
    cases c with
    | false =>
      have hs := h5 _ h3
      refine ok_atom (t := c!"[" ++ (u ++ decorText [] (some t)) ++ c!"]") ?_ rfl rfl ?_
      · rw [EExpr.core]; wr; simp [raw_enc]
      · rw [toHcl]; exact .array hs (seq_notFor hs h2)
    | true =>
      have hs := h5 _ .nil
      rw [List.append_nil] at hs
      refine ok_atom (t := c!"[" ++ u ++ c!"," ++ decorText [] (some t) ++ c!"]") ?_ rfl rfl ?_
      · rw [EExpr.core]; wr; simp [raw_enc]
      · rw [toHcl]; exact .arrayComma hs (seq_notFor hs h2) h3
  | .object _ is t, j, nl, h => by
    simp only [Laid] at h
    obtain ⟨h1, h2, h3, h4⟩ := h
    obtain ⟨u, h5, h6⟩ := okItems t h4 is h1
    refine ok_atom (t := c!"{" ++ (u ++ decorText [] (some t)) ++ c!"}") ?_ rfl rfl ?_
    · simp only [EExpr.core]; wr; simp [raw_enc]
    · simp only [toHcl]
      rw [objCollect_apart h3]
      exact .object h6 (items_notFor h6 h2) h3
  | .strTmpl m es, j, nl, h => by
    simp only [Laid] at h
    obtain ⟨h1, h2⟩ := h
    obtain ⟨h3, -, -⟩ := okElems es true true none (fun h => h) h1
    obtain ⟨h4, -, -⟩ := okElems es false false none nofun (laidElems_plain es h1)
    refine ok_atom (t := c!"\"" ++ (EExpr.encElems F es true).1 ++ c!"\"") ?_ rfl rfl ?_
    · simp only [EExpr.core]
      exact fun b => by simp [W.seq, W.str, W.escaped]
    · simp only [toHcl]
      exact .template h4 h3 h2
  | .heredoc _ d l es none t, j, nl, h => by
    simp only [Laid] at h
    obtain ⟨rfl, h1, h2, h3, h4⟩ := h
    obtain ⟨h5, -, -⟩ := okElems es false false none nofun h2
    refine ok_atom (t := c!"<<" ++ d ++ c!"\n" ++ showTemplate F es ++ decorText [] (some t) ++ d) ?_ rfl rfl ?_
    · intro b hb
      cases b with
      | true => exact absurd (hb rfl) nofun
      | false =>
        simp only [EExpr.core, encHere]
        have hf := flagElems (F := F) es false
        simp only [W.seq, W.str, hf, Bool.false_and, raw_enc]
        exact ⟨by simp [showTemplate], nofun⟩
    · simp only [toHcl]
      exact .heredoc h1 (.inl rfl) h5 h5 h3 h4
  | .heredoc _ _ _ _ (some _) _, j, _, h => by simp only [Laid] at h
  | .paren _ e, j, nl, h => by
    simp only [Laid] at h
    obtain ⟨g, t, h', h1, h2, h3, h4, -⟩ := (ok e true h.2).around (fun h => h) h.1 .nil .nil
    refine ok_atom (t := c!"(" ++ g ++ t ++ h' ++ c!")") ?_ rfl rfl ?_
    · simp only [EExpr.core]; wr; simp
    · simp only [toHcl]; exact .paren h2 h4.full h3
  | .var _ x, j, nl, h => by
    simp only [Laid] at h
    exact ok_atom (.str _) rfl rfl (by simp only [toHcl]; exact .var h.1 h.2)
  | .cond _ c a b, j, nl, h => by
    simp only [Laid] at h
    obtain ⟨h1, h2, h3, h4, h5, h6, h7⟩ := h
    obtain ⟨t₁, e₁, l₁, g₁, g₁'⟩ := ok c nl h2
    obtain ⟨g₂, t₂, g₂', e₂, i₂, i₂', l₂, -⟩ := (ok a nl h5).around (fun h => h) h4 (p := c!" ") gap_blank (s := c!" ") gap_blank
    obtain ⟨t₃, e₃, l₃, g₃, g₃'⟩ := ok b nl h7
    have hf := Full.cond (l₁.chain h3) (g₁'.append (h1.behind (d := c!" ") gap_blank)) i₂ l₂.full i₂'
      ((h6.before (d := c!" ") gap_blank).append g₃) l₃.full
    refine ⟨_, ?_, ⟨by simp only [toHcl]; nofun, by simp only [toHcl]; nofun, by simp only [toHcl]; nofun, by
      simp only [toHcl]; exact hf⟩, (h1.before .nil).append g₁, g₃'.append (h6.behind .nil)⟩
    simp only [EExpr.core]; wr; simp [lead, trail]
  | .call m₀ ns n am [] c x t, j, nl, h => by
    simp only [Laid] at h
    obtain ⟨h1, h2, h3, -, h5, h6⟩ := h
    obtain ⟨w, y, ys, h7, h8, h9, h10, h11⟩ := name_enc h2 ns h1
    obtain ⟨g, u, h12, h13, h14⟩ := h11 _ (h3.before .nil)
    have hx : x = false := by
      cases x
      · rfl
      · exact absurd rfl (h5 rfl)
    subst hx
    have ha := Atom.emptyCall (bd := bd) h9 h13 h14 h8 h6
    refine ⟨_, ?_, by simp only [toHcl, toHclList]; exact lev_atom ha, h10, h3.behind .nil⟩
    rw [← h12]
    have : EExpr.core F (.call m₀ ns n am [] c false t) = (encNamespace ns +> n.enc [] []) +>
        deco am [] [] (W.str c!"(" +> W.str (t.enc [] ++ c!")")) := by
      simp only [EExpr.core, EExpr.encList]; funext b; simp [W.seq, W.str, deco]
    rw [this]
    wr; simp [lead, trail, raw_enc]
  | .call m₀ ns n am (e :: es) c x t, j, nl, h => by
    rw [Laid] at h
    obtain ⟨h1, h2, h3, h4, -, h6⟩ := h
    obtain ⟨w, y, ys, h7, h8, h9, h10, h11⟩ := name_enc h2 ns h1
    obtain ⟨g, u, h12, h13, h14⟩ := h11 _ (h3.before .nil)
    obtain ⟨v, h15, h16⟩ := okList (e :: es) nofun h4 [] .nil
    have hc : Wr j (EExpr.core F (.call m₀ ns n am (e :: es) c x t)) (leadName ns n ++
        (y ++ g ++ u ++ c!"(" ++ v ++ (if x then c!"..." else if c then c!"," else []) ++ decorText [] (some t) ++ c!")") ++
        behind [] am) := by
      have : EExpr.core F (.call m₀ ns n am (e :: es) c x t) = (encNamespace ns +> n.enc [] []) +>
        deco am [] [] (W.str c!"(" +> EExpr.encList F [] (e :: es) +>
          W.str ((if x then c!"..." else if c then c!"," else []) ++ t.enc [] ++ c!")")) := by
        rw [EExpr.core]; funext b; simp [W.seq]
      rw [this, ← h12]
      wr; simp [raw_enc]
    refine ⟨_, hc, ?_, h10, h3.behind .nil⟩
    rw [toHcl]
    refine lev_atom ?_
    cases x with
    | true =>
      have := h16 _ .nil
      rw [List.append_nil] at this
      have := Atom.callExpand h9 h13 h14 h8 this h6
      simpa using this
    | false =>
      cases c with
      | true =>
        have := h16 _ .nil
        rw [List.append_nil] at this
        have := Atom.callComma h9 h13 h14 h8 this h6
        simpa using this
      | false =>
        have := Atom.call h9 h13 h14 h8 (h16 _ h6)
        simpa using this
  | .trav _ e os, j, nl, h => by
    simp only [Laid] at h
    obtain ⟨h1, h2, h3, h4, h5, h6, h7⟩ := h
    obtain ⟨t, e₁, l₁, g₁, g₁'⟩ := ok e nl h3
    have hm : nl = true → (nl || opens (toHcl F e)) = true := by rintro rfl; rfl
    obtain ⟨u, h8, h9, h10, h11⟩ := okOps os h5 nl (nl || opens (toHcl F e)) hm h6
    have hs := h9 (trail e ++ behind [] e.getMeta) ((g₁'.mono hm).append (blanks_text h2 .nil))
    have ht := Term.trav (l₁.atom h4) hs (by
      intro hn d ds hu hd
      rw [isNumber_trail hn] at hu
      cases hb : behind [] e.getMeta with
      | nil =>
        rw [hb] at hu
        exact h7 hn hb (h11 d ds hu hd)
      | cons c r =>
        have hg : Gap _ (behind [] e.getMeta) := blanks_text h2 .nil
        rw [hb] at hu hg
        injection hu with hu _
        rcases gap_head hg c r rfl with h | h | h | h | h | h <;> (rw [h] at hu; revert hu; decide))
    refine ⟨_, ?_, by simp only [toHcl]; exact lev_term ht rfl, (blanks_text h1 .nil).append g₁, h10⟩
    · simp only [EExpr.core]; wr; simp [lead, trail]
  | .unary _ _ o e, j, nl, h => by
    simp only [Laid] at h
    obtain ⟨h1, h2, h3, h4, h5, h6⟩ := h
    obtain ⟨t, e₁, l₁, g₁, g₁'⟩ := ok e nl h4
    have ht := Term.unary (o := o) ((blanks_text h1 .nil).append h2) (l₁.term h5) (by
      intro ho d ds hd hx
      obtain ⟨c, cs, h7, -, h8⟩ := full_head l₁.full
      rw [hd] at h7
      injection h7 with h7 _
      subst h7
      have := h8 (h6 ho)
      unfold isDigit at this
      exact of_decide_eq_false this hx)
    refine ⟨_, ?_, by simp only [toHcl]; exact lev_term ht rfl, .nil, g₁'.append (blanks_text h3 .nil)⟩
    · simp only [EExpr.core]; wr; simp [lead, trail, before]
  | .binary _ l om o r, j, nl, h => by
    simp only [Laid] at h
    obtain ⟨h1, h2, h3, h4, h5, h6, h7, h8, h9, h10, h11⟩ := h
    obtain ⟨t₁, e₁, l₁, g₁, g₁'⟩ := ok l nl h2
    obtain ⟨t₂, e₂, l₂, g₂, g₂'⟩ := ok r nl h6
    have hc := Syn.Chain.binary (o := o) (l₁.chain h3)
      ((g₁'.append (h1.behind .nil)).append (h4.before (d := c!" ") gap_blank)) (by
        intro ho he
        have := h10 ho
        simp only [List.append_assoc, List.append_eq_nil_iff] at he
        exact this (by rw [he.2.1, he.2.2]; rfl))
      (((h4.behind (d := c!" ") gap_blank).append (h5.before .nil)).append g₂) (by
        intro ho x hx
        have := h11 ho
        rw [hx] at this
        exact this rfl)
      (l₂.chain h7) h8 h9
    refine ⟨_, ?_, ⟨by simp only [toHcl]; nofun, by simp only [toHcl]; nofun, fun _ => by simp only [toHcl]; exact hc,
      .chain (by simp only [toHcl]; exact hc)⟩, (h1.before .nil).append g₁, g₂'.append (h5.behind .nil)⟩
    · simp only [EExpr.core]; wr; simp [lead, trail]
  | .forE _ im k v c ke ve g cm co, j, nl, h => by
    rw [Laid] at h
    obtain ⟨h1, h2, h3, h4, h5, h6, h7, h8, h9, h10, h11⟩ := h
    obtain ⟨g₁, t₁, g₁', e₁, i₁, i₁', l₁, n₁, -⟩ := (ok c false h4).around nofun h3 (p := c!" ") gap_blank (s := c!" ") gap_blank
    obtain ⟨u, e₂, i₂⟩ := vars_enc h2 (h1.before .nil) e₁ i₁ (n₁ h5) l₁.full i₁'
    obtain ⟨g₃, t₃, g₃', e₃, i₃, i₃', l₃, -, n₃, -⟩ := (ok ve ke.isNone h9).around (fun _ => rfl) h8 (p := c!" ") gap_blank (s := [])
      .nil
    obtain ⟨gc, uc, ec, ic, lc, nc⟩ := okCond cm co h10
    have hi : Wr j (deco im [] [] (W.str c!"for" +> encKeyVar k +> v.enc c!" " [] +> W.str c!"in" +>
        deco c.getMeta c!" " c!" " (c.core F) +> W.str c!":")) (before [] im ++ (c!"for" ++ u) ++ behind [] im) := by
      wr; simp
    have hne : co.isSome = true → g = false → g₃' ++ gc ≠ [] := by
      intro hs hg he
      have h12 := h11 (by rintro rfl; cases hs) hg
      rw [List.append_eq_nil_iff] at he
      apply h12
      rw [← nc hs, he.2, List.append_nil]
      cases hb : behind [] ve.getMeta with
      | nil => rfl
      | cons a b => exact absurd he.1 (n₃ (by rw [hb]; nofun))
    have hs : (toHclOpt F co).isSome = co.isSome := by cases co <;> simp only [toHclOpt] <;> rfl
    cases ke with
    | none =>
      have hg := h7 rfl
      subst hg
      refine ok_atom (t := c!"[" ++ (before [] im ++ (c!"for" ++ u)) ++ (behind [] im ++ g₃) ++ t₃ ++ (g₃' ++ gc) ++ uc ++ c!"]")
        ?_ rfl rfl ?_
      · rw [EExpr.core, EExpr.encForKey]; wr; simp
      · simp only [toHcl, toHclOpt]
        exact .forList i₂ ((h1.behind .nil).append i₃) l₃.full (i₃'.append ic) lc (fun h => hne (hs ▸ h) rfl)
    | some ke =>
      simp only [LaidOpt] at h6
      obtain ⟨g₄, t₄, g₄', e₄, i₄, i₄', l₄, -⟩ := (ok ke false h6.2).around nofun h6.1 (p := c!" ") gap_blank (s := c!" ") gap_blank
      cases g with
      | false =>
        refine ok_atom (t := c!"{" ++ (before [] im ++ (c!"for" ++ u)) ++ (behind [] im ++ g₄) ++ t₄ ++ g₄' ++ c!"=>" ++ g₃ ++ t₃ ++
          (g₃' ++ gc) ++ uc ++ c!"}") ?_ rfl rfl ?_
        · rw [EExpr.core, EExpr.encForKey]; wr; simp
        · simp only [toHcl, toHclOpt]
          exact .forObject i₂ ((h1.behind .nil).append i₄) l₄.full i₄' i₃ l₃.full (i₃'.append ic) lc
            (fun h => hne (hs ▸ h) rfl)
      | true =>
        refine ok_atom (t := c!"{" ++ (before [] im ++ (c!"for" ++ u)) ++ (behind [] im ++ g₄) ++ t₄ ++ g₄' ++ c!"=>" ++ g₃ ++ t₃ ++
          g₃' ++ c!"..." ++ gc ++ uc ++ c!"}") ?_ rfl rfl ?_
        · rw [EExpr.core, EExpr.encForKey]; wr; simp
        · simp only [toHcl, toHclOpt]
          exact .forGroup i₂ ((h1.behind .nil).append i₄) l₄.full i₄' i₃ l₃.full i₃' ic lc
termination_by structural x => x

theorem okCond (cm : Meta) : ∀ (co : Option EExpr) {j : Bool}, LaidCond F bd j cm co → ∃ g u,
    Wr j (EExpr.encForCond F cm co) (g ++ u) ∧ Gap true g ∧ Syn.Cond F.U bd (toHclOpt F co) u ∧
      (co.isSome = true → g = before c!" " cm)
  | none, j, _ => ⟨[], [], .str _, .nil, by simp only [toHclOpt]; exact .none, nofun⟩
  | some e, j, h => by
    simp only [LaidCond] at h
    obtain ⟨h1, h2, h3, h4⟩ := h
    obtain ⟨g, t, g', e₁, i, i', l, n, -⟩ := (ok e true h3).around (fun h => h) h2 (p := c!" ") gap_blank (s := []) .nil
    refine ⟨before c!" " cm, _, ?_, h1.before gap_blank, by
      simp only [toHclOpt]
      exact .some i (n h4) l.full (i'.append (h1.behind .nil)), fun _ => rfl⟩
    · simp only [EExpr.encForCond]; wr; simp
termination_by structural x => x

theorem okList : ∀ (es : List EExpr) {j : Bool}, es ≠ [] → LaidList F bd j es → ∀ p, Gap true p → ∃ u,
    Wr j (EExpr.encList F p es) ((if p.isEmpty then [] else c!",") ++ u) ∧
      ∀ h, Gap true h → Seq F.U bd (toHclList F es) (u ++ h)
  | [], j, h, _, _, _ => absurd rfl h
  | [e], j, _, h, p, hp => by
    simp only [LaidList] at h
    obtain ⟨g, t, g', e₁, i, i', l, -⟩ := (ok e true h.2.1).around (fun h => h) h.1 hp .nil
    refine ⟨g ++ t ++ g', ?_, fun h hh => ?_⟩
    · simp only [EExpr.encList]; wr; simp
    · simp only [toHclList]
      have := Seq.one i l.full (i'.append hh)
      simpa using this
  | e :: e' :: es, j, _, h, p, hp => by
    rw [LaidList] at h
    obtain ⟨g, t, g', e₁, i, i', l, -⟩ := (ok e true h.2.1).around (fun h => h) h.1 hp .nil
    obtain ⟨u, h1, h2⟩ := okList (e' :: es) nofun h.2.2 c!" " gap_blank
    refine ⟨g ++ t ++ g' ++ c!"," ++ u, ?_, fun h hh => ?_⟩
    · rw [EExpr.encList]; wr; simp
    · rw [toHclList]
      have := Seq.cons i l.full i' (h2 h hh)
      simpa using this
termination_by structural x => x

theorem okKey : ∀ (k : EKey) {j : Bool}, LaidKey F bd j k → ∃ g t h, Wr j (k.enc F) (g ++ t ++ h) ∧ Gap true g ∧ Gap false h ∧
    Key F.U bd (toHclKey F k) t
  | .ident d, j, h => by
    simp only [LaidKey] at h
    refine ⟨before [] d.m, d.name, behind c!" " d.m, ?_, blanks_text h.2.2.1 .nil, blanks_text h.2.2.2 gap_blank, ?_⟩
    · simp only [EKey.enc]; wr; simp
    · simp only [toHclKey]; exact .ident h.1 h.2.1
  | .expr e, j, h => by
    simp only [LaidKey] at h
    obtain ⟨h1, h2, h3, h4⟩ := h
    obtain ⟨t, e₁, l, g, g'⟩ := ok e false h2
    refine ⟨before [] e.getMeta ++ lead e, t, trail e ++ behind c!" " e.getMeta, ?_, (blanks_text h1 .nil).append (gap_true g),
      g'.append (blanks_text h3 gap_blank), ?_⟩
    · simp only [EKey.enc]; wr; simp
    · simp only [toHclKey]; exact .expr l.full h4
termination_by structural x => x

theorem okItems (t : Raw) (ht : BlankText true (some t)) : ∀ (is : List EItem) {j : Bool}, LaidItems F bd j t is → ∃ u,
    Wr j (EExpr.encItems F is) u ∧ Items F.U bd (toHclItems F is) (u ++ decorText [] (some t))
  | [], j, _ => ⟨[], .str _, by simp only [toHclItems]; exact .nil ht⟩
  | .mk k v a z :: is, j, h => by
    simp only [LaidItems] at h
    obtain ⟨h1, h2, h3, h4, h5, h6, h7⟩ := h
    obtain ⟨g₁, t₁, g₁', e₁, i₁, i₁', l₁⟩ := okKey k h1
    obtain ⟨t₂, e₂, l₂, g₂, g₂'⟩ := ok v false h3
    obtain ⟨u, e₃, l₃⟩ := okItems t ht is h7
    have ha : a.enc = c!"=" ∨ a.enc = c!":" := by
      cases a
      · exact .inr rfl
      · exact .inl rfl
    have hg : Gap false (before c!" " v.getMeta ++ lead v) := (blanks_text h2 gap_blank).append g₂
    have he : Wr j (EExpr.encItems F (.mk k v a z :: is)) (g₁ ++ t₁ ++ g₁' ++ a.enc ++ (before c!" " v.getMeta ++ lead v) ++ t₂ ++
        (trail v ++ behind [] v.getMeta ++ (z.enc ++ u))) := by
      simp only [EExpr.encItems]; wr; simp
    refine ⟨_, he, ?_⟩
    simp only [toHclItems]
    cases z with
    | none =>
      obtain ⟨h8, h9, h10⟩ := h6 rfl
      subst h9
      have hu : u = [] := by
        simp only [EExpr.encItems] at e₃
        exact (e₃ false nofun).1.symm
      subst hu
      have := Items.last i₁ l₁ i₁' ha hg l₂.full ((g₂'.append (blanks_text h8 (d := []) .nil)).append h10)
      simp only [toHclItems]
      simpa [ItemEnd.enc, behind] using this
    | comma =>
      have := Items.cons i₁ l₁ i₁' ha hg l₂.full (g₂'.append (blanks_text (h4 rfl) (d := []) .nil)) .comma l₃
        fun _ h => absurd rfl h
      simpa [ItemEnd.enc, behind] using this
    | newline =>
      obtain ⟨h8, h9⟩ := h5 rfl
      obtain ⟨g, s, h10, h11, h12, -⟩ := eol_itemSep (eol_after g₂' h8)
      have := Items.cons i₁ l₁ i₁' ha hg l₂.full h11 h12 l₃ fun ho _ => items_notContinues l₃ (h9 ho)
      have h13 : trail v ++ (behind [] v.getMeta ++ ('\n' :: (u ++ decorText [] (some t)))) =
          g ++ (s ++ (u ++ decorText [] (some t))) := by
        have : ∀ x, trail v ++ (behind [] v.getMeta ++ ('\n' :: x)) = (trail v ++ (behind [] v.getMeta ++ c!"\n")) ++ x := by simp
        rw [this, h10]; simp
      simp only [List.append_assoc] at this ⊢
      simp only [ItemEnd.enc, List.cons_append, List.nil_append, h13]
      exact this
termination_by structural x => x

theorem okOp (nl : Bool) : ∀ (o : ETravOp) {j : Bool}, LaidOp F bd j nl o → ∃ t, Wr j (o.enc F) (t ++ trailOp o) ∧
    Step F.U bd (toHclOp F o) t ∧ Gap nl (trailOp o) ∧
    (∀ d ds, t = '.' :: d :: ds → ('0' ≤ d ∧ d ≤ '9') → ∃ m n, o = .legacyIndex m n)
  | .attrSplat m, j, h => by
    simp only [LaidOp] at h
    have hg : Gap true (before [] m) := blanks_text h.1 .nil
    refine ⟨c!"." ++ before [] m ++ c!"*", ?_, by simp only [toHclOp]; exact .attrSplat hg, blanks_text h.2 .nil, ?_⟩
    · simp only [ETravOp.enc]; wr; simp [trailOp]
    · intro d ds he hd
      exfalso
      cases hb : before [] m with
      | nil =>
        rw [hb] at he
        injection he with _ he
        injection he with he _
        subst he; revert hd; decide
      | cons c r =>
        rw [hb] at he hg
        injection he with _ he
        injection he with he _
        subst he
        rcases gap_head hg c r rfl with rfl | rfl | rfl | rfl | rfl | rfl <;> (revert hd; decide)
  | .fullSplat m, j, h => by
    simp only [LaidOp] at h
    refine ⟨_, ?_, by simp only [toHclOp]; exact .fullSplat (h.before (d := []) .nil) (h.behind (d := []) .nil), .nil, ?_⟩
    · simp only [ETravOp.enc]; wr; simp [trailOp]
    · intro d ds he
      injection he with he _
      exact absurd he (by decide)
  | .getAttr d, j, h => by
    simp only [LaidOp] at h
    have hg : Gap true (before [] d.m) := blanks_text h.2.1 .nil
    refine ⟨c!"." ++ before [] d.m ++ d.name, ?_, by simp only [toHclOp]; exact .getAttr hg h.1, blanks_text h.2.2 .nil, ?_⟩
    · simp only [ETravOp.enc]; wr; simp [trailOp]
    · intro x ds he hd
      exfalso
      cases hb : before [] d.m with
      | nil =>
        rw [hb] at he
        obtain ⟨c, cs, hn, -, hc⟩ := ident_headIs h.1
        rw [hn] at he
        injection he with _ he
        injection he with he _
        subst he
        have := hc rfl
        unfold isDigit at this
        exact of_decide_eq_false this hd
      | cons c r =>
        rw [hb] at he hg
        injection he with _ he
        injection he with he _
        subst he
        rcases gap_head hg c r rfl with rfl | rfl | rfl | rfl | rfl | rfl <;> (revert hd; decide)
  | .index e, j, h => by
    simp only [LaidOp] at h
    obtain ⟨g, t, g', e₁, i, i', l, -⟩ := (ok e true h.2).around (fun h => h) h.1 .nil .nil
    refine ⟨_, ?_, by simp only [toHclOp]; exact .index i l.full i', .nil, ?_⟩
    · simp only [ETravOp.enc]; wr; simp [trailOp]
    · intro d ds he
      injection he with he _
      exact absurd he (by decide)
  | .legacyIndex m n, j, h => by
    simp only [LaidOp] at h
    have hs := Step.legacyIndex (U := F.U) (bd := bd) (blanks_text h.2.1 (d := []) .nil) (natStr_digits n)
      (by rw [natStr_val]; exact h.1) (natStr_zero n)
    rw [natStr_val] at hs
    refine ⟨_, ?_, by simp only [toHclOp]; exact hs, blanks_text h.2.2 .nil, fun _ _ _ _ => ⟨m, n, rfl⟩⟩
    simp only [ETravOp.enc]; wr; simp [trailOp, before]
termination_by structural x => x

theorem okOps : ∀ (os : List ETrav) {j : Bool}, os ≠ [] → ∀ nl nl' : Bool, (nl = true → nl' = true) → LaidOps F bd j nl nl' os → ∃ u,
    Wr j (EExpr.encTravs F os) (u ++ trailOps os) ∧ (∀ g, Gap nl' g → Steps F.U bd nl' (toHclOps F os) (g ++ u)) ∧
    Gap nl (trailOps os) ∧ (∀ d ds, u = '.' :: d :: ds → ('0' ≤ d ∧ d ≤ '9') → bareLegacy os)
  | [], j, h, _, _, _, _ => absurd rfl h
  | [.mk m o], j, _, nl, nl', hm, h => by
    simp only [LaidOps] at h
    obtain ⟨h1, h2, h3, -⟩ := h
    obtain ⟨t, h4, h5, h6, h7⟩ := okOp nl o h3
    have hg : Gap nl' (before [] m) := blanks_text h1 .nil
    refine ⟨before [] m ++ t, ?_, fun g hh => ?_, h6.append (blanks_text h2 .nil), fun d ds he hd => ?_⟩
    · simp only [EExpr.encTravs]; wr; simp [trailOps]
    · simp only [toHclOps]
      have := Steps.one (hh.append hg) h5
      simpa using this
    · cases hb : before [] m with
      | nil =>
        rw [hb] at he
        obtain ⟨m', n, rfl⟩ := h7 d ds he hd
        exact hb
      | cons c r =>
        rw [hb] at he hg
        injection he with he _
        subst he
        exfalso
        rcases gap_head hg _ r rfl with h | h | h | h | h | h <;> (revert h; decide)
  | .mk m o :: o' :: os, j, _, nl, nl', hm, h => by
    rw [LaidOps] at h
    obtain ⟨h1, h2, h3, h0⟩ := h
    obtain ⟨t, h4, h5, h6, h7⟩ := okOp nl o h3
    obtain ⟨u, h8, h9, h10, -⟩ := okOps (o' :: os) nofun nl nl' hm h0
    have hg : Gap nl' (before [] m) := blanks_text h1 .nil
    refine ⟨before [] m ++ t ++ (trailOp o ++ behind [] m ++ u), ?_, fun g hh => ?_, h10, fun d ds he hd => ?_⟩
    · rw [EExpr.encTravs]; wr; simp [trailOps]
    · rw [toHclOps]
      have := Steps.cons (hh.append hg) h5 (h9 (trailOp o ++ behind [] m)
        ((h6.mono hm).append ((blanks_text h2 (d := []) .nil).mono hm)))
      simpa using this
    · cases hb : before [] m with
      | nil =>
        rw [hb] at he
        obtain ⟨x, y, r, hx⟩ := step_chars h5
        subst hx
        injection he with h h'
        injection h' with h' _
        subst h h'
        obtain ⟨m', n, rfl⟩ := h7 _ _ rfl hd
        exact hb
      | cons c r =>
        rw [hb] at he hg
        injection he with he _
        subst he
        exfalso
        rcases gap_head hg _ r rfl with h | h | h | h | h | h <;> (revert h; decide)
termination_by structural x => x

theorem okElems : ∀ (es : List EElem) {j : Bool} (q k : Bool) (nx : Option Char), (k = true → j = true) →
    LaidElems F bd j q k nx es →
    Tmpl F.U bd q (toHclElems F es) (EExpr.encElems F es k).1 ∧
      (∀ c, Sigil c → nx = some c → (EExpr.encElems F es k).1.getLast? ≠ some c) ∧ Begins (EExpr.encElems F es k).1 es
  | [], j, _, _, _, _, _ => by
    simp only [toHclElems, EExpr.encElems]
    exact ⟨.nil, nofun, rfl⟩
  | e :: es, j, q, k, nx, hk, h => by
    simp only [LaidElems] at h
    obtain ⟨h1, h2, h3⟩ := h
    obtain ⟨i1, i2, i3⟩ := okElems es q (k && noQuotedElem e) nx (and_hk hk) h3
    have he : (EExpr.encElems F (e :: es) k).1 = (e.enc F k).1 ++ (EExpr.encElems F es (k && noQuotedElem e)).1 := by
      rw [EExpr.encElems]; exact seq_text (flagElem e) k
    rw [he]
    simp only [toHclElems]
    cases hs : sigilOf e with
    | some c =>
      obtain ⟨j1, ⟨r, j2⟩, j3⟩ := okElem e q k c hs hk h1
      refine ⟨.control j1 i1, fun d hd hn => ?_, by rw [j2]; nofun, fun d hd => ?_⟩
      · cases es with
        | nil =>
          have : (EExpr.encElems F [] (k && noQuotedElem e)).1 = [] := i3
          rw [this, List.append_nil, j3]
          exact brace_not_sigil hd
        | cons e' es => rw [last_append i3.1]; exact i2 d hd hn
      · rw [hs] at hd
        cases hd
        exact ⟨r ++ _, by rw [j2]; rfl⟩
    | none =>
      cases e with
      | interp => cases hs
      | ifDir => cases hs
      | forDir => cases hs
      | lit sp s =>
        simp only [LaidElem] at h1
        simp only [EElem.enc, toHclElem]
        obtain ⟨h4, h5, h6⟩ := h1
        refine ⟨.lit (lit_text h5 h6) (lit_ne h4) ?_ (not_joined_last ?_) i1, fun d hd hn => ?_,
          fun h => lit_ne h4 (List.append_eq_nil_iff.mp h).1, fun d hd => by rw [hs] at hd; cases hd⟩
        · intro x hx
          cases es with
          | nil => cases hx
          | cons e' es =>
            simp only [toHclElems, List.head?_cons, Option.mem_some_iff] at hx
            subst hx
            have := h2.1
            cases e' <;> first | rfl | exact absurd rfl this
        · rintro c hc ⟨r, hr⟩ hl
          have hl := lit_last hc hl
          cases es with
          | nil => exact absurd (i3.symm.trans hr) nofun
          | cons e' es =>
            cases hs' : sigilOf e' with
            | none => exact h2.1 hs'
            | some d =>
              obtain ⟨r', hr'⟩ := i3.2 d hs'
              rw [hr] at hr'
              injection hr' with hcd _
              subst hcd
              exact h2.2 (hl.trans hs'.symm)
        · cases es with
          | nil =>
            have : (EExpr.encElems F [] (k && noQuotedElem (.lit sp s))).1 = [] := i3
            rw [this, List.append_nil]
            intro hl
            exact h2 ((lit_last hd hl).trans hn.symm)
          | cons e' es => rw [last_append i3.1]; exact i2 d hd hn
termination_by structural x => x

theorem okElem : ∀ (e : EElem) {j : Bool} (q k : Bool) (c : Char), sigilOf e = some c → (k = true → j = true) → LaidElem F bd j q k e →
    Control F.U bd (toHclElem F e) (e.enc F k).1 ∧ (∃ r, (e.enc F k).1 = c :: '{' :: r) ∧ (e.enc F k).1.getLast? = some '}'
  | .lit _ _, j, _, _, _, hs, _, _ => by cases hs
  | .interp _ e st, j, q, k, c, hs, hk, h => by
    simp only [LaidElem] at h
    cases hs
    obtain ⟨g, t, g', e₁, i, i', l, -⟩ := (ok e true h.2).around (fun h => h) h.1 (p := c!" ") gap_blank (s := c!" ") gap_blank
    have he := (e₁.strip (s := c!"${") (st := st) k hk).1
    simp only [EElem.enc, toHclElem]
    rw [he]
    refine ⟨?_, by simp, last_append (t := c!"}") nofun⟩
    have := Control.interp (i := st) i l.full i'
    simpa using this
  | .ifDir _ p x st _ t el ep et est, j, q, k, c, hs, hk, h => by
    simp only [LaidElem] at h
    cases hs
    obtain ⟨h1, h2, h3, h4, h5, h6, h7⟩ := h
    obtain ⟨g, u, g', e₁, i, i', l, -⟩ := (ok x false h3).around (b := true) nofun h2 (p := []) .nil (s := c!" ") gap_blank
    obtain ⟨j1, j2, -⟩ := okElems t false (k && noQuoted x) (some '%') (and_hk hk) h4
    obtain ⟨y, k1, k2, k3, k4⟩ := okElseOpt el (k && noQuoted x && noQuotedElems t) (and_hk (and_hk hk)) h5
    obtain ⟨z, m1, m2, ⟨r, m3⟩, m4⟩ := Wr.marker (j := true) (kw := c!"endif") (st := est) h6 h7
    have f1 : Fl (encStrip c!"%{" st (W.str (p.enc c!" " ++ c!"if") +> deco x.getMeta [] c!" " (x.core F))) (noQuoted x) := by
      have := flag (F := F) x
      fl; simp
    have w1 : Wr j (encStrip c!"%{" st (W.str (p.enc c!" " ++ c!"if") +> deco x.getMeta [] c!" " (x.core F)))
        (c!"%{" ++ openTilde st ++ (p.enc c!" " ++ c!"if" ++ (g ++ u ++ g')) ++ closeTilde st ++ c!"}") :=
      ((Wr.str _).seq e₁).strip
    have f2 := flagElems (F := F) t
    have f3 := flagElseOpt (F := F) el
    simp only [EElem.enc, toHclElem]
    rw [seq_text f1, (w1 k hk).1, seq_text f2, seq_text f3, k1, (m1 _ fun _ => rfl).1]
    refine ⟨?_, by simp, ?_⟩
    · have := Control.ifDir (i := st) (blanks_text h1 (d := c!" ") gap_blank) i l.full i' j1 k2 m2
        (not_joined_last ?_) (not_joined_last ?_)
      · simp only [raw_def]
        simpa using this
      · rintro c hc ⟨r', hr⟩
        refine j2 c hc ?_
        rcases k3 with rfl | ⟨r'', rfl⟩
        · rw [List.nil_append, m3] at hr
          injection hr with hr _
          rw [hr]
        · injection hr with hr _
          rw [hr]
      · rintro c hc ⟨r', hr⟩
        rw [m3] at hr
        injection hr with hr _
        subst hr
        exact k4
    · have hz : z ≠ [] := by rw [m3]; nofun
      rw [← m4]
      simp only [← List.append_assoc]
      exact last_append hz
  | .forDir _ p x v y st _ t ep et est, j, q, k, c, hs, hk, h => by
    simp only [LaidElem] at h
    cases hs
    obtain ⟨h1, h2, h3, h4, h5, h6, h7, h8⟩ := h
    obtain ⟨g, u, g', e₁, i, i', l, n, -⟩ := (ok y false h4).around (b := true) nofun h3 (p := c!" ") gap_blank (s := c!" ") gap_blank
    obtain ⟨j1, j2, -⟩ := okElems t false (k && noQuoted y) (some '%') (and_hk hk) h6
    obtain ⟨z, m1, m2, ⟨r, m3⟩, m4⟩ := Wr.marker (j := true) (kw := c!"endfor") (st := est) h7 h8
    obtain ⟨w, v1, v2⟩ : ∃ w, Wr j (encKeyVar x +> v.enc c!" " c!" ") w ∧ Vars F.U (x.map DIdent.name) v.name w := by
      obtain ⟨a1, a2, a3, a4⟩ := h2
      cases x with
      | none =>
        refine ⟨_, ?_, .value (a2.2.before (d := c!" ") gap_blank) a3 a2.1 (a2.2.behind (d := c!" ") gap_blank) a4⟩
        unfold encKeyVar; wr; simp
      | some d =>
        have a1 := a1 d rfl
        refine ⟨_, ?_, .keyValue (a1.2.before (d := c!" ") gap_blank) a3 a1.1 (a1.2.behind (d := []) .nil)
          (a2.2.before (d := c!" ") gap_blank) a2.1 (a2.2.behind (d := c!" ") gap_blank) a4⟩
        unfold encKeyVar; wr; simp
    have f1 : Fl (encStrip c!"%{" st (W.str (p.enc c!" " ++ c!"for") +> encKeyVar x +>
        v.enc c!" " c!" " +> W.str c!"in" +> deco y.getMeta c!" " c!" " (y.core F))) (noQuoted y) := by
      have := flag (F := F) y
      fl; simp
    have w1 : Wr j (encStrip c!"%{" st (W.str (p.enc c!" " ++ c!"for") +> encKeyVar x +>
        v.enc c!" " c!" " +> W.str c!"in" +> deco y.getMeta c!" " c!" " (y.core F)))
        (c!"%{" ++ openTilde st ++ (p.enc c!" " ++ c!"for" ++ (w ++ (c!"in" ++ (g ++ u ++ g')))) ++ closeTilde st ++ c!"}") := by
      have e : encKeyVar x +> v.enc c!" " c!" " +> W.str c!"in" +> deco y.getMeta c!" " c!" " (y.core F) =
          (encKeyVar x +> v.enc c!" " c!" ") +> W.str c!"in" +> deco y.getMeta c!" " c!" " (y.core F) := by
        funext b; simp [W.seq]
      rw [e]
      exact ((Wr.str _).seq (v1.seq ((Wr.str _).seq e₁))).strip
    have f2 := flagElems (F := F) t
    simp only [EElem.enc, toHclElem]
    rw [seq_text f1, (w1 k hk).1, seq_text f2, (m1 _ fun _ => rfl).1]
    refine ⟨?_, by simp, ?_⟩
    · have := Control.forDir (i := st) (blanks_text h1 (d := c!" ") gap_blank) v2 i (n h5) l.full i' j1 m2 (not_joined_last ?_)
      · simp only [raw_def]
        simpa using this
      · rintro c hc ⟨r', hr⟩
        rw [m3] at hr
        injection hr with hr _
        exact j2 c hc (by rw [hr])
    · have hz : z ≠ [] := by rw [m3]; nofun
      rw [← m4]
      simp only [← List.append_assoc]
      exact last_append hz
termination_by structural x => x

theorem okElseOpt : ∀ (x : Option EElse) {j : Bool} (k : Bool), (k = true → j = true) → LaidElseOpt F bd j k x → ∃ y, (EExpr.encElseOpt F x k).1 = y ∧
    Else F.U bd (toHclElseOpt F x) (elseStrip x) y ∧ (y = [] ∨ ∃ r, y = '%' :: r) ∧ y.getLast? ≠ some '%'
  | none, j, _, _, _ => by
    refine ⟨[], by simp only [EExpr.encElseOpt]; rfl, ?_, .inl rfl, nofun⟩
    simp only [toHclElseOpt]; exact .none
  | some x, j, k, hk, h => by
    simp only [LaidElseOpt] at h
    simp only [toHclElseOpt, EExpr.encElseOpt]
    exact okElse x k hk h
termination_by structural x => x

theorem okElse : ∀ (x : EElse) {j : Bool} (k : Bool), (k = true → j = true) → LaidElse F bd j k x → ∃ y, (EExpr.encElse F x k).1 = y ∧
    Else F.U bd (some (toHclElse F x)) (elseStrip (some x)) y ∧ (y = [] ∨ ∃ r, y = '%' :: r) ∧ y.getLast? ≠ some '%'
  | .mk p t st _ es, j, k, hk, h => by
    simp only [LaidElse] at h
    obtain ⟨h1, h2, h3⟩ := h
    obtain ⟨z, m1, m2, ⟨r, m3⟩, m4⟩ := Wr.marker (j := true) (kw := c!"else") (st := st) h1 h2
    obtain ⟨j1, j2, j3⟩ := okElems es false k (some '%') hk h3
    have he : (EExpr.encElse F (.mk p t st ‹_› es) k).1 = z ++ (EExpr.encElems F es k).1 := by
      rw [EExpr.encElse, seq_text Fl.marker, (m1 _ fun _ => rfl).1, Bool.and_true]
    refine ⟨_, he, ?_, .inr ⟨_, by rw [m3]; rfl⟩, ?_⟩
    · simp only [toHclElse, elseStrip]; exact .some m2 j1
    · cases es with
      | nil =>
        have : (EExpr.encElems F [] k).1 = [] := j3
        rw [this, List.append_nil, m4]
        decide
      | cons e es => rw [last_append j3.1]; exact j2 '%' (.inr rfl) rfl
termination_by structural x => x

end

/-! ### Bodies -/

theorem idEnd_apart {U : Uni} {t : Str} (h : IdEnd U t) : ∀ c r, t = c :: r → ¬ IdRest U c := by
  intro c r he hc
  have := h c r he
  rw [idRest_iff.mpr hc] at this
  cases this

theorem labels_enc : ∀ ls : List ELabel, LaidLabels F ls → ∃ g l, Wr false (encLabels ls) (g ++ l) ∧ Gap false g ∧
    Labels F.U (ls.map toHclLabel) l ∧
    ∀ g₀, Gap false g₀ → Separate g₀ ls → ∀ c r, (g₀ ++ g) ++ l = c :: r → ¬ IdRest F.U c
  | [], _ => ⟨[], [], .str _, .nil, .nil, fun g₀ h _ => idEnd_apart (by
      have := gap_idEnd (U := F.U) (u := []) h (.inl idEnd_nil)
      simpa using this)⟩
  | .ident d :: ls, h => by
    obtain ⟨h1, h2, h3⟩ := h
    obtain ⟨g, l, h4, h5, h6, h7⟩ := labels_enc ls h3
    have hb := h1.2.behind (d := c!" ") gap_blank
    refine ⟨before [] d.m, _, ?_, h1.2.before .nil, Labels.ident h1.1 (hb.append h5) h6 (h7 _ hb h2), fun g₀ hg hs => ?_⟩
    · simp only [encLabels, ELabel.enc]; wr; simp
    · exact idEnd_apart (gap_idEnd (hg.append (h1.2.before .nil)) (.inr hs))
  | .string m v :: ls, h => by
    obtain ⟨h1, h2, h3⟩ := h
    obtain ⟨g, l, h4, h5, h6, h7⟩ := labels_enc ls h3
    have hb := h2.behind (d := c!" ") gap_blank
    refine ⟨before [] m, _, ?_, h2.before .nil, Labels.string (string_enc h1) (hb.append h5) h6, fun g₀ hg _ => ?_⟩
    · simp only [encLabels, ELabel.enc, encQuoted]; wr; simp
    · refine idEnd_apart (gap_idEnd (hg.append (h2.before .nil)) (.inl ?_))
      simp only [List.append_assoc]
      exact idEnd_cons (by decide)

theorem Lev.around {e : EExpr} (hl : Laid F bd false false e) (ha : Around false e.getMeta) {p s : Str} (hp : Gap false p) (hs : Gap false s) :
    ∃ g t h, Wr false (e.enc F p s) (g ++ t ++ h) ∧ Gap false g ∧ Gap false h ∧ Full F.U bd false (toHcl F e) t := by
  obtain ⟨g, t, h, h1, h2, h3, h4, -⟩ := (ok e false hl).around (fun h => h) ha hp hs
  exact ⟨g, t, h, h1, h2, h3, h4.full⟩

theorem onOneLine_eq (o : Bool) (ss : List EStruct) : onOneLine o ss = (o && onelineOk ss) := by
  rcases ss with _ | ⟨s, _ | ⟨s', ss⟩⟩
  · simp [onOneLine, onelineOk]
  · cases s <;> simp [onOneLine, onelineOk]
  · cases s <;> simp [onOneLine, onelineOk]

mutual

theorem okStruct : ∀ s : EStruct, LaidStruct F bd s → ∃ g t h, Wr false (s.enc F [] []) (g ++ t ++ h ++ behind [] (ownMeta s)) ∧
    Gap true g ∧ Structure F.U bd (toHclStruct F s) t ∧ Gap false h
  | .attr m k v, h => by
    simp only [LaidStruct] at h
    obtain ⟨h1, h2, h3, h4, h5, h6⟩ := h
    obtain ⟨g, t, h', e, i, i', l⟩ := Lev.around h6 h5 (p := c!" ") gap_blank (s := []) .nil
    refine ⟨before [] m ++ before [] k.m, _, h', ?_, (blanks_text h1 .nil).append (blanks_text h3 .nil), by
      simp only [toHclStruct]; exact .attr h2 (blanks_text h4 (d := c!" ") gap_blank) i l, i'⟩
    simp only [EStruct.enc, encAttr]; wr; simp [ownMeta, behind]
  | .block m i ls b, h => by
    simp only [LaidStruct] at h
    obtain ⟨h1, h2, h3, h4, h5, h6, h7⟩ := h
    obtain ⟨g, l, h8, h9, h10, h11⟩ := labels_enc ls h6
    have hb : Gap false (behind c!" " i.m) := blanks_text h4 gap_blank
    obtain ⟨t, h12, h13⟩ := okBlock b h7
    have hs := h13 i.name (ls.map toHclLabel) (behind c!" " i.m ++ g) l h2 (hb.append h9) h10 (h11 _ hb h5)
    refine ⟨before [] m ++ before [] i.m, _, [], ?_, (blanks_text h1 .nil).append (blanks_text h3 .nil), by
      simp only [toHclStruct]; exact hs, .nil⟩
    cases b with
    | mk bm ss o om =>
    simp only at h12
    simp only [EStruct.enc]; wr; simp [ownMeta, behind]
termination_by structural x => x

theorem okBlock : ∀ b : EBody, LaidBlock F bd b → ∃ t,
    Wr false (match b with
      | .mk bm ss o _ => deco bm [] [] (if o && onelineOk ss then EStruct.encOneline F ss else W.str c!"\n" +> EStruct.encList F ss)) t ∧
    ∀ x ls g l, IsIdentifier F.U x → Gap false g → Labels F.U ls l → (∀ c r, g ++ l = c :: r → ¬ IdRest F.U c) →
      Structure F.U bd (.block x ls (toHclBody F b)) (x ++ g ++ l ++ c!"{" ++ t ++ c!"}")
  | .mk bm ss o _, h => by
    simp only [LaidBlock, onOneLine_eq] at h
    cases ho : (o && onelineOk ss) with
    | false =>
      obtain ⟨h1, h2, h3, h4⟩ := h.2 ho
      obtain ⟨w, h5, h6⟩ := okLines ss h3
      refine ⟨before [] bm ++ c!"\n" ++ (w ++ behind [] bm), ?_, fun x ls g l hx hg hl hi => ?_⟩
      · show Wr false (deco bm [] [] (if (o && onelineOk ss) = true then _ else _)) _
        simp only [ho, Bool.false_eq_true, if_false]
        wr; simp
      · simp only [toHclBody]
        have := Structure.block hx hg hl hi h1 (h6 [] _ .nil (blanks_text h2 (d := []) .nil)) h4
        simpa [behind] using this
    | true =>
      obtain ⟨h1, h2⟩ := h.1 ho
      match ss, h2, ho with
      | [], _, ho =>
        refine ⟨before [] bm ++ behind [] bm, ?_, fun x ls g l hx hg hl hi => ?_⟩
        · show Wr false (deco bm [] [] (if (o && onelineOk []) = true then _ else _)) _
          simp only [ho, if_true, EStruct.encOneline]
          wr; simp
        · simp only [toHclBody, toHclStructs]
          exact Structure.emptyBlock hx hg hl hi ((h1.before .nil).append (h1.behind .nil))
      | [.attr m k v], h2, ho =>
        obtain ⟨h3, h4, h5, h6⟩ := h2
        obtain ⟨g₁, t, g₁', e, i, i', lf⟩ := Lev.around h6 h5 (p := c!" ") gap_blank (s := []) .nil
        refine ⟨before [] bm ++ (before c!" " m ++ (before [] k.m ++ k.name ++ behind c!" " k.m ++ c!"=" ++ (g₁ ++ t ++ g₁')) ++
          behind c!" " m) ++ behind [] bm, ?_, fun x ls g l hx hg hl hi => ?_⟩
        · show Wr false (deco bm [] [] (if (o && onelineOk [.attr m k v]) = true then _ else _)) _
          simp only [ho, if_true, EStruct.encOneline, EStruct.enc, encAttr]
          wr; simp
        · simp only [toHclBody, toHclStructs, toHclStruct]
          have := Structure.oneLine hx hg hl hi
            (((h1.before .nil).append (h3.before (d := c!" ") gap_blank)).append (h4.2.before .nil)) h4.1
            (h4.2.behind (d := c!" ") gap_blank) i lf
            (i'.append ((h3.behind (d := c!" ") gap_blank).append (h1.behind .nil)))
          simpa using this
      | .block _ _ _ _ :: _, _, ho => cases o <;> cases ho
      | .attr _ _ _ :: _ :: _, _, ho => cases o <;> cases ho
termination_by structural x => x

theorem okLines : ∀ ss : List EStruct, LaidLines F bd false ss → ∃ w, Wr false (EStruct.encList F ss) w ∧
    ∀ g₀ g, Gap true g₀ → Gap true g → Body F.U bd (toHclStructs F ss) (g₀ ++ (w ++ g))
  | [], _ => ⟨[], .str _, fun g₀ g h h' => by simp only [toHclStructs]; exact .nil (h.append h')⟩
  | s :: ss, h => by
    simp only [LaidLines] at h
    obtain ⟨h1, h2, h3⟩ := h
    obtain ⟨g, t, h', e, i, l, i'⟩ := okStruct s h1
    obtain ⟨w, h4, h5⟩ := okLines ss h3
    refine ⟨g ++ t ++ (h' ++ (behind [] (ownMeta s) ++ c!"\n")) ++ w, ?_, fun g₀ k hg hk => ?_⟩
    · simp only [EStruct.encList]; wr; simp
    · simp only [toHclStructs]
      have := Body.cons (hg.append i) l (eol_after i' h2) (h5 [] k .nil hk)
      simpa using this
termination_by structural x => x

end

/-- The lines of a document whose last line has no line ending. -/
theorem okLast : ∀ ss : List EStruct, ss ≠ [] → LaidLines F bd true ss → ∃ w, Wr false (encStructs F true ss) w ∧
    ∀ g₀ g, Gap true g₀ → Gap false g → ∃ ss' s u t h, toHclStructs F ss = ss' ++ [s] ∧ g₀ ++ (w ++ g) = u ++ t ++ h ∧
      Body F.U bd ss' u ∧ Structure F.U bd s t ∧ Gap false h
  | [], h, _ => absurd rfl h
  | [s], _, h => by
    simp only [LaidLines] at h
    obtain ⟨h1, h2, -⟩ := h
    obtain ⟨g, t, h', e, i, l, i'⟩ := okStruct s h1
    refine ⟨g ++ t ++ h' ++ behind [] (ownMeta s), ?_, fun g₀ k hg hk => ⟨[], _, g₀ ++ g, t,
      h' ++ behind [] (ownMeta s) ++ k, ?_, ?_, .nil (hg.append i), l, (i'.append (blanks_text h2 .nil)).append hk⟩⟩
    · simp only [encStructs]; wr; simp
    · simp only [toHclStructs]; rfl
    · simp
  | s :: s' :: ss, _, h => by
    rw [LaidLines] at h
    obtain ⟨h1, h2, h3⟩ := h
    obtain ⟨g, t, h', e, i, l, i'⟩ := okStruct s h1
    obtain ⟨w, h4, h5⟩ := okLast (s' :: ss) nofun h3
    refine ⟨g ++ t ++ (h' ++ (behind [] (ownMeta s) ++ c!"\n")) ++ w, ?_, fun g₀ k hg hk => ?_⟩
    · rw [encStructs]; wr; simp
    · obtain ⟨ss', x, u, v, z, h6, h7, h8, h9, h10⟩ := h5 [] k .nil hk
      refine ⟨toHclStruct F s :: ss', x, (g₀ ++ g) ++ t ++ (h' ++ (behind [] (ownMeta s) ++ c!"\n")) ++ u, v, z, ?_, ?_,
        .cons (hg.append i) l (eol_after i' h2) h8, h9, h10⟩
      · rw [toHclStructs, h6]; rfl
      · simp only [List.append_assoc, List.nil_append] at h7 ⊢
        rw [h7]

theorem encStructs_lines : ∀ ss : List EStruct, encStructs F false ss = EStruct.encList F ss
  | [] => rfl
  | s :: ss => by rw [encStructs, EStruct.encList, encStructs_lines ss]; simp

theorem body_doc {b : EBody} (h : LaidBody F bd b) : Doc F.U bd (toHclBody F b) (b.show F) := by
  obtain ⟨m, ss, o, om⟩ := b
  obtain ⟨h1, h2, h3, h4⟩ := h
  simp only [toHclBody]
  have hp : Gap true (before [] m) := blanks_text h3 .nil
  have lines : LaidLines F bd false ss → BlankText true m.decor.suf → encStructs F om ss = EStruct.encList F ss →
      Doc F.U bd (toHclStructs F ss) (EBody.show F (.mk m ss o om)) := by
    intro h5 h6 h7
    obtain ⟨w, h8, h9⟩ := okLines ss h5
    have := Doc.lines (h9 _ _ hp (blanks_text h6 (d := []) .nil)) h2
    show Doc F.U bd _ (deco m [] [] (encStructs F om ss) false).1
    rw [h7, (h8.deco false nofun).1]
    exact this
  cases om with
  | false => exact lines h1 h4 (encStructs_lines ss)
  | true =>
    cases ss with
    | nil => exact lines (by simp only [LaidLines]) h4 rfl
    | cons s ss =>
      obtain ⟨w, h5, h6⟩ := okLast (s :: ss) nofun h1
      obtain ⟨ss', x, u, t, h, h7, h8, h9, h10, h11⟩ := h6 _ _ hp (blanks_text h4 (d := []) .nil)
      show Doc F.U bd _ (deco m [] [] (encStructs F true (s :: ss)) false).1
      rw [(h5.deco false nofun).1]
      show Doc F.U bd _ (before [] m ++ (w ++ behind [] m))
      rw [h7] at h2 ⊢
      have : before [] m ++ (w ++ behind [] m) = u ++ t ++ h := h8
      rw [this]
      exact .last h9 h10 h11 h2

theorem expr_full {e : EExpr} (h : Laid F bd false false e) (h1 : before [] e.getMeta ++ lead e = [])
    (h2 : trail e ++ behind [] e.getMeta = []) : Full F.U bd false (toHcl F e) (e.show F) := by
  obtain ⟨t, h3, h4, -, -⟩ := ok e false h
  have : e.show F = t := by
    unfold EExpr.show EExpr.enc
    refine (h3.deco false nofun).1.trans ?_
    show before [] e.getMeta ++ (lead e ++ t ++ trail e ++ behind [] e.getMeta) = t
    have : before [] e.getMeta ++ (lead e ++ t ++ trail e ++ behind [] e.getMeta) =
      (before [] e.getMeta ++ lead e) ++ t ++ (trail e ++ behind [] e.getMeta) := by simp
    rw [this, h1, h2]
    simp
  rw [this]
  exact h4.full

end Verif.Gram
