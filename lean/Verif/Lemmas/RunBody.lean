import Verif.Lemmas.RunExpr
/-! Running the parser on attributes, blocks and bodies. -/

namespace Verif.Gram
open P Spec Syn

variable {E : PEnv} {R : PRec} {m : Nat}

/-! ### The meaning -/

theorem _root_.Verif.Spec.MeansStruct.mapMeta {v : EStruct} {s : Struct} (h : MeansStruct E.U E.bd v s)
    (g : Meta → Meta) : MeansStruct E.U E.bd (v.mapMeta g) s := by
  cases h with
  | attr h => exact .attr h
  | block h k => exact .block h k

theorem _root_.Verif.Spec.MeansBody.mapMeta {v : EBody} {s : List Struct} (h : MeansBody E.U E.bd v s)
    (g : Meta → Meta) : MeansBody E.U E.bd (v.mapMeta g) s := by
  cases h with
  | mk h => exact .mk h

theorem den_attr {mm : Meta} {d : DIdent} {x : Str} {v : EExpr} {e : Expr} (hd : d.name = x) (h : Means E.U E.bd v e) :
    MeansStruct E.U E.bd (.attr mm d v) (.attr x e) := hd ▸ .attr h

theorem den_block {mm : Meta} {d : DIdent} {x : Str} {vs : List ELabel} {ls : List Label} {v : EBody}
    {ss : List Struct} (hd : d.name = x) (hl : MeansLabels vs ls) (h : MeansBody E.U E.bd v ss) :
    MeansStruct E.U E.bd (.block mm d vs v) (.block x ls ss) := hd ▸ .block hl h

/-! ### Line endings -/

theorem backs_lineComment {u : Str} (h1 : ∀ x, u ≠ '#' :: x) (h2 : ∀ x, u ≠ '/' :: x) : Backs lineComment u := by
  unfold lineComment
  cases u with
  | nil => exact Backs.bind fun _ => ⟨_, rfl⟩
  | cons c u =>
    refine Runs.bind_backs (t := []) (Runs.peek (t := [c]) (r := u) runs_any) ?_
    rintro _ rfl
    rw [if_neg (fun h => h1 u (by rw [h])), if_neg (fun h => h2 u (by rw [h]))]
    exact backs_fail

theorem backs_lineEnding {u : Str} (h1 : ∀ x, u ≠ '\n' :: x) (h2 : ∀ x, u ≠ '\r' :: x) : Backs lineEnding u := by
  intro pos
  cases u with
  | nil => exact ⟨_, rfl⟩
  | cons c u =>
    refine ⟨⟨pos, c :: u⟩, ?_⟩
    unfold lineEnding
    dsimp only
    split
    · rename_i h; injection h with h _; exact absurd (by rw [h]) (h1 u)
    · rename_i h; injection h with h _; exact absurd (by rw [h]) (h2 u)
    · rfl

/-- The end of a line is whitespace and an optional comment, and the line ending. -/
theorem eol_split {e : Str} (h : Eol e) : ∃ x n, e = x ++ n ∧ (n = c!"\n" ∨ n = c!"\r\n") ∧ ∀ r,
    Runs lineEnd x (n ++ r) fun _ => True := by
  cases h with
  | @plain g e hg he =>
    refine ⟨g, e, rfl, he, fun r => ?_⟩
    obtain ⟨c, cs, rfl, hc⟩ := lineEnd_head he
    unfold lineEnd
    refine Runs.bind_last (runs_sp hg (newline_starts hc)) fun _ _ => ?_
    refine Runs.bind_nil (Backs.opt (R := fun _ => True) (backs_lineComment ?_ ?_) trivial) fun _ _ => .pure trivial
    · rintro x h; injection h with h _; subst h; rcases hc with h | h <;> cases h
    · rintro x h; injection h with h _; subst h; rcases hc with h | h <;> cases h
  | @line g x e hg hx he =>
    refine ⟨g ++ x, e, rfl, he, fun r => ?_⟩
    unfold lineEnd
    refine Runs.bind (runs_sp hg (by rw [← List.append_nil x, List.append_assoc]; exact lineComment_starts hx)) fun _ _ => ?_
    exact Runs.bind_last (Runs.opt (R := fun _ => True) (runs_lineComment hx (lineEnd_at he)) fun _ _ => trivial)
      fun _ _ => .pure trivial

theorem eol_gap {e : Str} (h : Eol e) : Gap true e ∧ e ≠ [] := by
  cases h with
  | @plain g e hg he =>
    refine ⟨(hg.mono nofun).append ?_, ?_⟩
    · rcases he with rfl | rfl
      · exact .newline (.inl rfl) .nil
      · exact .newline (.inr rfl) (.newline (.inl rfl) .nil)
    · obtain ⟨c, cs, rfl, _⟩ := lineEnd_head he
      simp
  | @line g x e hg hx he =>
    refine ⟨?_, ?_⟩
    · rw [List.append_assoc]
      exact (hg.mono nofun).append (by simpa using Gap.line hx he .nil)
    · obtain ⟨c, cs, rfl, _⟩ := lineEnd_head he
      simp

/-- What follows an expression at the end of a line. -/
theorem eol_fol {U : Uni} {b : Bool} {e g u : Str} (h : Eol e) (hg : Over u true g) (hu : QuietE true u) :
    FolE U b (e ++ (g ++ u)) := by
  obtain ⟨h1, h2⟩ := eol_gap h
  rw [← List.append_assoc]
  have ho := h1.overAppend hg
  exact FolE.down (b := true) ⟨over_idEnd ho (.inr (by simp [h2])), _, _, rfl, ho, hu⟩ fun _ => rfl

/-! ### Labels -/

theorem idEnd_of {U : Uni} {g c r : Str} (h : ∀ d ds, g = d :: ds → ¬ IdRest U d) (hc : IdEnd U (c ++ r)) :
    IdEnd U (g ++ (c ++ r)) := by
  intro d ds hd
  cases g with
  | nil => exact hc d ds hd
  | cons x g =>
    injection hd with hd _
    subst hd
    cases hx : isIdContinue U x with
    | false => rfl
    | true => exact absurd (idRest_iff.mp hx) (h _ _ rfl)

theorem labels_solid {ls : List Label} {l r : Str} (h : Labels E.U ls l) {b : Bool} :
    ¬ StartsTrivia b (l ++ '{' :: r) := by
  cases h with
  | nil => exact solid_starts rfl
  | ident hx _ _ _ => simp only [List.append_assoc]; exact ((ident_starts hx).append _).solid
  | string _ _ _ => simp only [List.append_assoc]; exact solid_starts rfl

theorem backs_ident {U : Uni} {u : Str} (h : ∀ c cs, u = c :: cs → isIdStart U c = false) : Backs (ident U) u := by
  unfold ident strIdent
  exact Backs.map (Backs.bind (backs_oneOf h))

theorem run_labels {r : Str} : ∀ {ls : List Label} {l : Str}, Labels E.U ls l →
    Reps (suffixDecorated (blockLabel E) sp) (fun vs => MeansLabels vs ls) l ('{' :: r) := by
  intro ls l h
  induction h with
  | nil =>
    refine .nil ?_ .nil
    unfold suffixDecorated blockLabel
    refine Backs.bind (Backs.map (Backs.withSpan (Backs.alt (Backs.map ?_) (Backs.map (backs_ident ?_)))))
    · unfold quotedString
      exact Backs.bind (backs_chr fun x h => by injection h with h _; cases h)
    · rintro c cs h
      injection h with h _
      subst h
      exact nonId_start rfl
  | @ident x ls g t hx hg ht hid ih =>
    refine .cons ?_ (runs_suffixDecorated (Q := fun v => ∃ d : DIdent, v = .ident d ∧ d.name = x)
      (R := fun v => ∃ d : DIdent, v = .ident d ∧ d.name = x) ?_ (runs_sp hg (labels_solid ht)) ?_) ?_
    · intro h
      exact (ident_starts hx).ne_nil (List.append_eq_nil_iff.mp h).1
    · unfold blockLabel
      refine Runs.alt_right (Backs.map ?_) (Runs.map ?_)
      · unfold quotedString
        refine Backs.bind (backs_chr fun z hz => ?_)
        obtain ⟨c, cs, rfl, hc, _⟩ := hx
        injection hz with hz _
        subst hz
        have := idFirst_iff.mpr hc
        rw [nonId_start rfl] at this
        cases this
      · refine (runs_ident hx ?_).conseq fun v hv => ⟨_, rfl, hv⟩
        have := idEnd_of (U := E.U) (c := ['{']) (r := r) hid (idEnd_cons rfl)
        rw [List.append_assoc] at this
        exact this
    · rintro _ f f' ⟨d, rfl, hd⟩
      exact ⟨_, rfl, hd⟩
    · rintro _ ⟨d, rfl, hd⟩
      exact ih.conseq fun vs hvs => .cons (hd ▸ .ident) hvs
  | @string v ls q g t hq hg ht ih =>
    rw [show c!"\"" ++ q ++ c!"\"" ++ g ++ t = (('"' :: (q ++ ['"'])) ++ g) ++ t by asc]
    refine .cons nofun (runs_suffixDecorated (Q := fun w => ∃ mm, w = .string mm v)
      (R := fun w => ∃ mm, w = .string mm v) ?_ (runs_sp hg (labels_solid ht)) ?_) ?_
    · unfold blockLabel
      refine Runs.alt_left (Runs.map ((runs_quotedString hq _).conseq ?_))
      rintro _ rfl
      exact ⟨_, rfl⟩
    · rintro _ f f' ⟨mm, rfl⟩
      exact ⟨_, rfl⟩
    · rintro _ ⟨mm, rfl⟩
      exact ih.conseq fun vs hvs => .cons .string hvs

/-! ### Structures -/

/-- The recursive parsers, with bodies. -/
structure GoodB (E : PEnv) (R : PRec) (m : Nat) : Prop extends Good E R m where
  body : ∀ {ss t}, Body E.U E.bd ss t → (attrKeys ss).Nodup → t.length < m → ∀ {r},
    Runs R.body t ('}' :: r) fun v => MeansBody E.U E.bd v ss

theorem run_attributeExpr (HG : Good E R m) {e : Expr} {h t r : Str} (hh : Gap false h)
    (ht : Full E.U E.bd false e t) (hm : t.length < m) (hr : FolE E.U (opens e) r) :
    Runs (attributeExpr R) ('=' :: (h ++ t)) r fun v => Means E.U E.bd v e := by
  unfold attributeExpr
  refine Runs.preceded (t := ['=']) (u := h ++ t) runs_chr.cutErr ?_
  exact runs_prefixDecorated (Q := fun v => Means E.U E.bd v e) (runs_sp hh ((full_starts ht).append r).solid)
    (HG.expr ht hm id (by simpa using hr)) fun _ _ _ hv => (hv.mapMeta _).mapMeta _

/-- The blocks: what is between the braces. -/
theorem run_blockBody {c r : Str} {ss : List Struct}
    (h : Runs (alt (prefixDecorated lineEnd (preceded lineEnding R.body)) (onelineBody E R)) c ('}' :: r)
      fun v => MeansBody E.U E.bd v ss) : Runs (blockBody E R) ('{' :: (c ++ ['}'])) r fun v => MeansBody E.U E.bd v ss := by
  unfold blockBody
  exact Runs.delimited (t := ['{']) (u := c) (w := ['}']) runs_chr.cutErr h runs_chr.cutErr

theorem run_linesBody (HG : GoodB E R m) {ss : List Struct} {e t r : Str} (he : Eol e) (ht : Body E.U E.bd ss t)
    (hn : (attrKeys ss).Nodup) (hm : t.length < m) :
    Runs (blockBody E R) ('{' :: ((e ++ t) ++ ['}'])) r fun v => MeansBody E.U E.bd v ss := by
  refine run_blockBody (Runs.alt_left ?_)
  obtain ⟨x, n, rfl, hn', hx⟩ := eol_split he
  rw [List.append_assoc]
  refine runs_prefixDecorated (Q := fun v => MeansBody E.U E.bd v ss) (by rw [List.append_assoc]; exact hx _)
    (Runs.preceded (runs_lineEnding hn') (HG.body ht hn hm)) fun _ _ _ hv => (hv.mapMeta _).mapMeta _

/-- A one-line block does not start with the end of a line. -/
theorem backs_linesBody {g u : Str} (hg : Gap false g) (hs : ¬ StartsTrivia false u)
    (h1 : ∀ x, u ≠ '#' :: x) (h2 : ∀ x, u ≠ '/' :: x) (h3 : ∀ x, u ≠ '\n' :: x) (h4 : ∀ x, u ≠ '\r' :: x) :
    Backs (prefixDecorated lineEnd (preceded lineEnding R.body)) (g ++ u) := by
  unfold prefixDecorated
  refine Runs.bind_backs (Q := fun _ => True) (t := g) (Runs.conseq (Runs.spanOf (Q := fun _ => True) ?_) fun _ _ => trivial) fun _ _ =>
    Backs.bind (Backs.map (Backs.withSpan (Backs.bind (backs_lineEnding h3 h4))))
  unfold lineEnd
  refine Runs.bind_last (runs_sp hg hs) fun _ _ => ?_
  exact Runs.bind_nil (Backs.opt (R := fun _ => True) (backs_lineComment h1 h2) trivial) fun _ _ => .pure trivial

theorem run_emptyBody {h r : Str} (hh : Gap false h) :
    Runs (blockBody E R) ('{' :: (h ++ ['}'])) r fun v => MeansBody E.U E.bd v [] := by
  refine run_blockBody (Runs.alt_right (backs_linesBody hh (solid_starts rfl) nofun nofun nofun nofun) ?_)
  unfold onelineBody
  refine Runs.bind_nil (Backs.opt (R := fun o => o = none) ?_ rfl) ?_
  · unfold decorated attributeP suffixDecorated
    refine Runs.bind_backs (runs_sp hh (solid_starts rfl)).spanOf fun _ _ =>
      Backs.bind (Backs.map (Backs.withSpan (Backs.bind (Backs.bind (Backs.map (Backs.withSpan (backs_ident ?_)))))))
    rintro c cs h
    injection h with h _
    subst h
    exact nonId_start rfl
  · rintro _ rfl
    exact Runs.bind_last (runs_rawSp hh (solid_starts rfl)) fun _ _ => .pure (.mk .nil)

theorem run_lineBody (HG : GoodB E R m) {y h₁ h₂ h₃ t h₄ r : Str} {e : Expr} (hh₁ : Gap false h₁)
    (hy : IsIdentifier E.U y) (hh₂ : Gap false h₂) (hh₃ : Gap false h₃) (ht : Full E.U E.bd false e t)
    (hh₄ : Gap false h₄) (hm : t.length < m) :
    Runs (blockBody E R) ('{' :: ((h₁ ++ ((y ++ h₂) ++ ('=' :: (h₃ ++ t)) ++ h₄)) ++ ['}'])) r
      fun v => MeansBody E.U E.bd v [.attr y e] := by
  have hs := ident_starts hy
  refine run_blockBody (Runs.alt_right ?_ ?_)
  · rw [List.append_assoc]
    refine backs_linesBody hh₁ ?_ ?_ ?_ ?_ ?_
    all_goals simp only [List.append_assoc]
    · exact (hs.append _).solid
    all_goals exact (hs.append _).ne rfl
  · unfold onelineBody
    refine Runs.bind_last (Runs.opt (Q := fun v => MeansStruct E.U E.bd v (.attr y e))
      (R := fun o => ∃ v, o = some v ∧ MeansStruct E.U E.bd v (.attr y e)) ?_ fun v hv => ⟨v, rfl, hv⟩) ?_
    · refine runs_decorated (Q := fun v => MeansStruct E.U E.bd v (.attr y e)) (A := fun _ => True) (B := fun _ => True)
        (runs_sp hh₁ ?_) ?_ (runs_sp hh₄ (solid_starts rfl)) fun _ _ _ hv => (hv.mapMeta _).mapMeta _
      · simp only [List.append_assoc]; exact (hs.append _).solid
      · unfold attributeP
        refine Runs.bind (runs_suffixDecorated (Q := fun d : DIdent => d.name = y) (R := fun d : DIdent => d.name = y)
          (runs_ident hy (gap_idEnd hh₂ (.inl (idEnd_cons rfl)))) (runs_sp hh₂ (solid_starts rfl))
          fun _ _ _ h => h) fun d hd => ?_
        refine Runs.bind_last (run_attributeExpr HG.toGood hh₃ ht hm ?_) fun v hv => .pure (den_attr hd hv)
        exact folE_of (hh₄.mono nofun) (quiet_calm rfl) (.inl (idEnd_cons rfl))
    · rintro _ ⟨v, rfl, hv⟩
      refine Runs.bind_last (runs_rawSp .nil (solid_starts rfl)) fun _ _ => .pure (.mk (.cons hv .nil))

/-- The attribute keys after a structure. -/
def addKey (keys : List Str) : Struct → List Str
  | .attr k _ => k :: keys
  | .block _ _ _ => keys

/-- A block, given a run of its body. -/
theorem run_block {keys : List Str} {x : Str} {ls : List Label} {ss : List Struct} {g l c r : Str}
    (hx : IsIdentifier E.U x) (hg : Gap false g) (hl : Labels E.U ls l)
    (hid : ∀ c r, g ++ l = c :: r → ¬ IdRest E.U c)
    (hb : Runs (blockBody E R) ('{' :: c) r fun v => MeansBody E.U E.bd v ss) :
    Runs (structureP E R keys) (x ++ (g ++ (l ++ '{' :: c))) r
      fun v => MeansStruct E.U E.bd v.1 (.block x ls ss) ∧ v.2 = keys := by
  unfold structureP
  refine runs_getInput fun start => ?_
  refine Runs.bind_nil (Q := fun _ => True) ?_ fun _ _ => ?_
  · obtain ⟨c, cs, rfl, hc, _⟩ := hx
    exact (Runs.peek (t := [c]) (runs_oneOf (idFirst_iff.mpr hc))).conseq fun _ _ => trivial
  refine Runs.bind (runs_strIdent hx ?_).cutErr.withSpan ?_
  · have := idEnd_of (U := E.U) (c := ['{']) (r := c ++ r) hid (idEnd_cons rfl)
    simp only [List.append_assoc] at this ⊢
    exact this
  rintro ⟨x', xs⟩ h
  dsimp only at h
  subst h
  refine Runs.bind (runs_rawSp hg (by rw [List.append_assoc]; exact labels_solid hl)) fun suf _ => ?_
  have hlr := run_labels (E := E) (r := c ++ r) hl
  cases hl with
  | nil =>
    refine peek_head ?_
    rw [if_neg (by decide), if_pos rfl]
    refine Runs.bind_last hb fun v hv => ?_
    exact runs_getInput fun fin => .pure ⟨den_block rfl .nil hv, rfl⟩
  | @ident y ls g' t hy hg' ht hid' =>
    have hrun := Runs.bind (f := fun vs : List ELabel => P.bind (blockBody E R) fun b => P.bind getInput fun fin =>
      P.pure (EStruct.block (Meta.setSpan ⟨start.pos, fin.pos⟩ {}) ⟨(Meta.setSuf suf {}).setSpan xs, x'⟩ vs b, keys))
      (u := '{' :: c) (R := fun v : EStruct × List Str => MeansStruct E.U E.bd v.1 (.block x' (.ident y :: ls) ss) ∧ v.2 = keys)
      hlr.runs fun vs hvs => Runs.bind_last hb fun v hv =>
        runs_getInput fun fin => .pure ⟨den_block rfl hvs hv, rfl⟩
    obtain ⟨d, ds, rfl, hd, _⟩ := hy
    have hd' := idFirst_iff.mpr hd
    have key : ∀ k, nonId k = true → d ≠ k := by
      rintro k hk rfl
      rw [nonId_start hk] at hd'; cases hd'
    refine peek_head (c := d) (cs := ds ++ g' ++ t ++ '{' :: c) ?_
    rw [if_neg (key '=' rfl), if_neg (key '{' rfl), if_pos (.inr hd')]
    exact hrun
  | @string v ls q g' t hq hg' ht =>
    have hrun := Runs.bind (f := fun vs : List ELabel => P.bind (blockBody E R) fun b => P.bind getInput fun fin =>
      P.pure (EStruct.block (Meta.setSpan ⟨start.pos, fin.pos⟩ {}) ⟨(Meta.setSuf suf {}).setSpan xs, x'⟩ vs b, keys))
      (u := '{' :: c) (R := fun w : EStruct × List Str => MeansStruct E.U E.bd w.1 (.block x' (.string v :: ls) ss) ∧ w.2 = keys)
      hlr.runs fun vs hvs => Runs.bind_last hb fun v hv =>
        runs_getInput fun fin => .pure ⟨den_block rfl hvs hv, rfl⟩
    refine peek_head (c := '"') (cs := q ++ c!"\"" ++ g' ++ t ++ '{' :: c) ?_
    rw [if_neg (by decide), if_neg (by decide), if_pos (.inl rfl)]
    exact hrun

theorem run_structure (HG : GoodB E R m) {keys : List Str} {s : Struct} {t r : Str} (h : Structure E.U E.bd s t)
    (hm : t.length ≤ m) (hk : ∀ k ∈ attrKeys [s], k ∉ keys) (hr : ∀ b, FolE E.U b r) :
    Runs (structureP E R keys) t r fun v => MeansStruct E.U E.bd v.1 s ∧ v.2 = addKey keys s := by
  cases h with
  | @attr x e g h t hx hg hh ht =>
    simp only [List.length_append, List.length_cons, List.length_nil] at hm
    rw [show x ++ g ++ c!"=" ++ h ++ t = x ++ (g ++ ('=' :: (h ++ t))) by asc]
    unfold structureP
    refine runs_getInput fun start => ?_
    refine Runs.bind_nil (Q := fun _ => True) ?_ fun _ _ => ?_
    · obtain ⟨c, cs, rfl, hc, _⟩ := hx
      exact (Runs.peek (t := [c]) (runs_oneOf (idFirst_iff.mpr hc))).conseq fun _ _ => trivial
    refine Runs.bind (runs_strIdent hx ?_).cutErr.withSpan ?_
    · rw [List.append_assoc]
      exact gap_idEnd hg (.inl (idEnd_cons rfl))
    rintro ⟨x', xs⟩ h
    dsimp only at h
    subst h
    refine Runs.bind (runs_rawSp hg (solid_starts rfl)) fun suf _ => ?_
    refine peek_head ?_
    rw [if_pos rfl, if_neg (hk _ (List.mem_cons_self ..))]
    refine Runs.bind_last (run_attributeExpr HG.toGood hh ht (by omega) (hr _)) fun v hv => ?_
    exact runs_getInput fun fin => .pure ⟨den_attr rfl hv, rfl⟩
  | @block x ls b g l e t hx hg hl hid he hb hn =>
    simp only [List.length_append, List.length_cons, List.length_nil] at hm
    rw [show x ++ g ++ l ++ c!"{" ++ e ++ t ++ c!"}" = x ++ (g ++ (l ++ '{' :: ((e ++ t) ++ ['}']))) by asc]
    exact run_block hx hg hl hid (run_linesBody HG he hb hn (by omega))
  | @emptyBlock x ls g l h hx hg hl hid hh =>
    rw [show x ++ g ++ l ++ c!"{" ++ h ++ c!"}" = x ++ (g ++ (l ++ '{' :: (h ++ ['}']))) by asc]
    exact run_block hx hg hl hid (run_emptyBody hh)
  | @oneLine x ls y e g l h₁ h₂ h₃ t h₄ hx hg hl hid hh₁ hy hh₂ hh₃ ht hh₄ =>
    simp only [List.length_append, List.length_cons, List.length_nil] at hm
    rw [show x ++ g ++ l ++ c!"{" ++ h₁ ++ y ++ h₂ ++ c!"=" ++ h₃ ++ t ++ h₄ ++ c!"}" =
      x ++ (g ++ (l ++ '{' :: ((h₁ ++ ((y ++ h₂) ++ ('=' :: (h₃ ++ t)) ++ h₄)) ++ ['}']))) by asc]
    exact run_block hx hg hl hid (run_lineBody HG hh₁ hy hh₂ hh₃ ht hh₄ (by omega))

theorem structure_starts {s : Struct} {t : Str} (h : Structure E.U E.bd s t) : ∃ c cs, t = c :: cs ∧ isIdStart E.U c = true := by
  have key : ∀ {x u : Str}, IsIdentifier E.U x → ∃ c cs, x ++ u = c :: cs ∧ isIdStart E.U c = true := by
    rintro x u ⟨c, cs, rfl, hc, _⟩
    exact ⟨c, _, rfl, idFirst_iff.mpr hc⟩
  cases h with
  | attr hx => simp only [List.append_assoc]; exact key hx
  | block hx => simp only [List.append_assoc]; exact key hx
  | emptyBlock hx => simp only [List.append_assoc]; exact key hx
  | oneLine hx => simp only [List.append_assoc]; exact key hx

theorem idStart_solid {U : Uni} {c : Char} (h : isIdStart U c = true) : solid c = true := by
  have := calm_idStart h
  unfold calm at this
  rw [Bool.and_eq_true] at this
  exact this.1

/-! ### Bodies -/

/-- A line of a body. -/
theorem run_bodyItem (HG : GoodB E R m) {keys : List Str} {s : Struct} {g t e r : Str} (hg : Gap true g)
    (h : Structure E.U E.bd s t) (hm : t.length ≤ m) (hk : ∀ k ∈ attrKeys [s], k ∉ keys) (he : Eol e)
    (hr : ∀ b, FolE E.U b (e ++ r)) :
    Runs (bodyItem E R keys) (g ++ (t ++ e)) r fun v => MeansStruct E.U E.bd v.1 s ∧ v.2.1 = addKey keys s := by
  unfold bodyItem
  refine Runs.bind (runs_ws hg ?_).spanOf fun pre _ => ?_
  · obtain ⟨c, cs, rfl, hc⟩ := structure_starts h
    exact solid_starts (idStart_solid hc)
  refine Runs.bind (run_structure HG h hm hk hr) ?_
  rintro ⟨v, keys'⟩ ⟨hv, hk'⟩
  obtain ⟨x, n, rfl, hn, hx⟩ := eol_split he
  refine Runs.bind (hx r).spanOf fun suf _ => ?_
  exact Runs.bind_last (Runs.cutErr (Runs.alt_left (Runs.map (Q := fun _ => True) ((runs_lineEnding hn).conseq
    fun _ _ => trivial)))) fun fin _ => .pure ⟨hv.mapMeta _, hk'⟩

/-- Nothing or a comment, at the end of the input. -/
def LastComment (x : Str) : Prop := x = [] ∨ LineComment x

theorem LastComment.over {x : Str} (h : LastComment x) : Over [] true x := by
  rcases h with rfl | h
  · exact .nil
  · exact .last rfl h

/-- The last line of a document without a line ending. -/
theorem run_lastItem (HG : GoodB E R m) {keys : List Str} {s : Struct} {g t h x : Str} (hg : Gap true g)
    (ht : Structure E.U E.bd s t) (hm : t.length ≤ m) (hk : ∀ k ∈ attrKeys [s], k ∉ keys) (hh : Gap false h)
    (hx : LastComment x) :
    Runs (bodyItem E R keys) (g ++ (t ++ (h ++ x))) [] fun v => MeansStruct E.U E.bd v.1 s ∧ v.2.1 = addKey keys s := by
  unfold bodyItem
  refine Runs.bind (runs_ws hg ?_).spanOf fun pre _ => ?_
  · obtain ⟨c, cs, rfl, hc⟩ := structure_starts ht
    exact solid_starts (idStart_solid hc)
  refine Runs.bind (run_structure HG ht hm hk fun b => folE_end ?_) ?_
  · rw [List.append_nil]
    exact (hh.mono nofun).overAppend hx.over
  rintro ⟨v, keys'⟩ ⟨hv, hk'⟩
  refine Runs.bind_last (Runs.spanOf (Q := fun _ => True) ?_) fun suf _ => ?_
  · unfold lineEnd
    rcases hx with rfl | hx
    · rw [List.append_nil]
      refine Runs.bind_last (runs_sp hh nil_starts) fun _ _ => ?_
      exact Runs.bind_nil (Backs.opt (R := fun _ => True) (backs_lineComment nofun nofun) trivial) fun _ _ => .pure trivial
    · refine Runs.bind (runs_sp hh (lineComment_starts hx)) fun _ _ => ?_
      exact Runs.bind_last (Runs.opt (R := fun _ => True) (runs_lineComment hx (.inl rfl)) fun _ _ => trivial)
        fun _ _ => .pure trivial
  · exact Runs.bind_last (Runs.cutErr (Runs.alt_right (Backs.map (backs_lineEnding nofun nofun))
      (Runs.map (Q := fun _ => True) fun pos => ⟨_, rfl, trivial⟩))) fun fin _ => .pure ⟨hv.mapMeta _, hk'⟩

/-- One iteration of the loop. -/
theorem run_bodyLoop_cons {keys : List Str} {n : Nat} {s : Struct} {ss : List Struct} {t u r : Str} (hne : t ≠ [])
    (h : Runs (bodyItem E R keys) t (u ++ r) fun v => MeansStruct E.U E.bd v.1 s ∧ v.2.1 = addKey keys s)
    (hn : Runs (bodyLoop E R n (addKey keys s)) u r fun v => MeansStructs E.U E.bd v.1 ss) :
    Runs (bodyLoop E R (n + 1) keys) (t ++ u) r fun v => MeansStructs E.U E.bd v.1 (s :: ss) := by
  intro pos
  obtain ⟨⟨v, keys', fin⟩, h1, h2, h3⟩ := h pos
  dsimp only at h2 h3
  subst h3
  obtain ⟨⟨vs, fin'⟩, h4, h5⟩ := hn (pos + t.length)
  refine ⟨(v :: vs, fin || fin'), ?_, .cons h2 h5⟩
  have hlen : 0 < t.length := List.length_pos_iff.mpr hne
  unfold bodyLoop
  rw [List.append_assoc, h1]
  dsimp only
  rw [if_pos (by rw [List.length_append (as := t)]; omega)]
  unfold P.map P.bind
  rw [h4]
  dsimp only [P.pure]
  rw [List.length_append, Nat.add_assoc]

/-- The end of the loop. -/
theorem run_bodyLoop_nil {keys : List Str} {n : Nat} {g r : Str} (hg : Over r true g) (hr : r = [] ∨ ∃ x, r = '}' :: x) :
    Runs (bodyLoop E R (n + 1) keys) [] (g ++ r) fun v => MeansStructs E.U E.bd v.1 [] := by
  have hb : Backs (bodyItem E R keys) (g ++ r) := by
    unfold bodyItem
    refine Runs.bind_backs (Runs.spanOf (p := ws) (runs_over hg ?_)) fun _ _ => Backs.bind ?_
    · rcases hr with rfl | ⟨x, rfl⟩
      · exact nil_starts
      · exact solid_starts rfl
    · unfold structureP
      refine Runs.bind_backs (t := []) (Q := fun _ => True) (fun pos => ⟨_, rfl, trivial⟩) fun _ _ => Backs.bind ?_
      intro pos
      have : Backs (oneOf (isIdStart E.U)) r := backs_oneOf fun c cs h => by
        rcases hr with rfl | ⟨x, rfl⟩
        · cases h
        · injection h with h _
          subst h
          exact nonId_start rfl
      obtain ⟨j, hj⟩ := this pos
      refine ⟨⟨pos, r⟩, ?_⟩
      unfold peek
      rw [hj]
  intro pos
  obtain ⟨j, hj⟩ := hb pos
  refine ⟨([], false), ?_, .nil⟩
  unfold bodyLoop
  rw [List.nil_append, hj]
  rfl

/-- What comes after the end of a line. -/
def FolL (u : Str) : Prop := ∃ g v, u = g ++ v ∧ Over v true g ∧ QuietE true v

theorem body_fol {ss : List Struct} {w r : Str} (h : Body E.U E.bd ss w) (hr : FolL r) : FolL (w ++ r) := by
  cases h with
  | nil hg =>
    obtain ⟨g, v, rfl, h1, h2⟩ := hr
    exact ⟨_ ++ g, v, (List.append_assoc ..).symm, hg.overAppend h1, h2⟩
  | @cons s ss g t e w hg ht he hw =>
    refine ⟨g, t ++ (e ++ (w ++ r)), by simp only [List.append_assoc], hg.over _, ?_⟩
    obtain ⟨c, cs, rfl, hc⟩ := structure_starts ht
    exact quiet_calm (calm_idStart hc)

theorem attrKeys_cons (s : Struct) (ss : List Struct) : attrKeys (s :: ss) = attrKeys [s] ++ attrKeys ss := by
  cases s <;> rfl

theorem mem_addKey {keys : List Str} {s : Struct} {k : Str} : k ∈ addKey keys s ↔ k ∈ keys ∨ k ∈ attrKeys [s] := by
  cases s with
  | attr x e =>
    show k ∈ x :: keys ↔ k ∈ keys ∨ k ∈ [x]
    simp only [List.mem_cons, List.not_mem_nil, or_false]
    exact or_comm
  | block x ls b =>
    show k ∈ keys ↔ k ∈ keys ∨ k ∈ []
    simp

/-- The complete lines of a body, and what comes after them. -/
theorem run_lines (HG : GoodB E R m) : ∀ {ss : List Struct} {w : Str}, Body E.U E.bd ss w → w.length ≤ m →
    ∃ l g, w = l ++ g ∧ Gap true g ∧ (∀ z, FolL z → FolL (l ++ z)) ∧ ∀ {keys : List Str} {n : Nat} {u r : Str} {ss' : List Struct},
      (attrKeys ss).Nodup → (∀ k ∈ attrKeys ss, k ∉ keys) → (l ++ (u ++ r)).length < n → FolL (u ++ r) →
      (∀ n' keys', (u ++ r).length < n' → (∀ k, k ∈ keys' ↔ k ∈ keys ∨ k ∈ attrKeys ss) →
        Runs (bodyLoop E R n' keys') u r fun v => MeansStructs E.U E.bd v.1 ss') →
      Runs (bodyLoop E R n keys) (l ++ u) r fun v => MeansStructs E.U E.bd v.1 (ss ++ ss') := by
  intro ss
  induction ss with
  | nil =>
    intro w h hm
    cases h with
    | nil hg =>
      refine ⟨[], w, rfl, hg, fun _ h => h, ?_⟩
      intro keys n u r ss' _ _ hn _ hK
      exact hK n keys hn fun k => by show _ ↔ _ ∨ k ∈ []; simp
  | cons s ss ih =>
    intro w h hm
    cases h with
    | @cons _ _ g t e w hg ht he hw =>
      simp only [List.length_append] at hm
      obtain ⟨l, g', rfl, hg', hl, hK⟩ := ih hw (by omega)
      refine ⟨(g ++ (t ++ e)) ++ l, g', by simp only [List.append_assoc], hg', ?_, ?_⟩
      · intro z _
        refine ⟨g, t ++ (e ++ (l ++ z)), by simp only [List.append_assoc], hg.over _, ?_⟩
        obtain ⟨c, cs, rfl, hc⟩ := structure_starts ht
        exact quiet_calm (calm_idStart hc)
      intro keys n u r ss' hnd hdis hn hur hnext
      rw [attrKeys_cons] at hnd hdis
      have hnd' := List.nodup_append.mp hnd
      obtain ⟨n, rfl⟩ : ∃ k, n = k + 1 := Nat.exists_eq_succ_of_ne_zero (by omega)
      rw [List.append_assoc]
      have hne : t ≠ [] := by
        obtain ⟨c, cs, rfl, _⟩ := structure_starts ht
        nofun
      have htl : 0 < t.length := List.length_pos_iff.mpr hne
      refine run_bodyLoop_cons (by simp [hne]) ?_ ?_
      · refine run_bodyItem HG hg ht (by omega) (fun k hk => hdis k (List.mem_append_left _ hk)) he fun b => ?_
        have hfol : FolL ((l ++ u) ++ r) := by
          rw [List.append_assoc]
          exact hl _ hur
        obtain ⟨x, y, hxy, hx, hy⟩ := hfol
        rw [hxy]
        exact eol_fol he hx hy
      · refine hK hnd'.2.1 ?_ ?_ hur ?_
        · intro k hk hk'
          rcases mem_addKey.mp hk' with h | h
          · exact hdis k (List.mem_append_right _ hk) h
          · exact hnd'.2.2 k h k hk rfl
        · simp only [List.length_append] at hn ⊢
          omega
        · intro n' keys' h1 h2
          refine hnext n' keys' h1 fun k => ?_
          rw [h2 k, mem_addKey, attrKeys_cons s ss, List.mem_append, or_assoc]

theorem folL_end {g r : Str} (hg : Over r true g) (hr : r = [] ∨ ∃ x, r = '}' :: x) : FolL (g ++ r) := by
  refine ⟨g, r, rfl, hg, ?_⟩
  rcases hr with rfl | ⟨x, rfl⟩
  · exact quiet_nil
  · exact quiet_calm rfl

/-- A body, with a comment after it if it is a document. -/
theorem run_bodyOver (HG : GoodB E R m) {ss : List Struct} {w x r : Str} (h : Body E.U E.bd ss w) (hm : w.length ≤ m)
    (hnd : (attrKeys ss).Nodup) (hx : Over r true x) (hr : r = [] ∨ ∃ x, r = '}' :: x) :
    Runs (body E R) (w ++ x) r fun v => MeansBody E.U E.bd v ss := by
  obtain ⟨l, g, rfl, hg, -, hK⟩ := run_lines HG h hm
  rw [List.append_assoc]
  have ho := hg.overAppend hx
  generalize g ++ x = g at ho
  unfold body
  refine Runs.bind (Q := fun v => MeansStructs E.U E.bd v.1.1 ss) (Runs.withSpan (Q := fun v : List EStruct × Bool => MeansStructs E.U E.bd v.1 ss) ?_) ?_
  · intro pos
    have := hK (keys := []) (n := (l ++ (g ++ r)).length + 1) (u := []) (r := g ++ r) (ss' := []) hnd (fun _ _ => nofun)
      (by simp only [List.nil_append]; omega) (by rw [List.nil_append]; exact folL_end ho hr) (fun n' keys' hn' _ => by
        obtain ⟨n', rfl⟩ : ∃ k, n' = k + 1 := Nat.exists_eq_succ_of_ne_zero (by omega)
        exact run_bodyLoop_nil ho hr)
    rw [List.append_nil, List.append_nil] at this
    exact this pos
  · rintro ⟨⟨vs, fin⟩, sp⟩ hv
    refine Runs.bind_last (Runs.map (Q := fun _ => True) ((Runs.spanOf (p := ws) (runs_over ho ?_)).conseq
      fun _ _ => trivial)) fun _ _ => .pure (.mk hv)
    rcases hr with rfl | ⟨x, rfl⟩
    · exact nil_starts
    · exact solid_starts rfl

/-- A body. -/
theorem run_body (HG : GoodB E R m) {ss : List Struct} {w r : Str} (h : Body E.U E.bd ss w) (hm : w.length ≤ m)
    (hnd : (attrKeys ss).Nodup) (hr : r = [] ∨ ∃ x, r = '}' :: x) :
    Runs (body E R) w r fun v => MeansBody E.U E.bd v ss := by
  have := run_bodyOver HG h hm hnd (.nil (nl := true)) hr
  rwa [List.append_nil] at this

/-- A body whose last line has no line ending. -/
theorem run_bodyLast (HG : GoodB E R m) {ss : List Struct} {s : Struct} {w t h x : Str} (hw : Body E.U E.bd ss w)
    (ht : Structure E.U E.bd s t) (hh : Gap false h) (hx : LastComment x) (hm : (w ++ t ++ (h ++ x)).length ≤ m)
    (hnd : (attrKeys (ss ++ [s])).Nodup) : Runs (body E R) (w ++ t ++ (h ++ x)) [] fun v => MeansBody E.U E.bd v (ss ++ [s]) := by
  have hk : ∀ ss, attrKeys (ss ++ [s]) = attrKeys ss ++ attrKeys [s] := by
    intro ss
    induction ss with
    | nil => rfl
    | cons x xs ih => rw [List.cons_append, attrKeys_cons, ih, attrKeys_cons x xs, List.append_assoc]
  rw [hk] at hnd
  have hnd' := List.nodup_append.mp hnd
  simp only [List.length_append] at hm
  obtain ⟨l, g, rfl, hg, -, hK⟩ := run_lines HG hw (by omega)
  have hst := structure_starts ht
  have hne : t ≠ [] := by
    obtain ⟨c, cs, rfl, _⟩ := hst
    nofun
  unfold body
  refine Runs.bind_last (Q := fun v => MeansStructs E.U E.bd v.1.1 (ss ++ [s])) (Runs.withSpan (Q := fun v : List EStruct × Bool => MeansStructs E.U E.bd v.1 (ss ++ [s])) ?_) ?_
  · intro pos
    have := hK (keys := []) (n := ((l ++ g) ++ t ++ (h ++ x)).length + 1) (u := g ++ (t ++ (h ++ x))) (r := []) (ss' := [s]) hnd'.1
      (fun _ _ => nofun) (by simp only [List.length_append, List.length_nil]; omega) (by
        refine ⟨g, t ++ (h ++ x), by rw [List.append_nil], hg.over _, ?_⟩
        obtain ⟨c, cs, rfl, hc⟩ := hst
        exact quiet_calm (calm_idStart hc)) (fun n' keys' hn' hkeys => by
        have htl : 0 < t.length := List.length_pos_iff.mpr hne
        simp only [List.length_append, List.length_nil] at hn'
        obtain ⟨n', rfl⟩ : ∃ k, n' = k + 1 + 1 := ⟨n' - 2, by omega⟩
        rw [show g ++ (t ++ (h ++ x)) = (g ++ (t ++ (h ++ x))) ++ [] from (List.append_nil _).symm]
        refine run_bodyLoop_cons (by simp [hne]) (run_lastItem HG hg ht (by omega) (fun k h1 h2 => ?_) hh hx) ?_
        · rcases (hkeys k).mp h2 with h3 | h3
          · cases h3
          · exact hnd'.2.2 k h3 k h1 rfl
        · exact run_bodyLoop_nil (g := []) .nil (.inl rfl))
    have := this pos
    simp only [List.append_nil, List.append_assoc] at this ⊢
    exact this
  · rintro ⟨⟨vs, fin⟩, sp⟩ hv
    exact Runs.bind_last (runs_rawWs .nil nil_starts) fun _ _ => .pure (.mk hv)

/-- The parsers run on every spelling. -/
theorem parsers_goodB (E : PEnv) : ∀ n, GoodB E (parsers E n) n
  | 0 => ⟨parsers_good E 0, fun _ _ h => (Nat.not_lt_zero _ h).elim⟩
  | n + 1 => ⟨parsers_good E (n + 1), fun h hn hm r => run_body (parsers_goodB E n) h (by omega) hn (.inr ⟨_, rfl⟩)⟩

end Verif.Gram
