import Verif.Lemmas.RunObject
import Verif.Lemmas.RunHeredoc
/-! Running the parser on `for` expressions, function calls and the other operands without a traversal. -/

namespace Verif.Gram
open P Spec Syn

variable {E : PEnv} {R : PRec} {m : Nat}

/-- A look ahead after which the parser goes on behind the whitespace. -/
theorem runs_look_go {β : Type} {K : Input → Span → Option (Char × Char) → P β} {w : P Unit} {g u r : Str}
    {Q : Unit → Prop} {Z : β → Prop} (hw : Runs w g (u ++ r) Q)
    (hK : ∀ cp s, Runs (K cp s (two (u ++ r))) u r Z) :
    Runs (P.bind getInput fun cp => P.bind (spanOf w) fun s => P.bind peek2 fun nx => K cp s nx) (g ++ u) r Z := by
  refine runs_look hw (List.append_assoc ..) fun pos s => ?_
  obtain ⟨v, h1, h2⟩ := hK ⟨pos, (g ++ u) ++ r⟩ s (pos + g.length)
  exact ⟨v, by rw [h1, List.length_append, Nat.add_assoc], h2⟩

/-- A look ahead after which the parser goes back. -/
theorem runs_look_back {β : Type} {K : Input → Span → Option (Char × Char) → P β} {w : P Unit} {g u t r : Str}
    {Q : Unit → Prop} {Z : β → Prop} {p : Input → Span → P β} (hw : Runs w g u Q) (he : t ++ r = g ++ u)
    (hK : ∀ cp s, K cp s (two u) = P.bind (setInput cp) fun _ => p cp s)
    (hp : ∀ cp s, Runs (p cp s) t r Z) :
    Runs (P.bind getInput fun cp => P.bind (spanOf w) fun s => P.bind peek2 fun nx => K cp s nx) t r Z := by
  refine runs_look hw he fun pos s => ?_
  obtain ⟨v, h1, h2⟩ := hp ⟨pos, t ++ r⟩ s pos
  refine ⟨v, ?_, h2⟩
  rw [hK]
  exact h1

/-! ### For expressions -/

/-- The introduction that the parser returns. -/
def IntroOK (E : PEnv) (i : EIntro) (k : Option Str) (v : Str) (c : Expr) : Prop :=
  i.key.map DIdent.name = k ∧ i.val.name = v ∧ Means E.U E.bd i.coll c

theorem den_for {i : EIntro} {k : Option Str} {v : Str} {c ve : Expr} {kev cev : Option EExpr} {vev : EExpr}
    {ke ce : Option Expr} {g : Bool} {mm im cm : Meta} (hi : IntroOK E i k v c) (hk : MeansOpt E.U E.bd kev ke)
    (hv : Means E.U E.bd vev ve) (hc : MeansOpt E.U E.bd cev ce) :
    Means E.U E.bd (.forE mm im i.key i.val i.coll kev vev g cm cev) (.forE k v c ke ve g ce) := by
  obtain ⟨rfl, rfl, h3⟩ := hi
  exact .forE h3 hk hv hc

theorem run_forIntro (HG : Good E R m) {k : Option Str} {v : Str} {c : Expr} {i r : Str}
    (h : Intro E.U E.bd k v c i) (hm : i.length < m) (hr : ∀ x, r ≠ ':' :: x) :
    Runs (forIntro E R) i r fun x => IntroOK E x k v c := by
  unfold forIntro
  cases h with
  | @value _ _ g w g₁ h₁ g₃ t h₃ hg hw hg₁ hv hh₁ hne₁ hg₃ hne₃ ht hh₃ =>
    simp only [List.append_assoc] at hm ⊢
    simp only [List.length_append] at hm
    refine runs_prefixDecorated (Q := fun x => IntroOK E x none v c) (runs_ws hg (solid_starts rfl)) ?_
      fun _ _ _ h => h
    refine Runs.bind runs_tag fun _ _ => ?_
    rw [show (w :: g₁) ++ (v ++ (h₁ ++ (c!"in" ++ (g₃ ++ (t ++ (h₃ ++ c!":")))))) =
      ((w :: g₁) ++ (v ++ h₁)) ++ (c!"in" ++ (g₃ ++ (t ++ (h₃ ++ c!":")))) by asc]
    refine Runs.bind (runs_decIdent (x := v) (runs_ws hg₁ ((ident_starts hv).append _).solid)
      (runs_cutIdent hv (gap_idEnd hh₁ (.inr hne₁))) (runs_ws hh₁ (solid_starts rfl))) fun a ha => ?_
    refine Runs.bind_nil (Backs.opt (R := fun o => o = none) (Backs.bind (backs_chr fun cs h => by
      injection h with h _; cases h)) rfl) ?_
    rintro _ rfl
    refine Runs.bind runs_tag.cutErr fun _ _ => ?_
    rw [show g₃ ++ (t ++ (h₃ ++ c!":")) = (g₃ ++ (t ++ h₃)) ++ c!":" by asc]
    refine Runs.bind (run_ws HG hg₃ ht (by omega) hh₃ (quiet_colon hr) (.inl (idEnd_cons rfl))) fun e he => ?_
    exact runs_chr.cutErr.bind_last fun _ _ => .pure ⟨rfl, ha, he⟩
  | @keyValue k _ _ g w g₁ h₁ g₂ h₂ g₃ t h₃ hg hw hg₁ hk hh₁ hg₂ hv hh₂ hne₂ hg₃ hne₃ ht hh₃ =>
    simp only [List.append_assoc] at hm ⊢
    simp only [List.length_append] at hm
    refine runs_prefixDecorated (Q := fun x => IntroOK E x (some k) v c) (runs_ws hg (solid_starts rfl)) ?_
      fun _ _ _ h => h
    refine Runs.bind runs_tag fun _ _ => ?_
    rw [show (w :: g₁) ++ (k ++ (h₁ ++ (c!"," ++ (g₂ ++ (v ++ (h₂ ++ (c!"in" ++ (g₃ ++ (t ++ (h₃ ++ c!":")))))))))) =
      ((w :: g₁) ++ (k ++ h₁)) ++ (c!"," ++ (g₂ ++ (v ++ (h₂ ++ (c!"in" ++ (g₃ ++ (t ++ (h₃ ++ c!":")))))))) by asc]
    refine Runs.bind (runs_decIdent (x := k) (runs_ws hg₁ ((ident_starts hk).append _).solid)
      (runs_cutIdent hk (gap_idEnd hh₁ (.inl (idEnd_cons rfl)))) (runs_ws hh₁ (solid_starts rfl))) fun a ha => ?_
    rw [show c!"," ++ (g₂ ++ (v ++ (h₂ ++ (c!"in" ++ (g₃ ++ (t ++ (h₃ ++ c!":"))))))) =
      (c!"," ++ (g₂ ++ (v ++ h₂))) ++ (c!"in" ++ (g₃ ++ (t ++ (h₃ ++ c!":")))) by asc]
    refine Runs.bind (Runs.opt (R := fun o => ∃ d : DIdent, o = some d ∧ d.name = v)
      (Runs.bind runs_chr fun _ _ => runs_decIdent (x := v) (runs_ws hg₂ ((ident_starts hv).append _).solid)
      (runs_cutIdent hv (gap_idEnd hh₂ (.inr hne₂))) (runs_ws hh₂ (solid_starts rfl))) fun d hd => ⟨d, rfl, hd⟩) ?_
    rintro _ ⟨d, rfl, hd⟩
    refine Runs.bind runs_tag.cutErr fun _ _ => ?_
    rw [show g₃ ++ (t ++ (h₃ ++ c!":")) = (g₃ ++ (t ++ h₃)) ++ c!":" by asc]
    refine Runs.bind (run_ws HG hg₃ ht (by omega) hh₃ (quiet_colon hr) (.inl (idEnd_cons rfl))) fun e he => ?_
    exact runs_chr.cutErr.bind_last fun _ _ => .pure ⟨congrArg some ha, hd, he⟩

theorem intro_probe {k : Option Str} {v : Str} {c : Expr} {i : Str} (h : Intro E.U E.bd k v c i) (r : Str) :
    ∃ x y, i ++ r = x ++ y ∧ Runs forProbe x y fun _ => True := by
  have key : ∀ {g w u}, Gap true g → w ∈ [' ', '\t', '#', '/', '\n'] →
      Runs forProbe (g ++ (c!"for" ++ [w])) u fun _ => True := by
    intro g w u hg hw
    refine Runs.bind (runs_ws hg (solid_starts rfl)) fun _ _ => Runs.bind runs_tag fun _ _ =>
      (runs_oneOf ?_).bind_last fun _ _ => .pure trivial
    simp only [List.mem_cons, List.not_mem_nil, or_false] at hw
    rcases hw with rfl | rfl | rfl | rfl | rfl <;> rfl
  cases h with
  | @value _ _ g w g₁ h₁ g₃ t h₃ hg hw =>
    refine ⟨_, g₁ ++ (v ++ (h₁ ++ (c!"in" ++ (g₃ ++ (t ++ (h₃ ++ c!":")))))) ++ r, ?_, key hg hw⟩
    asc
  | @keyValue k _ _ g w g₁ h₁ g₂ h₂ g₃ t h₃ hg hw =>
    refine ⟨_, g₁ ++ (k ++ (h₁ ++ (c!"," ++ (g₂ ++ (v ++ (h₂ ++ (c!"in" ++ (g₃ ++ (t ++ (h₃ ++ c!":")))))))))) ++ r, ?_, key hg hw⟩
    asc

theorem cond_quiet {ce : Option Expr} {j r : Str} {d : Char} {b : Bool} (h : Cond E.U E.bd ce j) (hd : calm d = true) :
    QuietE b (j ++ d :: r) := by
  cases h with
  | none => exact quiet_calm hd
  | some => simp only [List.append_assoc]; exact quiet_calm rfl

theorem cond_id {ce : Option Expr} {j h r : Str} {d : Char} (hc : Cond E.U E.bd ce j) (hd : nonId d = true)
    (hh : ce.isSome = true → h ≠ []) : IdEnd E.U (j ++ d :: r) ∨ h ≠ [] := by
  cases hc with
  | none => exact .inl (idEnd_cons hd)
  | some => exact .inr (hh rfl)

theorem run_forCond (HG : Good E R m) {ce : Option Expr} {j r : Str} {d : Char} (h : Cond E.U E.bd ce j)
    (hm : j.length < m) (hd : calm d = true) (hd' : nonId d = true) :
    Runs (opt (forCond R true)) j (d :: r) fun o => MeansOpt E.U E.bd (o.map ECond.e) ce := by
  cases h with
  | none =>
    refine Backs.opt ?_ .none
    refine Runs.bind_backs (t := []) (runs_ws .nil (quiet_calm hd).triv).spanOf fun _ _ => Backs.bind
      (Backs.map (Backs.withSpan (Backs.bind (backs_tag ?_))))
    rintro ⟨k, hk⟩
    injection hk with hk _
    subst hk
    cases hd'
  | @some e g t h hg hne ht hh =>
    simp only [List.append_assoc] at hm ⊢
    simp only [List.length_append] at hm
    refine Runs.opt (Q := fun c => Means E.U E.bd c.e e) ?_ fun _ h => .some h
    refine runs_prefixDecorated (Q := fun c : ECond => Means E.U E.bd c.e e) (g := [])
      (runs_ws .nil (solid_starts rfl)) ?_ fun _ _ _ h => h
    refine Runs.bind runs_tag fun _ _ => ?_
    exact Runs.bind_last (run_ws HG hg ht (by omega) hh (quiet_calm hd) (.inl (idEnd_cons hd'))) fun _ h => .pure h

theorem run_forList (HG : Good E R m) {k : Option Str} {v : Str} {c ve : Expr} {ce : Option Expr} {i g t h j r : Str}
    (hi : Intro E.U E.bd k v c i) (hg : Gap true g) (ht : Full E.U E.bd true ve t) (hh : Gap true h)
    (hc : Cond E.U E.bd ce j) (hne : ce.isSome = true → h ≠ [])
    (hm : (i ++ (g ++ (t ++ (h ++ j)))).length < m) :
    Runs (array E R) ('[' :: (i ++ (g ++ (t ++ (h ++ (j ++ [']'])))))) r
      fun x => Means E.U E.bd x (.forE k v c none ve false ce) := by
  simp only [List.length_append] at hm
  rw [show '[' :: (i ++ (g ++ (t ++ (h ++ (j ++ [']']))))) = ['['] ++ ((i ++ ((g ++ (t ++ h)) ++ j)) ++ [']']) by asc]
  obtain ⟨x, y, he, hp⟩ := intro_probe hi (((g ++ (t ++ h)) ++ j) ++ ([']'] ++ r))
  refine Runs.delimited runs_chr (runs_forExpr hp (by rw [← he, List.append_assoc]) ?_) runs_chr.cutErr
  unfold forListExpr
  refine Runs.bind (run_forIntro HG hi (by omega) ?_) fun ii hii => ?_
  · asc; exact gap_ne hg rfl (((full_starts ht).append _).ne rfl)
  refine Runs.bind (run_ws HG hg ht (by omega) hh (cond_quiet hc rfl) (cond_id hc rfl hne)) fun vv hvv => ?_
  refine (run_forCond HG hc (by omega) rfl rfl).bind_last fun o ho => .pure ?_
  cases o with
  | none => exact den_for hii .none hvv ho
  | some c => exact den_for hii .none hvv ho

theorem run_forObject (HG : Good E R m) {b : Bool} {k : Option Str} {v : Str} {c ke ve : Expr} {ce : Option Expr}
    {i g₁ t₁ h₁ g₂ t₂ h₂ j r : Str}
    (hi : Intro E.U E.bd k v c i) (hg₁ : Gap true g₁) (ht₁ : Full E.U E.bd false ke t₁) (hh₁ : Gap true h₁)
    (hg₂ : Gap true g₂) (ht₂ : Full E.U E.bd false ve t₂) (hh₂ : Gap true h₂)
    (hc : Cond E.U E.bd ce j) (hne : ce.isSome = true → h₂ ≠ [])
    (hm : (i ++ (g₁ ++ (t₁ ++ (h₁ ++ (c!"=>" ++ (g₂ ++ (t₂ ++ (h₂ ++ j)))))))).length < m) :
    Runs (object E R b) ('{' :: (i ++ (g₁ ++ (t₁ ++ (h₁ ++ (c!"=>" ++ (g₂ ++ (t₂ ++ (h₂ ++ (j ++ ['}'])))))))))) r
      fun x => Means E.U E.bd x.1 (.forE k v c (some ke) ve false ce) ∧ x.2 = true := by
  simp only [List.length_append] at hm
  rw [show '{' :: (i ++ (g₁ ++ (t₁ ++ (h₁ ++ (c!"=>" ++ (g₂ ++ (t₂ ++ (h₂ ++ (j ++ ['}']))))))))) =
    ['{'] ++ ((i ++ ((g₁ ++ (t₁ ++ h₁)) ++ (c!"=>" ++ ((g₂ ++ (t₂ ++ h₂)) ++ j)))) ++ ['}']) by asc]
  obtain ⟨x, y, he, hp⟩ := intro_probe hi (((g₁ ++ (t₁ ++ h₁)) ++ (c!"=>" ++ ((g₂ ++ (t₂ ++ h₂)) ++ j))) ++ (['}'] ++ r))
  refine Runs.delimited runs_chr (runs_forExpr hp (by rw [← he, List.append_assoc]) ?_) runs_chr.cutErr
  refine Runs.map (Runs.conseq (Q := fun x => Means E.U E.bd x (.forE k v c (some ke) ve false ce)) ?_ fun _ h => ⟨h, rfl⟩)
  unfold forObjectExpr
  refine Runs.bind (run_forIntro HG hi (by omega) ?_) fun ii hii => ?_
  · asc; exact gap_ne hg₁ rfl (((full_starts ht₁).append _).ne rfl)
  refine Runs.bind (run_ws HG hg₁ ht₁ (by omega) hh₁ (by asc; exact quiet_arrow) (.inl (idEnd_cons rfl))) fun kk hkk => ?_
  refine Runs.bind runs_tag.cutErr fun _ _ => ?_
  refine Runs.bind (run_ws HG hg₂ ht₂ (by omega) hh₂ (cond_quiet hc rfl) (cond_id hc rfl hne)) fun vv hvv => ?_
  refine Runs.bind_nil (Backs.opt (R := fun o => o = none) (Backs.bind (backs_tag ?_)) rfl) ?_
  · rintro ⟨z, hz⟩
    cases hc with
    | none => injection hz with hz _; cases hz
    | some => simp only [List.append_assoc] at hz; injection hz with hz _; cases hz
  rintro _ rfl
  refine (run_forCond HG hc (by omega) rfl rfl).bind_last fun o ho => ?_
  cases o with
  | none => exact .pure (den_for hii (.some hkk) hvv ho)
  | some c => exact .pure (den_for hii (.some hkk) hvv ho)

theorem run_forGroup (HG : Good E R m) {b : Bool} {k : Option Str} {v : Str} {c ke ve : Expr} {ce : Option Expr}
    {i g₁ t₁ h₁ g₂ t₂ h₂ g₃ j r : Str}
    (hi : Intro E.U E.bd k v c i) (hg₁ : Gap true g₁) (ht₁ : Full E.U E.bd false ke t₁) (hh₁ : Gap true h₁)
    (hg₂ : Gap true g₂) (ht₂ : Full E.U E.bd false ve t₂) (hh₂ : Gap true h₂) (hg₃ : Gap true g₃)
    (hc : Cond E.U E.bd ce j)
    (hm : (i ++ (g₁ ++ (t₁ ++ (h₁ ++ (c!"=>" ++ (g₂ ++ (t₂ ++ (h₂ ++ (c!"..." ++ (g₃ ++ j)))))))))).length < m) :
    Runs (object E R b) ('{' :: (i ++ (g₁ ++ (t₁ ++ (h₁ ++ (c!"=>" ++ (g₂ ++ (t₂ ++ (h₂ ++ (c!"..." ++ (g₃ ++ (j ++
      ['}'])))))))))))) r
      fun x => Means E.U E.bd x.1 (.forE k v c (some ke) ve true ce) ∧ x.2 = true := by
  simp only [List.length_append] at hm
  rw [show '{' :: (i ++ (g₁ ++ (t₁ ++ (h₁ ++ (c!"=>" ++ (g₂ ++ (t₂ ++ (h₂ ++ (c!"..." ++ (g₃ ++ (j ++ ['}']))))))))))) =
    ['{'] ++ ((i ++ ((g₁ ++ (t₁ ++ h₁)) ++ (c!"=>" ++ ((g₂ ++ (t₂ ++ h₂)) ++ ((c!"..." ++ g₃) ++ j))))) ++ ['}']) by asc]
  obtain ⟨x, y, he, hp⟩ := intro_probe hi (((g₁ ++ (t₁ ++ h₁)) ++ (c!"=>" ++ ((g₂ ++ (t₂ ++ h₂)) ++ ((c!"..." ++ g₃) ++ j)))) ++ (['}'] ++ r))
  refine Runs.delimited runs_chr (runs_forExpr hp (by rw [← he, List.append_assoc]) ?_) runs_chr.cutErr
  refine Runs.map (Runs.conseq (Q := fun x => Means E.U E.bd x (.forE k v c (some ke) ve true ce)) ?_ fun _ h => ⟨h, rfl⟩)
  unfold forObjectExpr
  refine Runs.bind (run_forIntro HG hi (by omega) ?_) fun ii hii => ?_
  · asc; exact gap_ne hg₁ rfl (((full_starts ht₁).append _).ne rfl)
  refine Runs.bind (run_ws HG hg₁ ht₁ (by omega) hh₁ (by asc; exact quiet_arrow) (.inl (idEnd_cons rfl))) fun kk hkk => ?_
  refine Runs.bind runs_tag.cutErr fun _ _ => ?_
  refine Runs.bind (run_ws HG hg₂ ht₂ (by omega) hh₂ (by asc; exact quiet_dots) (.inl (idEnd_cons rfl))) fun vv hvv => ?_
  refine Runs.bind (Runs.opt (R := fun o => ∃ w, o = some w) (Runs.bind runs_tag fun _ _ => runs_rawWs hg₃
    (cond_quiet hc rfl).triv) fun w _ => ⟨w, rfl⟩) ?_
  rintro _ ⟨w, rfl⟩
  refine (run_forCond HG hc (by omega) rfl rfl).bind_last fun o ho => ?_
  cases o with
  | none => exact .pure (den_for hii (.some hkk) hvv ho)
  | some c => exact .pure (den_for hii (.some hkk) hvv ho)

/-! ### Function calls -/

/-- The arguments that the parser returns. -/
def ArgsOK (E : PEnv) (a : EArgs) (es : List Expr) (x : Bool) : Prop := MeansList E.U E.bd a.args es ∧ a.expand = x

theorem run_argElem (HG : Good E R m) {e : Expr} {g t h r : Str} (hg : Gap true g)
    (ht : Full E.U E.bd true e t) (hm : t.length < m) (hh : Gap true h) (hq : QuietE true r)
    (hid : IdEnd E.U r) :
    Runs (decorated ws (preceded (peek (oneOf fun c => c != ',' && c != '.' && c != ')')) (R.expr true)) ws)
      (g ++ (t ++ h)) r fun v => Means E.U E.bd v e := by
  refine runs_decExpr (runs_ws hg ((full_starts ht).append _).solid)
    (Runs.bind_nil (Q := fun _ => True) ?_ fun _ _ => HG.expr ht hm id (folE_of hh hq (.inl hid)))
    (runs_ws hh hq.triv)
  obtain ⟨c, cs, rfl, hc⟩ := full_starts ht
  refine (Runs.peek (t := [c]) (runs_oneOf ?_)).conseq fun _ _ => trivial
  simp [head_ne hc (d := ',') rfl, head_ne hc (d := '.') rfl, head_ne hc (d := ')') rfl]

theorem backs_argElem {g r : Str} (hg : Gap true g) :
    Backs (decorated ws (preceded (peek (oneOf fun c => c != ',' && c != '.' && c != ')')) (R.expr true)) ws)
      (g ++ ')' :: r) :=
  backs_close hg (solid_starts rfl) (Backs.bind fun pos => ⟨_, rfl⟩)

theorem run_args_empty {h r : Str} (hh : Gap true h) :
    Runs (funcArgs R) ('(' :: (h ++ [')'])) r fun a => ArgsOK E a [] false := by
  unfold funcArgs
  refine Runs.bind (t := ['(']) (u := h ++ [')']) runs_chr.cutErr fun _ _ => ?_
  refine Runs.bind_nil (Backs.opt (R := fun o => o = none) (Backs.bind (Backs.bind ?_)) rfl) ?_
  · rw [List.append_assoc]; exact backs_argElem hh
  rintro _ rfl
  refine Runs.bind (runs_rawWs hh (solid_starts rfl)) fun _ _ => ?_
  exact runs_chr.cutErr.bind_last fun _ _ => .pure ⟨.nil, rfl⟩

theorem run_args (HG : Good E R m) {es : List Expr} {u r : Str} (h : Seq E.U E.bd es u) (hm : u.length < m) :
    Runs (funcArgs R) ('(' :: (u ++ [')'])) r fun a => ArgsOK E a es false := by
  unfold funcArgs
  refine Runs.bind (t := ['(']) runs_chr.cutErr fun _ _ => ?_
  have hne : ∀ cs, ')' :: r ≠ ',' :: cs := fun cs hx => by injection hx with hx _; cases hx
  refine Runs.bind (Runs.opt (R := fun o => ∃ as, o = some (as, none) ∧ MeansList E.U E.bd as es)
    (Q := fun p => p.2 = none ∧ MeansList E.U E.bd p.1 es)
    (Runs.bind_last ((seq_sepReps (p := preceded (peek (oneOf fun c => c != ',' && c != '.' && c != ')')) (R.expr true))
      HG (run_argElem HG) (quiet_calm rfl) (idEnd_cons rfl) (Backs.bind (backs_chr hne)) h hm).1) fun as has => ?_) ?_) ?_
  · refine Runs.bind_nil (Backs.opt (R := fun o => o = none) ?_ rfl) ?_
    · refine Runs.bind_backs (t := [')']) runs_any ?_
      rintro _ rfl
      exact backs_fail
    · rintro _ rfl
      exact .pure ⟨rfl, has⟩
  · rintro ⟨as, _⟩ ⟨rfl, h⟩; exact ⟨as, rfl, h⟩
  · rintro _ ⟨as, rfl, has⟩
    refine Runs.bind_nil (runs_rawWs .nil (solid_starts rfl)) fun _ _ => ?_
    exact runs_chr.cutErr.bind_last fun _ _ => .pure ⟨has, rfl⟩

theorem run_args_comma (HG : Good E R m) {es : List Expr} {u h r : Str} (hs : Seq E.U E.bd es u) (hm : u.length < m)
    (hh : Gap true h) :
    Runs (funcArgs R) ('(' :: (u ++ (',' :: (h ++ [')'])))) r fun a => ArgsOK E a es false := by
  unfold funcArgs
  refine Runs.bind (t := ['(']) (u := u ++ (',' :: (h ++ [')']))) runs_chr.cutErr fun _ _ => ?_
  rw [show u ++ (',' :: (h ++ [')'])) = (u ++ [',']) ++ (h ++ [')']) by asc]
  refine Runs.bind (Runs.opt (R := fun o => ∃ as, o = some (as, some false) ∧ MeansList E.U E.bd as es)
    (Q := fun p => p.2 = some false ∧ MeansList E.U E.bd p.1 es)
    (Runs.bind ((seq_sepReps (p := preceded (peek (oneOf fun c => c != ',' && c != '.' && c != ')')) (R.expr true))
      HG (run_argElem HG) (quiet_calm rfl) (idEnd_cons rfl) ?_ hs hm).1) fun as has => ?_) ?_) ?_
  · asc
    exact Runs.bind_backs (t := [',']) runs_chr fun _ _ => backs_argElem hh
  · refine Runs.bind_last (Runs.opt (Q := fun x => x = false) (R := fun o => o = some false) ?_ ?_) ?_
    · refine Runs.bind_last runs_any ?_
      rintro _ rfl
      exact .pure rfl
    · rintro _ rfl; rfl
    · rintro _ rfl
      exact .pure ⟨rfl, has⟩
  · rintro ⟨as, _⟩ ⟨rfl, h⟩; exact ⟨as, rfl, h⟩
  · rintro _ ⟨as, rfl, has⟩
    refine Runs.bind (runs_rawWs hh (solid_starts rfl)) fun _ _ => ?_
    exact runs_chr.cutErr.bind_last fun _ _ => .pure ⟨has, rfl⟩

theorem run_args_expand (HG : Good E R m) {es : List Expr} {u h r : Str} (hs : Seq E.U E.bd es u) (hm : u.length < m)
    (hh : Gap true h) :
    Runs (funcArgs R) ('(' :: (u ++ (c!"..." ++ (h ++ [')'])))) r fun a => ArgsOK E a es true := by
  unfold funcArgs
  refine Runs.bind (t := ['(']) (u := u ++ (c!"..." ++ (h ++ [')']))) runs_chr.cutErr fun _ _ => ?_
  rw [show u ++ (c!"..." ++ (h ++ [')'])) = (u ++ c!"...") ++ (h ++ [')']) by asc]
  refine Runs.bind (Runs.opt (R := fun o => ∃ as, o = some (as, some true) ∧ MeansList E.U E.bd as es)
    (Q := fun p => p.2 = some true ∧ MeansList E.U E.bd p.1 es)
    (Runs.bind ((seq_sepReps (p := preceded (peek (oneOf fun c => c != ',' && c != '.' && c != ')')) (R.expr true))
      HG (run_argElem HG) (by asc; exact quiet_dots) (by asc; exact idEnd_cons rfl) ?_ hs hm).1) fun as has => ?_) ?_) ?_
  · asc
    exact Backs.bind (backs_chr fun cs hx => by injection hx with hx _; cases hx)
  · refine Runs.bind_last (Runs.opt (Q := fun x => x = true) (R := fun o => o = some true) ?_ ?_) ?_
    · refine Runs.bind (t := ['.']) (u := c!"..") runs_any ?_
      rintro _ rfl
      exact Runs.bind_last runs_tag.cutErr fun _ _ => .pure rfl
    · rintro _ rfl; rfl
    · rintro _ rfl
      exact .pure ⟨rfl, has⟩
  · rintro ⟨as, _⟩ ⟨rfl, h⟩; exact ⟨as, rfl, h⟩
  · rintro _ ⟨as, rfl, has⟩
    refine Runs.bind (runs_rawWs hh (solid_starts rfl)) fun _ _ => ?_
    exact runs_chr.cutErr.bind_last fun _ _ => .pure ⟨has, rfl⟩

theorem den_call {ns : List DIdent} {n : DIdent} {ns' : List Str} {n' : Str} {a : EArgs} {es : List Expr} {x : Bool}
    {mm am : Meta} (h1 : ns.map DIdent.name = ns') (h2 : n.name = n') (h3 : ArgsOK E a es x) :
    Means E.U E.bd (.call mm ns n am a.args a.comma a.expand a.trailing) (.call ⟨ns', n'⟩ es x) := by
  obtain ⟨h3, rfl⟩ := h3
  subst h1 h2
  exact .call h3

/-- What follows a component of a function name. -/
theorem nameTail_follow {nl b : Bool} {xs : List Str} {t r : Str} (h : NameTail E.U nl xs t) :
    ¬ StartsTrivia b (t ++ '(' :: r) ∧ IdEnd E.U (t ++ '(' :: r) := by
  cases h with
  | nil => exact ⟨solid_starts rfl, idEnd_cons rfl⟩
  | cons => asc; exact ⟨solid_starts rfl, idEnd_cons rfl⟩

/-- A component of a function name after the first one. -/
theorem run_nameStep {b nl : Bool} (hb : nl = true → b = true) {r : Str} {x : Str} {xs : List Str} {g h t : Str}
    (hg : Gap nl g) (hx : IsIdentifier E.U x) (hh : Gap nl h) (ht : NameTail E.U nl xs t) :
    Runs (P.bind (tag c!"::") fun _ => decorated (wsOrSp b) (cutIdent E.U) (wsOrSp b)) (c!"::" ++ (g ++ (x ++ h)))
      (t ++ '(' :: r) fun d => d.name = x :=
  Runs.bind runs_tag fun _ _ => runs_decIdent (x := x)
    (runs_gap (hg.mono hb) ((ident_starts hx).append _).solid)
    (runs_cutIdent hx (gap_idEnd hh (.inl (nameTail_follow (b := b) ht).2)))
    (runs_gap (hh.mono hb) (nameTail_follow ht).1)

/-- The components of a function name after the first one. -/
theorem run_nameTail {b nl : Bool} (hb : nl = true → b = true) {r : Str} :
    ∀ {xs : List Str} {t : Str}, NameTail E.U nl xs t →
    Reps (P.bind (tag c!"::") fun _ => decorated (wsOrSp b) (cutIdent E.U) (wsOrSp b))
      (fun ds => ds.map DIdent.name = xs) t ('(' :: r) := by
  intro xs t h
  induction h with
  | nil => exact .nil (Backs.bind (backs_tag (by rintro ⟨z, hz⟩; injection hz with hz _; cases hz))) rfl
  | @cons x xs g h t hg hx hh ht ih =>
    rw [show c!"::" ++ g ++ x ++ h ++ t = (c!"::" ++ (g ++ (x ++ h))) ++ t by asc]
    refine .cons nofun (run_nameStep hb hg hx hh ht) ?_
    rintro d rfl
    exact ih.conseq fun ds hds => by rw [List.map_cons, hds]

theorem snoc_inj {α : Type} {a b : List α} {x y : α} (h : a ++ [x] = b ++ [y]) : a = b ∧ x = y := by
  have := List.append_inj' h rfl
  exact ⟨this.1, by simpa using this.2⟩

/-- A function call. -/
theorem run_call {b nl : Bool} (hb : nl = true → b = true) {x : Str} {xs ns : List Str} {n : Str} {g t A r : Str}
    {es : List Expr} {ex : Bool} (hx : IsIdentifier E.U x) (hg : Gap nl g) (ht : NameTail E.U nl xs t)
    (hn : x :: xs = ns ++ [n]) (hA : Runs (funcArgs R) ('(' :: A) r fun a => ArgsOK E a es ex) (hA' : A ≠ []) :
    Runs (identlike E R b) (x ++ (g ++ (t ++ '(' :: A))) r
      fun v => Means E.U E.bd v.1 (.call ⟨ns, n⟩ es ex) ∧ v.2 = true := by
  obtain ⟨hquiet, hid⟩ := nameTail_follow (b := b) (r := A ++ r) ht
  rw [← List.cons_append, ← List.append_assoc] at hquiet hid
  unfold identlike
  refine Runs.bind (runs_strIdent hx (by rw [List.append_assoc]; exact gap_idEnd hg (.inl hid))).withSpan ?_
  rintro ⟨x', xs'⟩ h
  dsimp only at h
  subst h
  refine runs_look_go (runs_gap (hg.mono hb) hquiet) fun cp s => ?_
  cases ht with
  | nil =>
    obtain ⟨c, A, rfl⟩ : ∃ c A', A = c :: A' := by
      cases A with
      | nil => exact absurd rfl hA'
      | cons c A => exact ⟨c, A, rfl⟩
    have htwo : two (([] ++ '(' :: c :: A) ++ r) = some ('(', c) := rfl
    rw [htwo, if_neg (by intro h; injection h with h; injection h with h _; cases h), if_pos (by rfl)]
    refine hA.bind_last fun a ha => .pure ⟨?_, rfl⟩
    obtain ⟨rfl, rfl⟩ := snoc_inj (a := []) (show [] ++ [x'] = ns ++ [n] from hn)
    exact den_call rfl rfl ha
  | @cons y ys g' h t' hg' hy hh ht' =>
    have htwo : two (((c!"::" ++ g' ++ y ++ h ++ t') ++ '(' :: A) ++ r) = some (':', ':') := by asc; rfl
    rw [htwo, if_pos rfl]
    rw [show c!"::" ++ g' ++ y ++ h ++ t' = (c!"::" ++ (g' ++ (y ++ h))) ++ t' by asc]
    refine Runs.bind (Q := fun ds : List DIdent => ds ≠ [] ∧ ds.map DIdent.name = y :: ys)
      (Reps.runs1 (run_nameStep hb hg' hy hh ht') ?_) ?_
    · rintro d rfl
      exact (run_nameTail hb ht').conseq fun ds hds => ⟨nofun, by rw [List.map_cons, hds]⟩
    · rintro ds ⟨hne, hds⟩
      rcases List.eq_nil_or_concat ds with rfl | ⟨init, last, rfl⟩
      · exact absurd rfl hne
      rw [List.concat_eq_append] at hds ⊢
      rw [List.getLast?_append, List.getLast?_singleton, Option.some_or, List.dropLast_concat]
      dsimp only
      refine hA.bind_last fun a ha => .pure ⟨?_, rfl⟩
      rw [List.map_append, List.map_cons, List.map_nil] at hds
      rw [← hds, ← List.cons_append] at hn
      obtain ⟨rfl, rfl⟩ := snoc_inj hn
      exact den_call rfl rfl ha

/-! ### Operands without a traversal -/

/-- What may follow an operand without a traversal. -/
def FolA (U : Uni) (b : Bool) (r : Str) : Prop :=
  IdEnd U r ∧ ∃ g u, r = g ++ u ∧ Over u b g ∧ ¬ StartsTrivia b u ∧ (∀ x, u ≠ '(' :: x) ∧ ∀ x, u ≠ ':' :: ':' :: x

theorem run_word {b : Bool} {x r : Str} (hx : IsIdentifier E.U x) (hr : FolA E.U b r) :
    Runs (identlike E R b) x r fun v => v = (keywordOrVar x, b) := by
  obtain ⟨hid, g, u, rfl, hg, hu, h1, h2⟩ := hr
  unfold identlike
  refine Runs.bind_last (runs_strIdent hx hid).withSpan ?_
  rintro ⟨x', xs'⟩ h
  dsimp only at h
  subst h
  refine runs_look_back (t := []) (runs_over hg hu) rfl (p := fun _ _ => P.pure (keywordOrVar x', b)) ?_ fun _ _ => .pure rfl
  intro cp s
  cases u with
  | nil => rfl
  | cons c u =>
    cases u with
    | nil => rfl
    | cons d u =>
      have h3 : ¬ some (c, d) = some (':', ':') := by
        intro h; injection h with h; injection h with h h'
        subst h h'; exact h2 _ rfl
      have h4 : ¬ Option.map (fun x : Char × Char => x.1) (some (c, d)) = some '(' := by
        intro h; injection h with h
        subst h; exact h1 _ rfl
      show (if some (c, d) = some (':', ':') then _ else _) = _
      rw [if_neg h3]
      show (if Option.map (fun x : Char × Char => x.1) (some (c, d)) = some '(' then _ else _) = _
      rw [if_neg h4]
      rfl

theorem peek_head {β : Type} {c : Char} {cs r : Str} {f : Char → P β} {Q : β → Prop} (h : Runs (f c) (c :: cs) r Q) :
    Runs (P.bind (peek any) f) (c :: cs) r Q := by
  refine Runs.bind_nil (Q := fun x => x = c) (Runs.peek (t := [c]) (r := cs ++ r) runs_any) ?_
  rintro _ rfl
  exact h

theorem digit_not_start {U : Uni} {c : Char} (hd : isDigit c = true) : isIdStart U c = false := by
  cases hc' : isIdStart U c with
  | false => rfl
  | true =>
    exfalso
    unfold isDigit at hd
    have h2 := of_decide_eq_true hd
    unfold isIdStart at hc'
    have h3 : c.toNat ≤ 57 := h2.2
    have h4 : 48 ≤ c.toNat := h2.1
    rw [U.ascii_start _ (by omega), Bool.or_eq_true] at hc'
    rcases hc' with h | h
    · unfold Char.isAlpha Char.isUpper Char.isLower at h
      simp only [Bool.or_eq_true, Bool.and_eq_true, decide_eq_true_eq] at h
      rcases h with ⟨h, _⟩ | ⟨h, _⟩
      · have h : 65 ≤ c.toNat := h
        omega
      · have h : 97 ≤ c.toNat := h
        omega
    · rw [beq_iff_eq] at h
      subst h
      revert h3; decide

/-- The dispatch on an identifier. -/
theorem dispatch_id {b : Bool} {t r : Str} {Q : EExpr × Bool → Prop} (ht : ∃ x s, IsIdentifier E.U x ∧ t = x ++ s)
    (h : Runs (identlike E R b) t r Q) : Runs (termCore E R b) t r Q := by
  obtain ⟨x, s, ⟨c, cs, rfl, hc, _⟩, rfl⟩ := ht
  have hc' := idFirst_iff.mpr hc
  have key : ∀ d, nonId d = true → c ≠ d := by
    rintro d hd rfl
    rw [nonId_start hd] at hc'; cases hc'
  have hm : c ≠ '-' := by
    rintro rfl
    unfold isIdStart at hc'
    rw [E.U.ascii_start _ (by decide)] at hc'
    cases hc'
  have hdg : isDigit c = false := by
    cases hd : isDigit c with
    | false => rfl
    | true => rw [digit_not_start hd] at hc'; cases hc'
  unfold termCore
  refine peek_head ?_
  rw [if_neg (key '"' rfl), if_neg (key '[' rfl), if_neg (key '{' rfl), hdg, if_neg (by decide), if_neg (key '<' rfl),
    if_neg hm, if_neg (key '!' rfl), if_neg (key '(' rfl), if_pos hc']
  exact h

/-- What the parser returns for an operand. -/
def AtomQ (E : PEnv) (b : Bool) (e : Expr) (v : EExpr × Bool) : Prop := Means E.U E.bd v.1 e ∧ v.2 = (b || opens e)

theorem run_atom (HG : Good E R m) {b nl : Bool} (hb : nl = true → b = true) {e : Expr} {t r : Str}
    (h : Atom E.U E.bd nl e t) (hm : t.length ≤ m) (hr : FolA E.U b r) (hn : isNumber e = true → NumEnd r) :
    Runs (termCore E R b) t r (AtomQ E b e) := by
  have close : ∀ {v : EExpr} {e : Expr}, Means E.U E.bd v e → opens e = false → AtomQ E b e (v, b) := fun hv ho =>
    ⟨hv, by rw [ho, Bool.or_false]⟩
  have opened : ∀ {v : EExpr} {e : Expr}, Means E.U E.bd v e → opens e = true → AtomQ E b e (v, true) := fun hv ho =>
    ⟨hv, by rw [ho, Bool.or_true]⟩
  have call : ∀ {x : Str} {xs ns : List Str} {n : Str} {g t A : Str}
    {es : List Expr} {ex : Bool} (hx : IsIdentifier E.U x) (hg : Gap nl g) (ht : NameTail E.U nl xs t)
    (hn : x :: xs = ns ++ [n]) (hA : Runs (funcArgs R) ('(' :: A) r fun a => ArgsOK E a es ex) (hA' : A ≠ []),
    Runs (termCore E R b) (x ++ (g ++ (t ++ '(' :: A))) r (AtomQ E b (.call ⟨ns, n⟩ es ex)) :=
    fun hx hg ht hn hA hA' => dispatch_id ⟨_, _, hx, rfl⟩ ((run_call hb hx hg ht hn hA hA').conseq fun v hv =>
      ⟨hv.1, by rw [hv.2]; simp [opens]⟩)
  cases h with
  | null =>
    refine dispatch_id ⟨_, [], starts_null, rfl⟩ ((run_word starts_null hr).conseq ?_)
    rintro _ rfl
    exact close .null rfl
  | @bool _ v =>
    cases v with
    | true =>
      refine dispatch_id ⟨_, [], starts_true, rfl⟩ ((run_word starts_true hr).conseq ?_)
      rintro _ rfl
      exact close .bool rfl
    | false =>
      refine dispatch_id ⟨_, [], starts_false, rfl⟩ ((run_word starts_false hr).conseq ?_)
      rintro _ rfl
      exact close .bool rfl
  | var hx hk =>
    refine dispatch_id ⟨_, [], hx, (List.append_nil _).symm⟩ ((run_word hx hr).conseq ?_)
    rintro _ rfl
    unfold keywords at hk
    simp only [List.mem_cons, List.not_mem_nil, or_false, not_or] at hk
    unfold keywordOrVar
    rw [if_neg hk.1, if_neg hk.2.1, if_neg hk.2.2]
    exact close .var rfl
  | @number _ n t hx =>
    have hnum := hn rfl
    cases hx with
    | pos hx =>
      obtain ⟨c, cs, rfl, hc⟩ := uNum_head hx
      have key : ∀ d, isDigit d = false → c ≠ d := by
        rintro d hd rfl
        rw [hc] at hd; cases hd
      unfold termCore
      refine peek_head ?_
      rw [if_neg (key '"' rfl), if_neg (key '[' rfl), if_neg (key '{' rfl), if_pos hc]
      refine Runs.map ((runs_pos hx hnum).conseq ?_)
      rintro _ ⟨s, rfl⟩
      exact close .number rfl
    | @neg g t n' _ hg hx hneg =>
      unfold termCore
      refine peek_head ?_
      rw [if_neg (by decide), if_neg (by decide), if_neg (by decide), if_neg (by decide), if_neg (by decide), if_pos rfl]
      refine Runs.map (Runs.alt_left ((runs_neg hg hx hnum hneg).conseq ?_))
      rintro _ ⟨s, rfl⟩
      exact close .number rfl
  | @string _ q v hq =>
    simp only [List.append_assoc]
    unfold termCore
    refine peek_head (c := '"') ?_
    rw [if_pos rfl]
    refine Runs.map (Runs.alt_left (Runs.map ((runs_quotedString hq r).conseq ?_)))
    rintro _ rfl
    exact close .string rfl
  | template hs ht hes =>
    simp only [List.append_assoc, List.length_append, List.length_cons, List.length_nil] at hm ⊢
    unfold termCore
    refine peek_head (c := '"') ?_
    rw [if_pos rfl]
    exact Runs.map ((run_stringlike HG hs ht hes (by omega)).conseq fun _ hv => close hv rfl)
  | heredoc hd he hs ht hc hsp =>
    simp only [List.append_assoc, List.length_append, List.length_cons, List.length_nil] at hm ⊢
    unfold termCore
    refine peek_head (c := '<') ?_
    rw [if_neg (by decide), if_neg (by decide), if_neg (by decide), if_neg (by decide), if_pos rfl]
    exact Runs.map ((run_plainHeredoc HG hd he hs ht (by omega) hc hsp hr.1).conseq fun _ hv => close hv rfl)
  | indented hd he hi hs ht hc hsp =>
    simp only [List.append_assoc, List.length_append, List.length_cons, List.length_nil] at hm ⊢
    unfold termCore
    refine peek_head (c := '<') ?_
    rw [if_neg (by decide), if_neg (by decide), if_neg (by decide), if_neg (by decide), if_pos rfl]
    exact Runs.map ((run_indentedHeredoc HG hd he hi hs ht (by omega) hc hsp hr.1).conseq fun _ hv => close hv rfl)
  | flush hd he hi hs ht hc hsp =>
    simp only [List.append_assoc, List.length_append, List.length_cons, List.length_nil] at hm ⊢
    unfold termCore
    refine peek_head (c := '<') ?_
    rw [if_neg (by decide), if_neg (by decide), if_neg (by decide), if_neg (by decide), if_pos rfl]
    exact Runs.map ((run_flushHeredoc HG hd he hi hs ht (by omega) hc hsp hr.1).conseq fun _ hv => close hv rfl)
  | @paren _ e g t h hg ht hh =>
    simp only [List.append_assoc, List.length_append, List.length_cons, List.length_nil] at hm ⊢
    unfold termCore
    refine peek_head (c := '(') ?_
    rw [if_neg (by decide), if_neg (by decide), if_neg (by decide), if_neg (by decide), if_neg (by decide),
      if_neg (by decide), if_neg (by decide), if_pos rfl]
    refine Runs.map (Runs.conseq (Q := fun v => Means E.U E.bd v (.paren e)) ?_ fun v hv => close hv rfl)
    unfold parenthesis
    refine Runs.bind (t := ['(']) (u := g ++ (t ++ (h ++ [')']))) runs_chr.cutErr fun _ _ => ?_
    rw [show g ++ (t ++ (h ++ [')'])) = (g ++ (t ++ h)) ++ [')'] by asc]
    refine Runs.bind (run_ws HG hg ht (by omega) hh (quiet_calm rfl) (.inl (idEnd_cons rfl))) fun v hv => ?_
    exact runs_chr.cutErr.bind_last fun _ _ => .pure (.paren hv)
  | emptyArray hg =>
    simp only [List.append_assoc]
    unfold termCore
    refine peek_head (c := '[') ?_
    rw [if_neg (by decide), if_pos rfl]
    exact Runs.map ((run_emptyArray hg).conseq fun v hv => opened hv rfl)
  | array hs hf =>
    simp only [List.append_assoc, List.length_append, List.length_cons, List.length_nil] at hm ⊢
    unfold termCore
    refine peek_head (c := '[') ?_
    rw [if_neg (by decide), if_pos rfl]
    exact Runs.map ((run_array HG hs (by omega) hf).conseq fun v hv => opened hv rfl)
  | arrayComma hs hf hg =>
    simp only [List.append_assoc, List.length_append, List.length_cons, List.length_nil] at hm ⊢
    unfold termCore
    refine peek_head (c := '[') ?_
    rw [if_neg (by decide), if_pos rfl]
    exact Runs.map ((run_arrayComma HG hs (by omega) hf hg).conseq fun v hv => opened hv rfl)
  | object hi hf ha =>
    simp only [List.append_assoc, List.length_append, List.length_cons, List.length_nil] at hm ⊢
    unfold termCore
    refine peek_head (c := '{') ?_
    rw [if_neg (by decide), if_neg (by decide), if_pos rfl]
    exact (run_object HG hi (by omega) hf ha).conseq fun v hv => ⟨hv.1, by rw [hv.2]; simp [opens]⟩
  | emptyCall hx hg ht hnn hh =>
    simp only [List.append_assoc]
    exact call hx hg ht hnn (run_args_empty hh) (by simp)
  | call hx hg ht hnn hs =>
    simp only [List.append_assoc, List.length_append, List.length_cons, List.length_nil] at hm ⊢
    exact call hx hg ht hnn (run_args HG hs (by omega)) (by simp)
  | callComma hx hg ht hnn hs hh =>
    simp only [List.append_assoc, List.length_append, List.length_cons, List.length_nil] at hm ⊢
    exact call hx hg ht hnn (run_args_comma HG hs (by omega) hh) (by simp)
  | callExpand hx hg ht hnn hs hh =>
    simp only [List.append_assoc, List.length_append, List.length_cons, List.length_nil] at hm ⊢
    exact call hx hg ht hnn (run_args_expand HG hs (by omega) hh) (by simp)
  | forList hi hg ht hh hc hne =>
    simp only [List.append_assoc, List.length_append, List.length_cons, List.length_nil] at hm ⊢
    unfold termCore
    refine peek_head (c := '[') ?_
    rw [if_neg (by decide), if_pos rfl]
    exact Runs.map ((run_forList HG hi hg ht hh hc hne (by simp only [List.length_append]; omega)).conseq
      fun v hv => opened hv rfl)
  | forObject hi hg₁ ht₁ hh₁ hg₂ ht₂ hh₂ hc hne =>
    simp only [List.append_assoc, List.length_append, List.length_cons, List.length_nil] at hm ⊢
    unfold termCore
    refine peek_head (c := '{') ?_
    rw [if_neg (by decide), if_neg (by decide), if_pos rfl]
    exact (run_forObject HG hi hg₁ ht₁ hh₁ hg₂ ht₂ hh₂ hc hne (by
      simp only [List.length_append, List.length_cons, List.length_nil]; omega)).conseq
      fun v hv => ⟨hv.1, by rw [hv.2]; simp [opens]⟩
  | forGroup hi hg₁ ht₁ hh₁ hg₂ ht₂ hh₂ hg₃ hc =>
    simp only [List.append_assoc, List.length_append, List.length_cons, List.length_nil] at hm ⊢
    unfold termCore
    refine peek_head (c := '{') ?_
    rw [if_neg (by decide), if_neg (by decide), if_pos rfl]
    exact (run_forGroup HG hi hg₁ ht₁ hh₁ hg₂ ht₂ hh₂ hg₃ hc (by
      simp only [List.length_append, List.length_cons, List.length_nil]; omega)).conseq
      fun v hv => ⟨hv.1, by rw [hv.2]; simp [opens]⟩

end Verif.Gram
