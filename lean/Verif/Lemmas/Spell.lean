import Verif.Lemmas.RunGap
import Verif.Lemmas.Pratt
import Verif.Lemmas.Means
/-! What may follow a spelling. -/

namespace Verif.Gram
open P Spec Syn

/-! ### What follows -/

/-- The next two characters. -/
def two : Str → Option (Char × Char)
  | a :: b :: _ => some (a, b)
  | _ => none

/-- The text does not continue an operand. -/
structure QuietT (b : Bool) (u : Str) : Prop where
  triv : ¬ StartsTrivia b u
  paren : ∀ r, u ≠ '(' :: r
  colon : ∀ r, u ≠ ':' :: ':' :: r
  brack : ∀ r, u ≠ '[' :: r
  dot : ∀ r, u = '.' :: r → ∃ r', r = '.' :: r'

/-- The text does not continue a chain of operators. -/
structure QuietC (b : Bool) (u : Str) : Prop extends QuietT b u where
  bin : startsBinary (two u) = false
  op : Backs binaryOperator u

/-- The text does not continue an expression. -/
structure QuietE (b : Bool) (u : Str) : Prop extends QuietC b u where
  quest : ∀ r, u ≠ '?' :: r

theorem backs_binaryOperator {c : Char} {r : Str} (h : (c == '=' || c == '!' || c == '<' ||
    c == '>' || c == '+' || c == '-' || c == '*' || c == '/' || c == '%' || c == '&' || c == '|') = false) :
    Backs binaryOperator (c :: r) := by
  unfold binaryOperator
  simp only [Bool.or_eq_false_iff, beq_eq_false_iff_ne, ne_eq] at h
  refine Runs.bind_backs (t := [c]) runs_any ?_
  rintro _ rfl
  simp only [h, if_false]
  exact backs_fail

/-- What may follow an operand. -/
def FolT (U : Uni) (b : Bool) (r : Str) : Prop :=
  IdEnd U r ∧ ∃ g u, r = g ++ u ∧ Over u b g ∧ QuietT b u

/-- What may follow a chain of operators. -/
def FolC (U : Uni) (b : Bool) (r : Str) : Prop :=
  IdEnd U r ∧ ∃ g u, r = g ++ u ∧ Over u b g ∧ QuietC b u

/-- What may follow an expression. -/
def FolE (U : Uni) (b : Bool) (r : Str) : Prop :=
  IdEnd U r ∧ ∃ g u, r = g ++ u ∧ Over u b g ∧ QuietE b u

theorem FolE.toC {U : Uni} {b : Bool} {r : Str} (h : FolE U b r) : FolC U b r := by
  obtain ⟨h1, g, u, h2, h3, h4⟩ := h
  exact ⟨h1, g, u, h2, h3, h4.toQuietC⟩

theorem FolC.toT {U : Uni} {b : Bool} {r : Str} (h : FolC U b r) : FolT U b r := by
  obtain ⟨h1, g, u, h2, h3, h4⟩ := h
  exact ⟨h1, g, u, h2, h3, h4.toQuietT⟩

theorem FolE.toT {U : Uni} {b : Bool} {r : Str} (h : FolE U b r) : FolT U b r := h.toC.toT

/-- Characters that start nothing that continues an expression. -/
def calm (c : Char) : Bool :=
  solid c && !(c == '?' || c == '[' || c == '(' || c == '.' || c == ':' || c == '=' || c == '!' || c == '<' ||
    c == '>' || c == '+' || c == '-' || c == '*' || c == '%' || c == '&' || c == '|')

theorem quiet_calm {b : Bool} {c : Char} {r : Str} (h : calm c = true) : QuietE b (c :: r) := by
  unfold calm at h
  rw [Bool.and_eq_true, Bool.not_eq_true'] at h
  obtain ⟨h1, h2⟩ := h
  have hs := h1
  unfold solid at h1
  simp only [Bool.or_eq_false_iff, beq_eq_false_iff_ne, ne_eq, Bool.not_eq_true'] at h1 h2
  refine ⟨⟨⟨solid_starts hs, ?_, ?_, ?_, ?_⟩, ?_, ?_⟩, ?_⟩
  · rintro r h; injection h with h; simp [h] at h2
  · rintro r h; injection h with h; simp [h] at h2
  · rintro r h; injection h with h; simp [h] at h2
  · rintro r h; injection h with h; simp [h] at h2
  · cases r with
    | nil => rfl
    | cons d r => simp [two, startsBinary, h1, h2]
  · exact backs_binaryOperator (by simp [h1, h2])
  · rintro r h; injection h with h; simp [h] at h2

theorem quiet_nil {b : Bool} : QuietE b [] :=
  ⟨⟨⟨nil_starts, nofun, nofun, nofun, nofun⟩, rfl, Backs.bind backs_any⟩, nofun⟩

theorem quiet_colon {b : Bool} {r : Str} (h : ∀ x, r ≠ ':' :: x) : QuietE b (':' :: r) := by
  refine ⟨⟨⟨solid_starts rfl, ?_, ?_, ?_, ?_⟩, ?_, backs_binaryOperator rfl⟩, ?_⟩
  · rintro r h; injection h with h; cases h
  · rintro r h'; injection h' with _ h'; exact h _ h'
  · rintro r h; injection h with h; cases h
  · rintro r h; injection h with h; cases h
  · cases r with
    | nil => rfl
    | cons d r => simp [two, startsBinary]
  · rintro r h; injection h with h; cases h

theorem quiet_equals {b : Bool} {r : Str} (h : ∀ x, r ≠ '=' :: x) : QuietE b ('=' :: r) := by
  refine ⟨⟨⟨solid_starts rfl, ?_, ?_, ?_, ?_⟩, ?_, ?_⟩, ?_⟩
  · rintro r h; injection h with h; cases h
  · rintro r h; injection h with h; cases h
  · rintro r h; injection h with h; cases h
  · rintro r h; injection h with h; cases h
  · cases r with
    | nil => rfl
    | cons d r =>
      have : d ≠ '=' := fun h' => h r (by rw [h'])
      simp [two, startsBinary, this]
  · unfold binaryOperator
    refine Runs.bind_backs (t := ['=']) runs_any ?_
    rintro _ rfl
    rw [if_pos rfl]
    exact Backs.bind (backs_chr h)
  · rintro r h; injection h with h; cases h

/-- The arrow of an object `for` expression. -/
theorem quiet_arrow {b : Bool} {r : Str} : QuietE b ('=' :: '>' :: r) :=
  quiet_equals fun _ h => by injection h with h; cases h

theorem quiet_dots {b : Bool} {r : Str} : QuietE b ('.' :: '.' :: r) := by
  refine ⟨⟨⟨solid_starts rfl, ?_, ?_, ?_, ?_⟩, ?_, backs_binaryOperator rfl⟩, ?_⟩
  · rintro r h; injection h with h; cases h
  · rintro r h; injection h with h; cases h
  · rintro r h; injection h with h; cases h
  · rintro r h; injection h with _ h; exact ⟨_, h.symm⟩
  · simp [two, startsBinary]
  · rintro r h; injection h with h; cases h

theorem quiet_quest {b : Bool} {r : Str} : QuietC b ('?' :: r) := by
  refine ⟨⟨solid_starts rfl, ?_, ?_, ?_, ?_⟩, ?_, backs_binaryOperator rfl⟩
  · rintro r h; injection h with h; cases h
  · rintro r h; injection h with h; cases h
  · rintro r h; injection h with h; cases h
  · rintro r h; injection h with h; cases h
  · cases r with
    | nil => rfl
    | cons d r => simp [two, startsBinary]

theorem quiet_newline {c : Char} {r : Str} (h : c = '\n' ∨ c = '\r') : QuietE false (c :: r) := by
  refine ⟨⟨⟨newline_starts h, ?_, ?_, ?_, ?_⟩, ?_, ?_⟩, ?_⟩
  · rintro r h'; injection h' with h'; subst h'; rcases h with h | h <;> cases h
  · rintro r h'; injection h' with h'; subst h'; rcases h with h | h <;> cases h
  · rintro r h'; injection h' with h'; subst h'; rcases h with h | h <;> cases h
  · rintro r h'; injection h' with h'; subst h'; rcases h with h | h <;> cases h
  · cases r with
    | nil => rfl
    | cons d r => rcases h with rfl | rfl <;> simp [two, startsBinary]
  · exact backs_binaryOperator (by rcases h with rfl | rfl <;> rfl)
  · rintro r h'; injection h' with h'; subst h'; rcases h with h | h <;> cases h

theorem quiet_lineComment {x r : Str} (h : LineComment x) : QuietE false (x ++ r) := by
  have ht := lineComment_starts (r := r) h
  obtain ⟨t, rfl | rfl, -⟩ := h
  · refine ⟨⟨⟨ht, ?_, ?_, ?_, ?_⟩, ?_, backs_binaryOperator rfl⟩, ?_⟩
    · rintro r h; injection h with h; cases h
    · rintro r h; injection h with h; cases h
    · rintro r h; injection h with h; cases h
    · rintro r h; injection h with h; cases h
    · show startsBinary (two ('#' :: (t ++ r))) = false
      cases t ++ r with
      | nil => rfl
      | cons d r => simp [two, startsBinary]
    · rintro r h; injection h with h; cases h
  · refine ⟨⟨⟨ht, ?_, ?_, ?_, ?_⟩, ?_, ?_⟩, ?_⟩
    · rintro r h; injection h with h; cases h
    · rintro r h; injection h with h; cases h
    · rintro r h; injection h with h; cases h
    · rintro r h; injection h with h; cases h
    · simp [two, startsBinary]
    · unfold binaryOperator
      refine Runs.bind_backs (t := ['/']) runs_any ?_
      rintro _ rfl
      rw [if_neg (by decide), if_neg (by decide), if_neg (by decide), if_neg (by decide),
        if_neg (by decide), if_neg (by decide), if_neg (by decide), if_pos rfl]
      exact Backs.bind (Runs.notP (t := ['/']) (runs_oneOf rfl))
    · rintro r h; injection h with h; cases h

theorem folE_of {U : Uni} {b : Bool} {g u : Str} (hg : Gap b g) (hq : QuietE b u)
    (hid : IdEnd U u ∨ g ≠ []) : FolE U b (g ++ u) := ⟨gap_idEnd hg hid, g, u, rfl, hg.over u, hq⟩

theorem folC_of {U : Uni} {b : Bool} {g u : Str} (hg : Gap b g) (hq : QuietC b u)
    (hid : IdEnd U u ∨ g ≠ []) : FolC U b (g ++ u) := ⟨gap_idEnd hg hid, g, u, rfl, hg.over u, hq⟩

theorem folT_of {U : Uni} {b : Bool} {g u : Str} (hg : Gap b g) (hq : QuietT b u)
    (hid : IdEnd U u ∨ g ≠ []) : FolT U b (g ++ u) := ⟨gap_idEnd hg hid, g, u, rfl, hg.over u, hq⟩

theorem QuietT.mono {u : Str} (h : QuietT true u) (b : Bool) : QuietT b u :=
  ⟨starts_mono h.triv, h.paren, h.colon, h.brack, h.dot⟩

theorem QuietC.mono {u : Str} (h : QuietC true u) (b : Bool) : QuietC b u :=
  ⟨h.toQuietT.mono b, h.bin, h.op⟩

theorem QuietE.mono {u : Str} (h : QuietE true u) (b : Bool) : QuietE b u :=
  ⟨h.toQuietC.mono b, h.quest⟩

/-- What is quiet after line breaks is also quiet if line breaks are not skipped. -/
theorem gap_down {Z : Bool → Str → Prop} (hmono : ∀ u, Z true u → Z false u)
    (hE : ∀ u, QuietE false u → Z false u) {g u : Str} (h : Over u true g) (hu : Z true u) :
    ∃ g' u', g ++ u = g' ++ u' ∧ Over u' false g' ∧ Z false u' := by
  generalize hb : true = b at h
  induction h with
  | nil => exact ⟨[], u, rfl, .nil, hmono u hu⟩
  | blank h _ ih =>
    obtain ⟨g', u', h1, h2, h3⟩ := ih hb
    exact ⟨_ :: g', u', by rw [List.cons_append, h1]; rfl, .blank h h2, h3⟩
  | newline h _ ih => exact ⟨[], _, rfl, .nil, hE _ (quiet_newline h)⟩
  | line h _ _ ih => exact ⟨[], _, rfl, .nil, hE _ (by
    show QuietE false ((_ ++ _) ++ u)
    rw [List.append_assoc, List.append_assoc]; exact quiet_lineComment h)⟩
  | block h _ ih =>
    obtain ⟨g', u', h1, h2, h3⟩ := ih hb
    exact ⟨_ ++ g', u', by rw [List.append_assoc, h1, List.append_assoc], .block h h2, h3⟩
  | last hnil h => exact ⟨[], _, rfl, .nil, hE _ (quiet_lineComment h)⟩

theorem fol_down {U : Uni} {Z : Bool → Str → Prop} (hmono : ∀ u, Z true u → Z false u)
    (hE : ∀ u, QuietE false u → Z false u) {b c : Bool} {r : Str}
    (h : IdEnd U r ∧ ∃ g u, r = g ++ u ∧ Over u b g ∧ Z b u) (hbc : c = true → b = true) :
    IdEnd U r ∧ ∃ g u, r = g ++ u ∧ Over u c g ∧ Z c u := by
  cases b with
  | false =>
    cases c with
    | false => exact h
    | true => cases hbc rfl
  | true =>
    cases c with
    | true => exact h
    | false =>
      obtain ⟨h1, g, u, rfl, h3, h4⟩ := h
      obtain ⟨g', u', h5, h6, h7⟩ := gap_down hmono hE h3 h4
      exact ⟨h1, g', u', h5, h6, h7⟩

theorem FolE.down {U : Uni} {b c : Bool} {r : Str} (h : FolE U b r) (hbc : c = true → b = true) : FolE U c r :=
  fol_down (Z := QuietE) (fun _ h => h.mono _) (fun _ h => h) h hbc

/-- The end of the input, possibly after a comment. -/
theorem folE_end {U : Uni} {b : Bool} {g : Str} (hg : Over [] true g) : FolE U b g := by
  have h : FolE U true g := by
    refine ⟨?_, g, [], (List.append_nil _).symm, hg, quiet_nil⟩
    have := over_idEnd (U := U) hg (.inl idEnd_nil)
    rwa [List.append_nil] at this
  exact h.down fun _ => rfl

theorem FolC.down {U : Uni} {b c : Bool} {r : Str} (h : FolC U b r) (hbc : c = true → b = true) : FolC U c r :=
  fol_down (Z := QuietC) (fun _ h => h.mono _) (fun _ h => h.toQuietC) h hbc

theorem FolT.down {U : Uni} {b c : Bool} {r : Str} (h : FolT U b r) (hbc : c = true → b = true) : FolT U c r :=
  fol_down (Z := QuietT) (fun _ h => h.mono _) (fun _ h => h.toQuietT) h hbc

theorem FolT.numEnd {U : Uni} {b : Bool} {r : Str} (h : FolT U b r) : NumEnd r := by
  obtain ⟨h1, g, u, rfl, h3, h4⟩ := h
  refine numEnd_of h1 fun d ds hd => ?_
  cases g with
  | nil =>
    obtain ⟨r', hr'⟩ := h4.dot _ hd
    injection hr' with h _
    subst h
    rfl
  | cons c g =>
    injection hd with hc _
    subst hc
    rcases over_head h3 _ _ rfl with h | h | h | h | h | h <;> cases h

/-! ### Running -/

theorem peek2_eq (pos : Nat) (u : Str) : peek2 ⟨pos, u⟩ = .ok (two u) ⟨pos, u⟩ := by
  cases u with
  | nil => rfl
  | cons a u => cases u <;> rfl

theorem runs_getInput {β : Type} {K : Input → P β} {t r : Str} {R : β → Prop}
    (h : ∀ i, Runs (K i) t r R) : Runs (P.bind getInput K) t r R := fun pos => h _ pos

/-- A look at what comes after whitespace. -/
theorem runs_look {β : Type} {K : Input → Span → Option (Char × Char) → P β} {w : P Unit} {g u t r : Str}
    {Q : Unit → Prop} {R : β → Prop} (hw : Runs w g u Q) (he : t ++ r = g ++ u)
    (hK : ∀ pos s, ∃ v, K ⟨pos, t ++ r⟩ s (two u) ⟨pos + g.length, u⟩ = .ok v ⟨pos + t.length, r⟩ ∧ R v) :
    Runs (P.bind getInput fun cp => P.bind (spanOf w) fun s => P.bind peek2 fun nx => K cp s nx) t r R := by
  intro pos
  obtain ⟨s, h1, -⟩ := hw.spanOf pos
  obtain ⟨v, h2, h3⟩ := hK pos s
  refine ⟨v, ?_, h3⟩
  show (P.bind (spanOf w) fun s => P.bind peek2 fun nx => K ⟨pos, t ++ r⟩ s nx) ⟨pos, t ++ r⟩ = _
  rw [← h2, he]
  unfold P.bind
  rw [h1]
  dsimp only
  rw [peek2_eq]

theorem runs_spanned {α : Type} [HasMeta α] {p : P α} {t r : Str} {Q R : α → Prop} (h : Runs p t r Q)
    (hR : ∀ v f, Q v → R (HasMeta.mapMeta f v)) : Runs (spanned p) t r R :=
  Runs.map (h.withSpan.conseq fun v hv => hR v.1 _ hv)

theorem runs_decorated {α β γ : Type} [HasMeta α] {pre : P β} {p : P α} {suf : P γ} {g t h r : Str}
    {Q R : α → Prop} {A : β → Prop} {B : γ → Prop} (h1 : Runs pre g (t ++ (h ++ r)) A)
    (h2 : Runs p t (h ++ r) Q) (h3 : Runs suf h r B)
    (hR : ∀ v f f', Q v → R (HasMeta.mapMeta f (HasMeta.mapMeta f' v))) :
    Runs (decorated pre p suf) (g ++ (t ++ h)) r R := by
  unfold decorated
  refine Runs.bind (t := g) (u := t ++ h) (by rw [List.append_assoc]; exact h1.spanOf) fun _ _ => ?_
  refine Runs.bind (runs_spanned (R := fun w => ∃ v f', Q v ∧ w = HasMeta.mapMeta f' v) h2
    fun v f hv => ⟨v, f, hv, rfl⟩) ?_
  rintro _ ⟨v, f', hv, rfl⟩
  exact h3.spanOf.bind_last fun _ _ => .pure (hR v _ f' hv)

theorem runs_prefixDecorated {α β : Type} [HasMeta α] {pre : P β} {p : P α} {g t r : Str}
    {Q R : α → Prop} {A : β → Prop} (h1 : Runs pre g (t ++ r) A)
    (h2 : Runs p t r Q)
    (hR : ∀ v f f', Q v → R (HasMeta.mapMeta f (HasMeta.mapMeta f' v))) :
    Runs (prefixDecorated pre p) (g ++ t) r R := by
  unfold prefixDecorated
  refine Runs.bind (t := g) (u := t) h1.spanOf fun _ _ => ?_
  refine Runs.bind_last (runs_spanned (R := fun w => ∃ v f', Q v ∧ w = HasMeta.mapMeta f' v) h2
    fun v f hv => ⟨v, f, hv, rfl⟩) ?_
  rintro _ ⟨v, f', hv, rfl⟩
  exact .pure (hR v _ f' hv)

theorem runs_suffixDecorated {α γ : Type} [HasMeta α] {p : P α} {suf : P γ} {t h r : Str}
    {Q R : α → Prop} {B : γ → Prop}
    (h2 : Runs p t (h ++ r) Q) (h3 : Runs suf h r B)
    (hR : ∀ v f f', Q v → R (HasMeta.mapMeta f (HasMeta.mapMeta f' v))) :
    Runs (suffixDecorated p suf) (t ++ h) r R := by
  unfold suffixDecorated
  refine Runs.bind (runs_spanned (R := fun w => ∃ v f', Q v ∧ w = HasMeta.mapMeta f' v) h2
    fun v f hv => ⟨v, f, hv, rfl⟩) ?_
  rintro _ ⟨v, f', hv, rfl⟩
  exact h3.spanOf.bind_last fun _ _ => .pure (hR v _ f' hv)

theorem runs_decExpr {β γ : Type} {U : Uni} {bd : Build} {e : Expr} {pre : P β} {p : P EExpr} {suf : P γ} {g t h r : Str}
    {A : β → Prop} {B : γ → Prop} (h1 : Runs pre g (t ++ (h ++ r)) A)
    (h2 : Runs p t (h ++ r) fun v => Means U bd v e) (h3 : Runs suf h r B) :
    Runs (decorated pre p suf) (g ++ (t ++ h)) r fun v => Means U bd v e :=
  runs_decorated h1 h2 h3 fun _ _ _ hv => (hv.mapMeta _).mapMeta _

theorem runs_decIdent {β γ : Type} {x : Str} {pre : P β} {p : P DIdent} {suf : P γ} {g t h r : Str}
    {A : β → Prop} {B : γ → Prop} (h1 : Runs pre g (t ++ (h ++ r)) A)
    (h2 : Runs p t (h ++ r) fun v => v.name = x) (h3 : Runs suf h r B) :
    Runs (decorated pre p suf) (g ++ (t ++ h)) r fun v => v.name = x :=
  runs_decorated h1 h2 h3 fun _ _ _ hv => hv

theorem Runs.preceded {α β : Type} {p : P α} {q : P β} {t u r : Str} {A : α → Prop} {R : β → Prop}
    (h1 : Runs p t (u ++ r) A) (h2 : Runs q u r R) : Runs (P.preceded p q) (t ++ u) r R :=
  Runs.bind h1 fun _ _ => h2

theorem Runs.terminated {α β : Type} {p : P α} {q : P β} {t u r : Str} {A : β → Prop} {R : α → Prop}
    (h1 : Runs p t (u ++ r) R) (h2 : Runs q u r A) : Runs (P.terminated p q) (t ++ u) r R :=
  Runs.bind h1 fun _ hv => h2.bind_last fun _ _ => .pure hv

theorem Runs.delimited {α β γ : Type} {p : P α} {q : P β} {s : P γ} {t u w r : Str} {A : α → Prop} {R : β → Prop}
    {B : γ → Prop} (h1 : Runs p t (u ++ (w ++ r)) A) (h2 : Runs q u (w ++ r) R) (h3 : Runs s w r B) :
    Runs (P.delimited p q s) (t ++ (u ++ w)) r R :=
  Runs.preceded (by rw [List.append_assoc]; exact h1) (Runs.terminated h2 h3)

/-- The elements of a separated list after the first one. -/
inductive SepReps {α β : Type} (p : P α) (sep : P β) : (List α → Prop) → Str → Str → Prop
  | nil {R r} : Backs (P.bind sep fun _ => p) r → R [] → SepReps p sep R [] r
  | cons {R t u r} {Q : α → Prop} : t ≠ [] → Runs (P.bind sep fun _ => p) t (u ++ r) Q →
      (∀ v, Q v → SepReps p sep (fun vs => R (v :: vs)) u r) → SepReps p sep R (t ++ u) r

theorem SepReps.sepF {α β : Type} {p : P α} {sep : P β} {R : List α → Prop} {t r : Str}
    (h : SepReps p sep R t r) (n : Nat)
    (hn : (t ++ r).length < n) (pos : Nat) :
    ∃ vs, P.sepF p sep n ⟨pos, t ++ r⟩ = .ok vs ⟨pos + t.length, r⟩ ∧ R vs := by
  induction h generalizing n pos with
  | nil h1 h2 =>
    obtain ⟨j, h3⟩ := h1 pos
    cases n with
    | zero => omega
    | succ n =>
      refine ⟨[], ?_, h2⟩
      unfold P.sepF
      rw [List.nil_append, h3]; rfl
  | @cons R t u r Q hne h1 h2 ih =>
    cases n with
    | zero => omega
    | succ n =>
      obtain ⟨v, h3, h4⟩ := h1 pos
      have hlen : 0 < t.length := List.length_pos_iff.mpr hne
      rw [List.append_assoc, List.length_append] at hn
      obtain ⟨vs, h5, h6⟩ := ih v h4 n (by omega) (pos + t.length)
      refine ⟨v :: vs, ?_, h6⟩
      unfold P.sepF
      rw [List.append_assoc, h3]
      dsimp only
      rw [if_pos (by rw [List.length_append (as := t)]; omega), h5, List.length_append,
        Nat.add_assoc]

theorem SepReps.conseq {α β : Type} {p : P α} {sep : P β} {R S : List α → Prop} {t r : Str}
    (h : SepReps p sep R t r) (hS : ∀ vs, R vs → S vs) : SepReps p sep S t r := by
  induction h generalizing S with
  | nil h1 h2 => exact .nil h1 (hS _ h2)
  | cons hne h1 _ ih => exact .cons hne h1 fun v hv => ih v hv fun vs h => hS _ h

theorem SepReps.runs1 {α β : Type} {p : P α} {sep : P β} {R : List α → Prop} {t u r : Str} {Q : α → Prop}
    (h1 : Runs p t (u ++ r) Q) (h2 : ∀ v, Q v → SepReps p sep (fun vs => R (v :: vs)) u r) :
    Runs (P.separated1 p sep) (t ++ u) r R := h1.bind fun v hv pos => by
  obtain ⟨vs, h3, h4⟩ := (h2 v hv).sepF ((u ++ r).length + 1) (Nat.lt_succ_self _) pos
  refine ⟨v :: vs, ?_, h4⟩
  unfold P.map P.bind
  rw [h3]
  rfl

theorem SepReps.runs0 {α β : Type} {p : P α} {sep : P β} {R : List α → Prop} {t u r : Str} {Q : α → Prop}
    (h1 : Runs p t (u ++ r) Q) (h2 : ∀ v, Q v → SepReps p sep (fun vs => R (v :: vs)) u r) :
    Runs (P.separated0 p sep) (t ++ u) r R := fun pos => by
  obtain ⟨v, h3, h4⟩ := h1 pos
  obtain ⟨vs, h5, h6⟩ := (h2 v h4).sepF ((u ++ r).length + 1) (Nat.lt_succ_self _) (pos + t.length)
  refine ⟨v :: vs, ?_, h6⟩
  unfold P.separated0
  rw [List.append_assoc, h3]
  dsimp only
  unfold P.map P.bind
  rw [h5]
  dsimp only [P.pure]
  rw [List.length_append, Nat.add_assoc]

theorem Backs.separated0 {α β : Type} {p : P α} {sep : P β} {R : List α → Prop} {r : Str} (h : Backs p r)
    (hR : R []) : Runs (P.separated0 p sep) [] r R := fun pos => by
  obtain ⟨j, h1⟩ := h pos
  refine ⟨[], ?_, hR⟩
  unfold P.separated0
  rw [List.nil_append, h1]
  rfl

end Verif.Gram
