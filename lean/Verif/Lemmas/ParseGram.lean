import Verif.Lemmas.Source
import Verif.Lemmas.Pratt
/-! Triples for the grammar functions: expressions. -/

namespace Verif.Gram
open P Spec

variable {pan : Prop} {s : Str} {U : Uni}

macro "stp " h:term " => " x:term:max c:term:max q:term:max : tactic =>
  `(tactic| refine Tri.step $h (by omega) (by omega) (by omega) fun $x $c _ _ $q => ?_)

macro "fin " h:term " => " x:term:max c:term:max q:term:max : tactic =>
  `(tactic| refine Tri.fin $h (by omega) (by omega) (by omega) fun $x $c _ _ $q => ?_)

theorem Tri.preceded {Q : Nat → α → Nat → Prop} {R : Nat → β → Nat → Prop} {p : P α} {q : P β}
    {lo : Nat} (h1 : Tri pan s lo p Q) (h2 : Tri pan s lo q R) :
    Tri pan s lo (preceded p q) fun a y c => ∃ x b, a ≤ b ∧ Q a x b ∧ R b y c := by
  intro a _ _
  stp h1 => x b hx
  fin h2 => y c hy
  exact ⟨x, b, by omega, hx, hy⟩

theorem Tri.terminated {Q : Nat → α → Nat → Prop} {R : Nat → β → Nat → Prop} {p : P α} {q : P β}
    {lo : Nat} (h1 : Tri pan s lo p Q) (h2 : Tri pan s lo q R) :
    Tri pan s lo (terminated p q) fun a x c => ∃ y b, a ≤ b ∧ b ≤ c ∧ Q a x b ∧ R b y c := by
  intro a _ _
  stp h1 => x b hx
  stp h2 => y c hy
  exact wp_pure (by omega) (by omega) ⟨y, b, by omega, by omega, hx, hy⟩

theorem Tri.spanned [HasMeta α] {Q : Nat → α → Nat → Prop} {p : P α} {lo : Nat}
    (h : Tri pan s lo p Q) : Tri pan s lo (spanned p) fun a x b =>
      ∃ v, x = HasMeta.mapMeta (Meta.setSpan ⟨a, b⟩) v ∧ Q a v b :=
  h.withSpan.map.conseq fun a x b _ _ _ h => by
    obtain ⟨⟨v, sp⟩, rfl, h1, h2⟩ := h
    exact ⟨v, by rw [← h1], h2⟩

theorem Tri.decorated [HasMeta α] {A : Nat → β → Nat → Prop} {Q : Nat → α → Nat → Prop}
    {B : Nat → γ → Nat → Prop} {pre : P β} {p : P α} {suf : P γ} {lo : Nat}
    (h1 : Tri pan s lo pre A) (h2 : Tri pan s lo p Q) (h3 : Tri pan s lo suf B) :
    Tri pan s lo (decorated pre p suf) fun a x d => ∃ v b c, (∃ y, A a y b) ∧ Q b v c ∧
      (∃ y, B c y d) ∧ x = HasMeta.mapMeta (fun m =>
        (m.setPre (Raw.fromSpan ⟨a, b⟩)).setSuf (Raw.fromSpan ⟨c, d⟩))
          (HasMeta.mapMeta (Meta.setSpan ⟨b, c⟩) v) := by
  intro a _ _
  stp h1.spanOf => x b hx
  stp h2.spanned => y c hy
  stp h3.spanOf => z d hz
  obtain ⟨rfl, hx⟩ := hx
  obtain ⟨v, rfl, hy⟩ := hy
  obtain ⟨rfl, hz⟩ := hz
  exact wp_pure (by omega) (by omega) ⟨v, b, c, hx, hy, hz, rfl⟩

theorem Tri.prefixDecorated [HasMeta α] {A : Nat → β → Nat → Prop} {Q : Nat → α → Nat → Prop}
    {pre : P β} {p : P α} {lo : Nat} (h1 : Tri pan s lo pre A) (h2 : Tri pan s lo p Q) :
    Tri pan s lo (prefixDecorated pre p) fun a x c => ∃ v b, (∃ y, A a y b) ∧ Q b v c ∧
      x = HasMeta.mapMeta (Meta.setPre (Raw.fromSpan ⟨a, b⟩))
          (HasMeta.mapMeta (Meta.setSpan ⟨b, c⟩) v) := by
  intro a _ _
  stp h1.spanOf => x b hx
  stp h2.spanned => y c hy
  obtain ⟨rfl, hx⟩ := hx
  obtain ⟨v, rfl, hy⟩ := hy
  exact wp_pure (by omega) (by omega) ⟨v, b, hx, hy, rfl⟩

theorem Tri.suffixDecorated [HasMeta α] {Q : Nat → α → Nat → Prop} {B : Nat → γ → Nat → Prop}
    {p : P α} {suf : P γ} {lo : Nat} (h2 : Tri pan s lo p Q) (h3 : Tri pan s lo suf B) :
    Tri pan s lo (suffixDecorated p suf) fun b x d => ∃ v c, Q b v c ∧ (∃ y, B c y d) ∧
      x = HasMeta.mapMeta (Meta.setSuf (Raw.fromSpan ⟨c, d⟩))
          (HasMeta.mapMeta (Meta.setSpan ⟨b, c⟩) v) := by
  intro a _ _
  stp h2.spanned => y c hy
  stp h3.spanOf => z d hz
  obtain ⟨v, rfl, hy⟩ := hy
  obtain ⟨rfl, hz⟩ := hz
  exact wp_pure (by omega) (by omega) ⟨v, c, hy, hz, rfl⟩

/-! ### Postconditions -/

/-- An expression. -/
def ExprQ (U : Uni) (s : Str) (nl : Bool) (a : Nat) (e : EExpr) (b : Nat) : Prop :=
  Core U s nl e a b ∧ NodeM s e a b

/-- An expression with whitespace around it. -/
def DecQ (U : Uni) (s : Str) (nl k : Bool) (a : Nat) (e : EExpr) (d : Nat) : Prop :=
  ∃ b c, Triv s nl a b ∧ Core U s k e b c ∧ Triv s nl c d ∧ e.getMeta = decM a b c d

/-- An expression with whitespace before it. -/
def PreQ (U : Uni) (s : Str) (nl k : Bool) (a : Nat) (e : EExpr) (c : Nat) : Prop :=
  ∃ b, Triv s nl a b ∧ Core U s k e b c ∧ PreNodeM s e a b c

/-- A body. -/
def BodyQ (U : Uni) (s : Str) (a : Nat) (bd : EBody) (b : Nat) : Prop :=
  ∃ ss fin z, Lines U s ss fin a z ∧ (bodyKeys ss).Nodup ∧ Triv s true z b ∧
    bd = .mk ⟨⟨none, some (.fromSpan ⟨z, b⟩)⟩, some ⟨a, z⟩⟩ ss false fin

/-- What is assumed of the recursive calls. -/
structure RecOK (U : Uni) (pan : Prop) (s : Str) (lo : Nat) (R : PRec) : Prop where
  expr : ∀ nl, Tri pan s lo (R.expr nl) (ExprQ U s nl)
  term : ∀ nl, Tri pan s lo (R.term nl) fun a e b => ExprQ U s nl a e b ∧ isTerm e = true
  template : Tri pan s lo R.template fun a es b => TElems U s .plain es a b
  body : Tri pan s lo R.body (BodyQ U s)

theorem decorated_expr {β γ : Type} {nl k : Bool} {pre : P β} {p : P EExpr} {suf : P γ} {lo : Nat}
    (h1 : Tri pan s lo pre fun a _ b => Triv s nl a b) (h2 : Tri pan s lo p (ExprQ U s k))
    (h3 : Tri pan s lo suf fun a _ b => Triv s nl a b) :
    Tri pan s lo (decorated pre p suf) (DecQ U s nl k) :=
  (h1.decorated h2 h3).conseq fun a x d _ _ _ h => by
    obtain ⟨v, b, c, ⟨_, h1⟩, ⟨h2, r, h5, -⟩, ⟨_, h3⟩, rfl⟩ := h
    refine ⟨b, c, h1, (h2.mapMeta _).mapMeta _, h3, ?_⟩
    show ((v.mapMeta _).mapMeta _).getMeta = _
    rw [getMeta_mapMeta, getMeta_mapMeta, h5]; rfl

theorem prefixDecorated_expr {β : Type} {nl k : Bool} {pre : P β} {p : P EExpr} {lo : Nat}
    (h1 : Tri pan s lo pre fun a _ b => Triv s nl a b) (h2 : Tri pan s lo p (ExprQ U s k)) :
    Tri pan s lo (prefixDecorated pre p) (PreQ U s nl k) :=
  (h1.prefixDecorated h2).conseq fun a x d _ _ _ h => by
    obtain ⟨v, b, ⟨_, h1⟩, ⟨h2, r, h5, h6⟩, rfl⟩ := h
    refine ⟨b, h1, (h2.mapMeta _).mapMeta _, r, ?_, ?_⟩
    · show ((v.mapMeta _).mapMeta _).getMeta = _
      rw [getMeta_mapMeta, getMeta_mapMeta, h5]; rfl
    · unfold OwnSuf at h6 ⊢
      show _ ∨ groupedFor ((v.mapMeta _).mapMeta _) = true ∧ groupStart ((v.mapMeta _).mapMeta _) + 1 ≤ _ ∧ _ ∧
        _ = some (Raw.fromSpan ⟨groupStart ((v.mapMeta _).mapMeta _), _⟩)
      rw [groupedFor_mapMeta, groupedFor_mapMeta, groupStart_mapMeta, groupStart_mapMeta]
      exact h6

theorem tri_ws' {lo : Nat} : Tri pan s lo ws fun a _ b => Triv s true a b :=
  tri_ws.conseq fun _ _ _ _ _ _ h => h.1

theorem tri_sp' {lo : Nat} : Tri pan s lo sp fun a _ b => Triv s false a b :=
  tri_sp.conseq fun _ _ _ _ _ _ h => h.1

theorem decorated_ident {β γ : Type} {nl : Bool} {pre : P β} {suf : P γ} {lo : Nat}
    (h1 : Tri pan s lo pre fun a _ b => Triv s nl a b)
    (h3 : Tri pan s lo suf fun a _ b => Triv s nl a b) :
    Tri pan s lo (decorated pre (cutIdent U) suf) fun a d b => DecIdent U s nl d a b :=
  (h1.decorated tri_cutIdent h3).conseq fun a x d _ _ _ h => by
    obtain ⟨v, b, c, ⟨_, h1⟩, ⟨h2, h5⟩, ⟨_, h3⟩, rfl⟩ := h
    refine ⟨b, c, h1, h2, h3, ?_⟩
    show ((Meta.setSpan _ v.m).setPre _).setSuf _ = _
    rw [h5]; rfl

theorem Tri.eqn {Q : Nat → α → Nat → Prop} {p : P α} {lo : Nat} (h : Tri pan s lo p Q) :
    Tri pan s lo p fun a x b => Q a x b ∧ p (inp s a) = .ok x (inp s b) := by
  intro a h1 h2
  have := h a h1 h2
  revert this
  cases hp : p (inp s a) with
  | ok x i => rintro ⟨q, rfl, h3, h4, h5⟩; exact ⟨q, rfl, h3, h4, h5, hp⟩
  | _ => exact id

theorem Core.notLast {nl : Bool} {e : EExpr} {a b : Nat} (h : Core U s nl e a b) : a < s.length := by
  have := h.bounds; omega

/-! ### Operators -/

theorem tri_unaryOperator {lo : Nat} : Tri pan s lo unaryOperator fun a o b =>
    Tok s o.asStr a b := by
  intro a _ _
  stp tri_any => c b hc
  split
  · rename_i h; subst h; exact wp_pure (by omega) (by omega) hc
  · split
    · rename_i h; subst h; exact wp_pure (by omega) (by omega) hc
    · exact wp_fail (by omega) (by omega)

theorem tri_binaryOperator {lo : Nat} : Tri pan s lo binaryOperator fun a o b =>
    Tok s o.asStr a b := by
  intro a _ _
  stp tri_any => c b hc
  have two : ∀ (d : Char) (o : BinOp), o.asStr = [c, d] →
      Wp pan s a (fun o b => Tok s o.asStr a b)
        ((do let _ ← chr d; return o : P BinOp) (inp s b)) := by
    intro d o ho
    refine Tri.step (lo := lo) tri_chr (by omega) (by omega) (by omega) fun x z _ _ hz => ?_
    exact wp_pure (by omega) (by omega) (by rw [ho]; exact hc.append hz)
  have one : ∀ (o : BinOp), o.asStr = [c] →
      Wp pan s a (fun o b => Tok s o.asStr a b) ((Pure.pure o : P BinOp) (inp s b)) := by
    intro o ho
    exact wp_pure (by omega) (by omega) (by rw [ho]; exact hc)
  have both : ∀ (d : Char) (o o' : BinOp), o.asStr = [c, d] → o'.asStr = [c] →
      Wp pan s a (fun o b => Tok s o.asStr a b)
        (P.alt (do let _ ← chr d; return o : P BinOp) (Pure.pure o') (inp s b)) := by
    intro d o o' ho ho'
    have h1 := two d o ho
    have h2 := one o' ho'
    unfold P.alt
    revert h1
    cases (do let _ ← chr d; return o : P BinOp) (inp s b) with
    | ok x i => exact id
    | back i => intro _; exact h2
    | cut i => exact id
    | panic => exact id
    | oof => exact id
  by_cases h : c = '='
  · rw [if_pos h]; subst h; exact two _ _ rfl
  rw [if_neg h]; clear h
  by_cases h : c = '!'
  · rw [if_pos h]; subst h; exact two _ _ rfl
  rw [if_neg h]; clear h
  by_cases h : c = '<'
  · rw [if_pos h]; subst h; exact both _ _ _ rfl rfl
  rw [if_neg h]; clear h
  by_cases h : c = '>'
  · rw [if_pos h]; subst h; exact both _ _ _ rfl rfl
  rw [if_neg h]; clear h
  by_cases h : c = '+'
  · rw [if_pos h]; subst h; exact one _ rfl
  rw [if_neg h]; clear h
  by_cases h : c = '-'
  · rw [if_pos h]; subst h; exact one _ rfl
  rw [if_neg h]; clear h
  by_cases h : c = '*'
  · rw [if_pos h]; subst h; exact one _ rfl
  rw [if_neg h]; clear h
  by_cases h : c = '/'
  · rw [if_pos h]; subst h
    stp (Tri.notP (lo := lo) tri_oneOf) => x z hz
    obtain ⟨rfl, -⟩ := hz
    exact one _ rfl
  rw [if_neg h]; clear h
  by_cases h : c = '%'
  · rw [if_pos h]; subst h; exact one _ rfl
  rw [if_neg h]; clear h
  by_cases h : c = '&'
  · rw [if_pos h]; subst h; exact two _ _ rfl
  rw [if_neg h]; clear h
  by_cases h : c = '|'
  · rw [if_pos h]; subst h; exact two _ _ rfl
  rw [if_neg h]; clear h
  exact wp_fail (by omega) (by omega)

/-! ### Pratt parsing -/

/-- An operator and its right operand. -/
def OpQ (U : Uni) (s : Str) (nl : Bool) (a : Nat) (x : DBinOp × EExpr) (b : Nat) : Prop :=
  ∃ p q r, Triv s nl a p ∧ Tok s x.1.op.asStr p q ∧ Triv s nl q r ∧ x.1.m = decM a p q r ∧
    Core U s nl x.2 r b ∧ NodeM s x.2 r b ∧ isTerm x.2 = true

theorem mkBinary_ok {nl n : Bool} {l r : EExpr} {o : DBinOp} {a x p q w b : Nat}
    (hl : Core U s nl l a x) (hn : n = true → (nl || unlocks l) = true)
    (hlm : NodeM s l a x) (h1 : Triv s n x p) (h2 : Tok s o.op.asStr p q) (h3 : Triv s n q w)
    (h4 : o.m = decM x p q w) (hr : Core U s n r w b) (hrm : NodeM s r w b) (h5 : LeftOf o.op l)
    (h6 : RightOf o.op r) : ExprQ U s nl a (mkBinary l o r) b := by
  obtain ⟨t, ht, ht'⟩ := hlm
  obtain ⟨u, hu, hu'⟩ := hrm
  unfold mkBinary EExpr.span?
  rw [ht, hu]
  dsimp only
  rw [h4]
  exact ⟨.binary hl ⟨t, ht, ht'⟩ (h1.imp hn) h2 (h3.imp hn) (hr.imp hn) ⟨u, hu, hu'⟩ h5 h6 .nil, none,
    rfl, .inl rfl⟩

theorem Chain.split {α : Type} {Q : Nat → α → Nat → Prop} {xs ys : List α} {a c : Nat}
    (h : Chain Q (xs ++ ys) a c) : ∃ b, Chain Q xs a b ∧ Chain Q ys b c := by
  induction xs generalizing a with
  | nil => exact ⟨a, .nil, h⟩
  | cons x xs ih =>
    cases h with
    | cons h1 h2 h3 =>
      obtain ⟨b, h4, h5⟩ := ih h3
      exact ⟨b, .cons h1 h2 h4, h5⟩

/-- The operands of the tree are terms. -/
def Leaves : OpTree → Prop
  | .operand e => isTerm e = true
  | .op l _ r => Leaves l ∧ Leaves r

theorem leaves_of {t : OpTree} (h1 : isTerm t.first = true)
    (h2 : ∀ x ∈ t.rest, isTerm x.2 = true) : Leaves t := by
  induction t with
  | operand e => exact h1
  | op l o r ihl ihr =>
    exact ⟨ihl h1 fun x hx => h2 x (List.mem_append_left _ hx),
      ihr (h2 (o, r.first) (List.mem_append_right _ (List.mem_cons_self ..)))
        fun x hx => h2 x (List.mem_append_right _ (List.mem_cons_of_mem _ hx))⟩

theorem build_op (l r : OpTree) (o : DBinOp) :
    ∃ m, build (.op l o r) = .binary m (build l) o.m o.op (build r) := by
  have h := build_tree (.op l o r)
  rw [build, mkBinary]
  split
  · exact ⟨_, rfl⟩
  · exact ⟨_, rfl⟩

theorem build_blocked {t : OpTree} {o : BinOp} (h : Blocks o t) : Blocked o (build t) := by
  induction t with
  | operand e => exact h.elim
  | op l x r _ ih =>
    obtain ⟨m, hm⟩ := build_op l r x
    rw [hm]
    rcases h with ⟨h1, h2⟩ | h
    · exact .inl ⟨(comparison_iff _).mpr h1, h2⟩
    · exact .inr (ih h)

theorem build_left {t : OpTree} {o : BinOp} (hl : Leaves t) (h : ∀ x ∈ t.top, level o < level x ∨
    (level o = level x ∧ ¬comparison o)) : LeftOf o (build t) := by
  cases t with
  | operand e =>
    have hl : isTerm e = true := hl
    show LeftOf o e
    cases e <;> first | rfl | cases hl
  | op l x r =>
    obtain ⟨m, hm⟩ := build_op l r x
    rw [hm]
    exact h _ rfl

theorem build_right {t : OpTree} {o : BinOp} (hl : Leaves t) (h : ∀ x ∈ t.top, level o < level x) :
    RightOf o (build t) := by
  cases t with
  | operand e =>
    have hl : isTerm e = true := hl
    show RightOf o e
    cases e <;> first | rfl | cases hl
  | op l x r =>
    obtain ⟨m, hm⟩ := build_op l r x
    rw [hm]
    exact h _ rfl

theorem unlocks_build (t : OpTree) : unlocks (build t) = unlocks t.first := by
  induction t with
  | operand e => rfl
  | op l o r ihl _ =>
    obtain ⟨m, hm⟩ := build_op l r o
    rw [hm]
    exact ihl

theorem build_ok {n : Bool} {t : OpTree} (hp : ByPrecedence t) (hl : Leaves t) : ∀ {nl : Bool} {a x b : Nat},
    (n = true → (nl || unlocks t.first) = true) →
    ExprQ U s nl a t.first x → Chain (OpQ U s n) t.rest x b → ExprQ U s nl a (build t) b := by
  induction t with
  | operand e => intro nl a x b _ h1 h2; cases h2; exact h1
  | op l o r ihl ihr =>
    intro nl a x b hn h1 h2
    cases hp with
    | op p1 p2 p3 p4 =>
    obtain ⟨y, h3, h4⟩ := h2.split
    cases h4 with
    | cons _ h5 h6 =>
      obtain ⟨p, q, w, g1, g2, g3, g4, g5, g6, -⟩ := h5
      have hL := ihl p1 hl.1 hn h1 h3
      have hR := ihr p2 hl.2 (fun h => by rw [h]; rfl) ⟨g5, g6⟩ h6
      exact mkBinary_ok hL.1 (by rw [unlocks_build]; exact hn) hL.2 g1 g2 g3 g4 hR.1 hR.2 (build_left hl.1 p3) (build_right hl.2 p4)

theorem dropped_of_chain {n : Bool} {ops : List (DBinOp × EExpr)} {a b : Nat}
    (h : Chain (OpQ U s n) ops a b) : Dropped U s n none a b := by
  induction h with
  | nil => exact .nil
  | cons _ h _ ih =>
    obtain ⟨p, q, r, h1, h2, h3, -, h5, -⟩ := h
    exact .cons nofun h1 h2 h3 h5 ih

theorem parseBinaryOp_ok {nl : Bool} {lhs : EExpr} {ops : List (DBinOp × EExpr)} {a x y : Nat}
    (h1 : ExprQ U s nl a lhs x) (ht : isTerm lhs = true)
    (h2 : Chain (OpQ U s (nl || unlocks lhs)) ops x y) (hne : ops ≠ []) :
    ExprQ U s nl a ((parseBinaryOp lhs ops).setSpan ⟨a, y⟩) y ∧
      notCond ((parseBinaryOp lhs ops).setSpan ⟨a, y⟩) = true ∧
      unlocks ((parseBinaryOp lhs ops).setSpan ⟨a, y⟩) = unlocks lhs := by
  obtain ⟨t, drop, e1, e2, e3, e4, e5⟩ := parseBinaryOp_spec lhs ops
  rw [e1]
  have hops : ∀ x ∈ ops, isTerm x.2 = true := by
    intro x hx
    clear e4 hne h1 e1 e3 e5
    induction h2 with
    | nil => cases hx
    | cons _ h _ ih' =>
      rcases List.mem_cons.mp hx with rfl | hx
      · obtain ⟨_, _, _, _, _, _, _, _, _, h⟩ := h; exact h
      · exact ih' hx
  have hl : Leaves t := leaves_of (by rw [e3]; exact ht) fun x hx =>
    hops x (by rw [e4]; exact List.mem_append_left _ hx)
  rw [e4] at h2
  obtain ⟨z, h3, h4⟩ := h2.split
  have hd : Dropped U s (nl || unlocks lhs) (some (build t)) z y := by
    cases h4 with
    | nil => exact .nil
    | cons _ h h' =>
      obtain ⟨p, q, r, h5, h6, h7, -, h8, -⟩ := h
      exact .cons (fun _ h => by cases h; exact build_blocked (e5 _ _ _ rfl)) h5 h6 h7 h8
        (dropped_of_chain h')
  cases t with
  | operand e =>
    cases drop with
    | nil => exact absurd e4 hne
    | cons d _ => exact (e5 d.1 d.2 _ rfl).elim
  | op l o r =>
    cases e2 with
    | op p1 p2 p3 p4 =>
    obtain ⟨y', h5, h6⟩ := h3.split
    cases h6 with
    | cons _ h7 h8 =>
      obtain ⟨p, q, w, g1, g2, g3, g4, g5, g6, -⟩ := h7
      have e3 : l.first = lhs := e3
      have hu : unlocks (build l) = unlocks lhs := by rw [unlocks_build, e3]
      have hL := build_ok p1 hl.1 (by rw [e3]; exact id) (by rw [e3]; exact h1) h5
      have hR := build_ok p2 hl.2 (fun h => by rw [h]; rfl) ⟨g5, g6⟩ h8
      have hm := (mkBinary_ok hL.1 (by rw [hu]; exact id) hL.2 g1 g2 g3 g4 hR.1 hR.2 (build_left hl.1 p3)
        (build_right hl.2 p4)).2
      obtain ⟨m, hb⟩ := build_op l r o
      rw [show mkBinary (build l) o (build r) = build (.op l o r) from rfl] at hm
      rw [hb] at hm hd ⊢
      rw [g4] at hm hd ⊢
      rw [← hu] at g1 g3 hR hd
      have hc := Core.binary hL.1 hL.2 g1 g2 g3 hR.1 hR.2 (build_left hl.1 p3)
        (build_right hl.2 p4) hd
      obtain ⟨r', h9, h10⟩ := hm
      refine ⟨⟨hc.mapMeta _, r', ?_, ?_⟩, rfl, hu⟩
      · unfold EExpr.setSpan
        rw [getMeta_mapMeta, h9]; rfl
      · unfold OwnSuf EExpr.setSpan at *
        rcases h10 with h10 | ⟨h10, -⟩
        · exact .inl h10
        · cases h10

end Verif.Gram
