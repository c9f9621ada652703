import Verif.Lemmas.ParseGram
import Mathlib.Data.List.Induction
/-! Triples for the grammar functions of expressions. -/

namespace Verif.Gram
open P Spec

variable {pan : Prop} {s : Str} {E : PEnv} {R : PRec} {lo : Nat}

/-- A term as it is parsed, before its span is set: there is no prefix, and a suffix only on a grouped
`for`. -/
def TermQ (U : Uni) (s : Str) (nl u : Bool) (a : Nat) (e : EExpr) (b : Nat) : Prop :=
  Core U s nl e a b ∧ isTerm e = true ∧ e.getMeta.decor.pre = none ∧ OwnSuf s e b e.getMeta.decor.suf ∧
    unlocks e = u

/-- The negation of a literal overflows: only the integer 2^63 in a build with overflow checks. -/
def NegOverflow (E : PEnv) (s : Str) : Prop :=
  E.bd = .debug ∧ ∃ t a b, Tok s t a b ∧ (∀ c ∈ t, isDigit c = true) ∧ digitsVal t = 2 ^ 63

theorem tok_one {c : Char} {a b : Nat} (h : Tok s [c] a b) : b = a + 1 := h.1

theorem tri_numberTerm {nl : Bool} : Tri pan s lo numberTerm (TermQ E.U s nl false) := by
  intro a _ _
  stp tri_num.withTaken => x b hx
  obtain ⟨n, t⟩ := x
  obtain ⟨rfl, hx⟩ := hx
  obtain ⟨t, h1, h2⟩ := hx
  refine wp_pure (by omega) (by omega) ⟨.number (.pos ?_) (tok_slice (by omega) (by omega)), rfl, rfl, .inl rfl, rfl⟩
  rw [h1.text]; exact h2

theorem tri_negNumber (hpan : NegOverflow E s → pan) {nl : Bool} :
    Tri pan s lo (negNumber E) (TermQ E.U s nl false) := by
  intro a _ _
  have h : Tri pan s lo (do let _ ← chr '-'; sp; num) fun a n b =>
      ∃ w c, Tok s c!"-" a w ∧ Triv s false w c ∧ NumVal s n c b := by
    intro a _ _
    stp tri_chr => x b hx
    stp tri_sp' => y c hy
    fin tri_num => n d hn
    exact ⟨b, c, hx, hy, hn⟩
  stp h.withTaken => x b hx
  obtain ⟨n, t⟩ := x
  obtain ⟨rfl, w, c, h1, h2, hn⟩ := hx
  dsimp only
  cases hneg : n.neg E.bd with
  | none =>
    obtain ⟨hd, t, h1, h2, h3⟩ := neg_none hn hneg
    exact hpan ⟨hd, t, c, b, h1, h2, h3⟩
  | some m =>
    refine wp_pure (by omega) (by omega) ⟨.number ?_ (tok_slice (by omega) (by omega)), rfl, rfl, .inl rfl, rfl⟩
    obtain ⟨t, h3, h4⟩ := hn
    have e1 := h1.le
    have e2 := h2.1
    have e3 := h3.le
    rw [← slice_append (b := w) e1 (by omega), ← slice_append (b := c) e2 e3, h1.text, h3.text]
    exact NumText.neg (w := slice s w c) h2.2.2 h4 (neg_release hneg)

theorem prefixDecorated_term {β : Type} {nl k : Bool} {pre : P β} {p : P EExpr} {lo : Nat} {U : Uni}
    (h1 : Tri pan s lo pre fun a _ b => Triv s nl a b)
    (h2 : Tri pan s lo p fun a e b => ExprQ U s k a e b ∧ isTerm e = true) :
    Tri pan s lo (prefixDecorated pre p) fun a e b => ∃ c, Triv s nl a c ∧ Core U s k e c b ∧ PreNodeM s e a c b ∧
      isTerm e = true ∧ (∃ y, pre (inp s a) = .ok y (inp s c)) ∧ ∃ v, p (inp s c) = .ok v (inp s b) :=
  (h1.eqn.prefixDecorated h2.eqn).conseq fun a x d _ _ _ h => by
    obtain ⟨v, b, ⟨y, h1, hy⟩, ⟨⟨⟨h2, r, h5, h6⟩, h7⟩, hv⟩, rfl⟩ := h
    refine ⟨b, h1, (h2.mapMeta _).mapMeta _, ⟨r, ?_, ?_⟩, ?_, ⟨y, hy⟩, ⟨v, hv⟩⟩
    · show ((v.mapMeta _).mapMeta _).getMeta = _
      rw [getMeta_mapMeta, getMeta_mapMeta, h5]; rfl
    · unfold OwnSuf at h6 ⊢
      show _ ∨ groupedFor ((v.mapMeta _).mapMeta _) = true ∧ groupStart ((v.mapMeta _).mapMeta _) + 1 ≤ _ ∧ _ ∧
        _ = some (Raw.fromSpan ⟨groupStart ((v.mapMeta _).mapMeta _), _⟩)
      rw [groupedFor_mapMeta, groupedFor_mapMeta, groupStart_mapMeta, groupStart_mapMeta]
      exact h6
    · show isTerm ((v.mapMeta _).mapMeta _) = true
      rw [isTerm_mapMeta, isTerm_mapMeta]
      exact h7

/-- Terms that start with a digit start with a number. -/
def TermsNum (R : PRec) : Prop := ∀ nl i e j c r, R.term nl i = .ok e j → i.rest = c :: r → isDigit c = true →
  ∃ n k, num i = .ok n k

theorem tok_head {c : Char} {t : Str} {a b : Nat} (h : Tok s (c :: t) a b) : s[a]? = some c := by
  obtain ⟨h1, h2, h3⟩ := h
  have : (slice s a b)[0]? = some c := by rw [h3]; rfl
  unfold slice at this
  rw [List.getElem?_take] at this
  split at this
  · simpa using this
  · cases this

theorem drop_of_getElem? {a : Nat} {c : Char} (h : s[a]? = some c) : ∃ r, s.drop a = c :: r := by
  obtain ⟨h1, h2⟩ := List.getElem?_eq_some_iff.mp h
  exact ⟨s.drop (a + 1), by rw [← h2, List.drop_eq_getElem_cons h1]⟩

theorem decDigit_one {c : Char} (h : DecDigits [c]) : isDigit c = true := by
  unfold isDigit; exact decide_eq_true (h.2 c (List.mem_singleton_self c))

theorem wp_unaryOp (hR : RecOK E.U pan s (lo + 1) R) (hD : TermsNum R) (nl : Bool) {a : Nat} (ha : lo ≤ a)
    (hs : a ≤ s.length) (hm : s[a]? = some '-' → ∀ x, sp (inp s (a + 1)) = .ok () (inp s x) →
      ∀ n j, num (inp s x) ≠ .ok n j) :
    Wp pan s a (TermQ E.U s nl false a) (unaryOp R nl (inp s a)) := by
  stp tri_unaryOperator.withSpan => x b hx
  obtain ⟨o, sp'⟩ := x
  obtain ⟨rfl, ho⟩ := hx
  have : a < b := ho.lt (by cases o <;> simp [UnOp.asStr])
  stp (prefixDecorated_term tri_sp' (hR.term nl)) => e d he
  obtain ⟨c, h1, h2, h3, h4, ⟨_, h5⟩, v, h6⟩ := he
  refine wp_pure (by omega) (by omega) ⟨.unary ho h1 h2 h3 ⟨h4, ?_⟩, rfl, rfl, .inl rfl, rfl⟩
  rintro rfl k hk hd
  obtain rfl := tok_one ho
  obtain ⟨r, hr⟩ := drop_of_getElem? hk
  obtain ⟨n, j, hn⟩ := hD _ _ _ _ _ _ h6 hr (decDigit_one hd)
  exact hm (tok_head ho) c h5 n j hn

/-- The `-` branch of a term. -/
theorem wp_minus (hpan : NegOverflow E s → pan) (hR : RecOK E.U pan s (lo + 1) R) (hD : TermsNum R) (nl : Bool) {a : Nat}
    (ha : lo ≤ a) (hs : a ≤ s.length) :
    Wp pan s a (TermQ E.U s nl false a) (alt (negNumber E) (unaryOp R nl) (inp s a)) := by
  have hn := tri_negNumber (lo := lo) hpan (nl := nl) a ha hs
  unfold P.alt
  cases h : negNumber E (inp s a) with
  | back i =>
    refine wp_unaryOp hR hD nl ha hs fun hc x hx n j hj => ?_
    have h1 : chr '-' (inp s a) = .ok '-' (inp s (a + 1)) := by
      obtain ⟨r, hr⟩ := drop_of_getElem? hc
      have hr' : s.drop (a + 1) = r := by rw [← List.drop_drop, hr]; rfl
      show oneOf (· == '-') ⟨a, s.drop a⟩ = .ok '-' ⟨a + 1, s.drop (a + 1)⟩
      rw [hr, hr']; rfl
    have h2 : (do let _ ← chr '-'; sp; num : P N) (inp s a) = .ok n j := by
      show P.bind (chr '-') _ _ = _
      unfold P.bind
      rw [h1]
      show P.bind sp _ _ = _
      unfold P.bind
      rw [hx]
      exact hj
    have h3 : ∃ t, withTaken (do let _ ← chr '-'; sp; num : P N) (inp s a) = .ok (n, t) j := by
      unfold P.withTaken
      rw [h2]
      exact ⟨_, rfl⟩
    obtain ⟨t, h3⟩ := h3
    unfold negNumber at h
    change P.bind _ _ _ = _ at h
    unfold P.bind at h
    rw [h3] at h
    dsimp only at h
    cases hg : n.neg E.bd with
    | none => rw [hg] at h; cases h
    | some m => rw [hg] at h; cases h
  | _ => rw [h] at hn; exact hn

/-! ### Traversals -/

theorem digitChar_toNat {c : Char} (h : isDigit c = true) : digitChar (c.toNat - 48) = c := by
  unfold isDigit at h
  simp only [decide_eq_true_eq] at h
  unfold digitChar
  rw [show 48 + (c.toNat - 48) = c.toNat by omega, Char.ofNat_toNat]

theorem digitsVal_append (t : Str) (c : Char) :
    digitsVal (t ++ [c]) = 10 * digitsVal t + (c.toNat - 48) := by
  simp [digitsVal, List.foldl_append]

theorem natStrF_eq {f g n : Nat} (hf : n ≤ f) (hg : n ≤ g) : natStrF f n = natStrF g n := by
  induction f generalizing g n with
  | zero =>
    have : n = 0 := by omega
    subst this
    cases g <;> rfl
  | succ f ih =>
    cases g with
    | zero =>
      have : n = 0 := by omega
      subst this; rfl
    | succ g =>
      unfold natStrF
      split
      · rfl
      · rw [ih (n := n / 10) (g := g) (by omega) (by omega)]

theorem natStr_step {n : Nat} (h : 10 ≤ n) : natStr n = natStr (n / 10) ++ [digitChar (n % 10)] := by
  unfold natStr
  cases n with
  | zero => omega
  | succ n =>
    rw [natStrF, if_neg (by omega), natStrF_eq (g := (n + 1) / 10) (by omega) (Nat.le_refl _)]

theorem natStr_small {n : Nat} (h : n < 10) : natStr n = [digitChar n] := by
  unfold natStr
  cases n with
  | zero => rfl
  | succ n => rw [natStrF, if_pos h]

theorem digit_lt {c : Char} (h : isDigit c = true) : c.toNat - 48 < 10 := by
  unfold isDigit at h
  simp only [decide_eq_true_eq] at h
  omega

theorem digitsVal_pos {c : Char} {t : Str} (hc : isDigit c = true) (h0 : c ≠ '0') :
    0 < digitsVal (c :: t) := by
  induction t using List.reverseRecOn with
  | nil =>
    unfold isDigit at hc
    simp only [decide_eq_true_eq] at hc
    have : c.toNat ≠ 48 := fun h => h0 (by rw [← Char.ofNat_toNat c, h])
    simp [digitsVal]; omega
  | append_singleton t d ih =>
    rw [← List.cons_append, digitsVal_append]
    omega

theorem natStr_digitsVal {t : Str} (ht : ∀ c ∈ t, isDigit c = true) {c : Char}
    (hc : isDigit c = true) (h0 : c ≠ '0') : natStr (digitsVal (c :: t)) = c :: t := by
  induction t using List.reverseRecOn with
  | nil =>
    have : digitsVal [c] = c.toNat - 48 := by simp [digitsVal]
    rw [this, natStr_small (digit_lt hc), digitChar_toNat hc]
  | append_singleton t d ih =>
    have hd := ht d (by simp)
    have h1 := digitsVal_pos (t := t) hc h0
    have h2 := digit_lt hd
    rw [← List.cons_append, digitsVal_append, natStr_step (by omega)]
    rw [show (10 * digitsVal (c :: t) + (d.toNat - 48)) / 10 = digitsVal (c :: t) by omega,
      show (10 * digitsVal (c :: t) + (d.toNat - 48)) % 10 = d.toNat - 48 by omega,
      ih fun e he => ht e (by simp [he]), digitChar_toNat hd]

theorem tri_decUint : Tri pan s lo decUint fun a n b => Tok s (natStr n) a b ∧ n < 2 ^ 64 := by
  have h : Tri pan s lo (P.alt
      (do let _ ← oneOf fun c => isDigit c && c != '0'
          let _ ← P.takeWhile isDigit
          return ())
      (do let _ ← chr '0'; return ())) fun a _ b => ∃ t, Tok s t a b ∧ natStr (digitsVal t) = t := by
    refine Tri.alt' ?_ ?_
    · intro a _ _
      stp tri_oneOf => c b hc
      stp tri_takeWhile => t d ht
      obtain ⟨hc, hc'⟩ := hc
      simp only [Bool.and_eq_true, bne_iff_ne, ne_eq] at hc'
      exact wp_pure (by omega) (by omega)
        ⟨c :: t, hc.append ht.1, natStr_digitsVal ht.2.1 hc'.1 hc'.2⟩
    · intro a _ _
      stp tri_chr => c b hc
      exact wp_pure (by omega) (by omega) ⟨['0'], hc, rfl⟩
  refine h.taken.verifyMap.conseq fun a n b _ _ _ h => ?_
  obtain ⟨t, h1, rfl, _, u, h2, h3⟩ := h
  split at h1
  · rename_i hlt
    cases h1
    refine ⟨?_, by simpa using hlt⟩
    rw [h2.text, h3]; exact h2
  · cases h1

/-- An operator after `.`, before its decor is set. -/
inductive DotQ (U : Uni) (s : Str) : ETravOp → Nat → Nat → Prop
  | attrSplat {a b} : Tok s c!"*" a b → DotQ U s (.attrSplat {}) a b
  | getAttr {d a b} : IdentAt U s d.name a b → d.m = {} → DotQ U s (.getAttr d) a b
  | legacyIndex {n a b} : Tok s (natStr n) a b → n < 2 ^ 64 → DotQ U s (.legacyIndex {} n) a b

theorem tri_dotOperator : Tri pan s lo (dotOperator E) fun a o b => DotQ E.U s o a b := by
  intro a _ _
  stp tri_any.peek => c b hc
  obtain ⟨rfl, -⟩ := hc
  split
  · stp tri_chr => c b hc
    exact wp_pure (by omega) (by omega) (.attrSplat hc)
  split
  · stp tri_decUint => c b hc
    exact wp_pure (by omega) (by omega) (.legacyIndex hc.1 hc.2)
  split
  · stp tri_ident => c b hc
    exact wp_pure (by omega) (by omega) (.getAttr hc.1 hc.2)
  · exact wp_cutFail (by omega) (by omega)

/-- An operator inside brackets, before its decor is set. -/
inductive BracketQ (U : Uni) (s : Str) : ETravOp → Nat → Nat → Prop
  | fullSplat {a b} : Tok s c!"*" a b → BracketQ U s (.fullSplat {}) a b
  | index {e a b} : ExprQ U s true a e b → BracketQ U s (.index e) a b

theorem tri_bracketOperator (hR : RecOK E.U pan s lo R) :
    Tri pan s lo (bracketOperator R) fun a o b => BracketQ E.U s o a b := by
  intro a _ _
  stp tri_any.peek => c b hc
  obtain ⟨rfl, -⟩ := hc
  split
  · stp tri_chr => c b hc
    exact wp_pure (by omega) (by omega) (.fullSplat hc)
  · stp (hR.expr true) => e b he
    exact wp_pure (by omega) (by omega) (.index he)

theorem tri_traversalOperator (hR : RecOK E.U pan s lo R) :
    Tri pan s lo (traversalOperator E R) fun a o b => Spec.TravOp E.U s o a b := by
  intro a _ _
  stp tri_any => c b hc
  by_cases h : c = '.'
  · rw [if_pos h]; subst h
    fin (tri_ws'.prefixDecorated tri_dotOperator) => o d ho
    obtain ⟨v, x, ⟨_, h1⟩, h2, rfl⟩ := ho
    cases h2 with
    | attrSplat h => exact .attrSplat hc h1 h
    | getAttr h h' =>
      refine .getAttr hc h1 h ?_
      rw [h']; rfl
    | legacyIndex h h' => exact .legacyIndex hc h1 h h'
  rw [if_neg h]; clear h
  by_cases h : c = '['
  · rw [if_pos h]; subst h
    fin ((tri_ws'.decorated (tri_bracketOperator hR) tri_ws').terminated tri_cutChar) => o d ho
    obtain ⟨_, y, _, _, ⟨v, x, z, ⟨_, h1⟩, h2, ⟨_, h3⟩, rfl⟩, h4⟩ := ho
    cases h2 with
    | fullSplat h => exact .fullSplat hc h1 h h3 h4
    | index h =>
      obtain ⟨h, r, h5, -⟩ := h
      refine .index hc h1 ((h.mapMeta _).mapMeta _) h3 ?_ h4
      rw [getMeta_mapMeta, getMeta_mapMeta, h5]; rfl
  rw [if_neg h]
  exact wp_fail (by omega) (by omega)

/-- A traversal operator with whitespace before it. -/
def TravQ (U : Uni) (s : Str) (nl : Bool) (a : Nat) (t : ETrav) (c : Nat) : Prop :=
  ∃ o b, Triv s nl a b ∧ Spec.TravOp U s o b c ∧ t = .mk (preM a b c) o

theorem tri_traversalStep (hR : RecOK E.U pan s lo R) (nl : Bool) :
    Tri pan s lo (traversalStep E R nl) (TravQ E.U s nl) :=
  (tri_wsOrSp.prefixDecorated
    (tri_tag.notP.preceded (tri_traversalOperator hR).map)).conseq fun a t c _ _ _ h => by
    obtain ⟨v, b, ⟨_, h1⟩, ⟨_, b', h0, ⟨rfl, -⟩, o, rfl, h2⟩, rfl⟩ := h
    exact ⟨o, b', h1, h2, rfl⟩

theorem chain_travs {nl : Bool} {ts : List ETrav} {a b : Nat} {U : Uni}
    (h : Chain (TravQ U s nl) ts a b) : Travs U s nl ts a b := by
  induction h with
  | nil => exact .nil
  | cons _ h2 _ ih => obtain ⟨o, x, h3, h4, rfl⟩ := h2; exact .cons h3 h4 ih

theorem tri_traversal (hR : RecOK E.U pan s lo R) (nl : Bool) :
    Tri pan s lo (traversal E R nl) fun a ts b => Travs E.U s nl ts a b ∧ ts ≠ [] :=
  ((tri_traversalStep hR nl).repeat1 fun a t c _ _ h => by
    obtain ⟨o, b, h1, h2, -⟩ := h
    have := h1.le; have := h2.bounds; omega).conseq fun a ts b _ _ _ h =>
      ⟨chain_travs h.2, h.1⟩

/-! ### Operations -/

theorem tri_binaryStep (hR : RecOK E.U pan s lo R) (nl : Bool) :
    Tri pan s lo (binaryStep R nl) (OpQ E.U s nl) := by
  intro a _ _
  stp (tri_wsOrSp.decorated tri_binaryOperator.map tri_wsOrSp) => o b ho
  obtain ⟨v, p, q, ⟨_, h1⟩, ⟨op, rfl, h2⟩, ⟨_, h3⟩, rfl⟩ := ho
  stp (hR.term nl) => e c he
  exact wp_pure (by omega) (by omega) ⟨p, q, b, h1, h2, h3, rfl, he.1.1, he.1.2, he.2⟩

theorem opQ_lt {U : Uni} {nl : Bool} {a : Nat} {x : DBinOp × EExpr} {b : Nat} (h : OpQ U s nl a x b) : a < b := by
  obtain ⟨p, q, r, h1, h2, h3, -, h4, -⟩ := h
  have := h1.le; have := h2.le; have := h3.le; have := h4.bounds; omega

theorem tri_binaryOps (hR : RecOK E.U pan s lo R) (nl : Bool) :
    Tri pan s lo (binaryOps R nl) fun a ops b => (ops ≠ [] ∧ Chain (OpQ E.U s nl) ops a b) ∧
      ∃ i, binaryStep R nl (inp s b) = .back i :=
  (tri_binaryStep hR nl).repeat1_stop fun _ _ _ _ _ h => opQ_lt h

theorem tri_conditional (hR : RecOK E.U pan s lo R) (nl : Bool) :
    Tri pan s lo (conditional R nl) fun q x b => ∃ p t₁ t₂ t₃ p' f₁, Tok s c!"?" q p ∧
      Triv s nl p t₁ ∧ Core E.U s nl x.1 t₁ t₂ ∧ Triv s nl t₂ t₃ ∧ x.1.getMeta = decM p t₁ t₂ t₃ ∧
      Tok s c!":" t₃ p' ∧ Triv s nl p' f₁ ∧ Core E.U s nl x.2 f₁ b ∧ PreNodeM s x.2 p' f₁ b := by
  intro a _ _
  stp tri_chr => c p hc
  stp (decorated_expr tri_wsOrSp (hR.expr nl) tri_wsOrSp) => t t₃ ht
  obtain ⟨t₁, t₂, h1, h2, h3, h4⟩ := ht
  stp tri_cutChar => c' p' hc'
  stp (prefixDecorated_expr tri_wsOrSp (hR.expr nl)) => f b hf
  obtain ⟨f₁, h5, h6, h7⟩ := hf
  exact wp_pure (by omega) (by omega)
    ⟨p, t₁, t₂, t₃, p', f₁, hc, h1, h2, h3, h4, hc', h5, h6, h7⟩

theorem nodeM_setSuf {e : EExpr} {a b q : Nat} (h : NodeM s e a b) :
    (e.setSuf (Raw.fromSpan ⟨b, q⟩)).getMeta = sufM a b q := by
  obtain ⟨r, h, -⟩ := h
  unfold EExpr.setSuf
  rw [getMeta_mapMeta, h]; rfl

theorem exprLoop_tri (hR : RecOK E.U pan s lo R) (nl nl₀ : Bool) (start : Nat) (n : Nat) :
    ∀ {e : EExpr} {a : Nat}, nl = (nl₀ || unlocks e) → ExprQ E.U s nl₀ start e a → notCond e = true →
      isTerm e = true ∨ (∃ i, binaryStep R nl (inp s a) = .back i) →
      lo ≤ a → a ≤ s.length → start ≤ a → s.length - a < n →
      Wp pan s start (fun e b => ExprQ E.U s nl₀ start e b) (exprLoop R start nl n e (inp s a)) := by
  induction n with
  | zero => intro e a _ _ _ _ _ _ _ h; omega
  | succ n ih =>
    intro e a hnl he hnc ht _ _ _ hn
    have hu : ∀ g, nl = (nl₀ || unlocks (e.mapMeta g)) := fun g => by rw [unlocks_mapMeta]; exact hnl
    unfold exprLoop
    stp (tri_getInput (lo := lo)) => cp a' hcp
    obtain ⟨rfl, rfl⟩ := hcp
    stp (tri_wsOrSp (lo := lo)).spanOf => suf x hx
    obtain ⟨rfl, _, hx⟩ := hx
    stp (tri_peek2 (lo := lo)) => nx x' hnx
    obtain ⟨rfl, -⟩ := hnx
    split
    · stp (tri_conditional hR nl).withSpan => r b hr
      obtain ⟨⟨t, f⟩, sp'⟩ := r
      obtain ⟨rfl, p, t₁, t₂, t₃, p', f₁, k1, k2, k3, k4, k5, k6, k7, k8, k9⟩ := hr
      rw [hu (Meta.setSuf (Raw.fromSpan ⟨a', x'⟩))] at hx k2 k3 k4 k7 k8
      exact wp_pure (by omega) (by omega) ⟨.cond (he.1.mapMeta _) (nodeM_setSuf he.2)
        (by unfold EExpr.setSuf; rw [notCond_mapMeta]; exact hnc) hx k1 k2 k3 k4
        k5 k6 k7 k8 k9, none, rfl, .inl rfl⟩
    · split
      · refine wp_setInput ?_
        rcases ht with ht | ⟨i, hi⟩
        rotate_left
        · have hw := tri_binaryStep hR nl a' (by omega) (by omega)
          rw [hi] at hw
          show Wp pan s start _ (P.bind (withSpan (binaryOps R nl)) _ (inp s a'))
          unfold P.bind withSpan binaryOps P.repeat1 P.bind
          rw [hi]
          obtain ⟨q, h1, h2, h3⟩ := hw
          exact ⟨q, h1, by omega, h3⟩
        stp (tri_binaryOps hR nl).withSpan => r b hr
        obtain ⟨ops, sp'⟩ := r
        obtain ⟨rfl, ⟨h1, h2⟩, h3⟩ := hr
        have hlt : a' < b := by
          cases h2 with
          | nil => exact absurd rfl h1
          | cons h3 _ h4 => have := h4.le; omega
        obtain ⟨h4, h5, h6⟩ := parseBinaryOp_ok he ht (by rw [← hnl]; exact h2) h1
        exact ih (by rw [h6]; exact hnl) h4 h5 (.inr h3) (by omega) (by omega) (by omega) (by omega)
      · exact wp_setInput (wp_pure (by omega) (by omega) he)

/-! ### `for` expressions -/

theorem tri_forIntro (hR : RecOK E.U pan s lo R) : Tri pan s lo (forIntro E R) fun a i b =>
    Intro E.U s i.m i.key i.val i.coll a b := by
  have h : Tri pan s lo (do
      tag c!"for"
      let a ← decorated ws (cutIdent E.U) ws
      let b ← opt (do let _ ← chr ','; decorated ws (cutIdent E.U) ws)
      cutTag c!"in"
      let e ← decorated ws (R.expr false) ws
      let _ ← cutChar ':'
      match b with
      | some b => return { key := some a, val := b, coll := e : EIntro }
      | none => return { key := none, val := a, coll := e : EIntro }) fun x i q =>
      i.m = {} ∧ ∃ y z w c₁ c₂ r, Tok s c!"for" x y ∧ ForVars E.U s i.key i.val y z ∧
        Tok s c!"in" z w ∧ Triv s true w c₁ ∧ Core E.U s false i.coll c₁ c₂ ∧ Triv s true c₂ r ∧
        i.coll.getMeta = decM w c₁ c₂ r ∧ Tok s c!":" r q := by
    intro x _ _
    stp tri_tag => _ y h1
    stp (decorated_ident tri_ws' tri_ws') => d z₀ h2
    have hopt : Tri pan s lo (do let _ ← chr ','; decorated ws (cutIdent E.U) ws : P DIdent)
        fun a d b => ∃ y, Tok s c!"," a y ∧ DecIdent E.U s true d y b := by
      intro a _ _
      stp tri_chr => _ y h1
      fin (decorated_ident tri_ws' tri_ws') => d z h2
      exact ⟨y, h1, h2⟩
    stp hopt.opt => o z h3
    stp tri_cutTag => _ w h4
    stp (decorated_expr tri_ws' (hR.expr false) tri_ws') => e r h5
    obtain ⟨c₁, c₂, k1, k2, k3, k4⟩ := h5
    stp tri_cutChar => _ q h6
    cases o with
    | none =>
      refine wp_pure (by omega) (by omega) ⟨rfl, y, z, w, c₁, c₂, r, h1, .inl ⟨rfl, ?_⟩, h4, k1, k2,
        k3, k4, h6⟩
      rw [h3]; exact h2
    | some v =>
      obtain ⟨y', h3, h3'⟩ := h3
      exact wp_pure (by omega) (by omega) ⟨rfl, y, z, w, c₁, c₂, r, h1,
        .inr ⟨d, z₀, y', rfl, h2, h3, h3'⟩, h4, k1, k2, k3, k4, h6⟩
  refine (tri_ws'.prefixDecorated h).conseq fun a i b _ _ _ h => ?_
  obtain ⟨v, x, ⟨_, h1⟩, ⟨h2, y, z, w, c₁, c₂, r, k1, k2, k3, k4, k5, k6, k7, k8⟩, rfl⟩ := h
  have : (HasMeta.mapMeta (Meta.setPre (Raw.fromSpan ⟨a, x⟩))
      (HasMeta.mapMeta (Meta.setSpan ⟨x, b⟩) v)).m = preM a x b := by
    show Meta.setPre _ (Meta.setSpan _ v.m) = _
    rw [h2]; rfl
  rw [this]
  exact .mk h1 k1 k2 k3 k4 k5 k6 k7 k8

theorem inp_inj {a b : Nat} (h : inp s a = inp s b) : a = b := by
  have := congrArg Input.pos h
  exact this

/-- A `for` condition. The last part: if there is no whitespace to skip, its prefix is empty. -/
theorem tri_forCond (hR : RecOK E.U pan s lo R) : Tri pan s lo (forCond R true) fun a c b =>
    ∃ x y e₁ e₂, Triv s true a x ∧ Tok s c!"if" x y ∧ Triv s true y e₁ ∧ Core E.U s true c.e e₁ e₂ ∧
      Triv s true e₂ b ∧ c.e.getMeta = decM y e₁ e₂ b ∧ c.m = preM a x b ∧
      (ws (inp s a) = .ok () (inp s a) → x = a) := by
  have h : Tri pan s lo (do
      tag c!"if"
      let e ← decorated ws (R.expr true) ws
      return { e := e : ECond }) fun x c b => c.m = {} ∧ ∃ y e₁ e₂, Tok s c!"if" x y ∧
        Triv s true y e₁ ∧ Core E.U s true c.e e₁ e₂ ∧ Triv s true e₂ b ∧
        c.e.getMeta = decM y e₁ e₂ b := by
    intro x _ _
    stp tri_tag => _ y h1
    stp (decorated_expr tri_ws' (hR.expr true) tri_ws') => e b h2
    obtain ⟨e₁, e₂, k1, k2, k3, k4⟩ := h2
    exact wp_pure (by omega) (by omega) ⟨rfl, y, e₁, e₂, h1, k1, k2, k3, k4⟩
  refine (tri_ws'.eqn.prefixDecorated h).conseq fun a c b _ _ _ h => ?_
  obtain ⟨v, x, ⟨_, h1, h1'⟩, ⟨h2, y, e₁, e₂, k1, k2, k3, k4, k5⟩, rfl⟩ := h
  refine ⟨x, y, e₁, e₂, h1, k1, k2, k3, k4, k5, ?_, ?_⟩
  · show Meta.setPre _ (Meta.setSpan _ v.m) = _
    rw [h2]; rfl
  · intro h
    rw [h] at h1'
    injection h1' with _ h1'
    exact (inp_inj h1').symm

/-- The condition part of a `for` expression. -/
def CondPart (U : Uni) (s : Str) (c : Option ECond) (a b : Nat) : Prop :=
  Cond U s (match c with | some c => c.m | none => {}) (match c with | some c => some c.e | none => none)
    a b

theorem tri_optForCond (hR : RecOK E.U pan s lo R) :
    Tri pan s lo (opt (forCond R true)) fun a c b => CondPart E.U s c a b ∧
      (ws (inp s a) = .ok () (inp s a) → ∀ z, Triv s true z a → ∀ c', c = some c' →
        Cond E.U s (c'.m.setPre (.fromSpan ⟨z, a⟩)) (some c'.e) z b) := by
  refine (tri_forCond hR).opt.conseq fun a c b _ _ _ h => ?_
  cases c with
  | none =>
    obtain rfl : b = a := h
    exact ⟨.none, fun _ _ _ c' h => by cases h⟩
  | some c =>
    obtain ⟨x, y, e₁, e₂, h1, h2, h3, h4, h5, h6, h7, h8⟩ := h
    refine ⟨?_, ?_⟩
    · show Cond E.U s c.m (some c.e) a b
      rw [h7]; exact .some h1 h2 h3 h4 h5 h6
    · intro hw z hz c' hc'
      cases hc'
      obtain rfl := h8 hw
      rw [h7]
      exact .some hz h2 h3 h4 h5 h6

theorem tri_forListExpr (hR : RecOK E.U pan s lo R) :
    Tri pan s lo (forListExpr E R) fun p e t => ∃ im k v c ve cm co q x y r, e = .forE {} im k v c none
      ve false cm co ∧ Intro E.U s im k v c p q ∧ Triv s true q x ∧ Core E.U s true ve x y ∧
      Triv s true y r ∧ ve.getMeta = decM q x y r ∧ Cond E.U s cm co r t := by
  intro p _ _
  stp (tri_forIntro hR) => i q h1
  stp (decorated_expr tri_ws' (hR.expr true) tri_ws') => ve r h2
  obtain ⟨x, y, k1, k2, k3, k4⟩ := h2
  stp (tri_optForCond hR) => c t h3
  exact wp_pure (by omega) (by omega) ⟨i.m, i.key, i.val, i.coll, ve, _, _, q, x, y, r, rfl, h1, k1, k2,
    k3, k4, h3.1⟩

/-- The inside of an object `for` expression. -/
def ForObjQ (U : Uni) (s : Str) (p : Nat) (e : EExpr) (t : Nat) : Prop :=
  ∃ mm im k v c ke ve q x y r u x' y' w z, Intro U s im k v c p q ∧
    Triv s true q x ∧ Core U s false ke x y ∧ Triv s true y r ∧ ke.getMeta = decM q x y r ∧
    Tok s c!"=>" r u ∧
    Triv s true u x' ∧ Core U s false ve x' y' ∧ Triv s true y' w ∧ ve.getMeta = decM u x' y' w ∧
    ((∃ g cm co, mm = {} ∧ e = .forE mm im k v c (some ke) ve g cm co ∧ OptTok s g c!"..." w z ∧
        (g = true → co.isSome = true) ∧ Cond U s cm co z t) ∨
      (Tok s c!"..." w z ∧ Triv s true z t ∧ mm = Meta.setSuf (.fromSpan ⟨z, t⟩) {} ∧
        e = .forE mm im k v c (some ke) ve true {} none))

theorem tri_forObjectExpr (hR : RecOK E.U pan s lo R) :
    Tri pan s lo (forObjectExpr E R) (ForObjQ E.U s) := by
  intro p _ _
  stp (tri_forIntro hR) => i q h1
  stp (decorated_expr tri_ws' (hR.expr false) tri_ws') => ke r h2
  obtain ⟨x, y, k1, k2, k3, k4⟩ := h2
  stp tri_cutTag => _ u h3
  stp (decorated_expr tri_ws' (hR.expr false) tri_ws') => ve w h4
  obtain ⟨x', y', l1, l2, l3, l4⟩ := h4
  have hdots : Tri pan s lo (do tag c!"..."; rawString ws : P Raw) fun a t b =>
      ∃ z, Tok s c!"..." a z ∧ Triv s true z b ∧ t = .fromSpan ⟨z, b⟩ ∧
        ws (inp s b) = .ok () (inp s b) := by
    intro a _ _
    stp tri_tag => _ z h1
    fin tri_ws.rawString => t b h2
    obtain ⟨rfl, _, h2, h3⟩ := h2
    exact ⟨z, h1, h2, rfl, h3⟩
  stp hdots.opt => g z' h5
  stp (tri_optForCond hR) => c t h6
  obtain ⟨h6, h7⟩ := h6
  cases g with
  | none =>
    obtain rfl : z' = w := h5
    cases c with
    | none =>
      exact wp_pure (by omega) (by omega) ⟨_, _, _, _, _, _, _, q, x, y, r, u, x', y', z', z', h1, k1,
        k2, k3, k4, h3, l1, l2, l3, l4, .inl ⟨false, {}, none, rfl, rfl, rfl, nofun, h6⟩⟩
    | some c =>
      exact wp_pure (by omega) (by omega) ⟨_, _, _, _, _, _, _, q, x, y, r, u, x', y', z', z', h1, k1,
        k2, k3, k4, h3, l1, l2, l3, l4, .inl ⟨false, c.m, some c.e, rfl, rfl, rfl, nofun, h6⟩⟩
  | some g =>
    obtain ⟨z, m1, m2, rfl, m4⟩ := h5
    cases c with
    | none =>
      cases h6
      exact wp_pure (by omega) (by omega) ⟨_, _, _, _, _, _, _, q, x, y, r, u, x', y', w, z, h1, k1,
        k2, k3, k4, h3, l1, l2, l3, l4, .inr ⟨m1, m2, rfl, rfl⟩⟩
    | some c =>
      exact wp_pure (by omega) (by omega) ⟨_, _, _, _, _, _, _, q, x, y, r, u, x', y', w, z, h1, k1,
        k2, k3, k4, h3, l1, l2, l3, l4, .inl ⟨true, _, some c.e, rfl, rfl, m1, fun _ => rfl,
          h7 m4 z m2 c rfl⟩⟩

theorem Tri.forOrItems {Q : Nat → α → Nat → Prop} {f g : P α} (hf : Tri pan s lo f Q)
    (hg : Tri pan s lo g Q) : Tri pan s lo (forOrItems f g) Q := by
  intro a h1 h2
  have h : Tri pan s lo (do ws; tag c!"for"
                            let _ ← oneOf fun c => c == ' ' || c == '\t' || c == '#' || c == '/' || c == '\n'
                            return () : P Unit) fun _ _ _ => True := by
    intro a _ _
    stp tri_ws' => _ b _h
    stp tri_tag => _ c _h
    stp tri_oneOf => _ d _h
    exact wp_pure (by omega) (by omega) trivial
  have h3 := h a h1 h2
  unfold Gram.forOrItems
  revert h3
  cases (do ws; tag c!"for"
            let _ ← oneOf fun c => c == ' ' || c == '\t' || c == '#' || c == '/' || c == '\n'
            return () : P Unit) (inp s a) with
  | ok x i => intro _; exact hf a h1 h2
  | back i => intro _; exact hg a h1 h2
  | cut i => intro _; exact hg a h1 h2
  | panic => exact id
  | oof => exact id

/-! ### Arrays and function calls -/

/-- A list of expressions separated by commas, from a chain. -/
theorem chain_elems {U : Uni} {es : List EExpr} {a b : Nat}
    (h : Chain (fun a (e : EExpr) b => ∃ (_ : Char) (c : Nat), Tok s c!"," a c ∧ c ≤ b ∧ DecQ U s true true c e b) es a b) :
    ElemsTail U s es a b := by
  induction h with
  | nil => exact .nil
  | cons _ h2 _ ih =>
    obtain ⟨_, c, h3, -, x, y, h4, h5, h6, h7⟩ := h2
    exact .cons h3 h4 h5 h6 h7 ih

theorem tri_arrayItems (hR : RecOK E.U pan s lo R) :
    Tri pan s lo (arrayItems R) fun p e t => ∃ vs comma q r, e = .array {} vs comma (.fromSpan ⟨r, t⟩) ∧
      Elems E.U s vs p q ∧ OptTok s comma c!"," q r ∧ Triv s true r t := by
  intro p _ _
  have hel : Tri pan s lo (decorated ws (preceded (notP (chr ']')) (R.expr true)) ws) (DecQ E.U s true true) := by
    refine decorated_expr tri_ws' ?_ tri_ws'
    refine (tri_chr.notP.preceded (hR.expr true)).conseq fun a e b _ _ _ h => ?_
    obtain ⟨_, b', _, ⟨rfl, -⟩, h⟩ := h
    exact h
  stp (hel.separated0 (tri_chr (c := ',')) fun a _ b _ _ h => by have := tok_one h; omega) => vs q h1
  stp (tri_chr (c := ',')).opt => comma r h2
  stp tri_ws'.rawString => t u h3
  obtain ⟨rfl, _, h3⟩ := h3
  refine wp_pure (by omega) (by omega) ⟨vs, comma.isSome, q, r, rfl, ?_, ?_, h3⟩
  · rcases h1 with ⟨rfl, rfl, -⟩ | ⟨e, tl, c, rfl, -, ⟨x, y, k1, k2, k3, k4⟩, h1⟩
    · exact .nil
    · exact .cons k1 k2 k3 k4 (chain_elems h1)
  · cases comma with
    | none => exact Eq.symm h2
    | some c => exact h2

theorem tri_array (hR : RecOK E.U pan s (lo + 1) R) {nl : Bool} :
    Tri pan s lo (array E R) (TermQ E.U s nl true) := by
  intro a _ _
  refine Tri.step (tri_chr (lo := lo)) (by omega) (by omega) (by omega) fun _ p _ _ h1 => ?_
  have := tok_one h1
  have key : Tri pan s (lo + 1) (forOrItems (forListExpr E R) (arrayItems R)) fun p e t =>
      ∀ a b, Tok s c!"[" a p → Tok s c!"]" t b → TermQ E.U s nl true a e b := by
    refine Tri.forOrItems ((tri_forListExpr hR).conseq ?_) ((tri_arrayItems hR).conseq ?_)
    · rintro p e t _ _ _ ⟨im, k, v, c, ve, cm, co, q, x, y, r, rfl, k1, k2, k3, k4, k5, k6⟩ a b h1 h2
      exact ⟨.forList h1 k1 k2 k3 k4 k5 k6 h2, rfl, rfl, .inl rfl, rfl⟩
    · rintro p e t _ _ _ ⟨vs, comma, q, r, rfl, k1, k2, k3⟩ a b h1 h2
      exact ⟨.array h1 k1 k2 k3 h2, rfl, rfl, .inl rfl, rfl⟩
  fin (key.terminated tri_cutChar) => e b he
  obtain ⟨_, t, _, _, he, h2⟩ := he
  exact he a b h1 h2

theorem tri_parenthesis (hR : RecOK E.U pan s (lo + 1) R) {nl : Bool} :
    Tri pan s lo (parenthesis R) (TermQ E.U s nl false) := by
  intro a _ _
  stp (tri_cutChar (lo := lo)) => _ p h1
  have := tok_one h1
  stp (decorated_expr tri_ws' (hR.expr true) tri_ws') => e q h2
  obtain ⟨x, y, k1, k2, k3, k4⟩ := h2
  stp (tri_cutChar (lo := lo)) => _ b h3
  exact wp_pure (by omega) (by omega) ⟨.paren h1 k1 k2 k3 k4 h3, rfl, rfl, .inl rfl, rfl⟩

theorem tri_namespaceComponents (nl : Bool) : Tri pan s lo (namespaceComponents E nl) fun a ds b =>
    ds ≠ [] ∧ PathTail E.U s nl ds a b := by
  have h : Tri pan s lo (do tag c!"::"; decorated (wsOrSp nl) (cutIdent E.U) (wsOrSp nl) : P DIdent)
      fun a d b => ∃ x, Tok s c!"::" a x ∧ DecIdent E.U s nl d x b := by
    intro a _ _
    stp tri_tag => _ x h1
    fin (decorated_ident tri_wsOrSp tri_wsOrSp) => d b h2
    exact ⟨x, h1, h2⟩
  refine (h.repeat1 fun a d b _ _ h => ?_).conseq fun a ds b _ _ _ h => ⟨h.1, ?_⟩
  · obtain ⟨x, h1, h2⟩ := h
    have := h1.le; have := h2.lt; omega
  · have h := h.2
    clear * - h
    induction h with
    | nil => exact .nil
    | cons _ h2 _ ih => obtain ⟨x, h3, h4⟩ := h2; exact .cons h3 h4 ih

theorem tri_argsTrailer : Tri pan s lo argsTrailer fun a e b =>
    Tok s (if e then c!"..." else c!",") a b := by
  intro a _ _
  stp tri_any => c b hc
  split
  · rename_i h; subst h; exact wp_pure (by omega) (by omega) hc
  split
  · rename_i h; subst h
    stp tri_cutTag => _ d h2
    exact wp_pure (by omega) (by omega) (hc.append h2)
  · exact wp_fail (by omega) (by omega)

theorem tri_funcArgs (hR : RecOK E.U pan s (lo + 1) R) : Tri pan s lo (funcArgs R) fun p x b =>
    ∃ q r t u, Tok s c!"(" p q ∧ Elems E.U s x.args q r ∧
      ArgsEnd s x.comma x.expand x.args.length r t ∧ Triv s true t u ∧ x.trailing = .fromSpan ⟨t, u⟩ ∧
      Tok s c!")" u b := by
  intro p _ _
  stp (tri_cutChar (lo := lo)) => _ q h1
  have := tok_one h1
  have hel : Tri pan s (lo + 1) (decorated ws
        (preceded (peek (oneOf fun c => c != ',' && c != '.' && c != ')')) (R.expr true)) ws)
      (DecQ E.U s true true) := by
    refine decorated_expr tri_ws' ?_ tri_ws'
    refine (tri_oneOf.peek.preceded (hR.expr true)).conseq fun a e b _ _ _ h => ?_
    obtain ⟨_, b', _, ⟨rfl, -⟩, h⟩ := h
    exact h
  have hargs : Tri pan s (lo + 1) (do
      let as ← separated1
        (decorated ws
          (preceded (peek (oneOf fun c => c != ',' && c != '.' && c != ')')) (R.expr true)) ws)
        (chr ',')
      let t ← opt argsTrailer
      return (as, t) : P (List EExpr × Option Bool)) fun a x b => ∃ r, x.1 ≠ [] ∧
        Elems E.U s x.1 a r ∧ (match x.2 with
          | some e => Tok s (if e then c!"..." else c!",") r b
          | none => b = r) := by
    intro a _ _
    stp (hel.separated1 (tri_chr (c := ',')) fun a _ b _ _ h => by have := tok_one h; omega) => as r h1
    stp tri_argsTrailer.opt => t b h2
    obtain ⟨e, tl, c, rfl, -, ⟨x, y, k1, k2, k3, k4⟩, h1⟩ := h1
    exact wp_pure (by omega) (by omega) ⟨r, by simp, .cons k1 k2 k3 k4 (chain_elems h1), by cases t <;> exact h2⟩
  stp hargs.opt => a t h2
  stp (tri_ws' (lo := lo)).rawString => tr u h3
  obtain ⟨rfl, _, h3⟩ := h3
  stp (tri_cutChar (lo := lo)) => _ b h4
  cases a with
  | none =>
    obtain rfl : t = q := h2
    exact wp_pure (by omega) (by omega) ⟨t, t, t, u, h1, .nil, .inl ⟨rfl, rfl, rfl⟩, h3, rfl, h4⟩
  | some x =>
    obtain ⟨as, tl⟩ := x
    obtain ⟨r, k1, k2, k3⟩ := h2
    have hlen : as.length ≠ 0 := by
      intro h; exact k1 (List.length_eq_zero_iff.mp h)
    cases tl with
    | none =>
      obtain rfl : t = r := k3
      exact wp_pure (by omega) (by omega) ⟨q, t, t, u, h1, k2, .inl ⟨rfl, rfl, rfl⟩, h3, rfl, h4⟩
    | some e =>
      cases e with
      | false =>
        exact wp_pure (by omega) (by omega)
          ⟨q, r, t, u, h1, k2, .inr (.inl ⟨hlen, rfl, rfl, k3⟩), h3, rfl, h4⟩
      | true =>
        exact wp_pure (by omega) (by omega)
          ⟨q, r, t, u, h1, k2, .inr (.inr ⟨hlen, rfl, rfl, k3⟩), h3, rfl, h4⟩

theorem keywordOrVar_ok {U : Uni} {x : Str} {a b : Nat} (h : IdentAt U s x a b) :
    TermQ U s nl false a (keywordOrVar x) b := by
  unfold keywordOrVar
  split
  · rename_i h'; subst h'; exact ⟨.null h.1, rfl, rfl, .inl rfl, rfl⟩
  split
  · rename_i h'; subst h'; exact ⟨.bool (v := true) h.1, rfl, rfl, .inl rfl, rfl⟩
  split
  · rename_i h'; subst h'; exact ⟨.bool (v := false) h.1, rfl, rfl, .inl rfl, rfl⟩
  · refine ⟨.var h ?_, rfl, rfl, .inl rfl, rfl⟩
    simp only [List.mem_cons, List.not_mem_nil, or_false, not_or]
    exact ⟨by assumption, by assumption, by assumption⟩

theorem tri_identlike (hR : RecOK E.U pan s (lo + 1) R) (nl : Bool) :
    Tri pan s lo (identlike E R nl) fun a x b =>
      ∃ u, TermQ E.U s nl u a x.1 b ∧ x.2 = (nl || u) := by
  intro a _ _
  stp (tri_strIdent (lo := lo)).withSpan => x b hx
  obtain ⟨x, xs⟩ := x
  obtain ⟨rfl, hx⟩ := hx
  stp (tri_getInput (lo := lo)) => cp b' hcp
  obtain ⟨rfl, rfl⟩ := hcp
  stp (tri_wsOrSp (lo := lo)).spanOf => sp' c hc
  obtain ⟨rfl, _, hc⟩ := hc
  stp (tri_peek2 (lo := lo)) => nx c' hnx
  obtain ⟨rfl, -⟩ := hnx
  have hsuf : SufIdent E.U s nl ⟨(Meta.setSuf (Raw.fromSpan ⟨b', c'⟩) {}).setSpan ⟨a, b'⟩, x⟩ a c' :=
    ⟨b', hx, hc, rfl⟩
  dsimp only
  split
  · stp (tri_namespaceComponents (lo := lo) nl) => ds d hds
    obtain ⟨h1, h2⟩ := hds
    cases hl : ds.getLast? with
    | none => exact absurd (List.getLast?_eq_none_iff.mp hl) h1
    | some name =>
      have hds : ds.dropLast ++ [name] = ds := by
        obtain ⟨l, rfl⟩ := List.getLast?_eq_some_iff.mp hl
        rw [List.dropLast_concat]
      stp (tri_funcArgs hR) => x' e hx'
      obtain ⟨q, r, t, u, k1, k2, k3, k4, k5, k6⟩ := hx'
      rw [k5]
      refine wp_pure (by omega) (by omega) ⟨true, ⟨.call ⟨_, ds, _, ?_, hsuf, h2⟩ k1 k2 k3 k4 k6, rfl, rfl, .inl rfl, rfl⟩,
        (Bool.or_true _).symm⟩
      rw [List.cons_append, hds]
  split
  · stp (tri_funcArgs hR) => x' e hx'
    obtain ⟨q, r, t, u, k1, k2, k3, k4, k5, k6⟩ := hx'
    rw [k5]
    exact wp_pure (by omega) (by omega) ⟨true, ⟨.call ⟨_, [], _, rfl, hsuf, .nil⟩ k1 k2 k3 k4 k6, rfl, rfl, .inl rfl, rfl⟩,
      (Bool.or_true _).symm⟩
  · exact wp_setInput (wp_pure (by omega) (by omega) ⟨false, keywordOrVar_ok hx, (Bool.or_false _).symm⟩)

end Verif.Gram
