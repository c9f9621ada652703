import Verif.Lemmas.ParseDepth
import Verif.Lemmas.ParseExpr
import Verif.Lemmas.RunGap
/-! After a term there is no traversal left, so no traversal is applied to an operation. -/

namespace Verif
namespace P

/-- Whatever the parser returns satisfies `Q`. -/
def Yields (Q : α → Prop) (p : P α) : Prop := ∀ i x j, p i = .ok x j → Q x

theorem bind_inv {p : P α} {f : α → P β} {i : Input} {x : β} {j : Input} (h : (p >>= f) i = .ok x j) :
    ∃ a k, p i = .ok a k ∧ f a k = .ok x j := by
  change P.bind p f i = _ at h
  unfold P.bind at h
  cases hp : p i with
  | ok a k => rw [hp] at h; exact ⟨a, k, rfl, h⟩
  | _ => rw [hp] at h; cases h

theorem map_inv {p : P α} {f : α → β} {i : Input} {x : β} {j : Input} (h : P.map f p i = .ok x j) :
    ∃ a, p i = .ok a j ∧ x = f a := by
  obtain ⟨a, k, h1, h2⟩ := bind_inv (f := fun a => P.pure (f a)) h
  cases h2
  exact ⟨a, h1, rfl⟩

theorem withSpan_inv {p : P α} {i : Input} {x : α × Span} {j : Input} (h : withSpan p i = .ok x j) :
    p i = .ok x.1 j := by
  unfold withSpan at h
  cases hp : p i with
  | ok a k => rw [hp] at h; cases h; rfl
  | _ => rw [hp] at h; cases h

theorem Yields.bind {Q : β → Prop} {p : P α} {f : α → P β} (h : ∀ a, Yields Q (f a)) : Yields Q (p >>= f) := by
  intro i x j hx
  obtain ⟨a, k, -, h2⟩ := bind_inv hx
  exact h a k x j h2

theorem Yields.pure {Q : α → Prop} {x : α} (h : Q x) : Yields Q (Pure.pure x : P α) := by
  intro i y j hy; cases hy; exact h

theorem Yields.map {Q : β → Prop} {f : α → β} {p : P α} (h : Yields (fun x => Q (f x)) p) : Yields Q (P.map f p) := by
  intro i y j hy
  obtain ⟨a, h1, rfl⟩ := map_inv hy
  exact h i a j h1

theorem Yields.alt {Q : α → Prop} {p q : P α} (hp : Yields Q p) (hq : Yields Q q) : Yields Q (alt p q) := by
  intro i x j h
  unfold P.alt at h
  cases hc : p i with
  | back k => rw [hc] at h; exact hq i x j h
  | ok a k => rw [hc] at h; cases h; exact hp _ _ _ hc
  | _ => rw [hc] at h; cases h

theorem Yields.delimited {Q : β → Prop} {p : P α} {q : P β} {r : P γ} (h : Yields Q q) : Yields Q (delimited p q r) := by
  intro i x j hx
  obtain ⟨a, k, -, h2⟩ := bind_inv (p := p) (f := fun _ => terminated q r) hx
  obtain ⟨b, l, h3, h4⟩ := bind_inv (p := q) (f := fun a => P.bind r fun _ => P.pure a) h2
  obtain ⟨_, _, -, h6⟩ := bind_inv (p := r) (f := fun _ => P.pure b) h4
  cases h6
  exact h _ _ _ h3

theorem Yields.panic {Q : α → Prop} : Yields Q (P.panic : P α) := nofun
theorem Yields.oof {Q : α → Prop} : Yields Q (P.oof : P α) := nofun
theorem Yields.fail {Q : α → Prop} : Yields Q (P.fail : P α) := nofun
theorem Yields.cutFail {Q : α → Prop} : Yields Q (P.cutFail : P α) := nofun

end P

namespace Gram
open P Spec Syn

variable {E : PEnv} {R : PRec}

theorem yields_forOrItems {Q : α → Prop} {f g : P α} (hf : Yields Q f) (hg : Yields Q g) : Yields Q (forOrItems f g) := by
  intro i x j h
  unfold forOrItems at h
  split at h
  · exact hf _ _ _ h
  · exact hg _ _ _ h
  · exact hg _ _ _ h
  · cases h
  · cases h

theorem yields_array : Yields (fun e => isHead e = true) (array E R) := by
  refine Yields.delimited (yields_forOrItems ?_ ?_)
  · unfold forListExpr
    exact .bind fun _ => .bind fun _ => .bind fun _ => .pure rfl
  · unfold arrayItems
    exact .bind fun _ => .bind fun _ => .bind fun _ => .pure rfl

theorem yields_objectLoop : ∀ (n : Nat) (is : List EItem), Yields (fun e => isHead e = true) (objectLoop R n is)
  | 0, _ => .oof
  | n + 1, is => by
    unfold objectLoop
    refine .bind fun _ => .bind fun c => ?_
    split
    · exact .pure rfl
    · refine .bind fun k => .bind fun va => ?_
      refine .bind fun c => ?_
      split
      · exact .pure rfl
      · exact .bind fun _ => yields_objectLoop n _

theorem yields_object {nl : Bool} : Yields (fun x => isHead x.1 = true ∧ (x.2 = nl ∨ x.2 = true)) (object E R nl) := by
  refine Yields.delimited (yields_forOrItems ?_ ?_)
  · refine .map ?_
    unfold forObjectExpr
    refine .bind fun _ => .bind fun _ => .bind fun _ => .bind fun _ => .bind fun g => .bind fun c => ?_
    rcases g with _ | g <;> rcases c with _ | c <;> exact .pure ⟨rfl, .inr rfl⟩
  · refine .map ?_
    intro i x j h
    exact ⟨yields_objectLoop _ _ _ _ _ h, .inl rfl⟩

theorem yields_identlike {nl : Bool} : Yields (fun x => isHead x.1 = true ∧ (x.2 = nl ∨ x.2 = true)) (identlike E R nl) := by
  unfold identlike
  refine .bind fun _ => .bind fun _ => .bind fun _ => .bind fun nx => ?_
  dsimp only
  split
  · refine .bind fun ds => ?_
    split
    · exact .panic
    · exact .bind fun _ => .pure ⟨rfl, .inr rfl⟩
  · split
    · exact .bind fun _ => .pure ⟨rfl, .inr rfl⟩
    · refine .bind fun _ => .pure ⟨?_, .inl rfl⟩
      unfold keywordOrVar
      repeat' split
      all_goals rfl

theorem yields_heredoc : Yields (fun e => isHead e = true) (heredoc E R) := by
  unfold heredoc
  exact .bind fun _ => .bind fun _ => .bind fun _ => .bind fun _ => .pure rfl

/-- What a term is made of, if there is no traversal: something that a traversal can be applied to, or an operation
that ends with another term. -/
theorem termCore_inv {nl : Bool} {i : Input} {x : EExpr × Bool} {j : Input} (h : termCore E R nl i = .ok x j) :
    (x.2 = nl ∨ x.2 = true) ∧ (isHead x.1 = true ∨ x.2 = nl ∧ ∃ k e, R.term nl k = .ok e j) := by
  unfold termCore at h
  obtain ⟨c, k, -, h⟩ := bind_inv h
  have un : ∀ {y : EExpr} {k : Input}, unaryOp R nl k = .ok y j → ∃ k e, R.term nl k = .ok e j := by
    intro y k hy
    unfold unaryOp at hy
    obtain ⟨_, k1, -, hy⟩ := bind_inv hy
    obtain ⟨e, k2, h1, hy⟩ := bind_inv hy
    cases hy
    unfold prefixDecorated at h1
    obtain ⟨_, k3, -, h1⟩ := bind_inv h1
    obtain ⟨v, k4, h2, h1⟩ := bind_inv h1
    cases h1
    obtain ⟨w, h3, -⟩ := map_inv h2
    exact ⟨k3, w.1, withSpan_inv h3⟩
  have hd : ∀ {p : P EExpr} {n : Bool}, Yields (fun e => isHead e = true) p → n = nl ∨ n = true →
      P.map (·, n) p k = .ok x j → (x.2 = nl ∨ x.2 = true) ∧ (isHead x.1 = true ∨ x.2 = nl ∧ ∃ k e, R.term nl k = .ok e j) := by
    intro p n hp hn hx
    obtain ⟨y, h1, rfl⟩ := map_inv hx
    exact ⟨hn, .inl (hp _ _ _ h1)⟩
  split at h
  · exact hd (Yields.alt (.map fun _ _ _ _ => rfl) (.map fun _ _ _ _ => rfl)) (.inl rfl) h
  split at h
  · exact hd yields_array (.inr rfl) h
  split at h
  · have := yields_object _ _ _ h
    exact ⟨this.2, .inl this.1⟩
  split at h
  · refine hd ?_ (.inl rfl) h
    unfold numberTerm
    exact .bind fun _ => .pure rfl
  split at h
  · exact hd yields_heredoc (.inl rfl) h
  split at h
  · obtain ⟨y, h1, rfl⟩ := map_inv h
    refine ⟨.inl rfl, ?_⟩
    unfold P.alt at h1
    cases hn : negNumber E k with
    | back l => rw [hn] at h1; exact .inr ⟨rfl, un h1⟩
    | ok e l =>
      rw [hn] at h1
      cases h1
      refine .inl ?_
      have : Yields (fun e => isHead e = true) (negNumber E) := by
        unfold negNumber
        refine .bind fun ns => ?_
        dsimp only
        split
        · exact .pure rfl
        · exact .panic
      exact this _ _ _ hn
    | _ => rw [hn] at h1; cases h1
  split at h
  · obtain ⟨y, h1, rfl⟩ := map_inv h
    exact ⟨.inl rfl, .inr ⟨rfl, un h1⟩⟩
  split at h
  · refine hd ?_ (.inl rfl) h
    unfold parenthesis
    exact .bind fun _ => .bind fun _ => .bind fun _ => .pure rfl
  split at h
  · have := yields_identlike _ _ _ h
    exact ⟨this.2, .inl this.1⟩
  · cases h

/-! ### No traversal is left after a term -/

/-- A parser that succeeded has done so. -/
theorem Tri.self {pan : Prop} {s : Str} {lo : Nat} {p : P α} {Q : Nat → α → Nat → Prop} (h : Tri pan s lo p Q) :
    Tri pan s lo p fun a x b => Q a x b ∧ p (inp s a) = .ok x (inp s b) := by
  intro a h1 h2
  have h3 := h a h1 h2
  cases hp : p (inp s a) with
  | ok x i =>
    rw [hp] at h3
    obtain ⟨q, rfl, h4, h5, h6⟩ := h3
    exact ⟨q, rfl, h4, h5, h6, hp⟩
  | back i => rw [hp] at h3; exact h3
  | cut i => rw [hp] at h3; exact h3
  | panic => rw [hp] at h3; exact h3
  | oof => rw [hp] at h3; exact h3

theorem repeatF_inv {p : P α} : ∀ {n : Nat} {i : Input} {xs : List α} {j : Input}, repeatF p n i = .ok xs j → ∃ k, p j = .back k
  | 0, _, _, _, h => by cases h
  | n + 1, i, xs, j, h => by
    unfold repeatF at h
    cases hp : p i with
    | back k => rw [hp] at h; cases h; exact ⟨k, hp⟩
    | ok a k =>
      rw [hp] at h
      dsimp only at h
      split at h
      · cases hr : repeatF p n k with
        | ok as l => rw [hr] at h; cases h; exact repeatF_inv hr
        | _ => rw [hr] at h; cases h
      · cases h
    | _ => rw [hp] at h; cases h

theorem repeat1_inv {p : P α} {i : Input} {xs : List α} {j : Input} (h : repeat1 p i = .ok xs j) : ∃ k, p j = .back k := by
  obtain ⟨a, k, -, h⟩ := bind_inv (f := fun a => P.map (a :: ·) (repeat0 p)) h
  obtain ⟨as, h, -⟩ := map_inv h
  exact repeatF_inv h

/-- The characters that are looked at. -/
def ahead : Str → Option (Char × Char)
  | a :: b :: _ => some (a, b)
  | _ => none

theorem peek2_ahead (i : Input) : peek2 i = .ok (ahead i.rest) i := by
  unfold peek2 ahead
  cases i.rest with
  | nil => rfl
  | cons a r => cases r <;> rfl

/-- The end of a term: the whitespace behind it is not followed by the start of a traversal, or there is no (further)
operator of a traversal. -/
def Ended (E : PEnv) (R : PRec) (nl : Bool) (j : Input) : Prop :=
  ∃ R₀ nl', RSub R₀ R ∧ (nl' = nl ∨ nl' = true) ∧
    ((∃ k, wsOrSp nl' j = .ok () k ∧ startsTraversal (ahead k.rest) = false) ∨ ∃ k, traversalStep E R₀ nl' j = .back k)

/-- Every term has ended where it ends. -/
def TermsEnd (E : PEnv) (R : PRec) : Prop := ∀ nl i e j, R.term nl i = .ok e j → Ended E R nl j

theorem termInner_ended {R' : PRec} (hs : RSub R R') {nl : Bool} {i : Input} {x : EExpr × Bool} {j : Input}
    (h : termInner E R nl i = .ok x j) : Ended E R' nl j := by
  unfold termInner at h
  obtain ⟨st, k, h0, h⟩ := bind_inv h
  obtain ⟨⟨⟨e, nl'⟩, sp⟩, k1, h1, h⟩ := bind_inv h
  have hf := (termCore_inv (withSpan_inv h1)).1
  obtain ⟨cp, k2, h2, h⟩ := bind_inv h
  cases h2
  obtain ⟨suf, k3, h3, h⟩ := bind_inv h
  obtain ⟨y, h3, -⟩ := map_inv h3
  have h3 := withSpan_inv h3
  obtain ⟨nx, k4, h4, h⟩ := bind_inv h
  rw [peek2_ahead] at h4
  cases h4
  dsimp only at h
  split at h
  · obtain ⟨z, k5, h5, h⟩ := bind_inv h
    cases h
    exact ⟨R, nl', hs, hf, .inr (repeat1_inv (withSpan_inv h5))⟩
  · rename_i hn
    obtain ⟨_, k5, h5, h⟩ := bind_inv h
    cases h5
    cases h
    exact ⟨R, nl', hs, hf, .inl ⟨k3, h3, by simpa using hn⟩⟩

theorem termsEnd_parsers (E : PEnv) : ∀ n, TermsEnd E (parsers E n)
  | 0 => nofun
  | n + 1 => by
    intro nl i e j h
    obtain ⟨x, h, -⟩ := map_inv (p := termInner E (parsers E n) nl) h
    exact termInner_ended (parsers_sub (Nat.le_succ n)) h

theorem termCore_num {nl : Bool} {i : Input} {x : EExpr × Bool} {j : Input} {c : Char} {r : Str}
    (h : termCore E R nl i = .ok x j) (hi : i.rest = c :: r) (hc : isDigit c = true) :
    ∃ n k, num i = .ok n k := by
  unfold termCore at h
  obtain ⟨d, k, hd, hh⟩ := bind_inv h
  have hk : d = c ∧ k = i := by
    unfold P.peek P.any at hd
    rw [hi] at hd
    cases hd
    exact ⟨rfl, rfl⟩
  obtain ⟨rfl, rfl⟩ := hk
  split at hh
  · rename_i hq; subst hq; cases hc
  split at hh
  · rename_i hq; subst hq; cases hc
  split at hh
  · rename_i hq; subst hq; cases hc
  obtain ⟨y, h1, -⟩ := map_inv hh
  unfold numberTerm at h1
  obtain ⟨z, l, h2, -⟩ := bind_inv h1
  unfold P.withTaken at h2
  cases hn : num k with
  | ok n m => exact ⟨n, m, rfl⟩
  | _ => rw [hn] at h2; cases h2

theorem termsNum_parsers (E : PEnv) : ∀ n, TermsNum (parsers E n)
  | 0 => nofun
  | n + 1 => by
    intro nl i e j c r h hi hc
    obtain ⟨x, h, -⟩ := map_inv (p := termInner E (parsers E n) nl) h
    unfold termInner at h
    obtain ⟨st, k, h0, h⟩ := bind_inv h
    cases h0
    obtain ⟨y, k1, h1, -⟩ := bind_inv h
    exact termCore_num (withSpan_inv h1) hi hc

theorem trivia_gap {t : Str} : ∀ {nl : Bool}, Trivia nl t → nl = false → Gap false t := by
  intro nl h
  induction h with
  | nil => exact fun _ => .nil
  | blank h1 _ ih => exact fun hn => .blank h1 (ih hn)
  | newline _ _ _ => exact nofun
  | line _ _ _ _ => exact nofun
  | block h1 _ ih => exact fun hn => .block h1 (ih hn)

/-- Whitespace in front of something solid is the same with and without line breaks. -/
theorem skip_same {s : Str} {b k : Nat} {nl nl' : Bool} {c : Char} {r : Str} (h : wsOrSp nl (inp s b) = .ok () (inp s k))
    (hb : b ≤ s.length) (hn : nl' = nl ∨ nl' = true) (hk : s.drop k = c :: r) (hc : solid c = true) :
    wsOrSp nl' (inp s b) = .ok () (inp s k) := by
  rcases hn with rfl | rfl
  · exact h
  cases nl with
  | true => exact h
  | false =>
    have h1 := tri_wsOrSp (pan := True) (s := s) (lo := 0) (nl := false) b (Nat.zero_le _) hb
    rw [h] at h1
    obtain ⟨q, h2, h3, h4, h5⟩ := h1
    injection h2 with h2 _
    subst h2
    have hg := trivia_gap h5.2.2 rfl
    have hr := runs_gap (b := true) (u := s.drop k) (hg.mono nofun) (hk ▸ solid_starts hc) b
    obtain ⟨v, hv, -⟩ := hr
    have e2 : b + (slice s b k).length = k := by
      rw [slice_length h4]; omega
    rw [slice_drop h3, e2] at hv
    exact hv

theorem prefixDecorated_back [HasMeta α] {pre : P Unit} {p : P α} {i k l : Input} (h : pre i = .ok () k)
    (hb : prefixDecorated pre p i = .back l) : ∃ l', p k = .back l' := by
  have h1 : spanOf pre i = .ok ⟨i.pos, k.pos⟩ k := by
    show P.bind (withSpan pre) _ i = _
    simp only [P.bind, withSpan, h]
    rfl
  change P.bind (spanOf pre) (fun a => P.bind (spanned p) fun v => P.pure _) i = _ at hb
  simp only [P.bind, h1, spanned, P.map, withSpan] at hb
  cases hp : p k with
  | back l' => exact ⟨l', rfl⟩
  | ok x j => rw [hp] at hb; cases hb
  | _ => rw [hp] at hb; cases hb

/-- There is no traversal after a term. -/
theorem ended_no_traversal {s : Str} {b k : Nat} {nl : Bool} {R : PRec} (hb : b ≤ s.length) (he : Ended E R nl (inp s b))
    (h : wsOrSp nl (inp s b) = .ok () (inp s k)) (ht : startsTraversal (ahead (s.drop k)) = true) (ts : List ETrav) (j : Input) :
    traversal E R nl (inp s k) ≠ .ok ts j := by
  obtain ⟨c, r, hk, hc⟩ : ∃ c r, s.drop k = c :: r ∧ solid c = true := by
    cases hd : s.drop k with
    | nil => rw [hd] at ht; cases ht
    | cons c r =>
      refine ⟨c, r, rfl, ?_⟩
      rw [hd] at ht
      cases r with
      | nil => cases ht
      | cons d r =>
        simp only [ahead, startsTraversal, Bool.and_eq_true, Bool.or_eq_true, beq_iff_eq] at ht
        rcases ht.2 with rfl | rfl <;> rfl
  obtain ⟨R₀, nl', hs, hn, ha | ⟨l, hl⟩⟩ := he
  · obtain ⟨l, h1, h2⟩ := ha
    rw [skip_same h hb hn hk hc] at h1
    cases h1
    rw [ht] at h2
    cases h2
  · intro hcon
    have h1 : traversalStep E R nl' (inp s b) = .back l := by
      rcases traversalStep_sub (E := E) (nl := nl') hs (inp s b) with h2 | h2
      · rw [hl] at h2; cases h2
      · rw [← h2, hl]
    have h3 : wsOrSp nl (inp s k) = .ok () (inp s k) := by
      obtain ⟨v, hv, -⟩ := runs_gap (b := nl) (g := []) (u := s.drop k) .nil (hk ▸ solid_starts hc) k
      exact hv
    obtain ⟨a, k', h4, -⟩ := bind_inv (p := traversalStep E R nl) (f := fun a => P.map (a :: ·) (repeat0 (traversalStep E R nl))) hcon
    have h5 := skip_same h hb hn hk hc
    unfold traversalStep at h1 h4
    unfold prefixDecorated at h4
    obtain ⟨_, k1, h6, h4⟩ := bind_inv h4
    obtain ⟨v, k2, h7, h4⟩ := bind_inv h4
    obtain ⟨_, h6, -⟩ := map_inv h6
    have h6 := withSpan_inv h6
    rw [h3] at h6
    cases h6
    obtain ⟨l', h8⟩ := prefixDecorated_back h5 h1
    obtain ⟨w, h9, -⟩ := map_inv h7
    have h9 := withSpan_inv h9
    rw [h8] at h9
    cases h9

end Gram
end Verif
