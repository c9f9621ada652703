import Verif.Spec.OneLine
import Verif.Lemmas.ParseTop
import Verif.Lemmas.Printable
/-! A line break ends an expression outside of brackets. -/

namespace Verif.Spec
open Gram

variable {U : Uni} {s : Str}

instance (t : Str) : Decidable (OneLine t) := inferInstanceAs (Decidable (_ ∧ _))

theorem Bracketless.infix {t u : Str} (h : Bracketless u) (ht : t <:+: u) : Bracketless t :=
  ⟨fun b hb hi => h.1 b hb (hi.trans ht), fun c hc hi => h.2 c hc (hi.trans ht)⟩

theorem OneLine.append {t u : Str} (h : OneLine t) (h' : OneLine u) : OneLine (t ++ u) := by
  unfold OneLine at *
  simp only [List.mem_append, not_or]
  exact ⟨⟨h.1, h'.1⟩, h.2, h'.2⟩

theorem slice_infix {a x y b : Nat} (h1 : a ≤ x) (h2 : x ≤ y) (h3 : y ≤ b) :
    slice s x y <:+: slice s a b :=
  ⟨slice s a x, slice s y b, by rw [slice_append h1 h2, slice_append (by omega) h3]⟩

theorem Bracketless.sub {a x y b : Nat} (h : Bracketless (slice s a b)) (h1 : a ≤ x) (h2 : x ≤ y) (h3 : y ≤ b) :
    Bracketless (slice s x y) := h.infix (slice_infix h1 h2 h3)

theorem OneLine.seq {a x b : Nat} (h1 : OneLine (slice s a x)) (h2 : OneLine (slice s x b)) (ha : a ≤ x)
    (hb : x ≤ b) : OneLine (slice s a b) := by
  rw [← slice_append ha hb]; exact h1.append h2

theorem Bracketless.noTok {a x y b : Nat} {t : Str} (h : Bracketless (slice s a b)) (ht : Tok s t x y) (h1 : a ≤ x)
    (h3 : y ≤ b) (hb : t ∈ brackets) : False := by
  refine h.1 t hb ?_
  rw [← ht.text]
  exact slice_infix h1 ht.le h3

theorem tok_oneLine {t : Str} {a b : Nat} (h : Tok s t a b) (ht : OneLine t) : OneLine (slice s a b) := by
  rw [h.text]; exact ht

theorem trivia_oneLine {nl : Bool} {t : Str} (h : Trivia nl t) (hn : nl = false) (hb : ¬ c!"/*" <:+: t) :
    OneLine t := by
  induction h with
  | nil => exact ⟨nofun, nofun⟩
  | blank hc _ ih =>
    have := ih hn fun h => hb (h.trans (List.suffix_cons _ _).isInfix)
    unfold OneLine at *
    rcases hc with rfl | rfl <;> simpa using this
  | newline => cases hn
  | line => cases hn
  | block hx _ ih =>
    obtain ⟨t, rfl, -⟩ := hx
    exact (hb ⟨[], _, by simp only [List.nil_append, List.append_assoc]; rfl⟩).elim

theorem Triv.oneLine {a x y b : Nat} (h : Triv s false x y) (hf : Bracketless (slice s a b)) (h1 : a ≤ x)
    (h3 : y ≤ b) : OneLine (slice s x y) :=
  trivia_oneLine h.2.2 rfl ((hf.sub h1 h.1 h3).1 _ (by simp [brackets]))

theorem trivia_head {nl : Bool} {c : Char} {t : Str} (h : Trivia nl (c :: t)) :
    c ∈ [' ', '\t', '\n', '\r', '#', '/'] := by
  generalize hu : c :: t = u at h
  induction h with
  | nil => cases hu
  | blank hc _ _ => injection hu with hu _; subst hu; rcases hc with rfl | rfl <;> simp
  | newline hc _ _ => injection hu with hu _; subst hu; rcases hc with rfl | rfl <;> simp
  | line hx _ _ _ =>
    obtain ⟨v, rfl | rfl, -⟩ := hx <;> (injection hu with hu _; subst hu; simp)
  | block hx _ _ =>
    obtain ⟨v, rfl, -⟩ := hx
    injection hu with hu _; subst hu; simp

/-- There is no whitespace behind a `.`. -/
theorem Bracketless.dot {a p x y b : Nat} (h : Bracketless (slice s a b)) (ht : Tok s c!"." p x) (hw : Triv s true x y)
    (h1 : a ≤ p) (h3 : y ≤ b) : x = y := by
  have hxy := hw.1
  by_contra hne
  have hl := slice_length (s := s) (a := x) (b := y) hw.2.1
  have hd := trivia_head (nl := true) (c := (slice s x y).head (by intro h; rw [h] at hl; simp at hl; omega))
    (t := (slice s x y).tail) (by rw [List.cons_head_tail]; exact hw.2.2)
  refine h.2 _ hd ?_
  have e : slice s p y = '.' :: slice s x y := by rw [← slice_append ht.le hxy, ht.text]; rfl
  have : slice s p y <:+: slice s a b := slice_infix h1 (by have := ht.le; omega) h3
  refine List.IsInfix.trans ⟨[], (slice s x y).tail, ?_⟩ (e ▸ this)
  simp

theorem not_newline {c : Char} (h : c.isAlphanum = true ∨ c = '_' ∨ c = '-') : c ≠ '\n' ∧ c ≠ '\r' := by
  rcases h with h | rfl | rfl
  · constructor <;> (rintro rfl; exact absurd h (by decide))
  · decide
  · decide

theorem ident_oneLine {x : Str} (h : IsIdentifier U x) : OneLine x := by
  obtain ⟨c, cs, rfl, h1, h2⟩ := h
  have key : ∀ d ∈ c :: cs, d ≠ '\n' ∧ d ≠ '\r' := by
    intro d hd
    have hr : U.xidContinue d = true ∨ d = '-' ∨ d = '_' := by
      rcases List.mem_cons.mp hd with rfl | hd
      · rcases h1 with h | rfl
        · exact .inl (U.start_continue _ h)
        · exact .inr (.inr rfl)
      · rcases h2 d hd with h | h
        · exact .inl h
        · exact .inr (.inl h)
    rcases hr with h | rfl | rfl
    · constructor
      · rintro rfl; rw [U.ascii_continue _ (by decide)] at h; exact absurd h (by decide)
      · rintro rfl; rw [U.ascii_continue _ (by decide)] at h; exact absurd h (by decide)
    · decide
    · decide
  exact ⟨fun h => (key _ h).1 rfl, fun h => (key _ h).2 rfl⟩

theorem digits_oneLine {t : Str} (h : DecDigits t) : OneLine t :=
  ⟨fun hm => absurd (h.2 _ hm) (by decide), fun hm => absurd (h.2 _ hm) (by decide)⟩

theorem oneLine_cons {c : Char} {t : Str} (hc : c ≠ '\n' ∧ c ≠ '\r') (h : OneLine t) : OneLine (c :: t) := by
  unfold OneLine at *
  simp only [List.mem_cons, not_or]
  exact ⟨⟨fun e => hc.1 e.symm, h.1⟩, fun e => hc.2 e.symm, h.2⟩

theorem exp_oneLine {x : Str} {e : Int} (h : ExpText x e) : OneLine x := by
  obtain ⟨c, ds, hc, hd, h⟩ := h
  have hc' : c ≠ '\n' ∧ c ≠ '\r' := by rcases hc with rfl | rfl <;> decide
  have hd := digits_oneLine hd
  rcases h with ⟨rfl, -⟩ | ⟨rfl, -⟩ | ⟨rfl, -⟩
  · exact oneLine_cons hc' hd
  · exact oneLine_cons hc' (oneLine_cons (by decide) hd)
  · exact oneLine_cons hc' (oneLine_cons (by decide) hd)

theorem unum_oneLine {t : Str} {n : N} (h : UNumText t n) : OneLine t := by
  cases h with
  | int h _ => exact digits_oneLine h
  | frac h1 h2 h3 _ =>
    refine ((digits_oneLine h1).append (oneLine_cons (by decide) (digits_oneLine h2))).append ?_
    rcases h3 with ⟨rfl, -⟩ | h3
    · exact ⟨nofun, nofun⟩
    · exact exp_oneLine h3
  | exp h1 h2 _ => exact (digits_oneLine h1).append (exp_oneLine h2)

theorem num_oneLine {t : Str} {n : N} (h : NumText t n) (hf : Bracketless t) : OneLine t := by
  cases h with
  | pos h => exact unum_oneLine h
  | neg h1 h2 _ =>
    exact oneLine_cons (by decide) ((trivia_oneLine h1 rfl fun h =>
      hf.1 _ (by simp [brackets]) (h.trans ⟨['-'], _, rfl⟩)).append (unum_oneLine h2))

theorem TravOp.oneLine {o : ETravOp} {a b : Nat} (h : TravOp U s o a b) (hf : Bracketless (slice s a b)) :
    OneLine (slice s a b) := by
  have dot : OneLine c!"." := by decide
  cases h with
  | attrSplat h1 h2 h3 =>
    obtain rfl := hf.dot h1 h2 (Nat.le_refl _) h3.le
    exact (tok_oneLine h1 dot).seq (tok_oneLine h3 (by decide)) h1.le h3.le
  | getAttr h1 h2 h3 _ =>
    obtain rfl := hf.dot h1 h2 (Nat.le_refl _) h3.1.le
    exact (tok_oneLine h1 dot).seq (tok_oneLine h3.1 (ident_oneLine h3.2)) h1.le h3.1.le
  | legacyIndex h1 h2 h3 =>
    obtain rfl := hf.dot h1 h2 (Nat.le_refl _) h3.le
    exact (tok_oneLine h1 dot).seq (tok_oneLine h3 (digits_oneLine (natStr_digits _))) h1.le h3.le
  | fullSplat h1 h2 h3 h4 h5 =>
    have := h2.le; have := h3.le; have := h4.le; have := h5.le
    exact (hf.noTok h1 (Nat.le_refl _) (by omega) (by simp [brackets])).elim
  | index h1 h2 h3 h4 _ h6 =>
    have := h2.le; have := h3.bounds; have := h4.le; have := h6.le
    exact (hf.noTok h1 (Nat.le_refl _) (by omega) (by simp [brackets])).elim

theorem Travs.oneLine {os : List ETrav} {a b : Nat} (h : Travs U s false os a b)
    (hf : Bracketless (slice s a b)) : OneLine (slice s a b) := by
  induction os generalizing a with
  | nil => cases h; rw [slice_self]; exact ⟨nofun, nofun⟩
  | cons o os ih =>
    cases h with
    | cons h1 h2 h3 =>
      have e1 := h1.le; have e2 := h2.bounds; have e3 := h3.le
      exact (h1.oneLine hf (Nat.le_refl _) (by omega)).seq ((h2.oneLine (hf.sub e1 (by omega) e3)).seq
        (ih h3 (hf.sub (by omega) e3 (Nat.le_refl _))) (by omega) e3) e1 (by omega)

theorem binOp_oneLine (o : BinOp) : OneLine o.asStr := by cases o <;> decide
theorem unOp_oneLine (o : UnOp) : OneLine o.asStr := by cases o <;> decide

mutual

theorem Core.flat : ∀ {nl e a b}, Core U s nl e a b → nl = false → Bracketless (slice s a b) →
    OneLine (slice s a b) ∧ unlocks e = false
  | _, _, _, _, .null h, _, _ => ⟨tok_oneLine h (by decide), rfl⟩
  | _, _, _, _, .bool (v := v) h, _, _ => ⟨tok_oneLine h (by cases v <;> decide), rfl⟩
  | _, _, _, _, .number h1 h, _, hf => ⟨tok_oneLine h (num_oneLine h1 (by rw [← h.text]; exact hf)), rfl⟩
  | _, _, _, _, .string h, _, hf => by
    obtain ⟨p, q, h1, h2, h3⟩ := h
    exact (hf.noTok h1 (Nat.le_refl _) (by have := h2.le; have := h3.le; omega) (by simp [brackets])).elim
  | _, _, _, _, .array h1 h2 h3 h4 h5, _, hf => by
    have := h2.le; have := h3.le; have := h4.le; have := h5.le
    exact (hf.noTok h1 (Nat.le_refl _) (by omega) (by simp [brackets])).elim
  | _, _, _, _, .object h1 h2 h3, _, hf => by
    have := h2.le; have := h3.le
    exact (hf.noTok h1 (Nat.le_refl _) (by omega) (by simp [brackets])).elim
  | _, _, _, _, .strTmpl h1 h2 h3, _, hf => by
    have := h2.le; have := h3.le
    exact (hf.noTok h1 (Nat.le_refl _) (by omega) (by simp [brackets])).elim
  | _, _, _, _, .heredoc h1 _ h3 h4 _ _ h6 h7, _, hf => by
    have := h3.lt; have := h4.le; have := h6.1; have := h7.le
    rw [List.append_assoc] at h1
    obtain ⟨x, h1, h1'⟩ := Tok.split h1
    have := h1'.le
    exact (hf.noTok h1 (Nat.le_refl _) (by omega) (by simp [brackets])).elim
  | _, _, _, _, .paren h1 h2 h3 h4 _ h6, _, hf => by
    have := h2.le; have := h3.bounds; have := h4.le; have := h6.le
    exact (hf.noTok h1 (Nat.le_refl _) (by omega) (by simp [brackets])).elim
  | _, _, _, _, .var h _, _, _ => ⟨tok_oneLine h.1 (ident_oneLine h.2), rfl⟩
  | _, _, _, _, .cond h1 _ _ h3 h4 h5 h6 h7 _ h9 h10 h11 _, hn, hf => by
    have e1 := h1.bounds; have e3 := h3.le; have e4 := h4.le; have e5 := h5.le; have e6 := h6.bounds
    have e7 := h7.le; have e9 := h9.le; have e10 := h10.le; have e11 := h11.bounds
    obtain ⟨g1, hu⟩ := h1.flat hn (hf.sub (by omega) (by omega) (by omega))
    rw [hu, hn] at h3 h5 h7 h10
    have hz := (congr (congrArg or hn) hu : (_ || _) = (false || false))
    have g6 := (h6.flat hz (hf.sub (by omega) (by omega) (by omega))).1
    have g11 := (h11.flat hz (hf.sub (by omega) (by omega) (by omega))).1
    refine ⟨?_, hu⟩
    exact (g1.seq (h3.oneLine hf (by omega) (by omega)) (by omega) (by omega)).seq
      ((tok_oneLine h4 (by decide)).seq ((h5.oneLine hf (by omega) (by omega)).seq (g6.seq
        ((h7.oneLine hf (by omega) (by omega)).seq ((tok_oneLine h9 (by decide)).seq
          ((h10.oneLine hf (by omega) (by omega)).seq g11 (by omega) (by omega)) (by omega) (by omega))
          (by omega) (by omega)) (by omega) (by omega)) (by omega) (by omega)) (by omega) (by omega))
      (by omega) (by omega)
  | _, _, _, _, .call h1 h2 h3 h4 h5 h6, _, hf => by
    have := h1.lt; have := h3.le; have := h4.le; have := h5.le; have := h6.le
    exact (hf.noTok h2 (by omega) (by omega) (by simp [brackets])).elim
  | _, _, _, _, .trav h1 _ h3 h4 _ _, hn, hf => by
    have e1 := h1.bounds; have e3 := h3.le; have e4 := h4.le
    obtain ⟨g1, hu⟩ := h1.flat hn (hf.sub (by omega) (by omega) (by omega))
    rw [hu, hn] at h3 h4
    exact ⟨g1.seq ((h3.oneLine hf (by omega) (by omega)).seq
      (h4.oneLine (hf.sub (by omega) (by omega) (by omega))) (by omega) (by omega)) (by omega) (by omega), hu⟩
  | _, _, _, _, .unary h1 h2 h3 _ _, hn, hf => by
    have e1 := h1.le; have e2 := h2.le; have e3 := h3.bounds
    have g3 := (h3.flat hn (hf.sub (by omega) (by omega) (by omega))).1
    exact ⟨(tok_oneLine h1 (unOp_oneLine _)).seq ((h2.oneLine hf (by omega) (by omega)).seq g3
      (by omega) (by omega)) (by omega) (by omega), rfl⟩
  | _, _, _, _, .binary h1 _ h3 h4 h5 h6 _ _ _ h8, hn, hf => by
    have e1 := h1.bounds; have e3 := h3.le; have e4 := h4.le; have e5 := h5.le; have e6 := h6.bounds
    have e8 := h8.le
    obtain ⟨g1, hu⟩ := h1.flat hn (hf.sub (by omega) (by omega) (by omega))
    rw [hu, hn] at h3 h5
    have hz := (congr (congrArg or hn) hu : (_ || _) = (false || false))
    have g6 := (h6.flat hz (hf.sub (by omega) (by omega) (by omega))).1
    have g8 := h8.flat hz (hf.sub (by omega) (by omega) (by omega))
    refine ⟨?_, hu⟩
    exact g1.seq ((h3.oneLine hf (by omega) (by omega)).seq ((tok_oneLine h4 (binOp_oneLine _)).seq
      ((h5.oneLine hf (by omega) (by omega)).seq (g6.seq g8 (by omega) (by omega)) (by omega) (by omega))
      (by omega) (by omega)) (by omega) (by omega)) (by omega) (by omega)
  | _, _, _, _, .forList h1 h2 h3 h4 h5 _ h7 h8, _, hf => by
    have := h2.le; have := h3.le; have := h4.bounds; have := h5.le; have := h7.le; have := h8.le
    exact (hf.noTok h1 (Nat.le_refl _) (by omega) (by simp [brackets])).elim
  | _, _, _, _, .forObj h1 h2 h3 h4 h5 _ h7 h8 h9 h10 _ h12 _ h14 h15, _, hf => by
    have := h2.le; have := h3.le; have := h4.bounds; have := h5.le
    have := h7.le; have := h8.le; have := h9.bounds; have := h10.le; have := h12.le
    have := h14.le; have := h15.le
    exact (hf.noTok h1 (Nat.le_refl _) (by omega) (by simp [brackets])).elim
  | _, _, _, _, .forGroup h1 h2 h3 h4 h5 _ h7 h8 h9 h10 _ h12 h13 h14, _, hf => by
    have := h2.le; have := h3.le; have := h4.bounds; have := h5.le
    have := h7.le; have := h8.le; have := h9.bounds; have := h10.le; have := h12.le
    have := h13.le; have := h14.le
    exact (hf.noTok h1 (Nat.le_refl _) (by omega) (by simp [brackets])).elim

theorem Dropped.flat : ∀ {nl t a b}, Dropped U s nl t a b → nl = false → Bracketless (slice s a b) →
    OneLine (slice s a b)
  | _, _, _, _, .nil, _, _ => by rw [slice_self]; exact ⟨nofun, nofun⟩
  | _, _, _, _, .cons _ h1 h2 h3 h4 h5, hn, hf => by
    have e1 := h1.le; have e2 := h2.le; have e3 := h3.le; have e4 := h4.bounds; have e5 := h5.le
    have g4 := (h4.flat hn (hf.sub (by omega) (by omega) (by omega))).1
    have g5 := h5.flat hn (hf.sub (by omega) (by omega) (by omega))
    rw [hn] at h1 h3
    exact (h1.oneLine hf (by omega) (by omega)).seq ((tok_oneLine h2 (binOp_oneLine _)).seq
      ((h3.oneLine hf (by omega) (by omega)).seq (g4.seq g5 (by omega) (by omega)) (by omega) (by omega))
      (by omega) (by omega)) (by omega) (by omega)

end

theorem StructAt.oneLine {m : Meta} {k : DIdent} {v : EExpr} {a b : Nat}
    (h : StructAt U s (.attr m k v) a b) (hf : Bracketless (slice s a b)) : OneLine (slice s a b) := by
  cases h with
  | attr h1 h2 h3 h4 _ =>
    obtain ⟨y, h1, h1', -⟩ := h1
    have e1 := h1.1.le; have e1' := h1'.le; have e2 := h2.le; have e3 := h3.le; have e4 := h4.bounds
    have g4 := (h4.flat rfl (hf.sub (by omega) (by omega) (by omega))).1
    exact (tok_oneLine h1.1 (ident_oneLine h1.2)).seq ((h1'.oneLine hf (by omega) (by omega)).seq
      ((tok_oneLine h2 (by decide)).seq ((h3.oneLine hf (by omega) (by omega)).seq g4 (by omega) (by omega))
        (by omega) (by omega)) (by omega) (by omega)) (by omega) (by omega)

/-- All attributes have a span, and those outside of brackets are on one line. -/
def AttrsFlat (s : Str) (ss : List EStruct) : Prop := ∀ m k v, HasAttr ss m k v →
  ∃ a b, m.span = some ⟨a, b⟩ ∧ (Bracketless (slice s a b) → OneLine (slice s a b))

theorem AttrsFlat.cons {st : EStruct} {ss : List EStruct} (h1 : AttrsFlat s [st]) (h2 : AttrsFlat s ss) :
    AttrsFlat s (st :: ss) := by
  intro m k v h
  cases h with
  | here h =>
    rcases List.mem_cons.mp h with h | h
    · exact h1 m k v (.here (List.mem_singleton.mpr h))
    · exact h2 m k v (.here h)
  | inside h h' =>
    rcases List.mem_cons.mp h with h | h
    · exact h1 m k v (.inside (List.mem_singleton.mpr h) h')
    · exact h2 m k v (.inside h h')

theorem AttrsFlat.nil : AttrsFlat s [] := by
  intro m k v h
  cases h with
  | here h => cases h
  | inside h _ => cases h

mutual

theorem StructAt.attrs : ∀ {st a b}, StructAt U s st a b → (structMeta st).span = some ⟨a, b⟩ →
    AttrsFlat s [st]
  | _, _, _, .attr h1 h2 h3 h4 h5, hm => by
    intro m k v h
    cases h with
    | here h =>
      have h := List.mem_singleton.mp h
      injection h with e1 e2 e3
      subst e1
      exact ⟨_, _, hm, (StructAt.attr (m := m) h1 h2 h3 h4 h5).oneLine⟩
    | inside h _ => simp at h
  | _, _, _, .block _ _ _ h4 _, _ => by
    intro m k v h
    cases h with
    | here h => simp at h
    | inside h h' =>
      have h := List.mem_singleton.mp h
      injection h with _ _ _ h
      exact h4.attrs h.symm m k v h'

theorem BlockBody.attrs : ∀ {bd p q}, BlockBody U s bd p q → ∀ {dm bs o om}, bd = .mk dm bs o om →
    AttrsFlat s bs
  | _, _, _, .lines _ _ h3 _ _, _, _, _, _, h => by injection h with _ h; subst h; exact h3.attrs
  | _, _, _, .empty _, _, _, _, _, h => by injection h with _ h; subst h; exact .nil
  | _, _, _, .single _ h2 _ _, _, _, _, _, h => by injection h with _ h; subst h; exact h2.attrs rfl

theorem Lines.attrs : ∀ {ss fin p q}, Lines U s ss fin p q → AttrsFlat s ss
  | _, _, _, _, .nil => .nil
  | _, _, _, _, .cons _ h2 h3 _ _ h6 => .cons (h2.attrs (by rw [h3]; rfl)) h6.attrs
  | _, _, _, _, .last _ h2 h3 _ => h2.attrs (by rw [h3]; rfl)

end

theorem AttrsFlat.despan {ss : List EStruct} (full : Str) {t : Str} (h : AttrsFlat t ss) :
    AttrsFlat t (EStruct.despanList full ss) := by
  intro m k v ha
  generalize hs : EStruct.despanList full ss = ss' at ha
  induction ha generalizing ss with
  | here hm =>
    subst hs
    obtain ⟨y, h3, h4⟩ := mem_despanList hm
    cases y with
    | attr m' k' v' =>
      simp only [EStruct.despan] at h4
      injection h4 with h4
      subst h4
      exact h m' k' v' (.here h3)
    | block m i' ls' b' => simp only [EStruct.despan] at h4; cases h4
  | inside hm _ ih =>
    subst hs
    obtain ⟨y, h3, h4⟩ := mem_despanList hm
    cases y with
    | attr m' k' v' => simp only [EStruct.despan] at h4; cases h4
    | block m i' ls' b' =>
      obtain ⟨dm, bs, o, om⟩ := b'
      simp only [EStruct.despan, EBody.despan] at h4
      injection h4 with _ _ _ h4
      injection h4 with _ h4
      exact ih (ss := bs) (fun m k v ha => h m k v (.inside h3 ha)) h4.symm

end Verif.Spec
