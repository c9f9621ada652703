import Verif.Spec.Printable
import Verif.Lemmas.Format
import Verif.Lemmas.Heads
import Verif.Lemmas.RunTrav
import Verif.Lemmas.Markers
import Verif.Props.Ident
/-! The text of a printable expression or body spells it. -/

namespace Verif.Gram
open P Spec Syn Render

variable {E : FmtEnv} {bd : Build} {cfg : FmtCfg} {tm : Bool}

/-! ### Pieces of text -/

theorem pad_gap (hi : Gap false cfg.indent) (b : Bool) : ∀ n, Gap b (pad cfg n)
  | 0 => .nil
  | n + 1 => (hi.mono nofun).append (pad_gap hi b n)

theorem gap_blank {b : Bool} : Gap b c!" " := .blank (.inl rfl) .nil

theorem gap_line (hi : Gap false cfg.indent) (n : Nat) : Gap true (c!"\n" ++ pad cfg n) :=
  .newline (.inl rfl) (pad_gap hi true n)

theorem hexText_low : ∀ n < 32, HexText ['0', '0', hexDigit (n / 16), hexDigit (n % 16)] n := by
  intro n hn
  refine ⟨[0, 0, n / 16, n % 16], ?_, ?_⟩
  · revert n; decide
  · simp only [List.foldl_cons, List.foldl_nil]; omega

theorem escapeChar_cases (c : Char) : (escapeChar c = [c] ∧ c ≠ '"' ∧ c ≠ '\\') ∨ Escape (escapeChar c) c := by
  have ofN : ∀ n : Nat, c.toNat = n → c = Char.ofNat n := fun n h => by rw [← h, Char.ofNat_toNat]
  unfold escapeChar
  by_cases h1 : c = '"'
  · rw [if_pos h1, h1]; exact .inr (.simple (by decide))
  rw [if_neg h1]
  by_cases h2 : c = '\\'
  · rw [if_pos h2, h2]; exact .inr (.simple (by decide))
  rw [if_neg h2]
  by_cases h : c.toNat = 0x08
  · rw [if_pos h, ofN _ h]; exact .inr (.simple (by decide))
  rw [if_neg h]; clear h
  by_cases h : c.toNat = 0x09
  · rw [if_pos h, ofN _ h]; exact .inr (.simple (by decide))
  rw [if_neg h]; clear h
  by_cases h : c.toNat = 0x0a
  · rw [if_pos h, ofN _ h]; exact .inr (.simple (by decide))
  rw [if_neg h]; clear h
  by_cases h : c.toNat = 0x0c
  · rw [if_pos h, ofN _ h]; exact .inr (.simple (by decide))
  rw [if_neg h]; clear h
  by_cases h : c.toNat = 0x0d
  · rw [if_pos h, ofN _ h]; exact .inr (.simple (by decide))
  rw [if_neg h]; clear h
  by_cases h : c.toNat < 0x20
  · rw [if_pos h]
    exact .inr (.unicode (.inl ⟨rfl, rfl⟩) (hexText_low _ h))
  · rw [if_neg h]
    exact .inl ⟨rfl, h1, h2⟩

theorem escapeChars_head {k : Char} {x r : Str} (hk : k ≠ '\\') (h : k :: x = escapeChars r) :
    ∃ r', r = k :: r' ∧ x = escapeChars r' := by
  cases r with
  | nil => cases h
  | cons d r =>
    unfold escapeChars at h
    rcases escapeChar_cases d with ⟨h1, -⟩ | h1
    · rw [h1] at h
      injection h with h2 h3
      subst h2
      exact ⟨r, rfl, h3⟩
    · obtain ⟨e, he⟩ := escape_cons h1
      rw [he] at h
      injection h with h2 _
      exact absurd h2 hk

theorem escapeChars_text (t : Str) : ∀ v, readLiteral t = some v → QuotedText (escapeChars t) v := by
  fun_induction readLiteral t with
  | case1 r ih =>
    intro v h
    obtain ⟨w, h1, rfl⟩ := Option.map_eq_some_iff.mp h
    exact .marker (.inl rfl) (ih _ h1)
  | case2 r ih =>
    intro v h
    obtain ⟨w, h1, rfl⟩ := Option.map_eq_some_iff.mp h
    exact .marker (.inr rfl) (ih _ h1)
  | case3 => nofun
  | case4 => nofun
  | case5 c r n1 n2 n3 n4 ih =>
    intro v h
    obtain ⟨w, h1, rfl⟩ := Option.map_eq_some_iff.mp h
    unfold escapeChars
    rcases escapeChar_cases c with ⟨h2, h3, h4⟩ | h2
    · rw [h2]
      refine .char h3 h4 ?_ (ih _ h1)
      have nb : Sigil c → ∀ x, r ≠ '{' :: x := by
        rintro (rfl | rfl) x rfl
        · exact n3 _ rfl rfl
        · exact n4 _ rfl rfl
      have ne : Sigil c → ∀ x, r ≠ c :: '{' :: x := by
        rintro (rfl | rfl) x rfl
        · exact n1 _ rfl rfl
        · exact n2 _ rfl rfl
      intro hc
      constructor
      · rintro ⟨k, hk⟩
        obtain ⟨r', rfl, -⟩ := escapeChars_head (by decide) hk
        exact nb hc _ rfl
      · rintro ⟨k, hk⟩
        obtain ⟨r', rfl, h5⟩ := escapeChars_head (sigil_ne hc).2 hk
        obtain ⟨r'', rfl, -⟩ := escapeChars_head (by decide) h5
        exact ne hc _ rfl
    · exact .esc h2 (ih _ h1)
  | case6 => intro v h; cases h; exact .nil

theorem string_text {s : Str} (h : StringSafe s) : QuotedText (escapeChars (escapeMarkers s)) s :=
  escapeChars_text _ _ (Markers.read_esc s h)

theorem natStr_digits (n : Nat) : DecDigits (natStr n) :=
  ⟨(natStr_spec n).2.1, fun c hc => by
    have := (natStr_spec n).1 c hc
    unfold isDigit at this
    exact of_decide_eq_true this⟩

theorem natStr_val (n : Nat) : decVal (natStr n) = n := (natStr_spec n).2.2

theorem natStr_num {n : Nat} (h : n < 2 ^ 64) : UNumText (natStr n) (.posInt n) := by
  have := UNumText.int (natStr_digits n) (by rw [natStr_val]; exact h)
  rwa [natStr_val] at this

theorem natStr_zero (n : Nat) : natStr n = c!"0" ∨ (natStr n).head? ≠ some '0' := by
  induction n using Nat.strongRecOn with
  | ind n ih =>
    by_cases h : n < 10
    · rw [natStr_small h]
      clear ih
      revert n
      decide
    · rw [natStr_step (by omega)]
      right
      obtain ⟨-, h2, h3⟩ := natStr_spec (n / 10)
      rcases ih (n / 10) (by omega) with h4 | h4
      · rw [h4] at h3
        have : n / 10 = 0 := h3.symm
        omega
      · intro h5
        apply h4
        cases hs : natStr (n / 10) with
        | nil => exact absurd hs h2
        | cons c cs =>
          rw [hs] at h5
          exact h5

theorem number_text {n : N} (h : NumberSafe E bd n) : Num bd (showNumber E n) n := by
  cases n with
  | posInt n => exact .pos (natStr_num h)
  | negInt i =>
    obtain ⟨h0, h1, h2⟩ := h
    show Num bd (intStr i) _
    unfold intStr
    rw [if_pos h0]
    exact .neg (g := []) .nil (natStr_num (by omega)) (neg_natAbs h0 h1 h2)
  | float x => exact h

/-! ### Levels -/

/-- The text spells the expression, on the tightest level. -/
structure Lev (U : Uni) (bd : Build) (nl : Bool) (e : Expr) (t : Str) : Prop where
  atom : atomic e = true → Atom U bd nl e t
  term : operand e = true → Term U bd nl e t
  chain : isCond e = false → Syn.Chain U bd nl e t
  full : Full U bd nl e t

theorem lev_atom {U : Uni} {nl : Bool} {e : Expr} {t : Str} (h : Atom U bd nl e t) : Lev U bd nl e t :=
  ⟨fun _ => h, fun _ => .atom h, fun _ => .term (.atom h), .chain (.term (.atom h))⟩

theorem lev_term {U : Uni} {nl : Bool} {e : Expr} {t : Str} (h : Term U bd nl e t) (ha : atomic e = false) :
    Lev U bd nl e t := ⟨fun h' => (by rw [ha] at h'; cases h'), fun _ => h, fun _ => .term h, .chain (.term h)⟩

/-! ### Beginnings -/

theorem num_head {t : Str} {n : N} (h : Num bd t n) : ∃ c cs, t = c :: cs ∧ (isDigit c = true ∨ c = '-') := by
  cases h with
  | pos h =>
    obtain ⟨c, cs, rfl, hc⟩ := uNum_head h
    exact ⟨c, cs, rfl, .inl hc⟩
  | neg => exact ⟨_, _, rfl, .inr rfl⟩


theorem start_not_digit {U : Uni} {c : Char} (h : isIdStart U c = true) : isDigit c = false := by
  refine Bool.eq_false_iff.mpr fun hd => ?_
  rw [digit_not_start hd] at h
  cases h

/-- What the first character of a text is like. -/
def HeadIs (op dig : Bool) (t : Str) : Prop :=
  ∃ c cs, t = c :: cs ∧ (op = false → calm c = true) ∧ (dig = false → isDigit c = false)

theorem HeadIs.append {op dig : Bool} {t : Str} (h : HeadIs op dig t) (u : Str) : HeadIs op dig (t ++ u) := by
  obtain ⟨c, cs, rfl, h1, h2⟩ := h
  exact ⟨c, cs ++ u, rfl, h1, h2⟩

theorem ident_headIs {U : Uni} {x : Str} (h : IsIdentifier U x) : HeadIs false false x := by
  obtain ⟨c, cs, rfl, h1, _⟩ := h
  exact ⟨c, cs, rfl, fun _ => calm_idStart (idFirst_iff.mpr h1), fun _ => start_not_digit (idFirst_iff.mpr h1)⟩

/-- The name of a function is spelled by its text. -/
theorem name_text {U : Uni} {nl : Bool} {n : Str} (hn : IsIdentifier U n) : ∀ ns : List Str,
    (∀ y ∈ ns, IsIdentifier U y) → ∃ x xs t, x :: xs = ns ++ [n] ∧ IsIdentifier U x ∧ NameTail U nl xs t ∧
      namespaces ns ++ n = x ++ t ∧ (t = [] ∨ ∃ t', t = ':' :: t')
  | [], _ => ⟨n, [], [], rfl, hn, .nil, by simp [namespaces], .inl rfl⟩
  | m :: ns, h => by
    obtain ⟨x, xs, t, h1, h2, h3, h4, -⟩ := name_text (nl := nl) hn ns fun y hy => h y (List.mem_cons_of_mem _ hy)
    refine ⟨m, x :: xs, _, by rw [h1]; rfl, h m List.mem_cons_self, .cons (g := []) (h := []) .nil h2 .nil h3, ?_,
      .inr ⟨_, rfl⟩⟩
    simp [namespaces, h4]

theorem isDigit_eq (c : Char) : isDigit c = c.isDigit := by
  unfold isDigit Char.isDigit
  rw [Bool.eq_iff_iff, decide_eq_true_iff, Bool.and_eq_true, decide_eq_true_iff, decide_eq_true_iff]
  exact Iff.rfl

theorem headText : ∀ (e : Expr), Printable E bd cfg tm e → ∀ cm ind,
    HeadIs (startsOperator e) (startsDigit E e) (Render.expr E cfg cm ind e)
  | .null, _, _, _ => ⟨_, _, rfl, fun _ => by decide, fun _ => by decide⟩
  | .bool b, _, _, _ => by cases b <;> exact ⟨_, _, rfl, fun _ => by decide, fun _ => by decide⟩
  | .number n, h, _, _ => by
    simp only [Printable] at h
    simp only [Render.expr]
    cases n with
    | posInt n =>
      obtain ⟨c, cs, h1, h2⟩ := uNum_head (natStr_num h)
      exact ⟨c, cs, h1, fun _ => calm_digit h2, nofun⟩
    | negInt i =>
      obtain ⟨h0, -⟩ := h
      refine ⟨'-', natStr i.natAbs, ?_, nofun, fun _ => by decide⟩
      show intStr i = _
      unfold intStr
      rw [if_pos h0]
    | float x =>
      obtain ⟨c, cs, h1, -⟩ := num_head h
      refine ⟨c, cs, h1, nofun, fun hd => ?_⟩
      simp only [startsDigit, leftmost, h1] at hd
      rw [isDigit_eq]
      simpa using hd
  | .string s, _, _, _ => ⟨_, _, rfl, fun _ => by decide, fun _ => by decide⟩
  | .array es, _, _, _ => by
    simp only [Render.expr]
    exact ⟨_, _, rfl, nofun, fun _ => by decide⟩
  | .object es, _, _, _ => by
    simp only [Render.expr]
    exact ⟨_, _, rfl, fun _ => by decide, fun _ => by decide⟩
  | .template (.quoted s), _, _, _ => by
    simp only [Render.expr]
    exact ⟨_, _, rfl, fun _ => by decide, fun _ => by decide⟩
  | .template (.heredoc _ _ .none), _, _, _ => by
    simp only [Render.expr]
    exact ⟨_, _, rfl, nofun, fun _ => by decide⟩
  | .template (.heredoc _ _ .indent), _, _, _ => by
    simp only [Render.expr]
    exact ⟨_, _, rfl, nofun, fun _ => by decide⟩
  | .var x, h, _, _ => ident_headIs h.1
  | .traversal e os, h, cm, ind => by
    simp only [Printable] at h
    simp only [Render.expr]
    exact (headText e h.1 cm ind).append _
  | .call n es x, h, _, _ => by
    simp only [Printable] at h
    obtain ⟨x, xs, t, -, h2, -, h4, -⟩ := name_text (nl := false) h.2.1 _ h.1
    simp only [Render.expr, funcName, h4, List.append_assoc]
    exact (ident_headIs h2).append _
  | .paren e, _, _, _ => by
    simp only [Render.expr]
    exact ⟨_, _, rfl, nofun, fun _ => by decide⟩
  | .cond c a b, h, _, ind => by
    simp only [Printable] at h
    simp only [Render.expr, List.append_assoc]
    exact (headText c h.1 true ind).append _
  | .unary o e, _, _, _ => by
    simp only [Render.expr]
    cases o <;> exact ⟨_, _, rfl, nofun, fun _ => by decide⟩
  | .binary l o r, h, cm, ind => by
    simp only [Printable] at h
    simp only [Render.expr, List.append_assoc]
    exact (headText l h.1 cm ind).append _
  | .forE k v c ke ve g ce, _, _, _ => by
    rw [Render.expr.eq_def]
    cases ke with
    | none => exact ⟨_, _, rfl, nofun, fun _ => by decide⟩
    | some ke => exact ⟨_, _, rfl, fun _ => by decide, fun _ => by decide⟩

/-! ### The word `for` -/

/-- The text does not start with the word `for`. -/
def NoFor (t : Str) : Prop := ∀ c r, t = c!"for" ++ c :: r → c ∉ [' ', '\t', '#', '/', '\n']

theorem ident_for {U : Uni} : IsIdentifier U c!"for" :=
  ⟨'f', c!"or", rfl, .inl (by rw [U.ascii_start _ (by decide)]; rfl), by
    intro d hd
    refine .inl ?_
    rw [U.ascii_continue _ (by revert d; decide)]
    revert d; decide⟩

theorem ident_noFor {U : Uni} {x r : Str} (h : IsIdentifier U x) (hr : IdEnd U r)
    (hx : x = c!"for" → ∀ c cs, r = c :: cs → c ∉ [' ', '\t', '#', '/', '\n']) : NoFor (x ++ r) := by
  intro c r' he hc
  have hi : IdEnd U (c :: r') := idEnd_cons ((by decide : ∀ c ∈ [' ', '\t', '#', '/', '\n'], nonId c = true) c hc)
  obtain ⟨v, h1, h2⟩ := runs_strIdent h hr 0
  obtain ⟨v', h1', h2'⟩ := runs_strIdent (U := U) ident_for hi 0
  subst h2 h2'
  rw [he, h1'] at h1
  injection h1 with h1 _
  subst h1
  exact hx rfl c r' (List.append_cancel_left he) hc

theorem head_noFor {d : Char} {t : Str} (h : d ≠ 'f') : NoFor (d :: t) := by
  intro c r he
  injection he with he _
  exact absurd he h

theorem forText : ∀ (e : Expr), Printable E bd cfg tm e → startsFor e = false → ∀ cm ind r, IdEnd E.U r →
    NoFor (Render.expr E cfg cm ind e ++ r)
  | .null, _, _, _, _, _, _ => head_noFor (by decide)
  | .bool b, _, _, _, _, _, _ => by
    cases b
    · intro c r he
      injection he with _ he
      injection he with he _
      exact absurd he (by decide)
    · exact head_noFor (by decide)
  | .number n, h, _, cm, ind, r, _ => by
    simp only [Printable] at h
    obtain ⟨c, cs, h1, h2⟩ := num_head (number_text h)
    simp only [Render.expr, h1]
    refine head_noFor ?_
    rintro rfl
    revert h2; decide
  | .string s, _, _, _, _, _, _ => head_noFor (by decide)
  | .array es, _, _, _, _, _, _ => by simp only [Render.expr]; exact head_noFor (by decide)
  | .object es, _, _, _, _, _, _ => by simp only [Render.expr]; exact head_noFor (by decide)
  | .template (.quoted s), _, _, _, _, _, _ => by simp only [Render.expr]; exact head_noFor (by decide)
  | .template (.heredoc _ _ .none), _, _, _, _, _, _ => by simp only [Render.expr]; exact head_noFor (by decide)
  | .template (.heredoc _ _ .indent), _, _, _, _, _, _ => by simp only [Render.expr]; exact head_noFor (by decide)
  | .var x, h, hf, _, _, r, hr => ident_noFor h.1 hr fun hx => by
      subst hx
      cases hf
  | .traversal e os, h, hf, cm, ind, r, hr => by
    simp only [Printable] at h
    simp only [Render.expr, List.append_assoc]
    refine forText e h.1 hf cm ind _ ?_
    obtain ⟨-, -, h3, -⟩ := h
    cases os with
    | nil => exact absurd rfl h3
    | cons o os =>
      simp only [travOps]
      cases o <;> simp only [travOp] <;> exact idEnd_cons (by decide)
  | .call n es x, h, _, _, _, _, _ => by
    simp only [Printable] at h
    obtain ⟨x, xs, t, -, h2, -, h4, h5⟩ := name_text (nl := false) h.2.1 _ h.1
    simp only [Render.expr, funcName, h4, List.append_assoc]
    rcases h5 with rfl | ⟨t', rfl⟩
    · exact ident_noFor h2 (idEnd_cons (by decide)) fun _ c cs hc => by
        injection hc with hc _; subst hc; decide
    · exact ident_noFor h2 (idEnd_cons (by decide)) fun _ c cs hc => by
        injection hc with hc _; subst hc; decide
  | .paren e, _, _, _, _, _, _ => by simp only [Render.expr]; exact head_noFor (by decide)
  | .cond c a b, h, hf, _, ind, r, hr => by
    simp only [Printable] at h
    simp only [Render.expr, List.append_assoc]
    exact forText c h.1 hf true ind _ (idEnd_cons (by decide))
  | .unary o e, _, _, _, _, _, _ => by
    simp only [Render.expr]
    cases o <;> exact head_noFor (by decide)
  | .binary l o r, h, hf, cm, ind, _, _ => by
    simp only [Printable] at h
    simp only [Render.expr, List.append_assoc]
    exact forText l h.1 hf cm ind _ (idEnd_cons (by decide))
  | .forE k v c ke ve g ce, _, _, _, _, _, _ => by
    rw [Render.expr.eq_def]
    cases ke <;> exact head_noFor (by decide)

/-! ### Keys -/

theorem objKey_expr {e : Expr} (h : cfg.preferIdentKeys = true → ∀ s, e = .string s → ¬ IsIdentifier E.U s)
    (cm : Bool) (ind : Nat) : objKey E cfg cm ind (.expr e) = Render.expr E cfg cm ind e := by
  cases e with
  | string s =>
    simp only [objKey, Render.expr, strKey]
    rw [if_neg]
    intro hc
    simp only [Bool.and_eq_true] at hc
    exact h hc.1 s rfl ((Props.C01_isIdent_iff _ _).mp hc.2)
  | _ => simp only [objKey]

theorem keyHead {k : ObjKey} (h : PrintableKey E bd cfg tm k) (cm : Bool) (ind : Nat) :
    HeadIs (keyStartsOperator k) true (objKey E cfg cm ind k) := by
  cases k with
  | ident x =>
    simp only [PrintableKey] at h
    obtain ⟨c, cs, h1, h2, -⟩ := ident_headIs h.1
    simp only [objKey]
    exact ⟨c, cs, h1, fun _ => h2 rfl, nofun⟩
  | expr e =>
    simp only [PrintableKey] at h
    rw [objKey_expr h.2.2]
    obtain ⟨c, cs, h1, h2, -⟩ := headText e h.1 cm ind
    exact ⟨c, cs, h1, h2, nofun⟩

theorem keyFor {k : ObjKey} (h : PrintableKey E bd cfg tm k) (hf : keyStartsFor k = false) (cm : Bool) (ind : Nat)
    (r : Str) (hr : IdEnd E.U r) : NoFor (objKey E cfg cm ind k ++ r) := by
  cases k with
  | ident x =>
    simp only [PrintableKey] at h
    simp only [objKey]
    refine ident_noFor h.1 hr fun hx => ?_
    subst hx
    cases hf
  | expr e =>
    simp only [PrintableKey] at h
    rw [objKey_expr h.2.2]
    exact forText e h.1 hf cm ind r hr

/-! ### `for` expressions -/

theorem intro_text {U : Uni} {k : Option Str} {v : Str} {c : Expr} {t : Str} (hk : ∀ x, k = some x → IsIdentifier U x)
    (hv : IsIdentifier U v) (hc : Full U bd false c t) :
    Intro U bd k v c (c!"for " ++ optKey k ++ v ++ c!" in " ++ t ++ c!" :") := by
  cases k with
  | none =>
    have := Intro.value (bd := bd) (g := []) (w := ' ') (g₁ := []) (h₁ := c!" ") (g₃ := c!" ") (h₃ := c!" ") .nil
      (by decide) gap_blank hv gap_blank nofun gap_blank nofun hc gap_blank
    simpa [optKey] using this
  | some k =>
    have := Intro.keyValue (bd := bd) (g := []) (w := ' ') (g₁ := []) (h₁ := []) (g₂ := c!" ") (h₂ := c!" ") (g₃ := c!" ")
      (h₃ := c!" ") .nil
      (by decide) gap_blank (hk k rfl) .nil gap_blank hv gap_blank nofun gap_blank nofun hc gap_blank
    simpa [optKey] using this

/-- The condition of a `for` expression. -/
def condText (E : FmtEnv) (cfg : FmtCfg) (cm : Bool) (ind : Nat) : Option Expr → Str
  | some e => c!"if " ++ Render.expr E cfg cm ind e
  | none => []

theorem forE_list {k : Option Str} {v : Str} {c ve : Expr} {g : Bool} {ce : Option Expr} (cm : Bool) (ind : Nat) :
    Render.expr E cfg cm ind (.forE k v c none ve g ce) =
      c!"[" ++ (c!"for " ++ optKey k ++ v ++ c!" in " ++ Render.expr E cfg cm ind c ++ c!" :") ++ c!" " ++
        Render.expr E cfg cm ind ve ++ (if ce.isSome then c!" " else []) ++
        condText E cfg cm ind ce ++ c!"]" := by
  rw [Render.expr.eq_def]
  cases ce <;> simp [condText]

theorem forE_object {k : Option Str} {v : Str} {c ke ve : Expr} {ce : Option Expr} (cm : Bool) (ind : Nat) :
    Render.expr E cfg cm ind (.forE k v c (some ke) ve false ce) =
      c!"{" ++ (c!"for " ++ optKey k ++ v ++ c!" in " ++ Render.expr E cfg cm ind c ++ c!" :") ++ c!" " ++
        Render.expr E cfg cm ind ke ++ c!" " ++ c!"=>" ++ c!" " ++
        Render.expr E cfg cm ind ve ++ (if ce.isSome then c!" " else []) ++
        condText E cfg cm ind ce ++ c!"}" := by
  rw [Render.expr.eq_def]
  cases ce <;> simp [condText]

theorem forE_group {k : Option Str} {v : Str} {c ke ve : Expr} {ce : Option Expr} (cm : Bool) (ind : Nat) :
    Render.expr E cfg cm ind (.forE k v c (some ke) ve true ce) =
      c!"{" ++ (c!"for " ++ optKey k ++ v ++ c!" in " ++ Render.expr E cfg cm ind c ++ c!" :") ++ c!" " ++
        Render.expr E cfg cm ind ke ++ c!" " ++ c!"=>" ++ c!" " ++
        Render.expr E cfg cm ind ve ++ [] ++ c!"..." ++ (if ce.isSome then c!" " else []) ++
        condText E cfg cm ind ce ++ c!"}" := by
  rw [Render.expr.eq_def]
  cases ce <;> simp [condText]

theorem gap_if {b : Bool} : Gap true (if b then c!" " else []) := by
  cases b
  · exact .nil
  · exact gap_blank

/-! ### Expressions -/

theorem arraySep_first (hi : Gap false cfg.indent) (c : Bool) (ind : Nat) : Gap true (arraySep cfg c ind true) := by
  cases c
  · exact gap_line hi ind
  · exact .nil

theorem arraySep_next (hi : Gap false cfg.indent) (c : Bool) (ind : Nat) :
    ∃ g, arraySep cfg c ind false = c!"," ++ g ∧ Gap true g := by
  cases c
  · exact ⟨_, rfl, gap_line hi ind⟩
  · exact ⟨c!" ", rfl, gap_blank⟩

theorem arrayEnd_text (hi : Gap false cfg.indent) (c : Bool) (ind : Nat) (n : Bool) :
    ∃ g, arrayEnd cfg c ind n = g ++ c!"]" ∧ Gap true g := by
  cases c
  · cases n
    · exact ⟨_, rfl, gap_line hi ind⟩
    · exact ⟨[], rfl, .nil⟩
  · exact ⟨[], rfl, .nil⟩

theorem objectSep_first (hi : Gap false cfg.indent) (c : Bool) (ind : Nat) : Gap true (objectSep cfg c ind true) := by
  cases c
  · exact gap_line hi ind
  · exact gap_blank

/-- The text between the last entry of an object and the brace. -/
def objectGap (cfg : FmtCfg) (c : Bool) (ind : Nat) : Str := if c then c!" " else c!"\n" ++ pad cfg ind

theorem exprElems_idEnd {U : Uni} (cm : Bool) (ind : Nat) (es : List Expr) {h : Str} (hg : Gap true h) :
    IdEnd U (exprElems E cfg cm ind false es ++ h) := by
  cases es with
  | nil =>
    simp only [exprElems]
    rw [show ([] : Str) ++ h = h ++ [] by simp]
    exact gap_idEnd hg (.inl idEnd_nil)
  | cons e es =>
    simp only [exprElems, arraySep]
    cases (cfg.compactArrays || cm) <;> exact idEnd_cons (by decide)

theorem not_continues {g t : Str} (hg : Gap true g) (ht : t = [] ∨ ∃ c cs, t = c :: cs ∧ calm c = true) :
    ¬ Continues (g ++ t) := by
  rintro ⟨g', c, u, he, hg', hc, hm⟩
  have hs : ¬ StartsTrivia true t := by
    rcases ht with rfl | ⟨d, ds, rfl, hd⟩
    · exact nil_starts
    · unfold calm at hd
      simp only [Bool.and_eq_true] at hd
      exact solid_starts hd.1
  obtain ⟨-, rfl⟩ := gap_unique hg hs hg' hc he
  rcases ht with h | ⟨d, ds, h, hd⟩
  · cases h
  · injection h with h _
    subst h
    exact (by decide : ∀ c ∈ ['?', '[', '(', '.', ':', '=', '!', '<', '>', '+', '-', '*', '/', '%', '&', '|'],
      ¬ calm c = true) c hm hd

theorem key_starts {U : Uni} {k : ObjKey} {t : Str} (h : Key U bd k t) : Starts U t := by
  cases h with
  | ident h => exact ident_starts h
  | expr h => exact full_starts h

section
variable (hi : Gap false cfg.indent)
include hi

mutual

theorem spell : ∀ (e : Expr), Printable E bd cfg tm e → ∀ nl cm ind, Lev E.U bd nl e (Render.expr E cfg cm ind e)
  | .null, _, _, _, _ => lev_atom .null
  | .bool _, _, _, _, _ => lev_atom .bool
  | .number n, h, _, _, _ => lev_atom (.number (number_text h))
  | .string s, h, _, _, _ => lev_atom (.string (string_text h))
  | .array [], _, nl, cm, ind => by
    simp only [Render.expr, exprElems]
    obtain ⟨g, h1, h2⟩ := arrayEnd_text hi (cfg.compactArrays || cm) ind ([] : List Expr).isEmpty
    rw [h1]
    have := Atom.emptyArray (U := E.U) (bd := bd) (nl := nl) h2
    exact lev_atom (by simpa using this)
  | .array (e :: es), h, nl, cm, ind => by
    simp only [Printable, PrintableList] at h
    obtain ⟨⟨h1, h2⟩, h3⟩ := h
    simp only [Render.expr, exprElems]
    obtain ⟨g, h4, h5⟩ := arrayEnd_text hi (cfg.compactArrays || cm) ind (e :: es).isEmpty
    rw [h4]
    have hg := arraySep_first hi (cfg.compactArrays || cm) (inner (cfg.compactArrays || cm) ind)
    have hs := elems es h2 cm (inner (cfg.compactArrays || cm) ind) hg
      (spell e h1 true cm (inner (cfg.compactArrays || cm) ind)).full h5
    have hf := not_forStart hg (((full_starts (spell e h1 true cm (inner (cfg.compactArrays || cm) ind)).full).append
      _).solid) (forText e h1 h3 cm (inner (cfg.compactArrays || cm) ind) _
        (exprElems_idEnd (E := E) (cfg := cfg) cm (inner (cfg.compactArrays || cm) ind) es h5))
    have := Atom.array (nl := nl) hs (by simpa using hf)
    exact lev_atom (by simpa using this)
  | .object [], _, nl, cm, ind => by
    simp only [Render.expr, exprEntries]
    have := Atom.object (U := E.U) (bd := bd) (nl := nl) (.nil .nil) (by
      have := not_forStart (g := []) .nil (u := []) nil_starts (by nofun)
      exact this) List.Pairwise.nil
    exact lev_atom this
  | .object ((k, v) :: es), h, nl, cm, ind => by
    simp only [Printable, PrintableItems] at h
    obtain ⟨⟨h1, h2, h3⟩, h4, h5, h6⟩ := h
    simp only [Render.expr, exprEntries]
    have hg := objectSep_first hi (cfg.compactObjects || cm) (inner (cfg.compactObjects || cm) ind)
    have hk := key k h1 cm (inner (cfg.compactObjects || cm) ind)
    have hs := items es h3 cm (inner (cfg.compactObjects || cm) ind) ind h6 hg hk
      (spell v h2 false cm (inner (cfg.compactObjects || cm) ind)).full
    have hf := not_forStart hg (u := objKey E cfg cm (inner (cfg.compactObjects || cm) ind) k ++ (c!" = " ++
      Render.expr E cfg cm (inner (cfg.compactObjects || cm) ind) v ++
      exprEntries E cfg cm (inner (cfg.compactObjects || cm) ind) false es ++
      objectGap cfg (cfg.compactObjects || cm) ind)) (((key_starts hk).append _).solid)
      (keyFor h1 h4 cm _ _ (idEnd_cons (by decide)))
    have := Atom.object (nl := nl) hs (by simpa using hf) h5
    refine lev_atom ?_
    have he : objectEnd cfg (cfg.compactObjects || cm) ind ((k, v) :: es).isEmpty =
      objectGap cfg (cfg.compactObjects || cm) ind ++ c!"}" := rfl
    rw [he]
    simpa using this
  | .template (.quoted s), h, _, _, _ => by
    obtain ⟨-, es, h1, h2, h3⟩ := h
    simp only [Render.expr]
    exact lev_atom (.template h1 h2 h3)
  | .template (.heredoc d s i), h, nl, _, _ => by
    obtain ⟨-, rfl, h1, h2, es, h3⟩ := h
    simp only [Render.expr, tmplExpr, Fmt.heredocMark, if_pos h2.last]
    have := Atom.heredoc (nl := nl) h1 (.inl rfl) h3 h3 h2 (b := []) (fun _ h => (List.not_mem_nil h).elim)
    exact lev_atom (by simpa using this)
  | .var x, h, _, _, _ => lev_atom (.var h.1 h.2)
  | .traversal e os, h, nl, cm, ind => by
    simp only [Printable] at h
    obtain ⟨h1, h2, h3, h4, h5⟩ := h
    simp only [Render.expr]
    refine lev_term (.trav ((spell e h1 nl cm ind).atom h2) (ops os h4 h3 (nl || opens e) cm ind) ?_) rfl
    intro hn d ds he hd
    have h5 := h5 hn
    cases os with
    | nil => exact h3 rfl
    | cons o os =>
      simp only [travOps] at he
      cases o with
      | attrSplat => simp only [travOp] at he; injection he with _ he; injection he with he _; subst he; revert hd; decide
      | fullSplat => simp only [travOp] at he; injection he with he _; revert he; decide
      | getAttr x =>
        simp only [PrintableOps, PrintableOp] at h4
        simp only [travOp] at he
        obtain ⟨c, cs, rfl, -, hc⟩ := ident_headIs h4.1
        injection he with _ he
        injection he with he _
        subst he
        have := hc rfl
        unfold isDigit at this
        exact of_decide_eq_false this hd
      | legacyIndex i => cases h5
      | index e => simp only [travOp] at he; injection he with he _; revert he; decide
  | .call ⟨ns, n⟩ [] x, h, nl, cm, ind => by
    simp only [Printable] at h
    obtain ⟨h1, h2, -, h4⟩ := h
    obtain ⟨y, ys, t, h5, h6, h7, h8, -⟩ := name_text (nl := nl) h2 _ h1
    have hx : x = false := by
      cases x
      · rfl
      · exact absurd rfl (h4 rfl)
    subst hx
    simp only [Render.expr, funcName, h8, callArgs]
    have := Atom.emptyCall (bd := bd) h6 (g := []) .nil h7 h5 (h := []) .nil
    exact lev_atom (by simpa using this)
  | .call ⟨ns, n⟩ (e :: es) x, h, nl, cm, ind => by
    simp only [Printable, PrintableList] at h
    obtain ⟨h1, h2, h3, -⟩ := h
    obtain ⟨y, ys, t, h5, h6, h7, h8, -⟩ := name_text (nl := nl) h2 _ h1
    simp only [Render.expr, funcName, h8, callArgs]
    have hs := args es h3.2 ind (g := []) .nil (spell e h3.1 true true ind).full
    cases x with
    | false =>
      have := Atom.call h6 (g := []) .nil h7 h5 hs
      exact lev_atom (by simpa using this)
    | true =>
      have := Atom.callExpand h6 (g := []) .nil h7 h5 hs (h := []) .nil
      exact lev_atom (by simpa using this)
  | .paren e, h, nl, cm, ind => by
    simp only [Printable] at h
    simp only [Render.expr]
    have := Atom.paren (nl := nl) (g := []) (h := []) .nil (spell e h true cm ind).full .nil
    exact lev_atom (by simpa using this)
  | .cond c a b, h, nl, cm, ind => by
    simp only [Printable] at h
    obtain ⟨h1, h2, h3, h4⟩ := h
    simp only [Render.expr]
    have := Full.cond ((spell c h1 nl true ind).chain h2) (g₁ := c!" ") gap_blank (g₂ := c!" ") gap_blank
      (spell a h3 nl true ind).full (g₃ := c!" ") gap_blank (g₄ := c!" ") gap_blank (spell b h4 nl true ind).full
    exact ⟨nofun, nofun, nofun, by simpa using this⟩
  | .unary o e, h, nl, cm, ind => by
    simp only [Printable] at h
    obtain ⟨h1, h2, h3⟩ := h
    simp only [Render.expr]
    have := Term.unary (o := o) (g := []) .nil ((spell e h1 nl cm ind).term h2) (by
      intro ho d ds hd hx
      obtain ⟨c, cs, h4, -, h5⟩ := headText e h1 cm ind
      rw [hd] at h4
      injection h4 with h4 _
      subst h4
      have := h5 (h3 ho)
      unfold isDigit at this
      exact of_decide_eq_false this hx)
    exact lev_term (by simpa using this) rfl
  | .binary l o r, h, nl, cm, ind => by
    simp only [Printable] at h
    obtain ⟨h1, h2, h3, h4, h5, h6⟩ := h
    simp only [Render.expr]
    have := Syn.Chain.binary (o := o) ((spell l h1 nl cm ind).chain h3) (g := c!" ") gap_blank (fun _ => nofun)
      (h := c!" ") gap_blank (fun _ x hx => by injection hx with hx _; revert hx; decide)
      ((spell r h2 nl cm ind).chain h4) h5 h6
    have := this
    exact ⟨nofun, nofun, fun _ => by simpa using this, .chain (by simpa using this)⟩
  | .forE k v c none ve g ce, h, nl, cm, ind => by
    rw [Printable] at h
    obtain ⟨h1, h2, h3, -, h5, h6, h7⟩ := h
    have := h7 rfl
    subst this
    rw [forE_list]
    exact lev_atom (.forList (intro_text h1 h2 (spell c h3 false cm ind).full) gap_blank (spell ve h5 true cm ind).full
      gap_if (ifCond ce h6 cm ind) (by intro h; rw [if_pos h]; nofun))
  | .forE k v c (some ke) ve false ce, h, nl, cm, ind => by
    simp only [Printable, PrintableOpt] at h
    obtain ⟨h1, h2, h3, h4, h5, h6, -⟩ := h
    rw [forE_object]
    exact lev_atom (.forObject (intro_text h1 h2 (spell c h3 false cm ind).full) gap_blank
      (spell ke h4 false cm ind).full gap_blank gap_blank (spell ve h5 false cm ind).full
      gap_if (ifCond ce h6 cm ind) (by intro h; rw [if_pos h]; nofun))
  | .forE k v c (some ke) ve true ce, h, nl, cm, ind => by
    simp only [Printable, PrintableOpt] at h
    obtain ⟨h1, h2, h3, h4, h5, h6, -⟩ := h
    rw [forE_group]
    exact lev_atom (.forGroup (intro_text h1 h2 (spell c h3 false cm ind).full) gap_blank
      (spell ke h4 false cm ind).full gap_blank gap_blank (spell ve h5 false cm ind).full .nil
      gap_if (ifCond ce h6 cm ind))

theorem ifCond : ∀ (ce : Option Expr), PrintableOpt E bd cfg tm ce → ∀ cm ind,
    Syn.Cond E.U bd ce (condText E cfg cm ind ce)
  | none, _, _, _ => .none
  | some e, h, cm, ind => by
    simp only [PrintableOpt] at h
    have := Cond.some (g := c!" ") (h := []) gap_blank nofun (spell e h true cm ind).full .nil
    simpa [condText] using this

theorem elems : ∀ (es : List Expr), PrintableList E bd cfg tm es → ∀ cm ind {e : Expr} {g t h : Str}, Gap true g →
    Full E.U bd true e t → Gap true h → Seq E.U bd (e :: es) (g ++ t ++ (exprElems E cfg cm ind false es ++ h))
  | [], _, cm, ind, e, g, t, h, hg, he, hh => by
    simp only [exprElems]
    exact .one hg he hh
  | e' :: es, hp, cm, ind, e, g, t, h, hg, he, hh => by
    simp only [PrintableList] at hp
    simp only [exprElems]
    obtain ⟨s, h1, h2⟩ := arraySep_next hi (cfg.compactArrays || cm) ind
    rw [h1]
    have := Seq.cons hg he (h := []) .nil (elems es hp.2 cm ind h2 (spell e' hp.1 true cm ind).full hh)
    simpa using this

theorem args : ∀ (es : List Expr), PrintableList E bd cfg tm es → ∀ ind {e : Expr} {g t : Str}, Gap true g →
    Full E.U bd true e t → Seq E.U bd (e :: es) (g ++ t ++ callArgs E cfg ind false es)
  | [], _, ind, e, g, t, hg, he => by
    simp only [callArgs]
    exact .one hg he .nil
  | e' :: es, hp, ind, e, g, t, hg, he => by
    simp only [PrintableList] at hp
    simp only [callArgs]
    have := Seq.cons hg he (h := []) .nil (args es hp.2 ind (g := c!" ") gap_blank (spell e' hp.1 true true ind).full)
    simpa using this

theorem items : ∀ (es : List (ObjKey × Expr)), PrintableItems E bd cfg tm es → ∀ cm ind ind' {k : ObjKey} {v : Expr}
    {g t u : Str}, ItemsSeparate ((k, v) :: es) → Gap true g → Key E.U bd k t → Full E.U bd false v u →
    Items E.U bd ((k, v) :: es) (g ++ t ++ c!" = " ++ u ++ (exprEntries E cfg cm ind false es ++
      objectGap cfg (cfg.compactObjects || cm) ind'))
  | [], _, cm, ind, ind', k, v, g, t, u, _, hg, hk, hv => by
    simp only [exprEntries, objectGap]
    cases (cfg.compactObjects || cm) with
    | true =>
      have := Items.last hg hk (h := c!" ") gap_blank (.inl rfl) (g' := c!" ") gap_blank hv (h' := c!" ") gap_blank
      simpa using this
    | false =>
      have := Items.cons hg hk (h := c!" ") gap_blank (.inl rfl) (g' := c!" ") gap_blank hv (h' := []) .nil
        (s := c!"\n") (.newline (.inl rfl)) (.nil (pad_gap hi true ind')) (fun _ _ => by
          have := not_continues (pad_gap (cfg := cfg) hi true ind') (.inl rfl)
          simpa using this)
      simpa using this
  | (k', v') :: es, hp, cm, ind, ind', k, v, g, t, u, hs, hg, hk, hv => by
    simp only [PrintableItems] at hp
    obtain ⟨h1, h2, h3⟩ := hp
    simp only [ItemsSeparate] at hs
    simp only [exprEntries, objectSep]
    cases hc : (cfg.compactObjects || cm) with
    | true =>
      have := Items.cons hg hk (h := c!" ") gap_blank (.inl rfl) (g' := c!" ") gap_blank hv (h' := []) .nil
        (s := c!",") .comma (items es h3 cm ind ind' hs.2 (g := c!" ") gap_blank (key k' h1 cm ind)
          (spell v' h2 false cm ind).full) (fun _ h => absurd rfl h)
      rw [hc] at this
      simpa using this
    | false =>
      have := Items.cons hg hk (h := c!" ") gap_blank (.inl rfl) (g' := c!" ") gap_blank hv (h' := []) .nil
        (s := c!"\n") (.newline (.inl rfl)) (items es h3 cm ind ind' hs.2 (pad_gap hi true ind) (key k' h1 cm ind)
          (spell v' h2 false cm ind).full) (fun ho _ => by
          obtain ⟨c, cs, h4, h5, -⟩ := keyHead h1 cm ind
          have := not_continues (pad_gap (cfg := cfg) hi true ind) (.inr ⟨c, cs ++ c!" = " ++
            Render.expr E cfg cm ind v' ++ (exprEntries E cfg cm ind false es ++
            objectGap cfg (cfg.compactObjects || cm) ind'), rfl, h5 (hs.1 ho)⟩)
          rw [h4]
          simpa using this)
      rw [hc] at this
      simpa using this

theorem key : ∀ (k : ObjKey), PrintableKey E bd cfg tm k → ∀ cm ind, Key E.U bd k (objKey E cfg cm ind k)
  | .ident x, h, _, _ => by
    simp only [PrintableKey] at h
    simp only [objKey]
    exact .ident h.1 h.2
  | .expr e, h, cm, ind => by
    simp only [PrintableKey] at h
    rw [objKey_expr h.2.2]
    exact .expr (spell e h.1 false cm ind).full h.2.1

theorem ops : ∀ (os : List TravOp), PrintableOps E bd cfg tm os → os ≠ [] → ∀ nl cm ind,
    Steps E.U bd nl os (travOps E cfg cm ind os)
  | [], _, h, _, _, _ => absurd rfl h
  | [o], h, _, nl, cm, ind => by
    simp only [PrintableOps] at h
    simp only [travOps]
    have := Steps.one (nl := nl) (g := []) .nil (op o h.1 cm ind)
    simpa using this
  | o :: o' :: os, h, _, nl, cm, ind => by
    rw [PrintableOps] at h
    rw [travOps]
    have := Steps.cons (nl := nl) (g := []) .nil (op o h.1 cm ind) (ops (o' :: os) h.2 nofun nl cm ind)
    simpa using this

theorem op : ∀ (o : TravOp), PrintableOp E bd cfg tm o → ∀ cm ind, Step E.U bd o (travOp E cfg cm ind o)
  | .attrSplat, _, _, _ => .attrSplat (g := []) .nil
  | .fullSplat, _, _, _ => .fullSplat (g := []) (h := []) .nil .nil
  | .getAttr x, h, _, _ => .getAttr (g := []) .nil h
  | .legacyIndex i, h, _, _ => by
    simp only [PrintableOp] at h
    have := Step.legacyIndex (U := E.U) (bd := bd) (g := []) .nil (natStr_digits i) (by rw [natStr_val]; exact h) (natStr_zero i)
    rw [natStr_val] at this
    exact this
  | .index e, h, cm, ind => by
    simp only [PrintableOp] at h
    simp only [travOp]
    have := Step.index (g := []) (h := []) .nil (spell e h true cm ind).full .nil
    simpa using this

end

end

/-! ### Bodies -/

theorem blank_idRest {U : Uni} {t : Str} : ∀ c r, c!" " ++ t = c :: r → ¬ IdRest U c := by
  intro c r h hc
  injection h with h _
  subst h
  have := idRest_iff.mpr hc
  rw [nonId_continue (by decide)] at this
  cases this

theorem labels_text {U : Uni} (hU : U = E.U) : ∀ ls : List Label, (∀ l ∈ ls, PrintableLabel E l) →
    ∃ l, labels ls ++ c!" " = c!" " ++ l ∧ Labels U ls l
  | [], _ => ⟨[], rfl, .nil⟩
  | .ident x :: ls, h => by
    obtain ⟨l, h1, h2⟩ := labels_text hU ls fun l hl => h l (List.mem_cons_of_mem _ hl)
    refine ⟨_, ?_, .ident (hU ▸ h (.ident x) List.mem_cons_self) (g := c!" ") gap_blank h2 blank_idRest⟩
    simp [labels, label, h1]
  | .string s :: ls, h => by
    obtain ⟨l, h1, h2⟩ := labels_text hU ls fun l hl => h l (List.mem_cons_of_mem _ hl)
    refine ⟨_, ?_, .string (string_text (h (.string s) List.mem_cons_self)) (g := c!" ") gap_blank h2⟩
    simp [labels, label, h1, escaped, quoted]

/-- What the formatter is about to write. -/
def nextState : Struct → FmtState
  | .attr .. => .attributeStart
  | .block .. => .blockStart

theorem newline_gap (st next : FmtState) (hi : Gap false cfg.indent) (ind : Nat) :
    Gap true (newline cfg st next ++ pad cfg ind) := by
  generalize hx : newline cfg st next = x
  have : x = c!"\n" ∨ x = [] := by
    rw [← hx]; unfold newline
    generalize (if st = .attributeEnd ∧ cfg.dense = false then _ else _ : Bool) = q
    cases q
    · exact .inr rfl
    · exact .inl rfl
  rcases this with rfl | rfl
  · exact gap_line hi ind
  · exact pad_gap hi true ind

theorem newline_first (s : Struct) : newline cfg .blockBodyStart (nextState s) = c!"\n" := by
  unfold newline
  simp

section
variable (hi : Gap false cfg.indent)
include hi

mutual

theorem struct_text : ∀ (s : Struct), PrintableStruct E bd cfg tm s → ∀ cm ind st,
    ∃ t, Render.struct E cfg cm ind st s = newline cfg st (nextState s) ++ pad cfg ind ++ t ++ c!"\n" ∧
      Structure E.U bd s t
  | .attr k e, h, cm, ind, st => by
    simp only [PrintableStruct] at h
    refine ⟨_, ?_, .attr h.1 (g := c!" ") gap_blank (h := c!" ") gap_blank (spell hi e h.2 false cm ind).full⟩
    simp [Render.struct, nextState]
  | .block x ls [], h, cm, ind, st => by
    simp only [PrintableStruct] at h
    obtain ⟨l, h1, h2⟩ := labels_text rfl ls h.2.1
    refine ⟨_, ?_, .emptyBlock h.1 (g := c!" ") gap_blank h2 blank_idRest (pad_gap hi false ind)⟩
    have : labels ls ++ (' ' :: '{' :: pad cfg ind ++ c!"}\n") = c!" " ++ l ++ c!"{" ++ pad cfg ind ++ c!"}\n" := by
      rw [← h1]; simp
    simp only [List.cons_append] at this
    simp [Render.struct, Render.body, nextState, this]
  | .block x ls (s :: b), h, cm, ind, st => by
    simp only [PrintableStruct, PrintableStructs] at h
    obtain ⟨h1, h2, h3, h4, h5⟩ := h
    obtain ⟨l, h6, h7⟩ := labels_text rfl ls h2
    obtain ⟨t, h8, h9⟩ := struct_text s h4 cm (ind + 1) .blockBodyStart
    have hb := Body.cons (pad_gap hi true (ind + 1)) h9 (.plain (g := []) .nil (.inl rfl))
      (body_text b h5 cm (ind + 1) (stateAfter s) (pad_gap hi true ind))
    refine ⟨_, ?_, .block h1 (g := c!" ") gap_blank h7 blank_idRest (e := c!"\n") (.plain (g := []) .nil (.inl rfl)) hb
      h3⟩
    have : ∀ z, labels ls ++ (' ' :: z) = ' ' :: (l ++ z) := by
      intro z
      have : labels ls ++ (' ' :: z) = (labels ls ++ c!" ") ++ z := by simp
      rw [this, h6]; rfl
    have hn : nextState (.block x ls (s :: b)) = .blockStart := rfl
    simp [Render.struct, Render.body, hn, h8, newline_first, this]

theorem body_text : ∀ (ss : List Struct), PrintableStructs E bd cfg tm ss → ∀ cm ind st {z : Str}, Gap true z →
    Body E.U bd ss (Render.body E cfg cm ind st ss ++ z)
  | [], _, cm, ind, st, z, hz => by
    simp only [Render.body]
    exact .nil hz
  | s :: ss, h, cm, ind, st, z, hz => by
    simp only [PrintableStructs] at h
    obtain ⟨t, h1, h2⟩ := struct_text s h.1 cm ind st
    have := Body.cons (newline_gap st (nextState s) hi ind) h2 (.plain (g := []) .nil (.inl rfl))
      (body_text ss h.2 cm ind (stateAfter s) hz)
    simp only [Render.body, h1]
    simpa using this

end

end

/-! ### Without templates -/

mutual

theorem printable_noTemplate : ∀ e : Expr, Printable E bd cfg false e → noTemplate e = true
  | .null, _ => rfl
  | .bool _, _ => rfl
  | .number _, _ => rfl
  | .string _, _ => rfl
  | .array es, h => by
    simp only [Printable] at h
    exact printableList_noTemplate es h.1
  | .object es, h => by
    simp only [Printable] at h
    exact printableItems_noTemplate es h.1
  | .template (.quoted _), h => by
    simp only [Printable] at h
    exact absurd h.1 nofun
  | .template (.heredoc _ _ _), h => by
    simp only [Printable] at h
    exact absurd h.1 nofun
  | .var _, _ => rfl
  | .traversal e os, h => by
    simp only [Printable] at h
    simp only [noTemplate, printable_noTemplate e h.1, printableOps_noTemplate os h.2.2.2.1, Bool.and_self]
  | .call _ es _, h => by
    simp only [Printable] at h
    exact printableList_noTemplate es h.2.2.1
  | .paren e, h => by
    simp only [Printable] at h
    exact printable_noTemplate e h
  | .cond c a b, h => by
    simp only [Printable] at h
    simp only [noTemplate, printable_noTemplate c h.1, printable_noTemplate a h.2.2.1, printable_noTemplate b h.2.2.2,
      Bool.and_self]
  | .unary _ e, h => by
    simp only [Printable] at h
    exact printable_noTemplate e h.1
  | .binary l _ r, h => by
    simp only [Printable] at h
    simp only [noTemplate, printable_noTemplate l h.1, printable_noTemplate r h.2.1, Bool.and_self]
  | .forE _ _ c ke ve _ ce, h => by
    simp only [Printable] at h
    simp only [noTemplate, printable_noTemplate c h.2.2.1, printableOpt_noTemplate ke h.2.2.2.1,
      printable_noTemplate ve h.2.2.2.2.1, printableOpt_noTemplate ce h.2.2.2.2.2.1, Bool.and_self]
termination_by structural x => x

theorem printableOpt_noTemplate : ∀ o : Option Expr, PrintableOpt E bd cfg false o → noTemplateOpt o = true
  | none, _ => rfl
  | some e, h => by
    simp only [PrintableOpt] at h
    exact printable_noTemplate e h
termination_by structural x => x

theorem printableList_noTemplate : ∀ es : List Expr, PrintableList E bd cfg false es → noTemplates es = true
  | [], _ => rfl
  | e :: es, h => by
    simp only [PrintableList] at h
    simp only [noTemplates, printable_noTemplate e h.1, printableList_noTemplate es h.2, Bool.and_self]
termination_by structural x => x

theorem printableItems_noTemplate : ∀ es : List (ObjKey × Expr), PrintableItems E bd cfg false es → noTemplateItems es = true
  | [], _ => rfl
  | (k, v) :: es, h => by
    simp only [PrintableItems] at h
    simp only [noTemplateItems, printableKey_noTemplate k h.1, printable_noTemplate v h.2.1,
      printableItems_noTemplate es h.2.2, Bool.and_self]
termination_by structural x => x

theorem printableKey_noTemplate : ∀ k : ObjKey, PrintableKey E bd cfg false k → noTemplateKey k = true
  | .ident _, _ => rfl
  | .expr e, h => by
    simp only [PrintableKey] at h
    exact printable_noTemplate e h.1
termination_by structural x => x

theorem printableOps_noTemplate : ∀ os : List TravOp, PrintableOps E bd cfg false os → noTemplateOps os = true
  | [], _ => rfl
  | o :: os, h => by
    simp only [PrintableOps] at h
    simp only [noTemplateOps, printableOp_noTemplate o h.1, printableOps_noTemplate os h.2, Bool.and_self]
termination_by structural x => x

theorem printableOp_noTemplate : ∀ o : TravOp, PrintableOp E bd cfg false o → noTemplateOp o = true
  | .attrSplat, _ => rfl
  | .fullSplat, _ => rfl
  | .getAttr _, _ => rfl
  | .legacyIndex _, _ => rfl
  | .index e, h => by
    simp only [PrintableOp] at h
    exact printable_noTemplate e h
termination_by structural x => x

end

mutual

theorem printableStruct_noTemplate : ∀ s : Struct, PrintableStruct E bd cfg false s → noTemplateStruct s = true
  | .attr _ e, h => by
    simp only [PrintableStruct] at h
    exact printable_noTemplate e h.2
  | .block _ _ b, h => by
    simp only [PrintableStruct] at h
    exact printableStructs_noTemplate b h.2.2.2
termination_by structural x => x

theorem printableStructs_noTemplate : ∀ ss : List Struct, PrintableStructs E bd cfg false ss → noTemplateBody ss = true
  | [], _ => rfl
  | s :: ss, h => by
    simp only [PrintableStructs] at h
    simp only [noTemplateBody, printableStruct_noTemplate s h.1, printableStructs_noTemplate ss h.2, Bool.and_self]
termination_by structural x => x

end

end Verif.Gram
