import Verif.Spec.Decorated
import Verif.Lemmas.Printable
/-! How spellings of expressions start, in terms of the expressions. -/

namespace Verif.Gram
open P Spec Syn

variable {U : Uni} {bd : Build}

theorem headIs_cons {op dig : Bool} {c : Char} {t : Str} (h : ((calm c || op) && (!isDigit c || dig)) = true) :
    HeadIs op dig (c :: t) := by
  simp only [Bool.and_eq_true, Bool.or_eq_true, Bool.not_eq_true'] at h
  refine ⟨c, t, rfl, fun ho => ?_, fun hd => ?_⟩
  · rcases h.1 with h | h
    · exact h
    · exact absurd (ho.symm.trans h) nofun
  · rcases h.2 with h | h
    · exact h
    · exact absurd (hd.symm.trans h) nofun

theorem HeadIs.mono {op dig op' dig' : Bool} {t : Str} (h : HeadIs op dig t) (ho : op = true → op' = true)
    (hd : dig = true → dig' = true) : HeadIs op' dig' t := by
  obtain ⟨c, cs, rfl, h1, h2⟩ := h
  refine ⟨c, cs, rfl, fun h => h1 ?_, fun h => h2 ?_⟩
  · cases op
    · rfl
    · rw [ho rfl] at h; cases h
  · cases dig
    · rfl
    · rw [hd rfl] at h; cases h

theorem atom_head {nl : Bool} {e : Expr} {t : Str} (h : Atom U bd nl e t) : HeadIs (mayContinue e) (firstNumber e) t := by
  cases h with
  | null => exact headIs_cons (by decide)
  | bool => rename_i b; cases b <;> exact headIs_cons (by decide)
  | var h => exact (ident_headIs h).mono nofun nofun
  | number h =>
    obtain ⟨c, cs, rfl, -⟩ := num_head h
    exact ⟨c, cs, rfl, nofun, nofun⟩
  | string => exact headIs_cons rfl
  | template => exact headIs_cons rfl
  | heredoc => exact headIs_cons rfl
  | indented => exact headIs_cons rfl
  | flush => exact headIs_cons rfl
  | paren => exact headIs_cons rfl
  | emptyArray => exact headIs_cons rfl
  | array => exact headIs_cons rfl
  | arrayComma => exact headIs_cons rfl
  | object => exact headIs_cons rfl
  | emptyCall h => simp only [List.append_assoc]; exact ((ident_headIs h).append _).mono nofun nofun
  | call h => simp only [List.append_assoc]; exact ((ident_headIs h).append _).mono nofun nofun
  | callComma h => simp only [List.append_assoc]; exact ((ident_headIs h).append _).mono nofun nofun
  | callExpand h => simp only [List.append_assoc]; exact ((ident_headIs h).append _).mono nofun nofun
  | forList => exact headIs_cons rfl
  | forObject => exact headIs_cons rfl
  | forGroup => exact headIs_cons rfl

theorem term_head {nl : Bool} {e : Expr} {t : Str} (h : Term U bd nl e t) : HeadIs (mayContinue e) (firstNumber e) t := by
  cases h with
  | atom h => exact atom_head h
  | trav h _ _ => exact (atom_head h).append _
  | unary _ _ _ =>
    rename_i o _ _ _ _ _ _
    cases o <;> exact headIs_cons rfl

theorem chain_head : ∀ {nl : Bool} {e : Expr} {t : Str}, Syn.Chain U bd nl e t →
    HeadIs (mayContinue e) (firstNumber e) t
  | _, _, _, .term h => term_head h
  | _, _, _, .binary h _ _ _ _ _ _ _ => by
    simp only [List.append_assoc]; exact (chain_head h).append _

theorem full_head {nl : Bool} {e : Expr} {t : Str} (h : Full U bd nl e t) :
    HeadIs (mayContinue e) (firstNumber e) t := by
  cases h with
  | chain h => exact chain_head h
  | cond h => simp only [List.append_assoc]; exact (chain_head h).append _

/-! ### The word `for` -/

theorem nameTail_idEnd {nl : Bool} {xs : List Str} {g t r : Str} (hg : Gap nl g) (h : NameTail U nl xs t) :
    IdEnd U (g ++ (t ++ (c!"(" ++ r))) ∧ ∀ c cs, g = [] → t ++ (c!"(" ++ r) = c :: cs → c ∉ [' ', '\t', '#', '/', '\n'] := by
  cases h with
  | nil =>
    exact ⟨gap_idEnd hg (.inl (idEnd_cons (by decide))), fun c cs _ h => by injection h with h _; subst h; decide⟩
  | cons =>
    simp only [List.append_assoc]
    exact ⟨gap_idEnd hg (.inl (idEnd_cons (by decide))), fun c cs _ h => by injection h with h _; subst h; decide⟩

theorem call_noFor {nl : Bool} {x n : Str} {xs ns : List Str} {es : List Expr} {b : Bool} {g t r : Str} (h1 : IsIdentifier U x)
    (h2 : Gap nl g) (h3 : NameTail U nl xs t) (h4 : x :: xs = ns ++ [n]) (hw : wordFor (.call ⟨ns, n⟩ es b) = false) :
    NoFor (x ++ g ++ t ++ c!"(" ++ r) := by
  simp only [List.append_assoc]
  refine ident_noFor h1 (nameTail_idEnd h2 h3).1 fun hx => ?_
  subst hx
  simp only [wordFor, leftmost, ← h4, List.head?_cons, decide_true] at hw
  cases hw

theorem atom_noFor {nl : Bool} {e : Expr} {t r : Str} (h : Atom U bd nl e t) (hw : wordFor e = false) (hr : IdEnd U r) :
    NoFor (t ++ r) := by
  cases h with
  | null => exact head_noFor (by decide)
  | bool =>
    rename_i b
    cases b
    · intro c r he
      injection he with _ he
      injection he with he _
      exact absurd he (by decide)
    · exact head_noFor (by decide)
  | var h =>
    refine ident_noFor h hr fun hx => ?_
    subst hx
    cases hw
  | number h =>
    obtain ⟨c, cs, rfl, h2⟩ := num_head h
    refine head_noFor ?_
    rintro rfl
    revert h2; decide
  | string => exact head_noFor (by decide)
  | template => exact head_noFor (by decide)
  | heredoc => exact head_noFor (by decide)
  | indented => exact head_noFor (by decide)
  | flush => exact head_noFor (by decide)
  | paren => exact head_noFor (by decide)
  | emptyArray => exact head_noFor (by decide)
  | array => exact head_noFor (by decide)
  | arrayComma => exact head_noFor (by decide)
  | object => exact head_noFor (by decide)
  | emptyCall h1 h2 h3 h4 =>
    have := fun r => call_noFor (r := r) h1 h2 h3 h4 hw
    simp only [List.append_assoc] at this ⊢
    exact this _
  | call h1 h2 h3 h4 =>
    have := fun r => call_noFor (r := r) h1 h2 h3 h4 hw
    simp only [List.append_assoc] at this ⊢
    exact this _
  | callComma h1 h2 h3 h4 =>
    have := fun r => call_noFor (r := r) h1 h2 h3 h4 hw
    simp only [List.append_assoc] at this ⊢
    exact this _
  | callExpand h1 h2 h3 h4 =>
    have := fun r => call_noFor (r := r) h1 h2 h3 h4 hw
    simp only [List.append_assoc] at this ⊢
    exact this _
  | forList => exact head_noFor (by decide)
  | forObject => exact head_noFor (by decide)
  | forGroup => exact head_noFor (by decide)

theorem term_noFor {nl : Bool} {e : Expr} {t r : Str} (h : Term U bd nl e t) (hw : wordFor e = false) (hr : IdEnd U r) :
    NoFor (t ++ r) := by
  cases h with
  | atom h => exact atom_noFor h hw hr
  | trav h h2 _ => rw [List.append_assoc]; exact atom_noFor h hw (steps_idEnd (E := ⟨U, bd⟩) h2 _)
  | unary _ _ _ =>
    rename_i o _ _ _ _ _ _
    cases o <;> exact head_noFor (by decide)

theorem chain_noFor : ∀ {nl : Bool} {e : Expr} {t r : Str}, Syn.Chain U bd nl e t → wordFor e = false → IdEnd U r →
    NoFor (t ++ r)
  | _, _, _, _, .term h, hw, hr => term_noFor h hw hr
  | _, _, _, _, .binary (o := o) h h1 h2 _ _ _ _ _, hw, hr => by
    simp only [List.append_assoc]
    refine chain_noFor h hw (gap_idEnd h1 ?_)
    by_cases ho : o = .minus
    · exact .inr (h2 ho)
    · exact .inl (op_idEnd ho)

theorem full_noFor {nl : Bool} {e : Expr} {t r : Str} (h : Full U bd nl e t) (hw : wordFor e = false) (hr : IdEnd U r) :
    NoFor (t ++ r) := by
  cases h with
  | chain h => exact chain_noFor h hw hr
  | cond h h1 =>
    simp only [List.append_assoc]
    exact chain_noFor h hw (gap_idEnd h1 (.inl (idEnd_cons (by decide))))

theorem seq_notFor {es : List Expr} {t : Str} (h : Seq U bd es t) (hw : headWordFor es = false) : ¬ ForStart t := by
  cases h with
  | one h1 h2 h3 =>
    rw [List.append_assoc]
    refine not_forStart h1 ((full_starts h2).append _).solid (full_noFor h2 hw ?_)
    have := gap_idEnd (U := U) (u := []) h3 (.inl idEnd_nil)
    rwa [List.append_nil] at this
  | cons h1 h2 h3 =>
    simp only [List.append_assoc]
    exact not_forStart h1 ((full_starts h2).append _).solid (full_noFor h2 hw
      (gap_idEnd h3 (.inl (idEnd_cons (by decide)))))

theorem key_noFor {k : ObjKey} {t r : Str} (h : Key U bd k t) (hw : keyWordFor k = false) (hr : IdEnd U r) : NoFor (t ++ r) := by
  cases h with
  | ident h =>
    refine ident_noFor h hr fun hx => ?_
    subst hx
    cases hw
  | expr h => exact full_noFor h hw hr

theorem assign_idEnd {a r : Str} (h : a = c!"=" ∨ a = c!":") : IdEnd U (a ++ r) := by
  rcases h with rfl | rfl <;> exact idEnd_cons (by decide)

theorem items_notFor {es : List (ObjKey × Expr)} {t : Str} (h : Items U bd es t) (hw : headKeyWordFor es = false) :
    ¬ ForStart t := by
  cases h with
  | nil h =>
    have := not_forStart (u := []) h nil_starts (by nofun)
    rwa [List.append_nil] at this
  | last h1 h2 h3 h4 =>
    simp only [List.append_assoc]
    exact not_forStart h1 ((key_starts h2).append _).solid (key_noFor h2 hw (gap_idEnd h3 (.inl (assign_idEnd h4))))
  | cons h1 h2 h3 h4 =>
    simp only [List.append_assoc]
    exact not_forStart h1 ((key_starts h2).append _).solid (key_noFor h2 hw (gap_idEnd h3 (.inl (assign_idEnd h4))))

theorem key_calm {k : ObjKey} {v : Expr} {es : List (ObjKey × Expr)} {t r : Str} (h : Key U bd k t)
    (hw : headContinues ((k, v) :: es) = false) : ∃ c cs, t ++ r = c :: cs ∧ calm c = true := by
  cases h with
  | ident h =>
    obtain ⟨c, cs, rfl, h1, -⟩ := ident_headIs h
    exact ⟨c, cs ++ r, rfl, h1 rfl⟩
  | expr h =>
    obtain ⟨c, cs, rfl, h1, -⟩ := full_head h
    exact ⟨c, cs ++ r, rfl, h1 hw⟩

theorem items_notContinues {es : List (ObjKey × Expr)} {t : Str} (h : Items U bd es t) (hw : headContinues es = false) :
    ¬ Continues t := by
  cases h with
  | nil h =>
    have := not_continues (t := []) h (.inl rfl)
    rwa [List.append_nil] at this
  | last h1 h2 h3 h4 =>
    simp only [List.append_assoc]
    exact not_continues h1 (.inr (key_calm h2 hw))
  | cons h1 h2 h3 h4 =>
    simp only [List.append_assoc]
    exact not_continues h1 (.inr (key_calm h2 hw))

end Verif.Gram
