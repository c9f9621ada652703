import Verif.Lemmas.Spell
/-! How the spellings of expressions start. -/

namespace Verif.Gram
open P Spec Syn

/-- The characters an expression starts with. -/
def headC (U : Uni) (c : Char) : Bool :=
  c == '"' || c == '[' || c == '{' || isDigit c || c == '-' || c == '!' || c == '(' || c == '<' ||
    isIdStart U c

/-- The text starts like an expression. -/
def Starts (U : Uni) (t : Str) : Prop := ∃ c cs, t = c :: cs ∧ headC U c = true

theorem Starts.append {U : Uni} {t : Str} (h : Starts U t) (u : Str) : Starts U (t ++ u) := by
  obtain ⟨c, cs, rfl, hc⟩ := h
  exact ⟨c, cs ++ u, rfl, hc⟩

theorem ident_starts {U : Uni} {x : Str} (h : IsIdentifier U x) : Starts U x := by
  obtain ⟨c, cs, rfl, h1, _⟩ := h
  exact ⟨c, cs, rfl, by unfold headC; rw [idFirst_iff.mpr h1]; simp⟩

theorem starts_of {U : Uni} {c : Char} {r : Str} (h : (c == '"' || c == '[' || c == '{' || c == '-' ||
    c == '!' || c == '(' || c == '<') = true) : Starts U (c :: r) := by
  refine ⟨c, r, rfl, ?_⟩
  unfold headC
  simp only [Bool.or_eq_true] at h ⊢
  rcases h with (((((h | h) | h) | h) | h) | h) | h <;> simp [h]

theorem starts_digit {U : Uni} {c : Char} {r : Str} (h : isDigit c = true) : Starts U (c :: r) :=
  ⟨c, r, rfl, by unfold headC; rw [h]; simp⟩

theorem starts_null {U : Uni} : IsIdentifier U c!"null" := by
  refine ⟨'n', _, rfl, ?_, ?_⟩
  · rw [← idFirst_iff]; unfold isIdStart; rw [U.ascii_start _ (by decide)]; rfl
  · intro c hc
    rw [← idRest_iff]; unfold isIdContinue
    simp only [List.mem_cons, List.not_mem_nil, or_false] at hc
    rcases hc with rfl | rfl | rfl <;> (rw [U.ascii_continue _ (by decide)]; rfl)

theorem starts_true {U : Uni} : IsIdentifier U c!"true" := by
  refine ⟨'t', _, rfl, ?_, ?_⟩
  · rw [← idFirst_iff]; unfold isIdStart; rw [U.ascii_start _ (by decide)]; rfl
  · intro c hc
    rw [← idRest_iff]; unfold isIdContinue
    simp only [List.mem_cons, List.not_mem_nil, or_false] at hc
    rcases hc with rfl | rfl | rfl <;> (rw [U.ascii_continue _ (by decide)]; rfl)

theorem starts_false {U : Uni} : IsIdentifier U c!"false" := by
  refine ⟨'f', _, rfl, ?_, ?_⟩
  · rw [← idFirst_iff]; unfold isIdStart; rw [U.ascii_start _ (by decide)]; rfl
  · intro c hc
    rw [← idRest_iff]; unfold isIdContinue
    simp only [List.mem_cons, List.not_mem_nil, or_false] at hc
    rcases hc with rfl | rfl | rfl | rfl <;> (rw [U.ascii_continue _ (by decide)]; rfl)

theorem atom_starts {U : Uni} {bd : Build} {nl : Bool} {e : Expr} {t : Str} (h : Atom U bd nl e t) : Starts U t := by
  cases h <;> try (simp only [List.append_assoc]; exact starts_of rfl)
  · exact ident_starts starts_null
  · rename_i b
    cases b
    · exact ident_starts starts_false
    · exact ident_starts starts_true
  · rename_i h _; exact ident_starts h
  · rename_i h
    cases h with
    | pos h =>
      obtain ⟨c, cs, rfl, hc⟩ := uNum_head h
      exact starts_digit hc
    | neg => exact starts_of rfl
  all_goals
    simp only [List.append_assoc]
    refine (ident_starts ?_).append _
    assumption

theorem term_starts {U : Uni} {bd : Build} {nl : Bool} {e : Expr} {t : Str} (h : Term U bd nl e t) : Starts U t := by
  cases h with
  | atom h => exact atom_starts h
  | trav h _ _ => exact (atom_starts h).append _
  | unary _ _ _ =>
    rename_i o _ _ _ _ _ _
    cases o <;> (simp only [List.append_assoc]; exact starts_of rfl)

theorem chain_starts {U : Uni} {bd : Build} : ∀ {nl : Bool} {e : Expr} {t : Str}, Syn.Chain U bd nl e t → Starts U t
  | _, _, _, .term h => term_starts h
  | _, _, _, .binary h _ _ _ _ _ _ _ => by
    simp only [List.append_assoc]; exact (chain_starts h).append _

theorem full_starts {U : Uni} {bd : Build} {nl : Bool} {e : Expr} {t : Str} (h : Full U bd nl e t) : Starts U t := by
  cases h with
  | chain h => exact chain_starts h
  | cond h => simp only [List.append_assoc]; exact (chain_starts h).append _

/-- Characters that do not start an expression. -/
theorem head_ne {U : Uni} {c d : Char} (h : headC U c = true)
    (hd : (nonId d && !(d == '"' || d == '[' || d == '{' || d == '!' || d == '(' || d == '<')) = true) : c ≠ d := by
  rintro rfl
  rw [Bool.and_eq_true, Bool.not_eq_true'] at hd
  have h1 : isIdStart U c = false := nonId_start hd.1
  have h2 : isDigit c = false := by
    cases h : isDigit c with
    | false => rfl
    | true => have := isDigit_continue (U := U) h; rw [nonId_continue hd.1] at this; cases this
  have h3 : (c == '-') = false := by
    have := hd.1
    unfold nonId at this
    simp only [Bool.and_eq_true, Bool.not_eq_true', Bool.or_eq_false_iff] at this
    exact this.2.2
  have h4 := hd.2
  simp only [Bool.or_eq_false_iff] at h4
  unfold headC at h
  rw [h1, h2, h3] at h
  simp [h4] at h

theorem Starts.ne {U : Uni} {t : Str} (h : Starts U t) {d : Char}
    (hd : (nonId d && !(d == '"' || d == '[' || d == '{' || d == '!' || d == '(' || d == '<')) = true) : ∀ x, t ≠ d :: x := by
  obtain ⟨c, cs, rfl, hc⟩ := h
  intro x hx
  injection hx with hx _
  exact head_ne hc hd hx

theorem Starts.solid {U : Uni} {t : Str} (h : Starts U t) {b : Bool} : ¬ StartsTrivia b t := by
  obtain ⟨c, cs, rfl, hc⟩ := h
  refine solid_starts ?_
  unfold Gram.solid
  simp [head_ne hc (d := ' ') rfl, head_ne hc (d := '\t') rfl, head_ne hc (d := '\n') rfl,
    head_ne hc (d := '\r') rfl, head_ne hc (d := '#') rfl, head_ne hc (d := '/') rfl]

theorem Starts.ne_nil {U : Uni} {t : Str} (h : Starts U t) : t ≠ [] := by
  obtain ⟨c, cs, rfl, hc⟩ := h
  nofun

/-- A gap does not start like this. -/
theorem gap_ne {b : Bool} {g u : Str} (h : Gap b g) {d : Char} (hd : solid d = true) (hu : ∀ x, u ≠ d :: x) :
    ∀ x, g ++ u ≠ d :: x := by
  intro x hx
  cases g with
  | nil => exact hu x hx
  | cons c g =>
    injection hx with hx _
    subst hx
    rcases gap_head h _ _ rfl with rfl | rfl | rfl | rfl | rfl | rfl <;> cases hd

/-! ### Identifiers that start with a letter are quiet -/

theorem calm_idStart {U : Uni} {c : Char} (h : isIdStart U c = true) : calm c = true := by
  have key : ∀ d, nonId d = true → c ≠ d := by
    rintro d hd rfl
    rw [nonId_start hd] at h; cases h
  have hm : c ≠ '-' := by
    rintro rfl
    unfold isIdStart at h
    rw [U.ascii_start _ (by decide)] at h
    cases h
  unfold calm solid
  simp [key ' ' rfl, key '\t' rfl, key '\n' rfl, key '\r' rfl, key '#' rfl, key '/' rfl, key '?' rfl, key '[' rfl,
    key '(' rfl, key '.' rfl, key ':' rfl, key '=' rfl, key '!' rfl, key '<' rfl, key '>' rfl, key '+' rfl,
    key '*' rfl, key '%' rfl, key '&' rfl, key '|' rfl, hm]

theorem calm_digit {c : Char} (h : isDigit c = true) : calm c = true := by
  have key : ∀ d, isDigit d = false → c ≠ d := by
    rintro d hd rfl
    rw [h] at hd; cases hd
  unfold calm solid
  simp [key ' ' rfl, key '\t' rfl, key '\n' rfl, key '\r' rfl, key '#' rfl, key '/' rfl, key '?' rfl, key '[' rfl,
    key '(' rfl, key '.' rfl, key ':' rfl, key '=' rfl, key '!' rfl, key '<' rfl, key '>' rfl, key '+' rfl,
    key '*' rfl, key '%' rfl, key '&' rfl, key '|' rfl, key '-' rfl]

/-! ### Binary operators -/

/-- The text after a binary operator does not merge with it. -/
def OpEnd (o : BinOp) (r : Str) : Prop :=
  (∀ x, r ≠ '=' :: x) ∧ (o = .div → (∀ x, r ≠ '/' :: x) ∧ ∀ x, r ≠ '*' :: x) ∧ r ≠ []

theorem runs_binaryOperator {o : BinOp} {r : Str} (h : OpEnd o r) :
    Runs binaryOperator o.asStr r fun v => v = o := by
  obtain ⟨h1, h2, -⟩ := h
  unfold binaryOperator
  cases o with
  | eq =>
    refine Runs.bind (t := ['=']) (u := ['=']) runs_any ?_
    rintro _ rfl
    exact Runs.bind_last runs_chr fun _ _ => .pure rfl
  | notEq =>
    refine Runs.bind (t := ['!']) (u := ['=']) runs_any ?_
    rintro _ rfl
    exact Runs.bind_last runs_chr fun _ _ => .pure rfl
  | lessEq =>
    refine Runs.bind (t := ['<']) (u := ['=']) runs_any ?_
    rintro _ rfl
    exact Runs.alt_left (Runs.bind_last runs_chr fun _ _ => .pure rfl)
  | greaterEq =>
    refine Runs.bind (t := ['>']) (u := ['=']) runs_any ?_
    rintro _ rfl
    exact Runs.alt_left (Runs.bind_last runs_chr fun _ _ => .pure rfl)
  | less =>
    refine Runs.bind (t := ['<']) (u := []) runs_any ?_
    rintro _ rfl
    exact Runs.alt_right (Backs.bind (backs_chr h1)) (.pure rfl)
  | greater =>
    refine Runs.bind (t := ['>']) (u := []) runs_any ?_
    rintro _ rfl
    exact Runs.alt_right (Backs.bind (backs_chr h1)) (.pure rfl)
  | div =>
    refine Runs.bind (t := ['/']) (u := []) runs_any ?_
    rintro _ rfl
    obtain ⟨h3, h4⟩ := h2 rfl
    refine Runs.bind_nil (Backs.notP (backs_oneOf ?_)) fun _ _ => .pure rfl
    rintro c cs rfl
    have h5 : c ≠ '/' := fun h => h3 cs (by rw [h])
    have h6 : c ≠ '*' := fun h => h4 cs (by rw [h])
    simp [h5, h6]
  | plus | minus | mul | mod =>
    refine Runs.bind (t := [_]) (u := []) runs_any ?_
    rintro _ rfl
    exact .pure rfl
  | and =>
    refine Runs.bind (t := ['&']) (u := ['&']) runs_any ?_
    rintro _ rfl
    exact Runs.bind_last runs_chr fun _ _ => .pure rfl
  | or =>
    refine Runs.bind (t := ['|']) (u := ['|']) runs_any ?_
    rintro _ rfl
    exact Runs.bind_last runs_chr fun _ _ => .pure rfl

theorem op_two {o : BinOp} {r : Str} (h : OpEnd o r) : startsBinary (two (o.asStr ++ r)) = true := by
  obtain ⟨h1, h2, h3⟩ := h
  cases r with
  | nil => exact absurd rfl h3
  | cons c cs =>
    cases o with
    | div =>
      obtain ⟨h3, h4⟩ := h2 rfl
      have h5 : c ≠ '/' := fun h => h3 cs (by rw [h])
      have h6 : c ≠ '*' := fun h => h4 cs (by rw [h])
      simp [BinOp.asStr, two, startsBinary, h5, h6]
    | _ => simp [BinOp.asStr, two, startsBinary]

theorem op_first {o : BinOp} {r : Str} : ∃ c u, o.asStr ++ r = c :: u ∧
    (c = '=' ∨ c = '!' ∨ c = '<' ∨ c = '>' ∨ c = '+' ∨ c = '-' ∨ c = '*' ∨ c = '/' ∨ c = '%' ∨ c = '&' ∨ c = '|') := by
  cases o <;> exact ⟨_, _, rfl, by decide⟩

theorem op_quest {o : BinOp} {r : Str} : ∀ c d, two (o.asStr ++ r) = some (c, d) → c ≠ '?' := by
  intro c d h
  cases r <;> cases o <;> simp [BinOp.asStr, two] at h <;> (rcases h with ⟨rfl, _⟩; decide)

theorem op_quietT {b : Bool} {o : BinOp} {r : Str} (h : OpEnd o r) : QuietT b (o.asStr ++ r) := by
  have ht : ¬ StartsTrivia b (o.asStr ++ r) := by
    by_cases ho : o = .div
    · subst ho
      exact slash_starts (h.2.1 rfl).1 (h.2.1 rfl).2
    · cases o <;> first | exact solid_starts rfl | exact absurd rfl ho
  obtain ⟨c, u, hu, hc⟩ := op_first (o := o) (r := r)
  rw [hu] at ht ⊢
  refine ⟨ht, ?_, ?_, ?_, ?_⟩
  all_goals
    rintro x hx
    injection hx with hx _
    subst hx
    rcases hc with h | h | h | h | h | h | h | h | h | h | h <;> cases h

theorem op_idEnd {U : Uni} {o : BinOp} {r : Str} (ho : o ≠ .minus) : IdEnd U (o.asStr ++ r) := by
  cases o <;> first | exact idEnd_cons rfl | exact absurd rfl ho

/-- What follows a binary operator. -/
theorem opEnd_of {U : Uni} {b : Bool} {o : BinOp} {h t : Str} (hh : Gap b h) (hd : o = .div → ∀ x, h ≠ '/' :: x)
    (ht : Starts U t) (r : Str) : OpEnd o (h ++ (t ++ r)) := by
  refine ⟨gap_ne hh rfl ((ht.append r).ne rfl), fun ho => ⟨?_, gap_ne hh rfl ((ht.append r).ne rfl)⟩, ?_⟩
  · intro x hx
    cases h with
    | nil => exact (ht.append r).ne rfl x hx
    | cons c h =>
      injection hx with hx _
      subst hx
      exact hd ho h rfl
  · intro hx
    obtain ⟨c, cs, rfl, _⟩ := ht
    cases h <;> cases hx

/-- The content of brackets that starts with something else than `for`. -/
theorem not_forStart {g u : Str} (hg : Gap true g) (hu : ¬ StartsTrivia true u)
    (h : ∀ c r, u = c!"for" ++ c :: r → c ∉ [' ', '\t', '#', '/', '\n']) : ¬ ForStart (g ++ u) := by
  rintro ⟨g', c, r, he, hg', hc⟩
  rw [List.append_assoc] at he
  obtain ⟨rfl, rfl⟩ := gap_unique hg hu hg' (solid_starts rfl) he
  exact h c r rfl hc

end Verif.Gram
