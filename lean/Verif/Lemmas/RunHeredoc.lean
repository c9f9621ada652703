import Verif.Lemmas.RunTmpl
import Verif.Lemmas.RunObject
import Verif.Lemmas.Dedent
/-! Running the parser on heredocs. -/

namespace Verif.Gram
open P Spec Syn

variable {E : PEnv} {R : PRec} {m : Nat}

/-- The end of a heredoc: the end of a line, blanks and the delimiter. -/
def TermAt (U : Uni) (d u : Str) : Prop :=
  ∃ e b r, u = e ++ (b ++ (d ++ r)) ∧ (e = c!"\n" ∨ e = c!"\r\n") ∧ SpaceOnly b ∧ IdEnd U r

/-- What ends the literal text in a heredoc. -/
def HereStop (U : Uni) (d u : Str) : Prop := StartsMark u ∨ TermAt U d u

/-- The characters of `space0`. -/
def isSpace (c : Char) : Bool := c == ' ' || c == '\t'

theorem ident_blank {U : Uni} {d r : Str} (h : IsIdentifier U d) : ∀ c cs, d ++ r = c :: cs → isSpace c = false := by
  obtain ⟨c, cs, rfl, h1, _⟩ := h
  intro x xs hx
  injection hx with hx _
  subst hx
  have h1 := idFirst_iff.mpr h1
  cases hs : isSpace c with
  | false => rfl
  | true =>
    unfold isSpace at hs
    simp only [Bool.or_eq_true, beq_iff_eq] at hs
    rcases hs with rfl | rfl
    · rw [nonId_start rfl] at h1; cases h1
    · rw [nonId_start rfl] at h1; cases h1

theorem runs_space0 {b r : Str} (hb : SpaceOnly b) (hr : ∀ c cs, r = c :: cs → isSpace c = false) :
    Runs space0 b r fun v => v = b :=
  runs_takeWhile (fun c hc => by rcases hb c hc with rfl | rfl <;> rfl) hr

theorem runs_lineEnd {e r : Str} (h : e = c!"\n" ∨ e = c!"\r\n") : Runs lineEnding e r fun v => v = e := by
  rcases h with rfl | rfl <;> exact fun _ => ⟨_, rfl, rfl⟩

theorem runs_delim {d r : Str} (hr : IdEnd E.U r) :
    Runs (P.bind (tag d) fun _ => notP (oneOf (isIdContinue E.U))) d r fun _ => True :=
  runs_tag.bind_last fun _ _ => (backs_oneOf hr).notP

theorem runs_heredocEnd {d e b r : Str} (hd : IsIdentifier E.U d) (he : e = c!"\n" ∨ e = c!"\r\n") (hb : SpaceOnly b)
    (hr : IdEnd E.U r) : Runs (heredocEnd E d) (e ++ (b ++ d)) r fun _ => True := by
  refine Runs.bind (runs_lineEnd he) fun _ _ => ?_
  exact Runs.bind (runs_space0 hb (by rw [← List.append_nil d, List.append_assoc]; exact ident_blank hd)) fun _ _ => runs_delim hr

theorem isSpace_iff {c : Char} : isSpace c = true ↔ c = ' ' ∨ c = '\t' := by
  unfold isSpace
  simp

theorem backs_lineEnd {u : Str} (h1 : ∀ k, u ≠ '\n' :: k) (h2 : ∀ k, u ≠ '\r' :: '\n' :: k) : Backs lineEnding u := by
  intro pos
  refine ⟨⟨pos, u⟩, ?_⟩
  unfold lineEnding
  dsimp only
  split
  · exact absurd rfl (h1 _)
  · exact absurd rfl (h2 _)
  · rfl

theorem mem_takeWhile_of {p : Char → Bool} {c : Char} : ∀ {l : Str}, c ∈ l.takeWhile p → p c = true
  | [], h => absurd h (List.not_mem_nil)
  | x :: l, h => by
    rw [List.takeWhile_cons] at h
    split at h
    · rcases List.mem_cons.mp h with rfl | h
      · assumption
      · exact mem_takeWhile_of h
    · exact absurd h List.not_mem_nil

theorem backs_heredocEnd {d u : Str} (h : ¬ TermAt E.U d u) : Backs (heredocEnd E d) u := by
  by_cases hu : ∃ e k, u = e ++ k ∧ (e = c!"\n" ∨ e = c!"\r\n")
  · obtain ⟨e, k, rfl, he⟩ := hu
    refine Runs.bind_backs (runs_lineEnd he) fun _ _ => ?_
    have hk : k = k.takeWhile isSpace ++ k.dropWhile isSpace := List.takeWhile_append_dropWhile.symm
    have hb : SpaceOnly (k.takeWhile isSpace) := fun c hc => isSpace_iff.mp (mem_takeWhile_of hc)
    rw [hk]
    refine Runs.bind_backs (runs_space0 hb ?_) fun _ _ => ?_
    · intro c cs hc
      have := List.head?_dropWhile_not isSpace k
      rw [hc] at this
      simpa using this
    · by_cases hp : d <+: k.dropWhile isSpace
      · obtain ⟨r, hr⟩ := hp
        rw [← hr]
        refine Runs.bind_backs runs_tag fun _ _ => ?_
        by_cases hr' : IdEnd E.U r
        · exact absurd ⟨e, _, r, by rw [hr, ← hk], he, hb, hr'⟩ h
        · unfold IdEnd at hr'
          simp only [not_forall, Bool.not_eq_false] at hr'
          obtain ⟨c, cs, rfl, hc⟩ := hr'
          exact Runs.notP (t := [c]) (runs_oneOf hc)
      · exact Backs.bind (backs_tag hp)
  · exact Backs.bind (backs_lineEnd (fun k hk => hu ⟨c!"\n", k, hk, .inl rfl⟩) fun k hk => hu ⟨c!"\r\n", k, hk, .inr rfl⟩)

theorem term_head_ne {U : Uni} {d u : Str} (h : TermAt U d u) : ∃ c k, u = c :: k ∧ (c = '\n' ∨ c = '\r') := by
  obtain ⟨e, b, r, rfl, he, -⟩ := h
  obtain ⟨c, cs, rfl, hc⟩ := lineEnd_head he
  exact ⟨c, _, rfl, hc⟩

theorem ends_heredoc {d : Str} (hd : IsIdentifier E.U d) : Ends (heredocLitEnd E d) (HereStop E.U d) := by
  refine ⟨?_, ?_, ?_⟩
  · rintro u (⟨c, r, hc | hc, rfl⟩ | hu)
    · subst hc
      exact ⟨c!"${", r, rfl, Runs.alt_left runs_tag⟩
    · subst hc
      exact ⟨c!"%{", r, rfl, Runs.alt_right (backs_tag (not_prefix_cons (by decide))) (Runs.alt_left runs_tag)⟩
    · obtain ⟨c, k, hk, hc⟩ := term_head_ne hu
      have h1 : ∀ {x : Char} {y : Str}, x = '$' ∨ x = '%' → ¬ x :: y <+: u := by
        rintro x y hx ⟨z, hz⟩
        rw [hk] at hz
        injection hz with hz _
        subst hz
        rcases hc with rfl | rfl <;> rcases hx with h | h <;> cases h
      obtain ⟨e, b, r, rfl, he, hb, hr⟩ := hu
      refine ⟨e ++ (b ++ d), r, by asc, ?_⟩
      refine Runs.alt_right (backs_tag ?_) (Runs.alt_right (backs_tag ?_) (runs_heredocEnd hd he hb hr))
      · have := h1 (y := c!"{") (.inl rfl)
        asc; exact this
      · have := h1 (y := c!"{") (.inr rfl)
        asc; exact this
  · intro u h
    refine Backs.alt (backs_tag ?_) (Backs.alt (backs_tag ?_) (backs_heredocEnd fun hu => h (.inr hu)))
    · rintro ⟨k, rfl⟩; exact h (.inl ⟨'$', k, .inl rfl, rfl⟩)
    · rintro ⟨k, rfl⟩; exact h (.inl ⟨'%', k, .inr rfl, rfl⟩)
  · rintro (⟨c, r, -, h⟩ | h)
    · cases h
    · obtain ⟨c, k, hk, -⟩ := term_head_ne h
      cases hk

theorem litRun_more {q : Bool} {Stop Bad : Str → Prop} {r t v : Str} (h : LitRun q Stop r t v)
    (hb : ∀ y, y ≠ [] → y <:+ t → ¬ Bad (y ++ r)) : LitRun q (fun u => Stop u ∨ Bad u) r t v := by
  induction h with
  | nil => exact .nil
  | marker hc _ ih => exact .marker hc (ih fun y hy h => hb y hy (h.trans ⟨[_, _, _], rfl⟩))
  | esc hq he _ ih => exact .esc hq he (ih fun y hy h => hb y hy (h.trans ⟨_, rfl⟩))
  | char h1 h2 _ ih =>
    refine .char h1 ?_ (ih fun y hy h => hb y hy (h.trans ⟨[_], rfl⟩))
    rintro (h | h)
    · exact h2 h
    · exact hb _ (by simp) List.suffix_rfl h

theorem litOK_heredoc {d : Str} (hd : IsIdentifier E.U d) : LitOK E false (heredocLitEnd E d) (HereStop E.U d) (TermAt E.U d) :=
  ⟨ends_heredoc hd, fun _ h => .inl h, nofun, fun h hj hr hb => litRun_more (litRun_plain _ h hj hr) hb⟩

/-! ### The last line ending -/

/-- The line ending belongs to the last literal. -/
def addLine : List Elem → Str → List Elem
  | [], e => [.lit e]
  | [.lit v], e => [.lit (v ++ e)]
  | x :: xs, e => x :: addLine xs e

theorem addLine_cons {x : Elem} {xs : List Elem} {e : Str} (h : isText x = true → xs ≠ []) :
    addLine (x :: xs) e = x :: addLine xs e := by
  cases xs with
  | nil =>
    cases x with
    | lit => exact absurd rfl (h rfl)
    | _ => rfl
  | cons y ys => cases x <;> rfl

theorem addLine_head {xs : List Elem} {e : Str} (h : ∀ f ∈ (addLine xs e).head?, isText f = false) :
    xs ≠ [] ∧ ∀ f ∈ xs.head?, isText f = false := by
  cases xs with
  | nil => exact absurd (h _ rfl) nofun
  | cons x xs =>
    refine ⟨nofun, ?_⟩
    rintro _ ⟨⟩
    cases x with
    | lit v =>
      cases xs with
      | nil => exact absurd (h _ rfl) nofun
      | cons => exact absurd (h _ rfl) nofun
    | _ => rfl

theorem literal_line (x : Str) : ∀ {v e : Str}, (e = c!"\n" ∨ e = c!"\r\n") → readLiteral (x ++ e) = some v →
    ∃ w, readLiteral x = some w ∧ v = w ++ e := by
  fun_induction readLiteral x with
  | case1 x ih =>
    intro v e he h
    rw [show '$' :: '$' :: '{' :: x ++ e = '$' :: '$' :: '{' :: (x ++ e) from rfl, Markers.readLiteral_esc (.inl rfl)] at h
    obtain ⟨w, h1, rfl⟩ := Option.map_eq_some_iff.mp h
    obtain ⟨w', h2, rfl⟩ := ih he h1
    exact ⟨_, by rw [h2]; rfl, rfl⟩
  | case2 x ih =>
    intro v e he h
    rw [show '%' :: '%' :: '{' :: x ++ e = '%' :: '%' :: '{' :: (x ++ e) from rfl, Markers.readLiteral_esc (.inr rfl)] at h
    obtain ⟨w, h1, rfl⟩ := Option.map_eq_some_iff.mp h
    obtain ⟨w', h2, rfl⟩ := ih he h1
    exact ⟨_, by rw [h2]; rfl, rfl⟩
  | case3 x =>
    intro v e he h
    rw [show '$' :: '{' :: x ++ e = '$' :: '{' :: (x ++ e) from rfl, Markers.readLiteral_live (.inl rfl)] at h
    cases h
  | case4 x =>
    intro v e he h
    rw [show '%' :: '{' :: x ++ e = '%' :: '{' :: (x ++ e) from rfl, Markers.readLiteral_live (.inr rfl)] at h
    cases h
  | case5 c x n1 n2 n3 n4 ih =>
    intro v e he h
    rw [List.cons_append, Markers.readLiteral_cons] at h
    · obtain ⟨w, h1, rfl⟩ := Option.map_eq_some_iff.mp h
      obtain ⟨w', h2, rfl⟩ := ih he h1
      exact ⟨_, by rw [h2]; rfl, rfl⟩
    · rintro hc ⟨k, hk⟩
      have hx : ∃ k, x = '{' :: k := by
        cases x with
        | nil => rcases he with rfl | rfl <;> cases hk
        | cons y x => injection hk with hk _; exact ⟨x, by rw [hk]⟩
      obtain ⟨k, rfl⟩ := hx
      rcases hc with rfl | rfl
      · exact n3 k rfl rfl
      · exact n4 k rfl rfl
    · rintro hc k hk
      have hx : ∃ k, x = c :: '{' :: k := by
        cases x with
        | nil => rcases he with rfl | rfl <;> (injection hk with hk _; subst hk; rcases hc with h | h <;> cases h)
        | cons y x =>
          injection hk with hk hk'
          subst hk
          cases x with
          | nil => rcases he with rfl | rfl <;> cases hk'
          | cons z x => injection hk' with hk' _; exact ⟨x, by rw [hk']⟩
      obtain ⟨k, rfl⟩ := hx
      rcases hc with rfl | rfl
      · exact n1 k rfl rfl
      · exact n2 k rfl rfl
  | case6 =>
    intro v e he h
    refine ⟨[], rfl, ?_⟩
    rcases he with rfl | rfl
    · exact (Option.some.inj h).symm
    · exact (Option.some.inj h).symm

theorem control_last {e : Elem} {x : Str} (h : Control E.U E.bd e x) : x.getLast? = some '}' := by
  have hm : ∀ {kw : Str} {i : Strip} {z : Str}, Mark kw i z → z.getLast? = some '}' := by
    rintro kw i z ⟨h1, h2⟩
    exact List.getLast?_concat ..
  cases h with
  | interp => exact List.getLast?_concat ..
  | ifDir _ _ _ _ _ _ hz _ _ => rw [List.getLast?_append, hm hz]; rfl
  | forDir _ _ _ _ _ _ _ hz _ => rw [List.getLast?_append, hm hz]; rfl

theorem tmpl_nil {q : Bool} {es : List Elem} {t : Str} (h : Tmpl E.U E.bd q es t) (ht : t = []) : es = [] := by
  cases h with
  | nil => rfl
  | lit _ hne => exact absurd (List.append_eq_nil_iff.mp ht).1 hne
  | control h _ =>
    obtain ⟨c, k, -, rfl⟩ := control_head h
    cases ht

/-- A template without its last line ending. -/
theorem tmpl_unline : ∀ {es : List Elem} {t e : Str}, Tmpl E.U E.bd false es (t ++ e) → (e = c!"\n" ∨ e = c!"\r\n") →
    ∃ es', Tmpl E.U E.bd false es' t ∧ es = addLine es' e := by
  intro es
  induction es with
  | nil =>
    intro t e h he
    generalize hu : t ++ e = u at h
    cases h
    rcases he with rfl | rfl <;> exact absurd (List.append_eq_nil_iff.mp hu).2 nofun
  | cons el es ih =>
    intro t e h he
    generalize hu : t ++ e = u at h
    have split : ∀ {x y : Str}, t ++ e = x ++ y → (∃ a, t = x ++ a ∧ y = a ++ e) ∨ (y = [] ∧ x = t ++ e) ∨
        (y = c!"\n" ∧ ∃ k, x = k ++ ['\r']) := by
      intro x y hxy
      rcases List.append_eq_append_iff.mp hxy with ⟨a, h1, h2⟩ | ⟨a, h1, h2⟩
      · cases a with
        | nil => exact .inl ⟨[], by simpa using h1.symm, by simpa using h2.symm⟩
        | cons c a =>
          rcases he with rfl | rfl
          · injection h2 with h2 h3
            obtain ⟨rfl, rfl⟩ := List.append_eq_nil_iff.mp h3.symm
            subst h2
            exact .inr (.inl ⟨rfl, h1⟩)
          · injection h2 with h2 h3
            subst h2
            cases a with
            | nil => exact .inr (.inr ⟨h3.symm, t, h1⟩)
            | cons c a =>
              injection h3 with h2 h3
              obtain ⟨rfl, rfl⟩ := List.append_eq_nil_iff.mp h3.symm
              subst h2
              exact .inr (.inl ⟨rfl, h1⟩)
      · exact .inl ⟨a, h1, h2⟩
    cases h with
    | @lit _ _ x v y hx hne hh hjt ht =>
      rcases split hu with ⟨a, rfl, rfl⟩ | ⟨rfl, rfl⟩ | ⟨rfl, -⟩
      · obtain ⟨es', h1, rfl⟩ := ih ht he
        obtain ⟨h2, h3⟩ := addLine_head hh
        refine ⟨.lit v :: es', .lit hx hne h3 ?_ h1, (addLine_cons fun _ => h2).symm⟩
        rintro ⟨c, k1, k2, k3⟩
        exact hjt ⟨c, k1, k2, k3.trans ⟨_, rfl⟩⟩
      · obtain rfl := tmpl_nil ht rfl
        obtain ⟨w, h1, rfl⟩ := literal_line t he hx
        by_cases h0 : t = []
        · subst h0
          cases h1
          exact ⟨[], .nil, rfl⟩
        · refine ⟨[.lit w], ?_, rfl⟩
          have := Tmpl.lit (U := E.U) (bd := E.bd) (q := false) (es := []) (t := []) h1 h0 nofun
            (by rintro ⟨c, -, -, k, hk⟩; cases hk) .nil
          rwa [List.append_nil] at this
      · rcases tmpl_head ht hh with ⟨-, h⟩ | ⟨c, k, hc, h⟩
        · cases h
        · injection h with h _
          rcases hc with rfl | rfl <;> cases h
    | @control _ _ _ x y hx ht =>
      have hl := control_last hx
      rcases split hu with ⟨a, rfl, rfl⟩ | ⟨rfl, rfl⟩ | ⟨rfl, k, rfl⟩
      · obtain ⟨es', h1, rfl⟩ := ih ht he
        exact ⟨el :: es', .control hx h1, (addLine_cons fun h => by rw [control_not_text hx] at h; cases h).symm⟩
      · rcases he with rfl | rfl <;> simp at hl
      · simp at hl

theorem addLineEnding_cons {v w : EElem} {vs : List EElem} {le : Str} {s : Span} :
    addLineEnding (v :: w :: vs) le s = v :: addLineEnding (w :: vs) le s := by
  unfold addLineEnding
  rw [List.getLast?_cons_cons]
  split <;> simp

theorem means_addLine {le : Str} {s : Span} : ∀ {vs : List EElem} {es : List Elem}, MeansElems E.U E.bd vs es →
    (∀ v ∈ vs, Placed v) → MeansElems E.U E.bd (addLineEnding vs le s) (addLine es le)
  | _, _, .nil, _ => .cons .lit .nil
  | _, _, .cons (v := v) hv .nil, hp => by
    cases hv with
    | @lit sp t =>
      cases sp with
      | none => exact absurd rfl (hp _ (List.mem_cons_self ..) t)
      | some sp => exact .cons .lit .nil
    | interp h => exact .cons (.interp h) (.cons .lit .nil)
    | ifDir h1 h2 h3 => exact .cons (.ifDir h1 h2 h3) (.cons .lit .nil)
    | forDir h1 h2 => exact .cons (.forDir h1 h2) (.cons .lit .nil)
  | _, _, .cons hv (.cons hw hvs), hp => by
    rw [addLineEnding_cons, addLine_cons fun _ => List.cons_ne_nil _ _]
    exact .cons hv (means_addLine (.cons hw hvs) fun v hm => hp v (List.mem_cons_of_mem _ hm))

/-! ### Heredocs -/

theorem ident_noLine {U : Uni} {d : Str} (h : IsIdentifier U d) : '\n' ∉ d := by
  obtain ⟨c, cs, rfl, h1, h2⟩ := h
  intro h
  rcases List.mem_cons.mp h with rfl | h
  · have := idFirst_iff.mpr h1
    rw [nonId_start rfl] at this; cases this
  · have := idRest_iff.mpr (h2 _ h)
    rw [nonId_continue rfl] at this; cases this

/-- The text with its last line ending. -/
theorem last_line {t : Str} (h : t.getLast? = some '\n') : ∃ x e, t = x ++ e ∧ (e = c!"\n" ∨ e = c!"\r\n") ∧
    (e = c!"\n" → x.getLast? ≠ some '\r') := by
  obtain ⟨x, rfl⟩ := List.getLast?_eq_some_iff.mp h
  by_cases hx : x.getLast? = some '\r'
  · obtain ⟨y, rfl⟩ := List.getLast?_eq_some_iff.mp hx
    exact ⟨y, c!"\r\n", by simp, .inr rfl, nofun⟩
  · exact ⟨x, c!"\n", rfl, .inl rfl, fun _ => hx⟩

/-- The content of a heredoc. -/
theorem run_heredocTemplate (HG : Good E R m) {es : List Elem} {d t b r : Str} (hd : IsIdentifier E.U d)
    (ht : Tmpl E.U E.bd false es t) (hm : t.length ≤ m) (hc : HeredocText E.U d t) (hb : SpaceOnly b) (hr : IdEnd E.U r) :
    Runs (heredocTemplate E R d) t (b ++ (d ++ r)) fun v => MeansElems E.U E.bd v es := by
  obtain ⟨x, e, rfl, he, hex⟩ := last_line hc.last
  obtain ⟨es', h1, rfl⟩ := tmpl_unline ht he
  rw [List.length_append] at hm
  have hterm : TermAt E.U d (e ++ (b ++ (d ++ r))) := ⟨e, b, r, rfl, he, hb, hr⟩
  obtain ⟨c, k, hk, hcn⟩ := term_head_ne hterm
  have hsig : ¬ Sigil c := by rcases hcn with rfl | rfl <;> (rintro (h | h) <;> cases h)
  have hbad : ∀ y, y ≠ [] → y <:+ x → ¬ TermAt E.U d (y ++ (e ++ (b ++ (d ++ r)))) := by
    rintro y hy ⟨p, rfl⟩ ⟨e₁, b₁, r₁, hk, he₁, hb₁, hr₁⟩
    have hne : '\n' ∈ e := by rcases he with rfl | rfl <;> simp
    have hn : '\n' ∉ b₁ ++ d := by
      rw [List.mem_append, not_or]
      refine ⟨fun h => ?_, ident_noLine hd⟩
      rcases hb₁ _ h with h | h <;> cases h
    have key : ∀ {a : Str}, a ++ (e ++ (b ++ (d ++ r))) = b₁ ++ (d ++ r₁) → EndsHeredoc E.U d (a ++ e) := by
      intro a ha
      rw [← List.append_assoc, ← List.append_assoc b₁] at ha
      rcases List.append_eq_append_iff.mp ha with ⟨s, h1, -⟩ | ⟨s, h1, h2⟩
      · exact absurd (by rw [h1]; simp [hne]) hn
      · refine ⟨b₁, s, h1, hb₁, fun c k hs hc => ?_⟩
        subst hs
        have := hr₁ c _ h2
        rw [idRest_iff.mpr hc] at this
        cases this
    rcases List.append_eq_append_iff.mp hk with ⟨a, h2, h3⟩ | ⟨a, h2, h3⟩
    · cases a with
      | nil =>
        rw [List.append_nil] at h2
        subst h2
        refine hc.lines (p ++ e₁) e (by asc) (.inr ?_) (key (a := []) h3)
        rcases he₁ with rfl | rfl <;> simp
      | cons c a =>
        cases y with
        | nil => exact hy rfl
        | cons y ys =>
          rcases he₁ with rfl | rfl
          · injection h2 with _ h2
            exact absurd h2.symm (by simp)
          · injection h2 with h4 h2
            subst h4
            cases ys with
            | nil =>
              change ['\n'] = c :: a at h2
              injection h2 with h4 h2
              subst h4
              rcases he with rfl | rfl
              · exact hex rfl (by simp)
              · injection h3 with h3 _; cases h3
            | cons z zs =>
              injection h2 with _ h2
              exact absurd h2.symm (by simp)
    · subst h2
      refine hc.lines (p ++ e₁) (a ++ e) (by asc) (.inr ?_) (key h3.symm)
      rcases he₁ with rfl | rfl <;> simp
  unfold heredocTemplate
  refine Runs.bind_last (Runs.opt (R := fun o => ∃ v, o = some v ∧ MeansElems E.U E.bd v (addLine es' e)) ?_
    fun v hv => ⟨v, rfl, hv⟩) ?_
  · rw [templateFragment_eq]
    unfold elements
    refine Runs.bind (elems_reps HG (litOK_heredoc hd) ?_ ?_ ?_ h1 (by omega) ?_ hbad).runs ?_
    · rw [hk]
      refine ⟨?_, .inl (hk ▸ .inr hterm), nofun, nofun⟩
      rintro ⟨c', k', h, hh⟩
      injection hh with hh _
      subst hh
      exact hsig h
    · rw [hk]
      intro j hj
      injection hj with hj _
      subst hj
      rcases hcn with h | h <;> cases h
    · rw [hk]; exact backs_other hsig
    · rw [hk]
      rintro ⟨c', h, -, j, hj⟩
      injection hj with hj _
      subst hj
      exact hsig h
    · intro vs hvs
      refine (runs_lineEnd he).withSpan.bind_last ?_
      rintro ⟨le, s⟩ rfl
      exact .pure (means_addLine hvs.1 hvs.2)
  · rintro _ ⟨v, rfl, hv⟩
    exact .pure hv

/-- The introduction of a heredoc. -/
theorem run_heredocStart {d e r : Str} (hd : IsIdentifier E.U d) (he : e = c!"\n" ∨ e = c!"\r\n") (ind : Bool) :
    Runs (heredocStart E) (c!"<<" ++ ((if ind then c!"-" else []) ++ (d ++ e))) r fun v => v = (ind, d) := by
  unfold heredocStart
  refine Runs.bind runs_tag fun _ _ => ?_
  refine Runs.bind (Q := fun o : Option Char => o.isSome = ind) ?_ ?_
  · cases ind with
    | true => exact Runs.opt runs_chr fun _ _ => rfl
    | false =>
      refine Backs.opt (backs_chr ?_) rfl
      obtain ⟨c, cs, rfl, h1, -⟩ := hd
      intro k hk
      injection hk with hk _
      subst hk
      have := idFirst_iff.mpr h1
      unfold isIdStart at this
      rw [E.U.ascii_start _ (by decide)] at this
      cases this
  · rintro o rfl
    refine Runs.bind (runs_strIdent hd ?_).cutErr ?_
    · obtain ⟨c, cs, rfl, hc⟩ := lineEnd_head he
      rcases hc with rfl | rfl <;> exact idEnd_cons rfl
    · rintro _ rfl
      exact (runs_lineEnd he).cutErr.bind_last fun _ _ => .pure rfl

/-- A heredoc. -/
theorem run_heredoc (HG : Good E R m) {es : List Elem} {d e t b r : Str} (hd : IsIdentifier E.U d)
    (he : e = c!"\n" ∨ e = c!"\r\n") (ht : Tmpl E.U E.bd false es t) (hm : t.length ≤ m)
    (hc : HeredocText E.U d t) (hb : SpaceOnly b) (hr : IdEnd E.U r) (ind : Bool) :
    Runs (heredoc E R) (c!"<<" ++ ((if ind then c!"-" else []) ++ (d ++ (e ++ (t ++ (b ++ d)))))) r
      fun v => ∃ vs ts b, MeansElems E.U E.bd vs es ∧
        v = .heredoc {} d ts (if ind then tmplDedent E.U vs else (vs, none)).1 (if ind then tmplDedent E.U vs else (vs, none)).2 b := by
  unfold heredoc
  rw [show c!"<<" ++ ((if ind then c!"-" else []) ++ (d ++ (e ++ (t ++ (b ++ d))))) =
    (c!"<<" ++ ((if ind then c!"-" else []) ++ (d ++ e))) ++ (t ++ (b ++ d)) by asc]
  refine Runs.bind (run_heredocStart hd he ind) ?_
  rintro _ rfl
  refine Runs.bind (Runs.withSpan (by asc; exact run_heredocTemplate HG hd ht hm hc hb hr)) ?_
  rintro ⟨vs, ts⟩ hvs
  refine Runs.bind (Q := fun _ => True) (((runs_space0 hb (ident_blank hd)).spanOf.conseq fun _ _ => trivial).map) fun _ _ => ?_
  exact (runs_delim hr).cutErr.bind_last fun _ _ => .pure ⟨vs, _, _, hvs, rfl⟩

/-! ### Indentation -/

theorem literal_ne (x : Str) : ∀ {v : Str}, readLiteral x = some v → x ≠ [] → v ≠ [] := by
  fun_induction readLiteral x with
  | case1 | case2 | case5 =>
    rintro v h - rfl
    obtain ⟨w, -, hw⟩ := Option.map_eq_some_iff.mp h
    cases hw
  | case3 | case4 => nofun
  | case6 => exact fun _ h => absurd rfl h

theorem tmpl_noVoid : ∀ {es : List Elem} {t : Str}, Tmpl E.U E.bd false es t → ∀ e ∈ es, isVoid e = false := by
  intro es
  induction es with
  | nil => intro _ _; nofun
  | cons el es ih =>
    intro t h e he
    cases h with
    | @lit _ _ x v t hx hne _ _ ht =>
      rcases List.mem_cons.mp he with rfl | he
      · have := literal_ne x hx hne
        cases v with
        | nil => exact absurd rfl this
        | cons => rfl
      · exact ih ht e he
    | @control _ _ _ x t hx ht =>
      rcases List.mem_cons.mp he with rfl | he
      · cases hx <;> rfl
      · exact ih ht e he

theorem dropVoid_tmpl {es : List Elem} {t : Str} (h : Tmpl E.U E.bd false es t) : dropVoid es = es :=
  List.filter_eq_self.mpr fun e he => by rw [tmpl_noVoid h e he]; rfl

theorem means_outline : ∀ {vs : List EElem} {es : List Elem}, MeansElems E.U E.bd vs es →
    outline (fun _ => c!"x") vs = flat es
  | _, _, .nil => rfl
  | _, _, .cons .lit h => by rw [outline, flat, means_outline h]
  | _, _, .cons (.interp _) h => by rw [outline, flat, means_outline h] <;> first | rfl | nofun
  | _, _, .cons (.ifDir _ _ _) h => by rw [outline, flat, means_outline h] <;> first | rfl | nofun
  | _, _, .cons (.forDir _ _) h => by rw [outline, flat, means_outline h] <;> first | rfl | nofun

theorem means_regular : ∀ {vs : List EElem} {es : List Elem} {t : Str}, MeansElems E.U E.bd vs es →
    Tmpl E.U E.bd false es t → (∀ v, .lit v ∈ es → '\r' ∉ v) → Regular vs
  | _, _, _, .nil, _, _ => trivial
  | _, _, _, .cons (.lit (s := s)) h, ht, hp => by
    have hp' := fun v hv => hp v (List.mem_cons_of_mem _ hv)
    cases ht with
    | @lit _ _ x v t hx hne hh _ ht =>
      refine ⟨literal_ne x hx hne, hp s (List.mem_cons_self ..), means_regular h ht hp', ?_⟩
      rintro sp u vs' rfl
      cases h with
      | cons h _ => cases h; exact absurd (hh _ rfl) nofun
    | control h => cases h
  | _, _, _, .cons (.interp _) h, ht, hp => by
    have hp' := fun v hv => hp v (List.mem_cons_of_mem _ hv)
    cases ht with
    | control _ ht =>
      have := means_regular h ht hp'
      exact this
  | _, _, _, .cons (.ifDir _ _ _) h, ht, hp => by
    have hp' := fun v hv => hp v (List.mem_cons_of_mem _ hv)
    cases ht with
    | control _ ht =>
      have := means_regular h ht hp'
      exact this
  | _, _, _, .cons (.forDir _ _) h, ht, hp => by
    have hp' := fun v hv => hp v (List.mem_cons_of_mem _ hv)
    cases ht with
    | control _ ht =>
      have := means_regular h ht hp'
      exact this

theorem cutLines_eq (k : Nat) : ∀ (j : Nat) (s : Str), dl k j s = cutLines k j s
  | _, [] => rfl
  | j, c :: r => by
    rw [dl, cutLines, cutLines_eq k k r, cutLines_eq k 0 r, cutLines_eq k (j - 1) r]

theorem strip_means {k : Nat} : ∀ {vs : List EElem} {es : List Elem} (b : Bool), MeansElems E.U E.bd vs es → Regular vs →
    MeansElems E.U E.bd (tmplStrip k (!b) vs) (unindent k b es)
  | _, _, _, .nil, _ => .nil
  | _, _, b, .cons (.lit (s := s)) h, hr => by
    obtain ⟨h1, h2, h3, h4⟩ := hr
    rw [tmplStrip, unindent, dedentBy_eq h2, cutLines_eq, tmplStrip_noLit k h4 _ (!false)]
    cases b <;> exact .cons .lit (strip_means false h h3)
  | _, _, b, .cons (.interp hv) h, hr => by
    rw [tmplStrip, unindent] <;> first | exact .cons (.interp hv) (strip_means false h hr) | nofun
  | _, _, b, .cons (.ifDir h1 h2 h3) h, hr => by
    rw [tmplStrip, unindent] <;> first | exact .cons (.ifDir h1 h2 h3) (strip_means false h hr) | nofun
  | _, _, b, .cons (.forDir h1 h2) h, hr => by
    rw [tmplStrip, unindent] <;> first | exact .cons (.forDir h1 h2) (strip_means false h hr) | nofun

theorem inline_x (U : Uni) : Inline U c!"x" :=
  ⟨U.ascii_ws _ (by decide), by decide, by decide⟩

theorem dedent_indented {vs : List EElem} {es : List Elem} {t : Str} {k : Nat} (h : MeansElems E.U E.bd vs es)
    (ht : Tmpl E.U E.bd false es t) (hi : Indented E.U k es) :
    tmplDedent E.U vs = (tmplStrip k false vs, some k) := by
  have hreg := means_regular h ht hi.plain
  have hf : ∀ e : EElem, Inline E.U ((fun _ => c!"x") e) := fun _ => inline_x E.U
  have hmem : ∀ w ∈ widths E.U (lines (flat es)), k ≤ w := by
    intro w hw
    obtain ⟨l, hl, hne, rfl⟩ := mem_widths.1 hw
    exact hi.all l hl hne
  have hin : k ∈ widths E.U (lines (flat es)) := by
    obtain ⟨l, hl, hne, hk⟩ := hi.least
    exact mem_widths.2 ⟨l, hl, hne, hk⟩
  have hw : ∀ w ∈ widths E.U (appl false (lines (outline (fun _ => c!"x") vs))), w ≠ 0 := by
    rw [means_outline h]
    intro w hw h0
    have := hmem w hw
    have := hi.pos
    omega
  obtain ⟨r, hr⟩ := tmplIndent_some hf vs false none hreg hw
  have hr' := tmplIndent_eq hf vs false none r hreg hw hr
  rw [means_outline h] at hr'
  cases r with
  | none =>
    change none = foldMin none (widths E.U (lines (flat es))) at hr'
    cases hws : widths E.U (lines (flat es)) with
    | nil => rw [hws] at hin; exact (List.not_mem_nil hin).elim
    | cons w ws => rw [hws, foldMin, foldMin_some] at hr'; cases hr'
  | some n =>
    obtain ⟨h1, -, h3⟩ := foldMin_spec hr'.symm
    have h4 : n ∈ widths E.U (lines (flat es)) := h3.elim id nofun
    have : n = k := Nat.le_antisymm (h1 k hin) (hmem n h4)
    subst this
    rw [tmplDedent, hr]

theorem dedent_flush {vs : List EElem} {es : List Elem} (h : MeansElems E.U E.bd vs es) (hi : Flush E.U es) :
    tmplDedent E.U vs = (vs, none) := by
  cases hi with
  | control he =>
    cases h with
    | cons h _ => cases h <;> first | rfl | cases he
  | @text v hr hv =>
    cases h with
    | cons h h' =>
      cases h
      cases h'
      have : minLeadingWs E.U v false = none := by
        cases v with
        | nil => rfl
        | cons c v =>
          rcases hv with ⟨l, hl, hne, h0⟩ | hv
          · obtain ⟨h1, h2⟩ := lines_eq_strLines hr (by simp : c :: v ≠ [])
            rw [minLeadingWs, minWsLines_zero]
            · rfl
            · refine ⟨l, ?_, hne, h0⟩
              rw [h1] at hl
              rcases List.mem_append.mp hl with hl | hl
              · exact hl
              · split at hl
                · exact absurd (List.mem_singleton.mp hl) hne
                · exact (List.not_mem_nil hl).elim
          · have hw : widths E.U (appl false (lines (c :: v))) = [] := by
              unfold widths
              rw [List.map_eq_nil_iff, List.filter_eq_nil_iff]
              intro l hl
              rw [hv l hl]
              simp
            rw [minLeadingWs_eq hr (by simp), hw]
            · rfl
            · rw [hw]; nofun
      rw [tmplDedent, tmplIndent, this]
      rfl

/-- A heredoc as an operand. -/
theorem run_plainHeredoc (HG : Good E R m) {es : List Elem} {d e s t b r : Str} (hd : IsIdentifier E.U d)
    (he : e = c!"\n" ∨ e = c!"\r\n") (hs : Tmpl E.U E.bd false es s) (ht : Tmpl E.U E.bd false es t) (hm : t.length ≤ m)
    (hc : HeredocText E.U d t) (hb : SpaceOnly b) (hr : IdEnd E.U r) :
    Runs (heredoc E R) (c!"<<" ++ (d ++ (e ++ (t ++ (b ++ d))))) r
      fun v => Means E.U E.bd v (.template (.heredoc d s .none)) := by
  refine (run_heredoc HG hd he ht hm hc hb hr false).conseq ?_
  rintro _ ⟨vs, ts, b, hvs, rfl⟩
  exact .heredoc hvs (by rwa [dropVoid_tmpl hs]) rfl

/-- A heredoc without indentation. -/
theorem run_flushHeredoc (HG : Good E R m) {es : List Elem} {d e s t b r : Str} (hd : IsIdentifier E.U d)
    (he : e = c!"\n" ∨ e = c!"\r\n") (hi : Flush E.U es) (hs : Tmpl E.U E.bd false es s) (ht : Tmpl E.U E.bd false es t)
    (hm : t.length ≤ m) (hc : HeredocText E.U d t) (hb : SpaceOnly b) (hr : IdEnd E.U r) :
    Runs (heredoc E R) (c!"<<-" ++ (d ++ (e ++ (t ++ (b ++ d))))) r
      fun v => Means E.U E.bd v (.template (.heredoc d s .none)) := by
  refine (run_heredoc HG hd he ht hm hc hb hr true).conseq ?_
  rintro _ ⟨vs, ts, b, hvs, rfl⟩
  rw [if_pos rfl, dedent_flush hvs hi]
  exact .heredoc hvs (by rwa [dropVoid_tmpl hs]) rfl

/-- A heredoc with indentation. -/
theorem run_indentedHeredoc (HG : Good E R m) {es : List Elem} {d e s t b r : Str} {k : Nat} (hd : IsIdentifier E.U d)
    (he : e = c!"\n" ∨ e = c!"\r\n") (hi : Indented E.U k es) (hs : Tmpl E.U E.bd false (dropVoid (unindent k true es)) s)
    (ht : Tmpl E.U E.bd false es t)
    (hm : t.length ≤ m) (hc : HeredocText E.U d t) (hb : SpaceOnly b) (hr : IdEnd E.U r) :
    Runs (heredoc E R) (c!"<<-" ++ (d ++ (e ++ (t ++ (b ++ d))))) r
      fun v => Means E.U E.bd v (.template (.heredoc d s .indent)) := by
  refine (run_heredoc HG hd he ht hm hc hb hr true).conseq ?_
  rintro _ ⟨vs, ts, b, hvs, rfl⟩
  rw [if_pos rfl, dedent_indented hvs ht hi]
  exact .heredoc (strip_means true hvs (means_regular hvs ht hi.plain)) hs rfl

end Verif.Gram
