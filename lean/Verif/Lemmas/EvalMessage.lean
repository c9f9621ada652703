import Verif.Model.EvalMessage
import Verif.Spec.EvalMessage
import Verif.Lemmas.PrintValue
import Verif.Lemmas.RunBody
/-!
Lemmas for C85: what can be read from the message of an error.
-/

namespace Verif
open Spec P Gram Syn

/-- Two texts with the same continuation up to a character that is not in them. -/
theorem split_uniq {p : Char → Bool} : ∀ {a b r r' : Str}, (∀ c ∈ a, p c = true) → (∀ c ∈ b, p c = true) →
    (∀ c cs, r = c :: cs → p c = false) → (∀ c cs, r' = c :: cs → p c = false) → a ++ r = b ++ r' → a = b ∧ r = r'
  | [], [], _, _, _, _, _, _, h => ⟨rfl, h⟩
  | [], c :: b, r, r', _, hb, hr, _, h => by
    have h : r = c :: (b ++ r') := h
    have := hr c _ h
    rw [hb c (by simp)] at this
    cases this
  | c :: a, [], r, r', ha, _, _, hr', h => by
    have h : c :: (a ++ r) = r' := h
    have := hr' c _ h.symm
    rw [ha c (by simp)] at this
    cases this
  | c :: a, d :: b, r, r', ha, hb, hr, hr', h => by
    have h : c :: (a ++ r) = d :: (b ++ r') := h
    injection h with h1 h2
    obtain ⟨h3, h4⟩ := split_uniq (fun x hx => ha x (by simp [hx])) (fun x hx => hb x (by simp [hx])) hr hr' h2
    exact ⟨by rw [h1, h3], h4⟩

/-- The text up to a backtick. -/
theorem tick_uniq {a b r r' : Str} (ha : '`' ∉ a) (hb : '`' ∉ b) (h : a ++ '`' :: r = b ++ '`' :: r') :
    a = b ∧ r = r' := by
  have := split_uniq (p := fun c => c != '`') (fun c hc => by simpa using fun he : c = '`' => ha (he ▸ hc))
    (fun c hc => by simpa using fun he : c = '`' => hb (he ▸ hc)) (r := '`' :: r) (r' := '`' :: r')
    (by intro c cs h; injection h with h; subst h; rfl) (by intro c cs h; injection h with h; subst h; rfl) h
  exact ⟨this.1, by injection this.2⟩

theorem natStr_inj {m n : Nat} (h : natStr m = natStr n) : m = n := by
  rw [← natStr_val m, h, natStr_val]

/-- No digit follows. -/
def NoDigit (r : Str) : Prop := ∀ c cs, r = c :: cs → isDigit c = false

theorem nat_uniq {m n : Nat} {r r' : Str} (hr : NoDigit r) (hr' : NoDigit r') (h : natStr m ++ r = natStr n ++ r') :
    m = n ∧ r = r' := by
  obtain ⟨h1, h2⟩ := split_uniq (natStr_spec m).1 (natStr_spec n).1 hr hr' h
  exact ⟨natStr_inj h1, h2⟩

theorem noDigit_cons {c : Char} {r : Str} (h : isDigit c = false) : NoDigit (c :: r) := by
  intro d cs hd
  injection hd with hd
  exact hd ▸ h

theorem natStr_head (n : Nat) : ∃ c cs, natStr n = c :: cs ∧ isDigit c = true := by
  obtain ⟨h1, h2, -⟩ := natStr_spec n
  cases h : natStr n with
  | nil => exact absurd h h2
  | cons c cs => exact ⟨c, cs, rfl, h1 c (by simp [h])⟩

/-! ## Types -/

/-- A type without alternatives, made of lists of alternatives. -/
inductive FlatTy
  | any | bool | number | string
  | array (ts : List FlatTy)
  | object (ts : List FlatTy)
  | nullable (ts : List FlatTy)

mutual
def flatTy : ParamType → List FlatTy
  | .any => [.any]
  | .bool => [.bool]
  | .number => [.number]
  | .string => [.string]
  | .array t => [.array (flatTy t)]
  | .object t => [.object (flatTy t)]
  | .nullable t => [.nullable (flatTy t)]
  | .oneOf [] => [.any]
  | .oneOf (t :: ts) => flatTy t ++ flatTys ts
def flatTys : List ParamType → List FlatTy
  | [] => []
  | t :: ts => flatTy t ++ flatTys ts
end

mutual
def InFlat : FlatTy → Value → Prop
  | .any, _ => True
  | .bool, v => ∃ b, v = .bool b
  | .number, v => ∃ n, v = .number n
  | .string, v => ∃ s, v = .string s
  | .array ts, v => ∃ xs, v = .array xs ∧ ∀ x ∈ xs, InFlats ts x
  | .object ts, v => ∃ es, v = .object es ∧ ∀ e ∈ es, InFlats ts e.2
  | .nullable ts, v => v = .null ∨ InFlats ts v
termination_by structural x => x
def InFlats : List FlatTy → Value → Prop
  | [], _ => False
  | t :: ts, v => InFlat t v ∨ InFlats ts v
termination_by structural x => x
end

theorem inFlats_append : ∀ (as bs : List FlatTy) (v : Value), InFlats (as ++ bs) v ↔ InFlats as v ∨ InFlats bs v
  | [], bs, v => by simp [InFlats]
  | a :: as, bs, v => by simp only [List.cons_append, InFlats, inFlats_append as bs v, or_assoc]

mutual
theorem inFlats_flat : ∀ (t : ParamType) (v : Value), InType t v ↔ InFlats (flatTy t) v
  | .any, v => by simp only [flatTy, InFlats, InFlat, true_or, iff_true]; exact .any
  | .bool, v => by
    simp only [flatTy, InFlats, InFlat, or_false]
    exact ⟨fun h => by cases h; exact ⟨_, rfl⟩, fun ⟨_, h⟩ => h ▸ .bool⟩
  | .number, v => by
    simp only [flatTy, InFlats, InFlat, or_false]
    exact ⟨fun h => by cases h; exact ⟨_, rfl⟩, fun ⟨_, h⟩ => h ▸ .number⟩
  | .string, v => by
    simp only [flatTy, InFlats, InFlat, or_false]
    exact ⟨fun h => by cases h; exact ⟨_, rfl⟩, fun ⟨_, h⟩ => h ▸ .string⟩
  | .array t, v => by
    simp only [flatTy, InFlats, InFlat, or_false]
    exact ⟨fun h => by
        cases h with
        | array h => exact ⟨_, rfl, fun x hx => (inFlats_flat t x).1 (h x hx)⟩,
      fun ⟨_, h, h'⟩ => h ▸ .array fun x hx => (inFlats_flat t x).2 (h' x hx)⟩
  | .object t, v => by
    simp only [flatTy, InFlats, InFlat, or_false]
    exact ⟨fun h => by
        cases h with
        | object h => exact ⟨_, rfl, fun x hx => (inFlats_flat t x.2).1 (h x hx)⟩,
      fun ⟨_, h, h'⟩ => h ▸ .object fun x hx => (inFlats_flat t x.2).2 (h' x hx)⟩
  | .nullable t, v => by
    simp only [flatTy, InFlats, InFlat, or_false]
    exact ⟨fun h => by
        cases h with
        | null => exact .inl rfl
        | nullable h => exact .inr ((inFlats_flat t v).1 h),
      fun h => h.elim (fun h => h ▸ .null) fun h => .nullable ((inFlats_flat t v).2 h)⟩
  | .oneOf [], v => by simp only [flatTy, InFlats, InFlat, true_or, iff_true]; exact .oneOfEmpty
  | .oneOf (t :: ts), v => by
    rw [flatTy, inFlats_append]
    exact ⟨fun h => by
        cases h with
        | oneOf h =>
          cases h with
          | head h => exact .inl ((inFlats_flat t v).1 h)
          | tail h => exact .inr ((inFlats_flats ts v).1 h),
      fun h => .oneOf (h.elim (fun h => .head ((inFlats_flat t v).2 h)) fun h => .tail ((inFlats_flats ts v).2 h))⟩
theorem inFlats_flats : ∀ (ts : List ParamType) (v : Value), InSome ts v ↔ InFlats (flatTys ts) v
  | [], v => ⟨fun h => (by cases h), fun h => h.elim⟩
  | t :: ts, v => by
    rw [flatTys, inFlats_append]
    exact ⟨fun h => by
        cases h with
        | head h => exact .inl ((inFlats_flat t v).1 h)
        | tail h => exact .inr ((inFlats_flats ts v).1 h),
      fun h => h.elim (fun h => .head ((inFlats_flat t v).2 h)) fun h => .tail ((inFlats_flats ts v).2 h)⟩
end

/-- What is between two alternatives. -/
def IsSep (s : Str) : Prop := s = c!", " ∨ s = c!" or "

mutual
/-- The text of an alternative. -/
inductive AtomText : FlatTy → Str → Prop
  | any : AtomText .any c!"any`"
  | bool : AtomText .bool c!"bool`"
  | number : AtomText .number c!"number`"
  | string : AtomText .string c!"string`"
  | array {ts : List FlatTy} {s : Str} : JoinText ts s → AtomText (.array ts) (c!"array(" ++ s ++ c!")`")
  | object {ts : List FlatTy} {s : Str} : JoinText ts s → AtomText (.object ts) (c!"object(" ++ s ++ c!")`")
  | nullable {ts : List FlatTy} {s : Str} : JoinText ts s → AtomText (.nullable ts) (c!"nullable(" ++ s ++ c!")`")
/-- The text of alternatives. -/
inductive JoinText : List FlatTy → Str → Prop
  | one {a : FlatTy} {s : Str} : AtomText a s → JoinText [a] ('`' :: s)
  | more {a : FlatTy} {s sep u : Str} {as : List FlatTy} : AtomText a s → IsSep sep → JoinText as u →
      JoinText (a :: as) ('`' :: s ++ sep ++ u)
end

theorem JoinText.append : ∀ {as bs : List FlatTy} {s sep u : Str}, JoinText as s → IsSep sep → JoinText bs u →
    JoinText (as ++ bs) (s ++ sep ++ u)
  | _, _, _, _, _, .one h, hs, hu => .more h hs hu
  | _, _, _, _, _, .more h hs h', hs', hu => by
    have := JoinText.more h hs (h'.append hs' hu)
    simpa [List.append_assoc] using this

mutual
theorem display_join : ∀ t : ParamType, JoinText (flatTy t) t.display
  | .any => .one .any
  | .bool => .one .bool
  | .number => .one .number
  | .string => .one .string
  | .array t => .one (.array (display_join t))
  | .object t => .one (.object (display_join t))
  | .nullable t => .one (.nullable (display_join t))
  | .oneOf [] => .one .any
  | .oneOf (t :: ts) => by
    have ht := display_join t
    rw [flatTy, ParamType.display]
    rcases displayMore_join ts with ⟨h1, h2⟩ | ⟨sep, u, h1, h2, h3⟩
    · rw [h1, h2, List.append_nil, List.append_nil]
      exact ht
    · rw [h1, ← List.append_assoc]
      exact ht.append h2 h3
theorem displayMore_join : ∀ ts : List ParamType, (ParamType.displayMore ts = [] ∧ flatTys ts = []) ∨ ∃ sep u,
    ParamType.displayMore ts = sep ++ u ∧ IsSep sep ∧ JoinText (flatTys ts) u
  | [] => .inl ⟨rfl, rfl⟩
  | t :: ts => by
    right
    have ht := display_join t
    have ih := displayMore_join ts
    cases ts with
    | nil => exact ⟨c!" or ", t.display, by simp [ParamType.displayMore], .inr rfl, by simpa [flatTys] using ht⟩
    | cons t' ts =>
      rcases ih with ⟨h1, h2⟩ | ⟨sep, u, h1, h2, h3⟩
      · cases ts <;> simp [ParamType.displayMore] at h1
      · refine ⟨c!", ", t.display ++ sep ++ u, ?_, .inl rfl, ?_⟩
        · rw [ParamType.displayMore, h1]
          · simp [List.append_assoc]
          · nofun
        · rw [flatTys]
          exact ht.append h2 h3
end

/-- No alternative follows. -/
def Stops (r : Str) : Prop := ∀ sep, IsSep sep → ∀ u, r ≠ sep ++ '`' :: u

theorem join_head : ∀ {as : List FlatTy} {s : Str}, JoinText as s → ∃ u, s = '`' :: u
  | _, _, .one _ => ⟨_, rfl⟩
  | _, _, .more _ _ _ => ⟨_, rfl⟩

theorem stops_close (r : Str) : Stops (c!")`" ++ r) := by
  rintro sep (rfl | rfl) u h <;> simp at h

mutual
theorem atom_uniq : ∀ {a b : FlatTy} {s u r r' : Str}, AtomText a s → AtomText b u → s ++ r = u ++ r' →
    a = b ∧ r = r'
  | _, _, _, _, _, _, .any, h', h => by cases h' <;> simp at h; exact ⟨rfl, h⟩
  | _, _, _, _, _, _, .bool, h', h => by cases h' <;> simp at h; exact ⟨rfl, h⟩
  | _, _, _, _, _, _, .number, h', h => by cases h' <;> simp at h; exact ⟨rfl, h⟩
  | _, _, _, _, _, _, .string, h', h => by cases h' <;> simp at h; exact ⟨rfl, h⟩
  | _, _, _, _, r, r', .array (s := s) hj, h', h => by
    cases h' with
    | @array _ u hj' =>
      have h : s ++ (c!")`" ++ r) = u ++ (c!")`" ++ r') := by simpa using h
      obtain ⟨h1, h2⟩ := join_uniq hj hj' h (stops_close _) (stops_close _)
      exact ⟨by rw [h1], by simpa using h2⟩
    | _ => simp at h
  | _, _, _, _, r, r', .object (s := s) hj, h', h => by
    cases h' with
    | @object _ u hj' =>
      have h : s ++ (c!")`" ++ r) = u ++ (c!")`" ++ r') := by simpa using h
      obtain ⟨h1, h2⟩ := join_uniq hj hj' h (stops_close _) (stops_close _)
      exact ⟨by rw [h1], by simpa using h2⟩
    | _ => simp at h
  | _, _, _, _, r, r', .nullable (s := s) hj, h', h => by
    cases h' with
    | @nullable _ u hj' =>
      have h : s ++ (c!")`" ++ r) = u ++ (c!")`" ++ r') := by simpa using h
      obtain ⟨h1, h2⟩ := join_uniq hj hj' h (stops_close _) (stops_close _)
      exact ⟨by rw [h1], by simpa using h2⟩
    | _ => simp at h
theorem join_uniq : ∀ {as bs : List FlatTy} {s u r r' : Str}, JoinText as s → JoinText bs u → s ++ r = u ++ r' →
    Stops r → Stops r' → as = bs ∧ r = r'
  | _, _, _, _, r, r', .one (s := s) ha, h', h, hr, hr' => by
    cases h' with
    | one hb =>
      obtain ⟨h1, h2⟩ := atom_uniq ha hb (by simpa using h)
      exact ⟨by rw [h1], h2⟩
    | @more b t sep u bs hb hs hu =>
      obtain ⟨-, h2⟩ := atom_uniq (r' := sep ++ (u ++ r')) ha hb (by simpa [List.append_assoc] using h)
      obtain ⟨w, hw⟩ := join_head hu
      exact absurd (h2.trans (by rw [hw]; rfl)) (hr sep hs (w ++ r'))
  | _, _, _, _, r, r', .more (s := s) (sep := sep) (u := u) ha hs hu, h', h, hr, hr' => by
    cases h' with
    | one hb =>
      obtain ⟨-, h2⟩ := atom_uniq (r := sep ++ (u ++ r)) ha hb (by simpa [List.append_assoc] using h)
      obtain ⟨w, hw⟩ := join_head hu
      exact absurd (h2.symm.trans (by rw [hw]; rfl)) (hr' sep hs (w ++ r))
    | @more b t sep' u' bs hb hs' hu' =>
      obtain ⟨h1, h2⟩ := atom_uniq (r := sep ++ (u ++ r)) (r' := sep' ++ (u' ++ r')) ha hb
        (by simpa [List.append_assoc] using h)
      have h3 : u ++ r = u' ++ r' := by
        rcases hs with rfl | rfl <;> rcases hs' with rfl | rfl <;> simp at h2 <;> exact h2
      obtain ⟨h4, h5⟩ := join_uniq hu hu' h3 hr hr'
      exact ⟨by rw [h1, h4], h5⟩
end

/-- A type's text ends by itself, and tells which values are allowed. -/
theorem display_uniq {t t' : ParamType} {r r' : Str} (h : t.display ++ r = t'.display ++ r') (hr : Stops r)
    (hr' : Stops r') : SameType t t' ∧ r = r' := by
  obtain ⟨h1, h2⟩ := join_uniq (display_join t) (display_join t') h hr hr'
  exact ⟨fun v => by rw [inFlats_flat, inFlats_flat, h1], h2⟩

/-! ## Values and names -/

theorem value_full {E : FmtEnv} {v : Value} (h : Legible E v) :
    Full E.U .release false (readBack E .default v) (v.display E) := by
  have hi : Gap false FmtCfg.default.indent := .blank (.inl rfl) (.blank (.inl rfl) .nil)
  have h1 := spell hi _ (readBack_printable (tm := false) v h) false false 0
  have h2 : v.display E = Render.expr E .default false 0 (readBack E .default v) := by
    unfold Value.display
    rw [Fmt.value_eq]
    exact readBack_text v h false 0
  rw [h2]
  exact h1.full

/-- A value's text ends at the backtick behind it, and tells the value. -/
theorem value_uniq {E : FmtEnv} {v v' : Value} (hv : Legible E v) (hv' : Legible E v') {r r' : Str}
    (h : v.display E ++ '`' :: r = v'.display E ++ '`' :: r') : v = v' ∧ r = r' := by
  let m := (v.display E).length + (v'.display E).length + 1
  have run : ∀ {w : Value}, Legible E w → (w.display E).length < m → ∀ r,
      Runs ((parsers ⟨E.U, .release⟩ m).expr false) (w.display E) ('`' :: r)
        fun x => Means E.U .release x (readBack E .default w) := by
    intro w hw hl r
    refine (parsers_good ⟨E.U, .release⟩ m).expr (value_full hw) hl (b := false) nofun ?_
    exact folE_of (g := []) .nil (quiet_calm (by decide)) (.inl (idEnd_cons (by decide)))
  obtain ⟨x, h1, h2⟩ := run hv (by show _ < _ + _ + 1; omega) r 0
  obtain ⟨x', h1', h2'⟩ := run hv' (by show _ < _ + _ + 1; omega) r' 0
  rw [h, h1'] at h1
  injection h1 with h3 h4
  injection h4 with h5 h6
  subst h3
  refine ⟨?_, by injection h6.symm⟩
  rw [← readBack_value v hv, ← readBack_value v' hv',
    ← h2.toHcl E (printable_noTemplate _ (readBack_printable (tm := false) v hv)),
    ← h2'.toHcl E (printable_noTemplate _ (readBack_printable (tm := false) v' hv'))]

theorem ident_no {U : Uni} {x : Str} (h : IsIdentifier U x) {c : Char} (hc : nonId c = true) : c ∉ x := by
  obtain ⟨d, ds, rfl, h1, h2⟩ := h
  have hn := nonId_continue (U := U) hc
  intro hm
  rcases List.mem_cons.1 hm with rfl | hm
  · rcases h1 with h1 | rfl
    · have : isIdContinue U c = true := idRest_iff.2 (.inl (U.start_continue _ h1))
      rw [hn] at this
      cases this
    · exact absurd hc (by decide)
  · have := idRest_iff.2 (h2 c hm)
    rw [hn] at this
    cases this

theorem namespaces_out : ∀ (ns : List Str) (f : Fmt),
    (Fmt.namespaces ns f).out = f.out ++ (ns.map fun n => n ++ c!"::").flatten
  | [], f => by simp [Fmt.namespaces]
  | n :: ns, f => by simp [Fmt.namespaces, namespaces_out ns, Fmt.write]

theorem name_display (f : FuncName) : f.display = (f.namespaces.map fun n => n ++ c!"::").flatten ++ f.name := by
  simp [FuncName.display, Fmt.funcName, Fmt.write, namespaces_out, Fmt.new]

theorem names_uniq {U : Uni} : ∀ {ns ns' : List Str} {x x' r r' : Str}, (∀ n ∈ ns, IsIdentifier U n) →
    IsIdentifier U x → (∀ n ∈ ns', IsIdentifier U n) → IsIdentifier U x' →
    (ns.map fun n => n ++ c!"::").flatten ++ x ++ '`' :: r = (ns'.map fun n => n ++ c!"::").flatten ++ x' ++ '`' :: r' →
    ns = ns' ∧ x = x' ∧ r = r' := by
  have plain : ∀ {x : Str}, IsIdentifier U x → ∀ c ∈ x, (c != ':' && c != '`') = true := by
    intro x hx c hc
    have h1 : c ≠ ':' := fun he => ident_no hx (by decide : nonId ':' = true) (he ▸ hc)
    have h2 : c ≠ '`' := fun he => ident_no hx (by decide : nonId '`' = true) (he ▸ hc)
    simp [h1, h2]
  have stop : ∀ {d : Char} {r : Str}, d = ':' ∨ d = '`' → ∀ c cs, d :: r = c :: cs → (c != ':' && c != '`') = false := by
    intro d r hd c cs h
    injection h with h
    subst h
    rcases hd with rfl | rfl <;> rfl
  intro ns
  induction ns with
  | nil =>
    intro ns' x x' r r' hn hx hn' hx' h
    cases ns' with
    | nil =>
      obtain ⟨h1, h2⟩ := split_uniq (plain hx) (plain hx') (stop (.inr rfl)) (stop (.inr rfl)) (by simpa using h)
      exact ⟨rfl, h1, by injection h2⟩
    | cons m ns' =>
      have := (split_uniq (r' := c!"::" ++ ((ns'.map fun n => n ++ c!"::").flatten ++ x' ++ '`' :: r')) (plain hx)
        (plain (hn' m (by simp))) (stop (.inr rfl)) (stop (.inl rfl)) (by simpa [List.append_assoc] using h)).2
      simp at this
  | cons n ns ih =>
    intro ns' x x' r r' hn hx hn' hx' h
    cases ns' with
    | nil =>
      have := (split_uniq (r := c!"::" ++ ((ns.map fun n => n ++ c!"::").flatten ++ x ++ '`' :: r))
        (plain (hn n (by simp))) (plain hx') (stop (.inl rfl)) (stop (.inr rfl)) (by simpa [List.append_assoc] using h)).2
      simp at this
    | cons m ns' =>
      obtain ⟨h1, h2⟩ := split_uniq (r := c!"::" ++ ((ns.map fun n => n ++ c!"::").flatten ++ x ++ '`' :: r))
        (r' := c!"::" ++ ((ns'.map fun n => n ++ c!"::").flatten ++ x' ++ '`' :: r'))
        (plain (hn n (by simp))) (plain (hn' m (by simp))) (stop (.inl rfl)) (stop (.inl rfl))
        (by simpa [List.append_assoc] using h)
      obtain ⟨h3, h4⟩ := ih (fun k hk => hn k (by simp [hk])) hx (fun k hk => hn' k (by simp [hk])) hx'
        (List.append_cancel_left (as := c!"::") h2)
      exact ⟨by rw [h1, h3], h4⟩

theorem name_uniq {U : Uni} {f f' : FuncName} (hf : NameOk U f) (hf' : NameOk U f') {r r' : Str}
    (h : f.display ++ '`' :: r = f'.display ++ '`' :: r') : f = f' ∧ r = r' := by
  rw [name_display, name_display] at h
  obtain ⟨h1, h2, h3⟩ := names_uniq hf.1 hf.2 hf'.1 hf'.2 h
  cases f
  cases f'
  exact ⟨by rw [FuncName.mk.injEq]; exact ⟨h1, h2⟩, h3⟩

/-! ## Errors -/

/-- What is behind the message of a kind. -/
def Behind (r : Str) : Prop := r = [] ∨ ∃ u, r = c!" in expression `" ++ u

theorem Behind.noDigit {r : Str} (h : Behind r) : NoDigit r := by
  rcases h with rfl | ⟨u, rfl⟩
  · nofun
  · exact noDigit_cons (by decide)

theorem expected_uniq {a b r r' : Str} (ha : '`' ∉ a) (hb : '`' ∉ b) (hr : Behind r) (hr' : Behind r')
    (h : a ++ r = b ++ r') : a = b ∧ r = r' := by
  rcases hr with rfl | ⟨u, rfl⟩ <;> rcases hr' with rfl | ⟨u', rfl⟩
  · exact ⟨by simpa using h, rfl⟩
  · rw [List.append_nil] at h
    exact absurd (by rw [h]; simp) ha
  · rw [List.append_nil] at h
    exact absurd (by rw [← h]; simp) hb
  · have h : (a ++ c!" in expression ") ++ '`' :: u = (b ++ c!" in expression ") ++ '`' :: u' := by
      simpa [List.append_assoc] using h
    obtain ⟨h1, h2⟩ := tick_uniq (by simp [ha]) (by simp [hb]) h
    exact ⟨by simpa using h1, by rw [h2]⟩

theorem unOp_uniq : ∀ {o o' : UnOp} {r r' : Str}, o.asStr ++ '`' :: r = o'.asStr ++ '`' :: r' → o = o' ∧ r = r' := by
  intro o o' r r' h
  cases o <;> cases o' <;> simp [UnOp.asStr] at h <;> exact ⟨rfl, h⟩

theorem binOp_uniq : ∀ {o o' : BinOp} {r r' : Str}, o.asStr ++ '`' :: r = o'.asStr ++ '`' :: r' → o = o' ∧ r = r' := by
  intro o o' r r' h
  cases o <;> cases o' <;> simp [BinOp.asStr] at h <;> exact ⟨rfl, h⟩

theorem stops_got (r : Str) : Stops (c!", got `" ++ r) := by
  rintro sep (rfl | rfl) u h <;> simp at h

theorem typed_uniq {E : FmtEnv} {p p' : Nat} {t t' : ParamType} {v v' : Value} (hv : Legible E v) (hv' : Legible E v')
    {r r' : Str} (h : natStr p ++ (c!" to be of type " ++ (t.display ++ (c!", got `" ++ (v.display E ++ '`' :: r)))) =
      natStr p' ++ (c!" to be of type " ++ (t'.display ++ (c!", got `" ++ (v'.display E ++ '`' :: r'))))) :
    p = p' ∧ SameType t t' ∧ v = v' ∧ r = r' := by
  obtain ⟨h1, h2⟩ := nat_uniq (noDigit_cons (by decide)) (noDigit_cons (by decide)) h
  obtain ⟨h3, h4⟩ := display_uniq (List.append_cancel_left (as := c!" to be of type ") h2) (stops_got _) (stops_got _)
  obtain ⟨h5, h6⟩ := value_uniq hv hv' (List.append_cancel_left h4)
  exact ⟨h1, h3, h5, h6⟩

theorem arity_apart {n : Nat} {c : Char} {r u : Str} (hc : isDigit c = false) (h : natStr n ++ r = c :: u) : False := by
  obtain ⟨d, ds, h1, h2⟩ := natStr_head n
  rw [h1] at h
  injection h with h
  rw [h, hc] at h2
  cases h2

theorem call_uniq {E : FmtEnv} {e e' : CallErr} (he : DefiniteCall E e) (he' : DefiniteCall E e') {r r' : Str}
    (hr : Behind r) (hr' : Behind r') (h : e.display E ++ r = e'.display E ++ r') : SameCall e e' ∧ r = r' := by
  cases e with
  | user => exact he.elim
  | arity p a =>
    cases e' with
    | user => exact he'.elim
    | arity p' a' =>
      have h : natStr p ++ (c!" positional arguments, got " ++ (natStr a ++ r)) =
          natStr p' ++ (c!" positional arguments, got " ++ (natStr a' ++ r')) := by
        simpa [CallErr.display, List.append_assoc] using h
      obtain ⟨rfl, h2⟩ := nat_uniq (noDigit_cons (by decide)) (noDigit_cons (by decide)) h
      obtain ⟨rfl, h4⟩ := nat_uniq hr.noDigit hr'.noDigit
        (List.append_cancel_left (as := c!" positional arguments, got ") h2)
      exact ⟨.arity _ _, h4⟩
    | argType p' t' v' =>
      simp only [CallErr.display, List.append_assoc, List.cons_append, List.nil_append, List.cons.injEq, true_and] at h
      exact (arity_apart (by decide) h).elim
    | varArgType p' t' v' =>
      simp only [CallErr.display, List.append_assoc, List.cons_append, List.nil_append, List.cons.injEq, true_and] at h
      exact (arity_apart (by decide) h).elim
  | argType p t v =>
    cases e' with
    | user => exact he'.elim
    | arity p' a' =>
      simp only [CallErr.display, List.append_assoc, List.cons_append, List.nil_append, List.cons.injEq, true_and] at h
      exact (arity_apart (by decide) h.symm).elim
    | argType p' t' v' =>
      obtain ⟨rfl, h2, rfl, h4⟩ := typed_uniq (r := r) (r' := r') he he' (by
        simpa [CallErr.display, List.append_assoc] using h)
      exact ⟨.argType _ _ h2, h4⟩
    | varArgType p' t' v' => simp [CallErr.display] at h
  | varArgType p t v =>
    cases e' with
    | user => exact he'.elim
    | arity p' a' =>
      simp only [CallErr.display, List.append_assoc, List.cons_append, List.nil_append, List.cons.injEq, true_and] at h
      exact (arity_apart (by decide) h.symm).elim
    | argType p' t' v' => simp [CallErr.display] at h
    | varArgType p' t' v' =>
      obtain ⟨rfl, h2, rfl, h4⟩ := typed_uniq (r := r) (r' := r') he he' (by
        simpa [CallErr.display, List.append_assoc] using h)
      exact ⟨.varArgType _ _ h2, h4⟩

theorem kind_uniq {E : FmtEnv} {k k' : EvalErr} (hk : Definite E k) (hk' : Definite E k') {r r' : Str}
    (hr : Behind r) (hr' : Behind r') (h : k.display E ++ r = k'.display E ++ r') : SameError k k' ∧ r = r' := by
  cases k with
  | message => exact hk.elim
  | undefinedVar x =>
    cases k' with
    | message => exact hk'.elim
    | undefinedVar x' =>
      obtain ⟨rfl, h2⟩ := tick_uniq (ident_no hk (by decide)) (ident_no hk' (by decide))
        (show x ++ '`' :: r = x' ++ '`' :: r' by simpa [EvalErr.display, List.append_assoc] using h)
      exact ⟨.same _, h2⟩
    | _ => simp [EvalErr.display] at h
  | undefinedFunc f =>
    cases k' with
    | message => exact hk'.elim
    | undefinedFunc f' =>
      obtain ⟨rfl, h2⟩ := name_uniq (r := r) (r' := r') hk hk' (by simpa [EvalErr.display, List.append_assoc] using h)
      exact ⟨.same _, h2⟩
    | _ => simp [EvalErr.display] at h
  | unexpected v x =>
    cases k' with
    | message => exact hk'.elim
    | unexpected v' x' =>
      obtain ⟨rfl, h2⟩ := value_uniq (r := c!", expected " ++ (x ++ r)) (r' := c!", expected " ++ (x' ++ r')) hk.1 hk'.1
        (by simpa [EvalErr.display, List.append_assoc] using h)
      obtain ⟨rfl, h4⟩ := expected_uniq hk.2 hk'.2 hr hr' (List.append_cancel_left h2)
      exact ⟨.same _, h4⟩
    | _ => simp [EvalErr.display] at h
  | index i =>
    cases k' with
    | message => exact hk'.elim
    | index i' =>
      obtain ⟨rfl, h2⟩ := nat_uniq hr.noDigit hr'.noDigit
        (show natStr i ++ r = natStr i' ++ r' by simpa [EvalErr.display, List.append_assoc] using h)
      exact ⟨.same _, h2⟩
    | _ => simp [EvalErr.display] at h
  | unaryOp o v =>
    cases k' with
    | message => exact hk'.elim
    | unaryOp o' v' =>
      obtain ⟨rfl, h2⟩ := unOp_uniq (r := c!" is not applicable to `" ++ (v.display E ++ '`' :: r))
        (r' := c!" is not applicable to `" ++ (v'.display E ++ '`' :: r'))
        (by simpa [EvalErr.display, List.append_assoc] using h)
      obtain ⟨rfl, h4⟩ := value_uniq hk hk' (List.append_cancel_left h2)
      exact ⟨.same _, h4⟩
    | _ => simp [EvalErr.display] at h
  | binaryOp l o v =>
    cases k' with
    | message => exact hk'.elim
    | binaryOp l' o' v' =>
      obtain ⟨rfl, h2⟩ := binOp_uniq
        (r := c!" is not applicable to `" ++ (l.display E ++ '`' :: (c!" and `" ++ (v.display E ++ '`' :: r))))
        (r' := c!" is not applicable to `" ++ (l'.display E ++ '`' :: (c!" and `" ++ (v'.display E ++ '`' :: r'))))
        (by simpa [EvalErr.display, List.append_assoc] using h)
      obtain ⟨rfl, h4⟩ := value_uniq hk.1 hk'.1 (List.append_cancel_left h2)
      obtain ⟨rfl, h6⟩ := value_uniq hk.2 hk'.2 (List.append_cancel_left h4)
      exact ⟨.same _, h6⟩
    | _ => simp [EvalErr.display] at h
  | noSuchKey x =>
    cases k' with
    | message => exact hk'.elim
    | noSuchKey x' =>
      obtain ⟨rfl, h2⟩ := tick_uniq hk hk'
        (show x ++ '`' :: r = x' ++ '`' :: r' by simpa [EvalErr.display, List.append_assoc] using h)
      exact ⟨.same _, h2⟩
    | _ => simp [EvalErr.display] at h
  | keyExists x =>
    cases k' with
    | message => exact hk'.elim
    | keyExists x' =>
      obtain ⟨rfl, h2⟩ := tick_uniq hk hk'
        (show x ++ '`' :: (c!" already exists" ++ r) = x' ++ '`' :: (c!" already exists" ++ r') by
          simpa [EvalErr.display, List.append_assoc] using h)
      exact ⟨.same _, List.append_cancel_left h2⟩
    | _ => simp [EvalErr.display] at h
  | funcCall f e =>
    cases k' with
    | message => exact hk'.elim
    | funcCall f' e' =>
      obtain ⟨rfl, h2⟩ := name_uniq (r := c!": " ++ (e.display E ++ r)) (r' := c!": " ++ (e'.display E ++ r')) hk.1 hk'.1
        (by simpa [EvalErr.display, List.append_assoc] using h)
      obtain ⟨h3, h4⟩ := call_uniq hk.2 hk'.2 hr hr' (List.append_cancel_left h2)
      exact ⟨.funcCall _ h3, h4⟩
    | _ => simp [EvalErr.display] at h

/-- Lines that have no line break in them. -/
theorem lines_uniq : ∀ {as bs : List Str}, as.length = bs.length → (∀ a ∈ as, '\n' ∉ a) → (∀ b ∈ bs, '\n' ∉ b) →
    (as.map fun a => c!"- " ++ a ++ c!"\n").flatten = (bs.map fun b => c!"- " ++ b ++ c!"\n").flatten → as = bs
  | [], [], _, _, _, _ => rfl
  | [], _ :: _, h, _, _, _ => by cases h
  | _ :: _, [], h, _, _, _ => by cases h
  | a :: as, b :: bs, hl, ha, hb, h => by
    have h : a ++ '\n' :: (as.map fun a => c!"- " ++ a ++ c!"\n").flatten =
        b ++ '\n' :: (bs.map fun b => c!"- " ++ b ++ c!"\n").flatten := by
      simpa [List.append_assoc] using h
    have := split_uniq (p := fun c => c != '\n')
      (fun c hc => by simpa using fun he : c = '\n' => ha a (by simp) (he ▸ hc))
      (fun c hc => by simpa using fun he : c = '\n' => hb b (by simp) (he ▸ hc))
      (by intro c cs h; injection h with h; subst h; rfl) (by intro c cs h; injection h with h; subst h; rfl) h
    have h' := lines_uniq (by simpa using hl) (fun x hx => ha x (by simp [hx])) (fun x hx => hb x (by simp [hx]))
      (List.cons.inj this.2).2
    rw [this.1, h']

end Verif
