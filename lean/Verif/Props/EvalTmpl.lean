import Verif.Props.EvalFunc
/-! Properties C42 (strip markers) and C43 (template concatenation). -/

namespace Verif
open Verif.Spec

section trim
variable (env : Env)

theorem isSpaceNoNl_iff (ch : Char) : isSpaceNoNl env ch = true ↔ Blank env.uni ch := by
  simp only [isSpaceNoNl, Blank, Bool.and_eq_true, bne_iff_ne, ne_eq]
  constructor
  · rintro ⟨⟨h1, h2⟩, h3⟩; exact ⟨h1, h3, h2⟩
  · rintro ⟨h1, h2, h3⟩; exact ⟨⟨h1, h3⟩, h2⟩

/-- Splitting a list at the first element that fails `p`. -/
theorem dropWhile_unique {α : Type} (p : α → Bool) (a b : List α) (ha : ∀ x ∈ a, p x = true)
    (hb : ∀ x r, b = x :: r → p x = false) : (a ++ b).dropWhile p = b := by
  induction a with
  | nil =>
    cases b with
    | nil => rfl
    | cons x r => rw [List.nil_append, List.dropWhile_cons_of_neg (by simp [hb x r rfl])]
  | cons x a ih =>
    rw [List.cons_append, List.dropWhile_cons_of_pos (ha x (List.mem_cons_self ..))]
    exact ih fun y hy => ha y (List.mem_cons_of_mem _ hy)

theorem dropWhile_split {α : Type} (p : α → Bool) (s : List α) :
    s = s.takeWhile p ++ s.dropWhile p ∧ (∀ x ∈ s.takeWhile p, p x = true) ∧
      ∀ x r, s.dropWhile p = x :: r → p x = false := by
  refine ⟨(List.takeWhile_append_dropWhile).symm, fun x hx => ?_, ?_⟩
  · have := List.all_takeWhile (l := s) (p := p)
    exact List.all_eq_true.1 this x hx
  · intro x r h
    have := List.head?_dropWhile_not p s
    rw [h] at this
    simpa using this

theorem blank_nl : ¬ Blank env.uni '\n' := fun h => h.2.1 rfl
theorem blank_cr : ¬ Blank env.uni '\r' := fun h => h.2.2 rfl

theorem trimStart_iff (s t : Str) : trimStart env s = t ↔ TrimmedStart env.uni s t := by
  have hp : ∀ x, isSpaceNoNl env x = false ↔ ¬ Blank env.uni x := fun x => by
    rw [← isSpaceNoNl_iff]; simp
  constructor
  · rintro rfl
    obtain ⟨h1, h2, h3⟩ := dropWhile_split (isSpaceNoNl env) s
    have hbl : ∀ ch ∈ s.takeWhile (isSpaceNoNl env), Blank env.uni ch :=
      fun ch h => (isSpaceNoNl_iff env ch).1 (h2 ch h)
    unfold trimStart
    generalize s.dropWhile (isSpaceNoNl env) = d at h1 h3
    generalize s.takeWhile (isSpaceNoNl env) = w at h1 hbl
    split
    · rename_i rest
      exact ⟨_, ['\r', '\n'], by rw [h1]; simp, hbl, .inr (.inl rfl)⟩
    · rename_i rest
      exact ⟨_, ['\n'], by rw [h1]; simp, hbl, .inl rfl⟩
    · rename_i hn1 hn2
      refine ⟨_, [], by rw [h1]; simp, hbl, .inr (.inr ⟨rfl, fun ch rest h => ?_, hn1⟩)⟩
      exact ⟨(hp ch).1 (h3 ch rest h), fun hc => hn2 rest (by rw [h, hc])⟩
  · rintro ⟨bl, nl, rfl, hbl, hnl⟩
    have hbl' : ∀ ch ∈ bl, isSpaceNoNl env ch = true := fun ch h => (isSpaceNoNl_iff env ch).2 (hbl ch h)
    unfold trimStart
    rcases hnl with rfl | rfl | ⟨rfl, h1, h2⟩
    · rw [List.append_assoc, dropWhile_unique _ _ _ hbl' (by
        intro x r h; simp only [List.singleton_append] at h; injection h with h _; subst h
        exact (hp _).2 (blank_nl env))]
      rfl
    · rw [List.append_assoc, dropWhile_unique _ _ _ hbl' (by
        intro x r h; simp only [List.cons_append] at h; injection h with h _; subst h
        exact (hp _).2 (blank_cr env))]
      rfl
    · rw [List.append_nil, dropWhile_unique _ _ _ hbl' (fun x r h => (hp x).2 (h1 x r h).1)]
      split
      · rename_i rest; exact absurd rfl (h2 rest)
      · rename_i rest; exact absurd rfl (h1 _ _ rfl).2
      · rfl

theorem trimEnd_iff (s t : Str) : trimEnd env s = t ↔ TrimmedEnd env.uni s t := by
  have hp : ∀ x, isSpaceNoNl env x = false ↔ ¬ Blank env.uni x := fun x => by
    rw [← isSpaceNoNl_iff]; simp
  constructor
  · rintro rfl
    obtain ⟨h1, h2, h3⟩ := dropWhile_split (isSpaceNoNl env) s.reverse
    have hbl : ∀ ch ∈ (s.reverse.takeWhile (isSpaceNoNl env)).reverse, Blank env.uni ch :=
      fun ch h => (isSpaceNoNl_iff env ch).1 (h2 ch (List.mem_reverse.1 h))
    have h1' : s = (s.reverse.dropWhile (isSpaceNoNl env)).reverse ++
        (s.reverse.takeWhile (isSpaceNoNl env)).reverse := by
      rw [← List.reverse_append, ← h1, List.reverse_reverse]
    unfold trimEnd
    clear h1 h2
    generalize s.reverse.dropWhile (isSpaceNoNl env) = d at h1' h3
    generalize s.reverse.takeWhile (isSpaceNoNl env) = w at h1' hbl
    split
    · rename_i rest
      exact ⟨_, ['\r', '\n'], by rw [h1']; simp, hbl, .inl rfl⟩
    · rename_i rest hn
      refine ⟨_, ['\n'], by rw [h1']; simp, hbl, .inr (.inl ⟨rfl, fun init h => ?_⟩)⟩
      have : rest = '\r' :: init.reverse := by
        rw [← List.reverse_reverse rest, h]; simp
      exact hn init.reverse (by rw [this])
    · rename_i hn1 hn2
      refine ⟨_, [], by rw [h1']; simp, hbl, .inr (.inr ⟨rfl, fun ch init h => ?_⟩)⟩
      have hd : d = ch :: init.reverse := by rw [← List.reverse_reverse d, h]; simp
      exact ⟨(hp ch).1 (h3 ch _ hd), fun hc => hn2 init.reverse (by rw [hd, hc])⟩
  · rintro ⟨bl, nl, rfl, hbl, hnl⟩
    have hbl' : ∀ ch ∈ bl.reverse, isSpaceNoNl env ch = true :=
      fun ch h => (isSpaceNoNl_iff env ch).2 (hbl ch (List.mem_reverse.1 h))
    unfold trimEnd
    have hrev : ∀ u : Str, t.reverse = u → t = u.reverse := fun u h => by rw [← h, List.reverse_reverse]
    rcases hnl with rfl | ⟨rfl, h1⟩ | ⟨rfl, h1⟩
    · rw [List.append_assoc, List.reverse_append, List.reverse_append, List.append_assoc,
        dropWhile_unique _ _ _ hbl' (by
          intro x r h; simp only [List.reverse_cons, List.reverse_nil, List.nil_append,
            List.cons_append] at h; injection h with h _; subst h
          exact (hp _).2 (blank_nl env))]
      simp
    · rw [List.append_assoc, List.reverse_append, List.reverse_append, List.append_assoc,
        dropWhile_unique _ _ _ hbl' (by
          intro x r h; simp only [List.reverse_cons, List.reverse_nil, List.nil_append,
            List.cons_append] at h; injection h with h _; subst h
          exact (hp _).2 (blank_nl env))]
      simp only [List.reverse_cons, List.reverse_nil, List.nil_append, List.cons_append]
      split
      · rename_i rest h
        injection h with _ h
        exact absurd (by rw [hrev _ h]; simp) (h1 rest.reverse)
      · rename_i rest hn h
        injection h with _ h
        rw [← h, List.reverse_reverse]
      · rename_i hn1 hn2
        exact absurd rfl (hn2 _)
    · rw [List.append_nil, List.reverse_append, dropWhile_unique _ _ _ hbl' (by
          intro x r h
          exact (hp x).2 (h1 x r.reverse (by rw [hrev _ h]; simp)).1)]
      split
      · rename_i rest h
        exact absurd rfl (h1 '\n' (rest.reverse ++ ['\r']) (by rw [hrev _ h]; simp)).2
      · rename_i rest hn h
        exact absurd rfl (h1 '\n' rest.reverse (by rw [hrev _ h]; simp)).2
      · rw [List.reverse_reverse]

theorem stripLiteral_iff (s t : Str) (prev next : Strip) :
    stripLiteral env s prev next = t ↔ Trimmed env.uni prev.stripEnd next.stripStart s t := by
  unfold stripLiteral Trimmed
  constructor
  · rintro rfl
    refine ⟨if prev.stripEnd then trimStart env s else s, ?_, ?_⟩
    · cases prev.stripEnd
      · rfl
      · exact (trimStart_iff env _ _).1 rfl
    · cases next.stripStart
      · rfl
      · exact (trimEnd_iff env _ _).1 rfl
  · rintro ⟨u, h1, h2⟩
    have hu : (if prev.stripEnd then trimStart env s else s) = u := by
      cases hb : prev.stripEnd
      · rw [hb] at h1; exact h1.symm
      · rw [hb] at h1; exact (trimStart_iff env _ _).2 h1
    simp only [hu]
    cases hb : next.stripStart
    · rw [hb] at h2; exact h2.symm
    · rw [hb] at h2; exact (trimEnd_iff env _ _).2 h2

end trim

/-- The value of an expression, as a relation. -/
def Val (env : Env) (c : Ctx) (e : Expr) (v : Value) : Prop := eval env c e = .ok v

/-- What an element evaluates to is what it renders to. -/
def ElemOk (env : Env) (el : Elem) : Prop := ∀ ctx prev next s,
  evalElem env (evalRec env) ctx prev next el = .ok s ↔
    RendersElem env (Val env) ctx prev.stripEnd el next.stripStart s

theorem R.bind_ok_iff {α β : Type} {a : R α} {f : α → R β} {y : β} :
    R.bind a f = .ok y ↔ ∃ x, a = .ok x ∧ f x = .ok y := by
  cases a with
  | error e => simp [R.bind]
  | ok x => simp [R.bind]

/-- The two neighbours' markers of element `i`. -/
def prevOf (els : List Elem) (prev : Strip) (i : Nat) : Strip :=
  if i = 0 then prev else match els[i - 1]? with
    | some e => e.strip
    | none => .none
def nextOf (els : List Elem) (next : Strip) (i : Nat) : Strip :=
  match els[i + 1]? with
  | some e => e.strip
  | none => next

theorem Strip.ofBools_end (a b : Bool) : (Strip.ofBools a b).stripEnd = b := by
  cases a <;> cases b <;> rfl
theorem Strip.ofBools_start (a b : Bool) : (Strip.ofBools a b).stripStart = a := by
  cases a <;> cases b <;> rfl

theorem prevOf_eq (els : List Elem) (prev : Strip) (i : Nat) :
    (prevOf els prev i).stripEnd = StripBefore els prev.stripEnd i := by
  unfold prevOf StripBefore
  by_cases h : i = 0
  · rw [if_pos h, if_pos h]
  · rw [if_neg h, if_neg h]
    rcases els[i - 1]? with _ | (_ | _ | _ | _)
    · rfl
    · rfl
    · rfl
    · simp only [Elem.strip, Strip.ofBools_end]
    · simp only [Elem.strip, Strip.ofBools_end]

theorem nextOf_eq (els : List Elem) (next : Strip) (i : Nat) :
    (nextOf els next i).stripStart = StripAfter els next.stripStart i := by
  unfold nextOf StripAfter
  rcases els[i + 1]? with _ | (_ | _ | _ | _)
  · rfl
  · rfl
  · rfl
  · simp only [Elem.strip, Strip.ofBools_start]
  · simp only [Elem.strip, Strip.ofBools_start]

theorem evalTmpl_cons' {env : Env} {c : Ctx} (e : Elem) (es : List Elem) (a b : Strip) :
    evalTmpl env c (e :: es) a b =
      R.bind (evalElem env (evalRec env) c a (nextOf (e :: es) b 0) e) fun s =>
        R.bind (evalTmpl env c es e.strip b) fun s' => .ok (s ++ s') := by
  cases es <;> exact evalTmpl_cons _ _ _ _

theorem evalTmpl_ok_iff (env : Env) (ctx : Ctx) (els : List Elem) (prev next : Strip) (s : Str) :
    evalTmpl env ctx els prev next = .ok s ↔
      ∃ texts : List Str, texts.length = els.length ∧ s = texts.flatten ∧
        ∀ (i : Nat) el t, els[i]? = some el → texts[i]? = some t →
          evalElem env (evalRec env) ctx (prevOf els prev i) (nextOf els next i) el = .ok t := by
  induction els generalizing prev s with
  | nil =>
    rw [evalTmpl_nil]
    constructor
    · intro h; injection h with h; exact ⟨[], rfl, h.symm, by simp⟩
    · rintro ⟨texts, h1, h2, _⟩
      cases texts with
      | nil => rw [h2]; rfl
      | cons a l => simp at h1
  | cons e es ih =>
    rw [evalTmpl_cons', R.bind_ok_iff]
    have hshift : ∀ i, nextOf (e :: es) next (i + 1) = nextOf es next i := fun i => by
      simp [nextOf]
    have hpshift : ∀ i, prevOf (e :: es) prev (i + 1) = prevOf es e.strip i := fun i => by
      cases i <;> simp [prevOf]
    constructor
    · rintro ⟨t, h1, h2⟩
      rw [R.bind_ok_iff] at h2
      obtain ⟨s', h2, h3⟩ := h2
      injection h3 with h3
      obtain ⟨texts, h4, h5, h6⟩ := (ih e.strip s').1 h2
      refine ⟨t :: texts, by simp [h4], by rw [← h3, h5]; rfl, ?_⟩
      intro i el u hel hu
      cases i with
      | zero =>
        simp only [List.length_cons, List.getElem?_cons_zero, Option.some.injEq] at hel hu
        subst hel hu
        exact h1
      | succ i =>
        simp only [List.getElem?_cons_succ] at hel hu
        rw [hshift, hpshift]
        exact h6 i el u hel hu
    · rintro ⟨texts, h1, h2, h3⟩
      cases texts with
      | nil => simp at h1
      | cons t texts =>
        refine ⟨t, ?_, ?_⟩
        · exact h3 0 e t rfl rfl
        · rw [R.bind_ok_iff]
          refine ⟨texts.flatten, (ih e.strip _).2 ⟨texts, by simpa using h1, rfl, ?_⟩, ?_⟩
          · intro i el u hel hu
            have := h3 (i + 1) el u (by simpa using hel) (by simpa using hu)
            rw [hshift, hpshift] at this
            exact this
          · rw [h2]; rfl

theorem renders_iff_of (env : Env) (els : List Elem) (h : ∀ el ∈ els, ElemOk env el) (ctx : Ctx)
    (prev next : Strip) (s : Str) :
    evalTmpl env ctx els prev next = .ok s ↔
      Renders env (Val env) ctx prev.stripEnd els next.stripStart s := by
  rw [evalTmpl_ok_iff]
  constructor
  · rintro ⟨texts, h1, rfl, h2⟩
    refine .mk texts h1 fun i el t hel ht => ?_
    rw [← prevOf_eq, ← nextOf_eq]
    exact (h el (List.mem_of_getElem? hel) _ _ _ _).1 (h2 i el t hel ht)
  · rintro ⟨texts, h1, h2⟩
    refine ⟨texts, h1, rfl, fun i el t hel ht => ?_⟩
    have := h2 i el t hel ht
    rw [← prevOf_eq, ← nextOf_eq] at this
    exact (h el (List.mem_of_getElem? hel) _ _ _ _).2 this

theorem evalBool_ok_iff {env : Env} {ctx : Ctx} {c : Expr} {b : Bool} :
    evalBool (evalRec env) ctx c = .ok b ↔ Val env ctx c (.bool b) := by
  show R.bind (eval env ctx c) _ = _ ↔ eval env ctx c = _
  rw [R.bind_ok_iff]
  constructor
  · rintro ⟨v, h1, h2⟩
    cases v with
    | bool b' => injection h2 with h2; subst h2; exact h1
    | _ => simp [R.err] at h2
  · intro h; exact ⟨_, h, rfl⟩

theorem evalCollection_ok_iff {env : Env} {ctx : Ctx} {c : Expr} {ps : List (Value × Value)} :
    evalCollection (evalRec env) ctx c = .ok ps ↔
      ∃ cv, Val env ctx c cv ∧ Elements cv = some ps := by
  constructor
  · intro h
    have h' : R.bind (eval env ctx c) _ = .ok ps := h
    rw [R.bind_ok_iff] at h'
    obtain ⟨v, h1, h2⟩ := h'
    refine ⟨v, h1, ?_⟩
    cases v with
    | array xs => injection h2 with h2; rw [← h2, enumPairs_eq]; rfl
    | object es => injection h2 with h2; rw [← h2]; rfl
    | _ => simp [R.err] at h2
  · rintro ⟨cv, h1, h2⟩
    exact evalCollection_elements h1 h2

theorem forDirective_ok_iff {env : Env} {ctx : Ctx} {k : Option Str} {x : Str} {t : List Elem}
    {a z : Strip} {ps : List (Value × Value)} {s : Str} :
    forDirective (evalRec env) ctx k x t a z ps = .ok s ↔
      ∃ ss : List Str, ss.length = ps.length ∧ s = ss.flatten ∧
        ∀ (i : Nat) p u, ps[i]? = some p → ss[i]? = some u →
          evalTmpl env (iterCtx ctx k x p) t a z = .ok u := by
  induction ps generalizing s with
  | nil =>
    simp only [forDirective]
    constructor
    · intro h; injection h with h; exact ⟨[], rfl, h.symm, by simp⟩
    · rintro ⟨ss, h1, h2, _⟩
      cases ss with
      | nil => rw [h2]; rfl
      | cons a l => simp at h1
  | cons p ps ih =>
    simp only [forDirective, R.bind_ok_iff]
    constructor
    · rintro ⟨u, h1, s', h2, h3⟩
      injection h3 with h3
      obtain ⟨ss, h4, h5, h6⟩ := ih.1 h2
      refine ⟨u :: ss, by simp [h4], by rw [← h3, h5]; rfl, ?_⟩
      intro i q w hq hw
      cases i with
      | zero =>
        simp only [List.getElem?_cons_zero, Option.some.injEq] at hq hw
        subst hq hw; exact h1
      | succ i => exact h6 i q w (by simpa using hq) (by simpa using hw)
    · rintro ⟨ss, h1, h2, h3⟩
      cases ss with
      | nil => simp at h1
      | cons u ss =>
        refine ⟨u, h3 0 p u rfl rfl, ss.flatten, ih.2 ⟨ss, by simpa using h1, rfl, ?_⟩, ?_⟩
        · intro i q w hq hw
          exact h3 (i + 1) q w (by simpa using hq) (by simpa using hw)
        · rw [h2]; rfl

mutual
theorem elemOk (env : Env) : ∀ el : Elem, ElemOk env el
  | .lit s => fun ctx prev next t => by
    simp only [evalElem, Except.ok.injEq, stripLiteral_iff]
    constructor
    · exact .lit
    · intro h; cases h with | lit h => exact h
  | .interp e m => fun ctx prev next t => by
    show R.bind (eval env ctx e) _ = _ ↔ _
    rw [R.bind_ok_iff]
    constructor
    · rintro ⟨v, h1, h2⟩
      injection h2 with h2
      subst h2
      cases v with
      | string s => exact .interpStr h1
      | _ => exact .interp h1 (by simp)
    · intro h
      cases h with
      | interpStr h => exact ⟨_, h, rfl⟩
      | @interp _ _ _ _ _ v h hn =>
        refine ⟨v, h, ?_⟩
        cases v with
        | string s => exact absurd rfl (hn s)
        | _ => rfl
  | .ifDir c t f a b z => fun ctx prev next s => by
    simp only [evalElem, R.bind_ok_iff, evalBool_ok_iff]
    have ht := renders_iff_of env t (elemsOk env t) ctx
    constructor
    · rintro ⟨bv, h1, h2⟩
      cases bv with
      | true =>
        simp only [if_true] at h2
        cases f with
        | none => exact .ifTrue h1 ((ht _ _ _).1 h2)
        | some f => exact .ifTrueElse h1 ((ht _ _ _).1 h2)
      | false =>
        simp only [Bool.false_eq_true, if_false] at h2
        cases f with
        | none => injection h2 with h2; subst h2; exact .ifFalse h1
        | some f =>
          exact .ifFalseElse h1 ((renders_iff_of env f (elemsOk env f) ctx _ _ _).1 h2)
    · intro h
      cases h with
      | ifTrue h1 h2 => exact ⟨true, h1, (ht _ _ _).2 h2⟩
      | ifTrueElse h1 h2 => exact ⟨true, h1, (ht _ _ _).2 h2⟩
      | ifFalse h1 => exact ⟨false, h1, rfl⟩
      | @ifFalseElse _ _ _ _ _ f _ _ _ _ h1 h2 =>
        exact ⟨false, h1, (renders_iff_of env f (elemsOk env f) ctx _ _ _).2 h2⟩
  | .forDir k x coll t a z => fun ctx prev next s => by
    simp only [evalElem, R.bind_ok_iff, evalCollection_ok_iff, forDirective_ok_iff]
    have ht := fun c => renders_iff_of env t (elemsOk env t) c
    constructor
    · rintro ⟨ps, ⟨cv, h1, h2⟩, ss, h3, rfl, h4⟩
      refine .forDir ss (fun i => match ps[i]? with
        | some p => iterCtx ctx k x p
        | none => ctx) h1 h2 h3 (fun i p hp => ?_) (fun i u hu => ?_)
      · simp only [hp]; exact iterCtx_scope ctx k x p
      · have hi : i < ps.length := by
          rw [← h3]; exact (List.getElem?_eq_some_iff.1 hu).1
        have hp : ps[i]? = some ps[i] := List.getElem?_eq_getElem hi
        simp only [hp]
        exact (ht _ _ _ _).1 (h4 i _ u hp hu)
    · intro h
      cases h with
      | @forDir _ _ _ _ _ _ _ _ _ cv ps ss scope h1 h2 h3 h4 h5 =>
        refine ⟨ps, ⟨cv, h1, h2⟩, ss, h3, rfl, fun i p u hp hu => ?_⟩
        have := (ht (scope i) a z u).2 (h5 i u hu)
        rw [← this]
        exact evalTmpl_same (IterScope.same (iterCtx_scope ctx k x p) (h4 i p hp)) t a z
theorem elemsOk (env : Env) : ∀ els : List Elem, ∀ el ∈ els, ElemOk env el
  | [], _, h => by cases h
  | e :: es, el, h => by
    rcases List.mem_cons.1 h with h | h
    · rw [h]; exact elemOk env e
    · exact elemsOk env es el h
end

/-- The string form of an interpolated value. -/
def Shown (env : Env) (v : Value) : Str :=
  match v with
  | .string s => s
  | v => env.showValue v

/-- An interpolation or a literal without strip markers, and its text. -/
inductive Part (env : Env) (ctx : Ctx) : Elem → Str → Prop
  | lit (s) : Part env ctx (.lit s) s
  | interp (e v) : eval env ctx e = .ok v → Part env ctx (.interp e .none) (Shown env v)

namespace Props

/-- C42: a template evaluates to `s` iff it renders to `s` according to the specification
`Spec.Renders`: every literal is trimmed on a side iff the marker directly adjacent on that side
has a `~` facing it, by exactly the blanks up to and including at most one line break. `prev` and
`next` are the markers around the whole template. -/
theorem C42_strip_markers (env : Env) (ctx : Ctx) (els : List Elem) (prev next : Strip) (s : Str) :
    evalTmpl env ctx els prev next = .ok s ↔
      Renders env (fun c e v => eval env c e = .ok v) ctx prev.stripEnd els next.stripStart s :=
  renders_iff_of env els (elemsOk env els) ctx prev next s

/-- C42: the specification of trimming determines the result, so `C42_strip_markers` leaves no
choice. -/
theorem C42_trim_unique (uni : Uni) (before after : Bool) (s t t' : Str)
    (h : Trimmed uni before after s t) (h' : Trimmed uni before after s t') : t = t' := by
  let env : Env := ⟨.release, uni, fun _ => .ok [], fun _ => [], fun _ => []⟩
  let p : Strip := if before then .end else .none
  let n : Strip := if after then .start else .none
  have hp : p.stripEnd = before := by cases before <;> rfl
  have hn : n.stripStart = after := by cases after <;> rfl
  have h1 := (stripLiteral_iff env s t p n).2 (by rw [hp, hn]; exact h)
  have h2 := (stripLiteral_iff env s t' p n).2 (by rw [hp, hn]; exact h')
  rw [← h1, h2]

/-- C42: every literal can be trimmed. -/
theorem C42_trim_exists (uni : Uni) (before after : Bool) (s : Str) :
    ∃ t, Trimmed uni before after s t := by
  let env : Env := ⟨.release, uni, fun _ => .ok [], fun _ => [], fun _ => []⟩
  let p : Strip := if before then .end else .none
  let n : Strip := if after then .start else .none
  have hp : p.stripEnd = before := by cases before <;> rfl
  have hn : n.stripStart = after := by cases after <;> rfl
  have := (stripLiteral_iff env s _ p n).1 rfl
  rw [hp, hn] at this
  exact ⟨_, this⟩

/-- C43: a template of literals and interpolations without strip markers evaluates to the
concatenation of the literals and the string forms of the interpolated values, in order. -/
theorem C43_concatenation (env : Env) (ctx : Ctx) (els : List Elem) (texts : List Str)
    (h : List.Forall₂ (Part env ctx) els texts) :
    evalTmpl env ctx els .none .none = .ok texts.flatten := by
  induction h with
  | nil => exact evalTmpl_nil _ _
  | @cons e t es ts h1 h2 ih =>
    rw [evalTmpl_cons']
    have hs : e.strip = .none := by cases h1 <;> rfl
    have hn : nextOf (e :: es) .none 0 = .none := by
      cases h2 with
      | nil => rfl
      | cons h _ => cases h <;> rfl
    rw [hn, hs, ih]
    cases h1 with
    | lit s => rfl
    | interp e v hv =>
      have hv' : (evalRec env).expr ctx e = .ok v := hv
      simp only [evalElem, hv', R.bind]
      cases v <;> rfl

/-- C43: a template expression evaluates to the string its template evaluates to. -/
theorem C43_template_expr (env : Env) (ctx : Ctx) (t : TmplExpr) (els : List Elem)
    (h : env.parseTemplate t.asStr = .ok els) (hn : ∀ e s, els ≠ [.interp e s]) (s : Str) :
    eval env ctx (.template t) = .ok (.string s) ↔ evalTmpl env ctx els .none .none = .ok s := by
  have : eval env ctx (.template t) =
      R.bind (evalTmpl env ctx els .none .none) fun s => .ok (.string s) := by
    rw [eval_template, h]
    split
    · rename_i h; cases h
    · rename_i h; injection h with h; exact absurd h (hn _ _)
    · rename_i h; injection h with h; rw [h]
  rw [this, R.bind_ok_iff]
  constructor
  · rintro ⟨x, h1, h2⟩
    injection h2 with h2; injection h2 with h2; subst h2; exact h1
  · intro h; exact ⟨s, h, rfl⟩

/-- C43: a template that is a single interpolation evaluates to the interpolated value itself,
whatever its type. -/
theorem C43_unwrap (env : Env) (ctx : Ctx) (t : TmplExpr) (e : Expr) (s : Strip)
    (h : env.parseTemplate t.asStr = .ok [.interp e s]) :
    eval env ctx (.template t) = eval env ctx e := by
  rw [eval_template, h]

/-- C43: a failing part makes the template fail with that failure. -/
theorem C43_fails (env : Env) (ctx : Ctx) (pre : List Elem) (texts : List Str) (e : Expr)
    (post : List Elem) (f : Fail) (h : List.Forall₂ (Part env ctx) pre texts)
    (he : eval env ctx e = .error f) (m next : Strip) :
    evalTmpl env ctx (pre ++ .interp e m :: post) .none next = .error f := by
  have he' : (evalRec env).expr ctx e = .error f := he
  have key : ∀ prev, evalTmpl env ctx (pre ++ .interp e m :: post) prev next = .error f := by
    induction h with
    | nil =>
      intro prev
      rw [List.nil_append, evalTmpl_cons]
      simp only [evalElem, he', R.bind]
    | cons h1 _ ih =>
      intro prev
      rw [List.cons_append, evalTmpl_cons, ih]
      cases h1 with
      | lit s => rfl
      | interp e v hv =>
        have hv' : (evalRec env).expr ctx e = .ok v := hv
        simp only [evalElem, hv', R.bind]
  exact key _

/-! Concrete cases. -/

-- `"a \n  b"`-like literals
instance (uni : Uni) (ch : Char) : Decidable (Blank uni ch) := by unfold Blank; infer_instance

example : TrimmedStart Uni.ascii c!" \t\n x" c!" x" :=
  ⟨c!" \t", c!"\n", rfl, by decide, .inl rfl⟩
example : TrimmedStart Uni.ascii c!"  x" c!"x" :=
  ⟨c!"  ", [], rfl, by decide, .inr (.inr ⟨rfl, by
    intro ch rest h; injection h with h _; subst h; decide, by
    intro rest h; injection h with h; revert h; decide⟩)⟩
example : TrimmedEnd Uni.ascii c!"x\r\n  " c!"x" := ⟨c!"  ", c!"\r\n", rfl, by decide, .inl rfl⟩

-- `a ${~ true ~}\n b`: only the adjacent line is trimmed
example : evalTmpl exEnv Ctx.new [.lit c!"a ", .interp (.string c!"v") .both, .lit c!"\n b"] .none .none =
    .ok c!"av b" := evalTmpl_of_evalF 3 rfl (by simp)
example : evalTmpl exEnv Ctx.new [.lit c!"a ", .interp (.string c!"v") .end, .lit c!"\n b"] .none .none =
    .ok c!"a v b" := evalTmpl_of_evalF 3 rfl (by simp)
example : List.Forall₂ (Part exEnv Ctx.new) [.lit c!"a", .interp (.string c!"v") .none]
    [c!"a", c!"v"] := .cons (.lit _) (.cons (.interp _ _ (eval_string _)) .nil)

end Props
end Verif
