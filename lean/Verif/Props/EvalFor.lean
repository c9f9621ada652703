import Verif.Props.EvalOps
/-! Property C37: `for` expressions are map/filter/group. -/

namespace Verif
open Verif.Spec

theorem iterCtx_scope (ctx : Ctx) (k : Option Str) (x : Str) (p : Value × Value) :
    IterScope ctx k x p (iterCtx ctx k x p) := by
  refine ⟨fun y => ?_, fun f => iterCtx_func ctx k x p f⟩
  rw [iterCtx_var]
  by_cases h : x = y
  · subst h; simp
  · have h' : ¬ y = x := fun h' => h h'.symm
    simp only [h, h', if_false]

/-- All scopes of an iteration are alike. -/
theorem IterScope.same {ctx : Ctx} {k : Option Str} {x : Str} {p : Value × Value} {c d : Ctx}
    (h : IterScope ctx k x p c) (h' : IterScope ctx k x p d) : SameLookups c d :=
  ⟨fun y => by rw [h.1, h'.1], fun f => by rw [h.2, h'.2]⟩

theorem enumPairs_eq (n : Nat) (xs : List Value) :
    enumPairs n xs = (xs.zipIdx n).map fun p => (.number (.posInt p.2), p.1) := by
  induction xs generalizing n with
  | nil => rfl
  | cons x xs ih => simp [enumPairs, List.zipIdx_cons, ih]

theorem evalCollection_elements {env : Env} {ctx : Ctx} {coll : Expr} {cv : Value}
    {ps : List (Value × Value)} (h : eval env ctx coll = .ok cv) (hp : Elements cv = some ps) :
    evalCollection (evalRec env) ctx coll = .ok ps := by
  show R.bind (eval env ctx coll) _ = _
  rw [h]
  cases cv <;> simp only [Elements, Option.some.injEq, reduceCtorEq] at hp
  · subst hp; simp only [R.bind, enumPairs_eq]
  · subst hp; rfl

/-- The condition of the iteration has the value `b` (a missing condition is true). -/
def CondIs (env : Env) (d : Ctx) (ce : Option Expr) (b : Bool) : Prop :=
  match ce with
  | none => b = true
  | some e => eval env d e = .ok (.bool b)

theorem iterCond_of {env : Env} {d : Ctx} {ce : Option Expr} {b : Bool} (h : CondIs env d ce b) :
    iterCond (evalRec env) d ce = .ok b := by
  cases ce with
  | none => simp only [CondIs] at h; subst h; rfl
  | some e =>
    show R.bind (eval env d e) _ = _
    have : eval env d e = .ok (.bool b) := h
    rw [this]; rfl

/-- What iteration `p` must do for the `for` to get past it: its condition is `keep p`, and if it
passes, the value expression yields `img p`. -/
def IterOk (env : Env) (ctx : Ctx) (k : Option Str) (x : Str) (ce : Option Expr) (ve : Expr)
    (keep : Value × Value → Bool) (img : Value × Value → Value) (p : Value × Value) : Prop :=
  ∀ d, IterScope ctx k x p d →
    CondIs env d ce (keep p) ∧ (keep p = true → eval env d ve = .ok (img p))

/-- The same with a key expression yielding `key p`. -/
def IterKeyOk (env : Env) (ctx : Ctx) (k : Option Str) (x : Str) (ce : Option Expr) (ke : Expr)
    (keep : Value × Value → Bool) (key : Value × Value → Str) (p : Value × Value) : Prop :=
  ∀ d, IterScope ctx k x p d → CondIs env d ce (keep p) ∧
    (keep p = true → ∃ kv, eval env d ke = .ok kv ∧ KeyText env kv (key p))

theorem forArray_append {env : Env} {ctx : Ctx} {k : Option Str} {x : Str} {ce : Option Expr}
    {ve : Expr} {keep : Value × Value → Bool} {img : Value × Value → Value}
    (ps rest : List (Value × Value)) (h : ∀ p ∈ ps, IterOk env ctx k x ce ve keep img p) :
    forArray (evalRec env) ctx k x ce ve (ps ++ rest) =
      R.bind (forArray (evalRec env) ctx k x ce ve rest) fun vs =>
        .ok ((ps.filter keep).map img ++ vs) := by
  induction ps with
  | nil =>
    simp only [List.nil_append, List.filter_nil, List.map_nil]
    cases forArray (evalRec env) ctx k x ce ve rest <;> rfl
  | cons p ps ih =>
    have hp := h p (List.mem_cons_self ..) _ (iterCtx_scope ctx k x p)
    have ih := ih fun q hq => h q (List.mem_cons_of_mem _ hq)
    simp only [List.cons_append, forArray, iterCond_of hp.1, R.bind]
    cases hk : keep p with
    | false => simp only [Bool.false_eq_true, if_false, ih, List.filter_cons, hk]; rfl
    | true =>
      have hv : (evalRec env).expr (iterCtx ctx k x p) ve = .ok (img p) := hp.2 hk
      simp only [if_true, hv, ih, List.filter_cons, hk, List.map_cons, List.cons_append]
      cases forArray (evalRec env) ctx k x ce ve rest <;> rfl

theorem evalObjectKey_of {env : Env} {d : Ctx} {ke : Expr} {kv : Value} {s : Str}
    (h : eval env d ke = .ok kv) (hk : KeyText env kv s) :
    evalObjectKey env (evalRec env) d ke = .ok s := by
  show R.bind (eval env d ke) _ = _
  rw [h]
  rcases hk with h | ⟨h, h'⟩ | ⟨h, h'⟩ | ⟨n, h, h'⟩
  · subst h; rfl
  · subst h h'; rfl
  · subst h h'; rfl
  · subst h h'; rfl

/-- The insertions of an object `for`. -/
def forInserts (grouping : Bool) : List (Str × Value) → List (Str × Value) → R (List (Str × Value))
  | [], m => .ok m
  | e :: es, m =>
    R.bind (if grouping then groupPush e.1 e.2 m else uniqueInsert e.1 e.2 m) fun m' =>
      forInserts grouping es m'

theorem forObject_append {env : Env} {ctx : Ctx} {k : Option Str} {x : Str} {ce : Option Expr}
    {ke ve : Expr} {g : Bool} {keep : Value × Value → Bool} {img : Value × Value → Value}
    {key : Value × Value → Str} (ps rest : List (Value × Value)) (m : List (Str × Value))
    (h : ∀ p ∈ ps, IterOk env ctx k x ce ve keep img p)
    (hk : ∀ p ∈ ps, IterKeyOk env ctx k x ce ke keep key p) :
    forObject env (evalRec env) ctx k x ce ke ve g (ps ++ rest) m =
      R.bind (forInserts g ((ps.filter keep).map fun p => (key p, img p)) m) fun m' =>
        forObject env (evalRec env) ctx k x ce ke ve g rest m' := by
  induction ps generalizing m with
  | nil => rfl
  | cons p ps ih =>
    have hp := h p (List.mem_cons_self ..) _ (iterCtx_scope ctx k x p)
    have hp' := hk p (List.mem_cons_self ..) _ (iterCtx_scope ctx k x p)
    have ih := fun m => ih m (fun q hq => h q (List.mem_cons_of_mem _ hq))
      (fun q hq => hk q (List.mem_cons_of_mem _ hq))
    simp only [List.cons_append, forObject, iterCond_of hp.1, R.bind]
    cases hkp : keep p with
    | false => simp only [Bool.false_eq_true, if_false, ih, List.filter_cons, hkp]; rfl
    | true =>
      have hv : (evalRec env).expr (iterCtx ctx k x p) ve = .ok (img p) := hp.2 hkp
      obtain ⟨kv, hkv, hkt⟩ := hp'.2 hkp
      simp only [if_true, hv, evalObjectKey_of hkv hkt, ih, List.filter_cons, hkp, List.map_cons,
        forInserts]
      cases (if g = true then groupPush (key p) (img p) m else uniqueInsert (key p) (img p) m) <;> rfl

theorem Map.insert_new {V : Type} {k : Str} {v : V} {m : List (Str × V)}
    (h : Map.get? k m = none) : Map.insert k v m = m ++ [(k, v)] := by
  induction m with
  | nil => rfl
  | cons p m ih =>
    obtain ⟨a, b⟩ := p
    simp only [Map.get?] at h
    by_cases ha : a = k
    · rw [if_pos ha] at h; cases h
    · rw [if_neg ha] at h
      simp only [Map.insert, if_neg ha, ih h, List.cons_append]

theorem Map.get?_none_iff {V : Type} (k : Str) (m : List (Str × V)) :
    Map.get? k m = none ↔ k ∉ m.map Prod.fst := by
  rw [← Map.get?_isSome_iff]
  cases Map.get? k m <;> simp

theorem forInserts_unique (es m : List (Str × Value)) (h : ((m ++ es).map Prod.fst).Nodup) :
    forInserts false es m = .ok (m ++ es) := by
  induction es generalizing m with
  | nil => simp [forInserts]
  | cons e es ih =>
    have hn : Map.get? e.1 m = none := by
      rw [Map.get?_none_iff]
      intro hm
      rw [List.map_append, List.nodup_append] at h
      exact h.2.2 _ hm _ (List.mem_map_of_mem (List.mem_cons_self ..)) rfl
    simp only [forInserts, Bool.false_eq_true, if_false, uniqueInsert, hn, R.bind]
    rw [Map.insert_new hn, ih]
    · simp
    · simpa using h

theorem Map.keys_insert_old {V : Type} {k : Str} {v w : V} {m : List (Str × V)}
    (h : Map.get? k m = some w) : (Map.insert k v m).map Prod.fst = m.map Prod.fst := by
  induction m with
  | nil => cases h
  | cons p m ih =>
    obtain ⟨a, b⟩ := p
    simp only [Map.get?] at h
    by_cases ha : a = k
    · simp [Map.insert, if_pos ha]
    · rw [if_neg ha] at h
      simp [Map.insert, if_neg ha, ih h]

/-- The entries of a grouped result after the passing elements `es`. -/
theorem forInserts_group (es m : List (Str × Value))
    (hm : ∀ k w, Map.get? k m = some w → ∃ vs, w = .array vs) :
    ∃ m', forInserts true es m = .ok m' ∧
      (∀ k, Map.get? k m' =
        match Map.get? k m with
        | some (.array vs) => some (.array (vs ++ (es.filter (fun e => e.1 = k)).map Prod.snd))
        | _ => if k ∈ es.map Prod.fst then
            some (.array ((es.filter (fun e => e.1 = k)).map Prod.snd)) else none) ∧
      m'.map Prod.fst = m.map Prod.fst ++
        ((es.map Prod.fst).filter fun k => k ∉ m.map Prod.fst).eraseDups := by
  induction es generalizing m with
  | nil =>
    refine ⟨m, rfl, fun k => ?_, by simp⟩
    cases hk : Map.get? k m with
    | none => simp
    | some w => obtain ⟨vs, rfl⟩ := hm k w hk; simp
  | cons e es ih =>
    obtain ⟨key, v⟩ := e
    simp only [forInserts, if_true, groupPush]
    cases hk : Map.get? key m with
    | none =>
      simp only [R.bind]
      obtain ⟨m', h1, h2, h3⟩ := ih (Map.insert key (.array [v]) m) (by
        intro k w hw
        rw [Map.get?_insert] at hw
        by_cases h : key = k
        · rw [if_pos h] at hw; cases hw; exact ⟨_, rfl⟩
        · rw [if_neg h] at hw; exact hm k w hw)
      refine ⟨m', h1, fun k => ?_, ?_⟩
      · rw [h2, Map.get?_insert]
        by_cases h : key = k
        · subst h; simp [hk]
        · have h' : ¬ k = key := fun h' => h h'.symm
          rw [if_neg h]
          have hmem : k ∈ List.map Prod.fst ((key, v) :: es) ↔ k ∈ List.map Prod.fst es := by
            simp [h']
          have hfil : List.filter (fun e => decide (e.1 = k)) ((key, v) :: es) =
              List.filter (fun e => decide (e.1 = k)) es := by
            rw [List.filter_cons_of_neg (by simpa using h)]
          simp only [hmem, hfil]
      · rw [h3, Map.insert_new hk]
        have hnot : key ∉ m.map Prod.fst := (Map.get?_none_iff key m).1 hk
        simp only [List.map_append, List.map_cons, List.map_nil, List.append_assoc, List.mem_append,
          List.mem_singleton, List.singleton_append]
        rw [List.filter_cons_of_pos (by simpa using hnot), List.eraseDups_cons, List.filter_filter]
        congr 4
        funext k
        simp only [not_or, Bool.decide_and, decide_not, Bool.and_comm]
        congr 2
        exact (beq_eq_decide ..).symm
    | some w =>
      obtain ⟨vs, rfl⟩ := hm key w hk
      simp only [R.bind]
      obtain ⟨m', h1, h2, h3⟩ := ih (Map.insert key (.array (vs ++ [v])) m) (by
        intro k w hw
        rw [Map.get?_insert] at hw
        by_cases h : key = k
        · rw [if_pos h] at hw; cases hw; exact ⟨_, rfl⟩
        · rw [if_neg h] at hw; exact hm k w hw)
      refine ⟨m', h1, fun k => ?_, ?_⟩
      · rw [h2, Map.get?_insert]
        by_cases h : key = k
        · subst h; simp [hk]
        · have h' : ¬ k = key := fun h' => h h'.symm
          rw [if_neg h]
          have hmem : k ∈ List.map Prod.fst ((key, v) :: es) ↔ k ∈ List.map Prod.fst es := by
            simp [h']
          have hfil : List.filter (fun e => decide (e.1 = k)) ((key, v) :: es) =
              List.filter (fun e => decide (e.1 = k)) es := by
            rw [List.filter_cons_of_neg (by simpa using h)]
          simp only [hmem, hfil]
      · rw [h3, Map.keys_insert_old hk]
        have hin : key ∈ m.map Prod.fst := (Map.get?_isSome_iff key m).1 (by rw [hk]; rfl)
        simp only [List.map_cons]
        rw [List.filter_cons_of_neg (by simpa using hin)]

namespace Props

/-- C37: an array `for` yields the images of the elements that pass, in order. -/
theorem C37_array (env : Env) (ctx : Ctx) (k : Option Str) (x : Str) (coll ve : Expr) (g : Bool)
    (ce : Option Expr) (cv : Value) (ps : List (Value × Value)) (keep : Value × Value → Bool)
    (img : Value × Value → Value) (hc : eval env ctx coll = .ok cv) (hp : Elements cv = some ps)
    (h : ∀ p ∈ ps, IterOk env ctx k x ce ve keep img p) :
    eval env ctx (.forE k x coll none ve g ce) = .ok (.array ((ps.filter keep).map img)) := by
  have := forArray_append ps [] h
  rw [List.append_nil] at this
  rw [eval_for, evalFor, evalCollection_elements hc hp]
  simp only [R.bind, this, forArray, List.append_nil]

/-- C37: the first element whose condition or value fails makes the whole `for` fail with that
failure (`e`), for array results. -/
theorem C37_array_error (env : Env) (ctx : Ctx) (k : Option Str) (x : Str) (coll ve : Expr)
    (g : Bool) (ce : Option Expr) (cv : Value) (pre : List (Value × Value)) (p : Value × Value)
    (post : List (Value × Value)) (keep : Value × Value → Bool)
    (img : Value × Value → Value) (e : Fail) (hc : eval env ctx coll = .ok cv)
    (hp : Elements cv = some (pre ++ p :: post))
    (h : ∀ q ∈ pre, IterOk env ctx k x ce ve keep img q)
    (hbad : ∀ d, IterScope ctx k x p d →
      (∃ c, ce = some c ∧ eval env d c = .error e) ∨
      (∃ c v, ce = some c ∧ eval env d c = .ok v ∧ (∀ b, v ≠ .bool b) ∧
        e = .err (.unexpected v c!"a boolean")) ∨
      (CondIs env d ce true ∧ eval env d ve = .error e)) :
    eval env ctx (.forE k x coll none ve g ce) = .error e := by
  rw [eval_for, evalFor, evalCollection_elements hc hp]
  simp only [R.bind, forArray_append pre (p :: post) h]
  have : forArray (evalRec env) ctx k x ce ve (p :: post) = .error e := by
    clear h
    simp only [forArray]
    rcases hbad _ (iterCtx_scope ctx k x p) with ⟨c, rfl, h⟩ | ⟨c, v, rfl, h, hv, rfl⟩ | ⟨h, h'⟩
    · have : (evalRec env).expr (iterCtx ctx k x p) c = .error e := h
      simp only [iterCond, evalBool, this, R.bind]
    · have : (evalRec env).expr (iterCtx ctx k x p) c = .ok v := h
      simp only [iterCond, evalBool, this, R.bind]
      cases v with
      | bool b => exact absurd rfl (hv b)
      | _ => rfl
    · have : (evalRec env).expr (iterCtx ctx k x p) ve = .error e := h'
      simp only [iterCond_of h, R.bind, if_true, this]
  simp only [this]

/-- C37: a `for` over anything but an array or object is an error. -/
theorem C37_not_a_collection (env : Env) (ctx : Ctx) (k : Option Str) (x : Str) (coll ve : Expr)
    (ke : Option Expr) (g : Bool) (ce : Option Expr) (cv : Value)
    (hc : eval env ctx coll = .ok cv) (hp : Elements cv = none) :
    eval env ctx (.forE k x coll ke ve g ce) = R.err (.unexpected cv c!"an array or object") := by
  rw [eval_for, evalFor]
  have : evalCollection (evalRec env) ctx coll = R.err (.unexpected cv c!"an array or object") := by
    show R.bind (eval env ctx coll) _ = _
    rw [hc]
    cases cv <;> first | rfl | cases hp
  rw [this]; rfl

/-- C37: an object `for` without grouping yields one entry per passing element, in order, if the
keys are different. -/
theorem C37_object (env : Env) (ctx : Ctx) (k : Option Str) (x : Str) (coll ke ve : Expr)
    (ce : Option Expr) (cv : Value) (ps : List (Value × Value)) (keep : Value × Value → Bool)
    (key : Value × Value → Str) (img : Value × Value → Value)
    (hc : eval env ctx coll = .ok cv) (hp : Elements cv = some ps)
    (h : ∀ p ∈ ps, IterOk env ctx k x ce ve keep img p)
    (hk : ∀ p ∈ ps, IterKeyOk env ctx k x ce ke keep key p)
    (hn : ((ps.filter keep).map key).Nodup) :
    eval env ctx (.forE k x coll (some ke) ve false ce) =
      .ok (.object ((ps.filter keep).map fun p => (key p, img p))) := by
  have := forObject_append (g := false) ps [] [] h hk
  rw [List.append_nil] at this
  rw [eval_for, evalFor, evalCollection_elements hc hp]
  simp only [R.bind, this]
  rw [forInserts_unique]
  · simp [forObject]
  · simpa [Function.comp_def] using hn

/-- C37: without grouping, the first key that occurs a second time is an error naming it. -/
theorem C37_duplicate_key (env : Env) (ctx : Ctx) (k : Option Str) (x : Str) (coll ke ve : Expr)
    (ce : Option Expr) (cv : Value) (pre : List (Value × Value)) (p : Value × Value)
    (post : List (Value × Value)) (keep : Value × Value → Bool)
    (key : Value × Value → Str) (img : Value × Value → Value)
    (hc : eval env ctx coll = .ok cv) (hp : Elements cv = some (pre ++ p :: post))
    (h : ∀ q ∈ pre ++ [p], IterOk env ctx k x ce ve keep img q)
    (hk : ∀ q ∈ pre ++ [p], IterKeyOk env ctx k x ce ke keep key q)
    (hn : ((pre.filter keep).map key).Nodup) (hpass : keep p = true)
    (hdup : key p ∈ (pre.filter keep).map key) :
    eval env ctx (.forE k x coll (some ke) ve false ce) = R.err (.keyExists (key p)) := by
  have := forObject_append (g := false) (pre ++ [p]) post [] h hk
  rw [List.append_assoc, List.singleton_append] at this
  rw [eval_for, evalFor, evalCollection_elements hc hp]
  simp only [R.bind, this]
  have key' : ∀ (a b : List (Str × Value)) (e : Str × Value) (m : List (Str × Value)),
      ((m ++ a).map Prod.fst).Nodup → e.1 ∈ (m ++ a).map Prod.fst →
      forInserts false (a ++ e :: b) m = R.err (.keyExists e.1) := by
    intro a
    induction a with
    | nil =>
      intro b e m _ hm
      rw [List.append_nil] at hm
      have : ∃ w, Map.get? e.1 m = some w :=
        Option.isSome_iff_exists.1 ((Map.get?_isSome_iff e.1 m).2 hm)
      obtain ⟨w, hw⟩ := this
      simp only [List.nil_append, forInserts, Bool.false_eq_true, if_false, uniqueInsert, hw]; rfl
    | cons a as ih =>
      intro b e m hnd hm
      have hnone : Map.get? a.1 m = none := by
        rw [Map.get?_none_iff]
        intro hm'
        rw [List.map_append, List.nodup_append] at hnd
        exact hnd.2.2 _ hm' _ (List.mem_map_of_mem (List.mem_cons_self ..)) rfl
      simp only [List.cons_append, forInserts, Bool.false_eq_true, if_false, uniqueInsert, hnone,
        R.bind]
      rw [Map.insert_new hnone]
      exact ih b e (m ++ [a]) (by simpa using hnd) (by simpa using hm)
  have hfin := key' ((pre.filter keep).map fun p => (key p, img p)) [] (key p, img p) []
    (by simpa [Function.comp_def] using hn) (by simpa [Function.comp_def] using hdup)
  have hlist : ((pre ++ [p]).filter keep).map (fun p => (key p, img p)) =
      (pre.filter keep).map (fun p => (key p, img p)) ++ [(key p, img p)] := by
    simp [List.filter_append, hpass]
  rw [hlist, hfin]; rfl

/-- C37: the first element whose condition, key or value fails makes the whole `for` fail with that
failure, for object results (with grouping, or with different keys so far). -/
theorem C37_object_error (env : Env) (ctx : Ctx) (k : Option Str) (x : Str) (coll ke ve : Expr)
    (g : Bool) (ce : Option Expr) (cv : Value) (pre : List (Value × Value)) (p : Value × Value)
    (post : List (Value × Value)) (keep : Value × Value → Bool) (key : Value × Value → Str)
    (img : Value × Value → Value) (e : Fail) (hc : eval env ctx coll = .ok cv)
    (hp : Elements cv = some (pre ++ p :: post))
    (h : ∀ q ∈ pre, IterOk env ctx k x ce ve keep img q)
    (hk : ∀ q ∈ pre, IterKeyOk env ctx k x ce ke keep key q)
    (hn : g = true ∨ ((pre.filter keep).map key).Nodup)
    (hbad : ∀ d, IterScope ctx k x p d →
      (∃ c, ce = some c ∧ eval env d c = .error e) ∨
      (∃ c v, ce = some c ∧ eval env d c = .ok v ∧ (∀ b, v ≠ .bool b) ∧
        e = .err (.unexpected v c!"a boolean")) ∨
      (CondIs env d ce true ∧ eval env d ke = .error e) ∨
      (∃ v, CondIs env d ce true ∧ eval env d ke = .ok v ∧ (∀ s, ¬ KeyText env v s) ∧
        e = .err (.unexpected v c!"a string, boolean or number")) ∨
      (∃ v s, CondIs env d ce true ∧ eval env d ke = .ok v ∧ KeyText env v s ∧
        eval env d ve = .error e)) :
    eval env ctx (.forE k x coll (some ke) ve g ce) = .error e := by
  rw [eval_for, evalFor, evalCollection_elements hc hp]
  simp only [R.bind, forObject_append pre (p :: post) [] h hk]
  have hins : ∃ m, forInserts g ((pre.filter keep).map fun p => (key p, img p)) [] = .ok m := by
    cases g with
    | true =>
      obtain ⟨m, h1, _⟩ := forInserts_group ((pre.filter keep).map fun p => (key p, img p)) []
        (fun k w hw => by cases hw)
      exact ⟨m, h1⟩
    | false =>
      refine ⟨_, forInserts_unique _ _ ?_⟩
      rcases hn with hn | hn
      · cases hn
      · simpa [Function.comp_def] using hn
  obtain ⟨m, hm⟩ := hins
  clear h hk
  have : forObject env (evalRec env) ctx k x ce ke ve g (p :: post) m = .error e := by
    simp only [forObject]
    rcases hbad _ (iterCtx_scope ctx k x p) with ⟨c, rfl, h⟩ | ⟨c, v, rfl, h, hv, rfl⟩ | ⟨h, h'⟩ |
      ⟨v, h, h', hv, rfl⟩ | ⟨v, s, h, h', hv, h''⟩
    · have : (evalRec env).expr (iterCtx ctx k x p) c = .error e := h
      simp only [iterCond, evalBool, this, R.bind]
    · have : (evalRec env).expr (iterCtx ctx k x p) c = .ok v := h
      simp only [iterCond, evalBool, this, R.bind]
      cases v with
      | bool b => exact absurd rfl (hv b)
      | _ => rfl
    · have : (evalRec env).expr (iterCtx ctx k x p) ke = .error e := h'
      simp only [iterCond_of h, R.bind, if_true, evalObjectKey, this]
    · have : (evalRec env).expr (iterCtx ctx k x p) ke = .ok v := h'
      simp only [iterCond_of h, R.bind, if_true, evalObjectKey, this]
      cases v with
      | bool b =>
        exact absurd (by cases b <;> simp [KeyText]) (hv (if b then c!"true" else c!"false"))
      | string s => exact absurd (Or.inl rfl) (hv s)
      | number n => exact absurd (.inr (.inr (.inr ⟨n, rfl, rfl⟩))) (hv (env.showNumber n))
      | _ => rfl
    · have : (evalRec env).expr (iterCtx ctx k x p) ve = .error e := h''
      simp only [iterCond_of h, R.bind, if_true, evalObjectKey_of h' hv, this]
  rw [hm]; simp only [this]

/-- C37: with grouping, the keys are those of the passing elements in order of first occurrence and
each maps to the array of the values of all passing elements with that key, in order. -/
theorem C37_grouping (env : Env) (ctx : Ctx) (k : Option Str) (x : Str) (coll ke ve : Expr)
    (ce : Option Expr) (cv : Value) (ps : List (Value × Value)) (keep : Value × Value → Bool)
    (key : Value × Value → Str) (img : Value × Value → Value)
    (hc : eval env ctx coll = .ok cv) (hp : Elements cv = some ps)
    (h : ∀ p ∈ ps, IterOk env ctx k x ce ve keep img p)
    (hk : ∀ p ∈ ps, IterKeyOk env ctx k x ce ke keep key p) :
    ∃ m, eval env ctx (.forE k x coll (some ke) ve true ce) = .ok (.object m) ∧
      m.map Prod.fst = ((ps.filter keep).map key).eraseDups ∧
      ∀ key' ∈ (ps.filter keep).map key, Map.get? key' m =
        some (.array ((ps.filter fun p => keep p && decide (key p = key')).map img)) := by
  have := forObject_append (g := true) ps [] [] h hk
  rw [List.append_nil] at this
  obtain ⟨m, h1, h2, h3⟩ := forInserts_group ((ps.filter keep).map fun p => (key p, img p)) []
    (fun k w hw => by cases hw)
  refine ⟨m, ?_, ?_, fun key' hkey => ?_⟩
  · rw [eval_for, evalFor, evalCollection_elements hc hp]
    simp only [R.bind, this, h1, forObject]
  · rw [h3]
    simp [Function.comp_def]
  · rw [h2]
    have : key' ∈ List.map Prod.fst ((ps.filter keep).map fun p => (key p, img p)) := by
      simpa [Function.comp_def] using hkey
    simp only [Map.get?, this, if_true]
    congr 2
    rw [List.filter_map, List.map_map, List.filter_filter]
    have : (fun p => keep p && decide (key p = key')) =
        (fun a => ((fun e : Str × Value => decide (e.1 = key')) ∘ fun p => (key p, img p)) a && keep a) := by
      funext p; simp [Bool.and_comm]
    rw [this]
    rfl

/-! `[for v in ["a", "b"] : v if v == "b"]` -/

example : eval exEnv Ctx.new (.forE none c!"v" (.array [.string c!"a", .string c!"b"]) none
    (.var c!"v") false (some (.binary (.var c!"v") .eq (.string c!"b")))) =
    .ok (.array [.string c!"b"]) := by
  have hc : eval exEnv Ctx.new (.array [.string c!"a", .string c!"b"]) =
      .ok (.array [.string c!"a", .string c!"b"]) := by
    rw [eval_array]; simp only [mapR, eval_string, R.bind]
  refine C37_array exEnv Ctx.new none c!"v" _ _ false _ _ _ (fun p => p.2.beq (.string c!"b"))
    (fun p => p.2) hc rfl ?_
  intro p _ d hd
  have hv : eval exEnv d (.var c!"v") = .ok p.2 := by rw [eval_var, hd.1]; rfl
  refine ⟨?_, fun _ => hv⟩
  show eval _ _ _ = _
  rw [eval_binary, hv, eval_string]
  obtain ⟨p1, p2⟩ := p
  cases p2 <;> rfl

-- grouping, evaluated: `{for v in ["a", "a"] : v => 1...}` has one key with two values
example : eval exEnv Ctx.new (.forE none c!"v" (.array [.string c!"a", .string c!"a"])
    (some (.var c!"v")) (.bool true) true none) =
    .ok (.object [(c!"a", .array [.bool true, .bool true])]) :=
  eval_of_evalF 5 rfl (by simp)

-- without grouping the second `a` is an error
example : eval exEnv Ctx.new (.forE none c!"v" (.array [.string c!"a", .string c!"a"])
    (some (.var c!"v")) (.bool true) false none) = R.err (.keyExists c!"a") :=
  eval_of_evalF 5 rfl (by simp [R.err])

end Props
end Verif
