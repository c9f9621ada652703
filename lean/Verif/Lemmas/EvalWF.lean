import Verif.Lemmas.EvalRules
import Verif.Model.InPlace
/-! Evaluation only yields values whose objects have unique keys. -/

namespace Verif

theorem bind_ok {α β : Type} {a : R α} {f : α → R β} {y : β} (h : R.bind a f = .ok y) :
    ∃ x, a = .ok x ∧ f x = .ok y := by
  cases a with
  | error e => simp [R.bind] at h
  | ok x => exact ⟨x, rfl, h⟩

theorem wfList_iff {xs : List Value} : Value.WFList xs ↔ ∀ x ∈ xs, x.WF := by
  induction xs with
  | nil => simp [Value.WFList]
  | cons a as ih => simp [Value.WFList, ih]

theorem wfObj_iff {es : List (Str × Value)} : Value.WFObj es ↔ ∀ e ∈ es, e.2.WF := by
  induction es with
  | nil => simp [Value.WFObj]
  | cons a as ih => obtain ⟨k, v⟩ := a; simp [Value.WFObj, ih]

theorem Map.get?_mem {K V : Type} [DecidableEq K] {k : K} {v : V} {m : List (K × V)}
    (h : Map.get? k m = some v) : (k, v) ∈ m := by
  induction m with
  | nil => simp [Map.get?] at h
  | cons e m ih =>
    obtain ⟨k', v'⟩ := e
    rw [Map.get?.eq_def] at h
    by_cases hk : k' = k
    · simp only [hk, if_true, Option.some.injEq] at h
      subst h; rw [hk]; exact List.mem_cons_self ..
    · simp only [hk, if_false] at h
      exact List.mem_cons_of_mem _ (ih h)

theorem Map.mem_insert {K V : Type} [DecidableEq K] {k : K} {v : V} {m : List (K × V)} {e : K × V}
    (h : e ∈ Map.insert k v m) : e = (k, v) ∨ e ∈ m := by
  induction m with
  | nil => simp [Map.insert] at h; exact .inl h
  | cons p m ih =>
    obtain ⟨k', v'⟩ := p
    rw [Map.insert.eq_def] at h
    by_cases hk : k' = k
    · simp only [hk, if_true, List.mem_cons] at h
      rcases h with h | h
      · exact .inl h
      · exact .inr (List.mem_cons_of_mem _ h)
    · simp only [hk, if_false, List.mem_cons] at h
      rcases h with h | h
      · exact .inr (by rw [h]; exact List.mem_cons_self ..)
      · exact (ih h).imp id (List.mem_cons_of_mem _)

theorem Map.keys_insert {K V : Type} [DecidableEq K] (k : K) (v : V) (m : List (K × V)) :
    (Map.insert k v m).map Prod.fst = if k ∈ m.map Prod.fst then m.map Prod.fst
      else m.map Prod.fst ++ [k] := by
  induction m with
  | nil => simp [Map.insert]
  | cons p m ih =>
    obtain ⟨k', v'⟩ := p
    rw [Map.insert.eq_def]
    by_cases hk : k' = k
    · simp [hk]
    · simp only [hk, if_false, List.map_cons, ih, List.mem_cons, Ne.symm hk, false_or]
      split <;> rfl

theorem Map.nodup_insert {K V : Type} [DecidableEq K] {k : K} {v : V} {m : List (K × V)}
    (h : (m.map Prod.fst).Nodup) : ((Map.insert k v m).map Prod.fst).Nodup := by
  rw [Map.keys_insert]
  split
  · exact h
  · rename_i hn
    exact List.nodup_append.2 ⟨h, by simp, by
      intro a ha b hb; simp only [List.mem_singleton] at hb; subst hb
      intro hab; subst hab; exact hn ha⟩

theorem Value.wf_object_iff {es : List (Str × Value)} :
    (Value.object es).WF ↔ (es.map Prod.fst).Nodup ∧ ∀ e ∈ es, e.2.WF := by
  simp [Value.WF, wfObj_iff]

theorem Value.wf_array_iff {xs : List Value} : (Value.array xs).WF ↔ ∀ e ∈ xs, e.WF := by
  simp [Value.WF, wfList_iff]

theorem wf_insert {k : Str} {v : Value} {m : List (Str × Value)} (hm : (Value.object m).WF)
    (hv : v.WF) : (Value.object (Map.insert k v m)).WF := by
  rw [Value.wf_object_iff] at hm ⊢
  refine ⟨Map.nodup_insert hm.1, fun e he => ?_⟩
  rcases Map.mem_insert he with rfl | h
  · exact hv
  · exact hm.2 e h

theorem wf_collect {es : List (Str × Value)} (h : ∀ e ∈ es, e.2.WF) :
    (Value.object (Map.collect es)).WF := by
  have : ∀ (es : List (Str × Value)) m, (∀ e ∈ es, e.2.WF) → (Value.object m).WF →
      (Value.object (es.foldl (fun m e => Map.insert e.1 e.2 m) m)).WF := by
    intro es
    induction es with
    | nil => intro m _ hm; exact hm
    | cons e es ih =>
      intro m he hm
      exact ih _ (fun x hx => he x (List.mem_cons_of_mem _ hx))
        (wf_insert hm (he e (List.mem_cons_self ..)))
  exact this es [] h (by simp [Value.wf_object_iff])

/-- Contexts as the code can build them: variables hold real `Value`s, and functions return real
`Value`s for them. -/
def CtxWF (c : Ctx) : Prop :=
  (∀ x v, c.var x = some v → v.WF) ∧
  ∀ n f, c.func n = some f → ∀ args v, (∀ a ∈ args, a.WF) → f.func args = .ok v → v.WF

theorem CtxWF.child {c : Ctx} (h : CtxWF c) : CtxWF c.child := h

theorem CtxWF.iter {c : Ctx} (h : CtxWF c) {k : Option Str} {x : Str} {p : Value × Value}
    (h1 : p.1.WF) (h2 : p.2.WF) : CtxWF (iterCtx c k x p) := by
  refine ⟨fun y v hv => ?_, fun n f hf => ?_⟩
  · rw [iterCtx_var] at hv
    split at hv
    · injection hv with hv; subst hv; exact h2
    · split at hv
      · injection hv with hv; subst hv; exact h1
      · exact h.1 y v hv
  · rw [iterCtx_func] at hf; exact h.2 n f hf

/-- Recursive calls yield only values with unique keys. -/
def RecWF (r : Rec) : Prop := ∀ c e v, CtxWF c → r.expr c e = .ok v → v.WF

theorem mapR_all {α β : Type} {f : α → R β} {P : β → Prop} {l : List α} {bs : List β}
    (h : mapR f l = .ok bs) (hf : ∀ a ∈ l, ∀ b, f a = .ok b → P b) : ∀ b ∈ bs, P b := by
  induction l generalizing bs with
  | nil => simp [mapR] at h; subst h; simp
  | cons a l ih =>
    simp only [mapR] at h
    obtain ⟨b, h1, h⟩ := bind_ok h
    obtain ⟨bs', h2, h⟩ := bind_ok h
    injection h with h; subst h
    intro x hx
    rcases List.mem_cons.1 hx with rfl | hx
    · exact hf a (List.mem_cons_self ..) _ h1
    · exact ih h2 (fun a ha => hf a (List.mem_cons_of_mem _ ha)) x hx

section
variable {env : Env} {r : Rec} (hr : RecWF r)
include hr

omit hr in
theorem arrayValue_wf {v w : Value} {i : Nat} (hv : v.WF) (h : arrayValue v i = .ok w) : w.WF := by
  unfold arrayValue at h
  split at h
  · split at h
    · rename_i hx
      injection h with h; subst h
      exact (Value.wf_array_iff.1 hv) _ (List.mem_of_getElem? hx)
    · simp [R.err] at h
  · simp [R.err] at h

omit hr in
theorem objectValue_wf {v w : Value} {k : Str} (hv : v.WF) (h : objectValue v k = .ok w) : w.WF := by
  unfold objectValue at h
  split at h
  · split at h
    · rename_i hx
      injection h with h; subst h
      exact (Value.wf_object_iff.1 hv).2 _ (Map.get?_mem hx)
    · simp [R.err] at h
  · simp [R.err] at h

omit hr in
theorem indexExpr_wf {c e} {v w : Value} (hv : v.WF) (h : indexExpr r c v e = .ok w) : w.WF := by
  unfold indexExpr at h
  obtain ⟨i, _, h⟩ := bind_ok h
  split at h
  · exact objectValue_wf hv h
  · split at h
    · exact arrayValue_wf hv h
    · simp [R.err] at h
  · simp [R.err] at h

omit hr in
theorem splat_wf {f : Value → R Value} {v w : Value} (hf : ∀ x y, x.WF → f x = .ok y → y.WF)
    (hv : v.WF) (h : splat f v = .ok w) : w.WF := by
  unfold splat at h
  split at h
  · obtain ⟨ys, h1, h⟩ := bind_ok h
    injection h with h; subst h
    exact Value.wf_array_iff.2 (mapR_all h1 fun a ha b hb => hf a b (Value.wf_array_iff.1 hv a ha) hb)
  · injection h with h; subst h; simp [Value.wf_array_iff]
  · obtain ⟨y, h1, h⟩ := bind_ok h
    injection h with h; subst h
    simp only [Value.wf_array_iff, List.mem_singleton, forall_eq]
    exact hf _ _ hv h1

omit hr in
theorem traverse_wf {c} (n : Nat) : ∀ (ops : List TravOp) (v w : Value), v.WF →
    traverse r c n ops v = .ok w → w.WF := by
  induction n with
  | zero =>
    intro ops v w hv h
    cases ops with
    | nil => simp only [traverse] at h; injection h with h; subst h; exact hv
    | cons o ops => simp [traverse] at h
  | succ n ih =>
    intro ops v w hv h
    cases ops with
    | nil => simp only [traverse] at h; injection h with h; subst h; exact hv
    | cons o ops =>
      cases o with
      | legacyIndex i =>
        obtain ⟨u, h1, h⟩ := bind_ok h
        exact ih _ _ _ (arrayValue_wf hv h1) h
      | index e =>
        obtain ⟨u, h1, h⟩ := bind_ok h
        exact ih _ _ _ (indexExpr_wf hv h1) h
      | getAttr x =>
        obtain ⟨u, h1, h⟩ := bind_ok h
        exact ih _ _ _ (objectValue_wf hv h1) h
      | attrSplat =>
        obtain ⟨u, h1, h⟩ := bind_ok h
        exact ih _ _ _ (splat_wf (fun x y hx hy => ih _ _ _ hx hy) hv h1) h
      | fullSplat => exact splat_wf (fun x y hx hy => ih _ _ _ hx hy) hv h

theorem evalCollection_wf {c e ps} (hc : CtxWF c) (h : evalCollection r c e = .ok ps) :
    ∀ p ∈ ps, p.1.WF ∧ p.2.WF := by
  unfold evalCollection at h
  obtain ⟨v, h1, h⟩ := bind_ok h
  have hv := hr _ _ _ hc h1
  split at h
  · injection h with h; subst h
    rename_i xs
    rw [Value.wf_array_iff] at hv
    have : ∀ (xs : List Value) i, (∀ x ∈ xs, x.WF) → ∀ p ∈ enumPairs i xs, p.1.WF ∧ p.2.WF := by
      intro xs
      induction xs with
      | nil => intro i _ p hp; simp [enumPairs] at hp
      | cons x xs ih =>
        intro i hx p hp
        simp only [enumPairs, List.mem_cons] at hp
        rcases hp with rfl | hp
        · exact ⟨by simp [Value.WF], hx x (List.mem_cons_self ..)⟩
        · exact ih _ (fun y hy => hx y (List.mem_cons_of_mem _ hy)) p hp
    exact this xs 0 hv
  · injection h with h; subst h
    rename_i es
    rw [Value.wf_object_iff] at hv
    intro p hp
    obtain ⟨q, hq, rfl⟩ := List.mem_map.1 hp
    exact ⟨by simp [Value.WF], hv.2 q hq⟩
  · simp [R.err] at h

theorem forArray_wf {c k x ce ve} (hc : CtxWF c) : ∀ ps vs, (∀ p ∈ ps, p.1.WF ∧ p.2.WF) →
    forArray r c k x ce ve ps = .ok vs → ∀ v ∈ vs, v.WF := by
  intro ps
  induction ps with
  | nil => intro vs _ h; simp only [forArray] at h; injection h with h; subst h; simp
  | cons p ps ih =>
    intro vs hp h
    have hp' := hp p (List.mem_cons_self ..)
    have hps := fun q hq => hp q (List.mem_cons_of_mem p hq)
    simp only [forArray] at h
    obtain ⟨b, _, h⟩ := bind_ok h
    split at h
    · obtain ⟨v, h1, h⟩ := bind_ok h
      obtain ⟨vs', h2, h⟩ := bind_ok h
      injection h with h; subst h
      intro y hy
      rcases List.mem_cons.1 hy with rfl | hy
      · exact hr _ _ _ (hc.iter hp'.1 hp'.2) h1
      · exact ih _ hps h2 y hy
    · exact ih _ hps h

omit hr in
theorem groupPush_wf {k : Str} {v : Value} {m m' : List (Str × Value)} (hv : v.WF)
    (hm : (Value.object m).WF) (h : groupPush k v m = .ok m') : (Value.object m').WF := by
  unfold groupPush at h
  split at h
  · injection h with h; subst h
    exact wf_insert hm (by simp [Value.wf_array_iff, hv])
  · rename_i vs hg
    injection h with h; subst h
    refine wf_insert hm (Value.wf_array_iff.2 fun e he => ?_)
    rcases List.mem_append.1 he with he | he
    · exact Value.wf_array_iff.1 ((Value.wf_object_iff.1 hm).2 _ (Map.get?_mem hg)) e he
    · rw [List.mem_singleton.1 he]; exact hv
  · simp at h

omit hr in
theorem uniqueInsert_wf {k : Str} {v : Value} {m m' : List (Str × Value)} (hv : v.WF)
    (hm : (Value.object m).WF) (h : uniqueInsert k v m = .ok m') : (Value.object m').WF := by
  unfold uniqueInsert at h
  split at h
  · simp [R.err] at h
  · injection h with h; subst h; exact wf_insert hm hv

theorem forObject_wf {c k x ce ke ve g} (hc : CtxWF c) : ∀ ps m m', (∀ p ∈ ps, p.1.WF ∧ p.2.WF) →
    (Value.object m).WF → forObject env r c k x ce ke ve g ps m = .ok m' → (Value.object m').WF := by
  intro ps
  induction ps with
  | nil => intro m m' _ hm h; simp only [forObject] at h; injection h with h; subst h; exact hm
  | cons p ps ih =>
    intro m m' hp hm h
    have hp' := hp p (List.mem_cons_self ..)
    have hps := fun q hq => hp q (List.mem_cons_of_mem p hq)
    simp only [forObject] at h
    obtain ⟨b, _, h⟩ := bind_ok h
    split at h
    · obtain ⟨key, _, h⟩ := bind_ok h
      obtain ⟨v, h1, h⟩ := bind_ok h
      obtain ⟨m2, h2, h⟩ := bind_ok h
      have hv := hr _ _ _ (hc.iter hp'.1 hp'.2) h1
      refine ih _ _ hps ?_ h
      split at h2
      · exact groupPush_wf hv hm h2
      · exact uniqueInsert_wf hv hm h2
    · exact ih _ _ hps hm h

theorem evalArgs_wf {c x} (hc : CtxWF c) : ∀ args vs, evalArgs r c x args = .ok vs →
    ∀ v ∈ vs, v.WF := by
  intro args
  induction args with
  | nil => intro vs h; simp only [evalArgs] at h; injection h with h; subst h; simp
  | cons a as ih =>
    intro vs h
    simp only [evalArgs] at h
    split at h
    · unfold evalArray at h
      obtain ⟨v, h1, h⟩ := bind_ok h
      split at h
      · injection h with h; subst h
        exact Value.wf_array_iff.1 (hr _ _ _ hc h1)
      · simp [R.err] at h
    · obtain ⟨v, h1, h⟩ := bind_ok h
      obtain ⟨vs', h2, h⟩ := bind_ok h
      injection h with h; subst h
      intro y hy
      rcases List.mem_cons.1 hy with rfl | hy
      · exact hr _ _ _ hc h1
      · exact ih _ h2 y hy

omit hr in
theorem ofNum_wf {o : Option N} {v : Value} (h : R.ofNum o = .ok v) : v.WF := by
  cases o with
  | none => simp [R.ofNum] at h
  | some n => simp only [R.ofNum] at h; injection h with h; subst h; simp [Value.WF]

omit hr in
theorem unaryValue_wf {op : UnOp} {v w : Value} (h : unaryValue env op v = .ok w) : w.WF := by
  unfold unaryValue at h
  split at h
  · injection h with h; subst h; simp [Value.WF]
  · exact ofNum_wf h
  · simp [R.err] at h

omit hr in
theorem binaryValue_wf {op : BinOp} {a b w : Value} (h : binaryValue env a op b = .ok w) : w.WF := by
  unfold binaryValue at h
  split at h
  all_goals first
    | exact ofNum_wf h
    | (injection h with h; subst h; simp [Value.WF])
    | simp [R.err] at h

theorem stepExpr_wf {c e v} (hc : CtxWF c) (h : stepExpr env r c e = .ok v) : v.WF := by
  cases e with
  | null => injection h with h; subst h; simp [Value.WF]
  | bool => injection h with h; subst h; simp [Value.WF]
  | number => injection h with h; subst h; simp [Value.WF]
  | string => injection h with h; subst h; simp [Value.WF]
  | array xs =>
    obtain ⟨vs, h1, h⟩ := bind_ok h
    injection h with h; subst h
    exact Value.wf_array_iff.2 (mapR_all h1 fun a _ b hb => hr _ _ _ hc.child hb)
  | object es =>
    obtain ⟨ps, h1, h⟩ := bind_ok h
    injection h with h; subst h
    refine wf_collect (mapR_all h1 fun a _ b hb => ?_)
    unfold evalEntry at hb
    obtain ⟨k, _, hb⟩ := bind_ok hb
    obtain ⟨w, h3, hb⟩ := bind_ok hb
    injection hb with hb; subst hb
    exact hr _ _ _ hc.child h3
  | template t =>
    have h : evalTemplateExpr env r c.child t = .ok v := h
    unfold evalTemplateExpr at h
    split at h
    · simp [R.err] at h
    · exact hr _ _ _ hc.child h
    · obtain ⟨s, _, h⟩ := bind_ok h
      injection h with h; subst h; simp [Value.WF]
  | var x =>
    have h : (match c.var x with
      | some v => (.ok v : R Value)
      | none => R.err (.undefinedVar x)) = .ok v := h
    split at h
    · rename_i hx; injection h with h; subst h; exact hc.1 _ _ hx
    · simp [R.err] at h
  | traversal e ops =>
    obtain ⟨u, h1, h⟩ := bind_ok h
    exact traverse_wf _ _ _ _ (hr _ _ _ hc.child h1) h
  | call n args x =>
    have h : evalCall r c.child n args x = .ok v := h
    unfold evalCall at h
    split at h
    · simp [R.err] at h
    · rename_i f hf
      obtain ⟨vs, h1, h⟩ := bind_ok h
      have hvs := evalArgs_wf hr hc.child _ _ h1
      split at h
      · rename_i w hw
        injection h with h; subst h
        unfold FuncDef.call at hw
        split at hw
        · cases hw
        · split at hw
          · rename_i hw'
            injection hw with hw; subst hw
            exact hc.2 n f hf vs _ hvs hw'
          · cases hw
      · simp [R.err] at h
  | paren e => exact hr _ _ _ hc.child h
  | cond a b d =>
    obtain ⟨u, _, h⟩ := bind_ok h
    split at h
    · exact hr _ _ _ hc.child h
    · exact hr _ _ _ hc.child h
  | unary o e =>
    obtain ⟨u, _, h⟩ := bind_ok h
    exact unaryValue_wf h
  | binary a o b =>
    obtain ⟨u, _, h⟩ := bind_ok h
    obtain ⟨w, _, h⟩ := bind_ok h
    exact binaryValue_wf h
  | forE k x coll ke ve g ce =>
    obtain ⟨ps, h1, h⟩ := bind_ok h
    have hps := evalCollection_wf hr hc.child h1
    split at h
    · obtain ⟨m, h2, h⟩ := bind_ok h
      injection h with h; subst h
      exact forObject_wf hr hc.child _ _ _ hps (by simp [Value.wf_object_iff]) h2
    · obtain ⟨vs, h2, h⟩ := bind_ok h
      injection h with h; subst h
      exact Value.wf_array_iff.2 (forArray_wf hr hc.child _ _ hps h2)

end

theorem evalF_wf (env : Env) (n : Nat) : RecWF (evalF env n) := by
  induction n with
  | zero => intro c e v _ h; cases h
  | succ n ih => intro c e v hc h; exact stepExpr_wf ih hc h

/-- Evaluation only yields values whose objects have unique keys. -/
theorem eval_wf {env : Env} {c : Ctx} {e : Expr} {v : Value} (hc : CtxWF c)
    (h : eval env c e = .ok v) : v.WF := by
  unfold eval at h
  split at h
  · exact evalF_wf env _ _ _ _ hc h
  · cases h

end Verif
