import Verif.Model.InPlaceLoc
import Verif.Spec.InPlaceLoc
import Verif.Lemmas.EvalLoc
import Verif.Props.InPlace
import Verif.Props.Halt
/-! Expressions whose parts have been evaluated; in-place evaluation with and without the expressions of its
errors. -/

namespace Verif
open Spec

theorem Spec.Settled.mono {B B' : Expr → Expr → Prop} (h : ∀ e e', B e e' → B' e e') {e e' : Expr}
    (hs : Settled B e e') : Settled B' e e' := by
  cases hs with
  | same => exact .same _
  | array hf => exact .array (hf.imp fun _ _ => h _ _)
  | object hf => exact .object (hf.imp fun _ _ hab => ⟨by
      have hk := hab.1
      revert hk
      generalize Prod.fst _ = x
      generalize Prod.fst _ = y
      intro hk
      cases hk with
      | ident => exact .ident _
      | expr he => exact .expr (h _ _ he), h _ _ hab.2⟩)
  | traversal hf => exact .traversal (hf.imp fun _ _ hab => by
      cases hab with
      | same => exact .same _
      | index he => exact .index (h _ _ he))
  | call hf => exact .call (hf.imp fun _ _ => h _ _)
  | paren he => exact .paren (h _ _ he)
  | condTrue h1 h2 => exact .condTrue (h _ _ h1) (h _ _ h2)
  | condFalse h1 h2 => exact .condFalse (h _ _ h1) (h _ _ h2)
  | unary he => exact .unary (h _ _ he)
  | binary h1 h2 => exact .binary (h _ _ h1) (h _ _ h2)
  | forE he => exact .forE (h _ _ he)

/-! ### Evaluation of the settled expression -/

section
variable {env : Env} {c : Ctx}

/-- The first failure among the keys. -/
def firstErr (g : ObjKey → R Str) : List ObjKey → Option Fail
  | [] => none
  | k :: ks => match g k with
    | .error f => some f
    | .ok _ => firstErr g ks

theorem firstErr_append (g : ObjKey → R Str) (ks ls : List ObjKey) :
    firstErr g (ks ++ ls) = match firstErr g ks with | some f => some f | none => firstErr g ls := by
  induction ks with
  | nil => rfl
  | cons k ks ih =>
    simp only [List.cons_append, firstErr]
    cases g k <;> simp [ih]

theorem firstErr_none {g : ObjKey → R Str} {ks : List ObjKey} (h : firstErr g ks = none) :
    ∀ k ∈ ks, ∃ s, g k = .ok s := by
  induction ks with
  | nil => simp
  | cons k ks ih =>
    simp only [firstErr] at h
    split at h
    · cases h
    · rename_i s hs
      intro k' hk
      rcases List.mem_cons.1 hk with rfl | hk
      · exact ⟨s, hs⟩
      · exact ih h k' hk

/-- Inserting an entry does not change the first failure among the keys, as compared with appending it. -/
theorem firstErr_insert (g : ObjKey → R Str) (K : List ObjKey)
    (hb : ∀ a ∈ K, ∀ b ∈ K, ObjKey.beq a b = true → ∀ s, g a = .ok s → ∃ t, g b = .ok t)
    (k : ObjKey) (v : Expr) (hk : k ∈ K) : ∀ m : List (ObjKey × Expr), (∀ p ∈ m, p.1 ∈ K) →
      firstErr g ((objInsert k v m).map Prod.fst) = firstErr g (m.map Prod.fst ++ [k])
  | [], _ => rfl
  | (k', v') :: m, hm => by
    rw [objInsert]
    split
    · rename_i h
      simp only [List.map_cons, List.cons_append, firstErr]
      cases hg : g k' with
      | error f => rfl
      | ok s =>
        obtain ⟨t, ht⟩ := hb k' (hm _ (List.mem_cons_self ..)) k hk h s hg
        dsimp only
        rw [firstErr_append]
        cases firstErr g (m.map Prod.fst) with
        | some f => rfl
        | none => simp [firstErr, ht]
    · simp only [List.map_cons, List.cons_append, firstErr]
      rw [firstErr_insert g K hb k v hk m fun p hp => hm p (List.mem_cons_of_mem _ hp)]

theorem firstErr_insertAll (g : ObjKey → R Str) (K : List ObjKey)
    (hb : ∀ a ∈ K, ∀ b ∈ K, ObjKey.beq a b = true → ∀ s, g a = .ok s → ∃ t, g b = .ok t) :
    ∀ (es m : List (ObjKey × Expr)), (∀ p ∈ es, p.1 ∈ K) → (∀ p ∈ m, p.1 ∈ K) →
      firstErr g ((objInsertAll es m).map Prod.fst) = firstErr g (m.map Prod.fst ++ es.map Prod.fst)
  | [], m, _, _ => by simp [objInsertAll]
  | (k, v) :: es, m, he, hm => by
    have hk := he _ (List.mem_cons_self ..)
    show firstErr g ((objInsertAll es (objInsert k v m)).map Prod.fst) = _
    rw [firstErr_insertAll g K hb es _ (fun p hp => he p (List.mem_cons_of_mem _ hp)), firstErr_append,
      firstErr_insert g K hb k v hk m hm, ← firstErr_append]
    · simp
    · intro p hp
      rcases (mem_objInsert hp).1 with h | h
      · exact h ▸ hk
      · obtain ⟨q, hq, h⟩ := List.mem_map.1 h
        exact h ▸ hm q hq

/-- If the values can be evaluated, the failure of an object is the first failure among its keys. -/
theorem mapR_entries (es : List (ObjKey × Expr)) (hv : ∀ p ∈ es, ∃ v, eval env c p.2 = .ok v) :
    (∀ f, mapR (evalEntry env (evalRec env) c) es = .error f ↔
      firstErr (evalKey env (evalRec env) c) (es.map Prod.fst) = some f) := by
  induction es with
  | nil => intro f; simp [mapR, firstErr]
  | cons p es ih =>
    intro f
    obtain ⟨v, h⟩ := hv p (List.mem_cons_self ..)
    have h' : (evalRec env).expr c p.2 = .ok v := h
    have ih := ih (fun q hq => hv q (List.mem_cons_of_mem _ hq)) f
    simp only [mapR, evalEntry, List.map_cons, firstErr]
    cases evalKey env (evalRec env) c p.1 with
    | error f' => simp [R.bind]
    | ok s =>
      simp only [R.bind, h']
      rw [← ih]
      cases mapR (evalEntry env (evalRec env) c) es <;> simp

theorem entries_same {es es' : List (ObjKey × Expr)} (hf : List.Forall₂ (EntryBecomes env c) es es') :
    mapR (evalEntry env (evalRec env) c) es' = mapR (evalEntry env (evalRec env) c) es := by
  induction hf with
  | nil => rfl
  | @cons a b l l' hab _ ih =>
    have h2 : (evalRec env).expr c b.2 = (evalRec env).expr c a.2 := hab.2.same
    have h1 : evalKey env (evalRec env) c b.1 = evalKey env (evalRec env) c a.1 := by
      have hk := hab.1
      revert hk
      generalize a.1 = x
      generalize b.1 = y
      intro hk
      cases hk with
      | ident x => rfl
      | expr he =>
        have : (evalRec env).expr c _ = (evalRec env).expr c _ := he.same
        simp only [evalKey, evalObjectKey, this]
    simp only [mapR, evalEntry, h1, h2, ih]

/-- An object whose entries have been evaluated and merged evaluates as before, also if it fails. -/
theorem object_settled {es es' : List (ObjKey × Expr)} (hf : List.Forall₂ (EntryBecomes env c) es es')
    (hu : UniformKeys env c es) : eval env c (.object (objCollect es')) = eval env c (.object es) := by
  change eval env c (.object (objInsertAll es' [])) = _
  cases h : eval env c (.object (objInsertAll es' [])) with
  | ok v => exact (object_same hf hu h).symm
  | error f =>
    rw [eval_object] at h ⊢
    have hm : mapR (evalEntry env (evalRec env) c) (objInsertAll es' []) = .error f := by
      revert h
      cases mapR (evalEntry env (evalRec env) c) (objInsertAll es' []) with
      | error f' => exact fun h => by cases h; rfl
      | ok _ => exact fun h => by cases h
    have hval : ∀ p ∈ es', ∃ v, eval env c p.2 = .ok v := by
      clear hm h hu
      induction hf with
      | nil => simp
      | @cons a b l l' hab _ ih =>
        intro p hp
        rcases List.mem_cons.1 hp with rfl | hp
        · obtain ⟨w, hw, _⟩ := hab.2
          exact ⟨w, by rw [hab.2.same, hw]⟩
        · exact ih p hp
    have hkey : ∀ k' ∈ es'.map Prod.fst, ∃ k, KeyBecomes env c k k' := by
      clear hm h hu hval
      induction hf with
      | nil => simp
      | @cons a b l l' hab _ ih =>
        intro k' hk
        rcases List.mem_cons.1 hk with rfl | hk
        · exact ⟨_, hab.1⟩
        · exact ih k' hk
    have h1 := (mapR_entries (env := env) (c := c) (objInsertAll es' []) (fun p hp => by
      rcases (mem_objInsertAll hp).2 with h | h
      · obtain ⟨q, hq, h⟩ := List.mem_map.1 h
        exact h ▸ hval q hq
      · simp at h) f).1 hm
    rw [firstErr_insertAll _ (es'.map Prod.fst) (fun a ha b hb hab s hs => by
      obtain ⟨x, hx⟩ := hkey a ha
      obtain ⟨y, hy⟩ := hkey b hb
      obtain ⟨a', _, a1, _, a2⟩ := hx.form
      obtain ⟨b', _, b1, _, b2⟩ := hy.form
      rw [a2, b2] at hab
      obtain ⟨t, ht⟩ := beq_text a' b' s ((a1 s).1 hs) hab
      exact ⟨t, (b1 t).2 ht⟩) es' [] (fun p hp => List.mem_map_of_mem hp) (by simp)] at h1
    have h2 := (mapR_entries (env := env) (c := c) es' hval f).2 (by simpa using h1)
    rw [← entries_same hf, h2]
    rfl

theorem entryBecomes_of {es es' : List (ObjKey × Expr)}
    (hf : List.Forall₂ (fun p q => SettledKey (Becomes env c) p.1 q.1 ∧ Becomes env c p.2 q.2) es es') :
    List.Forall₂ (EntryBecomes env c) es es' :=
  hf.imp fun a b hab => ⟨by
    have hk := hab.1
    revert hk
    generalize a.1 = x
    generalize b.1 = y
    intro hk
    cases hk with
    | ident => exact .ident _
    | expr he => exact .expr he, hab.2⟩

/-- An expression whose parts have been evaluated evaluates as before. -/
theorem settled_same {e e' : Expr} (hs : Settled (Becomes env c) e e')
    (hu : ∀ es, e = .object es → UniformKeys env c es) : eval env c e' = eval env c e := by
  cases hs with
  | same => rfl
  | array hf => rw [eval_array, eval_array, mapR_same hf]
  | object hf => exact object_settled (entryBecomes_of hf) (hu _ rfl)
  | traversal hf =>
    have hf : List.Forall₂ (OpBecomes env c) _ _ := hf.imp fun _ _ h => by
      cases h with
      | same => exact .same _
      | index h => exact .index h
    rw [eval_traversal, eval_traversal, hf.length_eq]
    congr 1; funext w
    exact traverse_becomes _ _ _ hf w
  | call hf => rw [eval_call, eval_call, evalArgs_same hf]
  | paren he => rw [eval_paren, eval_paren, he.same]
  | condTrue h1 h2 =>
    have : ∀ x : Expr, evalBool (evalRec env) c x = R.bind (eval env c x) fun v => match v with
      | .bool b => .ok b
      | other => R.err (.unexpected other c!"a boolean") := fun _ => rfl
    rw [eval_cond, eval_cond, this, this, h1.same]
    have := h1.same
    rw [eval_bool] at this
    rw [← this]
    simp only [R.bind, if_true, h2.same]
  | condFalse h1 h2 =>
    have : ∀ x : Expr, evalBool (evalRec env) c x = R.bind (eval env c x) fun v => match v with
      | .bool b => .ok b
      | other => R.err (.unexpected other c!"a boolean") := fun _ => rfl
    rw [eval_cond, eval_cond, this, this, h1.same]
    have := h1.same
    rw [eval_bool] at this
    rw [← this]
    simp only [R.bind, Bool.false_eq_true, if_false, h2.same]
  | unary he => rw [eval_unary, eval_unary, he.same]
  | binary h1 h2 => rw [eval_binary, eval_binary, h1.same, h2.same]
  | forE he =>
    have hs : (evalRec env).expr c _ = (evalRec env).expr c _ := he.same
    rw [eval_for, eval_for]
    unfold evalFor evalCollection
    rw [hs]

/-! ### Parts of the settled expression -/

theorem forall₂_mem {α β : Type} {R : α → β → Prop} {xs : List α} {ys : List β} (h : List.Forall₂ R xs ys) :
    ∀ y ∈ ys, ∃ x ∈ xs, R x y := by
  induction h with
  | nil => simp
  | cons hab _ ih =>
    intro y hy
    rcases List.mem_cons.1 hy with rfl | hy
    · exact ⟨_, List.mem_cons_self .., hab⟩
    · obtain ⟨x, hx, h⟩ := ih y hy
      exact ⟨x, List.mem_cons_of_mem _ hx, h⟩

/-- An expression that stands for a value. -/
def IsLit (e : Expr) : Prop := ∃ w : Value, w.WF ∧ e = ofValue w

theorem Becomes.lit {e e' : Expr} (h : Becomes env c e e') : IsLit e' := by
  obtain ⟨v, _, h1, h2⟩ := h
  exact ⟨v, h1, h2⟩

theorem IsLit.eval {e : Expr} (h : IsLit e) (d : Ctx) : ∃ v, Verif.eval env d e = .ok v := by
  obtain ⟨w, h1, rfl⟩ := h
  exact ⟨w, eval_ofValue w h1⟩

theorem IsLit.direct {q p : Expr} (h : IsLit p) (hd : Direct env q p) : IsLit q := by
  obtain ⟨w, hw, rfl⟩ := h
  cases w with
  | array xs =>
    rw [ofValue, ofValues_eq] at hd
    cases hd with
    | array hm =>
      obtain ⟨v, hv, rfl⟩ := List.mem_map.1 hm
      rw [Value.WF] at hw
      exact ⟨v, wfList_iff.1 hw v hv, rfl⟩
  | object es =>
    rw [Value.WF] at hw
    rw [ofValue, ofEntries_eq] at hd
    cases hd with
    | key hm =>
      rcases (mem_objInsertAll (m := []) hm).1 with h | h
      · obtain ⟨p, hp, h⟩ := List.mem_map.1 h
        obtain ⟨r, _, rfl⟩ := List.mem_map.1 hp
        cases h
        exact ⟨.string r.1, by simp [Value.WF], rfl⟩
      · simp at h
    | value hm =>
      rcases (mem_objInsertAll (m := []) hm).2 with h | h
      · obtain ⟨p, hp, h⟩ := List.mem_map.1 h
        obtain ⟨r, hr, rfl⟩ := List.mem_map.1 hp
        subst h
        exact ⟨r.2, wfObj_iff.1 hw.2 r hr, rfl⟩
      · simp at h
  | _ => rw [ofValue] at hd; cases hd

theorem IsLit.part {q p : Expr} (h : IsLit p) (hp : Spec.Part env q p) : IsLit q := by
  induction hp with
  | self => exact h
  | inside _ hd ih => exact ih (h.direct hd)

theorem settled_direct {e e' q : Expr} (hs : Settled (Becomes env c) e e') (hd : Direct env q e') :
    IsLit q ∨ Direct env q e := by
  cases hs with
  | same => exact .inr hd
  | array hf =>
    cases hd with
    | array hm =>
      obtain ⟨_, _, h⟩ := forall₂_mem hf _ hm
      exact .inl h.lit
  | object hf =>
    cases hd with
    | key hm =>
      rcases (mem_objInsertAll (m := []) hm).1 with h | h
      · obtain ⟨p, hp, h⟩ := List.mem_map.1 h
        obtain ⟨a, _, hk, _⟩ := forall₂_mem hf _ hp
        rw [h] at hk
        revert hk
        generalize a.1 = y
        intro hk
        cases hk with
        | expr he => exact .inl he.lit
      · simp at h
    | value hm =>
      rcases (mem_objInsertAll (m := []) hm).2 with h | h
      · obtain ⟨p, hp, h⟩ := List.mem_map.1 h
        obtain ⟨_, _, _, hv⟩ := forall₂_mem hf _ hp
        rw [h] at hv
        exact .inl hv.lit
      · simp at h
  | traversal hf => 
    cases hd with
    | traversal => exact .inr .traversal
    | index hm =>
      obtain ⟨o, ho, h⟩ := forall₂_mem hf _ hm
      cases h with
      | same => exact .inr (.index ho)
      | index he => exact .inl he.lit
  | call hf =>
    cases hd with
    | arg hm =>
      obtain ⟨_, _, h⟩ := forall₂_mem hf _ hm
      exact .inl h.lit
  | paren he => cases hd; exact .inl he.lit
  | condTrue h1 h2 =>
    cases hd with
    | cond => exact .inl h1.lit
    | whenTrue => exact .inl h2.lit
    | whenFalse => exact .inr .whenFalse
  | condFalse h1 h2 =>
    cases hd with
    | cond => exact .inl h1.lit
    | whenTrue => exact .inr .whenTrue
    | whenFalse => exact .inl h2.lit
  | unary he => cases hd; exact .inl he.lit
  | binary h1 h2 =>
    cases hd with
    | lhs => exact .inl h1.lit
    | rhs => exact .inl h2.lit
  | forE he =>
    cases hd with
    | forColl => exact .inl he.lit
    | forKey => exact .inr .forKey
    | forValue => exact .inr .forValue
    | forCond => exact .inr .forCond

theorem settled_raises {B : Expr → Expr → Prop} {e e' : Expr} {k : EvalErr} (hs : Settled B e e') (h : Raises e' k) :
    Raises e k := by
  cases hs with
  | same => exact h
  | array => cases k <;> exact h
  | object => cases k <;> exact h
  | traversal hf =>
    have hne : ∀ {o o' : List TravOp}, List.Forall₂ (SettledOp B) o o' → o' ≠ [] → o ≠ [] := by
      intro o o' h h' h''; subst h''; cases h; exact h' rfl
    cases k <;> simp only [Raises] at h ⊢ <;> first | exact hne hf h | exact ⟨hne hf h.1, h.2⟩
  | call hf =>
    have hne : ∀ {o o' : List Expr}, List.Forall₂ B o o' → o' ≠ [] → o ≠ [] := by
      intro o o' h h' h''; subst h''; cases h; exact h' rfl
    cases k <;> simp only [Raises] at h ⊢ <;> first | exact h | exact ⟨h.1, hne hf h.2.1, h.2.2⟩
  | paren => cases k <;> exact h
  | condTrue => cases k <;> exact h
  | condFalse => cases k <;> exact h
  | unary => cases k <;> exact h
  | binary => cases k <;> exact h
  | forE => cases k <;> exact h

theorem settled_loops {B : Expr → Expr → Prop} {e e' : Expr} (hs : Settled B e e') (h : Loops e') : Loops e := by
  cases hs <;> exact h

end

/-! ### Where the errors come from -/

/-- What is known of an error `(k, x)` of the in-place evaluation of `e` in the context `c`. -/
def GoodP (env : Env) (c : LCtx) (e : Expr) (k : EvalErr) (x : Option Expr) : Prop :=
  (x = none ∧ ∃ t msg, Spec.Part env (.template t) e ∧ env.parseTemplate t.asStr = .error msg ∧ k = .message msg) ∨
  ∃ y d, Spec.Part env y e ∧ Raises y k ∧ eval env (d ++ c.plain) y = .error (.err k) ∧
    ((y = e ∧ x = c.expr ∧ x ≠ none) ∨
      ∃ p p' d', x = some p' ∧ Spec.Part env p e ∧ Settled (Becomes env (d' ++ c.plain)) p p' ∧
        (Direct env y p ∨ (p = y ∧ ((y = e ∧ c.expr = none) ∨ Loops y))))

section
variable {env : Env} {c : LCtx} {e e' q : Expr} {k : EvalErr} {x : Option Expr}

theorem GoodP.lift (hq : Direct env q e) (h : GoodP env (c.childWith e) q k x) : GoodP env c e k x := by
  have hpart : ∀ {a}, Spec.Part env a q → Spec.Part env a e := fun h => h.trans (.inside .self hq)
  have hplain : ∀ d : Ctx, d ++ (c.childWith e).plain = (d ++ [⟨[], []⟩]) ++ c.plain := fun d => by
    simp [LCtx.plain, LCtx.childWith]
  rcases h with ⟨hx, t, msg, ht, hp, hk⟩ | ⟨y, d, hy, hr, hev, hx⟩
  · exact .inl ⟨hx, t, msg, hpart ht, hp, hk⟩
  · rw [hplain] at hev
    refine .inr ⟨y, _, hpart hy, hr, hev, .inr ?_⟩
    rcases hx with ⟨hyq, hx, _⟩ | ⟨p, p', d', hx, hp, hs, hyp⟩
    · exact ⟨e, e, [], hx, .self, .same e, .inl (hyq ▸ hq)⟩
    · rw [hplain] at hs
      refine ⟨p, p', _, hx, hpart hp, hs, hyp.imp id fun ⟨h1, h2⟩ => ⟨h1, ?_⟩⟩
      rcases h2 with ⟨_, h2⟩ | h2
      · cases h2
      · exact .inr h2

/-- The error of the expression in its new form. -/
theorem good_settled (hn : ∀ e q, Spec.Part env e q → ¬ Direct env q e)
    (hs : Settled (Becomes env c.plain) e e') (hsame : eval env c.plain e' = eval env c.plain e)
    (he : eval env c.plain e' = .error (.err k)) (h : Good env c e' k x) : GoodP env c e k x := by
  have hnl : ∀ {y : Expr} {d : Ctx} {f : Fail}, eval env d y = .error f → ¬ IsLit y := by
    intro y d f h hl
    obtain ⟨v, hv⟩ := hl.eval (env := env) d
    rw [hv] at h
    cases h
  -- a part of the new expression is the expression, a literal, or a part of the old one
  have hpart : ∀ {y}, Spec.Part env y e' → y = e' ∨ IsLit y ∨ Spec.Part env y e := by
    intro y hy
    cases hy with
    | self => exact .inl rfl
    | inside h1 h2 =>
      rcases settled_direct hs h2 with hl | hd
      · exact .inr (.inl (hl.part h1))
      · exact .inr (.inr (.inside h1 hd))
  rcases h with ⟨hx, t, msg, ht, hp, hk⟩ | ⟨y, d, hy, hr, hev, hx⟩
  · left
    refine ⟨hx, t, msg, ?_, hp, hk⟩
    rcases hpart ht with h | ⟨w, _, h⟩ | h
    · subst h
      cases hs
      exact .self
    · cases w <;> cases h
    · exact h
  · right
    by_cases hye : y = e'
    · subst hye
      refine ⟨e, [], .self, settled_raises hs hr, hsame ▸ he, ?_⟩
      rcases hx with ⟨_, hx, hx'⟩ | ⟨hx, hl⟩ | ⟨p, _, _, hp, hyp, _⟩
      · exact .inl ⟨rfl, hx, hx'⟩
      · exact .inr ⟨e, y, [], hx, .self, hs, .inr ⟨rfl, hl.imp (fun h => ⟨rfl, h.2⟩) (settled_loops hs)⟩⟩
      · exact absurd hyp (hn _ _ hp)
    · rcases hpart hy with h | h | hy'
      · exact absurd h hye
      · exact absurd h (hnl hev)
      · refine ⟨y, d, hy', hr, hev, ?_⟩
        rcases hx with ⟨h, _⟩ | ⟨hx, hl⟩ | ⟨p, _, hx, hp, hyp, _⟩
        · exact absurd h hye
        · refine .inr ⟨y, y, [], hx, hy', .same y, .inr ⟨rfl, hl.imp (fun h => absurd h.1 hye) id⟩⟩
        · rcases hpart hp with h | h | hp'
          · subst h
            rcases settled_direct hs hyp with h | h
            · exact absurd h (hnl hev)
            · exact .inr ⟨e, p, [], hx, .self, hs, .inl h⟩
          · exact absurd (h.direct hyp) (hnl hev)
          · exact .inr ⟨p, p, [], hx, hp', .same p, .inl hyp⟩
end

/-! ### In-place evaluation, with and without the expressions -/

/-- Same outcome, and `P` holds of the errors. -/
inductive LocatedP (P : EvalErr → Option Expr → Prop) {α : Type} : LPlaced α → Placed α → Prop
  | ok (a : α) (errs : List LErr) : (∀ q ∈ errs, P q.1 q.2) →
      LocatedP P (.ok (a, errs)) (.ok (a, errs.map Prod.fst))
  | fail (f : Fail) : LocatedP P (.error f) (.error f)

/-- From some depth of recursion on. -/
def Eventually (p : Nat → Prop) : Prop := ∃ d, ∀ n, d ≤ n → p n

theorem Eventually.of {p : Nat → Prop} (h : ∀ n, p n) : Eventually p := ⟨0, fun n _ => h n⟩

theorem Eventually.and {p q : Nat → Prop} (h : Eventually p) (h' : Eventually q) :
    Eventually fun n => p n ∧ q n := by
  obtain ⟨a, ha⟩ := h
  obtain ⟨b, hb⟩ := h'
  exact ⟨max a b, fun n hn => ⟨ha n (by omega), hb n (by omega)⟩⟩

theorem Eventually.imp {p q : Nat → Prop} (h : Eventually p) (h' : ∀ n, p n → q n) : Eventually q := by
  obtain ⟨a, ha⟩ := h
  exact ⟨a, fun n hn => h' n (ha n hn)⟩

section
variable {P Q : EvalErr → Option Expr → Prop} {α β γ : Type}

theorem LocatedP.mono {l : LPlaced α} {r : Placed α} (h : LocatedP P l r) (hpq : ∀ k x, P k x → Q k x) :
    LocatedP Q l r := by
  cases h with
  | ok a errs h => exact .ok a errs fun q hq => hpq _ _ (h q hq)
  | fail f => exact .fail f

theorem LocatedP.inv_ok {l : LPlaced α} {a : α} {es : List EvalErr} (h : LocatedP P l (.ok (a, es))) :
    ∃ errs : List LErr, l = .ok (a, errs) ∧ es = errs.map Prod.fst ∧ ∀ q ∈ errs, P q.1 q.2 := by
  generalize hr : (Except.ok (a, es) : Placed α) = r at h
  cases h with
  | fail f => cases hr
  | ok a' errs he =>
    injection hr with hr; injection hr with h1 h2
    exact ⟨errs, by rw [h1], h2, he⟩

theorem LocatedP.inv_fail {l : LPlaced α} {f : Fail} (h : LocatedP P l (.error f)) : l = .error f := by
  cases h; rfl

/-- One place after the other; the errors are concatenated. -/
theorem LocatedP.seq {l : LPlaced α} {r : Placed α} {l' : α → LPlaced β} {r' : α → Placed β} (mk : α → β → γ)
    (h : LocatedP P l r) (h' : ∀ a errs, r = .ok (a, errs) → LocatedP P (l' a) (r' a)) :
    LocatedP P (R.bind l fun a => R.bind (l' a.1) fun b => .ok (mk a.1 b.1, a.2 ++ b.2))
      (R.bind r fun a => R.bind (r' a.1) fun b => .ok (mk a.1 b.1, a.2 ++ b.2)) := by
  cases h with
  | fail f => exact .fail f
  | ok a errs h =>
    have := h' a _ rfl
    simp only [R.bind]
    generalize l' a = x at this
    generalize r' a = y at this
    cases this with
    | fail f => exact .fail f
    | ok b errs' hb =>
      dsimp only
      rw [← List.map_append]
      exact .ok _ _ fun q hq => (List.mem_append.1 hq).elim (h q) (hb q)

theorem LocatedP.map {l : LPlaced α} {r : Placed α} (mk : α → β) (h : LocatedP P l r) :
    LocatedP P (R.bind l fun a => .ok (mk a.1, a.2)) (R.bind r fun a => .ok (mk a.1, a.2)) := by
  cases h with
  | fail f => exact .fail f
  | ok a errs h => exact .ok _ _ h

theorem LocatedP.placed {now : β} {l : L α} {r : R α} {f : α → LPlaced β} {g : α → Placed β} (h : Located P l r)
    (h' : ∀ a, r = .ok a → LocatedP P (f a) (g a)) : LocatedP P (Loc.placed now l f) (Verif.placed now r g) := by
  cases h with
  | ok a => exact h' a rfl
  | @err k x h => exact .ok now [(k, x)] fun q hq => by cases List.mem_singleton.1 hq; exact h
  | @fail f x h =>
    match f, h with
    | .err k, h => exact absurd rfl (h k)
    | .panic, _ => exact .fail _
    | .timeout, _ => exact .fail _
end

section
variable {env : Env}

/-- What is known about the parser and about evaluation with enough depth. -/
structure Nice (env : Env) : Prop where
  nest : ∀ e q, Spec.Part env e q → ¬ Direct env q e
  eval : ∀ c e, Eventually fun n => Located (Good env c e) ((Loc.evalF env n).expr c e) (Verif.eval env c.plain e)

/-- The end of an in-place evaluation. -/
theorem finish_agree (hN : Nice env) {c : LCtx} {e : Expr} {α : Type} (mk : α → Expr) {l : Nat → LPlaced α}
    {r : Placed α} (h : Eventually fun n => LocatedP (GoodP env c e) (l n) r)
    (hs : ∀ a, r = .ok (a, []) → Settled (Becomes env c.plain) e (mk a))
    (hu : ∀ es, e = .object es → UniformKeys env c.plain es) :
    Eventually fun n => LocatedP (GoodP env c e)
      (R.bind (l n) fun r => Loc.finishPlace (Loc.evalF env n) c (mk r.1, r.2))
      (R.bind r fun r => finishPlace (evalRec env) c.plain (mk r.1, r.2)) := by
  match r, h, hs with
  | .error f, h, _ => exact h.imp fun n hl => by rw [hl.inv_fail]; exact .fail f
  | .ok (a, k :: ks), h, _ =>
    refine h.imp fun n hl => ?_
    obtain ⟨errs, hl, h2, he⟩ := hl.inv_ok
    rw [hl]
    match errs, h2, he with
    | q :: errs, h2, he =>
      have := LocatedP.ok (P := GoodP env c e) (mk a) (q :: errs) he
      rw [← h2] at this
      exact this
  | .ok (a, []), h, hs =>
    have hset := hs a rfl
    have hsame := settled_same hset hu
    refine (h.and (hN.eval c (mk a))).imp fun n ⟨hl, hev⟩ => ?_
    obtain ⟨errs, hl, h2, he⟩ := hl.inv_ok
    rw [hl]
    match errs, h2 with
    | [], _ =>
      refine LocatedP.placed (hev.mono fun k x hk hg => good_settled hN.nest hset hsame hk hg) fun v _ => ?_
      exact .ok _ [] (by simp)

theorem bind_map_eq {α β γ : Type} (a : R α) (f : α → R β) (g : β → R γ) :
    R.bind (R.bind a f) g = R.bind a fun x => R.bind (f x) g := by
  cases a <;> rfl

abbrev childWF {c : LCtx} {e : Expr} (h : CtxWF c.plain) : CtxWF (c.childWith e).plain := h.child

mutual
theorem inPlace_agree (hN : Nice env) : ∀ (e : Expr) (c : LCtx), CtxWF c.plain → Uniform env c.plain e →
    Eventually fun n => LocatedP (GoodP env c e) (Loc.inPlace (Loc.evalF env n) c e) (inPlace (evalRec env) c.plain e)
  | .null, _, _, _ => .of fun _ => .ok _ [] (by simp)
  | .bool _, _, _, _ => .of fun _ => .ok _ [] (by simp)
  | .number _, _, _, _ => .of fun _ => .ok _ [] (by simp)
  | .string _, _, _, _ => .of fun _ => .ok _ [] (by simp)
  | .array xs, c, hc, hu => by
    have hu' : ∀ e ∈ xs, Uniform env c.plain.child e := fun e he => Uniform.child fun es hw => hu es (.array he hw)
    have ih := inPlaceList_agree hN xs (c.childWith (.array xs)) hc.child hu'
    exact finish_agree hN Expr.array
      (ih.imp fun n h => h.mono fun k x ⟨q, hq, hg⟩ => hg.lift (.array hq))
      (fun a ha => .array ((inPlaceList_becomes xs _ a hc.child hu' ha).imp fun _ _ => Becomes.child.1)) (by nofun)
  | .object es, c, hc, hu => by
    have hk : ∀ e v, (ObjKey.expr e, v) ∈ es → Uniform env c.plain.child e :=
      fun e v hm => Uniform.child fun es hw => hu es (.key hm hw)
    have hv : ∀ k e, (k, e) ∈ es → Uniform env c.plain.child e :=
      fun k e hm => Uniform.child fun es hw => hu es (.value hm hw)
    have ih := inPlaceEntries_agree hN es (c.childWith (.object es)) [] hc.child hk hv
    refine finish_agree hN Expr.object
      (ih.imp fun n h => h.mono fun k x hg => ?_) (fun a ha => ?_) (fun es' h => by cases h; exact hu es .self)
    · rcases hg with ⟨q, v, hq, hg⟩ | ⟨k, q, hq, hg⟩
      · exact hg.lift (.key hq)
      · exact hg.lift (.value hq)
    · obtain ⟨new, hf, hnew⟩ := inPlaceEntries_becomes es _ [] a hc.child hk hv ha
      rw [hnew]
      refine .object (hf.imp fun a b hab => ⟨?_, Becomes.child.1 hab.2⟩)
      have hk := hab.1
      revert hk
      generalize a.1 = x
      generalize b.1 = y
      intro hk
      cases hk with
      | ident x => exact .ident x
      | expr he => exact .expr (Becomes.child.1 he)
  | .template t, c, hc, hu =>
    finish_agree hN (l := fun _ => .ok (Expr.template t, [])) (r := .ok (Expr.template t, [])) id
      (.of fun _ => .ok _ [] (by simp)) (fun a ha => by cases ha; exact .same _) (by nofun)
  | .var x, c, hc, hu =>
    finish_agree hN (l := fun _ => .ok (Expr.var x, [])) (r := .ok (Expr.var x, [])) id
      (.of fun _ => .ok _ [] (by simp)) (fun a ha => by cases ha; exact .same _) (by nofun)
  | .traversal e ops, c, hc, hu => by
    have hu' : ∀ i, TravOp.index i ∈ ops → Uniform env c.plain.child i :=
      fun i hi => Uniform.child fun es hw => hu es (.index hi hw)
    have ih := inPlaceOps_agree hN ops (c.childWith (.traversal e ops)) hc.child hu'
    refine finish_agree hN (Expr.traversal e)
      (ih.imp fun n h => h.mono fun k x ⟨q, hq, hg⟩ => hg.lift (.index hq)) (fun a ha => ?_) (by nofun)
    refine .traversal ((inPlaceOps_becomes ops _ a hc.child hu' ha).imp fun _ _ h => ?_)
    cases h with
    | same => exact .same _
    | index he => exact .index (Becomes.child.1 he)
  | .call f args y, c, hc, hu => by
    have hu' : ∀ e ∈ args, Uniform env c.plain.child e := fun e he => Uniform.child fun es hw => hu es (.arg he hw)
    have ih := inPlaceList_agree hN args (c.childWith (.call f args y)) hc.child hu'
    exact finish_agree hN (fun a => Expr.call f a y)
      (ih.imp fun n h => h.mono fun k x ⟨q, hq, hg⟩ => hg.lift (.arg hq))
      (fun a ha => .call ((inPlaceList_becomes args _ a hc.child hu' ha).imp fun _ _ => Becomes.child.1)) (by nofun)
  | .paren e, c, hc, hu => by
    have hu' : Uniform env c.plain.child e := Uniform.child fun es hw => hu es (.paren hw)
    have ih := inPlace_agree hN e (c.childWith (.paren e)) hc.child hu'
    exact finish_agree hN Expr.paren (ih.imp fun n h => h.mono fun k x hg => hg.lift .paren)
      (fun a ha => .paren (Becomes.child.1 (inPlace_becomes e _ a hc.child hu' ha))) (by nofun)
  | .cond q t f, c, hc, hu => by
    have ht : Uniform env c.plain.child t := Uniform.child fun es hw => hu es (.condT hw)
    have hf : Uniform env c.plain.child f := Uniform.child fun es hw => hu es (.condF hw)
    have iht := inPlace_agree hN t (c.childWith (.cond q t f)) hc.child ht
    have ihf := inPlace_agree hN f (c.childWith (.cond q t f)) hc.child hf
    have hb : Eventually fun n => Located (GoodP env c (.cond q t f))
        (Loc.evalBool (Loc.evalF env n) (c.childWith (.cond q t f)) q)
        (evalBool (evalRec env) (c.childWith (.cond q t f)).plain q) := by
      refine (hN.eval (c.childWith (.cond q t f)) q).imp fun n h => ?_
      have h1 : Located (fun k x => (Good env (c.childWith (.cond q t f)) q k x ∧
          eval env (c.childWith (.cond q t f)).plain q = .error (.err k)) ∨
          ((∃ v, k = .unexpected v c!"a boolean") ∧ x = (c.childWith (.cond q t f)).blamed))
          (Loc.evalBool (Loc.evalF env n) (c.childWith (.cond q t f)) q)
          (evalBool (evalRec env) (c.childWith (.cond q t f)).plain q) :=
        evalBool_agree (h.mono fun _ _ hk h => .inl ⟨h, hk⟩) fun v => .inr ⟨⟨v, rfl⟩, rfl⟩
      refine h1.mono fun k x hk hg => ?_
      rcases hg with ⟨hg, hq⟩ | ⟨⟨v, rfl⟩, rfl⟩
      · exact (good_settled hN.nest (.same q) rfl hq hg).lift .cond
      · have he : eval env c.plain (.cond q t f) = .error (.err (.unexpected v c!"a boolean")) := by
          have hk : evalBool (evalRec env) c.plain.child q = _ := hk
          rw [evalBool_child] at hk
          rw [eval_cond, hk]
          rfl
        refine .inr ⟨_, [], .self, rfl, he, ?_⟩
        have : (c.childWith (.cond q t f)).blamed = match c.expr with | some p => some p | none => some (.cond q t f) :=
          rfl
        rw [this]
        cases hx : c.expr with
        | none => exact .inr ⟨_, _, [], rfl, .self, .same _, .inr ⟨rfl, .inl ⟨rfl, rfl⟩⟩⟩
        | some p => exact .inl ⟨rfl, rfl, by nofun⟩
    have hq : ∀ b, evalBool (evalRec env) c.plain.child q = .ok b → Becomes env c.plain q (.bool b) := by
      intro b hb
      rw [evalBool_child] at hb
      have hb : R.bind (eval env c.plain q) _ = Except.ok b := hb
      obtain ⟨v, hv, hb⟩ := bind_ok hb
      refine ⟨v, hv, eval_wf hc hv, ?_⟩
      cases v with
      | bool b' => cases hb; rfl
      | _ => cases hb
    cases hbv : evalBool (evalRec env) c.plain.child q with
    | error f' => exact hb.imp fun n h => LocatedP.placed h fun b hb' => by cases hbv.symm.trans hb'
    | ok b =>
      cases b with
      | true =>
        have h1 := finish_agree hN (c := c) (e := .cond q t f) (fun a => Expr.cond (.bool true) a f)
          (iht.imp fun n h => h.mono fun k x hg => hg.lift .whenTrue)
          (fun a ha => .condTrue (hq _ hbv) (Becomes.child.1 (inPlace_becomes t _ a hc.child ht ha))) (by nofun)
        exact (hb.and h1).imp fun n ⟨h, h'⟩ => LocatedP.placed h fun b hb' => by
          cases hbv.symm.trans hb'
          exact h'
      | false =>
        have h1 := finish_agree hN (c := c) (e := .cond q t f) (fun a => Expr.cond (.bool false) t a)
          (ihf.imp fun n h => h.mono fun k x hg => hg.lift .whenFalse)
          (fun a ha => .condFalse (hq _ hbv) (Becomes.child.1 (inPlace_becomes f _ a hc.child hf ha))) (by nofun)
        exact (hb.and h1).imp fun n ⟨h, h'⟩ => LocatedP.placed h fun b hb' => by
          cases hbv.symm.trans hb'
          exact h'
  | .unary o e, c, hc, hu => by
    have hu' : Uniform env c.plain.child e := Uniform.child fun es hw => hu es (.unary hw)
    have ih := inPlace_agree hN e (c.childWith (.unary o e)) hc.child hu'
    exact finish_agree hN (Expr.unary o) (ih.imp fun n h => h.mono fun k x hg => hg.lift .unary)
      (fun a ha => .unary (Becomes.child.1 (inPlace_becomes e _ a hc.child hu' ha))) (by nofun)
  | .binary l o r, c, hc, hu => by
    have hl : Uniform env c.plain.child l := Uniform.child fun es hw => hu es (.left hw)
    have hr : Uniform env c.plain.child r := Uniform.child fun es hw => hu es (.right hw)
    have ihl := inPlace_agree hN l (c.childWith (.binary l o r)) hc.child hl
    have ihr := inPlace_agree hN r (c.childWith (.binary l o r)) hc.child hr
    have := finish_agree hN (c := c) (e := .binary l o r) (fun a : Expr × Expr => Expr.binary a.1 o a.2)
      (l := fun n => R.bind (Loc.inPlace (Loc.evalF env n) (c.childWith (.binary l o r)) l) fun a =>
        R.bind (Loc.inPlace (Loc.evalF env n) (c.childWith (.binary l o r)) r) fun b => .ok ((a.1, b.1), a.2 ++ b.2))
      (r := R.bind (inPlace (evalRec env) c.plain.child l) fun a =>
        R.bind (inPlace (evalRec env) c.plain.child r) fun b => .ok ((a.1, b.1), a.2 ++ b.2))
      ((ihl.and ihr).imp fun n ⟨h1, h2⟩ => LocatedP.seq (fun a b => (a, b))
        (h1.mono fun _ _ hg => hg.lift .lhs) fun _ _ _ => h2.mono fun _ _ hg => hg.lift .rhs)
      (fun a ha => by
        obtain ⟨⟨l1, e1⟩, h1, h⟩ := bind_ok ha
        obtain ⟨⟨r1, e2⟩, h2, h⟩ := bind_ok h
        injection h with h; injection h with h herr
        obtain ⟨rfl, rfl⟩ : e1 = [] ∧ e2 = [] := by simpa using herr
        subst h
        exact .binary (Becomes.child.1 (inPlace_becomes l _ _ hc.child hl h1))
          (Becomes.child.1 (inPlace_becomes r _ _ hc.child hr h2))) (by nofun)
    simp only [bind_map_eq, R.bind.eq_2] at this
    exact this
  | .forE k y coll ke ve g ce, c, hc, hu => by
    have hu' : Uniform env c.plain.child coll := Uniform.child fun es hw => hu es (.coll hw)
    have ih := inPlace_agree hN coll (c.childWith (.forE k y coll ke ve g ce)) hc.child hu'
    exact finish_agree hN (fun a => Expr.forE k y a ke ve g ce)
      (ih.imp fun n h => h.mono fun k x hg => hg.lift .forColl)
      (fun a ha => .forE (Becomes.child.1 (inPlace_becomes coll _ a hc.child hu' ha))) (by nofun)
theorem inPlaceList_agree (hN : Nice env) : ∀ (xs : List Expr) (c : LCtx), CtxWF c.plain →
    (∀ e ∈ xs, Uniform env c.plain e) →
    Eventually fun n => LocatedP (fun k x => ∃ q ∈ xs, GoodP env c q k x)
      (Loc.inPlaceList (Loc.evalF env n) c xs) (inPlaceList (evalRec env) c.plain xs)
  | [], _, _, _ => .of fun _ => .ok _ [] (by simp)
  | x :: xs, c, hc, hu => by
    have h1 := inPlace_agree hN x c hc (hu x (List.mem_cons_self ..))
    have h2 := inPlaceList_agree hN xs c hc fun e he => hu e (List.mem_cons_of_mem _ he)
    exact (h1.and h2).imp fun n ⟨h1, h2⟩ => LocatedP.seq List.cons
      (h1.mono fun _ _ hg => ⟨x, List.mem_cons_self .., hg⟩)
      fun _ _ _ => h2.mono fun _ _ ⟨q, hq, hg⟩ => ⟨q, List.mem_cons_of_mem _ hq, hg⟩
theorem inPlaceEntries_agree (hN : Nice env) : ∀ (es : List (ObjKey × Expr)) (c : LCtx)
    (new : List (ObjKey × Expr)), CtxWF c.plain →
    (∀ e v, (ObjKey.expr e, v) ∈ es → Uniform env c.plain e) → (∀ k e, (k, e) ∈ es → Uniform env c.plain e) →
    Eventually fun n => LocatedP (fun k x => (∃ q v, (ObjKey.expr q, v) ∈ es ∧ GoodP env c q k x) ∨
        ∃ k' q, (k', q) ∈ es ∧ GoodP env c q k x)
      (Loc.inPlaceEntries (Loc.evalF env n) c es new) (inPlaceEntries (evalRec env) c.plain es new)
  | [], _, _, _, _, _ => .of fun _ => .ok _ [] (by simp)
  | (k, v) :: es, c, new, hc, hk, hv => by
    have h1 := inPlaceKey_agree hN k c hc fun e he => hk e v (by rw [he]; exact List.mem_cons_self ..)
    have h2 := inPlace_agree hN v c hc (hv k v (List.mem_cons_self ..))
    rw [inPlaceEntries]
    cases hK : inPlaceKey (evalRec env) c.plain k with
    | error f =>
      refine h1.imp fun n h => ?_
      rw [hK] at h
      rw [Loc.inPlaceEntries, h.inv_fail]
      exact .fail f
    | ok a =>
      obtain ⟨k1, e1⟩ := a
      cases hV : inPlace (evalRec env) c.plain v with
      | error f =>
        refine (h1.and h2).imp fun n ⟨h1, h2⟩ => ?_
        rw [hK] at h1
        rw [hV] at h2
        obtain ⟨errs, h1, _⟩ := h1.inv_ok
        rw [Loc.inPlaceEntries, h1, h2.inv_fail]
        exact .fail f
      | ok b =>
        obtain ⟨v1, e2⟩ := b
        have h3 := inPlaceEntries_agree hN es c (objInsert k1 v1 new) hc
          (fun e w hm => hk e w (List.mem_cons_of_mem _ hm)) (fun k e hm => hv k e (List.mem_cons_of_mem _ hm))
        refine (h1.and (h2.and h3)).imp fun n ⟨h1, h2, h3⟩ => ?_
        rw [hK] at h1
        rw [hV] at h2
        obtain ⟨errs1, l1, rfl, g1⟩ := h1.inv_ok
        obtain ⟨errs2, l2, rfl, g2⟩ := h2.inv_ok
        rw [Loc.inPlaceEntries, l1, l2]
        simp only [R.bind]
        generalize Loc.inPlaceEntries (Loc.evalF env n) c es (objInsert k1 v1 new) = l at h3
        generalize inPlaceEntries (evalRec env) c.plain es (objInsert k1 v1 new) = r at h3
        cases h3 with
        | fail f => exact .fail f
        | ok a errs3 g3 =>
          dsimp only
          rw [← List.map_append, ← List.map_append]
          refine .ok _ _ fun q hq => ?_
          rcases List.mem_append.1 hq with hq | hq
          · rcases List.mem_append.1 hq with hq | hq
            · obtain ⟨y, rfl, hg⟩ := g1 q hq
              exact .inl ⟨y, v, List.mem_cons_self .., hg⟩
            · exact .inr ⟨k, v, List.mem_cons_self .., g2 q hq⟩
          · rcases g3 q hq with ⟨y, w, hm, hg⟩ | ⟨k', y, hm, hg⟩
            · exact .inl ⟨y, w, List.mem_cons_of_mem _ hm, hg⟩
            · exact .inr ⟨k', y, List.mem_cons_of_mem _ hm, hg⟩
theorem inPlaceKey_agree (hN : Nice env) : ∀ (k : ObjKey) (c : LCtx), CtxWF c.plain →
    (∀ e, k = .expr e → Uniform env c.plain e) →
    Eventually fun n => LocatedP (fun k' x => ∃ q, k = .expr q ∧ GoodP env c q k' x)
      (Loc.inPlaceKey (Loc.evalF env n) c k) (inPlaceKey (evalRec env) c.plain k)
  | .ident _, _, _, _ => .of fun _ => .ok _ [] (by simp)
  | .expr e, c, hc, hu =>
    (inPlace_agree hN e c hc (hu e rfl)).imp fun n h => (h.mono fun _ _ hg => ⟨e, rfl, hg⟩).map ObjKey.expr
theorem inPlaceOps_agree (hN : Nice env) : ∀ (os : List TravOp) (c : LCtx), CtxWF c.plain →
    (∀ i, TravOp.index i ∈ os → Uniform env c.plain i) →
    Eventually fun n => LocatedP (fun k x => ∃ q, TravOp.index q ∈ os ∧ GoodP env c q k x)
      (Loc.inPlaceOps (Loc.evalF env n) c os) (inPlaceOps (evalRec env) c.plain os)
  | [], _, _, _ => .of fun _ => .ok _ [] (by simp)
  | o :: os, c, hc, hu => by
    have h1 := inPlaceOp_agree hN o c hc fun i hi => hu i (by rw [hi]; exact List.mem_cons_self ..)
    have h2 := inPlaceOps_agree hN os c hc fun i hi => hu i (List.mem_cons_of_mem _ hi)
    exact (h1.and h2).imp fun n ⟨h1, h2⟩ => LocatedP.seq List.cons
      (h1.mono fun _ _ ⟨q, hq, hg⟩ => ⟨q, by rw [hq]; exact List.mem_cons_self .., hg⟩)
      fun _ _ _ => h2.mono fun _ _ ⟨q, hq, hg⟩ => ⟨q, List.mem_cons_of_mem _ hq, hg⟩
theorem inPlaceOp_agree (hN : Nice env) : ∀ (o : TravOp) (c : LCtx), CtxWF c.plain →
    (∀ i, o = .index i → Uniform env c.plain i) →
    Eventually fun n => LocatedP (fun k x => ∃ q, o = .index q ∧ GoodP env c q k x)
      (Loc.inPlaceOp (Loc.evalF env n) c o) (inPlaceOp (evalRec env) c.plain o)
  | .index e, c, hc, hu =>
    (inPlace_agree hN e c hc (hu e rfl)).imp fun n h => (h.mono fun _ _ hg => ⟨e, rfl, hg⟩).map TravOp.index
  | .attrSplat, _, _, _ => .of fun _ => .ok _ [] (by simp)
  | .fullSplat, _, _, _ => .of fun _ => .ok _ [] (by simp)
  | .getAttr _, _, _, _ => .of fun _ => .ok _ [] (by simp)
  | .legacyIndex _, _, _, _ => .of fun _ => .ok _ [] (by simp)
end

mutual
theorem inPlaceTmpl_agree (hN : Nice env) : ∀ (els : List Elem) (c : LCtx), CtxWF c.plain →
    (∀ e, InElems e els → Uniform env c.plain e) →
    Eventually fun n => LocatedP (fun k x => ∃ q, InElems q els ∧ GoodP env c q k x)
      (Loc.inPlaceTmpl (Loc.evalF env n) c els) (inPlaceTmpl (evalRec env) c.plain els)
  | [], _, _, _ => .of fun _ => .ok _ [] (by simp)
  | el :: els, c, hc, hu => by
    have hsub : ∀ {q l}, (∀ e ∈ l, e ∈ el :: els) → InElems q l → InElems q (el :: els) := by
      intro q l hs h
      cases h with
      | interp hm => exact .interp (hs _ hm)
      | ifCond hm => exact .ifCond (hs _ hm)
      | ifTrue hm h => exact .ifTrue (hs _ hm) h
      | ifFalse hm h => exact .ifFalse (hs _ hm) h
      | forColl hm => exact .forColl (hs _ hm)
      | forBody hm h => exact .forBody (hs _ hm) h
    have h1 : ∀ {q}, InElems q [el] → InElems q (el :: els) := hsub (by simp)
    have h2 : ∀ {q}, InElems q els → InElems q (el :: els) := hsub (by simp +contextual)
    have i1 := inPlaceElem_agree hN el c hc fun e he => hu e (h1 he)
    have i2 := inPlaceTmpl_agree hN els c hc fun e he => hu e (h2 he)
    exact (i1.and i2).imp fun n ⟨i1, i2⟩ => LocatedP.seq List.cons
      (i1.mono fun _ _ ⟨q, hq, hg⟩ => ⟨q, h1 hq, hg⟩) fun _ _ _ => i2.mono fun _ _ ⟨q, hq, hg⟩ => ⟨q, h2 hq, hg⟩
theorem inPlaceElem_agree (hN : Nice env) : ∀ (el : Elem) (c : LCtx), CtxWF c.plain →
    (∀ e, InElems e [el] → Uniform env c.plain e) →
    Eventually fun n => LocatedP (fun k x => ∃ q, InElems q [el] ∧ GoodP env c q k x)
      (Loc.inPlaceElem (Loc.evalF env n) c el) (inPlaceElem (evalRec env) c.plain el)
  | .lit _, _, _, _ => .of fun _ => .ok _ [] (by simp)
  | .interp e m, c, hc, hu => by
    have hi : InElems e [.interp e m] := .interp (List.mem_cons_self ..)
    exact (inPlace_agree hN e c hc (hu e hi)).imp fun n h =>
      (h.mono fun _ _ hg => ⟨e, hi, hg⟩).map fun a => Elem.interp a m
  | .ifDir q t f a b z, c, hc, hu => by
    have hq : InElems q [.ifDir q t f a b z] := .ifCond (List.mem_cons_self ..)
    have ht : ∀ {y}, InElems y t → InElems y [.ifDir q t f a b z] := fun h => .ifTrue (List.mem_cons_self ..) h
    have i1 := inPlace_agree hN q c hc (hu q hq)
    have i2 := inPlaceTmpl_agree hN t c hc fun e he => hu e (ht he)
    cases f with
    | none =>
      exact (i1.and i2).imp fun n ⟨i1, i2⟩ => LocatedP.seq (fun x y => Elem.ifDir x y none a b z)
        (i1.mono fun _ _ hg => ⟨q, hq, hg⟩) fun _ _ _ => i2.mono fun _ _ ⟨y, hy, hg⟩ => ⟨y, ht hy, hg⟩
    | some f =>
      have hf : ∀ {y}, InElems y f → InElems y [.ifDir q t (some f) a b z] :=
        fun h => .ifFalse (List.mem_cons_self ..) h
      have i3 := inPlaceTmpl_agree hN f c hc fun e he => hu e (hf he)
      refine (i1.and (i2.and i3)).imp fun n ⟨i1, i2, i3⟩ => ?_
      have := LocatedP.seq (P := fun k x => ∃ y, InElems y [.ifDir q t (some f) a b z] ∧ GoodP env c y k x)
        (fun x (y : List Elem × List Elem) => Elem.ifDir x y.1 (some y.2) a b z)
        (i1.mono fun _ _ hg => ⟨q, hq, hg⟩) fun _ _ _ => LocatedP.seq (fun x y => (x, y))
          (i2.mono fun _ _ ⟨y, hy, hg⟩ => ⟨y, ht hy, hg⟩) fun _ _ _ => i3.mono fun _ _ ⟨y, hy, hg⟩ => ⟨y, hf hy, hg⟩
      simp only [bind_map_eq, R.bind.eq_2, ← List.append_assoc] at this
      exact this
  | .forDir k y coll t a z, c, hc, hu => by
    have hq : InElems coll [.forDir k y coll t a z] := .forColl (List.mem_cons_self ..)
    have ht : ∀ {x}, InElems x t → InElems x [.forDir k y coll t a z] := fun h => .forBody (List.mem_cons_self ..) h
    have i1 := inPlace_agree hN coll c hc (hu coll hq)
    have i2 := inPlaceTmpl_agree hN t c hc fun e he => hu e (ht he)
    exact (i1.and i2).imp fun n ⟨i1, i2⟩ => LocatedP.seq (fun u w => Elem.forDir k y u w a z)
      (i1.mono fun _ _ hg => ⟨coll, hq, hg⟩) fun _ _ _ => i2.mono fun _ _ ⟨y, hy, hg⟩ => ⟨y, ht hy, hg⟩
end

mutual
theorem inPlaceBody_agree (hN : Nice env) : ∀ (b : List Struct) (c : LCtx), CtxWF c.plain →
    (∀ e ∈ attrsOf b, Uniform env c.plain e) →
    Eventually fun n => LocatedP (fun k x => ∃ q ∈ attrsOf b, GoodP env c q k x)
      (Loc.inPlaceBody (Loc.evalF env n) c b) (inPlaceBody (evalRec env) c.plain b)
  | [], _, _, _ => .of fun _ => .ok _ [] (by simp)
  | s :: ss, c, hc, hu => by
    have i1 := inPlaceStruct_agree hN s c hc fun e he => hu e (List.mem_append_left _ he)
    have i2 := inPlaceBody_agree hN ss c hc fun e he => hu e (List.mem_append_right _ he)
    exact (i1.and i2).imp fun n ⟨i1, i2⟩ => LocatedP.seq List.cons
      (i1.mono fun _ _ ⟨q, hq, hg⟩ => ⟨q, List.mem_append_left _ hq, hg⟩)
      fun _ _ _ => i2.mono fun _ _ ⟨q, hq, hg⟩ => ⟨q, List.mem_append_right _ hq, hg⟩
theorem inPlaceStruct_agree (hN : Nice env) : ∀ (s : Struct) (c : LCtx), CtxWF c.plain →
    (∀ e ∈ attrsOfStruct s, Uniform env c.plain e) →
    Eventually fun n => LocatedP (fun k x => ∃ q ∈ attrsOfStruct s, GoodP env c q k x)
      (Loc.inPlaceStruct (Loc.evalF env n) c s) (inPlaceStruct (evalRec env) c.plain s)
  | .attr k e, c, hc, hu => by
    have he : e ∈ attrsOfStruct (.attr k e) := by simp [attrsOfStruct]
    exact (inPlace_agree hN e c hc (hu e he)).imp fun n h =>
      (h.mono fun _ _ hg => ⟨e, he, hg⟩).map fun a => Struct.attr k a
  | .block i ls b, c, hc, hu =>
    (inPlaceBody_agree hN b c hc hu).imp fun n h => h.map fun a => Struct.block i ls a
end
end

/-! ### Failures that are no errors -/

section
variable {env : Env}

/-- What `f` says about an evaluation that failed other than with an error. -/
def BreaksIn (env : Env) (c : Ctx) (e : Expr) (f : Fail) : Prop :=
  f = .panic ∧ ∃ x scopes, Spec.Part env x e ∧ Breaks env (scopes ++ c) x

theorem BreaksIn.lift {c : Ctx} {q e : Expr} {f : Fail} (hq : Direct env q e) (h : BreaksIn env c.child q f) :
    BreaksIn env c e f := by
  obtain ⟨h, x, s, hx, hb⟩ := h
  exact ⟨h, x, s ++ [⟨[], []⟩], hx.trans (.inside .self hq), by simpa [Ctx.child] using hb⟩

/-- What is known about evaluation that fails other than with an error. -/
abbrev Sound (env : Env) : Prop := ∀ c e f, (∀ k, f ≠ .err k) → eval env c e = .error f → BreaksIn env c e f

theorem bind_fail {α β : Type} {a : R α} {g : α → R β} {f : Fail} (h : R.bind a g = .error f) :
    a = .error f ∨ ∃ x, a = .ok x ∧ g x = .error f := by
  cases a with
  | error f' => cases h; exact .inl rfl
  | ok x => exact .inr ⟨x, rfl, h⟩

theorem placed_fail {α β : Type} {now : β} {a : R α} {g : α → Placed β} {f : Fail} (h : placed now a g = .error f) :
    (a = .error f ∧ ∀ k, f ≠ .err k) ∨ ∃ x, a = .ok x ∧ g x = .error f := by
  match a, h with
  | .ok x, h => exact .inr ⟨x, rfl, h⟩
  | .error .panic, h => cases h; exact .inl ⟨rfl, by nofun⟩
  | .error .timeout, h => cases h; exact .inl ⟨rfl, by nofun⟩

theorem finish_fail (hS : Sound env) {c : Ctx} {e : Expr} {α : Type} (mk : α → Expr) {r : Placed α} {f : Fail}
    (h : R.bind r (fun r => finishPlace (evalRec env) c (mk r.1, r.2)) = .error f)
    (hr : r = .error f → BreaksIn env c e f)
    (hs : ∀ a, r = .ok (a, []) → Settled (Becomes env c) e (mk a))
    (hu : ∀ es, e = .object es → UniformKeys env c es) : BreaksIn env c e f := by
  rcases bind_fail h with h | ⟨⟨a, es⟩, h, h'⟩
  · exact hr h
  · cases es with
    | cons k ks => cases h'
    | nil =>
      rcases placed_fail h' with ⟨h', hf⟩ | ⟨v, _, h'⟩
      · exact hS c e f hf ((settled_same (hs a h) hu).symm.trans h')
      · cases h'

mutual
theorem inPlace_fail (hS : Sound env) : ∀ (e : Expr) (c : Ctx) (f : Fail), CtxWF c → Uniform env c e →
    inPlace (evalRec env) c e = .error f → BreaksIn env c e f
  | .null, _, _, _, _, h => by cases h
  | .bool _, _, _, _, _, h => by cases h
  | .number _, _, _, _, _, h => by cases h
  | .string _, _, _, _, _, h => by cases h
  | .array xs, c, f, hc, hu, h => by
    have hu' : ∀ e ∈ xs, Uniform env c.child e := fun e he => Uniform.child fun es hw => hu es (.array he hw)
    refine finish_fail hS Expr.array h (fun h => ?_)
      (fun a ha => .array ((inPlaceList_becomes xs _ a hc.child hu' ha).imp fun _ _ => Becomes.child.1)) (by nofun)
    obtain ⟨q, hq, hb⟩ := inPlaceList_fail hS xs _ f hc.child hu' h
    exact hb.lift (.array hq)
  | .object es, c, f, hc, hu, h => by
    have hk : ∀ e v, (ObjKey.expr e, v) ∈ es → Uniform env c.child e :=
      fun e v hm => Uniform.child fun es hw => hu es (.key hm hw)
    have hv : ∀ k e, (k, e) ∈ es → Uniform env c.child e :=
      fun k e hm => Uniform.child fun es hw => hu es (.value hm hw)
    refine finish_fail hS Expr.object h (fun h => ?_) (fun a ha => ?_) (fun es' h => by cases h; exact hu es .self)
    · rcases inPlaceEntries_fail hS es _ [] f hc.child hk hv h with ⟨q, v, hq, hg⟩ | ⟨k, q, hq, hg⟩
      · exact hg.lift (.key hq)
      · exact hg.lift (.value hq)
    · obtain ⟨new, hf, hnew⟩ := inPlaceEntries_becomes es _ [] a hc.child hk hv ha
      rw [hnew]
      refine .object (hf.imp fun a b hab => ⟨?_, Becomes.child.1 hab.2⟩)
      have hk := hab.1
      revert hk
      generalize a.1 = x
      generalize b.1 = y
      intro hk
      cases hk with
      | ident x => exact .ident x
      | expr he => exact .expr (Becomes.child.1 he)
  | .template t, c, f, hc, hu, h =>
    finish_fail hS (r := .ok (Expr.template t, [])) id h (by nofun) (fun a ha => by cases ha; exact .same _) (by nofun)
  | .var x, c, f, hc, hu, h =>
    finish_fail hS (r := .ok (Expr.var x, [])) id h (by nofun) (fun a ha => by cases ha; exact .same _) (by nofun)
  | .traversal e ops, c, f, hc, hu, h => by
    have hu' : ∀ i, TravOp.index i ∈ ops → Uniform env c.child i :=
      fun i hi => Uniform.child fun es hw => hu es (.index hi hw)
    refine finish_fail hS (Expr.traversal e) h (fun h => ?_) (fun a ha => ?_) (by nofun)
    · obtain ⟨q, hq, hb⟩ := inPlaceOps_fail hS ops _ f hc.child hu' h
      exact hb.lift (.index hq)
    · refine .traversal ((inPlaceOps_becomes ops _ a hc.child hu' ha).imp fun _ _ h => ?_)
      cases h with
      | same => exact .same _
      | index he => exact .index (Becomes.child.1 he)
  | .call g args y, c, f, hc, hu, h => by
    have hu' : ∀ e ∈ args, Uniform env c.child e := fun e he => Uniform.child fun es hw => hu es (.arg he hw)
    refine finish_fail hS (fun a => Expr.call g a y) h (fun h => ?_)
      (fun a ha => .call ((inPlaceList_becomes args _ a hc.child hu' ha).imp fun _ _ => Becomes.child.1)) (by nofun)
    obtain ⟨q, hq, hb⟩ := inPlaceList_fail hS args _ f hc.child hu' h
    exact hb.lift (.arg hq)
  | .paren e, c, f, hc, hu, h => by
    have hu' : Uniform env c.child e := Uniform.child fun es hw => hu es (.paren hw)
    exact finish_fail hS Expr.paren h (fun h => (inPlace_fail hS e _ f hc.child hu' h).lift .paren)
      (fun a ha => .paren (Becomes.child.1 (inPlace_becomes e _ a hc.child hu' ha))) (by nofun)
  | .cond q t u, c, f, hc, hu, h => by
    have ht : Uniform env c.child t := Uniform.child fun es hw => hu es (.condT hw)
    have hf : Uniform env c.child u := Uniform.child fun es hw => hu es (.condF hw)
    have hq : ∀ b, evalBool (evalRec env) c.child q = .ok b → Becomes env c q (.bool b) := by
      intro b hb
      rw [evalBool_child] at hb
      have hb : R.bind (eval env c q) _ = Except.ok b := hb
      obtain ⟨v, hv, hb⟩ := bind_ok hb
      refine ⟨v, hv, eval_wf hc hv, ?_⟩
      cases v with
      | bool b' => cases hb; rfl
      | _ => cases hb
    rw [inPlace] at h
    rcases placed_fail h with ⟨h, hne⟩ | ⟨b, hb, h⟩
    · have h : R.bind (eval env c.child q) _ = Except.error f := h
      rcases bind_fail h with h | ⟨v, _, h⟩
      · exact (hS _ _ _ hne h).lift .cond
      · cases v <;> cases h <;> exact absurd rfl (hne _)
    · cases b with
      | true =>
        exact finish_fail hS (fun a => Expr.cond (.bool true) a u) h
          (fun h => (inPlace_fail hS t _ f hc.child ht h).lift .whenTrue)
          (fun a ha => .condTrue (hq _ hb) (Becomes.child.1 (inPlace_becomes t _ a hc.child ht ha))) (by nofun)
      | false =>
        exact finish_fail hS (fun a => Expr.cond (.bool false) t a) h
          (fun h => (inPlace_fail hS u _ f hc.child hf h).lift .whenFalse)
          (fun a ha => .condFalse (hq _ hb) (Becomes.child.1 (inPlace_becomes u _ a hc.child hf ha))) (by nofun)
  | .unary o e, c, f, hc, hu, h => by
    have hu' : Uniform env c.child e := Uniform.child fun es hw => hu es (.unary hw)
    exact finish_fail hS (Expr.unary o) h (fun h => (inPlace_fail hS e _ f hc.child hu' h).lift .unary)
      (fun a ha => .unary (Becomes.child.1 (inPlace_becomes e _ a hc.child hu' ha))) (by nofun)
  | .binary l o r, c, f, hc, hu, h => by
    have hl : Uniform env c.child l := Uniform.child fun es hw => hu es (.left hw)
    have hr : Uniform env c.child r := Uniform.child fun es hw => hu es (.right hw)
    rw [inPlace] at h
    refine finish_fail hS (fun a : Expr × Expr => Expr.binary a.1 o a.2)
      (r := R.bind (inPlace (evalRec env) c.child l) fun a =>
        R.bind (inPlace (evalRec env) c.child r) fun b => .ok ((a.1, b.1), a.2 ++ b.2)) ?_ (fun h => ?_)
      (fun a ha => ?_) (by nofun)
    · simp only [bind_map_eq, R.bind.eq_2]
      exact h
    · rcases bind_fail h with h | ⟨_, _, h⟩
      · exact (inPlace_fail hS l _ f hc.child hl h).lift .lhs
      · rcases bind_fail h with h | ⟨_, _, h⟩
        · exact (inPlace_fail hS r _ f hc.child hr h).lift .rhs
        · cases h
    · obtain ⟨⟨l1, e1⟩, h1, h⟩ := bind_ok ha
      obtain ⟨⟨r1, e2⟩, h2, h⟩ := bind_ok h
      injection h with h; injection h with h herr
      obtain ⟨rfl, rfl⟩ : e1 = [] ∧ e2 = [] := by simpa using herr
      subst h
      exact .binary (Becomes.child.1 (inPlace_becomes l _ _ hc.child hl h1))
        (Becomes.child.1 (inPlace_becomes r _ _ hc.child hr h2))
  | .forE k y coll ke ve g ce, c, f, hc, hu, h => by
    have hu' : Uniform env c.child coll := Uniform.child fun es hw => hu es (.coll hw)
    exact finish_fail hS (fun a => Expr.forE k y a ke ve g ce) h
      (fun h => (inPlace_fail hS coll _ f hc.child hu' h).lift .forColl)
      (fun a ha => .forE (Becomes.child.1 (inPlace_becomes coll _ a hc.child hu' ha))) (by nofun)
theorem inPlaceList_fail (hS : Sound env) : ∀ (xs : List Expr) (c : Ctx) (f : Fail), CtxWF c →
    (∀ e ∈ xs, Uniform env c e) → inPlaceList (evalRec env) c xs = .error f → ∃ q ∈ xs, BreaksIn env c q f
  | [], _, _, _, _, h => by cases h
  | x :: xs, c, f, hc, hu, h => by
    rw [inPlaceList] at h
    rcases bind_fail h with h | ⟨_, _, h⟩
    · exact ⟨x, List.mem_cons_self .., inPlace_fail hS x c f hc (hu x (List.mem_cons_self ..)) h⟩
    · rcases bind_fail h with h | ⟨_, _, h⟩
      · obtain ⟨q, hq, hb⟩ := inPlaceList_fail hS xs c f hc (fun e he => hu e (List.mem_cons_of_mem _ he)) h
        exact ⟨q, List.mem_cons_of_mem _ hq, hb⟩
      · cases h
theorem inPlaceEntries_fail (hS : Sound env) : ∀ (es : List (ObjKey × Expr)) (c : Ctx)
    (new : List (ObjKey × Expr)) (f : Fail), CtxWF c →
    (∀ e v, (ObjKey.expr e, v) ∈ es → Uniform env c e) → (∀ k e, (k, e) ∈ es → Uniform env c e) →
    inPlaceEntries (evalRec env) c es new = .error f →
      (∃ q v, (ObjKey.expr q, v) ∈ es ∧ BreaksIn env c q f) ∨ ∃ k q, (k, q) ∈ es ∧ BreaksIn env c q f
  | [], _, _, _, _, _, _, h => by cases h
  | (k, v) :: es, c, new, f, hc, hk, hv, h => by
    rw [inPlaceEntries] at h
    rcases bind_fail h with h | ⟨_, _, h⟩
    · cases k with
      | ident x => cases h
      | expr q =>
        rw [inPlaceKey] at h
        rcases bind_fail h with h | ⟨_, _, h⟩
        · exact .inl ⟨q, v, List.mem_cons_self .., inPlace_fail hS q c f hc (hk q v (List.mem_cons_self ..)) h⟩
        · cases h
    · rcases bind_fail h with h | ⟨_, _, h⟩
      · exact .inr ⟨k, v, List.mem_cons_self .., inPlace_fail hS v c f hc (hv k v (List.mem_cons_self ..)) h⟩
      · rcases bind_fail h with h | ⟨_, _, h⟩
        · rcases inPlaceEntries_fail hS es c _ f hc (fun e w hm => hk e w (List.mem_cons_of_mem _ hm))
            (fun k e hm => hv k e (List.mem_cons_of_mem _ hm)) h with ⟨q, w, hm, hb⟩ | ⟨k', q, hm, hb⟩
          · exact .inl ⟨q, w, List.mem_cons_of_mem _ hm, hb⟩
          · exact .inr ⟨k', q, List.mem_cons_of_mem _ hm, hb⟩
        · cases h
theorem inPlaceOps_fail (hS : Sound env) : ∀ (os : List TravOp) (c : Ctx) (f : Fail), CtxWF c →
    (∀ i, TravOp.index i ∈ os → Uniform env c i) → inPlaceOps (evalRec env) c os = .error f →
      ∃ q, TravOp.index q ∈ os ∧ BreaksIn env c q f
  | [], _, _, _, _, h => by cases h
  | o :: os, c, f, hc, hu, h => by
    rw [inPlaceOps] at h
    rcases bind_fail h with h | ⟨_, _, h⟩
    · match o, h, hu with
      | .index q, h, hu =>
        rw [inPlaceOp] at h
        rcases bind_fail h with h | ⟨_, _, h⟩
        · exact ⟨q, List.mem_cons_self .., inPlace_fail hS q c f hc (hu q (List.mem_cons_self ..)) h⟩
        · cases h
    · rcases bind_fail h with h | ⟨_, _, h⟩
      · obtain ⟨q, hq, hb⟩ := inPlaceOps_fail hS os c f hc (fun e he => hu e (List.mem_cons_of_mem _ he)) h
        exact ⟨q, List.mem_cons_of_mem _ hq, hb⟩
      · cases h
end

mutual
theorem inPlaceBody_fail (hS : Sound env) : ∀ (b : List Struct) (c : Ctx) (f : Fail), CtxWF c →
    (∀ e ∈ attrsOf b, Uniform env c e) → inPlaceBody (evalRec env) c b = .error f → ∃ q ∈ attrsOf b, BreaksIn env c q f
  | [], _, _, _, _, h => by cases h
  | s :: ss, c, f, hc, hu, h => by
    rw [inPlaceBody] at h
    rcases bind_fail h with h | ⟨_, _, h⟩
    · obtain ⟨q, hq, hb⟩ := inPlaceStruct_fail hS s c f hc (fun e he => hu e (List.mem_append_left _ he)) h
      exact ⟨q, List.mem_append_left _ hq, hb⟩
    · rcases bind_fail h with h | ⟨_, _, h⟩
      · obtain ⟨q, hq, hb⟩ := inPlaceBody_fail hS ss c f hc (fun e he => hu e (List.mem_append_right _ he)) h
        exact ⟨q, List.mem_append_right _ hq, hb⟩
      · cases h
theorem inPlaceStruct_fail (hS : Sound env) : ∀ (s : Struct) (c : Ctx) (f : Fail), CtxWF c →
    (∀ e ∈ attrsOfStruct s, Uniform env c e) → inPlaceStruct (evalRec env) c s = .error f →
      ∃ q ∈ attrsOfStruct s, BreaksIn env c q f
  | .attr k e, c, f, hc, hu, h => by
    have he : e ∈ attrsOfStruct (.attr k e) := by simp [attrsOfStruct]
    rw [inPlaceStruct] at h
    rcases bind_fail h with h | ⟨_, _, h⟩
    · exact ⟨e, he, inPlace_fail hS e c f hc (hu e he) h⟩
    · cases h
  | .block i ls b, c, f, hc, hu, h => by
    rw [inPlaceStruct] at h
    rcases bind_fail h with h | ⟨_, _, h⟩
    · exact inPlaceBody_fail hS b c f hc hu h
    · cases h
end

mutual
theorem inPlaceTmpl_fail (hS : Sound env) : ∀ (els : List Elem) (c : Ctx) (f : Fail), CtxWF c →
    (∀ e, InElems e els → Uniform env c e) → inPlaceTmpl (evalRec env) c els = .error f →
      ∃ q, InElems q els ∧ BreaksIn env c q f
  | [], _, _, _, _, h => by cases h
  | el :: els, c, f, hc, hu, h => by
    have hsub : ∀ {q l}, (∀ e ∈ l, e ∈ el :: els) → InElems q l → InElems q (el :: els) := by
      intro q l hs h
      cases h with
      | interp hm => exact .interp (hs _ hm)
      | ifCond hm => exact .ifCond (hs _ hm)
      | ifTrue hm h => exact .ifTrue (hs _ hm) h
      | ifFalse hm h => exact .ifFalse (hs _ hm) h
      | forColl hm => exact .forColl (hs _ hm)
      | forBody hm h => exact .forBody (hs _ hm) h
    rw [inPlaceTmpl] at h
    rcases bind_fail h with h | ⟨_, _, h⟩
    · obtain ⟨q, hq, hb⟩ := inPlaceElem_fail hS el c f hc (fun e he => hu e (hsub (by simp) he)) h
      exact ⟨q, hsub (by simp) hq, hb⟩
    · rcases bind_fail h with h | ⟨_, _, h⟩
      · obtain ⟨q, hq, hb⟩ := inPlaceTmpl_fail hS els c f hc (fun e he => hu e (hsub (by simp +contextual) he)) h
        exact ⟨q, hsub (by simp +contextual) hq, hb⟩
      · cases h
theorem inPlaceElem_fail (hS : Sound env) : ∀ (el : Elem) (c : Ctx) (f : Fail), CtxWF c →
    (∀ e, InElems e [el] → Uniform env c e) → inPlaceElem (evalRec env) c el = .error f →
      ∃ q, InElems q [el] ∧ BreaksIn env c q f
  | .lit _, _, _, _, _, h => by cases h
  | .interp e m, c, f, hc, hu, h => by
    have hi : InElems e [.interp e m] := .interp (List.mem_cons_self ..)
    rw [inPlaceElem] at h
    rcases bind_fail h with h | ⟨_, _, h⟩
    · exact ⟨e, hi, inPlace_fail hS e c f hc (hu e hi) h⟩
    · cases h
  | .ifDir q t g a b z, c, f, hc, hu, h => by
    have hq : InElems q [.ifDir q t g a b z] := .ifCond (List.mem_cons_self ..)
    have ht : ∀ {y}, InElems y t → InElems y [.ifDir q t g a b z] := fun h => .ifTrue (List.mem_cons_self ..) h
    rw [inPlaceElem] at h
    rcases bind_fail h with h | ⟨_, _, h⟩
    · exact ⟨q, hq, inPlace_fail hS q c f hc (hu q hq) h⟩
    · rcases bind_fail h with h | ⟨_, _, h⟩
      · obtain ⟨y, hy, hb⟩ := inPlaceTmpl_fail hS t c f hc (fun e he => hu e (ht he)) h
        exact ⟨y, ht hy, hb⟩
      · cases g with
        | none => cases h
        | some g =>
          rcases bind_fail h with h | ⟨_, _, h⟩
          · obtain ⟨y, hy, hb⟩ := inPlaceTmpl_fail hS g c f hc
              (fun e he => hu e (.ifFalse (List.mem_cons_self ..) he)) h
            exact ⟨y, .ifFalse (List.mem_cons_self ..) hy, hb⟩
          · cases h
  | .forDir k y coll t a z, c, f, hc, hu, h => by
    have hq : InElems coll [.forDir k y coll t a z] := .forColl (List.mem_cons_self ..)
    have ht : ∀ {x}, InElems x t → InElems x [.forDir k y coll t a z] := fun h => .forBody (List.mem_cons_self ..) h
    rw [inPlaceElem] at h
    rcases bind_fail h with h | ⟨_, _, h⟩
    · exact ⟨coll, hq, inPlace_fail hS coll c f hc (hu coll hq) h⟩
    · rcases bind_fail h with h | ⟨_, _, h⟩
      · obtain ⟨y, hy, hb⟩ := inPlaceTmpl_fail hS t c f hc (fun e he => hu e (ht he)) h
        exact ⟨y, ht hy, hb⟩
      · cases h
end
end

end Verif
