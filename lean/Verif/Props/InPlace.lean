import Mathlib.Data.List.Forall2
import Verif.Lemmas.InPlace
import Verif.Spec.InPlace
import Verif.Props.EvalTmpl
/-! Properties C44 and C45. -/

namespace Verif
open Verif.Spec

/-- The second expression is the expression form of the first one's value. -/
def Becomes (env : Env) (c : Ctx) (e e' : Expr) : Prop :=
  ∃ v, eval env c e = .ok v ∧ v.WF ∧ e' = ofValue v

theorem Becomes.same {env : Env} {c : Ctx} {e e' : Expr} (h : Becomes env c e e') :
    eval env c e' = eval env c e := by
  obtain ⟨v, h1, h2, rfl⟩ := h
  rw [h1, eval_ofValue v h2]

theorem Becomes.child {env : Env} {c : Ctx} {e e' : Expr} :
    Becomes env c.child e e' ↔ Becomes env c e e' := by
  unfold Becomes; rw [eval_child]

theorem finish_ok {env : Env} {c : Ctx} {e e' : Expr} {errs : List EvalErr}
    (h : finishPlace (evalRec env) c (e, errs) = .ok (e', [])) :
    errs = [] ∧ ∃ v, eval env c e = .ok v ∧ e' = ofValue v := by
  unfold finishPlace at h
  cases errs with
  | cons a l => simp at h
  | nil =>
    refine ⟨rfl, ?_⟩
    simp only [placed] at h
    split at h
    · rename_i v hv; injection h with h; injection h with h _; exact ⟨v, hv, h.symm⟩
    · injection h with h; injection h with _ h; cases h
    · cases h
    · cases h

theorem mapR_same {env : Env} {c : Ctx} {xs ys : List Expr}
    (h : List.Forall₂ (Becomes env c) xs ys) : mapR (eval env c) ys = mapR (eval env c) xs := by
  induction h with
  | nil => rfl
  | cons h _ ih => simp only [mapR, h.same, ih]

theorem evalArgs_same {env : Env} {c : Ctx} {b : Bool} {xs ys : List Expr}
    (h : List.Forall₂ (Becomes env c) xs ys) :
    evalArgs (evalRec env) c b ys = evalArgs (evalRec env) c b xs := by
  induction h with
  | nil => rfl
  | @cons x y xs ys h hl ih =>
    have he : ys.isEmpty = xs.isEmpty := by cases hl <;> rfl
    have hs : (evalRec env).expr c y = (evalRec env).expr c x := h.same
    simp only [evalArgs, evalArray, he, hs, ih]

/-- Operators that agree, except that index expressions may have been replaced by their value. -/
inductive OpBecomes (env : Env) (c : Ctx) : TravOp → TravOp → Prop
  | same (o) : OpBecomes env c o o
  | index {e e'} : Becomes env c e e' → OpBecomes env c (.index e) (.index e')

theorem OpBecomes.isGetAttr {env : Env} {c : Ctx} {o o'} (h : OpBecomes env c o o') :
    o'.isGetAttr = o.isGetAttr := by cases h <;> rfl

theorem takeWhile_becomes {env : Env} {c : Ctx} {os ps : List TravOp}
    (h : List.Forall₂ (OpBecomes env c) os ps) :
    List.Forall₂ (OpBecomes env c) (os.takeWhile TravOp.isGetAttr) (ps.takeWhile TravOp.isGetAttr) := by
  induction h with
  | nil => exact .nil
  | @cons o p os ps h _ ih =>
    cases ho : o.isGetAttr
    · rw [List.takeWhile_cons_of_neg (by simp [ho]), List.takeWhile_cons_of_neg (by simp [h.isGetAttr, ho])]
      exact .nil
    · rw [List.takeWhile_cons_of_pos ho, List.takeWhile_cons_of_pos (by rw [h.isGetAttr, ho])]
      exact .cons h ih

theorem dropWhile_becomes {env : Env} {c : Ctx} {os ps : List TravOp}
    (h : List.Forall₂ (OpBecomes env c) os ps) :
    List.Forall₂ (OpBecomes env c) (os.dropWhile TravOp.isGetAttr) (ps.dropWhile TravOp.isGetAttr) := by
  induction h with
  | nil => exact .nil
  | @cons o p os ps h hl ih =>
    cases ho : o.isGetAttr
    · rw [List.dropWhile_cons_of_neg (by simp [ho]), List.dropWhile_cons_of_neg (by simp [h.isGetAttr, ho])]
      exact .cons h hl
    · rw [List.dropWhile_cons_of_pos ho, List.dropWhile_cons_of_pos (by rw [h.isGetAttr, ho])]
      exact ih

theorem traverse_becomes {env : Env} {c : Ctx} (n : Nat) : ∀ (os ps : List TravOp),
    List.Forall₂ (OpBecomes env c) os ps → ∀ v,
      traverse (evalRec env) c n ps v = traverse (evalRec env) c n os v := by
  induction n with
  | zero => intro os ps h v; cases h <;> rfl
  | succ n ih =>
    intro os ps h v
    cases h with
    | nil => rfl
    | @cons o p os ps h hl =>
      have htail := fun w => ih os ps hl w
      cases h with
      | index he =>
        have hs := he.same
        simp only [traverse, indexExpr]
        have hs' : (evalRec env).expr c _ = (evalRec env).expr c _ := hs
        rw [hs']
        congr 1; funext w; exact htail w
      | same =>
        cases o with
        | legacyIndex i => simp only [traverse]; congr 1; funext w; exact htail w
        | index e => simp only [traverse]; congr 1; funext w; exact htail w
        | getAttr x => simp only [traverse]; congr 1; funext w; exact htail w
        | attrSplat =>
          simp only [traverse]
          have h1 : (fun x => traverse (evalRec env) c n (ps.takeWhile TravOp.isGetAttr) x) =
              fun x => traverse (evalRec env) c n (os.takeWhile TravOp.isGetAttr) x :=
            funext fun w => ih _ _ (takeWhile_becomes hl) w
          have h2 : (fun x => traverse (evalRec env) c n (ps.dropWhile TravOp.isGetAttr) x) =
              fun x => traverse (evalRec env) c n (os.dropWhile TravOp.isGetAttr) x :=
            funext fun w => ih _ _ (dropWhile_becomes hl) w
          rw [h1, h2]
        | fullSplat => simp only [traverse]; congr 1; funext w; exact htail w

/-- A key, and the key after in-place evaluation. -/
inductive KeyBecomes (env : Env) (c : Ctx) : ObjKey → ObjKey → Prop
  | ident (x) : KeyBecomes env c (.ident x) (.ident x)
  | expr {e e'} : Becomes env c e e' → KeyBecomes env c (.expr e) (.expr e')

def EntryBecomes (env : Env) (c : Ctx) (p p' : ObjKey × Expr) : Prop :=
  KeyBecomes env c p.1 p'.1 ∧ Becomes env c p.2 p'.2

/-- The key expression of an evaluated key. -/
def EKey.key : EKey → ObjKey
  | .ident x => .ident x
  | .val v => .expr (ofValue v)

/-- A placed key has a text iff its evaluated form has, and keys compare like evaluated forms. -/
theorem KeyBecomes.form {env : Env} {c : Ctx} {k k' : ObjKey} (h : KeyBecomes env c k k') :
    ∃ a, KeyIs env c k a ∧ (∀ s, evalKey env (evalRec env) c k' = .ok s ↔ a.text env = some s) ∧
      (∀ s, evalKey env (evalRec env) c k = .ok s ↔ a.text env = some s) ∧
      k' = EKey.key a := by
  cases h with
  | ident x =>
    refine ⟨.ident x, .ident x, fun s => ?_, fun s => ?_, rfl⟩ <;>
      simp [evalKey, EKey.text]
  | @expr e e' h =>
    obtain ⟨v, h1, h2, rfl⟩ := h
    have hv : (evalRec env).expr c (ofValue v) = .ok v := eval_ofValue v h2
    have hv' : (evalRec env).expr c e = .ok v := h1
    refine ⟨.val v, .expr e v h1, fun s => ?_, fun s => ?_, rfl⟩
    · simp only [evalKey, evalObjectKey, hv, R.bind]
      cases v <;> simp [keyOfValue, EKey.text, R.err]
    · simp only [evalKey, evalObjectKey, hv', R.bind]
      cases v <;> simp [keyOfValue, EKey.text, R.err]

theorem beq_form {env : Env} (a b : EKey) (s t : Str) (ha : a.text env = some s)
    (hb : b.text env = some t) :
    (ObjKey.beq (EKey.key a) (EKey.key b) = true ↔ SameKey a b) := by
  rcases a with x | (_ | x | x | x | x | x) <;> rcases b with y | (_ | y | y | y | y | y) <;>
    simp [EKey.text] at ha hb <;> simp [EKey.key, ObjKey.beq, SameKey, ofValue, Expr.beq]

/-- If one of two equal keys has a text, so has the other. -/
theorem beq_text {env : Env} (a b : EKey) (s : Str) (ha : a.text env = some s)
    (h : ObjKey.beq (EKey.key a) (EKey.key b) = true) :
    ∃ t, b.text env = some t := by
  rcases a with x | (_ | x | x | x | x | x) <;> rcases b with y | (_ | y | y | y | y | y) <;>
    simp [EKey.text] at ha ⊢ <;> simp [EKey.key, ObjKey.beq, ofValue, Expr.beq] at h

theorem objInsert_keeps {k : ObjKey} {v : Expr} {m : List (ObjKey × Expr)} {k' : ObjKey}
    (h : k' ∈ m.map Prod.fst) : k' ∈ (objInsert k v m).map Prod.fst := by
  induction m with
  | nil => simp at h
  | cons p m ih =>
    obtain ⟨k1, v1⟩ := p
    rw [objInsert.eq_def]
    simp only
    split
    · simpa using h
    · simp only [List.map_cons, List.mem_cons] at h ⊢
      exact h.imp id ih

theorem objInsert_has (k : ObjKey) (v : Expr) (m : List (ObjKey × Expr)) :
    ∃ k' ∈ (objInsert k v m).map Prod.fst, k' = k ∨ ObjKey.beq k' k = true := by
  induction m with
  | nil => exact ⟨k, by simp [objInsert], .inl rfl⟩
  | cons p m ih =>
    obtain ⟨k1, v1⟩ := p
    rw [objInsert.eq_def]
    simp only
    split
    · rename_i h
      exact ⟨k1, by simp, .inr h⟩
    · obtain ⟨k', h1, h2⟩ := ih
      exact ⟨k', List.mem_cons_of_mem _ h1, h2⟩

theorem objInsertAll_has (es m : List (ObjKey × Expr)) (k : ObjKey)
    (h : k ∈ es.map Prod.fst) :
    ∃ k' ∈ (objInsertAll es m).map Prod.fst, k' = k ∨ ObjKey.beq k' k = true := by
  have keeps : ∀ (es m : List (ObjKey × Expr)) k', k' ∈ m.map Prod.fst →
      k' ∈ (objInsertAll es m).map Prod.fst := by
    intro es
    induction es with
    | nil => intro m k' h; exact h
    | cons e es ih => intro m k' h; exact ih _ _ (objInsert_keeps h)
  induction es generalizing m with
  | nil => simp at h
  | cons e es ih =>
    simp only [List.map_cons, List.mem_cons] at h
    rcases h with h | h
    · subst h
      obtain ⟨k', h1, h2⟩ := objInsert_has e.1 e.2 m
      exact ⟨k', keeps es _ _ h1, h2⟩
    · exact ih _ h

theorem UniformKeys.child {env : Env} {c : Ctx} {es} (h : UniformKeys env c es) :
    UniformKeys env c.child es := by
  have hk : ∀ {k a}, KeyIs env c.child k a → KeyIs env c k a := by
    intro k a h
    cases h with
    | ident x => exact .ident x
    | expr e v h => exact .expr e v (by rwa [eval_child] at h)
  intro p hp q hq a b s t ha hb hs ht
  exact h p hp q hq a b s t (hk ha) (hk hb) hs ht

theorem mapR_mem_ok {α β : Type} {f : α → R β} {l : List α} {bs : List β}
    (h : mapR f l = .ok bs) : ∀ a ∈ l, ∃ b, f a = .ok b := by
  induction l generalizing bs with
  | nil => simp
  | cons a l ih =>
    simp only [mapR] at h
    obtain ⟨b, h1, h⟩ := bind_ok h
    obtain ⟨bs', h2, _⟩ := bind_ok h
    intro x hx
    rcases List.mem_cons.1 hx with rfl | hx
    · exact ⟨b, h1⟩
    · exact ih h2 x hx

/-- Evaluating the rewritten object yields what the original one evaluates to. -/
theorem object_same {env : Env} {c : Ctx} {es es' : List (ObjKey × Expr)}
    (hf : List.Forall₂ (EntryBecomes env c) es es') (hu : UniformKeys env c es) {v : Value}
    (h : eval env c (.object (objInsertAll es' [])) = .ok v) : eval env c (.object es) = .ok v := by
  rw [eval_object] at h
  obtain ⟨ps, h1, h2⟩ := bind_ok h
  clear h
  injection h2 with h
  -- relate keys of `es'` to keys of `es`
  have back : ∀ k' ∈ es'.map Prod.fst, ∃ p ∈ es, KeyBecomes env c p.1 k' := by
    intro k' hk
    obtain ⟨q, hq, rfl⟩ := List.mem_map.1 hk
    clear h1 hu h hk
    induction hf with
    | nil => cases hq
    | @cons a b l l' hab _ ih =>
      rcases List.mem_cons.1 hq with rfl | hq
      · exact ⟨a, List.mem_cons_self .., hab.1⟩
      · obtain ⟨p, hp, hp'⟩ := ih hq
        exact ⟨p, List.mem_cons_of_mem _ hp, hp'⟩
  have texted : ∀ k' ∈ es'.map Prod.fst, ∃ s, evalKey env (evalRec env) c k' = .ok s := by
    intro k' hk
    obtain ⟨k'', hk'', hrel⟩ := objInsertAll_has es' [] k' hk
    obtain ⟨q, hq, rfl⟩ := List.mem_map.1 hk''
    obtain ⟨b, hb⟩ := mapR_mem_ok h1 q hq
    unfold evalEntry at hb
    obtain ⟨s, hs, _⟩ := bind_ok hb
    rcases hrel with rfl | hrel
    · exact ⟨s, hs⟩
    · have hq' : q.1 ∈ es'.map Prod.fst := by
        rcases (mem_objInsertAll hq).1 with h | h
        · exact h
        · simp at h
      obtain ⟨p1, _, hp1⟩ := back _ hq'
      obtain ⟨p2, _, hp2⟩ := back _ hk
      obtain ⟨a, _, a1, _, a2⟩ := hp1.form
      obtain ⟨b, _, b1, _, b2⟩ := hp2.form
      rw [a2, b2] at hrel
      obtain ⟨t, ht⟩ := beq_text a b s ((a1 s).1 hs) hrel
      exact ⟨t, (b1 t).2 ht⟩
  let tx : ObjKey → Str := fun k => match evalKey env (evalRec env) c k with
    | .ok s => s
    | _ => []
  let vl : Expr → Value := fun e => match eval env c e with
    | .ok v => v
    | _ => .null
  have htx : ∀ k' ∈ es'.map Prod.fst, evalKey env (evalRec env) c k' = .ok (tx k') := by
    intro k' hk
    obtain ⟨s, hs⟩ := texted k' hk
    simp only [tx, hs]
  have hvl : ∀ e' ∈ es'.map Prod.snd, eval env c e' = .ok (vl e') := by
    intro e' he
    obtain ⟨q, hq, rfl⟩ := List.mem_map.1 he
    have : ∃ w, eval env c q.2 = .ok w := by
      clear h1 hu h he back texted htx
      induction hf with
      | nil => cases hq
      | @cons a b l l' hab _ ih =>
        rcases List.mem_cons.1 hq with rfl | hq
        · obtain ⟨w, hw, _⟩ := hab.2
          exact ⟨w, by rw [hab.2.same, hw]⟩
        · exact ih hq
    obtain ⟨w, hw⟩ := this
    simp only [vl, hw]
  have hentry : ∀ q : ObjKey × Expr, q.1 ∈ es'.map Prod.fst → q.2 ∈ es'.map Prod.snd →
      evalEntry env (evalRec env) c q = .ok (tx q.1, vl q.2) := by
    intro q h1 h2
    have hv : (evalRec env).expr c q.2 = .ok (vl q.2) := hvl _ h2
    simp only [evalEntry, htx _ h1, hv, R.bind]
  have hb : ∀ a ∈ es'.map Prod.fst, ∀ b ∈ es'.map Prod.fst,
      ObjKey.beq a b = decide (tx a = tx b) := by
    intro a ha b hb
    obtain ⟨p, hp, hpa⟩ := back a ha
    obtain ⟨q, hq, hqb⟩ := back b hb
    obtain ⟨ka, ia, a1, _, a2⟩ := hpa.form
    obtain ⟨kb, ib, b1, _, b2⟩ := hqb.form
    have ta := (a1 _).1 (htx a ha)
    have tb := (b1 _).1 (htx b hb)
    have := beq_form ka kb _ _ ta tb
    rw [← a2, ← b2, hu p hp q hq ka kb _ _ ia ib ta tb] at this
    exact Bool.eq_iff_iff.2 (by simpa using this)
  have hm : mapR (evalEntry env (evalRec env) c) (objInsertAll es' []) =
      .ok ((objInsertAll es' []).map fun q => (tx q.1, vl q.2)) := by
    refine mapR_ok fun q hq => ?_
    obtain ⟨m1, m2⟩ := mem_objInsertAll hq
    exact hentry q (by simpa using m1) (by simpa using m2)
  rw [hm] at h1
  injection h1 with h1
  rw [objInsertAll_map es' [] (by simpa using hb)] at h1
  have hcol : mapInsertAll (es'.map fun q => (tx q.1, vl q.2)) (List.map (fun p : ObjKey × Expr => (tx p.1, vl p.2)) []) =
      Map.collect (es'.map fun q => (tx q.1, vl q.2)) := rfl
  rw [hcol] at h1
  rw [← h1, Map.collect_nodup (Map.nodup_collect _)] at h
  rw [eval_object, ← h]
  have horig : mapR (evalEntry env (evalRec env) c) es =
      .ok (es'.map fun q => (tx q.1, vl q.2)) := by
    have : ∀ q ∈ es', evalEntry env (evalRec env) c q = .ok (tx q.1, vl q.2) :=
      fun q hq => hentry q (List.mem_map_of_mem hq) (List.mem_map_of_mem hq)
    clear h1 hu h back texted htx hvl hb hm hcol hentry
    induction hf with
    | nil => rfl
    | @cons a b l l' hab _ ih =>
      have hbv := this b (List.mem_cons_self ..)
      have hsame : evalEntry env (evalRec env) c a = evalEntry env (evalRec env) c b := by
        have h2 : (evalRec env).expr c b.2 = (evalRec env).expr c a.2 := hab.2.same
        have h1 : evalKey env (evalRec env) c b.1 = evalKey env (evalRec env) c a.1 := by
          have hk := hab.1
          revert hk
          generalize a.1 = x
          generalize b.1 = y
          intro hk
          cases hk with
          | ident x => rfl
          | expr he =>
            have : (evalRec env).expr c _ = (evalRec env).expr c _ := he.same
            simp only [evalKey, evalObjectKey, this]
        simp only [evalEntry, h1, h2]
      simp only [mapR, hsame, hbv, ih fun q hq => this q (List.mem_cons_of_mem _ hq), R.bind,
        List.map_cons]
  rw [horig]; rfl

theorem Uniform.child {env : Env} {c : Ctx} {e} (h : Uniform env c e) : Uniform env c.child e :=
  fun es hw => UniformKeys.child (h es hw)

mutual
theorem inPlace_becomes {env : Env} : ∀ (e : Expr) (c : Ctx) (e' : Expr), CtxWF c →
    Uniform env c e → inPlace (evalRec env) c e = .ok (e', []) → Becomes env c e e'
  | .null, c, e', _, _, h => by
    injection h with h; injection h with h _
    exact ⟨.null, eval_null, by simp [Value.WF], h.symm⟩
  | .bool b, c, e', _, _, h => by
    injection h with h; injection h with h _
    exact ⟨.bool b, eval_bool b, by simp [Value.WF], h.symm⟩
  | .number n, c, e', _, _, h => by
    injection h with h; injection h with h _
    exact ⟨.number n, eval_number n, by simp [Value.WF], h.symm⟩
  | .string s, c, e', _, _, h => by
    injection h with h; injection h with h _
    exact ⟨.string s, eval_string s, by simp [Value.WF], h.symm⟩
  | .array xs, c, e', hc, hu, h => by
    rw [inPlace] at h
    obtain ⟨⟨xs', errs⟩, h1, h⟩ := bind_ok h
    obtain ⟨rfl, v, h2, rfl⟩ := finish_ok h
    have := inPlaceList_becomes xs c.child xs' hc.child
      (fun e he => (Uniform.child fun es hw => hu es (.array he hw))) h1
    have : List.Forall₂ (Becomes env c) xs xs' := this.imp fun _ _ => Becomes.child.1
    have he : eval env c (.array xs) = .ok v := by
      rw [eval_array] at h2 ⊢; rw [← mapR_same this]; exact h2
    exact ⟨v, he, eval_wf hc he, rfl⟩
  | .object es, c, e', hc, hu, h => by
    rw [inPlace] at h
    obtain ⟨⟨es', errs⟩, h1, h⟩ := bind_ok h
    obtain ⟨rfl, v, h2, rfl⟩ := finish_ok h
    obtain ⟨new, hf, hnew⟩ := inPlaceEntries_becomes es c.child [] es' hc.child
      (fun e v hm => Uniform.child fun es hw => hu es (.key hm hw))
      (fun k e hm => Uniform.child fun es hw => hu es (.value hm hw)) h1
    simp only at h2
    rw [hnew] at h2
    have hf : List.Forall₂ (EntryBecomes env c) es new := by
      refine hf.imp fun a b hab => ⟨?_, Becomes.child.1 hab.2⟩
      have hk := hab.1
      revert hk
      generalize a.1 = x
      generalize b.1 = y
      intro hk
      cases hk with
      | ident x => exact .ident x
      | expr he => exact .expr (Becomes.child.1 he)
    have he := object_same hf (hu es .self) h2
    exact ⟨v, he, eval_wf hc he, rfl⟩
  | .template t, c, e', hc, _, h => by
    rw [inPlace] at h
    obtain ⟨_, v, h2, rfl⟩ := finish_ok h
    exact ⟨v, h2, eval_wf hc h2, rfl⟩
  | .var x, c, e', hc, _, h => by
    rw [inPlace] at h
    obtain ⟨_, v, h2, rfl⟩ := finish_ok h
    exact ⟨v, h2, eval_wf hc h2, rfl⟩
  | .traversal e ops, c, e', hc, hu, h => by
    rw [inPlace] at h
    obtain ⟨⟨ops', errs⟩, h1, h⟩ := bind_ok h
    obtain ⟨rfl, v, h2, rfl⟩ := finish_ok h
    have hf := inPlaceOps_becomes ops c.child ops' hc.child
      (fun i hi => Uniform.child fun es hw => hu es (.index hi hw)) h1
    have hlen : ops'.length = ops.length := hf.length_eq.symm
    have he : eval env c (.traversal e ops) = .ok v := by
      rw [eval_traversal] at h2 ⊢
      rw [← h2, hlen]
      congr 1; funext w
      rw [← traverse_same (SameLookups.child c) _ ops, ← traverse_same (SameLookups.child c) _ ops']
      exact (traverse_becomes _ _ _ hf w).symm
    exact ⟨v, he, eval_wf hc he, rfl⟩
  | .call n args x, c, e', hc, hu, h => by
    rw [inPlace] at h
    obtain ⟨⟨xs', errs⟩, h1, h⟩ := bind_ok h
    obtain ⟨rfl, v, h2, rfl⟩ := finish_ok h
    have := inPlaceList_becomes args c.child xs' hc.child
      (fun e he => (Uniform.child fun es hw => hu es (.arg he hw))) h1
    have : List.Forall₂ (Becomes env c) args xs' := this.imp fun _ _ => Becomes.child.1
    have he : eval env c (.call n args x) = .ok v := by
      rw [eval_call] at h2 ⊢; rw [← evalArgs_same this]; exact h2
    exact ⟨v, he, eval_wf hc he, rfl⟩
  | .paren e, c, e', hc, hu, h => by
    rw [inPlace] at h
    obtain ⟨⟨e1, errs⟩, h1, h⟩ := bind_ok h
    obtain ⟨rfl, v, h2, rfl⟩ := finish_ok h
    have := Becomes.child.1 (inPlace_becomes e c.child e1 hc.child
      (Uniform.child fun es hw => hu es (.paren hw)) h1)
    have he : eval env c (.paren e) = .ok v := by
      rw [eval_paren] at h2 ⊢; rw [← this.same]; exact h2
    exact ⟨v, he, eval_wf hc he, rfl⟩
  | .cond a t f, c, e', hc, hu, h => by
    rw [inPlace] at h
    unfold placed at h
    split at h
    · rename_i b hb
      rw [evalBool_child] at hb
      cases b with
      | true =>
        simp only [if_true] at h
        obtain ⟨⟨e1, errs⟩, h1, h⟩ := bind_ok h
        obtain ⟨rfl, v, h2, rfl⟩ := finish_ok h
        have := Becomes.child.1 (inPlace_becomes t c.child e1 hc.child
          (Uniform.child fun es hw => hu es (.condT hw)) h1)
        have he : eval env c (.cond a t f) = .ok v := by
          rw [eval_cond, hb]
          rw [eval_cond] at h2
          have hlit : evalBool (evalRec env) c (.bool true) = .ok true := by
            have : (evalRec env).expr c (.bool true) = .ok (.bool true) := eval_bool true
            simp only [evalBool, this, R.bind]
          rw [hlit] at h2
          simp only [R.bind, if_true] at h2 ⊢
          rw [← this.same]; exact h2
        exact ⟨v, he, eval_wf hc he, rfl⟩
      | false =>
        simp only [Bool.false_eq_true, if_false] at h
        obtain ⟨⟨e1, errs⟩, h1, h⟩ := bind_ok h
        obtain ⟨rfl, v, h2, rfl⟩ := finish_ok h
        have := Becomes.child.1 (inPlace_becomes f c.child e1 hc.child
          (Uniform.child fun es hw => hu es (.condF hw)) h1)
        have he : eval env c (.cond a t f) = .ok v := by
          rw [eval_cond, hb]
          rw [eval_cond] at h2
          have hlit : evalBool (evalRec env) c (.bool false) = .ok false := by
            have : (evalRec env).expr c (.bool false) = .ok (.bool false) := eval_bool false
            simp only [evalBool, this, R.bind]
          rw [hlit] at h2
          simp only [R.bind, Bool.false_eq_true, if_false] at h2 ⊢
          rw [← this.same]; exact h2
        exact ⟨v, he, eval_wf hc he, rfl⟩
    · injection h with h; injection h with _ h; cases h
    · cases h
    · cases h
  | .unary o e, c, e', hc, hu, h => by
    rw [inPlace] at h
    obtain ⟨⟨e1, errs⟩, h1, h⟩ := bind_ok h
    obtain ⟨rfl, v, h2, rfl⟩ := finish_ok h
    have := Becomes.child.1 (inPlace_becomes e c.child e1 hc.child
      (Uniform.child fun es hw => hu es (.unary hw)) h1)
    have he : eval env c (.unary o e) = .ok v := by
      rw [eval_unary] at h2 ⊢; rw [← this.same]; exact h2
    exact ⟨v, he, eval_wf hc he, rfl⟩
  | .binary l o r, c, e', hc, hu, h => by
    rw [inPlace] at h
    obtain ⟨⟨l1, e1⟩, h1, h⟩ := bind_ok h
    obtain ⟨⟨r1, e2⟩, h2, h⟩ := bind_ok h
    obtain ⟨herr, v, h3, rfl⟩ := finish_ok h
    obtain ⟨rfl, rfl⟩ : e1 = [] ∧ e2 = [] := by simpa using herr
    have hl := Becomes.child.1 (inPlace_becomes l c.child l1 hc.child
      (Uniform.child fun es hw => hu es (.left hw)) h1)
    have hr := Becomes.child.1 (inPlace_becomes r c.child r1 hc.child
      (Uniform.child fun es hw => hu es (.right hw)) h2)
    have he : eval env c (.binary l o r) = .ok v := by
      rw [eval_binary] at h3 ⊢; rw [← hl.same, ← hr.same]; exact h3
    exact ⟨v, he, eval_wf hc he, rfl⟩
  | .forE k x coll ke ve g ce, c, e', hc, hu, h => by
    rw [inPlace] at h
    obtain ⟨⟨e1, errs⟩, h1, h⟩ := bind_ok h
    obtain ⟨rfl, v, h2, rfl⟩ := finish_ok h
    have := Becomes.child.1 (inPlace_becomes coll c.child e1 hc.child
      (Uniform.child fun es hw => hu es (.coll hw)) h1)
    have hs : (evalRec env).expr c e1 = (evalRec env).expr c coll := this.same
    have he : eval env c (.forE k x coll ke ve g ce) = .ok v := by
      rw [eval_for] at h2 ⊢
      rw [← h2]
      unfold evalFor evalCollection
      rw [hs]
    exact ⟨v, he, eval_wf hc he, rfl⟩
theorem inPlaceList_becomes {env : Env} : ∀ (xs : List Expr) (c : Ctx) (ys : List Expr), CtxWF c →
    (∀ e ∈ xs, Uniform env c e) → inPlaceList (evalRec env) c xs = .ok (ys, []) →
      List.Forall₂ (Becomes env c) xs ys
  | [], c, ys, _, _, h => by
    injection h with h; injection h with h _; subst h; exact .nil
  | x :: xs, c, ys, hc, hu, h => by
    rw [inPlaceList] at h
    obtain ⟨⟨y, e1⟩, h1, h⟩ := bind_ok h
    obtain ⟨⟨ys', e2⟩, h2, h⟩ := bind_ok h
    injection h with h; injection h with h3 herr
    obtain ⟨rfl, rfl⟩ : e1 = [] ∧ e2 = [] := by simpa using herr
    subst h3
    exact .cons (inPlace_becomes x c y hc (hu x (List.mem_cons_self ..)) h1)
      (inPlaceList_becomes xs c ys' hc (fun e he => hu e (List.mem_cons_of_mem _ he)) h2)
theorem inPlaceEntries_becomes {env : Env} : ∀ (es : List (ObjKey × Expr)) (c : Ctx)
    (new : List (ObjKey × Expr)) (out : List (ObjKey × Expr)), CtxWF c →
    (∀ e v, (ObjKey.expr e, v) ∈ es → Uniform env c e) → (∀ k e, (k, e) ∈ es → Uniform env c e) →
    inPlaceEntries (evalRec env) c es new = .ok (out, []) →
      ∃ es', List.Forall₂ (EntryBecomes env c) es es' ∧ out = objInsertAll es' new
  | [], c, new, out, _, _, _, h => by
    injection h with h; injection h with h _; subst h; exact ⟨[], .nil, rfl⟩
  | (k, v) :: es, c, new, out, hc, hk, hv, h => by
    rw [inPlaceEntries] at h
    obtain ⟨⟨k1, e1⟩, h1, h⟩ := bind_ok h
    obtain ⟨⟨v1, e2⟩, h2, h⟩ := bind_ok h
    obtain ⟨⟨r, e3⟩, h3, h⟩ := bind_ok h
    injection h with h; injection h with h4 herr
    obtain ⟨rfl, rfl, rfl⟩ : e1 = [] ∧ e2 = [] ∧ e3 = [] := by simpa using herr
    subst h4
    have hkb := inPlaceKey_becomes k c k1 hc
      (fun e he => hk e v (by rw [he]; exact List.mem_cons_self ..)) h1
    have hvb := inPlace_becomes v c v1 hc (hv k v (List.mem_cons_self ..)) h2
    obtain ⟨es', hf, hout⟩ := inPlaceEntries_becomes es c _ r hc
      (fun e w hm => hk e w (List.mem_cons_of_mem _ hm))
      (fun k e hm => hv k e (List.mem_cons_of_mem _ hm)) h3
    exact ⟨(k1, v1) :: es', .cons ⟨hkb, hvb⟩ hf, hout⟩
theorem inPlaceKey_becomes {env : Env} : ∀ (k : ObjKey) (c : Ctx) (k' : ObjKey), CtxWF c →
    (∀ e, k = .expr e → Uniform env c e) → inPlaceKey (evalRec env) c k = .ok (k', []) →
      KeyBecomes env c k k'
  | .ident x, c, k', _, _, h => by
    injection h with h; injection h with h _; subst h; exact .ident x
  | .expr e, c, k', hc, hu, h => by
    rw [inPlaceKey] at h
    obtain ⟨⟨e1, errs⟩, h1, h⟩ := bind_ok h
    injection h with h; injection h with h herr
    simp only at herr; subst herr; subst h
    exact .expr (inPlace_becomes e c e1 hc (hu e rfl) h1)
theorem inPlaceOps_becomes {env : Env} : ∀ (os : List TravOp) (c : Ctx) (ps : List TravOp), CtxWF c →
    (∀ i, TravOp.index i ∈ os → Uniform env c i) → inPlaceOps (evalRec env) c os = .ok (ps, []) →
      List.Forall₂ (OpBecomes env c) os ps
  | [], c, ys, _, _, h => by
    injection h with h; injection h with h _; subst h; exact .nil
  | o :: os, c, ys, hc, hu, h => by
    rw [inPlaceOps] at h
    obtain ⟨⟨y, e1⟩, h1, h⟩ := bind_ok h
    obtain ⟨⟨ys', e2⟩, h2, h⟩ := bind_ok h
    injection h with h; injection h with h3 herr
    obtain ⟨rfl, rfl⟩ : e1 = [] ∧ e2 = [] := by simpa using herr
    subst h3
    exact .cons (inPlaceOp_becomes o c y hc (fun i hi => hu i (by rw [hi]; exact List.mem_cons_self ..)) h1)
      (inPlaceOps_becomes os c ys' hc (fun e he => hu e (List.mem_cons_of_mem _ he)) h2)
theorem inPlaceOp_becomes {env : Env} : ∀ (o : TravOp) (c : Ctx) (o' : TravOp), CtxWF c →
    (∀ i, o = .index i → Uniform env c i) → inPlaceOp (evalRec env) c o = .ok (o', []) →
      OpBecomes env c o o'
  | .index e, c, k', hc, hu, h => by
    rw [inPlaceOp] at h
    obtain ⟨⟨e1, errs⟩, h1, h⟩ := bind_ok h
    injection h with h; injection h with h herr
    simp only at herr; subst herr; subst h
    exact .index (inPlace_becomes e c e1 hc (hu e rfl) h1)
  | .attrSplat, c, k', _, _, h => by
    injection h with h; injection h with h _; subst h; exact .same _
  | .fullSplat, c, k', _, _, h => by
    injection h with h; injection h with h _; subst h; exact .same _
  | .getAttr x, c, k', _, _, h => by
    injection h with h; injection h with h _; subst h; exact .same _
  | .legacyIndex i, c, k', _, _, h => by
    injection h with h; injection h with h _; subst h; exact .same _
end

/-! ### Templates -/

/-- The contexts give the free names of the template the same meaning. -/
def AgreeT (env : Env) (c d : Ctx) (els : List Elem) : Prop :=
  (∀ x, FreeT env (.var x) els → c.var x = d.var x) ∧
  ∀ f, FreeT env (.func f) els → c.func f = d.func f

def ElemSame (env : Env) (c : Ctx) (el el' : Elem) : Prop :=
  el'.strip = el.strip ∧ ∀ d, AgreeT env c d [el] → ∀ a b,
    evalElem env (evalRec env) d a b el' = evalElem env (evalRec env) d a b el

theorem freeT_mono {env : Env} {n : Name} {els els' : List Elem} (hs : ∀ e ∈ els, e ∈ els')
    (h : FreeT env n els) : FreeT env n els' := by
  cases h with
  | interp hm hf => exact .interp (hs _ hm) hf
  | ifCond hm hf => exact .ifCond (hs _ hm) hf
  | ifTrue hm hf => exact .ifTrue (hs _ hm) hf
  | ifFalse hm hf => exact .ifFalse (hs _ hm) hf
  | forColl hm hf => exact .forColl (hs _ hm) hf
  | forBody hm hn hf => exact .forBody (hs _ hm) hn hf

theorem tmplSame {env : Env} {c d : Ctx} {els els' : List Elem}
    (h : List.Forall₂ (ElemSame env c) els els') (hd : AgreeT env c d els) (a b : Strip) :
    evalTmpl env d els' a b = evalTmpl env d els a b := by
  induction h generalizing a with
  | nil => rfl
  | @cons e e' es es' h hl ih =>
    have hd1 : AgreeT env c d [e] :=
      ⟨fun x hx => hd.1 x (freeT_mono (h := hx) (by simp)), fun x hx => hd.2 x (freeT_mono (h := hx) (by simp))⟩
    have hd2 : AgreeT env c d es :=
      ⟨fun x hx => hd.1 x (freeT_mono (h := hx) (by simp +contextual)),
        fun x hx => hd.2 x (freeT_mono (h := hx) (by simp +contextual))⟩
    rw [evalTmpl_cons', evalTmpl_cons', h.1, ih hd2]
    have : nextOf (e' :: es') b 0 = nextOf (e :: es) b 0 := by
      cases hl with
      | nil => rfl
      | cons h' _ => exact h'.1
    rw [this, h.2 d hd1]

theorem Becomes.at {env : Env} {c d : Ctx} {e e' : Expr} (h : Becomes env c e e')
    (hv : ∀ x, Free env (.var x) e → c.var x = d.var x)
    (hf : ∀ f, Free env (.func f) e → c.func f = d.func f) : eval env d e' = eval env d e := by
  obtain ⟨v, h1, h2, rfl⟩ := h
  rw [eval_ofValue v h2, ← Props.C34_free_names env c d e hv hf, h1]

mutual
theorem inPlaceTmpl_same {env : Env} {c : Ctx} (hc : CtxWF c) : ∀ (els els' : List Elem),
    LoopVarsUnused env c els → inPlaceTmpl (evalRec env) c els = .ok (els', []) →
      List.Forall₂ (ElemSame env c) els els'
  | [], els', _, h => by
    injection h with h; injection h with h _; subst h; exact .nil
  | e :: es, els', hu, h => by
    rw [inPlaceTmpl] at h
    obtain ⟨⟨y, e1⟩, h1, h⟩ := bind_ok h
    obtain ⟨⟨ys', e2⟩, h2, h⟩ := bind_ok h
    injection h with h; injection h with h3 herr
    obtain ⟨rfl, rfl⟩ : e1 = [] ∧ e2 = [] := by simpa using herr
    subst h3
    simp only [LoopVarsUnused] at hu
    exact .cons (inPlaceElem_same hc e y hu.1 h1) (inPlaceTmpl_same hc es ys' hu.2 h2)
theorem inPlaceElem_same {env : Env} {c : Ctx} (hc : CtxWF c) : ∀ (el el' : Elem),
    LoopVarsUnused1 env c el → inPlaceElem (evalRec env) c el = .ok (el', []) → ElemSame env c el el'
  | .lit s, el', _, h => by
    injection h with h; injection h with h _; subst h; exact ⟨rfl, fun _ _ _ _ => rfl⟩
  | .interp e m, el', hu, h => by
    rw [inPlaceElem] at h
    obtain ⟨⟨e1, errs⟩, h1, h⟩ := bind_ok h
    injection h with h; injection h with h herr
    simp only at herr; subst herr; subst h
    have hb := inPlace_becomes e c e1 hc hu h1
    refine ⟨rfl, fun d hd a b => ?_⟩
    have : (evalRec env).expr d e1 = (evalRec env).expr d e :=
      hb.at (fun x hx => hd.1 x (.interp (List.mem_cons_self ..) hx))
        (fun x hx => hd.2 x (.interp (List.mem_cons_self ..) hx))
    simp only [evalElem, this]
  | .ifDir q t f a0 b0 z0, el', hu, h => by
    simp only [LoopVarsUnused1] at hu
    rw [inPlaceElem] at h
    obtain ⟨⟨q1, e1⟩, h1, h⟩ := bind_ok h
    obtain ⟨⟨t1, e2⟩, h2, h⟩ := bind_ok h
    have hcond : ∀ d, AgreeT env c d [.ifDir q t f a0 b0 z0] → e1 = [] →
        evalBool (evalRec env) d q1 = evalBool (evalRec env) d q := by
      intro d hd he; subst he
      have : (evalRec env).expr d q1 = (evalRec env).expr d q :=
        (inPlace_becomes q c q1 hc hu.1 h1).at
          (fun x hx => hd.1 x (.ifCond (List.mem_cons_self ..) hx))
          (fun x hx => hd.2 x (.ifCond (List.mem_cons_self ..) hx))
      simp only [evalBool, this]
    have htrue : ∀ d, AgreeT env c d [.ifDir q t f a0 b0 z0] → e2 = [] → ∀ a b,
        (evalRec env).tmpl d t1 a b = (evalRec env).tmpl d t a b := by
      intro d hd he a b; subst he
      exact tmplSame (inPlaceTmpl_same hc t t1 hu.2.1 h2)
        ⟨fun x hx => hd.1 x (.ifTrue (List.mem_cons_self ..) hx),
          fun x hx => hd.2 x (.ifTrue (List.mem_cons_self ..) hx)⟩ a b
    cases f with
    | none =>
      simp only at h
      injection h with h; injection h with h herr
      obtain ⟨he1, he2⟩ : e1 = [] ∧ e2 = [] := by simpa using herr
      subst h
      refine ⟨rfl, fun d hd a b => ?_⟩
      simp only [evalElem, hcond d hd he1, htrue d hd he2]
    | some f =>
      simp only at h
      obtain ⟨⟨f1, e3⟩, h3, h⟩ := bind_ok h
      injection h with h; injection h with h herr
      obtain ⟨he1, he2, he3⟩ : e1 = [] ∧ e2 = [] ∧ e3 = [] := by simpa using herr
      subst h he3
      have hu3 : LoopVarsUnused env c f := by simpa only [LoopVarsUnusedO] using hu.2.2
      refine ⟨rfl, fun d hd a b => ?_⟩
      have hfalse : (evalRec env).tmpl d f1 b0 z0 = (evalRec env).tmpl d f b0 z0 :=
        tmplSame (inPlaceTmpl_same hc f f1 hu3 h3)
          ⟨fun x hx => hd.1 x (.ifFalse (List.mem_cons_self ..) hx),
            fun x hx => hd.2 x (.ifFalse (List.mem_cons_self ..) hx)⟩ b0 z0
      simp only [evalElem, hcond d hd he1, htrue d hd he2, hfalse, Option.isSome]
  | .forDir k x coll t a0 z0, el', hu, h => by
    simp only [LoopVarsUnused1] at hu
    rw [inPlaceElem] at h
    obtain ⟨⟨q1, e1⟩, h1, h⟩ := bind_ok h
    obtain ⟨⟨t1, e2⟩, h2, h⟩ := bind_ok h
    injection h with h; injection h with h herr
    obtain ⟨rfl, rfl⟩ : e1 = [] ∧ e2 = [] := by simpa using herr
    subst h
    refine ⟨rfl, fun d hd a b => ?_⟩
    have hcoll : evalCollection (evalRec env) d q1 = evalCollection (evalRec env) d coll := by
      have : (evalRec env).expr d q1 = (evalRec env).expr d coll :=
        (inPlace_becomes coll c q1 hc hu.1 h1).at
          (fun x hx => hd.1 x (.forColl (List.mem_cons_self ..) hx))
          (fun x hx => hd.2 x (.forColl (List.mem_cons_self ..) hx))
      simp only [evalCollection, this]
    have hbody : ∀ p, (evalRec env).tmpl (iterCtx d k x p) t1 a0 z0 =
        (evalRec env).tmpl (iterCtx d k x p) t a0 z0 := by
      intro p
      refine tmplSame (inPlaceTmpl_same hc t t1 hu.2.1 h2) ⟨fun y hy => ?_, fun f hf => ?_⟩ a0 z0
      · have hn := hu.2.2 _ hy
        rw [iterCtx_var, hd.1 y (.forBody (List.mem_cons_self ..) hn hy),
          if_neg (fun h => hn.1 (by rw [h])), if_neg (fun h => hn.2 y h rfl)]
      · have hn := hu.2.2 _ hf
        rw [iterCtx_func, hd.2 f (.forBody (List.mem_cons_self ..) hn hf)]
    have hloop : ∀ ps, forDirective (evalRec env) d k x t1 a0 z0 ps =
        forDirective (evalRec env) d k x t a0 z0 ps := by
      intro ps
      induction ps with
      | nil => rfl
      | cons p ps ih => simp only [forDirective, hbody p, ih]
    simp only [evalElem, hcoll, hloop]
end

/-! ### Bodies -/

mutual
theorem evalBody_of_shape {env : Env} {c : Ctx} : ∀ (b b' : List Struct),
    SameShape (fun e e' => ∃ v, eval env c e = .ok v ∧ e' = ofValue v) b b' →
      evalBody (evalRec env) c b = .ok b'
  | [], _, h => by cases h; rfl
  | s :: ss, _, h => by
    cases h with
    | cons h1 h2 => simp only [evalBody, evalStruct_of_shape s _ h1, evalBody_of_shape ss _ h2, R.bind]
theorem evalStruct_of_shape {env : Env} {c : Ctx} : ∀ (s s' : Struct),
    SameShape1 (fun e e' => ∃ v, eval env c e = .ok v ∧ e' = ofValue v) s s' →
      evalStruct (evalRec env) c s = .ok s'
  | .attr k e, _, h => by
    cases h with
    | attr h =>
      obtain ⟨v, h1, rfl⟩ := h
      have h1' : (evalRec env).expr c e = .ok v := h1
      simp only [evalStruct, h1', R.bind]
  | .block i ls b, _, h => by
    cases h with
    | block h => simp only [evalStruct, evalBody_of_shape b _ h, R.bind]
end

mutual
theorem inPlaceBody_shape {env : Env} {c : Ctx} : ∀ (b b' : List Struct) (errs : List EvalErr),
    inPlaceBody (evalRec env) c b = .ok (b', errs) →
      ∃ ess : List (List EvalErr),
        List.Forall₂ (fun e es => ∃ e', inPlace (evalRec env) c e = .ok (e', es)) (attrsOf b) ess ∧
        errs = ess.flatten ∧
        SameShape (fun e e' => ∃ es ∈ ess, inPlace (evalRec env) c e = .ok (e', es)) b b'
  | [], b', errs, h => by
    injection h with h; injection h with h h2; subst h; subst h2
    exact ⟨[], .nil, rfl, .nil⟩
  | s :: ss, b', errs, h => by
    rw [inPlaceBody] at h
    obtain ⟨⟨s', e1⟩, h1, h⟩ := bind_ok h
    obtain ⟨⟨ss', e2⟩, h2, h⟩ := bind_ok h
    injection h with h; injection h with h3 herr
    subst h3 herr
    obtain ⟨ess1, a1, rfl, c1⟩ := inPlaceStruct_shape s s' e1 h1
    obtain ⟨ess2, a2, rfl, c2⟩ := inPlaceBody_shape ss ss' e2 h2
    refine ⟨ess1 ++ ess2, List.rel_append a1 a2, by simp, .cons ?_ ?_⟩
    · exact shape1_mono (fun e e' ⟨es, hm, h⟩ => ⟨es, List.mem_append_left _ hm, h⟩) _ _ c1
    · exact shape_mono (fun e e' ⟨es, hm, h⟩ => ⟨es, List.mem_append_right _ hm, h⟩) _ _ c2
theorem inPlaceStruct_shape {env : Env} {c : Ctx} : ∀ (s s' : Struct) (errs : List EvalErr),
    inPlaceStruct (evalRec env) c s = .ok (s', errs) →
      ∃ ess : List (List EvalErr),
        List.Forall₂ (fun e es => ∃ e', inPlace (evalRec env) c e = .ok (e', es)) (attrsOfStruct s) ess ∧
        errs = ess.flatten ∧
        SameShape1 (fun e e' => ∃ es ∈ ess, inPlace (evalRec env) c e = .ok (e', es)) s s'
  | .attr k e, s', errs, h => by
    rw [inPlaceStruct] at h
    obtain ⟨⟨e', es⟩, h1, h⟩ := bind_ok h
    injection h with h; injection h with h3 herr
    subst h3 herr
    exact ⟨[es], .cons ⟨e', h1⟩ .nil, by simp, .attr ⟨es, by simp, h1⟩⟩
  | .block i ls b, s', errs, h => by
    rw [inPlaceStruct] at h
    obtain ⟨⟨b', es⟩, h1, h⟩ := bind_ok h
    injection h with h; injection h with h3 herr
    subst h3 herr
    obtain ⟨ess, a1, a2, a3⟩ := inPlaceBody_shape b b' es h1
    exact ⟨ess, a1, a2, .block a3⟩
theorem shape_mono {R S : Expr → Expr → Prop} (h : ∀ e e', R e e' → S e e') :
    ∀ b b', SameShape R b b' → SameShape S b b'
  | [], _, .nil => .nil
  | s :: ss, _, .cons h1 h2 => .cons (shape1_mono h s _ h1) (shape_mono h ss _ h2)
theorem shape1_mono {R S : Expr → Expr → Prop} (h : ∀ e e', R e e' → S e e') :
    ∀ s s', SameShape1 R s s' → SameShape1 S s s'
  | .attr _ _, _, .attr h1 => .attr (h _ _ h1)
  | .block _ _ b, _, .block h1 => .block (shape_mono h b _ h1)
end

mutual
theorem shape_mem {R S : Expr → Expr → Prop} : ∀ b b', (∀ e e', e ∈ attrsOf b → R e e' → S e e') →
    SameShape R b b' → SameShape S b b'
  | [], _, _, .nil => .nil
  | s :: ss, _, h, .cons h1 h2 => .cons
      (shape1_mem s _ (fun e e' he => h e e' (by rw [attrsOf]; exact List.mem_append_left _ he)) h1)
      (shape_mem ss _ (fun e e' he => h e e' (by rw [attrsOf]; exact List.mem_append_right _ he)) h2)
theorem shape1_mem {R S : Expr → Expr → Prop} : ∀ s s',
    (∀ e e', e ∈ attrsOfStruct s → R e e' → S e e') → SameShape1 R s s' → SameShape1 S s s'
  | .attr _ _, _, h, .attr h1 => .attr (h _ _ (by simp [attrsOfStruct]) h1)
  | .block _ _ b, _, h, .block h1 =>
    .block (shape_mem b _ (fun e e' he => h e e' (by simpa [attrsOfStruct] using he)) h1)
end

namespace Props

/-- C44: if in-place evaluation of an expression succeeds, the expression is replaced by the
expression form of what evaluating it returns. Missing for the full claim: objects in which one
key text is written in two ways, see `C44_false`. -/
theorem C44_expression_partial (env : Env) (ctx : Ctx) (e e' : Expr) (hc : CtxWF ctx)
    (hu : Uniform env ctx e) (h : inPlace (evalRec env) ctx e = .ok (e', [])) :
    ∃ v, eval env ctx e = .ok v ∧ e' = ofValue v := by
  obtain ⟨v, h1, _, h2⟩ := inPlace_becomes e ctx e' hc hu h
  exact ⟨v, h1, h2⟩

/-- C44: if in-place evaluation of a body succeeds, the body becomes what `evaluate` returns for
it. Same restriction. -/
theorem C44_body_partial (env : Env) (ctx : Ctx) (b b' : List Struct) (hc : CtxWF ctx)
    (hu : ∀ e ∈ attrsOf b, Uniform env ctx e)
    (h : inPlaceBody (evalRec env) ctx b = .ok (b', [])) :
    evalBody (evalRec env) ctx b = .ok b' := by
  obtain ⟨ess, _, h2, h3⟩ := inPlaceBody_shape b b' [] h
  refine evalBody_of_shape b b' (shape_mem b b' (fun e e' he hr => ?_) h3)
  obtain ⟨es, hm, hr⟩ := hr
  have hes : es = [] := List.flatten_eq_nil_iff.1 h2.symm es hm
  subst hes
  exact C44_expression_partial env ctx e e' hc (hu e he) hr

/-- C45: in-place evaluation of a body runs in-place evaluation of every attribute, nested blocks
included, whatever happens to the others; every attribute is replaced by its own result, everything
else stays, and the errors are those of the attributes, in order. -/
theorem C45_every_attribute (env : Env) (ctx : Ctx) (b b' : List Struct) (errs : List EvalErr)
    (h : inPlaceBody (evalRec env) ctx b = .ok (b', errs)) :
    ∃ ess : List (List EvalErr),
      List.Forall₂ (fun e es => ∃ e', inPlace (evalRec env) ctx e = .ok (e', es)) (attrsOf b) ess ∧
      errs = ess.flatten ∧
      SameShape (fun e e' => ∃ es ∈ ess, inPlace (evalRec env) ctx e = .ok (e', es)) b b' :=
  inPlaceBody_shape b b' errs h

/-- C45: every attribute that reports no error is replaced by its value (with the restriction of
C44). -/
theorem C45_replaced_partial (env : Env) (ctx : Ctx) (b b' : List Struct) (errs : List EvalErr)
    (hc : CtxWF ctx) (hu : ∀ e ∈ attrsOf b, Uniform env ctx e)
    (h : inPlaceBody (evalRec env) ctx b = .ok (b', errs)) :
    SameShape (fun e e' => (∃ v, eval env ctx e = .ok v ∧ e' = ofValue v) ∨
      ∃ es, es ≠ [] ∧ (∀ x ∈ es, x ∈ errs) ∧ inPlace (evalRec env) ctx e = .ok (e', es)) b b' := by
  obtain ⟨ess, _, rfl, h3⟩ := inPlaceBody_shape b b' errs h
  refine shape_mem b b' (fun e e' he hr => ?_) h3
  obtain ⟨es, hm, hr⟩ := hr
  by_cases hes : es = []
  · subst hes
    exact .inl (C44_expression_partial env ctx e e' hc (hu e he) hr)
  · exact .inr ⟨es, hes, fun x hx => List.mem_flatten.2 ⟨es, hm, hx⟩, hr⟩

/-- C45: there are at least as many errors as attributes that do not evaluate (with the restriction
of C44). -/
theorem C45_reports_partial (env : Env) (ctx : Ctx) (b b' : List Struct) (errs : List EvalErr)
    (hc : CtxWF ctx) (hu : ∀ e ∈ attrsOf b, Uniform env ctx e)
    (h : inPlaceBody (evalRec env) ctx b = .ok (b', errs)) (failing : List Expr)
    (hs : failing.Sublist (attrsOf b)) (hf : ∀ e ∈ failing, ∀ v, eval env ctx e ≠ .ok v) :
    failing.length ≤ errs.length := by
  obtain ⟨ess, h1, rfl, hshape⟩ := inPlaceBody_shape b b' errs h
  clear h hshape
  generalize hl : attrsOf b = l at h1 hs hu
  clear hl
  induction h1 generalizing failing with
  | nil => simp at hs; simp [hs]
  | @cons e es l ess h1 _ ih =>
    have ih' := fun fs hf hs => ih fs hf hs (fun e he => hu e (List.mem_cons_of_mem _ he))
    cases hs with
    | cons _ hs =>
      have := ih' failing hf hs
      simp only [List.flatten_cons, List.length_append]; omega
    | @cons_cons fs _ _ hs =>
      have := ih' fs (fun e he => hf e (List.mem_cons_of_mem _ he)) hs
      have hne : es ≠ [] := by
        intro hes
        obtain ⟨e', he'⟩ := h1
        subst hes
        obtain ⟨v, hv, _⟩ := C44_expression_partial env ctx e e' hc (hu e (List.mem_cons_self ..)) he'
        exact hf e (List.mem_cons_self ..) v hv
      have : 0 < es.length := List.length_pos_iff.2 hne
      simp only [List.flatten_cons, List.length_append, List.length_cons]; omega

/-- C54: if in-place evaluation of a template succeeds, the template still evaluates to the same
string. Missing for the full claim: `for` directives whose body uses the loop variables, see
`C54_false`. -/
theorem C54_template_partial (env : Env) (ctx : Ctx) (t t' : List Elem) (hc : CtxWF ctx)
    (hu : LoopVarsUnused env ctx t) (h : inPlaceTmpl (evalRec env) ctx t = .ok (t', [])) :
    evalTmpl env ctx t' .none .none = evalTmpl env ctx t .none .none :=
  tmplSame (inPlaceTmpl_same hc t t' hu h) ⟨fun _ _ => rfl, fun _ _ => rfl⟩ _ _

/-! Concrete cases and counterexamples. -/

theorem ctxWF_new : CtxWF Ctx.new :=
  ⟨fun x v h => by simp [Ctx.new, Ctx.var, Map.get?] at h,
    fun n f h => by simp [Ctx.new, Ctx.func, Map.get?] at h⟩

/-- `{ "a" = true, a = false, ("a") = null }` -/
def exMixed : Expr := .object
  [(.expr (.string c!"a"), .bool true), (.ident c!"a", .bool false),
    (.expr (.paren (.string c!"a")), .null)]

/-- C44 is false of the code: `{ "a" = true, a = false, ("a") = null }` evaluates to `{ a = null }`,
but in place it becomes `{ "a" = false }`. -/
theorem C44_false : ∃ (env : Env) (ctx : Ctx) (e : Expr) (v w : Value), CtxWF ctx ∧
    inPlace (evalRec env) ctx e = .ok (ofValue v, []) ∧ eval env ctx e = .ok w ∧ v.beq w = false := by
  refine ⟨exEnv, Ctx.new, exMixed, .object [(c!"a", .bool false)], .object [(c!"a", .null)],
    ctxWF_new, ?_, eval_of_evalF 5 rfl (by simp), by decide⟩
  have h1 : eval exEnv Ctx.new.child.child (.string c!"a") = .ok (.string c!"a") := eval_string _
  have h2 : (evalRec exEnv).expr Ctx.new.child (.paren (.string c!"a")) = .ok (.string c!"a") := by
    show eval exEnv Ctx.new.child (.paren (.string c!"a")) = _
    rw [eval_paren, eval_string]
  have h3 : (evalRec exEnv).expr Ctx.new
      (.object [(.expr (.string c!"a"), .null), (.ident c!"a", .bool false)]) =
      .ok (.object [(c!"a", .bool false)]) := eval_of_evalF 5 rfl (by simp)
  have h4 : inPlaceEntries (evalRec exEnv) Ctx.new.child
      [(.expr (.string c!"a"), .bool true), (.ident c!"a", .bool false),
        (.expr (.paren (.string c!"a")), .null)] [] =
      .ok ([(.expr (.string c!"a"), .null), (.ident c!"a", .bool false)], []) := by
    simp only [inPlaceEntries, inPlaceKey, inPlace, R.bind, finishPlace, placed, h2, ofValue,
      objInsert, ObjKey.beq, Expr.beq, Bool.false_eq_true, if_false, decide_true, if_true,
      List.append_nil]
  simp only [exMixed, inPlace, h4, R.bind, finishPlace, placed, h3]

/-- In-place evaluation may fail although evaluation succeeds: `[][*][x]` with undefined `x`. -/
theorem C44_fails_spuriously : ∃ (env : Env) (ctx : Ctx) (e e' : Expr) (v : Value) (x : EvalErr),
    CtxWF ctx ∧ eval env ctx e = .ok v ∧ inPlace (evalRec env) ctx e = .ok (e', [x]) := by
  refine ⟨exEnv, Ctx.new, .traversal (.array []) [.fullSplat, .index (.var c!"x")],
    .traversal (.array []) [.fullSplat, .index (.var c!"x")], .array [], .undefinedVar c!"x",
    ctxWF_new, eval_of_evalF 5 rfl (by simp), ?_⟩
  have h : (evalRec exEnv).expr Ctx.new.child (.var c!"x") = R.err (.undefinedVar c!"x") :=
    eval_of_evalF 5 rfl (by simp [R.err])
  simp only [inPlace, inPlaceOps, inPlaceOp, finishPlace, h, R.err, placed, R.bind, List.append_nil,
    List.nil_append]

/-- The context with `x = "o"`. -/
def exOuter : Ctx := Ctx.declareVar c!"x" (.string c!"o") Ctx.new

theorem ctxWF_outer : CtxWF exOuter := by
  refine ⟨fun x v h => ?_, fun n f h => by
    simp [exOuter, Ctx.declareVar, Ctx.new, Ctx.func, Map.get?] at h⟩
  rw [exOuter, Ctx.declareVar_var] at h
  split at h
  · injection h with h; subst h; simp [Value.WF]
  · simp [Ctx.new, Ctx.var, Map.get?] at h

/-- C54 is false of the code: with `x = "o"`, in-place evaluation of
`%{ for x in ["i"] }${x}%{ endfor }` changes its value from `i` to `o`. -/
theorem C54_false : ∃ (env : Env) (ctx : Ctx) (t t' : List Elem) (s s' : Str), CtxWF ctx ∧
    inPlaceTmpl (evalRec env) ctx t = .ok (t', []) ∧ evalTmpl env ctx t .none .none = .ok s ∧
      evalTmpl env ctx t' .none .none = .ok s' ∧ s ≠ s' := by
  refine ⟨exEnv, exOuter,
    [.forDir none c!"x" (.array [.string c!"i"]) [.interp (.var c!"x") .none] .none .none],
    [.forDir none c!"x" (.array [.string c!"i"]) [.interp (.string c!"o") .none] .none .none],
    c!"i", c!"o", ctxWF_outer, ?_, evalTmpl_of_evalF 5 rfl (by simp),
    evalTmpl_of_evalF 5 rfl (by simp), by decide⟩
  have h1 : (evalRec exEnv).expr exOuter (.array [.string c!"i"]) = .ok (.array [.string c!"i"]) :=
    eval_of_evalF 5 rfl (by simp)
  have h2 : (evalRec exEnv).expr exOuter (.var c!"x") = .ok (.string c!"o") :=
    eval_of_evalF 5 rfl (by simp)
  simp only [inPlaceTmpl, inPlaceElem, inPlace, inPlaceList, finishPlace, placed, h1, h2, R.bind,
    List.append_nil, ofValue, ofValues]

-- C44: a nested case meeting the hypotheses, `{ k = x }` with `x = "o"`
example : Uniform exEnv exOuter (.object [(.ident c!"k", .var c!"x")]) := by
  intro es hw
  cases hw with
  | self =>
    intro p hp q hq a b s t ha hb hs ht
    simp only [List.mem_singleton] at hp hq
    subst hp hq
    cases ha; cases hb
    simp [EKey.text] at hs ht
    simp [SameKey, ← hs, ← ht]
  | key hm _ => simp at hm
  | value hm hw =>
    simp only [List.mem_singleton, Prod.mk.injEq] at hm
    rw [hm.2] at hw
    cases hw
example : inPlace (evalRec exEnv) exOuter (.object [(.ident c!"k", .var c!"x")]) =
    .ok (.object [(.expr (.string c!"k"), .string c!"o")], []) := by
  have h2 : (evalRec exEnv).expr exOuter.child (.var c!"x") = .ok (.string c!"o") :=
    eval_of_evalF 5 rfl (by simp)
  have h3 : (evalRec exEnv).expr exOuter (.object [(.ident c!"k", .string c!"o")]) =
    .ok (.object [(c!"k", .string c!"o")]) := eval_of_evalF 5 rfl (by simp)
  simp only [inPlace, inPlaceEntries, inPlaceKey, finishPlace, placed, h2, R.bind, List.append_nil,
    ofValue, objInsert, h3, ofEntries, objCollect, List.foldl]

-- C45: the failing first attribute does not stop the second.
example : inPlaceBody (evalRec exEnv) exOuter [.attr c!"a" (.var c!"u"), .attr c!"b" (.var c!"x")] =
    .ok ([.attr c!"a" (.var c!"u"), .attr c!"b" (.string c!"o")], [.undefinedVar c!"u"]) := by
  have h1 : (evalRec exEnv).expr exOuter (.var c!"u") = R.err (.undefinedVar c!"u") :=
    eval_of_evalF 5 rfl (by simp [R.err])
  have h2 : (evalRec exEnv).expr exOuter (.var c!"x") = .ok (.string c!"o") :=
    eval_of_evalF 5 rfl (by simp)
  simp only [inPlaceBody, inPlaceStruct, inPlace, finishPlace, placed, h1, h2, R.err, R.bind,
    List.append_nil, ofValue]

-- C54: a template meeting the hypotheses
example : LoopVarsUnused exEnv exOuter
    [.forDir none c!"y" (.array []) [.interp (.var c!"x") .none] .none .none] := by
  simp only [LoopVarsUnused, LoopVarsUnused1, and_true]
  refine ⟨?_, ?_, ?_⟩
  · intro es hw; cases hw with | array h _ => simp at h
  · intro es hw; cases hw
  · intro n hn
    cases hn with
    | interp hm hf =>
      simp only [List.mem_singleton, Elem.interp.injEq] at hm
      rw [hm.1] at hf
      cases hf
      exact ⟨by simp, by simp⟩
    | ifCond hm _ => simp at hm
    | ifTrue hm _ => simp at hm
    | ifFalse hm _ => simp at hm
    | forColl hm _ => simp at hm
    | forBody hm _ _ => simp at hm

end Props
end Verif
