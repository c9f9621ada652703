import Verif.Lemmas.Stages
/-! In-place evaluation after in-place evaluation with fewer names. -/

namespace Verif
open Spec

variable {env : Env}

/-! ### Values stay -/

theorem objInsert_string (k : Str) (v : Expr) (m : List (Str × Value)) (h : k ∉ m.map Prod.fst) :
    objInsert (.expr (.string k)) v (ofEntries m) = ofEntries m ++ [(.expr (.string k), v)] := by
  refine objInsert_fresh _ _ _ fun p hp => ?_
  induction m with
  | nil => cases hp
  | cons q m ih =>
    simp only [List.map_cons, List.mem_cons, not_or] at h
    rw [ofEntries] at hp
    rcases List.mem_cons.1 hp with rfl | hp
    · simp only [ObjKey.beq, Expr.beq, decide_eq_false_iff_not]
      exact fun he => h.1 he.symm
    · exact ih h.2 hp

theorem ofEntries_append (a b : List (Str × Value)) : ofEntries (a ++ b) = ofEntries a ++ ofEntries b := by
  induction a with
  | nil => rfl
  | cons p a ih => simp only [List.cons_append, ofEntries, ih]

mutual
theorem inPlace_ofValue : ∀ (v : Value), v.WF → ∀ c, inPlace (evalRec env) c (ofValue v) = .ok (ofValue v, [])
  | .null, _, _ => rfl
  | .bool _, _, _ => rfl
  | .number _, _, _ => rfl
  | .string _, _, _ => rfl
  | .array xs, h, c => by
    have he : (evalRec env).expr c (ofValue (.array xs)) = .ok (.array xs) := eval_ofValue _ h
    simp only [ofValue] at he ⊢
    rw [inPlace, inPlace_ofValues xs (by simpa [Value.WF] using h)]
    simp only [R.bind, finishPlace, placed, he, ofValue]
  | .object es, h, c => by
    have he : (evalRec env).expr c (ofValue (.object es)) = .ok (.object es) := eval_ofValue _ h
    simp only [Value.WF] at h
    simp only [ofValue, objCollect_ofEntries h.1] at he ⊢
    rw [inPlace, show ([] : List (ObjKey × Expr)) = ofEntries [] from rfl,
      inPlace_ofEntries es [] h.2 (by simpa using h.1)]
    simp only [R.bind, finishPlace, placed, List.nil_append, he, ofValue, objCollect_ofEntries h.1]
theorem inPlace_ofValues : ∀ (xs : List Value), Value.WFList xs → ∀ c,
    inPlaceList (evalRec env) c (ofValues xs) = .ok (ofValues xs, [])
  | [], _, _ => rfl
  | v :: vs, h, c => by
    simp only [Value.WFList] at h
    simp only [ofValues, inPlaceList, inPlace_ofValue v h.1, inPlace_ofValues vs h.2, R.bind, List.append_nil]
theorem inPlace_ofEntries : ∀ (es m : List (Str × Value)), Value.WFObj es → ((m ++ es).map Prod.fst).Nodup → ∀ c,
    inPlaceEntries (evalRec env) c (ofEntries es) (ofEntries m) = .ok (ofEntries (m ++ es), [])
  | [], m, _, _, _ => by rw [List.append_nil]; rfl
  | (k, v) :: es, m, h, hn, c => by
    simp only [Value.WFObj] at h
    have hk : k ∉ m.map Prod.fst := by
      rw [List.map_append, List.nodup_append] at hn
      exact fun hm => hn.2.2 k hm k (by simp) rfl
    have := inPlace_ofEntries es (m ++ [(k, v)]) h.2 (by simpa using hn) c
    rw [ofEntries_append, List.append_assoc] at this
    simp only [ofEntries, List.cons_append, List.nil_append] at this
    simp only [ofEntries, inPlaceEntries, inPlaceKey, inPlace, inPlace_ofValue v h.1, R.bind,
      objInsert_string _ _ _ hk, this, List.append_nil]
end

theorem finish_value {c : Ctx} {α : Type} {mk : α → Expr} {r : Placed α} {e' : Expr} (hc : CtxWF c)
    (h : R.bind r (fun r => finishPlace (evalRec env) c (mk r.1, r.2)) = .ok (e', [])) :
    ∃ v : Value, v.WF ∧ e' = ofValue v := by
  obtain ⟨⟨a, es⟩, _, h⟩ := bind_ok h
  cases es with
  | cons k ks => cases h
  | nil =>
    simp only [finishPlace] at h
    cases hv : (evalRec env).expr c (mk a) with
    | ok v =>
      rw [hv] at h
      cases h
      exact ⟨v, eval_wf hc hv, rfl⟩
    | error f =>
      rw [hv] at h
      cases f <;> cases h

/-- What is evaluated in place without errors is a value. -/
theorem inPlace_value {c : Ctx} {e e' : Expr} (hc : CtxWF c) (h : inPlace (evalRec env) c e = .ok (e', [])) :
    ∃ v : Value, v.WF ∧ e' = ofValue v := by
  cases e with
  | null => cases h; exact ⟨.null, trivial, rfl⟩
  | bool b => cases h; exact ⟨.bool b, trivial, rfl⟩
  | number b => cases h; exact ⟨.number b, trivial, rfl⟩
  | string b => cases h; exact ⟨.string b, trivial, rfl⟩
  | array xs => exact finish_value hc (mk := Expr.array) (by rw [← h, inPlace])
  | object xs => exact finish_value hc (mk := Expr.object) (by rw [← h, inPlace])
  | template t => exact finish_value hc (mk := id) (r := .ok (.template t, [])) (by rw [← h, inPlace]; rfl)
  | var x => exact finish_value hc (mk := id) (r := .ok (.var x, [])) (by rw [← h, inPlace]; rfl)
  | traversal e ops => exact finish_value hc (mk := Expr.traversal e) (by rw [← h, inPlace])
  | call n args x => exact finish_value hc (mk := fun a => Expr.call n a x) (by rw [← h, inPlace])
  | paren e => exact finish_value hc (mk := Expr.paren) (by rw [← h, inPlace])
  | cond q t f =>
    rw [inPlace] at h
    cases hq : evalBool (evalRec env) c.child q with
    | error k => rw [hq] at h; cases k <;> cases h
    | ok b =>
      rw [hq] at h
      cases b with
      | true => exact finish_value hc (mk := fun a => Expr.cond (.bool true) a f) h
      | false => exact finish_value hc (mk := fun a => Expr.cond (.bool false) t a) h
  | unary o e => exact finish_value hc (mk := Expr.unary o) (by rw [← h, inPlace])
  | binary l o r =>
    rw [inPlace] at h
    obtain ⟨⟨l1, e1⟩, h1, h⟩ := bind_ok h
    exact finish_value hc (mk := fun a => Expr.binary l1 o a)
      (r := R.bind (inPlace (evalRec env) c.child r) fun b => .ok (b.1, e1 ++ b.2)) (by
        rw [← h]
        cases inPlace (evalRec env) c.child r <;> rfl)
  | forE k y coll ke ve g ce => exact finish_value hc (mk := fun a => Expr.forE k y a ke ve g ce) (by rw [← h, inPlace])

theorem inPlace_done {c : Ctx} {e e' : Expr} (hc : CtxWF c) (h : inPlace (evalRec env) c e = .ok (e', [])) (d : Ctx) :
    inPlace (evalRec env) d e' = .ok (e', []) := by
  obtain ⟨v, hv, rfl⟩ := inPlace_value hc h
  exact inPlace_ofValue v hv d

/-! ### Again -/

section
variable {c d : Ctx}

theorem finish_again {α : Type} {e' : Expr} {errs : List EvalErr} (mk : α → Expr) {r rx : Placed α} (hc : CtxWF c)
    (hd : Extends c d) (h : R.bind r (fun r => finishPlace (evalRec env) c (mk r.1, r.2)) = .ok (e', errs))
    (hp : ∀ a es, r = .ok (a, es) →
      inPlace (evalRec env) d (mk a) = R.bind rx (fun r => finishPlace (evalRec env) d (mk r.1, r.2)) ∧
        (es = [] → rx = .ok (a, []))) :
    inPlace (evalRec env) d e' = R.bind rx (fun r => finishPlace (evalRec env) d (mk r.1, r.2)) := by
  obtain ⟨⟨a, es⟩, hr, h⟩ := bind_ok h
  obtain ⟨p1, p2⟩ := hp a es hr
  cases es with
  | cons k ks => cases h; exact p1
  | nil =>
    simp only [finishPlace] at h
    cases hv : (evalRec env).expr c (mk a) with
    | ok v =>
      rw [hv] at h
      cases h
      have hv' : (evalRec env).expr d (mk a) = .ok v := eval_extends hd hv
      rw [p2 rfl, inPlace_ofValue v (eval_wf hc hv)]
      simp only [R.bind, finishPlace, placed, hv']
    | error f =>
      rw [hv] at h
      cases f <;> cases h
      exact p1

mutual
theorem inPlace_again : ∀ (e : Expr) (c d : Ctx) (e' : Expr) (errs : List EvalErr), CtxWF c → Extends c d →
    Unmerged env c e → inPlace (evalRec env) c e = .ok (e', errs) →
      inPlace (evalRec env) d e' = inPlace (evalRec env) d e
  | .null, _, _, _, _, _, _, _, h => by cases h; rfl
  | .bool _, _, _, _, _, _, _, _, h => by cases h; rfl
  | .number _, _, _, _, _, _, _, _, h => by cases h; rfl
  | .string _, _, _, _, _, _, _, _, h => by cases h; rfl
  | .array xs, c, d, e', errs, hc, hd, hu, h => by
    rw [inPlace] at h ⊢
    refine finish_again Expr.array hc hd h fun a es h1 => ?_
    obtain ⟨i1, i2⟩ := inPlaceList_again xs c.child d.child a es hc.child hd.child
      (fun e he => Unmerged.child fun es hw => hu es (.array he hw)) h1
    exact ⟨by rw [inPlace, i1], i2⟩
  | .object os, c, d, e', errs, hc, hd, hu, h => by
    rw [inPlace] at h ⊢
    refine finish_again Expr.object hc hd h fun a es h1 => ?_
    obtain ⟨hle, hf, i2⟩ := inPlaceEntries_again os [] c.child d.child a es hc.child hd.child
      (fun e v hm => Unmerged.child fun es hw => hu es (.key hm hw))
      (fun k e hm => Unmerged.child fun es hw => hu es (.value hm hw)) h1
    have hl := Unmerged.child hu os .self a es h1
    obtain ⟨l, rfl, hf⟩ := hf (by simpa using hl)
    exact ⟨by rw [inPlace, hf], i2⟩
  | .template t, c, d, e', errs, hc, hd, hu, h => by
    refine finish_again (r := .ok (Expr.template t, [])) (rx := .ok (Expr.template t, [])) id hc hd h fun a es h1 => ?_
    cases h1
    exact ⟨rfl, fun _ => rfl⟩
  | .var x, c, d, e', errs, hc, hd, hu, h => by
    refine finish_again (r := .ok (Expr.var x, [])) (rx := .ok (Expr.var x, [])) id hc hd h fun a es h1 => ?_
    cases h1
    exact ⟨rfl, fun _ => rfl⟩
  | .traversal e ops, c, d, e', errs, hc, hd, hu, h => by
    rw [inPlace] at h ⊢
    refine finish_again (Expr.traversal e) hc hd h fun a es h1 => ?_
    obtain ⟨i1, i2⟩ := inPlaceOps_again ops c.child d.child a es hc.child hd.child
      (fun e he => Unmerged.child fun es hw => hu es (.index he hw)) h1
    exact ⟨by rw [inPlace, i1], i2⟩
  | .call n args x, c, d, e', errs, hc, hd, hu, h => by
    rw [inPlace] at h ⊢
    refine finish_again (fun a => Expr.call n a x) hc hd h fun a es h1 => ?_
    obtain ⟨i1, i2⟩ := inPlaceList_again args c.child d.child a es hc.child hd.child
      (fun e he => Unmerged.child fun es hw => hu es (.arg he hw)) h1
    exact ⟨by rw [inPlace, i1], i2⟩
  | .paren e, c, d, e', errs, hc, hd, hu, h => by
    rw [inPlace] at h ⊢
    refine finish_again Expr.paren hc hd h fun a es h1 => ?_
    have i1 := inPlace_again e c.child d.child a es hc.child hd.child
      (Unmerged.child fun es hw => hu es (.paren hw)) h1
    exact ⟨by rw [inPlace, i1], fun he => by subst he; rw [← i1]; exact inPlace_done hc.child h1 _⟩
  | .cond q t f, c, d, e', errs, hc, hd, hu, h => by
    rw [inPlace] at h
    cases hq : evalBool (evalRec env) c.child q with
    | error k =>
      rw [hq] at h
      cases k <;> cases h
      rfl
    | ok b =>
      rw [hq] at h
      have hq' : evalBool (evalRec env) d.child q = .ok b := by
        obtain ⟨v, hv, hb⟩ := bind_ok hq
        have hv' : (evalRec env).expr d.child q = .ok v := eval_extends hd.child hv
        show R.bind ((evalRec env).expr d.child q) _ = _
        rw [hv']
        exact hb
      have hlit : evalBool (evalRec env) d.child (.bool b) = .ok b := by
        have : (evalRec env).expr d.child (.bool b) = .ok (.bool b) := eval_bool ..
        simp only [evalBool, this, R.bind]
      cases b with
      | true =>
        rw [inPlace, hq']
        refine finish_again (fun a => Expr.cond (.bool true) a f) hc hd h fun a es h1 => ?_
        have i1 := inPlace_again t c.child d.child a es hc.child hd.child
          (Unmerged.child fun es hw => hu es (.condT hw)) h1
        exact ⟨by rw [inPlace, hlit]; simp only [placed, if_true, i1],
          fun he => by subst he; rw [← i1]; exact inPlace_done hc.child h1 _⟩
      | false =>
        rw [inPlace, hq']
        refine finish_again (fun a => Expr.cond (.bool false) t a) hc hd h fun a es h1 => ?_
        have i1 := inPlace_again f c.child d.child a es hc.child hd.child
          (Unmerged.child fun es hw => hu es (.condF hw)) h1
        exact ⟨by rw [inPlace, hlit]; simp only [placed, Bool.false_eq_true, if_false, i1],
          fun he => by subst he; rw [← i1]; exact inPlace_done hc.child h1 _⟩
  | .unary o e, c, d, e', errs, hc, hd, hu, h => by
    rw [inPlace] at h ⊢
    refine finish_again (Expr.unary o) hc hd h fun a es h1 => ?_
    have i1 := inPlace_again e c.child d.child a es hc.child hd.child
      (Unmerged.child fun es hw => hu es (.unary hw)) h1
    exact ⟨by rw [inPlace, i1], fun he => by subst he; rw [← i1]; exact inPlace_done hc.child h1 _⟩
  | .binary l o r, c, d, e', errs, hc, hd, hu, h => by
    have key : ∀ (c : Ctx) (l r : Expr), inPlace (evalRec env) c (.binary l o r) =
        R.bind (R.bind (inPlace (evalRec env) c.child l) fun a => R.bind (inPlace (evalRec env) c.child r) fun b =>
          .ok ((a.1, b.1), a.2 ++ b.2)) fun r => finishPlace (evalRec env) c (Expr.binary r.1.1 o r.1.2, r.2) := by
      intro c l r
      rw [inPlace]
      cases inPlace (evalRec env) c.child l with
      | error => rfl
      | ok a => cases inPlace (evalRec env) c.child r <;> rfl
    rw [key] at h ⊢
    refine finish_again (fun p : Expr × Expr => Expr.binary p.1 o p.2) hc hd h fun a es h1 => ?_
    obtain ⟨⟨l1, e1⟩, h2, h1⟩ := bind_ok h1
    obtain ⟨⟨r1, e2⟩, h3, h1⟩ := bind_ok h1
    cases h1
    have il := inPlace_again l c.child d.child _ _ hc.child hd.child
      (Unmerged.child fun es hw => hu es (.left hw)) h2
    have ir := inPlace_again r c.child d.child _ _ hc.child hd.child
      (Unmerged.child fun es hw => hu es (.right hw)) h3
    refine ⟨by rw [key, il, ir], fun he => ?_⟩
    obtain ⟨he1, he2⟩ := List.append_eq_nil_iff.1 he
    dsimp only at he1 he2
    subst he1 he2
    rw [← il, ← ir, inPlace_done hc.child h2, inPlace_done hc.child h3]
    rfl
  | .forE k y coll ke ve g ce, c, d, e', errs, hc, hd, hu, h => by
    rw [inPlace] at h ⊢
    refine finish_again (fun a => Expr.forE k y a ke ve g ce) hc hd h fun a es h1 => ?_
    have i1 := inPlace_again coll c.child d.child a es hc.child hd.child
      (Unmerged.child fun es hw => hu es (.coll hw)) h1
    exact ⟨by rw [inPlace, i1], fun he => by subst he; rw [← i1]; exact inPlace_done hc.child h1 _⟩
theorem inPlaceList_again : ∀ (xs : List Expr) (c d : Ctx) (ys : List Expr) (errs : List EvalErr), CtxWF c →
    Extends c d → (∀ e ∈ xs, Unmerged env c e) → inPlaceList (evalRec env) c xs = .ok (ys, errs) →
      inPlaceList (evalRec env) d ys = inPlaceList (evalRec env) d xs ∧
        (errs = [] → inPlaceList (evalRec env) d xs = .ok (ys, []))
  | [], _, _, _, _, _, _, _, h => by cases h; exact ⟨rfl, fun _ => rfl⟩
  | x :: xs, c, d, ys, errs, hc, hd, hu, h => by
    rw [inPlaceList] at h
    obtain ⟨⟨y, e1⟩, h1, h⟩ := bind_ok h
    obtain ⟨⟨ys', e2⟩, h2, h⟩ := bind_ok h
    cases h
    have i1 := inPlace_again x c d _ _ hc hd (hu x (List.mem_cons_self ..)) h1
    obtain ⟨i2, i3⟩ := inPlaceList_again xs c d _ _ hc hd (fun e he => hu e (List.mem_cons_of_mem _ he)) h2
    refine ⟨by rw [inPlaceList, inPlaceList, i1, i2], fun he => ?_⟩
    obtain ⟨he1, he2⟩ := List.append_eq_nil_iff.1 he
    dsimp only at he1 he2
    subst he1 he2
    rw [inPlaceList, i3 rfl, ← i1, inPlace_done hc h1]
    rfl
theorem inPlaceEntries_again : ∀ (os new : List (ObjKey × Expr)) (c d : Ctx) (r : List (ObjKey × Expr))
    (errs : List EvalErr), CtxWF c → Extends c d → (∀ e v, (ObjKey.expr e, v) ∈ os → Unmerged env c e) →
    (∀ k e, (k, e) ∈ os → Unmerged env c e) → inPlaceEntries (evalRec env) c os new = .ok (r, errs) →
      r.length ≤ new.length + os.length ∧
      (r.length = new.length + os.length → ∃ l, r = new ++ l ∧
        ∀ m, inPlaceEntries (evalRec env) d l m = inPlaceEntries (evalRec env) d os m) ∧
      (errs = [] → inPlaceEntries (evalRec env) d os new = .ok (r, []))
  | [], new, _, _, r, _, _, _, _, _, h => by
    cases h
    exact ⟨by simp, fun _ => ⟨[], by simp, fun _ => rfl⟩, fun _ => rfl⟩
  | (k, v) :: os, new, c, d, r, errs, hc, hd, hk, hv, h => by
    rw [inPlaceEntries] at h
    obtain ⟨⟨k1, e1⟩, h1, h⟩ := bind_ok h
    obtain ⟨⟨v1, e2⟩, h2, h⟩ := bind_ok h
    obtain ⟨⟨r1, e3⟩, h3, h⟩ := bind_ok h
    cases h
    obtain ⟨ik, ik'⟩ := inPlaceKey_again k c d _ _ hc hd (fun e he => hk e v (he ▸ List.mem_cons_self ..)) h1
    have iv := inPlace_again v c d _ _ hc hd (hv k v (List.mem_cons_self ..)) h2
    obtain ⟨i1, i2, i3⟩ := inPlaceEntries_again os (objInsert k1 v1 new) c d _ _ hc hd
      (fun e w hm => hk e w (List.mem_cons_of_mem _ hm)) (fun k e hm => hv k e (List.mem_cons_of_mem _ hm)) h3
    obtain ⟨j1, j2⟩ := objInsert_length k1 v1 new
    refine ⟨by simp only [List.length_cons]; omega, fun hl => ?_, fun he => ?_⟩
    · simp only [List.length_cons] at hl
      obtain ⟨l, hl1, hl2⟩ := i2 (by omega)
      rw [j2 (by omega)] at hl1
      refine ⟨(k1, v1) :: l, by simpa using hl1, fun m => ?_⟩
      simp only [inPlaceEntries, ik, iv, hl2]
    · obtain ⟨he1, he3⟩ := List.append_eq_nil_iff.1 he
      obtain ⟨he1, he2⟩ := List.append_eq_nil_iff.1 he1
      dsimp only at he1 he2 he3
      subst he1 he2 he3
      rw [inPlaceEntries, ik' rfl, ← iv, inPlace_done hc h2]
      simp only [R.bind, i3, List.append_nil]
theorem inPlaceKey_again : ∀ (k : ObjKey) (c d : Ctx) (k' : ObjKey) (errs : List EvalErr), CtxWF c → Extends c d →
    (∀ e, k = .expr e → Unmerged env c e) → inPlaceKey (evalRec env) c k = .ok (k', errs) →
      inPlaceKey (evalRec env) d k' = inPlaceKey (evalRec env) d k ∧
        (errs = [] → inPlaceKey (evalRec env) d k = .ok (k', []))
  | .ident x, _, _, _, _, _, _, _, h1 => by cases h1; exact ⟨rfl, fun _ => rfl⟩
  | .expr q, c, d, k', errs, hc, hd, hu, h1 => by
    rw [inPlaceKey] at h1
    obtain ⟨⟨q1, e4⟩, h4, h1⟩ := bind_ok h1
    cases h1
    have i1 := inPlace_again q c d _ _ hc hd (hu q rfl) h4
    refine ⟨by rw [inPlaceKey, inPlaceKey, i1], fun he => ?_⟩
    dsimp only at he
    subst he
    rw [inPlaceKey, ← i1, inPlace_done hc h4]
    rfl
theorem inPlaceOps_again : ∀ (os : List TravOp) (c d : Ctx) (ps : List TravOp) (errs : List EvalErr), CtxWF c →
    Extends c d → (∀ i, TravOp.index i ∈ os → Unmerged env c i) → inPlaceOps (evalRec env) c os = .ok (ps, errs) →
      inPlaceOps (evalRec env) d ps = inPlaceOps (evalRec env) d os ∧
        (errs = [] → inPlaceOps (evalRec env) d os = .ok (ps, []))
  | [], _, _, _, _, _, _, _, h => by cases h; exact ⟨rfl, fun _ => rfl⟩
  | o :: os, c, d, ps, errs, hc, hd, hu, h => by
    rw [inPlaceOps] at h
    obtain ⟨⟨y, e1⟩, h1, h⟩ := bind_ok h
    obtain ⟨⟨ys', e2⟩, h2, h⟩ := bind_ok h
    cases h
    obtain ⟨i1, i1'⟩ := inPlaceOp_again o c d _ _ hc hd (fun e he => hu e (he ▸ List.mem_cons_self ..)) h1
    obtain ⟨i2, i3⟩ := inPlaceOps_again os c d _ _ hc hd (fun e he => hu e (List.mem_cons_of_mem _ he)) h2
    refine ⟨by rw [inPlaceOps, inPlaceOps, i1, i2], fun he => ?_⟩
    obtain ⟨he1, he2⟩ := List.append_eq_nil_iff.1 he
    dsimp only at he1 he2
    subst he1 he2
    rw [inPlaceOps, i3 rfl, i1' rfl]
    rfl
theorem inPlaceOp_again : ∀ (o : TravOp) (c d : Ctx) (o' : TravOp) (errs : List EvalErr), CtxWF c → Extends c d →
    (∀ i, o = .index i → Unmerged env c i) → inPlaceOp (evalRec env) c o = .ok (o', errs) →
      inPlaceOp (evalRec env) d o' = inPlaceOp (evalRec env) d o ∧
        (errs = [] → inPlaceOp (evalRec env) d o = .ok (o', []))
  | .index q, c, d, _, _, hc, hd, hu, h1 => by
    rw [inPlaceOp] at h1
    obtain ⟨⟨q1, e4⟩, h4, h1⟩ := bind_ok h1
    cases h1
    have i1 := inPlace_again q c d _ _ hc hd (hu q rfl) h4
    refine ⟨by rw [inPlaceOp, inPlaceOp, i1], fun he => ?_⟩
    dsimp only at he
    subst he
    rw [inPlaceOp, ← i1, inPlace_done hc h4]
    rfl
  | .attrSplat, _, _, _, _, _, _, _, h1 => by cases h1; exact ⟨rfl, fun _ => rfl⟩
  | .fullSplat, _, _, _, _, _, _, _, h1 => by cases h1; exact ⟨rfl, fun _ => rfl⟩
  | .getAttr _, _, _, _, _, _, _, _, h1 => by cases h1; exact ⟨rfl, fun _ => rfl⟩
  | .legacyIndex _, _, _, _, _, _, _, _, h1 => by cases h1; exact ⟨rfl, fun _ => rfl⟩
end

mutual
theorem inPlaceTmpl_again (hc : CtxWF c) (hd : Extends c d) : ∀ (els els' : List Elem) (errs : List EvalErr),
    UnmergedT env c els → inPlaceTmpl (evalRec env) c els = .ok (els', errs) →
      inPlaceTmpl (evalRec env) d els' = inPlaceTmpl (evalRec env) d els
  | [], els', _, _, h => by cases h; rfl
  | e :: es, els', errs, hu, h => by
    rw [inPlaceTmpl] at h
    obtain ⟨⟨y, e1⟩, h1, h⟩ := bind_ok h
    obtain ⟨⟨ys', e2⟩, h2, h⟩ := bind_ok h
    cases h
    simp only [UnmergedT] at hu
    rw [inPlaceTmpl, inPlaceTmpl, inPlaceElem_again hc hd e y _ hu.1 h1, inPlaceTmpl_again hc hd es ys' _ hu.2 h2]
theorem inPlaceElem_again (hc : CtxWF c) (hd : Extends c d) : ∀ (el el' : Elem) (errs : List EvalErr),
    UnmergedE env c el → inPlaceElem (evalRec env) c el = .ok (el', errs) →
      inPlaceElem (evalRec env) d el' = inPlaceElem (evalRec env) d el
  | .lit s, el', _, _, h => by cases h; rfl
  | .interp e m, el', errs, hu, h => by
    rw [inPlaceElem] at h
    obtain ⟨⟨e1, errs⟩, h1, h⟩ := bind_ok h
    cases h
    rw [inPlaceElem, inPlaceElem, inPlace_again e c d _ _ hc hd hu h1]
  | .ifDir q t none a0 b0 z0, el', errs, hu, h => by
    simp only [UnmergedE] at hu
    rw [inPlaceElem] at h
    obtain ⟨⟨q1, e1⟩, h1, h⟩ := bind_ok h
    obtain ⟨⟨t1, e2⟩, h2, h⟩ := bind_ok h
    cases h
    rw [inPlaceElem, inPlaceElem, inPlace_again q c d _ _ hc hd hu.1 h1, inPlaceTmpl_again hc hd t t1 _ hu.2.1 h2]
  | .ifDir q t (some f) a0 b0 z0, el', errs, hu, h => by
    simp only [UnmergedE] at hu
    rw [inPlaceElem] at h
    obtain ⟨⟨q1, e1⟩, h1, h⟩ := bind_ok h
    obtain ⟨⟨t1, e2⟩, h2, h⟩ := bind_ok h
    obtain ⟨⟨f1, e3⟩, h3, h⟩ := bind_ok h
    cases h
    have hu3 : UnmergedT env c f := by simpa only [UnmergedO] using hu.2.2
    rw [inPlaceElem, inPlaceElem, inPlace_again q c d _ _ hc hd hu.1 h1, inPlaceTmpl_again hc hd t t1 _ hu.2.1 h2]
    simp only [inPlaceTmpl_again hc hd f f1 _ hu3 h3]
  | .forDir k x coll t a0 z0, el', errs, hu, h => by
    simp only [UnmergedE] at hu
    rw [inPlaceElem] at h
    obtain ⟨⟨q1, e1⟩, h1, h⟩ := bind_ok h
    obtain ⟨⟨t1, e2⟩, h2, h⟩ := bind_ok h
    cases h
    rw [inPlaceElem, inPlaceElem, inPlace_again coll c d _ _ hc hd hu.1 h1, inPlaceTmpl_again hc hd t t1 _ hu.2 h2]
end

mutual
theorem inPlaceBody_again (hc : CtxWF c) (hd : Extends c d) : ∀ (b b' : List Struct) (errs : List EvalErr),
    (∀ e ∈ attrsOf b, Unmerged env c e) → inPlaceBody (evalRec env) c b = .ok (b', errs) →
      inPlaceBody (evalRec env) d b' = inPlaceBody (evalRec env) d b
  | [], _, _, _, h => by cases h; rfl
  | s :: ss, _, errs, hu, h => by
    rw [inPlaceBody] at h
    obtain ⟨⟨s', e1⟩, h1, h⟩ := bind_ok h
    obtain ⟨⟨ss', e2⟩, h2, h⟩ := bind_ok h
    cases h
    rw [attrsOf] at hu
    rw [inPlaceBody, inPlaceBody, inPlaceStruct_again hc hd s s' e1 (fun e he => hu e (List.mem_append_left _ he)) h1,
      inPlaceBody_again hc hd ss ss' e2 (fun e he => hu e (List.mem_append_right _ he)) h2]
theorem inPlaceStruct_again (hc : CtxWF c) (hd : Extends c d) : ∀ (s s' : Struct) (errs : List EvalErr),
    (∀ e ∈ attrsOfStruct s, Unmerged env c e) → inPlaceStruct (evalRec env) c s = .ok (s', errs) →
      inPlaceStruct (evalRec env) d s' = inPlaceStruct (evalRec env) d s
  | .attr k e, _, errs, hu, h => by
    rw [inPlaceStruct] at h
    obtain ⟨⟨e', es⟩, h1, h⟩ := bind_ok h
    cases h
    rw [inPlaceStruct, inPlaceStruct, inPlace_again e c d _ _ hc hd (hu e (by simp [attrsOfStruct])) h1]
  | .block i ls b, _, errs, hu, h => by
    rw [inPlaceStruct] at h
    obtain ⟨⟨b', es⟩, h1, h⟩ := bind_ok h
    cases h
    rw [inPlaceStruct, inPlaceStruct,
      inPlaceBody_again hc hd b b' es (fun e he => hu e (by simpa [attrsOfStruct] using he)) h1]
end

end
end Verif
