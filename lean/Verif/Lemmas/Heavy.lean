import Verif.Lemmas.Weight
/-! Helper lemmas for C76: the printed text of a tree weighs at least as much as the templates in it. -/

set_option linter.unusedSimpArgs false
set_option linter.unusedVariables false

namespace Verif.Spec
open Gram

variable {env : Env} {E : FmtEnv}

/-- `e` is `p` or stands in `p`, without looking into templates. -/
inductive Below (env : Env) : Expr → Expr → Prop
  | self {e} : Below env e e
  | step {e q p} : Below env e q → Direct env q p → (∀ t, p ≠ .template t) → Below env e p

/-- The printed text weighs at least `n`. -/
def Heavy (n : Nat) (w : W) : Prop := ∀ f, n ≤ kap (w f).1

variable {n : Nat} {v w : W}

theorem Heavy.left (h : Heavy n v) : Heavy n (v +> w) := fun f => by
  have := h f; rw [W.seq_apply, kap_append]; omega

theorem Heavy.right (h : Heavy n w) : Heavy n (v +> w) := fun f => by
  have := h (v f).2; rw [W.seq_apply, kap_append]; omega

theorem Heavy.deco {m : Meta} {p q : Str} (h : Heavy n w) : Heavy n (deco m p q w) := h.left.right

theorem Heavy.strip {t : Str} {st : Strip} (h : Heavy n w) (ht : 1 ≤ kap t) : Heavy (n + 1) (encStrip t st w) :=
  fun f => by
    have := h f
    rw [encStrip_apply]
    simp only [kap_append]
    omega

theorem Heavy.of_flat {es : List EElem} : Heavy (kap (showTemplate E es)) (EExpr.encElems E es) := fun f =>
  Nat.le_of_eq (flat_elems es f).symm

theorem Heavy.here {n : Nat} (h : Heavy n w) : ∀ i, Heavy n (encHere w i)
  | none => h
  | some k => fun f => by
    show n ≤ kap (indentBy (w false).1 k false)
    rw [kap_indentBy]; exact h false

theorem mem_objInsert {k : ObjKey} {x : Expr} {p : ObjKey × Expr} : ∀ {m : List (ObjKey × Expr)},
    p ∈ objInsert k x m → (p.1 = k ∨ ∃ y, (p.1, y) ∈ m) ∧ (p.2 = x ∨ ∃ j, (j, p.2) ∈ m)
  | [], h => by cases List.mem_singleton.mp h; exact ⟨.inl rfl, .inl rfl⟩
  | (k', x') :: m, h => by
    rw [objInsert] at h
    split at h
    · rcases List.mem_cons.mp h with rfl | h
      · exact ⟨.inr ⟨x', List.mem_cons_self ..⟩, .inl rfl⟩
      · exact ⟨.inr ⟨p.2, List.mem_cons_of_mem _ h⟩, .inr ⟨p.1, List.mem_cons_of_mem _ h⟩⟩
    · rcases List.mem_cons.mp h with rfl | h
      · exact ⟨.inr ⟨x', List.mem_cons_self ..⟩, .inr ⟨k', List.mem_cons_self ..⟩⟩
      · obtain ⟨h1, h2⟩ := mem_objInsert h
        exact ⟨h1.imp id fun ⟨y, h⟩ => ⟨y, List.mem_cons_of_mem _ h⟩,
          h2.imp id fun ⟨y, h⟩ => ⟨y, List.mem_cons_of_mem _ h⟩⟩

theorem mem_objCollect_aux {p : ObjKey × Expr} : ∀ {l m : List (ObjKey × Expr)},
    p ∈ l.foldl (fun m e => objInsert e.1 e.2 m) m →
      (∃ y, (p.1, y) ∈ m ∨ (p.1, y) ∈ l) ∧ (∃ j, (j, p.2) ∈ m ∨ (j, p.2) ∈ l)
  | [], m, h => ⟨⟨p.2, .inl h⟩, ⟨p.1, .inl h⟩⟩
  | (k, x) :: l, m, h => by
    obtain ⟨⟨y, h1⟩, ⟨j, h2⟩⟩ := mem_objCollect_aux (l := l) h
    constructor
    · rcases h1 with h1 | h1
      · rcases (mem_objInsert h1).1 with h | ⟨y, h⟩
        · exact ⟨x, .inr (by rw [show p.1 = k from h]; exact List.mem_cons_self ..)⟩
        · exact ⟨y, .inl h⟩
      · exact ⟨y, .inr (List.mem_cons_of_mem _ h1)⟩
    · rcases h2 with h2 | h2
      · rcases (mem_objInsert h2).2 with h | ⟨y, h⟩
        · exact ⟨k, .inr (by rw [show p.2 = x from h]; exact List.mem_cons_self ..)⟩
        · exact ⟨y, .inl h⟩
      · exact ⟨j, .inr (List.mem_cons_of_mem _ h2)⟩

theorem mem_objCollect {k : ObjKey} {x : Expr} {l : List (ObjKey × Expr)} (h : (k, x) ∈ objCollect l) :
    (∃ y, (k, y) ∈ l) ∧ (∃ j, (j, x) ∈ l) := by
  obtain ⟨⟨y, h1⟩, ⟨j, h2⟩⟩ := mem_objCollect_aux h
  exact ⟨⟨y, h1.elim nofun id⟩, ⟨j, h2.elim nofun id⟩⟩

mutual

theorem core_heavy : ∀ (e : EExpr) {t : TmplExpr}, Below env (.template t) (toHcl E e) →
    Heavy (kap t.asStr) (e.core E)
  | .null _, t, h => by cases h with | step _ hd _ => cases hd
  | .bool _ _, t, h => by cases h with | step _ hd _ => cases hd
  | .number _ _ _, t, h => by cases h with | step _ hd _ => cases hd
  | .string _ _, t, h => by cases h with | step _ hd _ => cases hd
  | .var _ _, t, h => by cases h with | step _ hd _ => cases hd
  | .array _ vs _ _, t, h => by
    cases h with
    | step h hd _ => cases hd with | array hm => exact (list_heavy vs _ hm h).left.right
  | .object _ is _, t, h => by
    cases h with
    | step h hd _ =>
      cases hd with
      | key hm =>
        obtain ⟨⟨y, hm⟩, -⟩ := mem_objCollect hm
        exact (items_heavy is hm (.inl ⟨_, rfl, h⟩)).left.right
      | value hm =>
        obtain ⟨-, ⟨j, hm⟩⟩ := mem_objCollect hm
        exact (items_heavy is hm (.inr h)).left.right
  | .strTmpl _ es, t, h => by
    cases h with
    | self => exact Heavy.right (Heavy.left fun f => Heavy.of_flat true)
    | step _ _ hn => exact absurd rfl (hn _)
  | .heredoc _ _ _ es i _, t, h => by
    cases h with
    | self => exact (Heavy.here Heavy.of_flat i).left.right
    | step _ _ hn => exact absurd rfl (hn _)
  | .paren _ e, t, h => by
    cases h with
    | step h hd _ => cases hd; exact (core_heavy e h).deco.left.right
  | .cond _ c a b, t, h => by
    cases h with
    | step h hd _ =>
      cases hd with
      | cond => exact (core_heavy c h).deco.left
      | whenTrue => exact (core_heavy a h).deco.left.right.right
      | whenFalse => exact (core_heavy b h).deco.right.right.right.right
  | .call _ ns n _ as _ _ _, t, h => by
    cases h with
    | step h hd _ => cases hd with | arg hm => exact (list_heavy as _ hm h).left.right.deco.right.right
  | .trav _ e os, t, h => by
    cases h with
    | step h hd _ =>
      cases hd with
      | traversal => exact (core_heavy e h).deco.left
      | index hm => exact (travs_heavy os hm h).right
  | .unary _ _ _ e, t, h => by
    cases h with
    | step h hd _ => cases hd; exact (core_heavy e h).deco.right
  | .binary _ l _ _ r, t, h => by
    cases h with
    | step h hd _ =>
      cases hd with
      | lhs => exact (core_heavy l h).deco.left
      | rhs => exact (core_heavy r h).deco.right.right
  | .forE _ _ k _ c ke ve _ cm co, t, h => by
    cases h with
    | step h hd _ =>
      rw [toHcl] at hd
      generalize hke : toHclOpt E ke = ke' at hd
      generalize hco : toHclOpt E co = co' at hd
      cases hd with
      | forColl => exact (core_heavy c h).deco.left.right.right.right.right.deco.left.right
      | forKey => exact (forKey_heavy ke hke h).left.right.right
      | forValue => exact (core_heavy ve h).deco.left.right.right.right
      | forCond => exact (forCond_heavy cm co hco h).left.right.right.right.right.right

theorem forKey_heavy : ∀ (k : Option EExpr) {x : Expr} {t : TmplExpr}, toHclOpt E k = some x →
    Below env (.template t) x → Heavy (kap t.asStr) (EExpr.encForKey E k)
  | none, _, _, he, _ => by cases he
  | some e, _, _, he, h => by cases he; exact (core_heavy e h).deco.left

theorem forCond_heavy (cm : Meta) : ∀ (k : Option EExpr) {x : Expr} {t : TmplExpr}, toHclOpt E k = some x →
    Below env (.template t) x → Heavy (kap t.asStr) (EExpr.encForCond E cm k)
  | none, _, _, he, _ => by cases he
  | some e, _, _, he, h => by cases he; exact (core_heavy e h).deco.right.deco

theorem list_heavy : ∀ (es : List EExpr) (p : Str) {x : Expr} {t : TmplExpr}, x ∈ toHclList E es →
    Below env (.template t) x → Heavy (kap t.asStr) (EExpr.encList E p es)
  | [], _, _, _, hm, _ => by cases hm
  | e :: es, _, _, _, hm, h => by
    rcases List.mem_cons.mp hm with rfl | hm
    · exact (core_heavy e h).deco.left.right
    · exact (list_heavy es _ hm h).right.right

theorem key_heavy : ∀ (k : EKey) {x : Expr} {t : TmplExpr}, toHclKey E k = .expr x →
    Below env (.template t) x → Heavy (kap t.asStr) (k.enc E)
  | .ident _, _, _, he, _ => by cases he
  | .expr e, _, _, he, h => by cases he; exact (core_heavy e h).deco

theorem items_heavy : ∀ (is : List EItem) {k : ObjKey} {x : Expr} {t : TmplExpr}, (k, x) ∈ toHclItems E is →
    (∃ y, k = .expr y ∧ Below env (.template t) y) ∨ Below env (.template t) x →
    Heavy (kap t.asStr) (EExpr.encItems E is)
  | [], _, _, _, hm, _ => by cases hm
  | .mk k v _ _ :: is, _, _, _, hm, h => by
    rcases List.mem_cons.mp hm with hm | hm
    · cases hm
      rcases h with ⟨y, he, h⟩ | h
      · exact (key_heavy k he h).left
      · exact (core_heavy v h).deco.left.right.right
    · exact (items_heavy is hm h).right.right.right.right

theorem op_heavy : ∀ (o : ETravOp) {x : Expr} {t : TmplExpr}, toHclOp E o = .index x →
    Below env (.template t) x → Heavy (kap t.asStr) (o.enc E)
  | .attrSplat _, _, _, he, _ => by cases he
  | .fullSplat _, _, _, he, _ => by cases he
  | .getAttr _, _, _, he, _ => by cases he
  | .legacyIndex _ _, _, _, he, _ => by cases he
  | .index e, _, _, he, h => by cases he; exact (core_heavy e h).deco.left.right

theorem travs_heavy : ∀ (os : List ETrav) {x : Expr} {t : TmplExpr}, .index x ∈ toHclOps E os →
    Below env (.template t) x → Heavy (kap t.asStr) (EExpr.encTravs E os)
  | [], _, _, hm, _ => by cases hm
  | .mk _ o :: os, _, _, hm, h => by
    rcases List.mem_cons.mp hm with hm | hm
    · exact (op_heavy o hm.symm h).deco.left
    · exact (travs_heavy os hm h).right

theorem elem_heavy : ∀ (e : EElem) {x : Expr} {t : TmplExpr}, InElems x [toHclElem E e] →
    Below env (.template t) x → Heavy (kap t.asStr + 1) (e.enc E)
  | .lit _ _, _, _, hi, _ => by
    cases hi with
    | interp hm => cases List.mem_singleton.mp hm
    | ifCond hm => cases List.mem_singleton.mp hm
    | ifTrue hm _ => cases List.mem_singleton.mp hm
    | ifFalse hm _ => cases List.mem_singleton.mp hm
    | forColl hm => cases List.mem_singleton.mp hm
    | forBody hm _ => cases List.mem_singleton.mp hm
  | .interp _ e _, _, _, hi, h => by
    cases hi with
    | interp hm => cases List.mem_singleton.mp hm; exact (core_heavy e h).deco.strip (by decide)
    | ifCond hm => cases List.mem_singleton.mp hm
    | ifTrue hm _ => cases List.mem_singleton.mp hm
    | ifFalse hm _ => cases List.mem_singleton.mp hm
    | forColl hm => cases List.mem_singleton.mp hm
    | forBody hm _ => cases List.mem_singleton.mp hm
  | .ifDir _ _ c _ _ b el _ _ _, x, t, hi, h => by
    cases hi with
    | interp hm => cases List.mem_singleton.mp hm
    | ifCond hm =>
      cases List.mem_singleton.mp hm
      exact ((core_heavy c h).deco.right.strip (by decide)).left
    | ifTrue hm hi => cases List.mem_singleton.mp hm; exact (elems_heavy b hi h).left.right
    | ifFalse hm hi =>
      have hm := List.mem_singleton.mp hm
      injection hm with _ _ hf
      exact (elseOpt_heavy el hf.symm hi h).left.right.right
    | forColl hm => cases List.mem_singleton.mp hm
    | forBody hm _ => cases List.mem_singleton.mp hm
  | .forDir _ _ k _ c _ _ b _ _ _, x, t, hi, h => by
    cases hi with
    | interp hm => cases List.mem_singleton.mp hm
    | ifCond hm => cases List.mem_singleton.mp hm
    | ifTrue hm _ => cases List.mem_singleton.mp hm
    | ifFalse hm _ => cases List.mem_singleton.mp hm
    | forColl hm =>
      cases List.mem_singleton.mp hm
      exact ((core_heavy c h).deco.right.right.right.right.strip (by decide)).left
    | forBody hm hi => cases List.mem_singleton.mp hm; exact (elems_heavy b hi h).left.right

theorem elems_heavy : ∀ (es : List EElem) {x : Expr} {t : TmplExpr}, InElems x (toHclElems E es) →
    Below env (.template t) x → Heavy (kap t.asStr + 1) (EExpr.encElems E es)
  | [], _, _, hi, _ => by cases hi <;> contradiction
  | e :: es, _, _, hi, h => by
    rcases inElems_cons hi with hi | hi
    · exact (elem_heavy e hi h).left
    · exact (elems_heavy es hi h).right

theorem elseOpt_heavy : ∀ (e : Option EElse) {f : List Elem} {x : Expr} {t : TmplExpr},
    toHclElseOpt E e = some f → InElems x f → Below env (.template t) x →
    Heavy (kap t.asStr + 1) (EExpr.encElseOpt E e)
  | none, _, _, _, he, _, _ => by cases he
  | some e, _, _, _, he, hi, h => by cases he; exact else_heavy e hi h

theorem else_heavy : ∀ (e : EElse) {x : Expr} {t : TmplExpr},
    InElems x (toHclElse E e) → Below env (.template t) x → Heavy (kap t.asStr + 1) (EExpr.encElse E e)
  | .mk _ _ _ _ es, _, _, hi, h => (elems_heavy es hi h).right

end

end Verif.Spec
