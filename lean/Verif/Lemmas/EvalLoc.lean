import Verif.Model.EvalLoc
import Verif.Spec.EvalLoc
import Verif.Lemmas.EvalRules
/-! The located evaluator agrees with the plain one, and where its errors come from. -/

namespace Verif
open Spec

/-- Same outcome, and `P` holds of the errors. -/
inductive Located (P : EvalErr → Option Expr → Prop) {α : Type} : L α → R α → Prop
  | ok (a : α) : Located P (.ok a) (.ok a)
  | err {k x} : P k x → Located P (.error ⟨.err k, x⟩) (.error (.err k))
  | fail {f x} : (∀ k, f ≠ .err k) → Located P (.error ⟨f, x⟩) (.error f)

section
variable {P Q : EvalErr → Option Expr → Prop} {α β : Type}

theorem Located.mono {l : L α} {r : R α} (h : Located P l r) (hpq : ∀ k x, r = .error (.err k) → P k x → Q k x) :
    Located Q l r := by
  cases h with
  | ok a => exact .ok a
  | err h => exact .err (hpq _ _ rfl h)
  | fail h => exact .fail h

theorem Located.bind {l : L α} {r : R α} {g : α → L β} {h : α → R β} (hl : Located P l r)
    (hg : ∀ a, Located P (g a) (h a)) : Located P (L.bind l g) (R.bind r h) := by
  cases hl with
  | ok a => exact hg a
  | err h => exact .err h
  | fail h => exact .fail h

theorem Located.error {c : LCtx} {r : R α} (h : ∀ k, r = .error (.err k) → P k c.blamed) :
    Located P (c.error r) r := by
  match r, h with
  | .ok a, _ => exact .ok a
  | .error (.err k), h => exact .err (h k rfl)
  | .error .panic, _ => exact .fail (by nofun)
  | .error .timeout, _ => exact .fail (by nofun)

theorem Located.raise {c : LCtx} {k : EvalErr} (h : P k c.blamed) :
    Located P (c.error (R.err k : R α)) (R.err k) := by
  apply Located.error
  intro k' hk
  cases hk
  exact h

theorem mapL_agree {f : α → L β} {g : α → R β} : ∀ {l : List α}, (∀ a ∈ l, Located P (f a) (g a)) →
    Located P (mapL f l) (mapR g l)
  | [], _ => .ok _
  | a :: as, h => (h a (by simp)).bind fun _ => (mapL_agree fun b hb => h b (by simp [hb])).bind fun _ => .ok _

end

/-- Frames without an expression: those of iterations. -/
def Quiet (d : LCtx) : Prop := ∀ f ∈ d, f.expr = none

theorem iterCtx_cons (c : LCtx) (k : Option Str) (x : Str) (p : Value × Value) :
    ∃ f : LFrame, f.expr = none ∧ Loc.iterCtx c k x p = f :: c := by
  cases k <;> exact ⟨_, rfl, rfl⟩

theorem iterCtx_plain (c : LCtx) (k : Option Str) (x : Str) (p : Value × Value) :
    (Loc.iterCtx c k x p).plain = iterCtx c.plain k x p := by
  cases k <;> rfl

section
variable {env : Env} {r : LRec} {r' : Rec} {P : EvalErr → Option Expr → Prop} {c : LCtx}

/-- The recursive evaluation of `e` in `c` agrees. -/
abbrev HE (P : EvalErr → Option Expr → Prop) (r : LRec) (r' : Rec) (c : LCtx) (e : Expr) : Prop :=
  Located P (r.expr c e) (r'.expr c.plain e)

theorem evalBool_agree {e : Expr} (h : HE P r r' c e) (ho : ∀ v, P (.unexpected v c!"a boolean") c.blamed) :
    Located P (Loc.evalBool r c e) (evalBool r' c.plain e) :=
  h.bind fun v => by cases v <;> first | exact .ok _ | exact .raise (ho _)

theorem keyOfValue_err {v : Value} {k : EvalErr} (h : keyOfValue env v = .error (.err k)) :
    k = .unexpected v c!"a string, boolean or number" := by
  cases v <;> simp [keyOfValue, R.err] at h <;> exact h.symm

theorem evalObjectKey_agree {e : Expr} (h : HE P r r' c e)
    (ho : ∀ v, P (.unexpected v c!"a string, boolean or number") c.blamed) :
    Located P (Loc.evalObjectKey env r c e) (evalObjectKey env r' c.plain e) :=
  h.bind fun v => .error fun _ hk => by rw [keyOfValue_err hk]; exact ho v

theorem evalArray_agree {e : Expr} (h : HE P r r' c e) (ho : ∀ v, P (.unexpected v c!"an array") c.blamed) :
    Located P (Loc.evalArray r c e) (evalArray r' c.plain e) :=
  h.bind fun v => by cases v <;> first | exact .ok _ | exact .raise (ho _)

/-- The errors of traversal operators. -/
def OpErr : EvalErr → Prop
  | .index _ => True
  | .noSuchKey _ => True
  | .unexpected _ what => what = c!"an array" ∨ what = c!"an object" ∨
      what = c!"an unsigned integer" ∨ what = c!"an unsigned integer or string"
  | _ => False

theorem arrayValue_err {v : Value} {i : Nat} {k : EvalErr} (h : arrayValue v i = .error (.err k)) : OpErr k := by
  unfold arrayValue at h
  split at h
  · split at h
    · cases h
    · cases h; trivial
  · cases h; exact Or.inl rfl

theorem objectValue_err {v : Value} {i : Str} {k : EvalErr} (h : objectValue v i = .error (.err k)) : OpErr k := by
  unfold objectValue at h
  split at h
  · split at h
    · cases h
    · cases h; trivial
  · cases h; exact Or.inr (Or.inl rfl)

theorem indexExpr_agree {e : Expr} (v : Value) (h : HE P r r' c e) (ho : ∀ k, OpErr k → P k c.blamed) :
    Located P (Loc.indexExpr r c v e) (indexExpr r' c.plain v e) :=
  h.bind fun i => by
    cases i with
    | string s => exact .error fun _ hk => ho _ (objectValue_err hk)
    | number n =>
      dsimp only
      cases n.asU64 with
      | some i => exact .error fun _ hk => ho _ (arrayValue_err hk)
      | none => exact .raise (ho _ (.inr (.inr (.inl rfl))))
    | _ => exact .raise (ho _ (.inr (.inr (.inr rfl))))

theorem splat_agree {f : Value → L Value} {g : Value → R Value} (h : ∀ v, Located P (f v) (g v)) (v : Value) :
    Located P (Loc.splat f v) (splat g v) := by
  cases v with
  | array xs => exact (mapL_agree fun a _ => h a).bind fun _ => .ok _
  | null => exact .ok _
  | _ => exact (h _).bind fun _ => .ok _

theorem traverse_agree (ho : ∀ k, OpErr k → P k c.blamed) : ∀ (n : Nat) (ops : List TravOp),
    (∀ i, .index i ∈ ops → HE P r r' c i) → ∀ v, Located P (Loc.traverse r c n ops v) (traverse r' c.plain n ops v)
  | 0, [], _, v => .ok v
  | _ + 1, [], _, v => .ok v
  | 0, _ :: _, _, _ => .fail (by nofun)
  | n + 1, op :: ops, h, v => by
    have ih := traverse_agree ho n
    have hops : ∀ i, .index i ∈ ops → HE P r r' c i := fun i hi => h i (by simp [hi])
    cases op with
    | legacyIndex i => exact (Located.error fun _ hk => ho _ (arrayValue_err hk)).bind fun w => ih ops hops w
    | index e => exact (indexExpr_agree v (h e (by simp)) ho).bind fun w => ih ops hops w
    | getAttr x => exact (Located.error fun _ hk => ho _ (objectValue_err hk)).bind fun w => ih ops hops w
    | attrSplat =>
      exact (splat_agree (fun x => ih _ (fun i hi => hops i ((List.takeWhile_prefix _).subset hi)) x) v).bind
        fun w => ih _ (fun i hi => hops i ((List.dropWhile_suffix _).subset hi)) w
    | fullSplat => exact splat_agree (fun x => ih ops hops x) v

theorem evalCollection_agree {e : Expr} (h : HE P r r' c e)
    (ho : ∀ v, P (.unexpected v c!"an array or object") c.blamed) :
    Located P (Loc.evalCollection r c e) (evalCollection r' c.plain e) :=
  h.bind fun v => by cases v <;> first | exact .ok _ | exact .raise (ho _)

theorem iterCond_agree {ce : Option Expr} (h : ∀ e, ce = some e → HE P r r' c e)
    (ho : ce.isSome → ∀ v, P (.unexpected v c!"a boolean") c.blamed) :
    Located P (Loc.iterCond r c ce) (iterCond r' c.plain ce) := by
  cases ce with
  | none => exact .ok _
  | some e => exact evalBool_agree (h e rfl) (ho rfl)

theorem forArray_agree {k : Option Str} {x : Str} {ce : Option Expr} {ve : Expr}
    (hv : ∀ p, HE P r r' (Loc.iterCtx c k x p) ve)
    (hc : ∀ p e, ce = some e → HE P r r' (Loc.iterCtx c k x p) e)
    (ho : ∀ p, ce.isSome → ∀ v, P (.unexpected v c!"a boolean") (Loc.iterCtx c k x p).blamed) :
    ∀ ps, Located P (Loc.forArray r c k x ce ve ps) (forArray r' c.plain k x ce ve ps)
  | [] => .ok _
  | p :: ps => by
    have ih := forArray_agree hv hc ho ps
    simp only [Loc.forArray, forArray, ← iterCtx_plain]
    refine (iterCond_agree (hc p) (ho p)).bind fun pass => ?_
    cases pass with
    | false => exact ih
    | true => exact (hv p).bind fun _ => ih.bind fun _ => .ok _

theorem forObject_agree {k : Option Str} {x : Str} {ce : Option Expr} {ke ve : Expr} {g : Bool}
    (hv : ∀ p, HE P r r' (Loc.iterCtx c k x p) ve) (hk : ∀ p, HE P r r' (Loc.iterCtx c k x p) ke)
    (hc : ∀ p e, ce = some e → HE P r r' (Loc.iterCtx c k x p) e)
    (ho : ∀ p, ce.isSome → ∀ v, P (.unexpected v c!"a boolean") (Loc.iterCtx c k x p).blamed)
    (hok : ∀ p v, P (.unexpected v c!"a string, boolean or number") (Loc.iterCtx c k x p).blamed)
    (hoe : ∀ p, g = false → ∀ s, P (.keyExists s) (Loc.iterCtx c k x p).blamed) :
    ∀ ps m, Located P (Loc.forObject env r c k x ce ke ve g ps m) (forObject env r' c.plain k x ce ke ve g ps m)
  | [], _ => .ok _
  | p :: ps, m => by
    have ih := forObject_agree hv hk hc ho hok hoe ps
    simp only [Loc.forObject, forObject, ← iterCtx_plain]
    refine (iterCond_agree (hc p) (ho p)).bind fun pass => ?_
    cases pass with
    | false => exact ih m
    | true =>
      refine (evalObjectKey_agree (hk p) (hok p)).bind fun key => (hv p).bind fun v => Located.bind ?_ fun m' => ih m'
      refine .error fun k' h => ?_
      cases g with
      | true =>
        simp only [groupPush, if_true] at h
        split at h <;> cases h
      | false =>
        simp only [uniqueInsert, Bool.false_eq_true, if_false] at h
        split at h
        · cases h; exact hoe p rfl _
        · cases h

theorem evalArgs_agree {expand : Bool} : ∀ {args : List Expr}, (∀ a ∈ args, HE P r r' c a) →
    (expand = true → args ≠ [] → ∀ v, P (.unexpected v c!"an array") c.blamed) →
    Located P (Loc.evalArgs r c expand args) (evalArgs r' c.plain expand args)
  | [], _, _ => .ok _
  | a :: as, h, ho => by
    simp only [Loc.evalArgs, evalArgs]
    split
    · rename_i hx
      exact evalArray_agree (h a (by simp)) (ho hx.1 (by simp))
    · exact (h a (by simp)).bind fun _ => (evalArgs_agree (fun b hb => h b (by simp [hb]))
        (fun hx _ => ho hx (by simp))).bind fun _ => .ok _

theorem evalCall_agree {f : FuncName} {args : List Expr} {expand : Bool} (h : ∀ a ∈ args, HE P r r' c a)
    (ho : ∀ k, Raises (.call f args expand) k → P k c.blamed) :
    Located P (Loc.evalCall r c f args expand) (evalCall r' c.plain f args expand) := by
  unfold Loc.evalCall evalCall
  cases c.plain.func f with
  | none => exact .raise (ho _ rfl)
  | some d =>
    refine (evalArgs_agree h fun hx ha v => ho _ ⟨hx, ha, rfl⟩).bind fun vs => ?_
    cases d.call vs with
    | ok v => exact .ok _
    | error e => exact .raise (ho _ rfl)

theorem unaryValue_err {o : UnOp} {v : Value} {k : EvalErr} (h : unaryValue env o v = .error (.err k)) :
    k = .unaryOp o v := by
  have hn : ∀ x : Option N, R.ofNum x ≠ .error (.err k) := fun x => by cases x <;> nofun
  unfold unaryValue at h
  split at h
  · cases h
  · exact absurd h (hn _)
  · cases h; rfl

theorem binaryValue_err {a b : Value} {o : BinOp} {k : EvalErr} (h : binaryValue env a o b = .error (.err k)) :
    k = .binaryOp a o b := by
  have hn : ∀ x : Option N, R.ofNum x ≠ .error (.err k) := fun x => by cases x <;> nofun
  unfold binaryValue at h
  split at h <;> first | exact absurd h (hn _) | (cases h <;> rfl)

end

/-! ### Where errors come from -/

/-- Errors of directives. -/
def DirErr : EvalErr → Prop
  | .unexpected _ what => what = c!"a boolean" ∨ what = c!"an array or object"
  | _ => False

/-- What is known of an error `(k, x)` of the evaluation of `e` in the context `c`. -/
def Good (env : Env) (c : LCtx) (e : Expr) (k : EvalErr) (x : Option Expr) : Prop :=
  (x = none ∧ ∃ t msg, Part env (.template t) e ∧ env.parseTemplate t.asStr = .error msg ∧ k = .message msg) ∨
  ∃ y d, Part env y e ∧ Raises y k ∧ eval env (d ++ c.plain) y = .error (.err k) ∧
    ((y = e ∧ x = c.expr ∧ x ≠ none) ∨ (x = some y ∧ ((y = e ∧ c.expr = none) ∨ Loops y)) ∨
      ∃ p d', x = some p ∧ Part env p e ∧ Direct env y p ∧ eval env (d' ++ c.plain) p = .error (.err k))

/-- What is known of an error of the evaluation of a template. -/
def GoodT (env : Env) (c : LCtx) (els : List Elem) (k : EvalErr) (x : Option Expr) : Prop :=
  (∃ d, Quiet d ∧ x = (d ++ c).blamed ∧ DirErr k) ∨
    ∃ d q, Quiet d ∧ InElems q els ∧ Good env (d ++ c) q k x

/-- What one step knows of an error. -/
def StepGood (env : Env) (c : LCtx) (e : Expr) (k : EvalErr) (x : Option Expr) : Prop :=
  (x = none ∧ ∃ t msg, e = .template t ∧ env.parseTemplate t.asStr = .error msg ∧ k = .message msg) ∨
  (Raises e k ∧ (x = (c.childWith e).blamed ∨ (x = some e ∧ Loops e))) ∨
  ∃ d q, Quiet d ∧ Direct env q e ∧ Good env (d ++ c.childWith e) q k x

theorem Quiet.expr {d : LCtx} (h : Quiet d) (c : LCtx) : LCtx.expr (d ++ c) = c.expr := by
  induction d with
  | nil => rfl
  | cons f d ih =>
    rw [List.cons_append, LCtx.expr, h f (by simp)]
    exact ih fun g hg => h g (by simp [hg])

theorem Spec.Part.trans {env : Env} {a b e : Expr} (h : Part env a b) (h' : Part env b e) : Part env a e := by
  induction h' with
  | self => exact h
  | inside _ hd ih => exact .inside ih hd

theorem StepGood.good {env : Env} {c : LCtx} {e : Expr} {k : EvalErr} {x : Option Expr}
    (he : eval env c.plain e = .error (.err k)) (h : StepGood env c e k x) : Good env c e k x := by
  rcases h with ⟨hx, t, msg, ht, hp, hk⟩ | ⟨hr, hx⟩ | ⟨d, q, hd, hq, hg⟩
  · subst ht
    exact .inl ⟨hx, t, msg, .self, hp, hk⟩
  · refine .inr ⟨e, [], .self, hr, he, ?_⟩
    rcases hx with hx | ⟨hx, hl⟩
    · have : (c.childWith e).blamed = match c.expr with | some p => some p | none => some e := rfl
      rw [this] at hx
      cases hc : c.expr with
      | none => rw [hc] at hx; exact .inr (.inl ⟨hx, .inl ⟨rfl, rfl⟩⟩)
      | some p => rw [hc] at hx; exact .inl ⟨rfl, hx, by rw [hx]; nofun⟩
    · exact .inr (.inl ⟨hx, .inr hl⟩)
  · have hpart : ∀ {a}, Part env a q → Part env a e := fun h => h.trans (.inside .self hq)
    have hexpr : LCtx.expr (d ++ c.childWith e) = some e := hd.expr _
    have hplain : LCtx.plain (d ++ c.childWith e) = (LCtx.plain d ++ [⟨[], []⟩]) ++ c.plain := by
      simp [LCtx.plain, LCtx.childWith]
    rcases hg with ⟨hx, t, msg, ht, hp, hk⟩ | ⟨y, d2, hy, hr, hev, hx⟩
    · exact .inl ⟨hx, t, msg, hpart ht, hp, hk⟩
    · rw [hplain, ← List.append_assoc] at hev
      refine .inr ⟨y, _, hpart hy, hr, hev, ?_⟩
      rcases hx with ⟨hyq, hx, _⟩ | ⟨hx, hl⟩ | ⟨p, d3, hx, hp, hyp, hpe⟩
      · rw [hexpr] at hx
        exact .inr (.inr ⟨e, [], hx, .self, hyq ▸ hq, he⟩)
      · rcases hl with ⟨_, hl⟩ | hl
        · rw [hexpr] at hl; cases hl
        · exact .inr (.inl ⟨hx, .inr hl⟩)
      · rw [hplain, ← List.append_assoc] at hpe
        exact .inr (.inr ⟨p, _, hx, hpart hp, hyp, hpe⟩)

section
variable {env : Env} {r : LRec} {r' : Rec}

/-- A part evaluated in the context of its parent. -/
theorem sub_agree (H : ∀ c e, Located (Good env c e) (r.expr c e) (r'.expr c.plain e)) {c : LCtx} {e q : Expr}
    {d : LCtx} (hd : Quiet d) (hq : Direct env q e) : HE (StepGood env c e) r r' (d ++ c.childWith e) q :=
  (H _ _).mono fun _ _ _ h => .inr (.inr ⟨d, q, hd, hq, h⟩)

theorem sub0_agree (H : ∀ c e, Located (Good env c e) (r.expr c e) (r'.expr c.plain e)) {c : LCtx} {e q : Expr}
    (hq : Direct env q e) : HE (StepGood env c e) r r' (c.childWith e) q :=
  sub_agree H (d := []) (by nofun) hq

theorem subIter_agree (H : ∀ c e, Located (Good env c e) (r.expr c e) (r'.expr c.plain e)) {c : LCtx} {e q : Expr}
    (k : Option Str) (x : Str) (p : Value × Value) (hq : Direct env q e) :
    HE (StepGood env c e) r r' (Loc.iterCtx (c.childWith e) k x p) q := by
  obtain ⟨f, hf, hc⟩ := iterCtx_cons (c.childWith e) k x p
  rw [hc]
  exact sub_agree H (d := [f]) (by intro g hg; simp at hg; rw [hg]; exact hf) hq

theorem own_good {c : LCtx} {e : Expr} {k : EvalErr} (h : Raises e k) : StepGood env c e k (c.childWith e).blamed :=
  .inr (.inl ⟨h, .inl rfl⟩)

theorem iter_blamed (c : LCtx) (e : Expr) (k : Option Str) (x : Str) (p : Value × Value) :
    (Loc.iterCtx (c.childWith e) k x p).blamed = some e := by
  obtain ⟨f, _, hc⟩ := iterCtx_cons (c.childWith e) k x p
  rw [hc]; rfl

theorem quiet_blamed {d : LCtx} (hd : Quiet d) (c : LCtx) (e : Expr) :
    LCtx.blamed (d ++ c.childWith e) = (c.childWith e).blamed ∨ LCtx.blamed (d ++ c.childWith e) = some e := by
  cases d with
  | nil => exact .inl rfl
  | cons f d =>
    right
    have : LCtx.expr (d ++ c.childWith e) = some e :=
      Quiet.expr (fun g hg => hd g (by simp [hg])) _
    simp [LCtx.blamed, LCtx.parentExpr, this]

theorem stepExpr_agree (H : ∀ c e, Located (Good env c e) (r.expr c e) (r'.expr c.plain e))
    (HT : ∀ c els a b, Located (GoodT env c els) (r.tmpl c els a b) (r'.tmpl c.plain els a b)) (c : LCtx)
    (e : Expr) : Located (StepGood env c e) (Loc.stepExpr env r c e) (stepExpr env r' c.plain e) := by
  have hpl : ∀ e, c.plain.child = (c.childWith e).plain := fun _ => rfl
  unfold Loc.stepExpr stepExpr
  dsimp only
  rw [hpl e]
  cases e with
  | array xs => exact (mapL_agree fun a ha => sub0_agree H (.array ha)).bind fun _ => .ok _
  | object es =>
    refine (mapL_agree fun p hp => ?_).bind fun _ => .ok _
    obtain ⟨key, v⟩ := p
    refine Located.bind ?_ fun _ => (sub0_agree H (.value hp)).bind fun _ => .ok _
    cases key with
    | ident x => exact .ok _
    | expr ke => exact evalObjectKey_agree (sub0_agree H (.key hp)) fun v => own_good rfl
  | template t =>
    dsimp only
    unfold Loc.evalTemplateExpr evalTemplateExpr
    have htm : ∀ els, env.parseTemplate t.asStr = .ok els →
        Located (StepGood env c (.template t))
          (L.bind (r.tmpl (c.childWith (.template t)) els .none .none) fun s => .ok (Value.string s))
          (R.bind (r'.tmpl (c.childWith (.template t)).plain els .none .none) fun s => .ok (Value.string s)) := by
      intro els hels
      refine Located.bind ((HT _ _ _ _).mono fun k x _ h => ?_) fun _ => .ok _
      rcases h with ⟨d, hd, hx, hk⟩ | ⟨d, q, hd, hq, hg⟩
      · have hr : Raises (.template t) k := by
          cases k <;> first | exact hk | exact hk.elim
        rcases quiet_blamed hd c (.template t) with h | h
        · exact .inr (.inl ⟨hr, .inl (hx.trans h)⟩)
        · exact .inr (.inl ⟨hr, .inr ⟨hx.trans h, trivial⟩⟩)
      · exact .inr (.inr ⟨d, q, hd, .template hels hq, hg⟩)
    cases hp : env.parseTemplate t.asStr with
    | error msg => exact .err (.inl ⟨rfl, t, msg, rfl, hp, rfl⟩)
    | ok els =>
      match els, hp with
      | [.interp e s], hp => exact sub0_agree H (.template hp (.interp (s := s) (by simp)))
      | [], hp => exact htm _ hp
      | [.lit _], hp => exact htm _ hp
      | [.ifDir ..], hp => exact htm _ hp
      | [.forDir ..], hp => exact htm _ hp
      | .interp .. :: _ :: _, hp => exact htm _ hp
      | .lit .. :: _ :: _, hp => exact htm _ hp
      | .ifDir .. :: _ :: _, hp => exact htm _ hp
      | .forDir .. :: _ :: _, hp => exact htm _ hp
  | var x =>
    dsimp only
    cases (c.childWith (.var x)).plain.var x with
    | none => exact .raise (own_good rfl)
    | some v => exact .ok _
  | traversal e ops =>
    refine (sub0_agree H .traversal).bind fun v => ?_
    cases ops with
    | nil => exact .ok _
    | cons op ops =>
      refine traverse_agree (fun k hk => own_good ?_) _ _ (fun i hi => sub0_agree H (.index hi)) v
      cases k <;> first | exact hk.elim | exact (fun h => nomatch h) | exact ⟨(fun h => nomatch h), hk⟩
  | call n args x => exact evalCall_agree (fun a ha => sub0_agree H (.arg ha)) fun _ h => own_good h
  | paren e => exact sub0_agree H .paren
  | cond q t f =>
    refine (evalBool_agree (sub0_agree H .cond) fun v => own_good rfl).bind fun b => ?_
    cases b
    · exact sub0_agree H .whenFalse
    · exact sub0_agree H .whenTrue
  | unary op e =>
    exact (sub0_agree H .unary).bind fun v => .error fun _ hk => by rw [unaryValue_err hk]; exact own_good rfl
  | binary l op rr =>
    exact (sub0_agree H .lhs).bind fun v => (sub0_agree H .rhs).bind fun w => .error fun _ hk => by
      rw [binaryValue_err hk]; exact own_good rfl
  | forE k x coll ke ve g ce =>
    refine (evalCollection_agree (sub0_agree H .forColl) fun v => own_good (.inl rfl)).bind fun pairs => ?_
    have hl : ∀ {k'} p, Raises (.forE k x coll ke ve g ce) k' → StepGood env c (.forE k x coll ke ve g ce) k'
        (Loc.iterCtx (c.childWith (.forE k x coll ke ve g ce)) k x p).blamed := fun p hr =>
      .inr (.inl ⟨hr, .inr ⟨iter_blamed _ _ _ _ _, trivial⟩⟩)
    cases ke with
    | none =>
      exact (forArray_agree (fun p => subIter_agree H k x p .forValue)
        (fun p e he => subIter_agree H k x p (he ▸ .forCond))
        (fun p hce v => hl p (.inr (.inl ⟨hce, rfl⟩))) pairs).bind fun _ => .ok _
    | some ke =>
      exact (forObject_agree (fun p => subIter_agree H k x p .forValue) (fun p => subIter_agree H k x p .forKey)
        (fun p e he => subIter_agree H k x p (he ▸ .forCond))
        (fun p hce v => hl p (.inr (.inl ⟨hce, rfl⟩))) (fun p v => hl p (.inr (.inr ⟨rfl, rfl⟩)))
        (fun p hg s => hl p ⟨rfl, hg⟩) pairs []).bind fun _ => .ok _
  | null => exact .ok _
  | bool b => exact .ok _
  | number n => exact .ok _
  | string s => exact .ok _

theorem GoodT.shift {env : Env} {c d : LCtx} {els els' : List Elem} {k : EvalErr} {x : Option Expr} (hd : Quiet d)
    (hin : ∀ q, InElems q els → InElems q els') (h : GoodT env (d ++ c) els k x) : GoodT env c els' k x := by
  rcases h with ⟨d', hd', hx, hk⟩ | ⟨d', q, hd', hq, hg⟩
  · refine .inl ⟨d' ++ d, fun f hf => ?_, by rw [List.append_assoc]; exact hx, hk⟩
    rcases List.mem_append.mp hf with h | h
    · exact hd' f h
    · exact hd f h
  · refine .inr ⟨d' ++ d, q, fun f hf => ?_, hin q hq, by rw [List.append_assoc]; exact hg⟩
    rcases List.mem_append.mp hf with h | h
    · exact hd' f h
    · exact hd f h

theorem stepTmpl_agree (H : ∀ c e, Located (Good env c e) (r.expr c e) (r'.expr c.plain e))
    (HT : ∀ c els a b, Located (GoodT env c els) (r.tmpl c els a b) (r'.tmpl c.plain els a b)) (c : LCtx)
    (els : List Elem) (a b : Strip) : Located (GoodT env c els) (Loc.stepTmpl env r c els a b)
      (stepTmpl env r' c.plain els a b) := by
  have hE : ∀ {els q}, InElems q els → HE (GoodT env c els) r r' c q := fun hq =>
    (H _ _).mono fun _ _ _ h => .inr ⟨[], _, by nofun, hq, h⟩
  induction els generalizing a with
  | nil => exact .ok _
  | cons el els ih =>
    have htail : ∀ q, InElems q els → InElems q (el :: els) := by
      intro q h
      cases h with
      | interp h => exact .interp (List.mem_cons_of_mem _ h)
      | ifCond h => exact .ifCond (List.mem_cons_of_mem _ h)
      | ifTrue h h' => exact .ifTrue (List.mem_cons_of_mem _ h) h'
      | ifFalse h h' => exact .ifFalse (List.mem_cons_of_mem _ h) h'
      | forColl h => exact .forColl (List.mem_cons_of_mem _ h)
      | forBody h h' => exact .forBody (List.mem_cons_of_mem _ h) h'
    simp only [Loc.stepTmpl, stepTmpl]
    refine Located.bind ?_ fun s => ((ih el.strip).mono fun k x _ h =>
      GoodT.shift (d := []) (by nofun) htail h).bind fun s' => .ok _
    have hown : ∀ k, DirErr k → GoodT env c (el :: els) k c.blamed := fun k hk =>
      .inl ⟨[], by nofun, rfl, hk⟩
    cases el with
    | lit s => exact .ok _
    | interp e s => exact (hE (.interp List.mem_cons_self)).bind fun _ => .ok _
    | ifDir q t f x y z =>
      refine (evalBool_agree (hE (.ifCond List.mem_cons_self)) fun v => hown _ (.inl rfl)).bind fun b => ?_
      cases b with
      | true =>
        exact (HT _ _ _ _).mono fun k x _ h =>
          GoodT.shift (d := []) (by nofun) (fun q hq => .ifTrue List.mem_cons_self hq) h
      | false =>
        cases f with
        | none => exact .ok _
        | some f =>
          exact (HT _ _ _ _).mono fun k x _ h =>
            GoodT.shift (d := []) (by nofun) (fun q hq => .ifFalse List.mem_cons_self hq) h
    | forDir k x coll t y z =>
      refine (evalCollection_agree (hE (.forColl List.mem_cons_self)) fun v => hown _ (.inr rfl)).bind fun pairs => ?_
      induction pairs with
      | nil => exact .ok _
      | cons p ps ihp =>
        simp only [Loc.forDirective, forDirective, ← iterCtx_plain]
        refine Located.bind ((HT _ _ _ _).mono fun k' x' _ h => ?_) fun _ => ihp.bind fun _ => .ok _
        obtain ⟨f, hf, hc⟩ := iterCtx_cons c k x p
        rw [hc] at h
        exact GoodT.shift (d := [f]) (by intro g hg; simp at hg; rw [hg]; exact hf)
          (fun q hq => .forBody List.mem_cons_self hq) h

end

theorem evalF_agree (env : Env) (n : Nat) :
    (∀ c e, Located (Good env c e) ((Loc.evalF env n).expr c e) ((evalF env n).expr c.plain e)) ∧
    ∀ c els a b, Located (GoodT env c els) ((Loc.evalF env n).tmpl c els a b) ((evalF env n).tmpl c.plain els a b) := by
  induction n with
  | zero => exact ⟨fun _ _ => .fail (by nofun), fun _ _ _ _ => .fail (by nofun)⟩
  | succ n ih =>
    refine ⟨fun c e => ?_, fun c els a b => stepTmpl_agree ih.1 ih.2 c els a b⟩
    refine (stepExpr_agree ih.1 ih.2 c e).mono fun k x hr h => h.good ?_
    exact eval_of_evalF (n + 1) hr (by nofun)

theorem LCtx.ofUser_plain : ∀ ctx : Ctx, LCtx.plain (.ofUser ctx) = ctx
  | [] => rfl
  | f :: c => congrArg (f :: ·) (LCtx.ofUser_plain c)

theorem LCtx.ofUser_expr : ∀ ctx : Ctx, LCtx.expr (.ofUser ctx) = none
  | [] => rfl
  | _ :: c => LCtx.ofUser_expr c

end Verif
