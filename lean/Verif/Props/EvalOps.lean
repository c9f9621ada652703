import Batteries.Data.List.Perm
import Verif.Props.EvalScope
/-! Property C36: binary and unary operators are strict and typed. -/

namespace Verif
open Verif.Spec

theorem Map.get?_isSome_iff {V : Type} (k : Str) (m : List (Str × V)) :
    (Map.get? k m).isSome = true ↔ k ∈ m.map Prod.fst := by
  induction m with
  | nil => simp [Map.get?]
  | cons p m ih =>
    obtain ⟨a, b⟩ := p
    simp only [Map.get?, List.map_cons, List.mem_cons]
    by_cases h : a = k
    · subst h; simp
    · rw [if_neg h, ih]
      constructor
      · exact Or.inr
      · rintro (h' | h')
        · exact absurd h'.symm h
        · exact h'

theorem Map.mem_of_get? {V : Type} {k : Str} {v : V} {m : List (Str × V)}
    (h : Map.get? k m = some v) : (k, v) ∈ m := by
  induction m with
  | nil => cases h
  | cons p m ih =>
    obtain ⟨a, b⟩ := p
    simp only [Map.get?] at h
    by_cases ha : a = k
    · rw [if_pos ha] at h; cases h; subst ha; exact List.mem_cons_self ..
    · rw [if_neg ha] at h; exact List.mem_cons_of_mem _ (ih h)

theorem Map.get?_of_mem {V : Type} {k : Str} {v : V} {m : List (Str × V)}
    (hn : (m.map Prod.fst).Nodup) (h : (k, v) ∈ m) : Map.get? k m = some v := by
  induction m with
  | nil => cases h
  | cons p m ih =>
    obtain ⟨a, b⟩ := p
    simp only [List.map_cons, List.nodup_cons] at hn
    simp only [Map.get?]
    cases h with
    | head => rw [if_pos rfl]
    | tail _ h =>
      have : a ≠ k := fun hak => hn.1 (hak ▸ List.mem_map_of_mem (f := Prod.fst) h)
      rw [if_neg this]; exact ih hn.2 h


theorem Value.WFObj.of_mem {k : Str} {v : Value} {m : List (Str × Value)} (h : Value.WFObj m)
    (hm : (k, v) ∈ m) : v.WF := by
  induction m with
  | nil => cases hm
  | cons p m ih =>
    obtain ⟨a, b⟩ := p
    simp only [Value.WFObj] at h
    cases hm with
    | head => exact h.1
    | tail _ hm => exact ih h.2 hm

mutual
theorem Value.beq_iff : ∀ a b : Value, a.WF → b.WF → (a.beq b = true ↔ SemEq a b)
  | .null, b, _, _ => by
    constructor
    · intro h; cases b <;> first | exact .null | (simp [Value.beq] at h)
    · intro h; cases h; rfl
  | .bool a, b, _, _ => by
    constructor
    · intro h
      cases b with
      | bool b => simp only [Value.beq, beq_iff_eq] at h; subst h; exact .bool _
      | _ => simp [Value.beq] at h
    · intro h; cases h; simp [Value.beq]
  | .string a, b, _, _ => by
    constructor
    · intro h
      cases b with
      | string b => simp only [Value.beq, decide_eq_true_eq] at h; subst h; exact .string _
      | _ => simp [Value.beq] at h
    · intro h; cases h; simp [Value.beq]
  | .number a, b, _, _ => by
    constructor
    · intro h
      cases b with
      | number b => exact .number _ _ h
      | _ => simp [Value.beq] at h
    · intro h; cases h with | number _ _ h => exact h
  | .array a, b, ha, hb => by
    constructor
    · intro h
      cases b with
      | array b =>
        have := (Value.beqList_iff a b ha hb).1 h
        exact .array _ _ this.1 this.2
      | _ => simp [Value.beq] at h
    · intro h
      cases h with
      | array _ ys h1 h2 => exact (Value.beqList_iff a ys ha hb).2 ⟨h1, h2⟩
  | .object a, b, ha, hb => by
    simp only [Value.WF] at ha
    constructor
    · intro h
      cases b with
      | object b =>
        simp only [Value.WF] at hb
        simp only [Value.beq, Bool.and_eq_true, beq_iff_eq] at h
        have h2 := (Value.beqObj_iff a b ha.2 hb.2).1 h.2
        have hsub : a.map Prod.fst ⊆ b.map Prod.fst := by
          intro k hk
          obtain ⟨p, hp, rfl⟩ := List.mem_map.1 hk
          obtain ⟨w, hw, _⟩ := h2 p hp
          exact (Map.get?_isSome_iff _ _).1 (by rw [hw]; rfl)
        have hperm : (a.map Prod.fst).Perm (b.map Prod.fst) :=
          (List.subperm_of_subset ha.1 hsub).perm_of_length_le (by simp [h.1])
        refine .object _ _ (fun k => ?_) (fun k x y hx hy => ?_)
        · apply Bool.eq_iff_iff.2
          rw [Map.get?_isSome_iff, Map.get?_isSome_iff]
          exact hperm.mem_iff
        · obtain ⟨w, hw, hs⟩ := h2 _ (Map.mem_of_get? hx)
          simp only at hw hs
          rw [hy] at hw; cases hw; exact hs
      | _ => simp [Value.beq] at h
    · intro h
      cases h with
      | object _ b h1 h2 =>
        simp only [Value.WF] at hb
        simp only [Value.beq, Bool.and_eq_true, beq_iff_eq]
        have hmem : ∀ k, k ∈ a.map Prod.fst ↔ k ∈ b.map Prod.fst := fun k => by
          rw [← Map.get?_isSome_iff, ← Map.get?_isSome_iff, h1]
        refine ⟨?_, (Value.beqObj_iff a b ha.2 hb.2).2 fun p hp => ?_⟩
        · have := ((List.perm_ext_iff_of_nodup ha.1 hb.1).2 hmem).length_eq
          simpa using this
        · have hx : Map.get? p.1 a = some p.2 := Map.get?_of_mem ha.1 hp
          have : (Map.get? p.1 b).isSome = true := by rw [← h1, hx]; rfl
          obtain ⟨w, hw⟩ := Option.isSome_iff_exists.1 this
          exact ⟨w, hw, h2 _ _ _ hx hw⟩
theorem Value.beqList_iff : ∀ a b : List Value, Value.WFList a → Value.WFList b →
    (Value.beqList a b = true ↔ a.length = b.length ∧
      ∀ (i : Nat) x y, a[i]? = some x → b[i]? = some y → SemEq x y)
  | [], [], _, _ => by simp [Value.beqList]
  | [], _ :: _, _, _ => by simp [Value.beqList]
  | _ :: _, [], _, _ => by simp [Value.beqList]
  | a :: as, b :: bs, ha, hb => by
    simp only [Value.WFList] at ha hb
    simp only [Value.beqList, Bool.and_eq_true, Value.beq_iff a b ha.1 hb.1,
      Value.beqList_iff as bs ha.2 hb.2, List.length_cons, Nat.add_right_cancel_iff]
    constructor
    · rintro ⟨h1, h2, h3⟩
      refine ⟨h2, fun i x y hx hy => ?_⟩
      cases i with
      | zero => simp at hx hy; subst hx hy; exact h1
      | succ i => simp at hx hy; exact h3 i x y hx hy
    · rintro ⟨h1, h2⟩
      exact ⟨h2 0 a b rfl rfl, h1, fun i x y hx hy => h2 (i + 1) x y (by simpa using hx) (by simpa using hy)⟩
theorem Value.beqObj_iff : ∀ a b : List (Str × Value), Value.WFObj a → Value.WFObj b →
    (Value.beqObj a b = true ↔ ∀ p ∈ a, ∃ w, Map.get? p.1 b = some w ∧ SemEq p.2 w)
  | [], b, _, _ => by simp [Value.beqObj]
  | (k, v) :: a, b, ha, hb => by
    simp only [Value.WFObj] at ha
    simp only [Value.beqObj, Bool.and_eq_true, Value.beqObj_iff a b ha.2 hb, List.mem_cons,
      forall_eq_or_imp]
    apply and_congr_left'
    cases hg : Map.get? k b with
    | none => simp
    | some w =>
      have hw : w.WF := Value.WFObj.of_mem hb (Map.mem_of_get? hg)
      simp only [Value.beq_iff v w ha.1 hw, Option.some.injEq, exists_eq_left']
end

namespace Props

/-- C36: operators are strict from left to right: a failing left operand is the failure. -/
theorem C36_strict_left (env : Env) (ctx : Ctx) (l r : Expr) (op : BinOp) (e : Fail)
    (h : eval env ctx l = .error e) : eval env ctx (.binary l op r) = .error e := by
  rw [eval_binary, h]; rfl

/-- C36: a failing right operand is the failure, also for `&&` and `||`, whatever the left is. -/
theorem C36_strict_right (env : Env) (ctx : Ctx) (l r : Expr) (op : BinOp) (v : Value) (e : Fail)
    (hl : eval env ctx l = .ok v) (h : eval env ctx r = .error e) :
    eval env ctx (.binary l op r) = .error e := by
  rw [eval_binary, hl, h]; rfl

theorem C36_strict_unary (env : Env) (ctx : Ctx) (r : Expr) (op : UnOp) (e : Fail)
    (h : eval env ctx r = .error e) : eval env ctx (.unary op r) = .error e := by
  rw [eval_unary, h]; rfl

/-- C36: on operands of other types an operator is an error. -/
theorem C36_untyped (env : Env) (ctx : Ctx) (l r : Expr) (op : BinOp) (a b : Value)
    (hl : eval env ctx l = .ok a) (hr : eval env ctx r = .ok b) (h : ¬ Typed a op b) :
    eval env ctx (.binary l op r) = R.err (.binaryOp a op b) := by
  rw [eval_binary, hl, hr]
  show binaryValue env a op b = _
  cases op <;> cases a <;> first
    | rfl
    | exact absurd trivial h
    | (cases b <;> first | rfl | exact absurd ⟨⟨_, rfl⟩, _, rfl⟩ h)

/-- C36: `==` and `!=` accept any operands. -/
theorem C36_equality (env : Env) (ctx : Ctx) (l r : Expr) (a b : Value)
    (hl : eval env ctx l = .ok a) (hr : eval env ctx r = .ok b) (ha : a.WF) (hb : b.WF) :
    (SemEq a b → eval env ctx (.binary l .eq r) = .ok (.bool true) ∧
      eval env ctx (.binary l .notEq r) = .ok (.bool false)) ∧
    (¬ SemEq a b → eval env ctx (.binary l .eq r) = .ok (.bool false) ∧
      eval env ctx (.binary l .notEq r) = .ok (.bool true)) := by
  rw [eval_binary, eval_binary, hl, hr, ← Value.beq_iff a b ha hb]
  have h1 : binaryValue env a .eq b = .ok (.bool (a.beq b)) := by cases a <;> rfl
  have h2 : binaryValue env a .notEq b = .ok (.bool (!a.beq b)) := by cases a <;> rfl
  show (_ → binaryValue env a .eq b = _ ∧ binaryValue env a .notEq b = _) ∧
    (_ → binaryValue env a .eq b = _ ∧ binaryValue env a .notEq b = _)
  rw [h1, h2]
  constructor
  · intro h; rw [h]; exact ⟨rfl, rfl⟩
  · intro h
    have : a.beq b = false := by simpa using h
    rw [this]; exact ⟨rfl, rfl⟩

/-- C36: logical operators on booleans. -/
theorem C36_logical (env : Env) (ctx : Ctx) (l r : Expr) (a b : Bool)
    (hl : eval env ctx l = .ok (.bool a)) (hr : eval env ctx r = .ok (.bool b)) :
    eval env ctx (.binary l .and r) = .ok (.bool (a && b)) ∧
    eval env ctx (.binary l .or r) = .ok (.bool (a || b)) ∧
    eval env ctx (.unary .not l) = .ok (.bool (!a)) := by
  rw [eval_binary, eval_binary, eval_unary, hl, hr]
  exact ⟨rfl, rfl, rfl⟩

/-- C36: comparisons of numbers follow `Number`'s order. -/
theorem C36_comparison (env : Env) (ctx : Ctx) (l r : Expr) (a b : N)
    (hl : eval env ctx l = .ok (.number a)) (hr : eval env ctx r = .ok (.number b)) :
    eval env ctx (.binary l .less r) = .ok (.bool (decide (N.partialCmp a b = some .lt))) ∧
    eval env ctx (.binary l .greater r) = .ok (.bool (decide (N.partialCmp a b = some .gt))) ∧
    eval env ctx (.binary l .lessEq r) =
      .ok (.bool (decide (N.partialCmp a b = some .lt ∨ N.partialCmp a b = some .eq))) ∧
    eval env ctx (.binary l .greaterEq r) =
      .ok (.bool (decide (N.partialCmp a b = some .gt ∨ N.partialCmp a b = some .eq))) := by
  rw [eval_binary, eval_binary, eval_binary, eval_binary, hl, hr]
  refine ⟨?_, ?_, ?_, ?_⟩ <;> simp only [R.bind, binaryValue] <;>
    rcases N.partialCmp a b with _ | (_ | _ | _) <;> rfl

/-- C36: arithmetic on numbers is `Number`'s arithmetic (C07 – C09); the only other outcome is a
panic of that arithmetic. -/
theorem C36_arithmetic (env : Env) (ctx : Ctx) (l r : Expr) (a b : N)
    (hl : eval env ctx l = .ok (.number a)) (hr : eval env ctx r = .ok (.number b)) :
    let result : Option N → R Value := fun o =>
      match o with
      | some n => .ok (.number n)
      | none => .error .panic
    eval env ctx (.binary l .plus r) = result (N.add env.build a b) ∧
    eval env ctx (.binary l .minus r) = result (N.sub env.build a b) ∧
    eval env ctx (.binary l .mul r) = result (N.mul env.build a b) ∧
    eval env ctx (.binary l .div r) = result (N.div env.build a b) ∧
    eval env ctx (.binary l .mod r) = result (N.rem env.build a b) ∧
    eval env ctx (.unary .neg l) = result (N.neg env.build a) := by
  simp only [eval_binary, eval_unary, hl, hr, R.bind]
  refine ⟨?_, ?_, ?_, ?_, ?_, ?_⟩ <;> (simp only [binaryValue, unaryValue, R.ofNum]; rfl)

/-- C36: `!` on anything but a boolean and `-` on anything but a number is an error. -/
theorem C36_untyped_unary (env : Env) (ctx : Ctx) (e : Expr) (v : Value)
    (h : eval env ctx e = .ok v) :
    ((∀ b, v ≠ .bool b) → eval env ctx (.unary .not e) = R.err (.unaryOp .not v)) ∧
    ((∀ n, v ≠ .number n) → eval env ctx (.unary .neg e) = R.err (.unaryOp .neg v)) := by
  rw [eval_unary, eval_unary, h]
  constructor
  · intro hv; cases v <;> first | rfl | exact absurd rfl (hv _)
  · intro hv; cases v <;> first | rfl | exact absurd rfl (hv _)

-- `"a" && true` and `1 + "a"` are errors; `{a = 1, b = 2} == {b = 2, a = 1}`.
example : ¬ Typed (.string c!"a") .and (.bool true) := by rintro ⟨⟨_, h⟩, _⟩; cases h
example : ¬ Typed (.number (.posInt 1)) .plus (.string c!"a") := by rintro ⟨_, _, h⟩; cases h
example : SemEq (.object [(c!"a", .null), (c!"b", .bool true)])
    (.object [(c!"b", .bool true), (c!"a", .null)]) :=
  (Value.beq_iff _ _ (by simp [Value.WF, Value.WFObj]) (by simp [Value.WF, Value.WFObj])).1 rfl
example : eval exEnv Ctx.new (.binary (.number (.posInt 1)) .plus (.number (.posInt 2))) =
    .ok (.number (.posInt 3)) :=
  (C36_arithmetic exEnv Ctx.new _ _ _ _ (eval_number _) (eval_number _)).1
example : eval exEnv Ctx.new (.binary (.bool true) .or (.var c!"nope")) =
    R.err (.undefinedVar c!"nope") :=
  C36_strict_right _ _ _ _ _ (.bool true) _ (eval_bool true) (C34_undeclared _ _ _ (by
    intro f hf; simp [Ctx.new] at hf; subst hf; rfl))

end Props
end Verif
