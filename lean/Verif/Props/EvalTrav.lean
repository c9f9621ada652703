import Verif.Props.EvalFor
import Verif.Lemmas.Number
/-! Properties C38 (splat operators) and C39 (indexing). -/

namespace Verif
open Verif.Spec

theorem mapR_congr {α β : Type} {f g : α → R β} {l : List α} (h : ∀ a ∈ l, f a = g a) :
    mapR f l = mapR g l := by
  induction l with
  | nil => rfl
  | cons a l ih =>
    simp only [mapR, h a (List.mem_cons_self ..), ih fun b hb => h b (List.mem_cons_of_mem _ hb)]

theorem splat_congr {f g : Value → R Value} (h : ∀ v, f v = g v) (v : Value) :
    splat f v = splat g v := by
  rw [funext h]

theorem traverse_fuel (rec : Rec) (ctx : Ctx) (n m : Nat) (ops : List TravOp) (v : Value)
    (hn : ops.length ≤ n) (hm : ops.length ≤ m) :
    traverse rec ctx n ops v = traverse rec ctx m ops v := by
  induction n generalizing m ops v with
  | zero =>
    cases ops with
    | nil => cases m <;> rfl
    | cons op ops => simp at hn
  | succ n ih =>
    cases ops with
    | nil => cases m <;> rfl
    | cons op ops =>
      cases m with
      | zero => simp at hm
      | succ m =>
        simp only [List.length_cons, Nat.add_le_add_iff_right] at hn hm
        have htw : (ops.takeWhile TravOp.isGetAttr).length ≤ ops.length :=
          (List.takeWhile_sublist _).length_le
        have hdw : (ops.dropWhile TravOp.isGetAttr).length ≤ ops.length :=
          (List.dropWhile_sublist _).length_le
        cases op with
        | attrSplat =>
          simp only [traverse]
          rw [splat_congr fun x => ih m _ x (by omega) (by omega)]
          congr 1; funext w; exact ih m _ w (by omega) (by omega)
        | fullSplat => simp only [traverse]; exact splat_congr (fun x => ih m _ x hn hm) v
        | getAttr x => simp only [traverse]; congr 1; funext w; exact ih m _ w hn hm
        | index e => simp only [traverse]; congr 1; funext w; exact ih m _ w hn hm
        | legacyIndex i => simp only [traverse]; congr 1; funext w; exact ih m _ w hn hm

/-- `ops` applied to the value `v`. -/
noncomputable def applyOps (env : Env) (ctx : Ctx) (ops : List TravOp) (v : Value) : R Value :=
  traverse (evalRec env) ctx ops.length ops v

theorem eval_traversal_ok {env : Env} {ctx : Ctx} {e : Expr} {v : Value} (ops : List TravOp)
    (h : eval env ctx e = .ok v) : eval env ctx (.traversal e ops) = applyOps env ctx ops v := by
  rw [eval_traversal, h]; rfl

theorem applyOps_nil (env : Env) (ctx : Ctx) (v : Value) : applyOps env ctx [] v = .ok v := rfl

theorem applyOps_fullSplat (env : Env) (ctx : Ctx) (ops : List TravOp) (v : Value) :
    applyOps env ctx (.fullSplat :: ops) v = splat (applyOps env ctx ops) v := rfl

theorem applyOps_attrSplat (env : Env) (ctx : Ctx) (ops : List TravOp) (v : Value) :
    applyOps env ctx (.attrSplat :: ops) v =
      R.bind (splat (applyOps env ctx (ops.takeWhile TravOp.isGetAttr)) v)
        (applyOps env ctx (ops.dropWhile TravOp.isGetAttr)) := by
  show R.bind (splat (fun x => traverse (evalRec env) ctx ops.length _ x) v) _ = _
  have htw : (ops.takeWhile TravOp.isGetAttr).length ≤ ops.length :=
    (List.takeWhile_sublist _).length_le
  have hdw : (ops.dropWhile TravOp.isGetAttr).length ≤ ops.length :=
    (List.dropWhile_sublist _).length_le
  rw [splat_congr fun x => traverse_fuel (evalRec env) ctx _ _ _ x htw (Nat.le_refl _)]
  congr 1; funext w
  exact traverse_fuel _ _ _ _ _ _ hdw (Nat.le_refl _)

theorem eval_array_traversals {env : Env} {ctx : Ctx} {es : List Expr} {xs : List Value}
    (ops : List TravOp) (h : List.Forall₂ (fun e x => eval env ctx e = .ok x) es xs) :
    eval env ctx (.array (es.map fun e => .traversal e ops)) =
      R.bind (mapR (applyOps env ctx ops) xs) fun ys => .ok (.array ys) := by
  rw [eval_array]
  congr 1
  induction h with
  | nil => rfl
  | cons h _ ih => simp only [List.map_cons, mapR, eval_traversal_ok ops h, ih]

theorem takeWhile_attrs (attrs : List Str) (rest : List TravOp)
    (hrest : ∀ a ops, rest ≠ TravOp.getAttr a :: ops) :
    (attrs.map TravOp.getAttr ++ rest).takeWhile TravOp.isGetAttr = attrs.map .getAttr := by
  induction attrs with
  | nil =>
    cases rest with
    | nil => rfl
    | cons op ops => cases op <;> first | rfl | exact absurd rfl (hrest _ _)
  | cons a attrs ih =>
    show TravOp.getAttr a :: (attrs.map TravOp.getAttr ++ rest).takeWhile TravOp.isGetAttr = _
    rw [ih]; rfl

theorem dropWhile_attrs (attrs : List Str) (rest : List TravOp)
    (hrest : ∀ a ops, rest ≠ TravOp.getAttr a :: ops) :
    (attrs.map TravOp.getAttr ++ rest).dropWhile TravOp.isGetAttr = rest := by
  induction attrs with
  | nil =>
    cases rest with
    | nil => rfl
    | cons op ops => cases op <;> first | rfl | exact absurd rfl (hrest _ _)
  | cons a attrs ih => exact ih

theorem asU64_iff {n : N} (hw : WellFormed n) (j : Nat) :
    n.asU64 = some j ↔ value n = some (j : ℚ) := by
  cases n with
  | posInt k =>
    simp only [N.asU64, value, Option.some.injEq]
    constructor
    · rintro rfl; rfl
    · intro h; exact_mod_cast h
  | negInt k =>
    simp only [WellFormed] at hw
    simp only [N.asU64, value, Option.some.injEq, if_neg (by omega : ¬ 0 ≤ k), reduceCtorEq,
      false_iff]
    intro h
    have : (k : ℚ) = ((j : Int) : ℚ) := by rw [h]; norm_cast
    have hk : k = (j : Int) := by exact_mod_cast this
    omega
  | float x =>
    simp only [N.asU64, reduceCtorEq, value, false_iff]
    intro h
    cases x with
    | fin s m e =>
      have := (F64.noFraction_iff (s := s) (m := m) (e := e)).2 ⟨j, by
        have h' := Option.some.inj h
        rw [F64.toRat]
        cases s <;> simp [F64.sm] at h' ⊢ <;> exact h'⟩
      rw [hw.2.2] at this; cases this
    | _ => cases h

namespace Props

/-- C38: `e[*].ops` on an array is `[x0.ops, x1.ops, …]`. -/
theorem C38_full_splat (env : Env) (ctx : Ctx) (e : Expr) (ops : List TravOp) (xs : List Value)
    (es : List Expr) (h : eval env ctx e = .ok (.array xs))
    (hes : List.Forall₂ (fun ei xi => eval env ctx ei = .ok xi) es xs) :
    eval env ctx (.traversal e (.fullSplat :: ops)) =
      eval env ctx (.array (es.map fun ei => .traversal ei ops)) := by
  rw [eval_traversal_ok _ h, applyOps_fullSplat, eval_array_traversals ops hes]; rfl

/-- C38: a splat of `null` is the empty array; the operators after `[*]` are not applied. -/
theorem C38_full_splat_null (env : Env) (ctx : Ctx) (e : Expr) (ops : List TravOp)
    (h : eval env ctx e = .ok .null) :
    eval env ctx (.traversal e (.fullSplat :: ops)) = .ok (.array []) := by
  rw [eval_traversal_ok _ h, applyOps_fullSplat]; rfl

/-- C38: a splat of any other value is the one-element array `[e.ops]`. -/
theorem C38_full_splat_other (env : Env) (ctx : Ctx) (e : Expr) (ops : List TravOp) (v : Value)
    (h : eval env ctx e = .ok v) (hv : v ≠ .null) (ha : ∀ xs, v ≠ .array xs) :
    eval env ctx (.traversal e (.fullSplat :: ops)) =
      eval env ctx (.array [.traversal e ops]) := by
  have := eval_array_traversals (env := env) (ctx := ctx) (es := [e]) (xs := [v]) ops (.cons h .nil)
  simp only [List.map_cons, List.map_nil] at this
  rw [eval_traversal_ok _ h, applyOps_fullSplat, this]
  cases v with
  | null => exact absurd rfl hv
  | array xs => exact absurd rfl (ha xs)
  | _ => simp only [splat, mapR]; rcases applyOps env ctx ops _ with _ | _ <;> rfl

/-- C38: `e.*.a.b rest` on an array is `[x0.a.b, x1.a.b, …] rest`: only the attribute accesses that
follow directly are applied per element, everything after them to the resulting array. -/
theorem C38_attr_splat (env : Env) (ctx : Ctx) (e : Expr) (attrs : List Str) (rest : List TravOp)
    (xs : List Value) (es : List Expr) (h : eval env ctx e = .ok (.array xs))
    (hes : List.Forall₂ (fun ei xi => eval env ctx ei = .ok xi) es xs)
    (hrest : ∀ a ops, rest ≠ .getAttr a :: ops) :
    eval env ctx (.traversal e (.attrSplat :: (attrs.map .getAttr ++ rest))) =
      eval env ctx (.traversal (.array (es.map fun ei => .traversal ei (attrs.map .getAttr))) rest) := by
  have h1 : (attrs.map TravOp.getAttr ++ rest).takeWhile TravOp.isGetAttr = attrs.map .getAttr :=
    takeWhile_attrs attrs rest hrest
  have h2 : (attrs.map TravOp.getAttr ++ rest).dropWhile TravOp.isGetAttr = rest :=
    dropWhile_attrs attrs rest hrest
  rw [eval_traversal_ok _ h, applyOps_attrSplat, h1, h2, eval_traversal,
    eval_array_traversals _ hes]
  rfl

/-- C38: `null.*` is the empty array before the remaining operators apply. -/
theorem C38_attr_splat_null (env : Env) (ctx : Ctx) (e : Expr) (attrs : List Str)
    (rest : List TravOp) (h : eval env ctx e = .ok .null)
    (hrest : ∀ a ops, rest ≠ .getAttr a :: ops) :
    eval env ctx (.traversal e (.attrSplat :: (attrs.map .getAttr ++ rest))) =
      eval env ctx (.traversal (.array []) rest) := by
  have h2 : (attrs.map TravOp.getAttr ++ rest).dropWhile TravOp.isGetAttr = rest :=
    dropWhile_attrs attrs rest hrest
  have h3 : eval env ctx (.array []) = .ok (.array []) := by rw [eval_array]; rfl
  rw [eval_traversal_ok _ h, applyOps_attrSplat, h2, eval_traversal_ok _ h3]
  rfl

/-- C38: any other value is first wrapped: `e.*.a rest` is `[e.a] rest`. -/
theorem C38_attr_splat_other (env : Env) (ctx : Ctx) (e : Expr) (attrs : List Str)
    (rest : List TravOp) (v : Value) (h : eval env ctx e = .ok v) (hv : v ≠ .null)
    (ha : ∀ xs, v ≠ .array xs) (hrest : ∀ a ops, rest ≠ .getAttr a :: ops) :
    eval env ctx (.traversal e (.attrSplat :: (attrs.map .getAttr ++ rest))) =
      eval env ctx (.traversal (.array [.traversal e (attrs.map .getAttr)]) rest) := by
  have h1 : (attrs.map TravOp.getAttr ++ rest).takeWhile TravOp.isGetAttr = attrs.map .getAttr :=
    takeWhile_attrs attrs rest hrest
  have h2 : (attrs.map TravOp.getAttr ++ rest).dropWhile TravOp.isGetAttr = rest :=
    dropWhile_attrs attrs rest hrest
  have := eval_array_traversals (env := env) (ctx := ctx) (es := [e]) (xs := [v])
    (attrs.map .getAttr) (.cons h .nil)
  simp only [List.map_cons, List.map_nil] at this
  rw [eval_traversal_ok _ h, applyOps_attrSplat, h1, h2, eval_traversal, this]
  cases v with
  | null => exact absurd rfl hv
  | array xs => exact absurd rfl (ha xs)
  | _ =>
    simp only [splat, mapR]
    rcases applyOps env ctx (attrs.map .getAttr) _ with _ | _ <;> rfl

/-- C38, C39: operators compose: `e.op ops` is `(e.op).ops` for every operator that is not a
splat. -/
theorem C39_compose (env : Env) (ctx : Ctx) (e : Expr) (op : TravOp) (ops : List TravOp)
    (h1 : op ≠ .fullSplat) (h2 : op ≠ .attrSplat) :
    eval env ctx (.traversal e (op :: ops)) =
      eval env ctx (.traversal (.traversal e [op]) ops) := by
  rw [eval_traversal, eval_traversal, eval_traversal]
  cases eval env ctx e with
  | error e => rfl
  | ok v =>
    cases op with
    | fullSplat => exact absurd rfl h1
    | attrSplat => exact absurd rfl h2
    | getAttr x => simp only [R.bind, List.length_cons, traverse]; cases objectValue v x <;> rfl
    | index i =>
      simp only [R.bind, List.length_cons, traverse]; cases indexExpr (evalRec env) ctx v i <;> rfl
    | legacyIndex i =>
      simp only [R.bind, List.length_cons, traverse]; cases arrayValue v i <;> rfl

/-- C39: `e[i]` on an array with a number: element `j` if the number is the whole number `j` and
`j` is below the length. -/
theorem C39_index (env : Env) (ctx : Ctx) (e i : Expr) (xs : List Value) (n : N)
    (he : eval env ctx e = .ok (.array xs)) (hi : eval env ctx i = .ok (.number n))
    (hw : WellFormed n) :
    (∀ j : Nat, value n = some (j : ℚ) → ∀ h : j < xs.length,
      eval env ctx (.traversal e [.index i]) = .ok xs[j]) ∧
    (∀ j : Nat, value n = some (j : ℚ) → xs.length ≤ j →
      eval env ctx (.traversal e [.index i]) = R.err (.index j)) ∧
    ((∀ j : Nat, value n ≠ some (j : ℚ)) →
      eval env ctx (.traversal e [.index i]) =
        R.err (.unexpected (.number n) c!"an unsigned integer")) := by
  have h : eval env ctx (.traversal e [.index i]) =
      R.bind (match n.asU64 with
        | some i => arrayValue (.array xs) i
        | none => R.err (.unexpected (.number n) c!"an unsigned integer")) .ok := by
    rw [eval_traversal, he]
    simp only [R.bind, List.length_cons, List.length_nil, traverse, indexExpr]
    have : (evalRec env).expr ctx i = .ok (.number n) := hi
    rw [this]; rfl
  rw [h]
  refine ⟨fun j hj hlt => ?_, fun j hj hge => ?_, fun hno => ?_⟩
  · rw [(asU64_iff hw j).2 hj]
    simp only [arrayValue, List.getElem?_eq_getElem hlt, R.bind]
  · rw [(asU64_iff hw j).2 hj]
    simp only [arrayValue, List.getElem?_eq_none hge, R.bind, R.err]
  · have : n.asU64 = none := by
      cases hu : n.asU64 with
      | none => rfl
      | some j => exact absurd ((asU64_iff hw j).1 hu) (hno j)
    rw [this]; rfl

/-- C39: the legacy form `e.3`. -/
theorem C39_legacy_index (env : Env) (ctx : Ctx) (e : Expr) (xs : List Value) (j : Nat)
    (he : eval env ctx e = .ok (.array xs)) :
    (∀ h : j < xs.length, eval env ctx (.traversal e [.legacyIndex j]) = .ok xs[j]) ∧
    (xs.length ≤ j → eval env ctx (.traversal e [.legacyIndex j]) = R.err (.index j)) := by
  rw [eval_traversal, he]
  refine ⟨fun h => ?_, fun h => ?_⟩
  · simp only [R.bind, List.length_cons, List.length_nil, traverse, arrayValue,
      List.getElem?_eq_getElem h]
  · simp only [R.bind, List.length_cons, List.length_nil, traverse, arrayValue,
      List.getElem?_eq_none h, R.err]

/-- C39: `e.k` and `e["k"]` are the value of the key `k`, or an error naming the key. -/
theorem C39_key (env : Env) (ctx : Ctx) (e i : Expr) (es : List (Str × Value)) (k : Str)
    (he : eval env ctx e = .ok (.object es)) (hw : (es.map Prod.fst).Nodup)
    (hi : eval env ctx i = .ok (.string k)) :
    (∀ v, (k, v) ∈ es → eval env ctx (.traversal e [.getAttr k]) = .ok v ∧
      eval env ctx (.traversal e [.index i]) = .ok v) ∧
    ((∀ v, (k, v) ∉ es) → eval env ctx (.traversal e [.getAttr k]) = R.err (.noSuchKey k) ∧
      eval env ctx (.traversal e [.index i]) = R.err (.noSuchKey k)) := by
  have h1 : eval env ctx (.traversal e [.getAttr k]) =
      R.bind (objectValue (.object es) k) .ok := by
    rw [eval_traversal, he]; rfl
  have h2 : eval env ctx (.traversal e [.index i]) = R.bind (objectValue (.object es) k) .ok := by
    rw [eval_traversal, he]
    simp only [R.bind, List.length_cons, List.length_nil, traverse, indexExpr]
    have : (evalRec env).expr ctx i = .ok (.string k) := hi
    rw [this]
  rw [h1, h2]
  refine ⟨fun v hv => ?_, fun hno => ?_⟩
  · have : Map.get? k es = some v := Map.get?_of_mem hw hv
    simp only [objectValue, this, R.bind, and_self]
  · have : Map.get? k es = none := by
      rw [Map.get?_none_iff]
      intro hm
      obtain ⟨p, hp, rfl⟩ := List.mem_map.1 hm
      exact hno p.2 hp
    simp only [objectValue, this, R.bind, R.err, and_self]

/-- C39: attribute access on anything but an object, indexing an object with a number or an array
with a string, and indexing with anything else are errors. -/
theorem C39_wrong_type (env : Env) (ctx : Ctx) (e i : Expr) (v iv : Value)
    (he : eval env ctx e = .ok v) (hi : eval env ctx i = .ok iv) :
    ((∀ es, v ≠ .object es) → ∀ k,
      eval env ctx (.traversal e [.getAttr k]) = R.err (.unexpected v c!"an object")) ∧
    ((∀ xs, v ≠ .array xs) → ∀ j,
      eval env ctx (.traversal e [.legacyIndex j]) = R.err (.unexpected v c!"an array")) ∧
    ((∀ es, v ≠ .object es) → ∀ k, iv = .string k →
      eval env ctx (.traversal e [.index i]) = R.err (.unexpected v c!"an object")) ∧
    ((∀ xs, v ≠ .array xs) → ∀ j, iv = .number (.posInt j) →
      eval env ctx (.traversal e [.index i]) = R.err (.unexpected v c!"an array")) ∧
    ((∀ s, iv ≠ .string s) → (∀ n, iv ≠ .number n) →
      eval env ctx (.traversal e [.index i]) =
        R.err (.unexpected iv c!"an unsigned integer or string")) := by
  have h2 : eval env ctx (.traversal e [.index i]) =
      R.bind (indexExpr (evalRec env) ctx v i) .ok := by
    rw [eval_traversal, he]; rfl
  have hi' : (evalRec env).expr ctx i = .ok iv := hi
  rw [h2, indexExpr, hi']
  simp only [eval_traversal, he]
  refine ⟨fun h k => ?_, fun h j => ?_, fun h k hk => ?_, fun h j hj => ?_, fun h h' => ?_⟩
  · cases v with
    | object es => exact absurd rfl (h es)
    | _ => rfl
  · cases v with
    | array es => exact absurd rfl (h es)
    | _ => rfl
  · subst hk
    cases v with
    | object es => exact absurd rfl (h es)
    | _ => rfl
  · subst hj
    cases v with
    | array es => exact absurd rfl (h es)
    | _ => rfl
  · cases iv with
    | string s => exact absurd rfl (h s)
    | number n => exact absurd rfl (h' n)
    | _ => rfl

/-! Concrete cases. -/

/-- `[{a = true}, {a = null}]` -/
def exList : Expr := .array [.object [(.ident c!"a", .bool true)], .object [(.ident c!"a", .null)]]

example : eval exEnv Ctx.new (.traversal exList [.fullSplat, .getAttr c!"a"]) =
    .ok (.array [.bool true, .null]) := eval_of_evalF 5 rfl (by simp)
-- `x.*.a[0]` indexes the collected array, `x[*].a[0]` each element (an error here)
example : eval exEnv Ctx.new (.traversal exList [.attrSplat, .getAttr c!"a", .legacyIndex 0]) =
    .ok (.bool true) := eval_of_evalF 5 rfl (by simp)
example : eval exEnv Ctx.new (.traversal exList [.fullSplat, .getAttr c!"a", .legacyIndex 0]) =
    R.err (.unexpected (.bool true) c!"an array") := eval_of_evalF 5 rfl (by simp [R.err])
example : eval exEnv Ctx.new (.traversal (.bool true) [.fullSplat]) = .ok (.array [.bool true]) :=
  eval_of_evalF 5 rfl (by simp)
example : eval exEnv Ctx.new (.traversal (.array [.null, .bool true]) [.index (.number (.posInt 1))]) =
    .ok (.bool true) := eval_of_evalF 5 rfl (by simp)
example : value (.posInt 1) = some ((1 : Nat) : ℚ) ∧ WellFormed (.posInt 1) := by
  simp [value, WellFormed]

end Props
end Verif
