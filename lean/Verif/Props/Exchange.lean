import Verif.Lemmas.Exchange
import Verif.Props.EvalScope
/-!
C90: an expression can be exchanged for one that evaluates alike, without any effect on what contains it.
-/

namespace Verif.Props
open Spec

/-- C90: if two expressions evaluate to the same value or error whatever names and functions are defined, then one can
stand for the other at any place of any expression. -/
theorem C90_exchange (env : Env) (a b e e' : Expr) (h : ∀ c, eval env c a = eval env c b)
    (he : Exchanged a b true e e') (c : Ctx) : eval env c e' = eval env c e :=
  exchanged_alike he c fun d _ => h d

/-- C90: if they evaluate alike with the names and functions at hand, then one can stand for the other at all places
but those in the key, value or condition of a `for` expression. -/
theorem C90_exchange_here (env : Env) (c : Ctx) (a b e e' : Expr) (h : eval env c a = eval env c b)
    (he : Exchanged a b false e e') : eval env c e' = eval env c e :=
  exchanged_alike he c fun d hd => by
    rcases hd with hd | rfl
    · cases hd
    · exact h

/-- C90: so what evaluates to a value can be replaced by that value, written out. -/
theorem C90_literal (env : Env) (c : Ctx) (a e e' : Expr) (v : Value) (hc : CtxWF c) (h : eval env c a = .ok v)
    (he : Exchanged a (ofValue v) false e e') : eval env c e' = eval env c e :=
  C90_exchange_here env c a (ofValue v) e e' (by rw [h, eval_ofValue v (eval_wf hc h)]) he

/-- C90: or by a variable that is defined as that value. -/
theorem C90_name (env : Env) (c : Ctx) (a e e' : Expr) (v : Value) (x : Str) (h : eval env c a = .ok v)
    (hx : c.var x = some v) (he : Exchanged a (.var x) false e e') : eval env c e' = eval env c e :=
  C90_exchange_here env c a (.var x) e e' (by rw [h, eval_var, hx]) he

/-- C90: the same for the text of a template, at any place. -/
theorem C90_exchange_text (env : Env) (a b : Expr) (t t' : List Elem) (h : ∀ c, eval env c a = eval env c b)
    (ht : ExchangedText a b true t t') (c : Ctx) (m n : Strip) : evalTmpl env c t' m n = evalTmpl env c t m n :=
  exchangedText_alike ht c (fun d _ => h d) m n

/-- C90: and at all places outside of loops. -/
theorem C90_exchange_text_here (env : Env) (c : Ctx) (a b : Expr) (t t' : List Elem) (h : eval env c a = eval env c b)
    (ht : ExchangedText a b false t t') (m n : Strip) : evalTmpl env c t' m n = evalTmpl env c t m n :=
  exchangedText_alike ht c (fun d hd => by
    rcases hd with hd | rfl
    · cases hd
    · exact h) m n

/-- C90: so template expressions evaluate alike if their texts were exchanged that way. -/
theorem C90_exchange_template (env : Env) (a b : Expr) (s s' : TmplExpr) (t t' : List Elem)
    (h : ∀ c, eval env c a = eval env c b) (hs : env.parseTemplate s.asStr = .ok t)
    (hs' : env.parseTemplate s'.asStr = .ok t') (ht : ExchangedText a b true t t') (c : Ctx) :
    eval env c (.template s') = eval env c (.template s) := by
  have htext := C90_exchange_text env a b t t' h ht c .none .none
  rw [eval_template, eval_template, hs, hs']
  cases ht with
  | interp p q m he =>
    have hk := C90_exchange env a b _ _ h he c
    cases p with
    | nil => cases q with
      | nil => exact hk
      | cons z q => simp only [List.nil_append] at htext ⊢; rw [htext]
    | cons z p => cases p <;> simp only [List.cons_append, List.nil_append] at htext ⊢ <;> rw [htext]
  | ifCond p q =>
    cases p with
    | nil => simp only [List.nil_append] at htext ⊢; rw [htext]
    | cons z p => cases p <;> simp only [List.cons_append, List.nil_append] at htext ⊢ <;> rw [htext]
  | ifTrue p q =>
    cases p with
    | nil => simp only [List.nil_append] at htext ⊢; rw [htext]
    | cons z p => cases p <;> simp only [List.cons_append, List.nil_append] at htext ⊢ <;> rw [htext]
  | ifFalse p q =>
    cases p with
    | nil => simp only [List.nil_append] at htext ⊢; rw [htext]
    | cons z p => cases p <;> simp only [List.cons_append, List.nil_append] at htext ⊢ <;> rw [htext]
  | collection p q =>
    cases p with
    | nil => simp only [List.nil_append] at htext ⊢; rw [htext]
    | cons z p => cases p <;> simp only [List.cons_append, List.nil_append] at htext ⊢ <;> rw [htext]
  | body p q =>
    cases p with
    | nil => simp only [List.nil_append] at htext ⊢; rw [htext]
    | cons z p => cases p <;> simp only [List.cons_append, List.nil_append] at htext ⊢ <;> rw [htext]

/-- C90: and bodies do if the expressions of some of their attributes were exchanged that way. -/
theorem C90_exchange_body (env : Env) (a b : Expr) (body body' : List Struct) (h : ∀ c, eval env c a = eval env c b)
    (hb : SameShape (fun e e' => e' = e ∨ Exchanged a b true e e') body body') (c : Ctx) :
    evalBody (evalRec env) c body' = evalBody (evalRec env) c body :=
  evalBody_alike body body' (shape_mem body body' (fun e e' _ hr => by
    rcases hr with rfl | hr
    · rfl
    · exact C90_exchange env a b e e' h hr c) hb)

/-- C90: inside of loops it is not enough to evaluate alike outside: where `x` is `true`, `[for x in [false] : x]` is
not `[for x in [false] : true]`. -/
theorem C90_loops_need_more : ∃ (env : Env) (c : Ctx) (a b e e' : Expr), eval env c a = eval env c b ∧
    Exchanged a b true e e' ∧ eval env c e = .ok (.array [.bool false]) ∧
      eval env c e' = .ok (.array [.bool true]) :=
  ⟨exEnv, Ctx.declareVar c!"x" (.bool true) Ctx.new, .var c!"x", .bool true,
    .forE none c!"x" (.array [.bool false]) none (.var c!"x") false none,
    .forE none c!"x" (.array [.bool false]) none (.bool true) false none,
    by rw [eval_var, eval_bool]; rfl, .forValue _ _ _ _ _ _ rfl .here, eval_of_evalF 5 rfl (by simp),
    eval_of_evalF 5 rfl (by simp)⟩

/-! Concrete cases. -/

/-- `!!true` and `true` evaluate alike everywhere; -/
example (c : Ctx) : eval exEnv c (.unary .not (.unary .not (.bool true))) = eval exEnv c (.bool true) := by
  rw [eval_unary, eval_unary, eval_bool]; rfl
/-- and one can stand for the other inside of `{ k = [for x in y : f(x, !!true)] }`. -/
example : Exchanged (.unary .not (.unary .not (.bool true))) (.bool true) true
    (.object [(.ident c!"k", .forE none c!"x" (.var c!"y") none
      (.call ⟨[], c!"f"⟩ [.var c!"x", .unary .not (.unary .not (.bool true))] false) false none)])
    (.object [(.ident c!"k", .forE none c!"x" (.var c!"y") none
      (.call ⟨[], c!"f"⟩ [.var c!"x", .bool true] false) false none)]) :=
  .value [] [] _ (.forValue _ _ _ _ _ _ rfl (.arg _ [.var c!"x"] [] _ .here))
/-- Inside of `%{ for x in y }a${ !!true }%{ endfor }`. -/
example : ExchangedText (.unary .not (.unary .not (.bool true))) (.bool true) true
    [.forDir none c!"x" (.var c!"y") [.lit c!"a", .interp (.unary .not (.unary .not (.bool true))) .none] .none .none]
    [.forDir none c!"x" (.var c!"y") [.lit c!"a", .interp (.bool true) .none] .none .none] :=
  .body [] [] _ _ _ _ _ rfl (.interp [.lit c!"a"] [] _ .here)
/-- `x` is `true`, so `x ? 1 : 2` is as good as `true ? 1 : 2`. -/
example : CtxWF (Ctx.declareVar c!"x" (.bool true) Ctx.new) ∧
    eval exEnv (Ctx.declareVar c!"x" (.bool true) Ctx.new) (.var c!"x") = .ok (.bool true) ∧
    Exchanged (.var c!"x") (ofValue (.bool true)) false (.cond (.var c!"x") (.number (.posInt 1)) (.number (.posInt 2)))
      (.cond (.bool true) (.number (.posInt 1)) (.number (.posInt 2))) := by
  refine ⟨⟨fun x v h => ?_, fun n f h => by simp [Ctx.declareVar, Ctx.new, Ctx.func, Map.get?] at h⟩, ?_,
    .cond _ _ .here⟩
  · rw [Ctx.declareVar_var] at h
    split at h
    · injection h with h; subst h; simp [Value.WF]
    · simp [Ctx.new, Ctx.var, Map.get?] at h
  · rw [eval_var]; rfl

end Verif.Props
