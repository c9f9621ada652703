import Verif.Spec.Exchange
import Verif.Lemmas.Stages
/-!
C90: replacing equals by equals.
-/

namespace Verif
open Spec

variable {env : Env} {c d : Ctx} {a b : Expr} {l : Bool}

private theorem split_same {α : Type} {R : α → α → Prop} (hr : ∀ x, R x x) {x y : α} (h : R x y) (q : List α) :
    ∀ p : List α, List.Forall₂ R (p ++ x :: q) (p ++ y :: q)
  | [] => .cons h (List.forall₂_same.2 fun _ _ => hr _)
  | z :: p => .cons (hr z) (split_same hr h q p)

theorem exchanged_alike {e e' : Expr} (he : Exchanged a b l e e') :
    ∀ d, (∀ d', l = true ∨ d' = d → eval env d' a = eval env d' b) → Alike env d e e' := by
  induction he with
  | here => exact fun d h => (h d (.inr rfl)).symm
  | array p q _ ih =>
    intro d h
    rw [Alike, eval_array, eval_array, mapR_alike (split_same (R := Alike env d) (fun _ => rfl) (ih d h) q p)]
  | @key p q v x y _ ih =>
    intro d h
    have hk : (evalRec env).expr d y = (evalRec env).expr d x := ih d h
    have he : EntryAlike env d (.expr x, v) (.expr y, v) :=
      ⟨by simp only [evalKey, evalObjectKey, hk], rfl⟩
    rw [Alike, eval_object, eval_object, entries_alike (split_same (fun _ => ⟨rfl, rfl⟩) he q p)]
  | @value p q k x y _ ih =>
    intro d h
    have he : EntryAlike env d (k, x) (k, y) := ⟨rfl, ih d h⟩
    rw [Alike, eval_object, eval_object, entries_alike (split_same (fun _ => ⟨rfl, rfl⟩) he q p)]
  | operand ops _ ih =>
    intro d h
    have hk : eval env d _ = eval env d _ := ih d h
    rw [Alike, eval_traversal, eval_traversal, hk]
  | index e p q _ ih =>
    intro d h
    have hf := split_same (R := OpAlike env d) (fun _ => .same _) (.index (ih d h)) q p
    rw [Alike, eval_traversal, eval_traversal, hf.length_eq]
    congr 1; funext w
    exact traverse_alike _ _ _ hf w
  | arg n p q x _ ih =>
    intro d h
    rw [Alike, eval_call, eval_call, evalArgs_alike (split_same (R := Alike env d) (fun _ => rfl) (ih d h) q p)]
  | paren _ ih =>
    intro d h
    have hk : eval env d _ = eval env d _ := ih d h
    rw [Alike, eval_paren, eval_paren, hk]
  | cond t f _ ih =>
    intro d h
    rw [Alike, eval_cond, eval_cond, evalBool_alike (ih d h)]
  | condTrue q f _ ih =>
    intro d h
    have hk : eval env d _ = eval env d _ := ih d h
    rw [Alike, eval_cond, eval_cond, hk]
  | condFalse q t _ ih =>
    intro d h
    have hk : eval env d _ = eval env d _ := ih d h
    rw [Alike, eval_cond, eval_cond, hk]
  | unary o _ ih =>
    intro d h
    have hk : eval env d _ = eval env d _ := ih d h
    rw [Alike, eval_unary, eval_unary, hk]
  | left o r _ ih =>
    intro d h
    have hk : eval env d _ = eval env d _ := ih d h
    rw [Alike, eval_binary, eval_binary, hk]
  | right x o _ ih =>
    intro d h
    have hk : eval env d _ = eval env d _ := ih d h
    rw [Alike, eval_binary, eval_binary, hk]
  | collection k i ke ve g ce _ ih =>
    intro d h
    rw [Alike, eval_for, eval_for, evalFor, evalFor, evalCollection_alike (ih d h)]
  | @forKey k i coll ve g ce x y hl _ ih =>
    intro d h
    have hk : ∀ d', (evalRec env).expr d' y = (evalRec env).expr d' x := fun d' => ih d' fun d'' _ => h d'' (.inl hl)
    rw [Alike, eval_for, eval_for, evalFor, evalFor]
    congr 1; funext ps
    have : ∀ m, forObject env (evalRec env) d k i ce y ve g ps m = forObject env (evalRec env) d k i ce x ve g ps m := by
      induction ps with
      | nil => intro m; rfl
      | cons p ps ihp => intro m; simp only [forObject, evalObjectKey, hk, ihp]
    simp only [this]
  | @forValue k i coll ke g ce x y hl _ ih =>
    intro d h
    have hk : ∀ d', (evalRec env).expr d' y = (evalRec env).expr d' x := fun d' => ih d' fun d'' _ => h d'' (.inl hl)
    rw [Alike, eval_for, eval_for, evalFor, evalFor]
    congr 1; funext ps
    cases ke with
    | none =>
      have : forArray (evalRec env) d k i ce y ps = forArray (evalRec env) d k i ce x ps := by
        induction ps with
        | nil => rfl
        | cons p ps ihp => simp only [forArray, hk, ihp]
      simp only [this]
    | some ke =>
      have : ∀ m, forObject env (evalRec env) d k i ce ke y g ps m = forObject env (evalRec env) d k i ce ke x g ps m := by
        induction ps with
        | nil => intro m; rfl
        | cons p ps ihp => intro m; simp only [forObject, hk, ihp]
      simp only [this]
  | @forCond k i coll ke ve g x y hl _ ih =>
    intro d h
    have hk : ∀ d', evalBool (evalRec env) d' y = evalBool (evalRec env) d' x :=
      fun d' => evalBool_alike (ih d' fun d'' _ => h d'' (.inl hl))
    rw [Alike, eval_for, eval_for, evalFor, evalFor]
    congr 1; funext ps
    cases ke with
    | none =>
      have : forArray (evalRec env) d k i (some y) ve ps = forArray (evalRec env) d k i (some x) ve ps := by
        induction ps with
        | nil => rfl
        | cons p ps ihp => simp only [forArray, iterCond, hk, ihp]
      simp only [this]
    | some ke =>
      have : ∀ m, forObject env (evalRec env) d k i (some y) ke ve g ps m =
          forObject env (evalRec env) d k i (some x) ke ve g ps m := by
        induction ps with
        | nil => intro m; rfl
        | cons p ps ihp => intro m; simp only [forObject, iterCond, hk, ihp]
      simp only [this]

private theorem split_text (q : List Elem) {x y : Elem} (hs : y.strip = x.strip)
    (h : ∀ m n, evalElem env (evalRec env) d m n y = evalElem env (evalRec env) d m n x) :
    ∀ (p : List Elem) (m n : Strip), evalTmpl env d (p ++ y :: q) m n = evalTmpl env d (p ++ x :: q) m n
  | [], m, n => by
    rw [List.nil_append, List.nil_append, evalTmpl_cons', evalTmpl_cons', hs, h]; rfl
  | z :: p, m, n => by
    rw [List.cons_append, List.cons_append, evalTmpl_cons', evalTmpl_cons', split_text q hs h p]
    have : nextOf (z :: (p ++ y :: q)) n 0 = nextOf (z :: (p ++ x :: q)) n 0 := by
      cases p with
      | nil => exact hs
      | cons _ _ => rfl
    rw [this]

theorem exchangedText_alike {t t' : List Elem} (ht : ExchangedText a b l t t') :
    ∀ d, (∀ d', l = true ∨ d' = d → eval env d' a = eval env d' b) →
      ∀ m n, evalTmpl env d t' m n = evalTmpl env d t m n := by
  induction ht with
  | @interp p q m x y he =>
    intro d h
    have hk : (evalRec env).expr d y = (evalRec env).expr d x := exchanged_alike he d h
    exact split_text (x := .interp x m) (y := .interp y m) q rfl (fun _ _ => by simp only [evalElem, hk]) p
  | @ifCond p q t f m₁ m₂ m₃ x y he =>
    intro d h
    exact split_text (x := .ifDir x t f m₁ m₂ m₃) (y := .ifDir y t f m₁ m₂ m₃) q rfl (fun _ _ => by simp only [evalElem, evalBool_alike (exchanged_alike he d h)]) p
  | @ifTrue p q c f m₁ m₂ m₃ t t' _ ih =>
    intro d h
    have hk : ∀ m n, (evalRec env).tmpl d t' m n = (evalRec env).tmpl d t m n := ih d h
    exact split_text (x := .ifDir c t f m₁ m₂ m₃) (y := .ifDir c t' f m₁ m₂ m₃) q rfl (fun _ _ => by simp only [evalElem, hk]) p
  | @ifFalse p q c t m₁ m₂ m₃ f f' _ ih =>
    intro d h
    have hk : ∀ m n, (evalRec env).tmpl d f' m n = (evalRec env).tmpl d f m n := ih d h
    exact split_text (x := .ifDir c t (some f) m₁ m₂ m₃) (y := .ifDir c t (some f') m₁ m₂ m₃) q rfl (fun _ _ => by simp only [evalElem, hk, Option.isSome]) p
  | @collection p q k i t m₁ m₂ x y he =>
    intro d h
    exact split_text (x := .forDir k i x t m₁ m₂) (y := .forDir k i y t m₁ m₂) q rfl (fun _ _ => by simp only [evalElem, evalCollection_alike (exchanged_alike he d h)]) p
  | @body p q k i coll m₁ m₂ t t' hl _ ih =>
    intro d h
    have hk : ∀ d' m n, (evalRec env).tmpl d' t' m n = (evalRec env).tmpl d' t m n :=
      fun d' => ih d' fun d'' _ => h d'' (.inl hl)
    have hloop : ∀ ps, forDirective (evalRec env) d k i t' m₁ m₂ ps = forDirective (evalRec env) d k i t m₁ m₂ ps := by
      intro ps
      induction ps with
      | nil => rfl
      | cons p ps ih => simp only [forDirective, hk, ih]
    exact split_text (x := .forDir k i coll t m₁ m₂) (y := .forDir k i coll t' m₁ m₂) q rfl (fun _ _ => by simp only [evalElem, hloop]) p

end Verif
