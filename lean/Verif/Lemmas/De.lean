import Verif.Spec.De
import Verif.Lemmas.Ser
import Mathlib.Order.Filter.AtTopBot.Basic
/-!
Lemmas about deserialization: more fuel changes nothing, and how results are put together.
-/

namespace Verif
open Spec De Filter

/-! ### Fuel -/

/-- `y` is `x`, unless `x` has run out of fuel. -/
def DRes.Le {α : Type} (x y : DRes α) : Prop := x = .out ∨ x = y

namespace DRes

theorem Le.rfl {α : Type} {x : DRes α} : Le x x := .inr (Eq.refl _)

theorem Le.bind {α β : Type} {x y : DRes α} {f g : α → DRes β} (h : Le x y) (hf : ∀ a, Le (f a) (g a)) :
    Le (x.bind f) (y.bind g) := by
  rcases h with rfl | rfl
  · exact .inl (Eq.refl _)
  · cases x
    · exact hf _
    · exact .rfl
    · exact .rfl

theorem Le.map {α β : Type} {x y : DRes α} {f : α → β} (h : Le x y) : Le (x.map f) (y.map f) :=
  h.bind fun _ => .rfl

theorem Le.each {α β : Type} {f g : α → DRes β} (h : ∀ a, Le (f a) (g a)) :
    ∀ l : List α, Le (each f l) (each g l)
  | [] => .rfl
  | a :: l => (h a).bind fun _ => (Le.each h l).bind fun _ => .rfl

end DRes

namespace De
open DRes

section
variable {E : FmtEnv} {r r' : Ty → Src → DRes Datum} (h : ∀ t s, Le (r t s) (r' t s))
include h

theorem elements_le : ∀ (ts : List Ty) (ss : List Src), Le (elements r ts ss) (elements r' ts ss)
  | [], _ => .rfl
  | _ :: _, [] => .rfl
  | t :: ts, s :: ss => (h t s).bind fun _ => (elements_le ts ss).bind fun _ => .rfl

theorem visitTuple_le (ts : List Ty) (ev : Ev) : Le (visitTuple r ts ev) (visitTuple r' ts ev) := by
  cases ev with
  | seq ss ends => exact (elements_le h ts ss).bind fun _ => .rfl
  | _ => exact .rfl

theorem fields_le (fs : List (Str × Ty)) : ∀ (acc : List (Nat × Datum)) (es : List (Src × Src)),
    Le (fields E r fs acc es) (fields E r' fs acc es)
  | _, [] => .rfl
  | acc, (k, v) :: es => by
    unfold fields
    refine Le.rfl.bind fun i => ?_
    cases i with
    | none => exact (h _ _).bind fun _ => fields_le fs acc es
    | some i =>
      dsimp only
      split
      · exact .rfl
      · cases fs[i]? with
        | none => exact .rfl
        | some p => exact (h _ _).bind fun _ => fields_le fs _ es

theorem gather_le (acc : List (Nat × Datum)) : ∀ (i : Nat) (fs : List (Str × Ty)),
    Le (gather r acc i fs) (gather r' acc i fs)
  | _, [] => .rfl
  | i, (_, t) :: fs => by
    unfold gather
    refine Le.bind ?_ fun d => (gather_le acc (i + 1) fs).bind fun _ => .rfl
    cases acc.find? (fun p : Nat × Datum => p.1 == i) with
    | none => exact h _ _
    | some p => exact .rfl

theorem visitStruct_le (fs : List (Str × Ty)) (ev : Ev) :
    Le (visitStruct E r fs ev) (visitStruct E r' fs ev) := by
  cases ev with
  | map es => exact (fields_le h fs [] es).bind fun acc => (gather_le h acc 0 fs).map
  | seq ss ends => exact visitTuple_le h (fs.map Prod.snd) (.seq ss ends)
  | _ => exact .rfl

theorem unitVariant_le (acc : VAcc) : Le (unitVariant r acc) (unitVariant r' acc) := by
  cases acc <;> first | exact .rfl | exact (h _ _).map

theorem newtypeVariant_le (t : Ty) (acc : VAcc) : Le (newtypeVariant r t acc) (newtypeVariant r' t acc) := by
  cases acc with
  | unitOnly => exact .rfl
  | source s => exact h _ _
  | expr e =>
    simp only [newtypeVariant]
    cases exprContent e with
    | none => exact .rfl
    | some s => exact h _ _
  | key k => cases k <;> exact h _ _
  | travOp o => cases o <;> exact h _ _
  | value v => exact h _ _
  | entry s => exact h _ _

theorem variantContent_le (i : Nat) (acc : VAcc) (v : VTy) :
    Le (variantContent E r i acc v) (variantContent E r' i acc v) := by
  cases v with
  | unit => exact (unitVariant_le h acc).map
  | newtype t => exact (newtypeVariant_le h t acc).map
  | tuple ts => exact (visitTuple_le h ts _).map
  | struct fs => exact (visitStruct_le h fs _).map

theorem visitEnum_le (vs : List (Str × VTy)) (name : Src) (acc : VAcc) :
    Le (visitEnum E r vs name acc) (visitEnum E r' vs name acc) := by
  unfold visitEnum
  refine Le.rfl.bind fun i => ?_
  cases vs[i]? with
  | none => exact .rfl
  | some v => exact variantContent_le h i acc v.2

theorem visitValue_le (ev : Ev) : Le (visitValue r ev) (visitValue r' ev) := by
  cases ev with
  | some s => exact (h _ _).bind fun _ => .rfl
  | seq ss ends => exact (Le.each (fun s => (h _ s).bind fun _ => .rfl) ss).map
  | map es =>
    exact (Le.each (fun p => (h _ p.1).bind fun _ => Le.rfl.bind fun _ => (h _ p.2).bind fun _ => .rfl) es).map
  | _ => exact .rfl

theorem visitExpr_le (ev : Ev) : Le (visitExpr E r ev) (visitExpr E r' ev) := by
  cases ev with
  | some s => exact (h _ _).bind fun _ => .rfl
  | seq ss ends => exact (Le.each (fun s => (h _ s).bind fun _ => .rfl) ss).map
  | map es =>
    exact (Le.each (fun p => (h _ p.1).bind fun _ => Le.rfl.bind fun _ => (h _ p.2).bind fun _ => .rfl) es).map
  | enum name acc => exact (visitEnum_le h _ name acc).bind fun _ => .rfl
  | _ => exact .rfl

theorem visitIgnored_le (ev : Ev) : Le (visitIgnored r ev) (visitIgnored r' ev) := by
  cases ev with
  | some s => exact h _ _
  | newtype s => exact h _ _
  | seq ss ends => exact (Le.each (fun s => h _ s) ss).map
  | map es => exact (Le.each (fun p => (h _ p.1).bind fun _ => h _ p.2) es).map
  | enum name acc => exact (h _ _).bind fun _ => newtypeVariant_le h _ acc
  | _ => exact .rfl

theorem visit_le (t : Ty) (ev : Ev) : Le (visit E r t ev) (visit E r' t ev) := by
  cases t with
  | bool => cases ev <;> exact .rfl
  | f64 => cases ev <;> exact .rfl
  | unit => cases ev <;> exact .rfl
  | number => cases ev <;> exact .rfl
  | char =>
    cases ev with
    | str s => rcases s with _ | ⟨c, _ | ⟨_, _⟩⟩ <;> exact .rfl
    | _ => exact .rfl
  | option t =>
    cases ev with
    | some s => exact (h _ _).map
    | _ => exact .rfl
  | seq t =>
    cases ev with
    | seq ss ends => exact (Le.each (h t) ss).map
    | _ => exact .rfl
  | tuple ts => exact visitTuple_le h ts ev
  | map k v =>
    cases ev with
    | map es => exact (Le.each (fun p => (h _ p.1).bind fun _ => (h _ p.2).bind fun _ => .rfl) es).map
    | _ => exact .rfl
  | newtype n t =>
    cases ev with
    | newtype s => exact (h _ _).map
    | seq ss ends => exact (visitTuple_le h [t] _).bind fun _ => .rfl
    | _ => exact .rfl
  | tupleStruct ts => exact visitTuple_le h ts ev
  | struct n fs => exact visitStruct_le h fs ev
  | enum n vs =>
    cases ev with
    | enum name acc => exact visitEnum_le h vs name acc
    | _ => exact .rfl
  | ignored => exact visitIgnored_le h ev
  | value => exact (visitValue_le h ev).map
  | expr => exact (visitExpr_le h ev).map
  | body =>
    cases ev with
    | newtype s => exact (h _ _).bind fun _ => .rfl
    | seq ss ends => exact (visitTuple_le h _ _).bind fun _ => .rfl
    | _ => exact .rfl
  | _ => exact .rfl

end

theorem de_le (E : FmtEnv) : ∀ (n : Nat) (t : Ty) (s : Src), Le (de E n t s) (de E (n + 1) t s)
  | 0, _, _ => .inl rfl
  | n + 1, t, _ => visit_le (de_le E n) t _

theorem de_mono {E : FmtEnv} {n m : Nat} (hm : n ≤ m) (t : Ty) (s : Src) : Le (de E n t s) (de E m t s) := by
  induction hm with
  | refl => exact .rfl
  | step _ ih =>
    rcases ih with ih | ih
    · exact .inl ih
    · rw [ih]; exact de_le E _ t s

end De

/-! ### Results -/

theorem _root_.Verif.Spec.Deserializes.eventually {E : FmtEnv} {t : Ty} {s : Src} {d : Datum}
    (h : Deserializes E t s d) : ∀ᶠ n in atTop, de E n t s = .ok d := by
  obtain ⟨n, h⟩ := h
  filter_upwards [eventually_ge_atTop n] with m hm
  rcases de_mono (E := E) hm t s with h' | h'
  · rw [h] at h'; cases h'
  · rw [← h', h]

theorem _root_.Verif.Spec.Rejected.eventually {E : FmtEnv} {t : Ty} {s : Src}
    (h : Rejected E t s) : ∀ᶠ n in atTop, de E n t s = .err := by
  obtain ⟨n, h⟩ := h
  filter_upwards [eventually_ge_atTop n] with m hm
  rcases de_mono (E := E) hm t s with h' | h'
  · rw [h] at h'; cases h'
  · rw [← h', h]

theorem _root_.Verif.Spec.Deserializes.of_eventually {E : FmtEnv} {t : Ty} {s : Src} {d : Datum}
    (h : ∀ᶠ n in atTop, visit E (de E n) t (ask E s (want t)) = .ok d) : Deserializes E t s d := by
  obtain ⟨n, h⟩ := h.exists
  exact ⟨n + 1, h⟩

theorem _root_.Verif.Spec.Rejected.of_eventually {E : FmtEnv} {t : Ty} {s : Src}
    (h : ∀ᶠ n in atTop, visit E (de E n) t (ask E s (want t)) = .err) : Rejected E t s := by
  obtain ⟨n, h⟩ := h.exists
  exact ⟨n + 1, h⟩

theorem _root_.Verif.Spec.Deserializes.unique {E : FmtEnv} {t : Ty} {s : Src} {d d' : Datum}
    (h : Deserializes E t s d) (h' : Deserializes E t s d') : d = d' := by
  obtain ⟨n, h1, h2⟩ := (h.eventually.and h'.eventually).exists
  rw [h1] at h2
  injection h2

theorem _root_.Verif.Spec.Deserializes.not_rejected {E : FmtEnv} {t : Ty} {s : Src} {d : Datum}
    (h : Deserializes E t s d) : ¬ Rejected E t s := fun h' => by
  obtain ⟨n, h1, h2⟩ := (h.eventually.and h'.eventually).exists
  rw [h1] at h2
  cases h2

end Verif
