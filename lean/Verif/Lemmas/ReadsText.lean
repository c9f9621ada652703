import Verif.Lemmas.ReadsTotal
import Verif.Spec.Parts
/-!
From expressions: texts and variants.
-/

namespace Verif
open Spec De DRes Filter

variable {E : FmtEnv}

theorem exprString_text (E : FmtEnv) (e : Expr) : exprString E e = .str (textOf E e) := by
  cases e <;> rfl

theorem des_text_string (e : Expr) : Deserializes E .string (.expr e) (.str (textOf E e)) := ⟨1, by
  change visit E (de E 0) .string (exprString E e) = _
  rw [exprString_text]; rfl⟩

theorem des_text_char {e : Expr} {c : Char} (h : textOf E e = [c]) : Deserializes E .char (.expr e) (.char c) := ⟨1, by
  change visit E (de E 0) .char (exprString E e) = _
  rw [exprString_text, h]; rfl⟩

theorem des_ignored_expr (e : Expr) : Deserializes E .ignored (.expr e) .unit := ⟨1, rfl⟩

/-- The variant that is chosen by a name. -/
theorem enum_pick {r : Ty → Src → DRes Datum} {vs : List (Str × VTy)} (hn : (vs.map Prod.fst).Nodup)
    (hu : UserVariants vs) {name : Src} {x : Str} (hx : ask E name .identifier = .str x) {acc : VAcc} {d : Datum}
    (h : visitEnum E r vs name acc = .ok d) :
    ∃ i v, vs[i]? = some (x, v) ∧ UserVTy v ∧ variantContent E r i acc v = .ok d := by
  simp only [visitEnum, dbind_ok, hx] at h
  obtain ⟨i, hi, h⟩ := h
  change DRes.ofOption _ = _ at hi
  rw [ofOption_ok, findIdx_iff hn, List.getElem?_map] at hi
  cases hv : vs[i]? with
  | none => rw [hv] at hi; cases hi
  | some v =>
    rw [hv] at hi h
    obtain ⟨y, v⟩ := v
    cases hi
    exact ⟨i, v, hv, userVariants_get hu _ (List.mem_of_getElem? hv), h⟩

theorem str_char {r : Ty → Src → DRes Datum} {x : Str} {d : Datum} (h : visit E r .char (.str x) = .ok d) :
    ∃ c, x = [c] ∧ d = .char c := by
  rcases x with _ | ⟨c, _ | ⟨c', x⟩⟩
  · cases h
  · cases h; exact ⟨c, rfl, rfl⟩
  · cases h

theorem str_ident {r : Ty → Src → DRes Datum} {x : Str} {d : Datum} (h : visit E r .ident (.str x) = .ok d) :
    IsIdentifier E.U x ∧ d = .str x := by
  change visitStr (Ident.tryNew E.U) .str (.str x) = _ at h
  simp only [visitStr, dmap_ok, ofOption_ok] at h
  obtain ⟨y, hy, rfl⟩ := h
  have := (Props.C01_tryNew E.U x)
  by_cases hx : IsIdentifier E.U x
  · rw [this.1 hx] at hy; cases hy; exact ⟨hx, rfl⟩
  · rw [this.2 hx] at hy; cases hy

theorem enum_completeE {r : Ty → Src → DRes Datum} {vs : List (Str × VTy)} (hn : (vs.map Prod.fst).Nodup) {i : Nat}
    {x : Str} {v : VTy} {name : Src} (hx : ask E name .identifier = .str x) {acc : VAcc} {d : Datum}
    (hv : vs[i]? = some (x, v)) (h : variantContent E r i acc v = .ok d) : visitEnum E r vs name acc = .ok d := by
  simp only [visitEnum, dbind_ok, hx]
  refine ⟨i, ofOption_ok.2 ((findIdx_iff hn).2 ?_), ?_⟩
  · rw [List.getElem?_map, hv]; rfl
  · rw [hv]; exact h

theorem option_completeE {t : Ty} {e : Expr} {d : Datum} (hv : e ≠ .null) (h : Deserializes E t (.expr e) d) :
    Deserializes E (.option t) (.expr e) (.some d) := by
  refine .of_eventually ?_
  filter_upwards [h.eventually] with n h
  have ha : exprAsk E e .option = .some (.expr e) := by
    cases e with
    | null => exact absurd rfl hv
    | _ => rfl
  show visit E (de E n) (.option t) (exprAsk E e .option) = _
  rw [ha, visit, h]; rfl

theorem des_ident_text {e : Expr} (h : IsIdentifier E.U (textOf E e)) :
    Deserializes E .ident (.expr e) (.str (textOf E e)) := by
  obtain ⟨n, hn⟩ := des_ident (E := E) h
  cases n with
  | zero => cases hn
  | succ n =>
    refine ⟨n + 1, ?_⟩
    change visit E (de E n) .ident (exprString E e) = _
    rw [exprString_text]; exact hn

end Verif
