import Verif.Model.EditSeq
import Verif.Lemmas.Canon
/-!
C95: how arrays and the arguments of function calls are written after changes.
-/

namespace Verif.Spec

/-- The text of an element in its place: what surrounds it, or else the default, which is a space before every element
but the first. -/
def placed (E : FmtEnv) (first : Bool) (e : EExpr) : Str :=
  encDecor (if first then [] else c!" ") e.getMeta.decor.pre ++ (e.core E false).1 ++ encDecor [] e.getMeta.decor.suf

/-- The texts of all elements. -/
def placedAll (E : FmtEnv) : List EExpr → List Str
  | [] => []
  | e :: es => placed E true e :: es.map (placed E false)

end Verif.Spec

namespace Verif.Props
open Spec

theorem EditSeq.encList_rest (E : FmtEnv) (es : List EExpr) :
    (EExpr.encList E c!" " es false).1 = (es.map fun e => ',' :: placed E false e).flatten := by
  induction es with
  | nil => rfl
  | cons e es ih =>
    simp [EExpr.encList, W.seq, W.str, deco, core_flag, placed, ih]

theorem EditSeq.encList_text (E : FmtEnv) (es : List EExpr) :
    (EExpr.encList E [] es false).1 = c!",".intercalate (placedAll E es) := by
  cases es with
  | nil => rfl
  | cons e es =>
    have h : ∀ (t : Str) (es : List EExpr), c!",".intercalate (t :: es.map (placed E false)) =
        t ++ (es.map fun e => ',' :: placed E false e).flatten := by
      intro t es
      induction es generalizing t with
      | nil => simp [List.intercalate]
      | cons x es ih =>
        have := ih (placed E false x)
        simp only [List.intercalate, List.map_cons, List.intersperse_cons_cons, List.flatten_cons] at this ⊢
        rw [this]
        simp
    rw [placedAll, h, ← EditSeq.encList_rest]
    simp [EExpr.encList, W.seq, W.str, deco, core_flag, placed]

/-- C95: an array is written as its elements with commas between them, a comma after the last one if asked for and there
is one, and the trailing text. -/
theorem C95_array_text (E : FmtEnv) (m : Meta) (s : ESeq) :
    (EExpr.core E (.array m s.values s.comma s.trailing) false).1 =
      c!"[" ++ c!",".intercalate (placedAll E s.values) ++
        (if s.comma ∧ s.values ≠ [] then c!"," else []) ++ s.trailing.enc [] ++ c!"]" := by
  have h := EditSeq.encList_text E s.values
  have hf := encList_flag (E := E) s.values (p := []) false
  cases hv : s.values <;> cases s.comma <;> simp [hv, EExpr.core, W.seq, W.str] at h hf ⊢ <;> simp [h]

/-- C95: if what precedes the elements is set, as it is in a document that was read, then every element is written alike
wherever it is: inserting, removing or moving elements does not change the texts of the others. -/
theorem C95_settled_text (E : FmtEnv) (m : Meta) (s : ESeq)
    (h : ∀ e ∈ s.values, ∃ r, e.getMeta.decor.pre = some r ∧ r.span? = none) :
    (EExpr.core E (.array m s.values s.comma s.trailing) false).1 =
      c!"[" ++ c!",".intercalate (s.values.map fun e =>
          encDecor [] e.getMeta.decor.pre ++ (e.core E false).1 ++ encDecor [] e.getMeta.decor.suf) ++
        (if s.comma ∧ s.values ≠ [] then c!"," else []) ++ s.trailing.enc [] ++ c!"]" := by
  have hp : ∀ (f : Bool), ∀ e ∈ s.values, placed E f e =
      encDecor [] e.getMeta.decor.pre ++ (e.core E false).1 ++ encDecor [] e.getMeta.decor.suf := by
    intro f e he
    obtain ⟨r, h1, h2⟩ := h e he
    cases r <;> simp [Raw.span?] at h2 <;> simp [placed, h1, encDecor, Raw.enc]
  have ha : placedAll E s.values = s.values.map fun e =>
      encDecor [] e.getMeta.decor.pre ++ (e.core E false).1 ++ encDecor [] e.getMeta.decor.suf := by
    cases hv : s.values with
    | nil => rfl
    | cons x xs =>
      rw [hv] at hp
      simp only [placedAll, List.map_cons]
      rw [hp true x (by simp), List.map_congr_left fun e he => hp false e (by simp [he])]
  rw [C95_array_text, ha]

/-- C95: an element pushed to an array that is not empty is written after a comma where the last element ended; the rest
of the text stays as it is. The same holds for the arguments of a function call. -/
theorem C95_push_text (E : FmtEnv) (s t : ESeq) (e : EExpr) (hne : s.values ≠ [])
    (h : s.step (.push e) = some (t, none)) :
    (∀ m, ∃ a b, (EExpr.core E (.array m s.values s.comma s.trailing) false).1 = a ++ b ∧
      (EExpr.core E (.array m t.values t.comma t.trailing) false).1 = a ++ c!"," ++ placed E false e ++ b) ∧
    ∀ m ns n am, ∃ a b,
      (EExpr.core E (.call m ns n am s.values s.comma s.expand s.trailing) false).1 = a ++ b ∧
      (EExpr.core E (.call m ns n am t.values t.comma t.expand t.trailing) false).1 =
        a ++ c!"," ++ placed E false e ++ b := by
  simp [ESeq.step] at h
  subst h
  obtain ⟨x, xs, hx⟩ := List.exists_cons_of_ne_nil hne
  have key : (EExpr.encList E [] (s.values ++ [e]) false).1 =
      (EExpr.encList E [] s.values false).1 ++ c!"," ++ placed E false e := by
    rw [hx]
    simp [EExpr.encList, W.seq, W.str, deco, core_flag, EditSeq.encList_rest]
  have hf := fun l => encList_flag (E := E) l (p := []) false
  refine ⟨fun m => ?_, fun m ns n am => ?_⟩
  · refine ⟨c!"[" ++ (EExpr.encList E [] s.values false).1, (if s.comma then c!"," else []) ++ (s.trailing.enc [] ++ c!"]"),
      ?_, ?_⟩
    · simp [EExpr.core, W.seq, W.str, hf, hx]
    · simp [EExpr.core, W.seq, W.str, hf, key]
  · refine ⟨(encNamespace ns false).1 ++ ((n.enc [] [] false).1 ++ (encDecor [] am.decor.pre ++ (c!"(" ++
        (EExpr.encList E [] s.values false).1))),
      (if s.expand then c!"..." else if s.comma then c!"," else []) ++ (s.trailing.enc [] ++ (c!")" ++
        encDecor [] am.decor.suf)), ?_, ?_⟩
    · simp [EExpr.core, W.seq, W.str, hf, hx, deco, DIdent.enc]
    · simp [EExpr.core, W.seq, W.str, hf, key, deco, DIdent.enc]

-- `[true,]` with `null` pushed
example (E : FmtEnv) : placed E false (.bool {} false) = c!" false" := rfl
example (E : FmtEnv) : ∃ t, (ESeq.step { values := [.bool {} true], comma := true } (.push (.null {}))) = some (t, none) ∧
    (EExpr.core E (.array {} t.values t.comma t.trailing) false).1 = c!"[true, null,]" := ⟨_, rfl, rfl⟩

example (E : FmtEnv) : ∃ s : ESeq, s.values = [.null ⟨⟨some .empty, none⟩, none⟩, .null ⟨⟨some (.explicit c!"  "), none⟩, none⟩] ∧
    (∀ e ∈ s.values, ∃ r, e.getMeta.decor.pre = some r ∧ r.span? = none) ∧
    (EExpr.core E (.array {} s.values s.comma s.trailing) false).1 = c!"[null,  null]" :=
  ⟨{ values := [.null ⟨⟨some .empty, none⟩, none⟩, .null ⟨⟨some (.explicit c!"  "), none⟩, none⟩] }, rfl,
    by simp [EExpr.getMeta, Raw.span?], rfl⟩

end Verif.Props
