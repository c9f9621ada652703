import Verif.Spec.Macro
import Verif.Props.Ident
/-! The macros build what their tokens say. -/

namespace Verif.Spec
open Macro

variable {R : Rust} {α κ : Type}

/-- The result from some recursion limit on. -/
def Ev {β : Type} (f : Nat → Option β) (b : β) : Prop := ∃ n, ∀ m ≥ n, f m = some b

theorem Ev.const {β : Type} {f : Nat → Option β} {b : β} (hg : ∀ m, f (m + 1) = some b) : Ev f b := by
  refine ⟨1, fun m hm => ?_⟩
  obtain ⟨m, rfl⟩ : ∃ k, m = k + 1 := ⟨m - 1, by omega⟩
  exact hg m

theorem Ev.step {β γ : Type} {f : Nat → Option β} {g : Nat → Option γ} {b : β} {c : γ} (h : Ev f b)
    (hg : ∀ m, f m = some b → g (m + 1) = some c) : Ev g c := by
  obtain ⟨n, h⟩ := h
  refine ⟨n + 1, fun m hm => ?_⟩
  obtain ⟨m, rfl⟩ : ∃ k, m = k + 1 := ⟨m - 1, by omega⟩
  exact hg m (h m (by omega))

theorem Ev.step2 {β γ δ : Type} {f : Nat → Option β} {g : Nat → Option γ} {k : Nat → Option δ} {b : β}
    {c : γ} {d : δ} (h : Ev f b) (h' : Ev g c)
    (hg : ∀ m, f m = some b → g m = some c → k (m + 1) = some d) : Ev k d := by
  obtain ⟨n, h⟩ := h
  obtain ⟨n', h'⟩ := h'
  refine ⟨n + n' + 1, fun m hm => ?_⟩
  obtain ⟨m, rfl⟩ : ∃ k, m = k + 1 := ⟨m - 1, by omega⟩
  exact hg m (h m (by omega)) (h' m (by omega))

/-- The right hand sides of a macro build what the constructors do. -/
structure FitsLang (R : Rust) (A : Alg R α κ) (L : Lang α κ) : Prop where
  null : A.null = L.null
  bool : A.bool = L.bool
  array : A.array = L.array
  object : A.object = L.object
  name : A.keyIdent = L.name
  str : ∀ s, A.other (R.ofLit false (.str s)) = some (L.string s)
  num : ∀ neg n, A.other (R.ofLit neg (.num n)) = some (L.number (litNum neg n))

theorem fits_expr (hR : Sane R) : FitsLang R (exprAlg R) exprLang :=
  ⟨rfl, rfl, rfl, rfl, rfl, hR.strExpr, hR.numExpr⟩

theorem fits_value (hR : Sane R) : FitsLang R (valueAlg R) valueLang :=
  ⟨rfl, rfl, rfl, rfl, rfl, hR.strValue, hR.numValue⟩

variable {A : Alg R α κ} {L : Lang α κ}

theorem WKey.runs {k : κ} {kt : List TT} (h : WKey R L A.keyEx k kt) (hF : FitsLang R A L) (rest : List TT) :
    objKey A (kt ++ rest) = some (k, rest) := by
  cases h with
  | ident x => simp [objKey, hF.name]
  | str h => simp [objKey, h]
  | num h =>
    rename_i neg n
    cases neg <;> simp [objKey, litToks, h]
  | paren h1 h2 => simp [objKey, h1, h2]

theorem WKey.ne_nil {k : κ} {kt : List TT} (h : WKey R L A.keyEx k kt) (rest : List TT) :
    ∃ t ts, kt ++ rest = t :: ts ∧ t ≠ .punct ',' := by
  cases h with
  | ident x => exact ⟨_, _, rfl, nofun⟩
  | str h => exact ⟨_, _, rfl, nofun⟩
  | num h =>
    rename_i neg n
    cases neg
    · exact ⟨_, _, rfl, nofun⟩
    · exact ⟨_, _, rfl, by simp⟩
  | paren h1 h2 => exact ⟨_, _, rfl, nofun⟩

/-- An element in front of a comma. -/
theorem elem_comma (hR : Sane R) (hF : FitsLang R A L) {x : α} {ts : List TT}
    (h : Writes R L A.other A.keyEx x ts) (he : Ev (expr A · ts) x) {acc r : List α} {rest : List TT}
    (hr : Ev (array A · (acc ++ [x]) true rest) r) :
    Ev (array A · acc true (ts ++ .punct ',' :: rest)) r := by
  have hc : Ev (array A · (acc ++ [x]) false (.punct ',' :: rest)) r :=
    hr.step fun m hm => by simp [array, hm]
  have hs : Stops (TT.punct ',' :: rest) := rfl
  cases h with
  | null => exact hc.step fun m hm => by simp [array, hF.null, hm]
  | true => exact hc.step fun m hm => by simp [array, hF.bool, hm]
  | false => exact hc.step fun m hm => by simp [array, hF.bool, hm]
  | str s => exact hr.step fun m hm => by simp [array, hR.str s _ hs, hF.str, hm]
  | num neg n =>
    have := hR.num neg n _ hs
    cases neg
    · exact hr.step fun m hm => by
        simp only [litToks, List.cons_append, List.nil_append] at this ⊢
        simp [array, this, hF.num, hm]
    · exact hr.step fun m hm => by
        simp only [litToks, List.cons_append, List.nil_append] at this ⊢
        simp [array, this, hF.num, hm]
  | paren h1 h2 => exact hr.step fun m hm => by simp [array, hR.paren _ _ _ h1 hs, h2, hm]
  | array _ => exact he.step2 hc fun m h1 h2 => by simp [array, h1, h2]
  | object _ => exact he.step2 hc fun m h1 h2 => by simp [array, h1, h2]

/-- The last element. -/
theorem elem_last (hR : Sane R) (hF : FitsLang R A L) {x : α} {ts : List TT}
    (h : Writes R L A.other A.keyEx x ts) (he : Ev (expr A · ts) x) {acc : List α} :
    Ev (array A · acc true ts) (acc ++ [x]) := by
  have hc : Ev (array A · (acc ++ [x]) false []) (acc ++ [x]) := .const fun m => by simp [array]
  have hs : Stops [] := trivial
  cases h with
  | null => exact hc.step fun m hm => by simp [array, hF.null, hm]
  | true => exact hc.step fun m hm => by simp [array, hF.bool, hm]
  | false => exact hc.step fun m hm => by simp [array, hF.bool, hm]
  | str s => exact .const fun m => by simp [array, hR.str s _ hs, hF.str]
  | num neg n =>
    have := hR.num neg n _ hs
    cases neg
    · exact .const fun m => by
        simp only [litToks, List.append_nil] at this ⊢
        simp [array, this, hF.num]
    · exact .const fun m => by
        simp only [litToks, List.append_nil] at this ⊢
        simp [array, this, hF.num]
  | paren h1 h2 => exact .const fun m => by simp [array, h1, h2]
  | array _ => exact he.step2 hc fun m h1 h2 => by simp [array, h1, h2]
  | object _ => exact he.step2 hc fun m h1 h2 => by simp [array, h1, h2]

/-- A value in front of a comma. -/
theorem value_comma (hR : Sane R) (hF : FitsLang R A L) {x : α} {ts : List TT}
    (h : Writes R L A.other A.keyEx x ts) (he : Ev (expr A · ts) x) (rest : List TT) :
    Ev (objValue A · (ts ++ .punct ',' :: rest)) (x, .punct ',' :: rest) := by
  have hs : Stops (TT.punct ',' :: rest) := rfl
  cases h with
  | null => exact .const fun m => by simp [objValue, hF.null]
  | true => exact .const fun m => by simp [objValue, hF.bool]
  | false => exact .const fun m => by simp [objValue, hF.bool]
  | str s => exact .const fun m => by simp [objValue, hR.str s _ hs, hF.str]
  | num neg n =>
    have := hR.num neg n _ hs
    cases neg
    · exact .const fun m => by
        simp only [litToks, List.cons_append, List.nil_append] at this ⊢
        simp [objValue, this, hF.num]
    · exact .const fun m => by
        simp only [litToks, List.cons_append, List.nil_append] at this ⊢
        simp [objValue, this, hF.num]
  | paren h1 h2 => exact .const fun m => by simp [objValue, hR.paren _ _ _ h1 hs, h2]
  | array _ => exact he.step fun m h1 => by simp [objValue, h1]
  | object _ => exact he.step fun m h1 => by simp [objValue, h1]

/-- A value without a comma behind it. -/
theorem value_bare (hR : Sane R) (hF : FitsLang R A L) {x : α} {t : TT}
    (h : Writes R L A.other A.keyEx x [t]) (he : Ev (expr A · [t]) x) (rest : List TT) (hs : Stops rest)
    (hn : ∀ us, rest ≠ .punct ',' :: us) : Ev (objValue A · (t :: rest)) (x, rest) := by
  generalize ht : [t] = ts at h
  cases h with
  | null => cases ht; exact .const fun m => by simp [objValue, hF.null]
  | true => cases ht; exact .const fun m => by simp [objValue, hF.bool]
  | false => cases ht; exact .const fun m => by simp [objValue, hF.bool]
  | str s =>
    cases ht
    refine he.step fun m h1 => ?_
    simp only [objValue, hR.str s _ hs]
    split
    · rename_i h; cases h; exact (hn _ rfl).elim
    · rename_i h; cases h
    · simp [h1]
  | num neg n =>
    cases neg
    · cases ht
      have := hR.num false n _ hs
      simp only [litToks, List.cons_append, List.nil_append] at this
      refine he.step fun m h1 => ?_
      simp only [objValue, this]
      split
      · rename_i h; cases h; exact (hn _ rfl).elim
      · rename_i h; cases h
      · simp [h1]
    · simp [litToks] at ht
  | paren h1 h2 =>
    cases ht
    refine he.step fun m h3 => ?_
    simp only [objValue, hR.paren _ _ _ h1 hs]
    split
    · rename_i h; cases h; exact (hn _ rfl).elim
    · rename_i h; cases h
    · simp [h3]
  | array _ => cases ht; exact he.step fun m h1 => by simp [objValue, h1]
  | object _ => cases ht; exact he.step fun m h1 => by simp [objValue, h1]

theorem WItems.head {es : List (κ × α)} {us : List TT} (h : WItems R L A.other A.keyEx es us) :
    ∀ vs, us ≠ .punct ',' :: vs := by
  intro vs hv
  cases h with
  | nil => cases hv
  | @comma k v es kt ts us h1 _ _ =>
    obtain ⟨t, ts', h2, h3⟩ := h1.ne_nil (.punct '=' :: ts ++ .punct ',' :: us)
    rw [List.append_assoc, h2] at hv
    cases hv
    exact h3 rfl
  | @bare k v es kt t us h1 _ _ _ =>
    obtain ⟨t', ts', h2, h3⟩ := h1.ne_nil (.punct '=' :: t :: us)
    rw [h2] at hv
    cases hv
    exact h3 rfl

/-- One object item. -/
theorem object_item {k : κ} {v : α} {kt vs rest : List TT} {acc r : List (κ × α)} (hF : FitsLang R A L)
    (hk : WKey R L A.keyEx k kt) (hv : Ev (objValue A · vs) (v, rest))
    (hr : Ev (object A · (acc ++ [(k, v)]) (optComma rest)) r) :
    Ev (object A · acc (kt ++ .punct '=' :: vs)) r := by
  refine hv.step2 hr fun m h1 h2 => ?_
  have hk' := hk.runs hF (.punct '=' :: vs)
  obtain ⟨t, ts, h3, -⟩ := hk.ne_nil (.punct '=' :: vs)
  rw [h3] at hk' ⊢
  simp [object, hk', h1, h2]

mutual

theorem Writes.runs (hR : Sane R) (hF : FitsLang R A L) : ∀ {x ts}, Writes R L A.other A.keyEx x ts →
    Ev (expr A · ts) x
  | _, _, .null => .const fun m => by simp [expr, hF.null]
  | _, _, .true => .const fun m => by simp [expr, hF.bool]
  | _, _, .false => .const fun m => by simp [expr, hF.bool]
  | _, _, .str s => .const fun m => by simp [expr, hR.str s [] trivial, hF.str]
  | _, _, .num neg n => .const fun m => by
    have := hR.num neg n [] trivial
    cases neg <;>
    · simp only [litToks, List.append_nil] at this ⊢
      simp [expr, this, hF.num]
  | _, _, .paren h1 h2 => .const fun m => by simp [expr, h1, h2]
  | _, _, .array h => (h.runs hR hF []).step fun m hm => by simp [expr, hm, hF.array]
  | _, _, .object h => (h.runs hR hF []).step fun m hm => by simp [expr, hm, hF.object]

theorem WElems.runs (hR : Sane R) (hF : FitsLang R A L) : ∀ {xs us}, WElems R L A.other A.keyEx xs us →
    ∀ acc, Ev (array A · acc true us) (acc ++ xs)
  | _, _, .nil, acc => .const fun m => by simp [array]
  | _, _, .last h, acc => elem_last hR hF h (h.runs hR hF)
  | _, _, .cons (x := x) h h', acc => elem_comma hR hF h (h.runs hR hF) (by
      have := h'.runs hR hF (acc ++ [x])
      rwa [List.append_assoc] at this)

theorem WItems.runs (hR : Sane R) (hF : FitsLang R A L) : ∀ {es us}, WItems R L A.other A.keyEx es us →
    ∀ acc, Ev (object A · acc us) (acc ++ es)
  | _, _, .nil, acc => .const fun m => by simp [object]
  | _, _, .comma (k := k) (v := v) h1 h2 h3, acc => by
    have := h3.runs hR hF (acc ++ [(k, v)])
    rw [List.append_assoc] at this
    rw [List.append_assoc]
    exact object_item hF h1 (value_comma hR hF h2 (h2.runs hR hF) _) this
  | _, _, .bare (k := k) (v := v) (us := us) h1 h2 h3 h4, acc => by
    have := h3.runs hR hF (acc ++ [(k, v)])
    rw [List.append_assoc] at this
    refine object_item hF h1 (value_bare hR hF h2 (h2.runs hR hF) _ h4 h3.head) ?_
    have e : optComma us = us := by
      unfold optComma
      split
      · exact (h3.head _ rfl).elim
      · rfl
    rw [e]
    exact this

end

theorem LabelToks.runs (hR : Sane R) {ls : List Label} {lt : List TT} (h : LabelToks ls lt)
    (acc : List Label) (us rest : List TT) :
    labels R acc (lt ++ .group .brace us :: rest) = some (acc ++ ls, us, rest) := by
  induction h generalizing acc with
  | nil => simp [labels]
  | ident _ ih => simp [labels, ih]
  | string _ ih => simp [labels, ih, hR.strStr]

theorem name_ident {x : Str} (h : IsIdentifier R.U x) : name R (.ident x) = some x := by
  simp only [name, Props.C02_sanitize_valid_id R.U x h]

theorem BodyToks.runs (hR : Sane R) {b : List Struct} {ts : List TT} (h : BodyToks R b ts) :
    (∀ acc, Ev (structures R · acc ts) (acc ++ b)) ∧ ∀ us, ts ≠ [.group .brace us] := by
  induction h with
  | nil => exact ⟨fun acc => .const fun m => by simp [structures], nofun⟩
  | @attr k e t b ts h1 h2 _ ih =>
    refine ⟨fun acc => ?_, by simp⟩
    have h3 := ih.1 (acc ++ [.attr k e])
    rw [List.append_assoc] at h3
    refine (Writes.runs hR (fits_expr hR) h2).step2 h3 fun m h4 h5 => ?_
    have ha : Macro.attr R m (.ident k) [t] = some (.attr k e) := by
      simp [Macro.attr, name_ident h1, expression, h4]
    simp [structures, ha, h5]
  | @block i ls lt b us b' ts h1 h2 _ _ ih ih' =>
    refine ⟨fun acc => ?_, by simp⟩
    have h3 := ih'.1 (acc ++ [.block i ls b])
    rw [List.append_assoc] at h3
    have h4 : Ev (body R · us) b := (ih.1 []).step fun m hm => by
      unfold body
      split
      · rename_i h; exact (ih.2 _ rfl).elim
      · simpa using hm
    refine h4.step2 h3 fun m h5 h6 => ?_
    have hl := h2.runs hR [] us ts
    have hne : ∀ t' v, (lt ++ .group .brace us :: ts) ≠ .punct '=' :: t' :: v := by
      cases h2 <;> simp
    simp only [List.cons_append]
    generalize hw : lt ++ TT.group .brace us :: ts = w at hl hne
    unfold structures
    split
    · rename_i h; cases h
    · rename_i h; cases h; exact (hne _ _ rfl).elim
    · rename_i h; cases h
      simp only [name_ident h1, hl, h5, List.nil_append, h6]
      simp

end Verif.Spec
