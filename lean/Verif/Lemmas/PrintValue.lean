import Verif.Lemmas.Printable
import Verif.Lemmas.InPlace
import Verif.Model.Convert
import Verif.Props.Templated
/-! A formatted value has the text of a printable expression that converts to the value. -/

namespace Verif.Gram
open P Spec Syn Render

variable {E : FmtEnv} {bd : Build} {cfg : FmtCfg} {tm : Bool}

/-- The key that is read back. -/
def readKey (E : FmtEnv) (cfg : FmtCfg) (k : Str) : ObjKey :=
  if cfg.preferIdentKeys && isIdent E.U k then
    if k = c!"null" then .expr .null
    else if k = c!"true" then .expr (.bool true)
    else if k = c!"false" then .expr (.bool false)
    else .ident k
  else .expr (.string k)

mutual

/-- The expression that is read back. -/
def readBack (E : FmtEnv) (cfg : FmtCfg) : Value → Expr
  | .null => .null
  | .bool b => .bool b
  | .number n => .number n
  | .string s => .string s
  | .array vs => .array (readBacks E cfg vs)
  | .object es => .object (readEntries E cfg es)
termination_by structural x => x

def readBacks (E : FmtEnv) (cfg : FmtCfg) : List Value → List Expr
  | [] => []
  | v :: vs => readBack E cfg v :: readBacks E cfg vs
termination_by structural x => x

def readEntries (E : FmtEnv) (cfg : FmtCfg) : List (Str × Value) → List (ObjKey × Expr)
  | [] => []
  | (k, v) :: es => (readKey E cfg k, readBack E cfg v) :: readEntries E cfg es
termination_by structural x => x

end

theorem readKey_cases (k : Str) :
    (cfg.preferIdentKeys && isIdent E.U k) = false ∧ readKey E cfg k = .expr (.string k) ∨
    (cfg.preferIdentKeys && isIdent E.U k) = true ∧
      (k = c!"null" ∧ readKey E cfg k = .expr .null ∨ k = c!"true" ∧ readKey E cfg k = .expr (.bool true) ∨
        k = c!"false" ∧ readKey E cfg k = .expr (.bool false) ∨ k ∉ keywords ∧ readKey E cfg k = .ident k) := by
  unfold readKey
  cases h : (cfg.preferIdentKeys && isIdent E.U k) with
  | false => exact .inl ⟨rfl, rfl⟩
  | true =>
    refine .inr ⟨rfl, ?_⟩
    simp only [if_true]
    by_cases h1 : k = c!"null"
    · exact .inl ⟨h1, if_pos h1⟩
    by_cases h2 : k = c!"true"
    · subst h2; exact .inr (.inl ⟨rfl, rfl⟩)
    by_cases h3 : k = c!"false"
    · subst h3; exact .inr (.inr (.inl ⟨rfl, rfl⟩))
    refine .inr (.inr (.inr ⟨?_, ?_⟩))
    · simp [keywords, h1, h2, h3]
    · rw [if_neg h1, if_neg h2, if_neg h3]

theorem readKey_text (k : Str) (cm : Bool) (ind : Nat) :
    objKey E cfg cm ind (readKey E cfg k) = Render.strKey E cfg k := by
  unfold Render.strKey
  rcases readKey_cases (E := E) (cfg := cfg) k with ⟨h, h1⟩ | ⟨h, h1⟩
  · rw [h1, objKey, Render.strKey, h]
  · rw [h]
    rcases h1 with ⟨rfl, h1⟩ | ⟨rfl, h1⟩ | ⟨rfl, h1⟩ | ⟨-, h1⟩ <;> rw [h1] <;> rfl

theorem readKey_printable {k : Str} (hk : StringSafe k) : PrintableKey E bd cfg tm (readKey E cfg k) := by
  rcases readKey_cases (E := E) (cfg := cfg) k with ⟨h, h1⟩ | ⟨h, h1⟩
  · rw [h1]
    simp only [PrintableKey, Printable]
    refine ⟨hk, rfl, ?_⟩
    rintro hc s hs hi
    cases hs
    rw [hc, (Props.C01_isIdent_iff _ _).mpr hi] at h
    cases h
  · simp only [Bool.and_eq_true] at h
    have hi := (Props.C01_isIdent_iff _ _).mp h.2
    rcases h1 with ⟨rfl, h1⟩ | ⟨rfl, h1⟩ | ⟨rfl, h1⟩ | ⟨h2, h1⟩ <;> rw [h1] <;> simp only [PrintableKey, Printable]
    · exact ⟨trivial, rfl, nofun⟩
    · exact ⟨trivial, rfl, nofun⟩
    · exact ⟨trivial, rfl, nofun⟩
    · exact ⟨hi, h2⟩

theorem readKey_apart {k l : Str} (h : k ≠ l) : keyApart (readKey E cfg k) (readKey E cfg l) = true := by
  rcases readKey_cases (E := E) (cfg := cfg) k with ⟨-, h1⟩ | ⟨-, ⟨rfl, h1⟩ | ⟨rfl, h1⟩ | ⟨rfl, h1⟩ | ⟨-, h1⟩⟩ <;>
  rcases readKey_cases (E := E) (cfg := cfg) l with ⟨-, h2⟩ | ⟨-, ⟨rfl, h2⟩ | ⟨rfl, h2⟩ | ⟨rfl, h2⟩ | ⟨-, h2⟩⟩ <;>
  first | exact absurd rfl h | (rw [h1, h2]; first | rfl | exact decide_eq_true h)

theorem readKey_op (k : Str) : keyStartsOperator (readKey E cfg k) = false := by
  rcases readKey_cases (E := E) (cfg := cfg) k with ⟨-, h1⟩ | ⟨-, ⟨rfl, h1⟩ | ⟨rfl, h1⟩ | ⟨rfl, h1⟩ | ⟨-, h1⟩⟩ <;> rw [h1] <;> rfl

theorem readKey_for {k : Str} (h : cfg.preferIdentKeys = true → k ≠ c!"for") : keyStartsFor (readKey E cfg k) = false := by
  rcases readKey_cases (E := E) (cfg := cfg) k with ⟨-, h1⟩ | ⟨h0, ⟨rfl, h1⟩ | ⟨rfl, h1⟩ | ⟨rfl, h1⟩ | ⟨-, h1⟩⟩ <;> rw [h1] <;>
    try rfl
  simp only [Bool.and_eq_true] at h0
  exact decide_eq_false (h h0.1)

theorem readKey_string (k : Str) : keyString E (readKey E cfg k) = k := by
  rcases readKey_cases (E := E) (cfg := cfg) k with ⟨-, h1⟩ | ⟨h0, ⟨rfl, h1⟩ | ⟨rfl, h1⟩ | ⟨rfl, h1⟩ | ⟨-, h1⟩⟩ <;> rw [h1] <;>
    rfl

theorem not_templated {s : Str} (h : ¬ LooksTemplated s) : isTemplated s = false := by
  refine Bool.eq_false_iff.mpr fun ht => h ?_
  obtain ⟨b, hb, a, c, h1, h2, h3⟩ := (Props.C33_is_templated_partial s).mp ht
  cases b with
  | nil => exact absurd rfl hb
  | cons d b => exact ⟨a, c, d, b, h1, h2, h3⟩

theorem readEntries_keys : ∀ es : List (Str × Value),
    (readEntries E cfg es).map Prod.fst = (es.map Prod.fst).map (readKey E cfg)
  | [] => by simp [readEntries]
  | (k, v) :: es => by simp [readEntries, readEntries_keys es]

theorem readEntries_apart {es : List (Str × Value)} (h : (es.map Prod.fst).Nodup) :
    KeysApart ((readEntries E cfg es).map Prod.fst) := by
  rw [readEntries_keys]
  unfold KeysApart
  rw [List.pairwise_map]
  exact h.imp fun h => readKey_apart h

theorem readEntries_separate : ∀ es : List (Str × Value), ItemsSeparate (readEntries E cfg es)
  | [] => by simp [readEntries, ItemsSeparate]
  | [(k, v)] => by simp [readEntries, ItemsSeparate]
  | (k, v) :: (l, w) :: es => by
    have := readEntries_separate ((l, w) :: es)
    simp only [readEntries, ItemsSeparate] at this ⊢
    exact ⟨fun _ => readKey_op l, this⟩

theorem readBacks_for : ∀ vs : List Value, headStartsFor (readBacks E cfg vs) = false
  | [] => rfl
  | v :: _ => by
    simp only [readBacks, headStartsFor]
    cases v <;> simp only [readBack] <;> rfl

theorem readBacks_isEmpty : ∀ vs : List Value, (readBacks E cfg vs).isEmpty = vs.isEmpty
  | [] => rfl
  | _ :: _ => rfl

theorem readEntries_isEmpty : ∀ vs : List (Str × Value), (readEntries E cfg vs).isEmpty = vs.isEmpty
  | [] => rfl
  | _ :: _ => rfl

mutual

theorem readBack_text : ∀ v : Value, PrintableValue E bd cfg v → ∀ cm ind,
    Render.value E cfg cm ind v = Render.expr E cfg cm ind (readBack E cfg v)
  | .null, _, _, _ => rfl
  | .bool _, _, _, _ => rfl
  | .number _, _, _, _ => rfl
  | .string s, h, _, _ => by
    simp only [PrintableValue] at h
    simp only [Render.value, readBack, Render.expr, not_templated h.2]
    rfl
  | .array vs, h, cm, ind => by
    simp only [PrintableValue] at h
    simp only [Render.value, readBack, Render.expr, readBacks_text vs h, readBacks_isEmpty]
  | .object es, h, cm, ind => by
    simp only [PrintableValue] at h
    simp only [Render.value, readBack, Render.expr, readEntries_text es h.2.2, readEntries_isEmpty]

theorem readBacks_text : ∀ vs : List Value, PrintableValues E bd cfg vs → ∀ cm ind first,
    Render.valueElems E cfg cm ind first vs = Render.exprElems E cfg cm ind first (readBacks E cfg vs)
  | [], _, _, _, _ => rfl
  | v :: vs, h, cm, ind, first => by
    simp only [PrintableValues] at h
    simp only [Render.valueElems, readBacks, Render.exprElems, readBack_text v h.1, readBacks_text vs h.2]

theorem readEntries_text : ∀ es : List (Str × Value), PrintableEntries E bd cfg es → ∀ cm ind first,
    Render.valueEntries E cfg cm ind first es = Render.exprEntries E cfg cm ind first (readEntries E cfg es)
  | [], _, _, _, _ => rfl
  | (k, v) :: es, h, cm, ind, first => by
    simp only [PrintableEntries] at h
    simp only [Render.valueEntries, readEntries, Render.exprEntries, readBack_text v h.2.1, readEntries_text es h.2.2,
      readKey_text]

end

mutual

theorem readBack_printable : ∀ v : Value, PrintableValue E bd cfg v → Printable E bd cfg tm (readBack E cfg v)
  | .null, _ => trivial
  | .bool _, _ => trivial
  | .number _, h => h
  | .string s, h => h.1
  | .array vs, h => by
    simp only [PrintableValue] at h
    simp only [readBack, Printable]
    exact ⟨readBacks_printable vs h, readBacks_for vs⟩
  | .object es, h => by
    simp only [PrintableValue] at h
    simp only [readBack, Printable]
    refine ⟨readEntries_printable es h.2.2, ?_, readEntries_apart h.1, readEntries_separate es⟩
    cases es with
    | nil => rfl
    | cons e es =>
      obtain ⟨k, v⟩ := e
      simp only [readEntries, headKeyStartsFor]
      exact readKey_for h.2.1

theorem readBacks_printable : ∀ vs : List Value, PrintableValues E bd cfg vs → PrintableList E bd cfg tm (readBacks E cfg vs)
  | [], _ => by simp [readBacks, PrintableList]
  | v :: vs, h => by
    simp only [PrintableValues] at h
    simp only [readBacks, PrintableList]
    exact ⟨readBack_printable v h.1, readBacks_printable vs h.2⟩

theorem readEntries_printable : ∀ es : List (Str × Value), PrintableEntries E bd cfg es →
    PrintableItems E bd cfg tm (readEntries E cfg es)
  | [], _ => by simp [readEntries, PrintableItems]
  | (k, v) :: es, h => by
    simp only [PrintableEntries] at h
    simp only [readEntries, PrintableItems]
    exact ⟨readKey_printable h.1, readBack_printable v h.2.1, readEntries_printable es h.2.2⟩

end

mutual

theorem readBack_value : ∀ v : Value, PrintableValue E bd cfg v → toValue E (readBack E cfg v) = v
  | .null, _ => rfl
  | .bool _, _ => rfl
  | .number _, _ => rfl
  | .string s, _ => rfl
  | .array vs, h => by
    simp only [PrintableValue] at h
    simp only [readBack, toValue, readBacks_value vs h]
  | .object es, h => by
    simp only [PrintableValue] at h
    simp only [readBack, toValue, readEntries_value es h.2.2, Map.collect_nodup h.1]

theorem readBacks_value : ∀ vs : List Value, PrintableValues E bd cfg vs → toValues E (readBacks E cfg vs) = vs
  | [], _ => rfl
  | v :: vs, h => by
    simp only [PrintableValues] at h
    simp only [readBacks, toValues, readBack_value v h.1, readBacks_value vs h.2]

theorem readEntries_value : ∀ es : List (Str × Value), PrintableEntries E bd cfg es →
    toValueEntries E (readEntries E cfg es) = es
  | [], _ => rfl
  | (k, v) :: es, h => by
    simp only [PrintableEntries] at h
    simp only [readEntries, toValueEntries, readKey_string, readBack_value v h.2.1, readEntries_value es h.2.2]

end

end Verif.Gram
