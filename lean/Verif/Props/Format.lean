import Verif.Lemmas.Format
import Verif.Spec.Layout
/-! C30 – C32: the formatter. -/

namespace Verif
open Spec

namespace Spec

theorem Blanks.nil : Blanks [] := fun _ h => by cases h
theorem Blanks.app {a b : Str} (ha : Blanks a) (hb : Blanks b) : Blanks (a ++ b) := fun c hc =>
  (List.mem_append.1 hc).elim (ha c) (hb c)
theorem Blanks.cons {c : Char} {a : Str} (hc : blank c = true) (ha : Blanks a) : Blanks (c :: a) :=
  fun d hd => (List.mem_cons.1 hd).elim (fun h => h ▸ hc) (ha d)

/-- Without the separator rule, erasing blanks gives the same text. -/
theorem SameTokens.erase {a b : Str} (h : SameTokens false a b) :
    a.filter (fun c => !blank c) = b.filter (fun c => !blank c) := by
  have hb : ∀ {l : Str}, Blanks l → l.filter (fun c => !blank c) = [] := by
    intro l hl
    rw [List.filter_eq_nil_iff]
    intro c hc; simp [hl c hc]
  induction h with
  | same s => rfl
  | app _ _ h1 h2 => rw [List.filter_append, List.filter_append, h1, h2]
  | opening _ h1 h2 => rw [List.filter_cons, List.filter_cons, hb h1, hb h2]
  | closing _ h1 h2 => rw [List.filter_append, List.filter_append, hb h1, hb h2]
  | comma h1 h2 => rw [List.filter_cons, List.filter_cons, hb h1, hb h2]
  | lines h1 h2 => rw [List.filter_cons, List.filter_cons, hb h1, hb h2]
  | item h => cases h
  | item' h => cases h

/-- In general, erasing blanks and commas gives the same text. -/
theorem SameTokens.erase_comma {sep : Bool} {a b : Str} (h : SameTokens sep a b) :
    a.filter (fun c => !(blank c || c == ',')) = b.filter (fun c => !(blank c || c == ',')) := by
  have hb : ∀ {l : Str}, Blanks l → l.filter (fun c => !(blank c || c == ',')) = [] := by
    intro l hl
    rw [List.filter_eq_nil_iff]
    intro c hc; simp [hl c hc]
  have e1 : (c!", ").filter (fun c => !(blank c || c == ',')) = [] := by decide
  have e2 : (!(blank '\n' || '\n' == ',')) = false := by decide
  induction h with
  | same s => rfl
  | app _ _ h1 h2 => rw [List.filter_append, List.filter_append, h1, h2]
  | opening _ h1 h2 => rw [List.filter_cons, List.filter_cons, hb h1, hb h2]
  | closing _ h1 h2 => rw [List.filter_append, List.filter_append, hb h1, hb h2]
  | comma h1 h2 => rw [List.filter_cons, List.filter_cons, hb h1, hb h2]
  | lines h1 h2 => rw [List.filter_cons, List.filter_cons, hb h1, hb h2]
  | item h h1 => rw [e1, List.filter_cons, e2, hb h1]; rfl
  | item' h h1 => rw [e1, List.filter_cons, e2, hb h1]; rfl

end Spec

namespace Render
open Spec

theorem pad_blank {cfg : FmtCfg} (h : Blanks cfg.indent) (n : Nat) : Blanks (pad cfg n) := by
  induction n with
  | zero => exact Blanks.nil
  | succ n ih => exact Blanks.app h ih

theorem newline_blank (cfg : FmtCfg) (a b : FmtState) : Blanks (newline cfg a b) := by
  unfold newline
  generalize (if a = .attributeEnd ∧ cfg.dense = false then decide (b = .blockStart)
    else if a = .blockEnd ∧ cfg.dense = false then
      decide (b = .blockStart ∨ b = .attributeStart)
    else decide (a = .blockBodyStart)) = x
  cases x
  · exact Blanks.nil
  · exact Blanks.cons rfl Blanks.nil

section
variable {c1 c2 : FmtCfg} {sep : Bool} (h1 : Blanks c1.indent) (h2 : Blanks c2.indent)
  (hk : c1.preferIdentKeys = c2.preferIdentKeys)
include h1 h2

theorem lines_false (ls : List Str) (n m : Nat) :
    SameTokens sep (lines c1 n false ls) (lines c2 m false ls) := by
  induction ls with
  | nil => exact .same _
  | cons l ls ih =>
    simp only [lines, Bool.false_eq_true, if_false, List.append_assoc]
    rw [← List.append_assoc, ← List.append_assoc c!"\n"]
    exact .app (.lines (pad_blank h1 n) (pad_blank h2 m)) (.app (.same _) ih)

theorem indented_same (d : Str) (n m : Nat) :
    SameTokens sep (c!"\n" ++ indented c1 n d) (c!"\n" ++ indented c2 m d) := by
  simp only [indented]
  rw [← List.append_assoc, ← List.append_assoc]
  refine .app ?_ (.same _)
  cases strLines [] d with
  | nil => exact .same _
  | cons l ls =>
    have h := lines_false (sep := sep) h1 h2 (l :: ls) n m
    simpa only [lines, Bool.false_eq_true, if_false, if_true, List.append_assoc, List.nil_append]
      using h

theorem tmpl_same (t : TmplExpr) (n m : Nat) : SameTokens sep (tmplExpr c1 n t) (tmplExpr c2 m t) := by
  cases t with
  | quoted s => exact .same _
  | heredoc d t st =>
    cases st with
    | none => exact .same _
    | indent =>
      simp only [tmplExpr]
      by_cases ht : t.getLast? = some '\n'
      · obtain ⟨t0, rfl⟩ : ∃ t0, t = t0 ++ ['\n'] := by
          rcases List.eq_nil_or_concat t with rfl | ⟨t0, c, rfl⟩
          · cases ht
          · rw [List.concat_eq_append] at ht ⊢
            rw [List.getLast?_concat] at ht
            injection ht with ht; subst ht; exact ⟨t0, rfl⟩
        rw [if_pos ht]
        have := SameTokens.app (.same (Fmt.heredocMark .indent ++ d ++ c!"\n" ++ t0))
          (indented_same (sep := sep) h1 h2 d n m)
        simpa only [List.append_assoc, List.nil_append] using this
      · rw [if_neg ht]
        have := SameTokens.app (.same (Fmt.heredocMark .indent ++ d ++ c!"\n" ++ t))
          (indented_same (sep := sep) h1 h2 d n m)
        simpa only [List.append_assoc] using this

theorem arraySep_first (b1 b2 : Bool) (n m : Nat) :
    SameTokens sep (c!"[" ++ arraySep c1 b1 n true) (c!"[" ++ arraySep c2 b2 m true) := by
  refine .opening (.inl rfl) ?_ ?_
  · cases b1
    · exact Blanks.cons rfl (pad_blank h1 n)
    · exact Blanks.nil
  · cases b2
    · exact Blanks.cons rfl (pad_blank h2 m)
    · exact Blanks.nil

theorem arraySep_next (b1 b2 : Bool) (n m : Nat) :
    SameTokens sep (arraySep c1 b1 n false) (arraySep c2 b2 m false) := by
  have e : ∀ (c : FmtCfg) (b : Bool) (n : Nat), Blanks c.indent →
      ∃ l, arraySep c b n false = ',' :: l ∧ Blanks l := by
    intro c b n h
    cases b
    · exact ⟨_, rfl, Blanks.cons rfl (pad_blank h n)⟩
    · exact ⟨_, rfl, Blanks.cons rfl Blanks.nil⟩
  obtain ⟨l, e1, hl⟩ := e c1 b1 n h1
  obtain ⟨l', e2, hl'⟩ := e c2 b2 m h2
  rw [e1, e2]; exact .comma hl hl'

theorem arrayEnd_same (b1 b2 e : Bool) (n m : Nat) :
    SameTokens sep (arrayEnd c1 b1 n e) (arrayEnd c2 b2 m e) := by
  have e' : ∀ (c : FmtCfg) (b : Bool) (n : Nat), Blanks c.indent →
      Blanks (if b || e then [] else c!"\n" ++ pad c n) := by
    intro c b n h
    cases (b || e)
    · exact Blanks.cons rfl (pad_blank h n)
    · exact Blanks.nil
  exact .closing (.inl rfl) (e' c1 b1 n h1) (e' c2 b2 m h2)

theorem objectSep_first (b1 b2 : Bool) (n m : Nat) :
    SameTokens sep (c!"{" ++ objectSep c1 b1 n true) (c!"{" ++ objectSep c2 b2 m true) := by
  refine .opening (.inr rfl) ?_ ?_
  · cases b1
    · exact Blanks.cons rfl (pad_blank h1 n)
    · exact Blanks.cons rfl Blanks.nil
  · cases b2
    · exact Blanks.cons rfl (pad_blank h2 m)
    · exact Blanks.cons rfl Blanks.nil

theorem objectSep_next (b1 b2 : Bool) (hs : b1 ≠ b2 → sep = true) (n m : Nat) :
    SameTokens sep (objectSep c1 b1 n false) (objectSep c2 b2 m false) := by
  cases b1 <;> cases b2
  · exact .lines (pad_blank h1 n) (pad_blank h2 m)
  · exact .item' (hs (by decide)) (pad_blank h1 n)
  · exact .item (hs (by decide)) (pad_blank h2 m)
  · exact .same _

theorem objectEnd_same (b1 b2 e : Bool) (n m : Nat) :
    SameTokens sep (objectEnd c1 b1 n e) (objectEnd c2 b2 m e) := by
  have e' : ∀ (c : FmtCfg) (b : Bool) (n : Nat), Blanks c.indent →
      Blanks (if e then [] else if b then c!" " else c!"\n" ++ pad c n) := by
    intro c b n h
    cases e <;> cases b
    · exact Blanks.cons rfl (pad_blank h n)
    · exact Blanks.cons rfl Blanks.nil
    · exact Blanks.nil
    · exact Blanks.nil
  exact .closing (.inr rfl) (e' c1 b1 n h1) (e' c2 b2 m h2)

theorem strKey_same (E : FmtEnv) (hk : c1.preferIdentKeys = c2.preferIdentKeys) (s : Str) :
    SameTokens sep (strKey E c1 s) (strKey E c2 s) := by
  have : strKey E c1 s = strKey E c2 s := by simp only [strKey, hk]
  rw [this]; exact .same _

include hk
variable (hs : c1.compactObjects ≠ c2.compactObjects → sep = true)
include hs

mutual
theorem expr_same (E : FmtEnv) (cm : Bool) : ∀ (n m : Nat) (e : Expr),
    SameTokens sep (expr E c1 cm n e) (expr E c2 cm m e)
  | n, m, .null => by simp only [expr]; exact .same _
  | n, m, .bool b => by simp only [expr]; exact .same _
  | n, m, .number x => by simp only [expr]; exact .same _
  | n, m, .string s => by simp only [expr]; exact .same _
  | n, m, .array [] => by
    simp only [expr, exprElems]
    exact .app (.same _) (arrayEnd_same h1 h2 _ _ _ _ _)
  | n, m, .array (x :: xs) => by
    simp only [expr, exprElems]
    refine .app ?_ (arrayEnd_same h1 h2 _ _ _ _ _)
    rw [← List.append_assoc, ← List.append_assoc, ← List.append_assoc, ← List.append_assoc]
    exact .app (.app (arraySep_first h1 h2 _ _ _ _) (expr_same E cm _ _ x)) (elems_same E cm _ _ xs)
  | n, m, .object [] => by
    simp only [expr, exprEntries]
    exact .app (.same _) (objectEnd_same h1 h2 _ _ _ _ _)
  | n, m, .object ((k, v) :: es) => by
    simp only [expr, exprEntries]
    refine .app ?_ (objectEnd_same h1 h2 _ _ _ _ _)
    simp only [← List.append_assoc]
    exact .app (.app (.app (.app (objectSep_first h1 h2 _ _ _ _) (objKey_same E cm _ _ k)) (.same _))
      (expr_same E cm _ _ v)) (entries_same E cm _ _ es)
  | n, m, .template t => by simp only [expr]; exact tmpl_same h1 h2 t n m
  | n, m, .var x => by simp only [expr]; exact .same _
  | n, m, .traversal e ops => by
    simp only [expr]; exact .app (expr_same E cm n m e) (ops_same E cm n m ops)
  | n, m, .call f args x => by
    simp only [expr]; exact .app (.app (.same _) (args_same E n m true args)) (.same _)
  | n, m, .paren e => by simp only [expr]; exact .app (.app (.same _) (expr_same E cm n m e)) (.same _)
  | n, m, .cond c t f => by
    simp only [expr]
    exact .app (.app (.app (.app (expr_same E true n m c) (.same _)) (expr_same E true n m t)) (.same _))
      (expr_same E true n m f)
  | n, m, .unary op e => by simp only [expr]; exact .app (.same _) (expr_same E cm n m e)
  | n, m, .binary l op r => by
    simp only [expr]
    exact .app (.app (.app (.app (expr_same E cm n m l) (.same _)) (.same _)) (.same _))
      (expr_same E cm n m r)
  | n, m, .forE k v coll ke ve g ce => by
    rw [expr.eq_def, expr.eq_def E c2]
    dsimp only
    refine .app (.app (.app (.app (.app (.app (.app (.same _) (expr_same E cm n m coll)) (.same _))
      (optKe_same E cm n m ke)) (expr_same E cm n m ve)) (.same _)) (optCe_same E cm n m ce)) (.same _)
theorem optKe_same (E : FmtEnv) (cm : Bool) : ∀ (n m : Nat) (ke : Option Expr),
    SameTokens sep (match ke with | some ke => expr E c1 cm n ke ++ c!" => " | none => [])
      (match ke with | some ke => expr E c2 cm m ke ++ c!" => " | none => [])
  | n, m, some ke => .app (expr_same E cm n m ke) (.same _)
  | n, m, none => .same _
theorem optCe_same (E : FmtEnv) (cm : Bool) : ∀ (n m : Nat) (ke : Option Expr),
    SameTokens sep (match ke with | some ke => c!" if " ++ expr E c1 cm n ke | none => [])
      (match ke with | some ke => c!" if " ++ expr E c2 cm m ke | none => [])
  | n, m, some ke => .app (.same _) (expr_same E cm n m ke)
  | n, m, none => .same _
theorem elems_same (E : FmtEnv) (cm : Bool) : ∀ (n m : Nat) (es : List Expr),
    SameTokens sep (exprElems E c1 cm n false es) (exprElems E c2 cm m false es)
  | n, m, [] => by simp only [exprElems]; exact .same _
  | n, m, e :: es => by
    simp only [exprElems]
    exact .app (.app (arraySep_next h1 h2 _ _ _ _) (expr_same E cm n m e)) (elems_same E cm n m es)
theorem entries_same (E : FmtEnv) (cm : Bool) : ∀ (n m : Nat) (es : List (ObjKey × Expr)),
    SameTokens sep (exprEntries E c1 cm n false es) (exprEntries E c2 cm m false es)
  | n, m, [] => by simp only [exprEntries]; exact .same _
  | n, m, (k, v) :: es => by
    simp only [exprEntries]
    refine .app (.app (.app (.app (objectSep_next h1 h2 _ _ ?_ _ _) (objKey_same E cm n m k)) (.same _))
      (expr_same E cm n m v)) (entries_same E cm n m es)
    intro h; apply hs; intro h'; rw [h'] at h; exact h rfl
theorem objKey_same (E : FmtEnv) (cm : Bool) : ∀ (n m : Nat) (k : ObjKey),
    SameTokens sep (objKey E c1 cm n k) (objKey E c2 cm m k)
  | n, m, .ident x => by simp only [objKey]; exact .same _
  | n, m, .expr e => by
    have := expr_same E cm n m e
    cases e <;> first | (rw [objKey, objKey]; exact strKey_same h1 h2 E hk _) | (simpa only [objKey] using this)
theorem args_same (E : FmtEnv) : ∀ (n m : Nat) (first : Bool) (es : List Expr),
    SameTokens sep (callArgs E c1 n first es) (callArgs E c2 m first es)
  | n, m, _, [] => by simp only [callArgs]; exact .same _
  | n, m, first, e :: es => by
    simp only [callArgs]
    exact .app (.app (.same _) (expr_same E true n m e)) (args_same E n m false es)
theorem ops_same (E : FmtEnv) (cm : Bool) : ∀ (n m : Nat) (ops : List TravOp),
    SameTokens sep (travOps E c1 cm n ops) (travOps E c2 cm m ops)
  | n, m, [] => by simp only [travOps]; exact .same _
  | n, m, op :: ops => by
    simp only [travOps]; exact .app (op_same E cm n m op) (ops_same E cm n m ops)
theorem op_same (E : FmtEnv) (cm : Bool) : ∀ (n m : Nat) (op : TravOp),
    SameTokens sep (travOp E c1 cm n op) (travOp E c2 cm m op)
  | n, m, .attrSplat => by simp only [travOp]; exact .same _
  | n, m, .fullSplat => by simp only [travOp]; exact .same _
  | n, m, .getAttr x => by simp only [travOp]; exact .same _
  | n, m, .legacyIndex i => by simp only [travOp]; exact .same _
  | n, m, .index e => by
    simp only [travOp]; exact .app (.app (.same _) (expr_same E cm n m e)) (.same _)
end

mutual
theorem value_same (E : FmtEnv) (cm : Bool) : ∀ (n m : Nat) (v : Value),
    SameTokens sep (value E c1 cm n v) (value E c2 cm m v)
  | n, m, .null => by simp only [value]; exact .same _
  | n, m, .bool b => by simp only [value]; exact .same _
  | n, m, .number x => by simp only [value]; exact .same _
  | n, m, .string s => by simp only [value]; exact .same _
  | n, m, .array [] => by
    simp only [value, valueElems]
    exact .app (.same _) (arrayEnd_same h1 h2 _ _ _ _ _)
  | n, m, .array (x :: xs) => by
    simp only [value, valueElems]
    refine .app ?_ (arrayEnd_same h1 h2 _ _ _ _ _)
    rw [← List.append_assoc, ← List.append_assoc, ← List.append_assoc, ← List.append_assoc]
    exact .app (.app (arraySep_first h1 h2 _ _ _ _) (value_same E cm _ _ x)) (velems_same E cm _ _ xs)
  | n, m, .object [] => by
    simp only [value, valueEntries]
    exact .app (.same _) (objectEnd_same h1 h2 _ _ _ _ _)
  | n, m, .object ((k, v) :: es) => by
    simp only [value, valueEntries]
    refine .app ?_ (objectEnd_same h1 h2 _ _ _ _ _)
    simp only [← List.append_assoc]
    exact .app (.app (.app (.app (objectSep_first h1 h2 _ _ _ _) (strKey_same h1 h2 E hk k)) (.same _))
      (value_same E cm _ _ v)) (ventries_same E cm _ _ es)
theorem velems_same (E : FmtEnv) (cm : Bool) : ∀ (n m : Nat) (es : List Value),
    SameTokens sep (valueElems E c1 cm n false es) (valueElems E c2 cm m false es)
  | n, m, [] => by simp only [valueElems]; exact .same _
  | n, m, e :: es => by
    simp only [valueElems]
    exact .app (.app (arraySep_next h1 h2 _ _ _ _) (value_same E cm n m e)) (velems_same E cm n m es)
theorem ventries_same (E : FmtEnv) (cm : Bool) : ∀ (n m : Nat) (es : List (Str × Value)),
    SameTokens sep (valueEntries E c1 cm n false es) (valueEntries E c2 cm m false es)
  | n, m, [] => by simp only [valueEntries]; exact .same _
  | n, m, (k, v) :: es => by
    simp only [valueEntries]
    refine .app (.app (.app (.app (objectSep_next h1 h2 _ _ ?_ _ _) (strKey_same h1 h2 E hk k)) (.same _))
      (value_same E cm n m v)) (ventries_same E cm n m es)
    intro h; apply hs; intro h'; rw [h'] at h; exact h rfl
end

end

/-- A structure without the line break and indentation around it. -/
def core (E : FmtEnv) (cfg : FmtCfg) (cm : Bool) (ind : Nat) : Struct → Str
  | .attr k e => k ++ c!" = " ++ expr E cfg cm ind e
  | .block i ls b =>
    i ++ labels ls ++ c!" " ++ (c!"{" ++ body E cfg cm (ind + 1) .blockBodyStart b ++ pad cfg ind ++ c!"}")

def startOf : Struct → FmtState
  | .attr .. => .attributeStart
  | .block .. => .blockStart

theorem struct_core (E : FmtEnv) (cfg : FmtCfg) (cm : Bool) (ind : Nat) (st : FmtState) (s : Struct) :
    struct E cfg cm ind st s = newline cfg st (startOf s) ++ pad cfg ind ++ core E cfg cm ind s ++ c!"\n" := by
  cases s <;> simp [struct, core, startOf]

section
variable {c1 c2 : FmtCfg} {sep : Bool} (h1 : Blanks c1.indent) (h2 : Blanks c2.indent)
  (hk : c1.preferIdentKeys = c2.preferIdentKeys)
  (hs : c1.compactObjects ≠ c2.compactObjects → sep = true)
include h1 h2 hk hs

mutual
/-- After a line break. -/
theorem body_same (E : FmtEnv) (cm : Bool) : ∀ (n m : Nat) (st : FmtState) (b : List Struct),
    SameTokens sep (c!"\n" ++ body E c1 cm n st b) (c!"\n" ++ body E c2 cm m st b)
  | n, m, st, [] => .same _
  | n, m, st, s :: ss => by
    have e : ∀ (c : FmtCfg) (n : Nat), c!"\n" ++ body E c cm n st (s :: ss) =
        ('\n' :: (newline c st (startOf s) ++ pad c n)) ++ core E c cm n s ++
          (c!"\n" ++ body E c cm n (stateAfter s) ss) := by
      intro c n; rw [body, struct_core]; simp
    rw [e, e]
    exact .app (.app (.lines (Blanks.app (newline_blank _ _ _) (pad_blank h1 n))
      (Blanks.app (newline_blank _ _ _) (pad_blank h2 m))) (core_same E cm n m s))
      (body_same E cm n m _ ss)
theorem core_same (E : FmtEnv) (cm : Bool) : ∀ (n m : Nat) (s : Struct),
    SameTokens sep (core E c1 cm n s) (core E c2 cm m s)
  | n, m, .attr k e => by
    simp only [core]; exact .app (.same _) (expr_same h1 h2 hk hs E cm n m e)
  | n, m, .block i ls [] => by
    simp only [core, body, List.append_nil]
    refine .app (.same _) (.app ?_ (.same _))
    exact .opening (.inr rfl) (pad_blank h1 n) (pad_blank h2 m)
  | n, m, .block i ls (s :: ss) => by
    simp only [core]
    refine .app (.same _) ?_
    have e : ∀ (c : FmtCfg) (n : Nat),
        c!"{" ++ body E c cm (n + 1) .blockBodyStart (s :: ss) ++ pad c n ++ c!"}" =
        ('{' :: ('\n' :: pad c (n + 1))) ++ core E c cm (n + 1) s ++
          (c!"\n" ++ body E c cm (n + 1) (stateAfter s) ss) ++ (pad c n ++ ['}']) := by
      intro c n; rw [body, struct_core]
      have : newline c .blockBodyStart (startOf s) = c!"\n" := by cases s <;> rfl
      rw [this]; simp
    rw [e, e]
    exact .app (.app (.app (.opening (.inr rfl) (Blanks.cons rfl (pad_blank h1 _))
      (Blanks.cons rfl (pad_blank h2 _))) (core_same E cm _ _ s)) (body_same E cm _ _ _ ss))
      (.closing (.inr rfl) (pad_blank h1 n) (pad_blank h2 m))
end

theorem body_same_top (E : FmtEnv) (cm : Bool) (b : List Struct) :
    SameTokens sep (body E c1 cm 0 .initial b) (body E c2 cm 0 .initial b) := by
  cases b with
  | nil => exact .same _
  | cons s ss =>
    have e : ∀ (c : FmtCfg), body E c cm 0 .initial (s :: ss) =
        core E c cm 0 s ++ (c!"\n" ++ body E c cm 0 (stateAfter s) ss) := by
      intro c; rw [body, struct_core]
      have : newline c .initial (startOf s) = [] := by cases s <;> rfl
      rw [this]; simp [pad]
    rw [e, e]
    exact .app (core_same h1 h2 hk hs E cm 0 0 s) (body_same h1 h2 hk hs E cm 0 0 _ ss)

mutual
theorem template_same (E : FmtEnv) (cm : Bool) (n m : Nat) : ∀ (t : List Elem),
    SameTokens sep (template E c1 cm n t) (template E c2 cm m t)
  | [] => by simp only [template]; exact .same _
  | e :: es => by
    simp only [template]; exact .app (elem_same E cm n m e) (template_same E cm n m es)
theorem elem_same (E : FmtEnv) (cm : Bool) (n m : Nat) : ∀ (e : Elem),
    SameTokens sep (elem E c1 cm n e) (elem E c2 cm m e)
  | .lit s => by simp only [elem]; exact .same _
  | .interp e s => by
    simp only [elem, interpolation, strip]
    exact .app (.app (.same _) (.app (.app (.same _) (expr_same h1 h2 hk hs E cm n m e)) (.same _)))
      (.same _)
  | .ifDir c t fl a b z => by
    have hd : ∀ (s : Strip) {t t' : Str}, SameTokens sep t t' →
        SameTokens sep (directive s t) (directive s t') := by
      intro s t t' h
      simp only [directive, strip]
      exact .app (.app (.same _) (.app (.app (.same _) (.app (.app (.same _) h) (.same _))) (.same _)))
        (.same _)
    rw [elem.eq_def, elem.eq_def]
    refine .app (.app (.app (hd a (.app (.same _) (expr_same h1 h2 hk hs E cm n m c)))
      (template_same E cm n m t)) ?_) (.same _)
    cases fl with
    | none => exact .same _
    | some fl => exact .app (.same _) (template_same E cm n m fl)
  | .forDir k v coll t a z => by
    have hd : ∀ (s : Strip) {t t' : Str}, SameTokens sep t t' →
        SameTokens sep (directive s t) (directive s t') := by
      intro s t t' h
      simp only [directive, strip]
      exact .app (.app (.same _) (.app (.app (.same _) (.app (.app (.same _) h) (.same _))) (.same _)))
        (.same _)
    simp only [elem]
    exact .app (.app (hd a (.app (.same _) (expr_same h1 h2 hk hs E cm n m coll)))
      (template_same E cm n m t)) (.same _)
end
end
end Render

namespace Props
open Spec

/-- What `hcl::format` writes for a body with a fresh formatter. -/
def formatBody (E : FmtEnv) (cfg : FmtCfg) (b : List Struct) : Str := (Fmt.body E b (Fmt.new cfg)).out
/-- The same for an expression. -/
def formatExpr (E : FmtEnv) (cfg : FmtCfg) (e : Expr) : Str := (Fmt.expr E e (Fmt.new cfg)).out
/-- The same for a value. -/
def formatValue (E : FmtEnv) (cfg : FmtCfg) (v : Value) : Str := (Fmt.value E v (Fmt.new cfg)).out
/-- The same for a template. -/
def formatTemplate (E : FmtEnv) (cfg : FmtCfg) (t : List Elem) : Str :=
  (Fmt.template E t (Fmt.new cfg)).out

section
variable (E : FmtEnv) (c1 c2 : FmtCfg) (h1 : Blanks c1.indent) (h2 : Blanks c2.indent)
  (hk : c1.preferIdentKeys = c2.preferIdentKeys)
include h1 h2 hk

/-- C30 (partial: the comma between the items of a compact object is not there in the other layout; the
indent is assumed to be blank and `prefer_ident_keys`, which is not a layout option, to be the same):
the options change the layout only. -/
theorem C30_body_partial (b : List Struct) :
    SameTokens (c1.compactObjects != c2.compactObjects) (formatBody E c1 b) (formatBody E c2 b) := by
  simp only [formatBody, Fmt.body_eq]
  exact Render.body_same_top h1 h2 hk (fun h => by simpa using h) E false b

/-- C30 for expressions, see `C30_body_partial`. -/
theorem C30_expr_partial (e : Expr) :
    SameTokens (c1.compactObjects != c2.compactObjects) (formatExpr E c1 e) (formatExpr E c2 e) := by
  simp only [formatExpr, Fmt.expr_eq]
  exact Render.expr_same h1 h2 hk (fun h => by simpa using h) E false 0 0 e

/-- C30 for values, see `C30_body_partial`. -/
theorem C30_value_partial (v : Value) :
    SameTokens (c1.compactObjects != c2.compactObjects) (formatValue E c1 v) (formatValue E c2 v) := by
  simp only [formatValue, Fmt.value_eq]
  exact Render.value_same h1 h2 hk (fun h => by simpa using h) E false 0 0 v

/-- C30 for templates, see `C30_body_partial`. -/
theorem C30_template_partial (t : List Elem) :
    SameTokens (c1.compactObjects != c2.compactObjects) (formatTemplate E c1 t)
      (formatTemplate E c2 t) := by
  simp only [formatTemplate, Fmt.template_eq]
  exact Render.template_same h1 h2 hk (fun h => by simpa using h) E false 0 0 t

/-- C30 in terms of the text: erasing blanks gives the same text if both or none of the configurations
have compact objects, and in any case erasing blanks and commas does. -/
theorem C30_erased_partial (b : List Struct) :
    (c1.compactObjects = c2.compactObjects →
      (formatBody E c1 b).filter (fun c => !blank c) = (formatBody E c2 b).filter (fun c => !blank c)) ∧
    (formatBody E c1 b).filter (fun c => !(blank c || c == ',')) =
      (formatBody E c2 b).filter (fun c => !(blank c || c == ',')) := by
  have h := C30_body_partial E c1 c2 h1 h2 hk b
  refine ⟨fun hc => ?_, h.erase_comma⟩
  rw [hc, bne_self_eq_false] at h
  exact h.erase

end

/-- An environment for the examples. -/
def exampleFmtEnv : FmtEnv := ⟨Uni.ascii, fun _ => c!"1.5"⟩

/-- A block with an attribute that holds a nested collection. -/
def exampleFmtBody : List Struct :=
  [.attr c!"x" (.array [.bool true, .object [(.ident c!"a", .null), (.ident c!"b", .string c!"s")]]),
   .block c!"b" [.string c!"l"] [.attr c!"y" (.call ⟨[], c!"f"⟩ [.array [.null, .null]] false)],
   .block c!"c" [] []]

example : formatBody exampleFmtEnv FmtCfg.default exampleFmtBody = c!"x = [
  true,
  {
    a = null
    b = \"s\"
  }
]

b \"l\" {
  y = f([null, null])
}

c {}
" := by decide +kernel

example : formatBody exampleFmtEnv ⟨c!"\t", true, true, true, false⟩ exampleFmtBody =
    c!"x = [true, { a = null, b = \"s\" }]
b \"l\" {
\ty = f([null, null])
}
c {}
" := by decide +kernel

example : Blanks FmtCfg.default.indent ∧ Blanks (FmtCfg.indent ⟨c!"\t", true, true, true, false⟩) := by
  constructor <;> (intro c hc; revert hc; simp [FmtCfg.default]; rintro rfl; rfl)

/-- **C30 is false of the code** read literally: compact objects have a comma token that is absent otherwise. -/
theorem C30_false :
    let e : Expr := .object [(.ident c!"a", .null), (.ident c!"b", .null)]
    (formatExpr exampleFmtEnv FmtCfg.default e).filter (fun c => !blank c) ≠
      (formatExpr exampleFmtEnv { FmtCfg.default with compactObjects := true } e).filter
        (fun c => !blank c) := by
  decide +kernel

/-! ### C31 -/

/-- Everything in the formatter except the text and the kind of the last structure is as before, the text
was only extended, and no counter went below zero. -/
structure Balanced (f f' : Fmt) : Prop where
  indent : f'.currentIndent = f.currentIndent
  nesting : f'.nesting = f.nesting
  compact : f'.compactLevel = f.compactLevel
  first : f'.firstElement = f.firstElement
  has : f'.hasValue = f.hasValue
  config : f'.cfg = f.cfg
  panicked : f'.panicked = f.panicked
  text : ∃ t, f'.out = f.out ++ t

/-- C31: formatting an expression, in any state of the formatter, leaves it balanced. -/
theorem C31_expr (E : FmtEnv) (e : Expr) (f : Fmt) :
    Balanced f (Fmt.expr E e f) ∧ (Fmt.expr E e f).state = f.state := by
  rw [Fmt.expr_eq]; exact ⟨⟨rfl, rfl, rfl, rfl, rfl, rfl, rfl, _, rfl⟩, rfl⟩

/-- C31 for values. -/
theorem C31_value (E : FmtEnv) (v : Value) (f : Fmt) :
    Balanced f (Fmt.value E v f) ∧ (Fmt.value E v f).state = f.state := by
  rw [Fmt.value_eq]; exact ⟨⟨rfl, rfl, rfl, rfl, rfl, rfl, rfl, _, rfl⟩, rfl⟩

/-- C31 for templates. -/
theorem C31_template (E : FmtEnv) (t : List Elem) (f : Fmt) :
    Balanced f (Fmt.template E t f) ∧ (Fmt.template E t f).state = f.state := by
  rw [Fmt.template_eq]; exact ⟨⟨rfl, rfl, rfl, rfl, rfl, rfl, rfl, _, rfl⟩, rfl⟩

/-- C31 for bodies (and so for attributes and blocks, which are bodies of one structure). -/
theorem C31_body (E : FmtEnv) (b : List Struct) (f : Fmt) : Balanced f (Fmt.body E b f) := by
  rw [Fmt.body_eq]; exact ⟨rfl, rfl, rfl, rfl, rfl, rfl, rfl, _, rfl⟩

/-- C31: the text written for an expression depends on the configuration, the indentation and whether
compact mode is on, and on nothing else in the formatter. -/
theorem C31_text (E : FmtEnv) (e : Expr) (f g : Fmt) (hc : f.cfg = g.cfg)
    (hi : f.currentIndent = g.currentIndent) (hm : f.compactLevel = 0 ↔ g.compactLevel = 0) :
    ∃ t, (Fmt.expr E e f).out = f.out ++ t ∧ (Fmt.expr E e g).out = g.out ++ t := by
  have hm' : f.inCompactMode = g.inCompactMode := by
    simp only [Fmt.inCompactMode, decide_eq_decide]; omega
  rw [Fmt.expr_eq, Fmt.expr_eq, hc, hi, hm']
  exact ⟨_, rfl, rfl⟩

/-- A formatter in the middle of an array in compact mode. -/
example : let f : Fmt := { Fmt.new FmtCfg.default with
      currentIndent := 3, compactLevel := 1, nesting := [(true, false)], hasValue := true }
    (Fmt.expr exampleFmtEnv (.array [.object [(.ident c!"a", .null)]]) f).out = c!"[{ a = null }]" := by
  decide +kernel

/-! ### C32 -/

/-- Something that was formatted. -/
inductive Formatted
  | body (b : List Struct)
  | expr (e : Expr)
  | value (v : Value)
  | template (t : List Elem)

/-- `format_string` of it. -/
def Formatted.run (E : FmtEnv) (x : Formatted) (f : Fmt) : Str × Fmt :=
  Fmt.formatString (match x with
    | .body b => Fmt.body E b
    | .expr e => Fmt.expr E e
    | .value v => Fmt.value E v
    | .template t => Fmt.template E t) f

/-- The formatter after a history of uses. -/
def afterUses (E : FmtEnv) (f : Fmt) : List Formatted → Fmt
  | [] => f
  | x :: xs => afterUses E (x.run E f).2 xs

/-- The last body in the history that is not empty ends with this structure. -/
def lastStruct : List Formatted → Option Struct
  | [] => none
  | .body b :: xs => match lastStruct xs with
    | some s => some s
    | none => b.getLast?
  | _ :: xs => lastStruct xs

theorem bodyState_last (st : FmtState) (b : List Struct) :
    Render.bodyState st b = match b.getLast? with
      | some s => Render.stateAfter s
      | none => st := by
  induction b generalizing st with
  | nil => rfl
  | cons s ss ih =>
    rw [Render.bodyState, ih]
    cases ss with
    | nil => rfl
    | cons s' ss' => rw [List.getLast?_cons_cons]; cases h : (s' :: ss').getLast? <;> simp at h ⊢

theorem afterUses_eq (E : FmtEnv) : ∀ (xs : List Formatted) (f : Fmt), f.out = [] →
    afterUses E f xs = { f with state := match lastStruct xs with
      | some s => Render.stateAfter s
      | none => f.state } := by
  intro xs
  induction xs with
  | nil => intro f _; rfl
  | cons x xs ih =>
    intro f hf
    rw [afterUses, ih _ (by cases x <;> rfl)]
    cases x with
    | body b =>
      simp only [Formatted.run, Fmt.formatString, Fmt.body_eq, lastStruct, Fmt.goto, bodyState_last]
      cases lastStruct xs with
      | some s => simp [hf]
      | none => cases b.getLast? <;> simp [hf]
    | expr e => simp [Formatted.run, Fmt.formatString, Fmt.expr_eq, lastStruct, Fmt.plus, hf]
    | value e => simp [Formatted.run, Fmt.formatString, Fmt.value_eq, lastStruct, Fmt.plus, hf]
    | template e => simp [Formatted.run, Fmt.formatString, Fmt.template_eq, lastStruct, Fmt.plus, hf]

/-- C32 for expressions, values and templates: after any history of uses, the text is that of a fresh
formatter. -/
theorem C32_non_body (E : FmtEnv) (cfg : FmtCfg) (xs : List Formatted) (x : Formatted)
    (hx : ∀ b, x ≠ .body b) :
    (x.run E (afterUses E (Fmt.new cfg) xs)).1 = (x.run E (Fmt.new cfg)).1 := by
  rw [afterUses_eq E xs _ rfl]
  cases x with
  | body b => exact absurd rfl (hx b)
  | expr e => simp [Formatted.run, Fmt.formatString, Fmt.expr_eq, Fmt.plus, Fmt.new, Fmt.inCompactMode]
  | value e => simp [Formatted.run, Fmt.formatString, Fmt.value_eq, Fmt.plus, Fmt.new, Fmt.inCompactMode]
  | template e =>
    simp [Formatted.run, Fmt.formatString, Fmt.template_eq, Fmt.plus, Fmt.new, Fmt.inCompactMode]

/-- When a used formatter starts a body with an empty line. -/
def staleNewline (dense : Bool) (last first : Option Struct) : Bool :=
  !dense && match last, first with
    | some (.attr ..), some (.block ..) => true
    | some (.block ..), some _ => true
    | _, _ => false

/-- C32 for bodies, exactly: after any history of uses the text is that of a fresh formatter, with an
empty line in front of it if `staleNewline`. -/
theorem C32_body_exact (E : FmtEnv) (cfg : FmtCfg) (xs : List Formatted) (b : List Struct) :
    ((Formatted.body b).run E (afterUses E (Fmt.new cfg) xs)).1 =
      (if staleNewline cfg.dense (lastStruct xs) b.head? then c!"\n" else []) ++
        ((Formatted.body b).run E (Fmt.new cfg)).1 := by
  rw [afterUses_eq E xs _ rfl]
  simp only [Formatted.run, Fmt.formatString, Fmt.body_eq, Fmt.goto, Fmt.new, List.nil_append]
  have hc : ∀ st, Fmt.inCompactMode ⟨[], cfg, st, false, 0, false, 0, [], false⟩ = false := fun _ => rfl
  rw [hc, hc]
  cases b with
  | nil => cases lastStruct xs with
    | none => simp [Render.body, staleNewline]
    | some s => cases s <;> simp [Render.body, staleNewline]
  | cons s ss =>
    simp only [Render.body, Render.struct_core, List.head?_cons, staleNewline]
    have h0 : Render.newline cfg .initial (Render.startOf s) = [] := by cases s <;> rfl
    rw [h0]
    cases lastStruct xs with
    | none => simp [h0]
    | some l =>
      cases hd : cfg.dense <;> cases l <;> cases s <;>
        simp [Render.newline, Render.stateAfter, Render.startOf, hd]

/-- C32 (partial: `C32_body_exact` says what happens otherwise): the text of a body is that of a fresh
formatter if the formatter is dense or has formatted no body that ends with a block, and none that ends
with an attribute if the next one starts with a block. -/
theorem C32_body_partial (E : FmtEnv) (cfg : FmtCfg) (xs : List Formatted) (b : List Struct)
    (h : staleNewline cfg.dense (lastStruct xs) b.head? = false) :
    ((Formatted.body b).run E (afterUses E (Fmt.new cfg) xs)).1 = formatBody E cfg b := by
  rw [C32_body_exact, h]; rfl

/-- **C32 is false of the code**: the second of two bodies formatted with one formatter starts with an
empty line. -/
theorem C32_false :
    let b : List Struct := [.block c!"b" [] []]
    ((Formatted.body b).run exampleFmtEnv
      (afterUses exampleFmtEnv (Fmt.new FmtCfg.default) [.body b])).1 = c!"\nb {}\n" ∧
    formatBody exampleFmtEnv FmtCfg.default b = c!"b {}\n" := by
  decide +kernel

example : staleNewline false (lastStruct [.body [.attr c!"x" .null], .expr .null])
    [Struct.attr c!"y" .null].head? = false := rfl

end Props
end Verif
