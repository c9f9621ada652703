import Verif.Model.Format
/-!
The formatter as a function from the value, the configuration, the indentation and the compact mode to
text; `Fmt.expr` and friends write exactly that text.
-/

namespace Verif.Render
open Verif

/-- `n` times the indent. -/
def pad (cfg : FmtCfg) : Nat → Str
  | 0 => []
  | n + 1 => cfg.indent ++ pad cfg n

def quoted (s : Str) : Str := c!"\"" ++ s ++ c!"\""
def escaped (s : Str) : Str := quoted (escapeChars (escapeMarkers s))

def lines (cfg : FmtCfg) (n : Nat) : Bool → List Str → Str
  | _, [] => []
  | first, l :: ls => (if first then [] else c!"\n") ++ pad cfg n ++ l ++ lines cfg n false ls

def indented (cfg : FmtCfg) (n : Nat) (s : Str) : Str :=
  lines cfg n true (strLines [] s) ++ (if s.getLast? = some '\n' then c!"\n" else [])

def strKey (E : FmtEnv) (cfg : FmtCfg) (s : Str) : Str :=
  if cfg.preferIdentKeys && isIdent E.U s then s else escaped s

def tmplExpr (cfg : FmtCfg) (ind : Nat) : TmplExpr → Str
  | .quoted s => quoted s
  | .heredoc delim t strip =>
    Fmt.heredocMark strip ++ delim ++ c!"\n" ++ t ++
      (if t.getLast? = some '\n' then [] else c!"\n") ++
      (match strip with
        | .none => delim
        | .indent => indented cfg ind delim)

def namespaces : List Str → Str
  | [] => []
  | n :: ns => n ++ c!"::" ++ namespaces ns

def funcName (n : FuncName) : Str := namespaces n.namespaces ++ n.name

/-- The text before an array element. -/
def arraySep (cfg : FmtCfg) (c : Bool) (ind : Nat) (first : Bool) : Str :=
  if first then (if c then [] else c!"\n" ++ pad cfg ind)
  else if c then c!", " else c!",\n" ++ pad cfg ind

/-- The text before an object entry. -/
def objectSep (cfg : FmtCfg) (c : Bool) (ind : Nat) (first : Bool) : Str :=
  if first then (if c then c!" " else c!"\n" ++ pad cfg ind)
  else if c then c!", " else c!"\n" ++ pad cfg ind

def arrayEnd (cfg : FmtCfg) (c : Bool) (ind : Nat) (empty : Bool) : Str :=
  (if c || empty then [] else c!"\n" ++ pad cfg ind) ++ c!"]"

def objectEnd (cfg : FmtCfg) (c : Bool) (ind : Nat) (empty : Bool) : Str :=
  (if empty then [] else if c then c!" " else c!"\n" ++ pad cfg ind) ++ c!"}"

/-- The indentation inside a collection. -/
def inner (c : Bool) (ind : Nat) : Nat := if c then ind else ind + 1

def optKey : Option Str → Str
  | some k => k ++ c!", "
  | none => []

mutual
def expr (E : FmtEnv) (cfg : FmtCfg) (cm : Bool) (ind : Nat) : Expr → Str
  | .null => c!"null"
  | .bool b => if b then c!"true" else c!"false"
  | .number n => showNumber E n
  | .string s => escaped s
  | .array xs =>
    c!"[" ++ exprElems E cfg cm (inner (cfg.compactArrays || cm) ind) true xs ++
      arrayEnd cfg (cfg.compactArrays || cm) ind xs.isEmpty
  | .object es =>
    c!"{" ++ exprEntries E cfg cm (inner (cfg.compactObjects || cm) ind) true es ++
      objectEnd cfg (cfg.compactObjects || cm) ind es.isEmpty
  | .template t => tmplExpr cfg ind t
  | .var x => x
  | .traversal e ops => expr E cfg cm ind e ++ travOps E cfg cm ind ops
  | .call n args x =>
    funcName n ++ c!"(" ++ callArgs E cfg ind true args ++ (if x then c!"...)" else c!")")
  | .paren e => c!"(" ++ expr E cfg cm ind e ++ c!")"
  | .cond c t e =>
    expr E cfg true ind c ++ c!" ? " ++ expr E cfg true ind t ++ c!" : " ++ expr E cfg true ind e
  | .unary op e => op.asStr ++ expr E cfg cm ind e
  | .binary l op r => expr E cfg cm ind l ++ c!" " ++ op.asStr ++ c!" " ++ expr E cfg cm ind r
  | .forE k v coll ke ve g ce =>
    (if ke.isSome then c!"{" else c!"[") ++ c!"for " ++ optKey k ++ v ++ c!" in " ++
      expr E cfg cm ind coll ++ c!" : " ++
      (match ke with
        | some ke => expr E cfg cm ind ke ++ c!" => "
        | none => []) ++
      expr E cfg cm ind ve ++ (if ke.isSome && g then c!"..." else []) ++
      (match ce with
        | some ce => c!" if " ++ expr E cfg cm ind ce
        | none => []) ++
      (if ke.isSome then c!"}" else c!"]")
def exprElems (E : FmtEnv) (cfg : FmtCfg) (cm : Bool) (ind : Nat) : Bool → List Expr → Str
  | _, [] => []
  | first, e :: es =>
    arraySep cfg (cfg.compactArrays || cm) ind first ++ expr E cfg cm ind e ++
      exprElems E cfg cm ind false es
def exprEntries (E : FmtEnv) (cfg : FmtCfg) (cm : Bool) (ind : Nat) :
    Bool → List (ObjKey × Expr) → Str
  | _, [] => []
  | first, (k, v) :: es =>
    objectSep cfg (cfg.compactObjects || cm) ind first ++ objKey E cfg cm ind k ++ c!" = " ++
      expr E cfg cm ind v ++ exprEntries E cfg cm ind false es
def objKey (E : FmtEnv) (cfg : FmtCfg) (cm : Bool) (ind : Nat) : ObjKey → Str
  | .ident x => x
  | .expr (.string s) => strKey E cfg s
  | .expr e => expr E cfg cm ind e
def callArgs (E : FmtEnv) (cfg : FmtCfg) (ind : Nat) : Bool → List Expr → Str
  | _, [] => []
  | first, e :: es =>
    (if first then [] else c!", ") ++ expr E cfg true ind e ++ callArgs E cfg ind false es
def travOps (E : FmtEnv) (cfg : FmtCfg) (cm : Bool) (ind : Nat) : List TravOp → Str
  | [] => []
  | op :: ops => travOp E cfg cm ind op ++ travOps E cfg cm ind ops
def travOp (E : FmtEnv) (cfg : FmtCfg) (cm : Bool) (ind : Nat) : TravOp → Str
  | .attrSplat => c!".*"
  | .fullSplat => c!"[*]"
  | .getAttr x => c!"." ++ x
  | .legacyIndex i => c!"." ++ natStr i
  | .index e => c!"[" ++ expr E cfg cm ind e ++ c!"]"
end

mutual
def value (E : FmtEnv) (cfg : FmtCfg) (cm : Bool) (ind : Nat) : Value → Str
  | .null => c!"null"
  | .bool b => if b then c!"true" else c!"false"
  | .number n => showNumber E n
  | .string s => if isTemplated s then quoted s else escaped s
  | .array xs =>
    c!"[" ++ valueElems E cfg cm (inner (cfg.compactArrays || cm) ind) true xs ++
      arrayEnd cfg (cfg.compactArrays || cm) ind xs.isEmpty
  | .object es =>
    c!"{" ++ valueEntries E cfg cm (inner (cfg.compactObjects || cm) ind) true es ++
      objectEnd cfg (cfg.compactObjects || cm) ind es.isEmpty
def valueElems (E : FmtEnv) (cfg : FmtCfg) (cm : Bool) (ind : Nat) : Bool → List Value → Str
  | _, [] => []
  | first, e :: es =>
    arraySep cfg (cfg.compactArrays || cm) ind first ++ value E cfg cm ind e ++
      valueElems E cfg cm ind false es
def valueEntries (E : FmtEnv) (cfg : FmtCfg) (cm : Bool) (ind : Nat) :
    Bool → List (Str × Value) → Str
  | _, [] => []
  | first, (k, v) :: es =>
    objectSep cfg (cfg.compactObjects || cm) ind first ++ strKey E cfg k ++ c!" = " ++
      value E cfg cm ind v ++ valueEntries E cfg cm ind false es
end

def strip (s : Strip) (t : Str) : Str :=
  (if s.stripStart then c!"~" else []) ++ t ++ (if s.stripEnd then c!"~" else [])
def interpolation (s : Strip) (t : Str) : Str := c!"${" ++ strip s t ++ c!"}"
def directive (s : Strip) (t : Str) : Str := c!"%{" ++ strip s (c!" " ++ t ++ c!" ") ++ c!"}"

mutual
def template (E : FmtEnv) (cfg : FmtCfg) (cm : Bool) (ind : Nat) : List Elem → Str
  | [] => []
  | e :: es => elem E cfg cm ind e ++ template E cfg cm ind es
def elem (E : FmtEnv) (cfg : FmtCfg) (cm : Bool) (ind : Nat) : Elem → Str
  | .lit s => escapeMarkers s
  | .interp e s => interpolation s (expr E cfg cm ind e)
  | .ifDir c t fl a b z =>
    directive a (c!"if " ++ expr E cfg cm ind c) ++ template E cfg cm ind t ++
      (match fl with
        | some fl => directive b c!"else" ++ template E cfg cm ind fl
        | none => []) ++
      directive z c!"endif"
  | .forDir k v coll t a z =>
    directive a (c!"for " ++ optKey k ++ v ++ c!" in " ++ expr E cfg cm ind coll) ++
      template E cfg cm ind t ++ directive z c!"endfor"
end

def label : Label → Str
  | .ident x => x
  | .string s => escaped s

def labels : List Label → Str
  | [] => []
  | l :: ls => c!" " ++ label l ++ labels ls

/-- The line break before an attribute or block. -/
def newline (cfg : FmtCfg) (st next : FmtState) : Str :=
  if (if st = .attributeEnd ∧ cfg.dense = false then decide (next = .blockStart)
    else if st = .blockEnd ∧ cfg.dense = false then
      decide (next = .blockStart ∨ next = .attributeStart)
    else decide (st = .blockBodyStart)) then c!"\n" else []

/-- The state after a structure. -/
def stateAfter : Struct → FmtState
  | .attr .. => .attributeEnd
  | .block .. => .blockEnd

def bodyState (st : FmtState) : List Struct → FmtState
  | [] => st
  | s :: ss => bodyState (stateAfter s) ss

mutual
def body (E : FmtEnv) (cfg : FmtCfg) (cm : Bool) (ind : Nat) (st : FmtState) : List Struct → Str
  | [] => []
  | s :: ss => struct E cfg cm ind st s ++ body E cfg cm ind (stateAfter s) ss
def struct (E : FmtEnv) (cfg : FmtCfg) (cm : Bool) (ind : Nat) (st : FmtState) : Struct → Str
  | .attr k e =>
    newline cfg st .attributeStart ++ pad cfg ind ++ k ++ c!" = " ++ expr E cfg cm ind e ++ c!"\n"
  | .block i ls b =>
    newline cfg st .blockStart ++ pad cfg ind ++ i ++ labels ls ++ c!" {" ++
      body E cfg cm (ind + 1) .blockBodyStart b ++ pad cfg ind ++ c!"}\n"
end

end Verif.Render

namespace Verif.Fmt
open Verif

/-- Text appended. -/
def plus (f : Fmt) (t : Str) : Fmt := { f with out := f.out ++ t }

@[simp] theorem write_eq (f : Fmt) (t : Str) : f.write t = f.plus t := rfl
@[simp] theorem plus_plus (f : Fmt) (s t : Str) : (f.plus s).plus t = f.plus (s ++ t) := by
  simp [plus]
@[simp] theorem plus_nil (f : Fmt) : f.plus [] = f := by simp [plus]
@[simp] theorem plus_cfg (f : Fmt) (t : Str) : (f.plus t).cfg = f.cfg := rfl
@[simp] theorem plus_indent (f : Fmt) (t : Str) : (f.plus t).currentIndent = f.currentIndent := rfl
@[simp] theorem plus_compact (f : Fmt) (t : Str) : (f.plus t).inCompactMode = f.inCompactMode := rfl
@[simp] theorem plus_state (f : Fmt) (t : Str) : (f.plus t).state = f.state := rfl

theorem ite_plus (c : Prop) [Decidable c] (f : Fmt) (s t : Str) :
    (if c then f.plus s else f.plus t) = f.plus (if c then s else t) := by split <;> rfl

theorem ite_plus_left (c : Prop) [Decidable c] (f : Fmt) (s : Str) :
    (if c then f.plus s else f) = f.plus (if c then s else []) := by split <;> simp

theorem ite_plus_right (c : Prop) [Decidable c] (f : Fmt) (s : Str) :
    (if c then f else f.plus s) = f.plus (if c then [] else s) := by split <;> simp

theorem writeIndent_eq (n : Nat) (f : Fmt) : writeIndent n f = f.plus (Render.pad f.cfg n) := by
  induction n generalizing f with
  | zero => simp [writeIndent, Render.pad]
  | succ n ih => simp [writeIndent, ih, Render.pad]

theorem writeQuoted_eq (s : Str) (f : Fmt) : f.writeQuoted s = f.plus (Render.quoted s) := by
  simp [writeQuoted, Render.quoted]

theorem writeQuotedEscaped_eq (s : Str) (f : Fmt) :
    f.writeQuotedEscaped s = f.plus (Render.escaped s) := by
  simp [writeQuotedEscaped, Render.escaped, Render.quoted]

theorem strKey_eq (E : FmtEnv) (s : Str) (f : Fmt) :
    strKey E s f = f.plus (Render.strKey E f.cfg s) := by
  simp only [strKey, Render.strKey, write_eq, writeQuotedEscaped_eq]
  split <;> rfl

theorem writeLines_eq (n : Nat) (ls : List Str) (first : Bool) (f : Fmt) :
    writeLines n first ls f = f.plus (Render.lines f.cfg n first ls) := by
  induction ls generalizing first f with
  | nil => simp [writeLines, Render.lines]
  | cons l ls ih =>
    simp only [writeLines, Render.lines, write_eq, writeIndent_eq, ih]
    cases first <;> simp

theorem writeIndented_eq (n : Nat) (s : Str) (f : Fmt) :
    writeIndented n s f = f.plus (Render.indented f.cfg n s) := by
  simp only [writeIndented, Render.indented, write_eq, writeLines_eq]
  split <;> simp

theorem tmplExpr_eq (t : TmplExpr) (f : Fmt) :
    tmplExpr t f = f.plus (Render.tmplExpr f.cfg f.currentIndent t) := by
  cases t with
  | quoted s => exact writeQuoted_eq s f
  | heredoc d t st =>
    simp only [tmplExpr, Render.tmplExpr, write_eq, plus_plus]
    by_cases h : t.getLast? = some '\n' <;> cases st <;> simp [writeIndented_eq, h]

theorem namespaces_eq (ns : List Str) (f : Fmt) :
    namespaces ns f = f.plus (Render.namespaces ns) := by
  induction ns generalizing f with
  | nil => simp [namespaces, Render.namespaces]
  | cons n ns ih => simp [namespaces, Render.namespaces, ih]

theorem funcName_eq (n : FuncName) (f : Fmt) : funcName n f = f.plus (Render.funcName n) := by
  simp [funcName, Render.funcName, namespaces_eq]

/-- Inside an array or object: text, `first_element` and `has_value`. -/
def fill (f : Fmt) (t : Str) (first has : Bool) : Fmt :=
  { f with out := f.out ++ t, firstElement := first, hasValue := has }

theorem arraySep_eq (f : Fmt) :
    f.beginArrayValue =
      f.fill (Render.arraySep f.cfg (f.cfg.compactArrays || f.inCompactMode) f.currentIndent
        f.firstElement) false f.hasValue := by
  rcases f with ⟨o, cfg, st, fe, ci, hv, cl, ns, p⟩
  simp only [beginArrayValue, Render.arraySep, write_eq, writeIndent_eq, compactArrays,
    inCompactMode, fill, plus]
  rcases Bool.eq_false_or_eq_true (cfg.compactArrays || decide (cl > 0)) with hc | hc <;>
    cases fe <;> simp only [hc] <;> simp

theorem objectSep_eq (f : Fmt) :
    f.beginObjectKey =
      f.fill (Render.objectSep f.cfg (f.cfg.compactObjects || f.inCompactMode) f.currentIndent
        f.firstElement) false f.hasValue := by
  rcases f with ⟨o, cfg, st, fe, ci, hv, cl, ns, p⟩
  simp only [beginObjectKey, Render.objectSep, write_eq, writeIndent_eq, compactObjects,
    inCompactMode, fill, plus]
  rcases Bool.eq_false_or_eq_true (cfg.compactObjects || decide (cl > 0)) with hc | hc <;>
    cases fe <;> simp only [hc] <;> simp

/-- An array, given what its elements write. -/
theorem array_eq (f : Fmt) (n : Bool) (t : Str)
    (g : Fmt → Fmt)
    (hg : ∀ f' : Fmt, f'.cfg = f.cfg → f'.inCompactMode = f.inCompactMode →
      f'.currentIndent = Render.inner (f.cfg.compactArrays || f.inCompactMode) f.currentIndent →
      f'.firstElement = true → f'.hasValue = false → g f' = f'.fill t n (!n)) :
    (g f.beginArray).endArray = f.plus (c!"[" ++ t ++
      Render.arrayEnd f.cfg (f.cfg.compactArrays || f.inCompactMode) f.currentIndent n) := by
  rcases f with ⟨o, cfg, st, fe, ci, hv, cl, ns, p⟩
  have hg' := hg (Fmt.beginArray ⟨o, cfg, st, fe, ci, hv, cl, ns, p⟩)
  simp only [beginArray, compactArrays, inCompactMode, write_eq, plus, fill, endArray,
    Render.inner, Render.arrayEnd, decIndent, popNesting, writeIndent_eq] at hg' ⊢
  rcases Bool.eq_false_or_eq_true (cfg.compactArrays || decide (cl > 0)) with hc | hc <;>
    simp only [hc, Bool.not_true, Bool.not_false, Bool.false_eq_true, if_true, if_false,
      forall_const] at hg' ⊢ <;> rw [hg'] <;> simp only [hc] <;> cases n <;> simp

/-- An object, given what its entries write. -/
theorem object_eq (f : Fmt) (n : Bool) (t : Str)
    (g : Fmt → Fmt)
    (hg : ∀ f' : Fmt, f'.cfg = f.cfg → f'.inCompactMode = f.inCompactMode →
      f'.currentIndent = Render.inner (f.cfg.compactObjects || f.inCompactMode) f.currentIndent →
      f'.firstElement = true → f'.hasValue = false → g f' = f'.fill t n (!n)) :
    (g f.beginObject).endObject = f.plus (c!"{" ++ t ++
      Render.objectEnd f.cfg (f.cfg.compactObjects || f.inCompactMode) f.currentIndent n) := by
  rcases f with ⟨o, cfg, st, fe, ci, hv, cl, ns, p⟩
  have hg' := hg (Fmt.beginObject ⟨o, cfg, st, fe, ci, hv, cl, ns, p⟩)
  simp only [beginObject, compactObjects, inCompactMode, write_eq, plus, fill, endObject,
    Render.inner, Render.objectEnd, decIndent, popNesting, writeIndent_eq] at hg' ⊢
  rcases Bool.eq_false_or_eq_true (cfg.compactObjects || decide (cl > 0)) with hc | hc <;>
    simp only [hc, Bool.not_true, Bool.not_false, Bool.false_eq_true, if_true, if_false,
      forall_const] at hg' ⊢ <;> rw [hg'] <;> simp only [hc] <;> cases n <;> simp

theorem withCompactMode_eq (f : Fmt) (g : Fmt → Fmt) (t : Str)
    (hg : ∀ f' : Fmt, f'.cfg = f.cfg → f'.inCompactMode = true → f'.currentIndent = f.currentIndent →
      g f' = f'.plus t) : f.withCompactMode g = f.plus t := by
  have h := hg { f with compactLevel := f.compactLevel + 1 } rfl (by simp [inCompactMode]) rfl
  simp only [withCompactMode]
  rw [h]
  simp [plus]

@[simp] theorem fill_cfg (f : Fmt) (t a b) : (f.fill t a b).cfg = f.cfg := rfl
@[simp] theorem fill_indent (f : Fmt) (t a b) : (f.fill t a b).currentIndent = f.currentIndent := rfl
@[simp] theorem fill_compact (f : Fmt) (t a b) : (f.fill t a b).inCompactMode = f.inCompactMode := rfl
@[simp] theorem fill_first (f : Fmt) (t a b) : (f.fill t a b).firstElement = a := rfl
@[simp] theorem fill_has (f : Fmt) (t a b) : (f.fill t a b).hasValue = b := rfl
@[simp] theorem fill_plus (f : Fmt) (t a b s) : (f.fill t a b).plus s = f.fill (t ++ s) a b := by
  simp [fill, plus]
@[simp] theorem fill_end (f : Fmt) (t a b) : (f.fill t a b).endArrayValue = f.fill t a true := rfl
@[simp] theorem fill_fill (f : Fmt) (t a b s c d) :
    (f.fill t a b).fill s c d = f.fill (t ++ s) c d := by simp [fill]

mutual
theorem expr_eq (E : FmtEnv) : ∀ (e : Expr) (f : Fmt),
    expr E e f = f.plus (Render.expr E f.cfg f.inCompactMode f.currentIndent e)
  | .null, f => by simp [expr, Render.expr]
  | .bool b, f => by simp [expr, Render.expr]
  | .number n, f => by simp [expr, Render.expr]
  | .string s, f => by simp [expr, Render.expr, writeQuotedEscaped_eq]
  | .array xs, f => by
    rw [expr, Render.expr]
    refine array_eq f xs.isEmpty _ (exprElems E xs) ?_
    intro f' h1 h2 h3 h4 h5
    rw [elems_eq E xs f', h1, h2, h3, h4, h5]; simp
  | .object es, f => by
    rw [expr, Render.expr]
    refine object_eq f es.isEmpty _ (exprEntries E es) ?_
    intro f' h1 h2 h3 h4 h5
    rw [entries_eq E es f', h1, h2, h3, h4, h5]; simp
  | .template t, f => by rw [expr, Render.expr, tmplExpr_eq]
  | .var x, f => by simp [expr, Render.expr]
  | .traversal e ops, f => by
    rw [expr, Render.expr, expr_eq E e f, travOps_eq E ops]; simp
  | .call n args x, f => by
    rw [expr, Render.expr]
    simp only [write_eq]
    rw [withCompactMode_eq _ _ (Render.callArgs E f.cfg f.currentIndent true args)]
    · cases x <;> simp [funcName_eq]
    · intro f' h1 h2 h3
      rw [callArgs_eq E args true f' h2, h1, h3]; simp [funcName_eq]
  | .paren e, f => by rw [expr, Render.expr]; simp [expr_eq E e]
  | .cond c t e, f => by
    rw [expr, Render.expr]
    refine withCompactMode_eq _ _ _ ?_
    intro f' h1 h2 h3
    simp only [expr_eq E c, expr_eq E t, expr_eq E e, write_eq, plus_plus, plus_cfg, plus_compact,
      plus_indent, h1, h2, h3, List.append_assoc]
  | .unary op e, f => by rw [expr, Render.expr]; simp [expr_eq E e]
  | .binary l op r, f => by rw [expr, Render.expr]; simp [expr_eq E l, expr_eq E r]
  | .forE k v coll ke ve g ce, f => by
    rw [expr.eq_def, Render.expr.eq_def]
    simp only [expr_eq E coll, expr_eq E ve, write_eq]
    cases k <;> cases ke <;> cases ce <;> cases g <;>
      simp [expr_eq E _, Render.optKey]
theorem elems_eq (E : FmtEnv) : ∀ (es : List Expr) (f : Fmt),
    exprElems E es f =
      f.fill (Render.exprElems E f.cfg f.inCompactMode f.currentIndent f.firstElement es)
        (f.firstElement && es.isEmpty) (f.hasValue || !es.isEmpty)
  | [], f => by simp [exprElems, Render.exprElems, fill]
  | e :: es, f => by
    rw [exprElems, Render.exprElems, arraySep_eq, expr_eq E e, elems_eq E es]
    simp
theorem entries_eq (E : FmtEnv) : ∀ (es : List (ObjKey × Expr)) (f : Fmt),
    exprEntries E es f =
      f.fill (Render.exprEntries E f.cfg f.inCompactMode f.currentIndent f.firstElement es)
        (f.firstElement && es.isEmpty) (f.hasValue || !es.isEmpty)
  | [], f => by simp [exprEntries, Render.exprEntries, fill]
  | (k, v) :: es, f => by
    rw [exprEntries, Render.exprEntries, objectSep_eq, objKey_eq E k, expr_eq E v, entries_eq E es]
    simp
theorem objKey_eq (E : FmtEnv) : ∀ (k : ObjKey) (f : Fmt),
    objKey E k f = f.plus (Render.objKey E f.cfg f.inCompactMode f.currentIndent k)
  | .ident x, f => by simp [objKey, Render.objKey]
  | .expr e, f => by
    have := expr_eq E e f
    cases e <;> first | (rw [objKey, Render.objKey, strKey_eq]) | (simpa [objKey, Render.objKey] using this)
theorem callArgs_eq (E : FmtEnv) : ∀ (es : List Expr) (first : Bool) (f : Fmt),
    f.inCompactMode = true →
    callArgs E first es f = f.plus (Render.callArgs E f.cfg f.currentIndent first es)
  | [], _, f, _ => by simp [callArgs, Render.callArgs]
  | e :: es, first, f, h => by
    rw [callArgs, Render.callArgs, expr_eq E e]
    simp only [write_eq]
    rw [callArgs_eq E es]
    · cases first <;> simp [h]
    · cases first <;> simp [h]
theorem travOps_eq (E : FmtEnv) : ∀ (ops : List TravOp) (f : Fmt),
    travOps E ops f = f.plus (Render.travOps E f.cfg f.inCompactMode f.currentIndent ops)
  | [], f => by simp [travOps, Render.travOps]
  | op :: ops, f => by rw [travOps, Render.travOps, travOp_eq E op, travOps_eq E ops]; simp
theorem travOp_eq (E : FmtEnv) : ∀ (op : TravOp) (f : Fmt),
    travOp E op f = f.plus (Render.travOp E f.cfg f.inCompactMode f.currentIndent op)
  | .attrSplat, f => by simp [travOp, Render.travOp]
  | .fullSplat, f => by simp [travOp, Render.travOp]
  | .getAttr x, f => by simp [travOp, Render.travOp]
  | .legacyIndex i, f => by simp [travOp, Render.travOp]
  | .index e, f => by rw [travOp, Render.travOp]; simp [expr_eq E e]
end

mutual
theorem value_eq (E : FmtEnv) : ∀ (v : Value) (f : Fmt),
    value E v f = f.plus (Render.value E f.cfg f.inCompactMode f.currentIndent v)
  | .null, f => by simp [value, Render.value]
  | .bool b, f => by simp [value, Render.value]
  | .number n, f => by simp [value, Render.value]
  | .string s, f => by
    rw [value, Render.value, writeQuoted_eq, writeQuotedEscaped_eq]; split <;> rfl
  | .array xs, f => by
    rw [value, Render.value]
    refine array_eq f xs.isEmpty _ (valueElems E xs) ?_
    intro f' h1 h2 h3 h4 h5
    rw [valueElems_eq E xs f', h1, h2, h3, h4, h5]; simp
  | .object es, f => by
    rw [value, Render.value]
    refine object_eq f es.isEmpty _ (valueEntries E es) ?_
    intro f' h1 h2 h3 h4 h5
    rw [valueEntries_eq E es f', h1, h2, h3, h4, h5]; simp
theorem valueElems_eq (E : FmtEnv) : ∀ (es : List Value) (f : Fmt),
    valueElems E es f =
      f.fill (Render.valueElems E f.cfg f.inCompactMode f.currentIndent f.firstElement es)
        (f.firstElement && es.isEmpty) (f.hasValue || !es.isEmpty)
  | [], f => by simp [valueElems, Render.valueElems, fill]
  | e :: es, f => by
    rw [valueElems, Render.valueElems, arraySep_eq, value_eq E e, valueElems_eq E es]
    simp
theorem valueEntries_eq (E : FmtEnv) : ∀ (es : List (Str × Value)) (f : Fmt),
    valueEntries E es f =
      f.fill (Render.valueEntries E f.cfg f.inCompactMode f.currentIndent f.firstElement es)
        (f.firstElement && es.isEmpty) (f.hasValue || !es.isEmpty)
  | [], f => by simp [valueEntries, Render.valueEntries, fill]
  | (k, v) :: es, f => by
    rw [valueEntries, Render.valueEntries, objectSep_eq, strKey_eq E k, value_eq E v,
      valueEntries_eq E es]
    simp
end

theorem strip_eq (s : Strip) (g : Fmt → Fmt) (t : Str) (f : Fmt)
    (hg : ∀ f' : Fmt, f'.cfg = f.cfg → f'.inCompactMode = f.inCompactMode →
      f'.currentIndent = f.currentIndent → g f' = f'.plus t) :
    strip s g f = f.plus (Render.strip s t) := by
  simp only [strip, Render.strip, write_eq]
  have h0 := hg f rfl rfl rfl
  have h1 := hg (f.plus c!"~") rfl rfl rfl
  cases s.stripStart <;> cases s.stripEnd <;> simp [h0, h1]

theorem interpolation_eq (s : Strip) (g : Fmt → Fmt) (t : Str) (f : Fmt)
    (hg : ∀ f' : Fmt, f'.cfg = f.cfg → f'.inCompactMode = f.inCompactMode →
      f'.currentIndent = f.currentIndent → g f' = f'.plus t) :
    interpolation s g f = f.plus (Render.interpolation s t) := by
  simp only [interpolation, Render.interpolation, write_eq]
  rw [strip_eq s g t]
  · simp
  · intro f' h1 h2 h3; exact hg f' (by simpa using h1) (by simpa using h2) (by simpa using h3)

theorem directive_eq (s : Strip) (g : Fmt → Fmt) (t : Str) (f : Fmt)
    (hg : ∀ f' : Fmt, f'.cfg = f.cfg → f'.inCompactMode = f.inCompactMode →
      f'.currentIndent = f.currentIndent → g f' = f'.plus t) :
    directive s g f = f.plus (Render.directive s t) := by
  simp only [directive, Render.directive, write_eq]
  rw [strip_eq s _ (c!" " ++ t ++ c!" ")]
  · simp
  · intro f' h1 h2 h3
    rw [hg (f'.plus _) (by simpa using h1) (by simpa using h2) (by simpa using h3)]; simp

mutual
theorem template_eq (E : FmtEnv) : ∀ (t : List Elem) (f : Fmt),
    template E t f = f.plus (Render.template E f.cfg f.inCompactMode f.currentIndent t)
  | [], f => by simp [template, Render.template]
  | e :: es, f => by rw [template, Render.template, elem_eq E e, template_eq E es]; simp
theorem elem_eq (E : FmtEnv) : ∀ (e : Elem) (f : Fmt),
    elem E e f = f.plus (Render.elem E f.cfg f.inCompactMode f.currentIndent e)
  | .lit s, f => by simp [elem, Render.elem]
  | .interp e s, f => by
    rw [elem, Render.elem]
    refine interpolation_eq _ _ _ _ ?_
    intro f' h1 h2 h3; rw [expr_eq E e, h1, h2, h3]
  | .ifDir c t fl a b z, f => by
    rw [elem.eq_def, Render.elem.eq_def]
    simp only
    rw [directive_eq a _ (c!"if " ++ Render.expr E f.cfg f.inCompactMode f.currentIndent c) f
      (by intro f' h1 h2 h3; rw [write_eq, expr_eq E c]; simp [h1, h2, h3])]
    have he : ∀ (s : Strip) (w : Str) (f : Fmt),
        directive s (fun f => f.write w) f = f.plus (Render.directive s w) :=
      fun s w f => directive_eq s _ w f (fun _ _ _ _ => rfl)
    cases fl with
    | none => simp only [he, template_eq E t]; simp
    | some fl => simp only [he, template_eq E t, template_eq E fl]; simp
  | .forDir k v coll t a z, f => by
    rw [elem.eq_def, Render.elem.eq_def]
    simp only
    rw [directive_eq a _ (c!"for " ++ Render.optKey k ++ v ++ c!" in " ++
      Render.expr E f.cfg f.inCompactMode f.currentIndent coll) f
      (by intro f' h1 h2 h3; simp only [write_eq, expr_eq E coll]
          cases k <;> simp [h1, h2, h3, Render.optKey])]
    have he : ∀ (s : Strip) (w : Str) (f : Fmt),
        directive s (fun f => f.write w) f = f.plus (Render.directive s w) :=
      fun s w f => directive_eq s _ w f (fun _ _ _ _ => rfl)
    simp only [he, template_eq E t]; simp
end

theorem label_eq (l : Label) (f : Fmt) : label l f = f.plus (Render.label l) := by
  cases l <;> simp [label, Render.label, writeQuotedEscaped_eq]

theorem labels_eq (ls : List Label) (f : Fmt) : labels ls f = f.plus (Render.labels ls) := by
  induction ls generalizing f with
  | nil => simp [labels, Render.labels]
  | cons l ls ih => simp [labels, Render.labels, ih, label_eq]

/-- Text appended and the state changed. -/
def goto (f : Fmt) (t : Str) (st : FmtState) : Fmt := { f with out := f.out ++ t, state := st }

theorem maybeWriteNewline_eq (next : FmtState) (f : Fmt) :
    f.maybeWriteNewline next = f.goto (Render.newline f.cfg f.state next) next := by
  simp only [maybeWriteNewline, Render.newline, write_eq, goto]
  generalize (if f.state = .attributeEnd ∧ f.cfg.dense = false then decide (next = .blockStart)
    else if f.state = .blockEnd ∧ f.cfg.dense = false then
      decide (next = .blockStart ∨ next = .attributeStart)
    else decide (f.state = .blockBodyStart)) = b
  cases b <;> simp [plus]

@[simp] theorem goto_plus (f : Fmt) (t st s) : (f.goto t st).plus s = f.goto (t ++ s) st := by
  simp [goto, plus]
@[simp] theorem goto_goto (f : Fmt) (t st s st') : (f.goto t st).goto s st' = f.goto (t ++ s) st' := by
  simp [goto]
@[simp] theorem goto_cfg (f : Fmt) (t st) : (f.goto t st).cfg = f.cfg := rfl
@[simp] theorem goto_indent (f : Fmt) (t st) : (f.goto t st).currentIndent = f.currentIndent := rfl
@[simp] theorem goto_compact (f : Fmt) (t st) : (f.goto t st).inCompactMode = f.inCompactMode := rfl
@[simp] theorem goto_state (f : Fmt) (t st) : (f.goto t st).state = st := rfl

mutual
theorem body_eq (E : FmtEnv) : ∀ (b : List Struct) (f : Fmt),
    body E b f = f.goto (Render.body E f.cfg f.inCompactMode f.currentIndent f.state b)
      (Render.bodyState f.state b)
  | [], f => by simp [body, Render.body, Render.bodyState, goto]
  | s :: ss, f => by
    rw [body, Render.body, Render.bodyState, struct_eq E s, body_eq E ss]; simp
theorem struct_eq (E : FmtEnv) : ∀ (s : Struct) (f : Fmt),
    structure' E s f = f.goto (Render.struct E f.cfg f.inCompactMode f.currentIndent f.state s)
      (Render.stateAfter s)
  | .attr k e, f => by
    rw [structure', Render.struct, beginAttribute, maybeWriteNewline_eq]
    simp only [writeIndent_eq, write_eq, goto_plus, expr_eq E e, endAttribute, Render.stateAfter]
    simp [goto, plus]; rfl
  | .block i ls b, f => by
    rw [structure', Render.struct, beginBlock, maybeWriteNewline_eq]
    simp only [writeIndent_eq, write_eq, goto_plus, labels_eq, beginBlockBody, Render.stateAfter]
    rw [body_eq E b]
    simp [goto, plus, endBlock, decIndent, writeIndent_eq]; rfl
end

end Verif.Fmt
