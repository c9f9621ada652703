import Verif.Lemmas.Decorated
import Verif.Props.Complete
/-! C55: a document or expression of `hcl-edit`, however it was made, prints to a text that is read back
with the same content.

`Spec/Decorated.lean` says for which trees; what is excluded there cannot be written, or is not covered.
Missing from the full property: heredocs whose indentation was removed when they were read. -/

namespace Verif.Props
open P Gram Spec Syn

/-- Documents: the printed text parses, and what is parsed has the content of the tree. -/
theorem C55_body_partial (F : FmtEnv) (bd : Build) (b : EBody) (h : LaidBody F bd b) :
    ∃ b', parseBody ⟨F.U, bd⟩ (b.show F) = .ok b' ∧ MeansBody F.U bd b' (toHclBody F b) ∧
      (noTemplateBody (toHclBody F b) = true → toHclBody F b' = toHclBody F b) :=
  let ⟨b', h1, h2, h3⟩ := C61_body_partial ⟨F.U, bd⟩ _ _ (body_doc h)
  ⟨b', h1, h2, h3 F⟩

/-- Expressions: the same, if there is no whitespace at the ends of the text. -/
theorem C55_expr_partial (F : FmtEnv) (bd : Build) (e : EExpr) (h : Laid F bd false false e)
    (h1 : before [] e.getMeta ++ lead e = []) (h2 : trail e ++ behind [] e.getMeta = []) :
    ∃ e', parseExpr ⟨F.U, bd⟩ (e.show F) = .ok e' ∧ Means F.U bd e' (toHcl F e) ∧
      (noTemplate (toHcl F e) = true → toHcl F e' = toHcl F e) :=
  let ⟨e', h1, h2, h3⟩ := C61_expr_partial ⟨F.U, bd⟩ _ _ (expr_full h h1 h2)
  ⟨e', h1, h2, h3 F⟩

/-- Replacing the expression of an attribute of a document keeps the rest of what is needed. -/
theorem C55_set_value (F : FmtEnv) (bd : Build) (m m' : Meta) (k : DIdent) (v v' : EExpr) (o om : Bool) (xs ys : List EStruct)
    (h : LaidBody F bd (.mk m (xs ++ .attr m' k v :: ys) o om)) (hv : Laid F bd false false v') (hm : Around false v'.getMeta) :
    ∃ b', parseBody ⟨F.U, bd⟩ (EBody.show F (.mk m (xs ++ .attr m' k v' :: ys) o om)) = .ok b' ∧
      MeansBody F.U bd b' (toHclStructs F xs ++ .attr k.name (toHcl F v') :: toHclStructs F ys) ∧
      (noTemplateBody (toHclStructs F xs ++ .attr k.name (toHcl F v') :: toHclStructs F ys) = true →
        toHclBody F b' = toHclStructs F xs ++ .attr k.name (toHcl F v') :: toHclStructs F ys) := by
  have app : ∀ xs ys : List EStruct, toHclStructs F (xs ++ ys) = toHclStructs F xs ++ toHclStructs F ys := by
    intro xs ys
    induction xs with
    | nil => rfl
    | cons x xs ih => simp only [List.cons_append, toHclStructs, ih]
  have keys : ∀ xs ys : List Struct, attrKeys (xs ++ ys) = attrKeys xs ++ attrKeys ys := by
    intro xs ys
    induction xs with
    | nil => rfl
    | cons x xs ih => cases x <;> simp only [List.cons_append, attrKeys, ih]
  have lines : ∀ xs : List EStruct, LaidLines F bd om (xs ++ .attr m' k v :: ys) → LaidLines F bd om (xs ++ .attr m' k v' :: ys) := by
    intro xs
    induction xs with
    | nil =>
      simp only [List.nil_append, LaidLines, LaidStruct, ownMeta]
      exact fun ⟨⟨h1, h2, h3, h4, _, _⟩, h5⟩ => ⟨⟨h1, h2, h3, h4, hm, hv⟩, h5⟩
    | cons x xs ih =>
      simp only [List.cons_append, LaidLines]
      refine fun ⟨h1, h2, h3⟩ => ⟨h1, ?_, ih h3⟩
      have e : ∀ w, (xs ++ EStruct.attr m' k w :: ys).isEmpty = false := fun w => by cases xs <;> rfl
      rw [e] at h2 ⊢
      exact h2
  have hb : LaidBody F bd (.mk m (xs ++ .attr m' k v' :: ys) o om) := by
    obtain ⟨h1, h2, h3, h4⟩ := h
    refine ⟨lines xs h1, ?_, h3, ?_⟩
    · rw [app, keys] at h2 ⊢
      simpa only [toHclStructs, toHclStruct, attrKeys] using h2
    · have e : ∀ w, (xs ++ EStruct.attr m' k w :: ys).isEmpty = false := fun w => by cases xs <;> rfl
      rw [e] at h4 ⊢
      exact h4
  have := C55_body_partial F bd _ hb
  rw [show toHclBody F (.mk m (xs ++ .attr m' k v' :: ys) o om) =
    toHclStructs F xs ++ .attr k.name (toHcl F v') :: toHclStructs F ys by
      simp only [toHclBody, app, toHclStructs, toHclStruct]] at this
  exact this

private def Fa : FmtEnv := ⟨.ascii, fun _ => c!"1.5"⟩

private theorem hid (c : Char) (h : isIdStart .ascii c = true) : IsIdentifier .ascii [c] := ⟨c, [], rfl, idFirst_iff.mp h, nofun⟩

/-- A node with two spaces in front and one behind it. -/
private def mc : Meta := { decor := { pre := some (.explicit c!"  "), suf := some (.explicit c!" ") } }

private def ident (c : Char) : DIdent := ⟨{}, [c]⟩

/-- A document that was built from scratch, with a comment:
```
a =   [x, y.z, x ? y : -z] # c
b "l" { c = {k = x - y,} }
```
-/
private def doc : EBody := .mk {} [
  .attr { decor := { suf := some (.explicit c!" # c") } } (ident 'a')
    (.array { decor := { pre := some (.explicit c!"   ") } } [.var {} c!"x",
      .trav {} (.var {} c!"y") [.mk {} (.getAttr (ident 'z'))],
      .cond {} (.var {} c!"x") (.var {} c!"y") (.unary {} none .neg (.var {} c!"z"))] false .empty),
  .block {} (ident 'b') [.string {} c!"l"] (.mk {} [
    .attr {} (ident 'c') (.object {} [.mk (.ident (ident 'k'))
      (.binary {} (.var {} c!"x") {} .minus (.var {} c!"y")) .equals .comma] .empty)] true false)] false false

/-- The hypotheses hold. -/
private theorem doc_laid : LaidBody Fa .debug doc := by
  have b0 : ∀ nl, BlankText nl none := fun _ => .nil
  have be : ∀ nl, BlankText nl (some .empty) := fun _ => .nil
  have ar : ∀ nl, Around nl {} := fun _ => ⟨.nil, .nil⟩
  have var : ∀ c : Char, isIdStart .ascii c = true → [c] ∉ keywords → ∀ j nl m, Laid Fa .debug j nl (.var m [c]) :=
    fun c h h' j nl m => by simp only [Laid]; exact ⟨hid c h, h'⟩
  have vx := var 'x' (by decide) (by decide)
  have vy := var 'y' (by decide) (by decide)
  have vz := var 'z' (by decide) (by decide)
  have le : LineEnd [] := .plain .nil (.inl rfl)
  have lc : LineEnd c!" # c" := Eol.line (g := c!" ") (x := c!"# c") (.blank (.inl rfl) .nil) ⟨c!" c", .inl rfl, by decide, by decide⟩ (.inl rfl)
  have safe : StringSafe c!"l" := by
    rintro a c d b h - - -
    have := congrArg List.length h
    simp at this
    omega
  have sp : BlankText false (some (.explicit c!"   ")) := .blank (.inl rfl) (.blank (.inl rfl) (.blank (.inl rfl) .nil))
  refine ⟨?_, by decide, b0 _, b0 _⟩
  simp only [LaidLines, LaidStruct, LaidBlock, ownMeta, onOneLine, LaidLabels, Separate]
  refine ⟨⟨b0 _, hid 'a' (by decide), b0 _, b0 _, ⟨sp, b0 _⟩, ?_⟩, lc,
    ⟨b0 _, hid 'b' (by decide), b0 _, b0 _, trivial, ⟨safe, ar _, trivial⟩,
      fun _ => ⟨ar _, ar _, ⟨hid 'c' (by decide), ar _⟩, ar _, ?_⟩, nofun⟩, le, trivial⟩
  · simp only [Laid, LaidList, LaidOps, LaidOp]
    refine ⟨⟨ar _, ⟨hid 'x' (by decide), by decide⟩, ar _, ⟨b0 _, b0 _, ⟨hid 'y' (by decide), by decide⟩, rfl, nofun,
      ⟨b0 _, b0 _, ⟨hid 'z' (by decide), b0 _, b0 _⟩, trivial⟩, nofun⟩, ar _,
      ⟨ar _, ⟨hid 'x' (by decide), by decide⟩, rfl, ar _, ⟨hid 'y' (by decide), by decide⟩, ar _,
        ⟨b0 _, .nil, b0 _, ⟨hid 'z' (by decide), by decide⟩, rfl, fun _ => rfl⟩⟩, trivial⟩, by decide, be _⟩
  · simp only [Laid, LaidItems, LaidKey]
    refine ⟨⟨⟨hid 'k' (by decide), by decide, b0 _, b0 _⟩, b0 _, ⟨ar _, ⟨hid 'x' (by decide), by decide⟩, rfl, ar _, ar _,
      ⟨hid 'y' (by decide), by decide⟩, rfl, ?_, ?_, fun _ => by decide, nofun⟩, fun _ => b0 _, nofun, nofun, trivial⟩,
      by decide, by simp [KeysApart, toHclItems], be _⟩
    · simp only [toHcl]; trivial
    · simp only [toHcl]; trivial

/-- What it prints. -/
example : doc.show Fa = c!"a =   [x, y.z, x ? y : -z] # c\nb \"l\" { c = {k = x - y,} }\n" := by decide +kernel

/-- The value of `a` is replaced by `null`. -/
example : ∃ b', parseBody ⟨.ascii, .debug⟩ (EBody.show Fa (.mk {} (
      .attr { decor := { suf := some (.explicit c!" # c") } } (ident 'a') (.null mc) :: doc.structs.drop 1) false false)) = .ok b' ∧
    toHclBody Fa b' = .attr c!"a" .null :: toHclStructs Fa (doc.structs.drop 1) :=
  let ⟨b', h1, _, h2⟩ := C55_set_value Fa .debug {} _ (ident 'a') _ (.null mc) false false [] _ doc_laid (by simp only [Laid])
    ⟨.blank (.inl rfl) (.blank (.inl rfl) .nil), .blank (.inl rfl) (.nil)⟩
  ⟨b', h1, h2 (by decide +kernel)⟩

/-- Does what the tree prints parse to the same content? -/
private def survives (e : EExpr) : Bool :=
  match parseExpr ⟨.ascii, .debug⟩ (e.show Fa) with
  | .ok e' => (toHcl Fa e').beq (toHcl Fa e)
  | _ => false

/-! A template that was built from scratch, with a directive and text that has to be escaped. -/

private def tmpl : EExpr := .strTmpl {} [.lit none c!"a\n", .interp none (.var {} c!"x") .start,
  .ifDir none .empty (.var {} c!"y") .none none [.lit none c!"b"]
    (some (.mk .empty .empty .none none [.lit none c!"c"])) .empty .empty .none]

private theorem safe1 (c : Char) : StringSafe [c] := by
  rintro a c d b h - - -
  have := congrArg List.length h
  simp at this
  omega

/-- The hypotheses hold. -/
private theorem tmpl_laid : Laid Fa .debug false false tmpl := by
  have be : BlankText true (some .empty) := .nil
  have ar : Around true {} := ⟨.nil, .nil⟩
  have safe : StringSafe c!"a\n" := by
    rintro a c d b h - - -
    have := congrArg List.length h
    simp at this
    omega
  simp only [tmpl, Laid, LaidElems, LaidElem, LaidElseOpt, LaidElse, TextEnds, sigilOf]
  exact ⟨⟨⟨by decide, safe, .inl trivial⟩, ⟨by decide, by decide⟩, ⟨ar, hid 'x' (by decide), by decide⟩, trivial,
    ⟨be, ar, ⟨hid 'y' (by decide), by decide⟩, ⟨⟨by decide, safe1 'b', .inr (by unfold PlainText; decide)⟩, by decide, trivial⟩,
      ⟨be, be, ⟨by decide, safe1 'c', .inr (by unfold PlainText; decide)⟩, by decide, trivial⟩, be, be⟩, trivial, trivial⟩, rfl⟩

/-- What it prints, and that this is read back. -/
example : tmpl.show Fa = c!"\"a\\n${~ x }%{ify }b%{else}c%{endif}\"" ∧
    ∃ e', parseExpr ⟨.ascii, .debug⟩ (tmpl.show Fa) = .ok e' ∧ Means .ascii .debug e' (toHcl Fa tmpl) :=
  ⟨by decide +kernel, let ⟨e', h1, h2, _⟩ := C55_expr_partial Fa .debug tmpl tmpl_laid rfl rfl; ⟨e', h1, h2⟩⟩

/-- The elements of a quoted template. -/
private def elemsOf : EExpr → List EElem
  | .strTmpl _ es => es
  | _ => []

/-- Is the printed text an expression at all? -/
private def reads (e : EExpr) : Bool :=
  match parseExpr ⟨.ascii, .debug⟩ (e.show Fa) with
  | .ok _ => true
  | _ => false

/-- The property fails of a template with a template inside it and a quote after that: what follows the
inner template is not escaped. -/
theorem C55_nested_fails :
    EExpr.show Fa (.strTmpl {} [.interp none (.strTmpl {} [.interp none (.var {} c!"x") .none]) .none, .lit none c!"\""]) =
      c!"\"${ \"${ x }\" }\"\"" ∧
    reads (.strTmpl {} [.interp none (.strTmpl {} [.interp none (.var {} c!"x") .none]) .none, .lit none c!"\""]) = false := by
  constructor <;> decide +kernel

/-- It fails of text inside a directive that has to be escaped: a line break is printed as `\n`, which is
read back as these two characters. -/
theorem C55_directive_fails : ∃ e : EExpr, EExpr.show Fa e = c!"\"%{ifx }\\n%{endif}\"" ∧
    toHclElems Fa (elemsOf e) = [.ifDir (.var c!"x") [.lit c!"\n"] none .none .none .none] ∧
    (match parseExpr ⟨.ascii, .debug⟩ (e.show Fa) with
      | .ok e' => some (toHclElems Fa (elemsOf e'))
      | _ => none) = some [.ifDir (.var c!"x") [.lit c!"\\n"] none .none .none .none] :=
  ⟨.strTmpl {} [.ifDir none .empty (.var {} c!"x") .none none [.lit none c!"\n"] none .empty .empty .none],
    by decide +kernel, rfl, rfl⟩

/-! A heredoc that was built from scratch. -/

private def here : EExpr := .heredoc {} c!"E" none [.lit none c!"a ", .interp none (.var {} c!"x") .none, .lit none c!"\n"] none .empty

/-- The hypotheses hold. -/
private theorem here_laid : Laid Fa .debug false false here := by
  have ar : Around true {} := ⟨.nil, .nil⟩
  have safe : StringSafe c!"a " := by
    rintro a c d b h - - -
    have := congrArg List.length h
    simp at this
    omega
  simp only [here, Laid, LaidElems, LaidElem, TextEnds, sigilOf]
  refine ⟨trivial, hid 'E' (by decide), ⟨⟨by decide, safe, .inl trivial⟩, ⟨by decide, by decide⟩, ⟨ar, hid 'x' (by decide), by decide⟩,
    trivial, ⟨by decide, safe1 '\n', .inl rfl⟩, by decide, trivial⟩, ⟨by decide +kernel, ?_⟩, fun _ h => (List.not_mem_nil h).elim⟩
  rintro a l h - ⟨b, r, rfl, -⟩
  have h' : showTemplate Fa [.lit none c!"a ", .interp none (.var {} c!"x") .none, .lit none c!"\n"] = c!"a ${ x }\n" := by decide +kernel
  have : 'E' ∈ c!"a ${ x }\n" := by rw [← h', h]; simp
  exact absurd this (by decide)

/-- What it prints, and that this is read back. -/
example : here.show Fa = c!"<<E\na ${ x }\nE" ∧
    ∃ e', parseExpr ⟨.ascii, .debug⟩ (here.show Fa) = .ok e' ∧ Means .ascii .debug e' (toHcl Fa here) :=
  ⟨by decide +kernel, let ⟨e', h1, h2, _⟩ := C55_expr_partial Fa .debug here here_laid rfl rfl; ⟨e', h1, h2⟩⟩

/-- The property fails of heredocs inside of a quoted template: their line breaks are escaped, too. -/
theorem C55_heredoc_fails :
    EExpr.show Fa (.strTmpl {} [.interp none here .none]) = c!"\"${ <<E\na ${ x }\\nE }\"" ∧
    reads (.strTmpl {} [.interp none here .none]) = false := by
  constructor <;> decide +kernel

/-- The property fails of `for` expressions that are built from scratch: the text `[for xin y : x]` has no
whitespace between the variable and `in`. -/
theorem C55_for_fails :
    EExpr.show Fa (.forE {} {} none (ident 'x') (.var {} c!"y") none (.var {} c!"x") false {} none) = c!"[for xin y : x]" ∧
    survives (.forE {} {} none (ident 'x') (.var {} c!"y") none (.var {} c!"x") false {} none) = false := by
  constructor <;> decide +kernel

/-- It fails of operations whose operands need parentheses: the product of `x + y` and `z` is printed as
`x + y * z`. -/
theorem C55_parentheses_fails :
    survives (.binary {} (.binary {} (.var {} c!"x") {} .plus (.var {} c!"y")) {} .mul (.var {} c!"z")) = false ∧
    survives (.trav {} (.unary {} none .not (.var {} c!"x")) [.mk {} (.getAttr (ident 'y'))]) = false := by
  constructor <;> decide +kernel

/-- It fails of an object key that is a variable, which is read as an identifier, and of a sign in front
of a number, which is read as part of the number. -/
theorem C55_key_fails :
    survives (.object {} [.mk (.expr (.var {} c!"x")) (.null {}) .equals .comma] .empty) = false ∧
    survives (.unary {} none .neg (.number {} (.posInt 1) none)) = false := by
  constructor <;> decide +kernel

end Verif.Props
