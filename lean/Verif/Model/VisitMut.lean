import Verif.Model.EditAst
/-!
Model of mutable visitors with overridden methods, `crates/hcl-edit/src/visit_mut.rs`.

A method of a visitor that is overridden may replace the node without looking inside, or call the
default function for the node and change the result. The state of the visitor is threaded through. Methods
can be overridden for bodies, structures, labels, expressions, object keys, traversal operators, template
elements, identifiers and literals. Simplifications: the methods that stand between two of them (those for
a particular kind of expression, structure or directive, `visit_template_mut`, `visit_object_item_mut`,
`visit_object_value_mut`) and those for plain values, operators and the end of directives are not
overridden; a method that calls the default function twice, or that changes the node before, is not modelled.
-/

namespace Verif

/-- An overridden method: `pre` replaces the node (`some`) or calls the default function (`none`), `post`
changes the node after the default function returns. Without arguments: the method of the trait,
`crates/hcl-edit/src/visit_mut.rs:93-111`. -/
structure Hook (σ α : Type) where
  pre : α → σ → Option (α × σ) := fun _ _ => none
  post : α → σ → α × σ := fun x s => (x, s)

/-- The call of a method for the node `x`; `dflt` is the default function on it. -/
def Hook.run {σ α : Type} (h : Hook σ α) (x : α) (dflt : σ → α × σ) (s : σ) : α × σ :=
  match h.pre x s with
  | some r => r
  | none => h.post (dflt s).1 (dflt s).2

/-- An implementation of `VisitMut`, `crates/hcl-edit/src/visit_mut.rs:116-180`. -/
structure Visitor (σ : Type) where
  body : Hook σ EBody := {}
  struct : Hook σ EStruct := {}
  label : Hook σ ELabel := {}
  expr : Hook σ EExpr := {}
  key : Hook σ EKey := {}
  op : Hook σ ETravOp := {}
  elem : Hook σ EElem := {}
  ident : Hook σ DIdent := {}
  literal : Hook σ (Option Span × Str) := {}

variable {σ : Type} (V : Visitor σ)

/-- `v.visit_ident_mut`, by default empty, `crates/hcl-edit/src/visit_mut.rs:118`. -/
def mutIdent (d : DIdent) : σ → DIdent × σ := V.ident.run d fun s => (d, s)

/-- The loop over the namespace in `visit_func_name_mut`, `crates/hcl-edit/src/visit_mut.rs:356-358`. -/
def mutIdents : List DIdent → σ → List DIdent × σ
  | [], s => ([], s)
  | d :: ds, s =>
    let r := mutIdent V d s
    let q := mutIdents ds r.2
    (r.1 :: q.1, q.2)

/-- `if let Some(key_var) = &mut node.key_var`, `crates/hcl-edit/src/visit_mut.rs:389-391,494-496`. -/
def mutIdentOpt : Option DIdent → σ → Option DIdent × σ
  | some d, s => let r := mutIdent V d s; (some r.1, r.2)
  | none, s => (none, s)

/-- `v.visit_object_key_mut`, by default empty, `crates/hcl-edit/src/visit_mut.rs:173-175`. -/
def mutKey (k : EKey) : σ → EKey × σ := V.key.run k fun s => (k, s)

mutual

/-- `v.visit_expr_mut`; the default function is `visit_expr_mut`,
`crates/hcl-edit/src/visit_mut.rs:230-252`, with the functions for the kinds of expressions:
`visit_array_mut` (254), `visit_object_mut` (263), `visit_parenthesis_mut` (287),
`visit_conditional_mut` (294), `visit_unary_op_mut` (303), `visit_binary_op_mut` (311),
`visit_traversal_mut` (320), `visit_func_call_mut` (344), `visit_func_name_mut` (352),
`visit_func_args_mut` (362), `visit_for_expr_mut` (371), `visit_for_intro_mut` (385),
`visit_for_cond_mut` (396), `visit_string_template_mut` (403) and `visit_heredoc_template_mut` (412). -/
def mutExpr : EExpr → σ → EExpr × σ
  | .null m => V.expr.run (.null m) fun s => (.null m, s)
  | .bool m b => V.expr.run (.bool m b) fun s => (.bool m b, s)
  | .number m n r => V.expr.run (.number m n r) fun s => (.number m n r, s)
  | .string m x => V.expr.run (.string m x) fun s => (.string m x, s)
  | .array m vs c t => V.expr.run (.array m vs c t) fun s =>
      let r := mutList vs s
      (.array m r.1 c t, r.2)
  | .object m is t => V.expr.run (.object m is t) fun s =>
      let r := mutItems is s
      (.object m r.1 t, r.2)
  | .strTmpl m es => V.expr.run (.strTmpl m es) fun s =>
      let r := mutElems es s
      (.strTmpl m r.1, r.2)
  | .heredoc m d ts es i t => V.expr.run (.heredoc m d ts es i t) fun s =>
      let r := mutElems es s
      (.heredoc m d ts r.1 i t, r.2)
  | .paren m e => V.expr.run (.paren m e) fun s =>
      let r := mutExpr e s
      (.paren m r.1, r.2)
  | .var m x => V.expr.run (.var m x) fun s =>
      let r := mutIdent V ⟨m, x⟩ s
      (.var r.1.m r.1.name, r.2)
  | .cond m c t f => V.expr.run (.cond m c t f) fun s =>
      let r₁ := mutExpr c s
      let r₂ := mutExpr t r₁.2
      let r₃ := mutExpr f r₂.2
      (.cond m r₁.1 r₂.1 r₃.1, r₃.2)
  | .call m ns n am as c x t => V.expr.run (.call m ns n am as c x t) fun s =>
      let r₁ := mutIdents V ns s
      let r₂ := mutIdent V n r₁.2
      let r₃ := mutList as r₂.2
      (.call m r₁.1 r₂.1 am r₃.1 c x t, r₃.2)
  | .trav m e os => V.expr.run (.trav m e os) fun s =>
      let r₁ := mutExpr e s
      let r₂ := mutTravs os r₁.2
      (.trav m r₁.1 r₂.1, r₂.2)
  | .unary m os o e => V.expr.run (.unary m os o e) fun s =>
      let r := mutExpr e s
      (.unary m os o r.1, r.2)
  | .binary m l om o r => V.expr.run (.binary m l om o r) fun s =>
      let r₁ := mutExpr l s
      let r₂ := mutExpr r r₁.2
      (.binary m r₁.1 om o r₂.1, r₂.2)
  | .forE m im k v c ke ve g cm co => V.expr.run (.forE m im k v c ke ve g cm co) fun s =>
      let r₁ := mutIdentOpt V k s
      let r₂ := mutIdent V v r₁.2
      let r₃ := mutExpr c r₂.2
      let r₄ := mutOpt ke r₃.2
      let r₅ := mutExpr ve r₄.2
      let r₆ := mutOpt co r₅.2
      (.forE m im r₁.1 r₂.1 r₃.1 r₄.1 r₅.1 g cm r₆.1, r₆.2)
termination_by structural x => x

/-- `if let Some(expr) = …`, `crates/hcl-edit/src/visit_mut.rs:376-382`. -/
def mutOpt : Option EExpr → σ → Option EExpr × σ
  | some e => fun s => let r := mutExpr e s; (some r.1, r.2)
  | none => fun s => (none, s)
termination_by structural x => x

/-- `for expr in &mut *node`, `crates/hcl-edit/src/visit_mut.rs:258-260,366-368`. -/
def mutList : List EExpr → σ → List EExpr × σ
  | [] => fun s => ([], s)
  | e :: es => fun s =>
    let r := mutExpr e s
    let q := mutList es r.2
    (r.1 :: q.1, q.2)
termination_by structural x => x

/-- `visit_object_mut`, `visit_object_item_mut`, `visit_object_value_mut`,
`crates/hcl-edit/src/visit_mut.rs:263-285`. -/
def mutItems : List EItem → σ → List EItem × σ
  | [] => fun s => ([], s)
  | .mk k v a t :: is => fun s =>
    let r₁ := mutKey V k s
    let r₂ := mutExpr v r₁.2
    let q := mutItems is r₂.2
    (.mk r₁.1 r₂.1 a t :: q.1, q.2)
termination_by structural x => x

/-- The operators of `visit_traversal_mut`, `crates/hcl-edit/src/visit_mut.rs:325-327`. -/
def mutTravs : List ETrav → σ → List ETrav × σ
  | [] => fun s => ([], s)
  | .mk m o :: os => fun s =>
    let r := mutOp o s
    let q := mutTravs os r.2
    (.mk m r.1 :: q.1, q.2)
termination_by structural x => x

/-- `v.visit_traversal_operator_mut`; the default function is `visit_traversal_operator_mut`,
`crates/hcl-edit/src/visit_mut.rs:330-342`. -/
def mutOp : ETravOp → σ → ETravOp × σ
  | .attrSplat m => V.op.run (.attrSplat m) fun s => (.attrSplat m, s)
  | .fullSplat m => V.op.run (.fullSplat m) fun s => (.fullSplat m, s)
  | .getAttr d => V.op.run (.getAttr d) fun s =>
      let r := mutIdent V d s
      (.getAttr r.1, r.2)
  | .index e => V.op.run (.index e) fun s =>
      let r := mutExpr e s
      (.index r.1, r.2)
  | .legacyIndex m n => V.op.run (.legacyIndex m n) fun s => (.legacyIndex m n, s)
termination_by structural x => x

/-- `for element in &mut *node`, `crates/hcl-edit/src/visit_mut.rs:407-409,423-425`. -/
def mutElems : List EElem → σ → List EElem × σ
  | [] => fun s => ([], s)
  | e :: es => fun s =>
    let r := mutElem e s
    let q := mutElems es r.2
    (r.1 :: q.1, q.2)
termination_by structural x => x

/-- `v.visit_element_mut`; the default function is `visit_element_mut`,
`crates/hcl-edit/src/visit_mut.rs:428-437`, with `visit_interpolation_mut` (439), `visit_directive_mut`
(446), `visit_if_directive_mut` (456), `visit_for_directive_mut` (467), `visit_if_template_expr_mut` (475)
and `visit_for_template_expr_mut` (490). The last one does not visit the collection. -/
def mutElem : EElem → σ → EElem × σ
  | .lit sp x => V.elem.run (.lit sp x) fun s =>
      let r := V.literal.run (sp, x) (fun s => ((sp, x), s)) s
      (.lit r.1.1 r.1.2, r.2)
  | .interp sp e st => V.elem.run (.interp sp e st) fun s =>
      let r := mutExpr e s
      (.interp sp r.1 st, r.2)
  | .ifDir sp p c st ts t els ep et es => V.elem.run (.ifDir sp p c st ts t els ep et es) fun s =>
      let r₁ := mutExpr c s
      let r₂ := mutElems t r₁.2
      let r₃ := mutElseOpt els r₂.2
      (.ifDir sp p r₁.1 st ts r₂.1 r₃.1 ep et es, r₃.2)
  | .forDir sp p k v c st ts t ep et es => V.elem.run (.forDir sp p k v c st ts t ep et es) fun s =>
      let r₁ := mutIdentOpt V k s
      let r₂ := mutIdent V v r₁.2
      let r₃ := mutElems t r₂.2
      (.forDir sp p r₁.1 r₂.1 c st ts r₃.1 ep et es, r₃.2)
termination_by structural x => x

/-- `if let Some(else_template_expr) = &mut node.else_expr`,
`crates/hcl-edit/src/visit_mut.rs:461-463`. -/
def mutElseOpt : Option EElse → σ → Option EElse × σ
  | some e => fun s => let r := mutElse e s; (some r.1, r.2)
  | none => fun s => (none, s)
termination_by structural x => x

/-- `visit_else_template_expr_mut`, `crates/hcl-edit/src/visit_mut.rs:483-488`. -/
def mutElse : EElse → σ → EElse × σ
  | .mk p t st ts es => fun s =>
    let r := mutElems es s
    (.mk p t st ts r.1, r.2)
termination_by structural x => x

end

/-- `v.visit_block_label_mut`; the default function is `visit_block_label_mut`,
`crates/hcl-edit/src/visit_mut.rs:220-228`. -/
def mutLabel : ELabel → σ → ELabel × σ
  | .ident d => V.label.run (.ident d) fun s => let r := mutIdent V d s; (.ident r.1, r.2)
  | .string m x => V.label.run (.string m x) fun s => (.string m x, s)

/-- `for label in &mut node.labels`, `crates/hcl-edit/src/visit_mut.rs:214-216`. -/
def mutLabels : List ELabel → σ → List ELabel × σ
  | [], s => ([], s)
  | l :: ls, s =>
    let r := mutLabel V l s
    let q := mutLabels ls r.2
    (r.1 :: q.1, q.2)

mutual

/-- `v.visit_structure_mut`; the default function is `visit_structure_mut`,
`crates/hcl-edit/src/visit_mut.rs:191-200`, with `visit_attr_mut` (202) and `visit_block_mut` (209). -/
def mutStruct : EStruct → σ → EStruct × σ
  | .attr m k v => V.struct.run (.attr m k v) fun s =>
      let r := mutExpr V v s
      (.attr m k r.1, r.2)
  | .block m i ls b => V.struct.run (.block m i ls b) fun s =>
      let r₁ := mutIdent V i s
      let r₂ := mutLabels V ls r₁.2
      let r₃ := mutBody b r₂.2
      (.block m r₁.1 r₂.1 r₃.1, r₃.2)
termination_by structural x => x

/-- `v.visit_body_mut`; the default function is `visit_body_mut`,
`crates/hcl-edit/src/visit_mut.rs:182-189`. -/
def mutBody : EBody → σ → EBody × σ
  | .mk m ss o n => V.body.run (.mk m ss o n) fun s =>
      let r := mutStructs ss s
      (.mk m r.1 o n, r.2)
termination_by structural x => x

/-- `for structure in &mut *node`, `crates/hcl-edit/src/visit_mut.rs:186-188`. -/
def mutStructs : List EStruct → σ → List EStruct × σ
  | [] => fun s => ([], s)
  | x :: xs => fun s =>
    let r := mutStruct x s
    let q := mutStructs xs r.2
    (r.1 :: q.1, q.2)
termination_by structural x => x

end

end Verif
