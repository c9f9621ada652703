import Verif.Spec.Visit
/-!
Model of the default visitors, `crates/hcl-edit/src/visit.rs` and `visit_mut.rs`.

A visitor whose methods note the call and then do what the default method does makes the calls listed
here, in this order. Recorded are the methods for bodies, structures, labels, expressions, object
keys, traversal operators, template elements, identifiers and literals, each with its node. Not
recorded are the methods that stand between two recorded ones or do nothing by default: those for a
particular kind of expression, structure or directive (`visit_array`, `visit_attr`,
`visit_if_directive`, …), `visit_template`, `visit_object_item`, `visit_object_value`, and those for
plain values, operators and the end of directives.

`mt` selects `VisitMut`, which differs in two places: the key of an attribute is not visited, and the
method for object keys does nothing by default.
-/

namespace Verif
open Spec (Node)

/-- The visit of an identifier, `crates/hcl-edit/src/visit.rs:101`. -/
def visitIdent (d : DIdent) : List Node := [.ident d]

/-- The visit of identifiers one after the other. -/
def visitIdents : List DIdent → List Node
  | [] => []
  | d :: ds => visitIdent d ++ visitIdents ds

/-- `if let Some(key_var) = &node.key_var`, `crates/hcl-edit/src/visit.rs:372-374,476-478`. -/
def visitIdentOpt : Option DIdent → List Node
  | some d => visitIdent d
  | none => []

mutual

/-- `visit_expr`, `crates/hcl-edit/src/visit.rs:204-226`, with the functions for the kinds of
expressions: `visit_array` (228), `visit_object` (237), `visit_parenthesis` (271),
`visit_conditional` (278), `visit_unary_op` (287), `visit_binary_op` (295), `visit_traversal` (304),
`visit_func_call` (328), `visit_func_name` (336), `visit_func_args` (346), `visit_for_expr` (355),
`visit_for_intro` (369), `visit_for_cond` (380), `visit_string_template` (387) and
`visit_heredoc_template` (396). -/
def visitExpr (mt : Bool) : EExpr → List Node
  | .null m => [.expr (.null m)]
  | .bool m b => [.expr (.bool m b)]
  | .number m n r => [.expr (.number m n r)]
  | .string m s => [.expr (.string m s)]
  | .array m vs c t => .expr (.array m vs c t) :: visitList mt vs
  | .object m is t => .expr (.object m is t) :: visitItems mt is
  | .strTmpl m es => .expr (.strTmpl m es) :: visitElems mt es
  | .heredoc m d ts es i t => .expr (.heredoc m d ts es i t) :: visitElems mt es
  | .paren m e => .expr (.paren m e) :: visitExpr mt e
  | .var m x => .expr (.var m x) :: visitIdent ⟨m, x⟩
  | .cond m c t f => .expr (.cond m c t f) :: (visitExpr mt c ++ visitExpr mt t ++ visitExpr mt f)
  | .call m ns n am as c x t =>
    .expr (.call m ns n am as c x t) :: (visitIdents ns ++ visitIdent n ++ visitList mt as)
  | .trav m e os => .expr (.trav m e os) :: (visitExpr mt e ++ visitTravs mt os)
  | .unary m os o e => .expr (.unary m os o e) :: visitExpr mt e
  | .binary m l om o r => .expr (.binary m l om o r) :: (visitExpr mt l ++ visitExpr mt r)
  | .forE m im k v c ke ve g cm co =>
    .expr (.forE m im k v c ke ve g cm co) ::
      (visitIdentOpt k ++ visitIdent v ++ visitExpr mt c ++ visitOpt mt ke ++ visitExpr mt ve ++
        visitOpt mt co)
termination_by structural x => x

/-- `if let Some(expr) = …`, `crates/hcl-edit/src/visit.rs:360-366`. -/
def visitOpt (mt : Bool) : Option EExpr → List Node
  | some e => visitExpr mt e
  | none => []
termination_by structural x => x

/-- `for expr in node`, `crates/hcl-edit/src/visit.rs:232-234,350-352`. -/
def visitList (mt : Bool) : List EExpr → List Node
  | [] => []
  | e :: es => visitExpr mt e ++ visitList mt es
termination_by structural x => x

/-- `visit_object`, `visit_object_item`, `visit_object_value`,
`crates/hcl-edit/src/visit.rs:237-269`. -/
def visitItems (mt : Bool) : List EItem → List Node
  | [] => []
  | .mk k v _ _ :: is => visitKey mt k ++ visitExpr mt v ++ visitItems mt is
termination_by structural x => x

/-- `visit_object_key`, `crates/hcl-edit/src/visit.rs:253-261`; by default empty in `VisitMut`,
`crates/hcl-edit/src/visit_mut.rs:173-175`. -/
def visitKey (mt : Bool) : EKey → List Node
  | .ident d => .key (.ident d) :: (if mt then [] else visitIdent d)
  | .expr e => .key (.expr e) :: (if mt then [] else visitExpr mt e)
termination_by structural x => x

/-- The operators of `visit_traversal`, `crates/hcl-edit/src/visit.rs:309-311`. -/
def visitTravs (mt : Bool) : List ETrav → List Node
  | [] => []
  | .mk _ o :: os => visitOp mt o ++ visitTravs mt os
termination_by structural x => x

/-- `visit_traversal_operator`, `crates/hcl-edit/src/visit.rs:314-326`. -/
def visitOp (mt : Bool) : ETravOp → List Node
  | .attrSplat m => [.op (.attrSplat m)]
  | .fullSplat m => [.op (.fullSplat m)]
  | .getAttr d => .op (.getAttr d) :: visitIdent d
  | .index e => .op (.index e) :: visitExpr mt e
  | .legacyIndex m n => [.op (.legacyIndex m n)]
termination_by structural x => x

/-- `for element in node`, `crates/hcl-edit/src/visit.rs:391-393,407-409`. -/
def visitElems (mt : Bool) : List EElem → List Node
  | [] => []
  | e :: es => visitElem mt e ++ visitElems mt es
termination_by structural x => x

/-- `visit_element`, `crates/hcl-edit/src/visit.rs:412-421`, with `visit_interpolation` (423),
`visit_directive` (430), `visit_if_directive` (440), `visit_for_directive` (451),
`visit_if_template_expr` (459), `visit_else_template_expr` (467) and `visit_for_template_expr` (474).
The last one does not visit the collection. -/
def visitElem (mt : Bool) : EElem → List Node
  | .lit sp s => [.elem (.lit sp s), .literal sp s]
  | .interp sp e st => .elem (.interp sp e st) :: visitExpr mt e
  | .ifDir sp p c s ts t els ep et es =>
    .elem (.ifDir sp p c s ts t els ep et es) ::
      (visitExpr mt c ++ visitElems mt t ++ visitElseOpt mt els)
  | .forDir sp p k v c s ts t ep et es =>
    .elem (.forDir sp p k v c s ts t ep et es) ::
      (visitIdentOpt k ++ visitIdent v ++ visitElems mt t)
termination_by structural x => x

/-- `if let Some(else_template_expr) = &node.else_expr`, `crates/hcl-edit/src/visit.rs:445-447`. -/
def visitElseOpt (mt : Bool) : Option EElse → List Node
  | some e => visitElse mt e
  | none => []
termination_by structural x => x

/-- `visit_else_template_expr`, `crates/hcl-edit/src/visit.rs:467-472`. -/
def visitElse (mt : Bool) : EElse → List Node
  | .mk _ _ _ _ t => visitElems mt t
termination_by structural x => x

end

/-- `visit_block_label`, `crates/hcl-edit/src/visit.rs:194-202`. -/
def visitLabel : ELabel → List Node
  | .ident d => .label (.ident d) :: visitIdent d
  | .string m s => [.label (.string m s)]

/-- `for label in &node.labels`, `crates/hcl-edit/src/visit.rs:188-190`. -/
def visitLabels : List ELabel → List Node
  | [] => []
  | l :: ls => visitLabel l ++ visitLabels ls

mutual

/-- `visit_structure`, `crates/hcl-edit/src/visit.rs:165-173`, with `visit_attr` (175) and
`visit_block` (183); `visit_attr_mut`, `crates/hcl-edit/src/visit_mut.rs:202-207`. -/
def visitStruct (mt : Bool) : EStruct → List Node
  | .attr m k v => .struct (.attr m k v) :: ((if mt then [] else visitIdent k) ++ visitExpr mt v)
  | .block m i ls b =>
    .struct (.block m i ls b) :: (visitIdent i ++ visitLabels ls ++ visitBody mt b)
termination_by structural x => x

/-- `visit_body`, `crates/hcl-edit/src/visit.rs:156-163`. -/
def visitBody (mt : Bool) : EBody → List Node
  | .mk m ss o n => .body (.mk m ss o n) :: visitStructs mt ss
termination_by structural x => x

/-- `for structure in node`, `crates/hcl-edit/src/visit.rs:160-162`. -/
def visitStructs (mt : Bool) : List EStruct → List Node
  | [] => []
  | s :: ss => visitStruct mt s ++ visitStructs mt ss
termination_by structural x => x

end

/-- The visit of any node by the method for it. -/
def visitNode (mt : Bool) : Node → List Node
  | .body b => visitBody mt b
  | .struct s => visitStruct mt s
  | .label l => visitLabel l
  | .expr e => visitExpr mt e
  | .key k => visitKey mt k
  | .op o => visitOp mt o
  | .elem e => visitElem mt e
  | .ident d => visitIdent d
  | .literal sp s => [.literal sp s]

end Verif
