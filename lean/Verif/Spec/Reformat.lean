import Verif.Spec.Printable
/-!
The contents of documents that stay the same when the document is read, formatted and read again (C82). What is
required here is only what formatting does not keep of some texts. That names are identifiers, that operands need no
parentheses and so on is not required: it is shown of everything that can be read.
-/

namespace Verif.Spec
open Syn

section
variable (E : FmtEnv) (bd : Build) (cfg : FmtCfg)

mutual

/-- Expressions without what the formatter does not keep: floats that are not printed exactly and `-0`, strings with
unusual markers (C13), `for` as the start of an array or object, object keys that are not certainly different, items that
are taken for a continuation of the one in front, a legacy index behind a number, and templates whose text means
something else in quotes or whose indentation was removed. -/
def Tame : Expr → Prop
  | .null => True
  | .bool _ => True
  | .number n => NumberSafe E bd n
  | .string s => StringSafe s
  | .array es => TameList es ∧ headStartsFor es = false
  | .object es => TameItems es ∧ headKeyStartsFor es = false ∧ KeysApart (es.map Prod.fst) ∧ ItemsSeparate es
  | .template (.quoted s) => ∃ es, Tmpl E.U bd false es s ∧ Tmpl E.U bd true es s ∧ es.all isText = false
  | .template (.heredoc d s i) => i = .none ∧ HeredocText E.U d s ∧ ∃ es, Tmpl E.U bd false es s
  | .var _ => True
  | .traversal e os => Tame e ∧ TameOps os ∧ (isNumber e = true → legacyFirst os = false)
  | .call _ es _ => TameList es
  | .paren e => Tame e
  | .cond c a b => Tame c ∧ Tame a ∧ Tame b
  | .unary _ e => Tame e
  | .binary l _ r => Tame l ∧ Tame r
  | .forE _ _ c ke ve _ ce => Tame c ∧ TameOpt ke ∧ Tame ve ∧ TameOpt ce
termination_by structural x => x

def TameOpt : Option Expr → Prop
  | none => True
  | some e => Tame e
termination_by structural x => x

def TameList : List Expr → Prop
  | [] => True
  | e :: es => Tame e ∧ TameList es
termination_by structural x => x

def TameItems : List (ObjKey × Expr) → Prop
  | [] => True
  | (k, v) :: es => TameKey k ∧ Tame v ∧ TameItems es
termination_by structural x => x

/-- With `prefer_ident_keys` a string that is an identifier is written as one. -/
def TameKey : ObjKey → Prop
  | .ident _ => True
  | .expr e => Tame e ∧ (cfg.preferIdentKeys = true → ∀ s, e = .string s → ¬ IsIdentifier E.U s)
termination_by structural x => x

def TameOps : List TravOp → Prop
  | [] => True
  | o :: os => TameOp o ∧ TameOps os
termination_by structural x => x

def TameOp : TravOp → Prop
  | .index e => Tame e
  | .attrSplat => True
  | .fullSplat => True
  | .getAttr _ => True
  | .legacyIndex _ => True
termination_by structural x => x

end

mutual

/-- The same for structures. -/
def TameStruct : Struct → Prop
  | .attr _ e => Tame E bd cfg e
  | .block _ ls b => (∀ s, Label.string s ∈ ls → StringSafe s) ∧ TameBody b
termination_by structural x => x

/-- And for bodies. -/
def TameBody : List Struct → Prop
  | [] => True
  | s :: ss => TameStruct s ∧ TameBody ss
termination_by structural x => x

end

mutual

/-- The same for the elements of templates. -/
def TameElem : Elem → Prop
  | .lit s => StringSafe s
  | .interp e _ => Tame E bd cfg e
  | .ifDir c t f _ _ _ => Tame E bd cfg c ∧ TameElems t ∧ TameElse f
  | .forDir _ _ c t _ _ => Tame E bd cfg c ∧ TameElems t
termination_by structural x => x

/-- And for templates. -/
def TameElems : List Elem → Prop
  | [] => True
  | e :: es => TameElem e ∧ TameElems es
termination_by structural x => x

/-- The second branch of an `if` directive. -/
def TameElse : Option (List Elem) → Prop
  | none => True
  | some t => TameElems t
termination_by structural x => x

end

end

end Verif.Spec
