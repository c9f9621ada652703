import Verif.Spec.Convert
import Verif.Spec.Ser
import Verif.Model.De
/-!
Specification vocabulary for deserialization: what a type gives for an input, and which expressions and
bodies are well formed.
-/

namespace Verif.Spec
open Verif

/-- `T::deserialize(s)` returns `Ok(d)`. -/
def Deserializes (E : FmtEnv) (t : Ty) (s : Src) (d : Datum) : Prop := ∃ n, De.de E n t s = .ok d

/-- `T::deserialize(s)` returns an error. -/
def Rejected (E : FmtEnv) (t : Ty) (s : Src) : Prop := ∃ n, De.de E n t s = .err

/-- The delimiter of a heredoc is an identifier. -/
def SoundTmpl (U : Uni) : TmplExpr → Prop
  | .quoted _ => True
  | .heredoc d _ _ => IsIdentifier U d

mutual

/-- The expression is one that the types of this crate allow: its numbers are well formed (see `C10`), the
keys of each object differ (`VecMap` has each key once), and what has to be an identifier is one. Only
`Identifier::unchecked` makes identifiers that are none. -/
def Sound (U : Uni) : Expr → Prop
  | .null => True
  | .bool _ => True
  | .number n => WellFormed n
  | .string _ => True
  | .array es => SoundList U es
  | .object es => SoundEntries U es ∧ KeysDiffer es
  | .template t => SoundTmpl U t
  | .var x => IsIdentifier U x
  | .traversal e os => Sound U e ∧ SoundOps U os
  | .call n es _ => (∀ y ∈ n.namespaces, IsIdentifier U y) ∧ IsIdentifier U n.name ∧ SoundList U es
  | .paren e => Sound U e
  | .cond c t f => Sound U c ∧ Sound U t ∧ Sound U f
  | .unary _ e => Sound U e
  | .binary l _ r => Sound U l ∧ Sound U r
  | .forE k v c ke ve _ ce => (∀ x, k = some x → IsIdentifier U x) ∧ IsIdentifier U v ∧ Sound U c ∧
      SoundOpt U ke ∧ Sound U ve ∧ SoundOpt U ce
termination_by structural x => x

def SoundOpt (U : Uni) : Option Expr → Prop
  | none => True
  | some e => Sound U e
termination_by structural x => x

def SoundList (U : Uni) : List Expr → Prop
  | [] => True
  | e :: es => Sound U e ∧ SoundList U es
termination_by structural x => x

def SoundEntries (U : Uni) : List (ObjKey × Expr) → Prop
  | [] => True
  | (k, v) :: es => SoundKey U k ∧ Sound U v ∧ SoundEntries U es
termination_by structural x => x

def SoundKey (U : Uni) : ObjKey → Prop
  | .ident x => IsIdentifier U x
  | .expr e => Sound U e
termination_by structural x => x

def SoundOps (U : Uni) : List TravOp → Prop
  | [] => True
  | o :: os => SoundOp U o ∧ SoundOps U os
termination_by structural x => x

def SoundOp (U : Uni) : TravOp → Prop
  | .attrSplat => True
  | .fullSplat => True
  | .getAttr x => IsIdentifier U x
  | .legacyIndex i => i < 2 ^ 64
  | .index e => Sound U e
termination_by structural x => x

end

/-- The label is a string, or an identifier. -/
def SoundLabel (U : Uni) : Label → Prop
  | .ident x => IsIdentifier U x
  | .string _ => True

mutual

/-- The structure is one that the types of this crate allow. -/
def SoundStruct (U : Uni) : Struct → Prop
  | .attr x e => IsIdentifier U x ∧ Sound U e
  | .block x ls b => IsIdentifier U x ∧ (∀ l ∈ ls, SoundLabel U l) ∧ SoundBody U b
termination_by structural x => x

/-- The body is one that the types of this crate allow. -/
def SoundBody (U : Uni) : List Struct → Prop
  | [] => True
  | s :: ss => SoundStruct U s ∧ SoundBody U ss
termination_by structural x => x

end

/-- The key is an identifier or a string. -/
def NamedKey : ObjKey → Prop
  | .ident _ => True
  | .expr (.string _) => True
  | .expr _ => False

mutual

/-- The keys of all objects in the expression are identifiers or strings, and the numbers are well formed.
Operations, calls and so on count as text, whatever is in them. -/
def Named : Expr → Prop
  | .number n => WellFormed n
  | .array es => NamedList es
  | .object es => NamedEntries es
  | .paren e => Named e
  | _ => True
termination_by structural x => x

def NamedList : List Expr → Prop
  | [] => True
  | e :: es => Named e ∧ NamedList es
termination_by structural x => x

def NamedEntries : List (ObjKey × Expr) → Prop
  | [] => True
  | (k, v) :: es => NamedKey k ∧ Named v ∧ NamedEntries es
termination_by structural x => x

end

mutual

/-- `Named` for the values of all attributes. -/
def NamedStruct : Struct → Prop
  | .attr _ e => Named e
  | .block _ _ b => NamedBody b
termination_by structural x => x

def NamedBody : List Struct → Prop
  | [] => True
  | s :: ss => NamedStruct s ∧ NamedBody ss
termination_by structural x => x

end

end Verif.Spec
