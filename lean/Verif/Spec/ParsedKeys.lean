import Verif.Spec.Content
/-! Where in a tree there are maps and which keys mention whitespace (C75). -/

namespace Verif.Spec

/-- The data of a node or a map. -/
def Content.data : Content → List Atom
  | .node _ d _ => d
  | .map d _ => d

/-- The first tree is the second one or somewhere inside it. -/
inductive Contained : Content → Content → Prop
  | self {c} : Contained c c
  | child {x k d cs c} : c ∈ cs → Contained x c → Contained x (.node k d cs)
  | key {x d es e} : e ∈ es → Contained x e.1 → Contained x (.map d es)
  | value {x d es e} : e ∈ es → Contained x e.2 → Contained x (.map d es)

/-- The whitespace and comments that belong to the content (in front of a closing bracket, around
the keyword of a template directive) are empty. -/
def RawFree (c : Content) : Prop := ∀ x, Contained x c → ∀ r, Atom.raw r ∈ x.data → r = .empty

/-- The keys of every object in the tree contain no such whitespace and comments. -/
def PlainKeys (c : Content) : Prop := ∀ d es, Contained (.map d es) c → ∀ e ∈ es, RawFree e.1

/-- Every number in the tree is well-formed. -/
def GoodNumbers (c : Content) : Prop := ∀ x, Contained x c → ∀ n, Atom.num n ∈ x.data → WellFormed n

end Verif.Spec
