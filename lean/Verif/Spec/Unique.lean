import Verif.Spec.Source
/-! Bodies in which no attribute is defined twice (C20). -/

namespace Verif.Spec

/-- No two attributes of the body have the same key, nor do two attributes of a block in it, and so
on for the blocks inside the blocks. -/
inductive UniqueKeys : EBody → Prop
  | mk {m ss o n} : (bodyKeys ss).Nodup →
      (∀ bm i ls b, EStruct.block bm i ls b ∈ ss → UniqueKeys b) → UniqueKeys (.mk m ss o n)

end Verif.Spec
