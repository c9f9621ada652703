import Verif.Spec.Canon
import Verif.Spec.Decorated
/-! What C77 talks about: trees that are the same except for one expression, or for a run of attributes and
blocks. -/

namespace Verif.Spec
open Verif

/-- `e'` is `e` with `y` in one place where `e` has `x`. The place is not inside of a template. -/
inductive Swap (x y : EExpr) : EExpr → EExpr → Prop
  | here : Swap x y x y
  | array {m xs e e' ys c t} : Swap x y e e' →
      Swap x y (.array m (xs ++ e :: ys) c t) (.array m (xs ++ e' :: ys) c t)
  | key {m xs e e' v a i ys t} : Swap x y e e' →
      Swap x y (.object m (xs ++ .mk (.expr e) v a i :: ys) t) (.object m (xs ++ .mk (.expr e') v a i :: ys) t)
  | value {m xs k e e' a i ys t} : Swap x y e e' →
      Swap x y (.object m (xs ++ .mk k e a i :: ys) t) (.object m (xs ++ .mk k e' a i :: ys) t)
  | paren {m e e'} : Swap x y e e' → Swap x y (.paren m e) (.paren m e')
  | cond {m e e' t f} : Swap x y e e' → Swap x y (.cond m e t f) (.cond m e' t f)
  | whenTrue {m c e e' f} : Swap x y e e' → Swap x y (.cond m c e f) (.cond m c e' f)
  | whenFalse {m c t e e'} : Swap x y e e' → Swap x y (.cond m c t e) (.cond m c t e')
  | arg {m ns n am xs e e' ys c ex t} : Swap x y e e' →
      Swap x y (.call m ns n am (xs ++ e :: ys) c ex t) (.call m ns n am (xs ++ e' :: ys) c ex t)
  | operand {m e e' os} : Swap x y e e' → Swap x y (.trav m e os) (.trav m e' os)
  | index {m o xs om e e' ys} : Swap x y e e' →
      Swap x y (.trav m o (xs ++ .mk om (.index e) :: ys)) (.trav m o (xs ++ .mk om (.index e') :: ys))
  | unary {m sp o e e'} : Swap x y e e' → Swap x y (.unary m sp o e) (.unary m sp o e')
  | lhs {m e e' om o r} : Swap x y e e' → Swap x y (.binary m e om o r) (.binary m e' om o r)
  | rhs {m l om o e e'} : Swap x y e e' → Swap x y (.binary m l om o e) (.binary m l om o e')
  | coll {m im k v e e' ke ve g cm co} : Swap x y e e' →
      Swap x y (.forE m im k v e ke ve g cm co) (.forE m im k v e' ke ve g cm co)
  | forKey {m im k v c e e' ve g cm co} : Swap x y e e' →
      Swap x y (.forE m im k v c (some e) ve g cm co) (.forE m im k v c (some e') ve g cm co)
  | forValue {m im k v c ke e e' g cm co} : Swap x y e e' →
      Swap x y (.forE m im k v c ke e g cm co) (.forE m im k v c ke e' g cm co)
  | forCond {m im k v c ke ve g cm e e'} : Swap x y e e' →
      Swap x y (.forE m im k v c ke ve g cm (some e)) (.forE m im k v c ke ve g cm (some e'))

/-- The same for an attribute or a block, at any depth of blocks. -/
inductive SwapStruct (x y : EExpr) : EStruct → EStruct → Prop
  | attr {m k e e'} : Swap x y e e' → SwapStruct x y (.attr m k e) (.attr m k e')
  | block {m i ls bm xs z z' ys o om} : SwapStruct x y z z' →
      SwapStruct x y (.block m i ls (.mk bm (xs ++ z :: ys) o om)) (.block m i ls (.mk bm (xs ++ z' :: ys) o om))

/-- The same for a document. -/
inductive SwapBody (x y : EExpr) : EBody → EBody → Prop
  | mk {m xs z z' ys o om} : SwapStruct x y z z' →
      SwapBody x y (.mk m (xs ++ z :: ys) o om) (.mk m (xs ++ z' :: ys) o om)

mutual

/-- `v` is `u` with `y` in one place where `u` has `x`, and this place is all of `u`, or it is in a template that is `u`.
(With `Swap` for what is around `u`, this is any place.) A heredoc whose indentation was removed when it was read is not
included: it is printed with the indentation in front of every line. -/
inductive InPlaceOf (x y : EExpr) : EExpr → EExpr → Prop
  | here : InPlaceOf x y x y
  | quoted {m xs l l' ys} : SwapElem x y l l' → InPlaceOf x y (.strTmpl m (xs ++ l :: ys)) (.strTmpl m (xs ++ l' :: ys))
  | heredoc {m d s xs l l' ys t} : SwapElem x y l l' →
      InPlaceOf x y (.heredoc m d s (xs ++ l :: ys) none t) (.heredoc m d s (xs ++ l' :: ys) none t)

/-- The same for the elements of templates. -/
inductive SwapElem (x y : EExpr) : EElem → EElem → Prop
  | interp {s u v e e' st} : InPlaceOf x y u v → Swap u v e e' → SwapElem x y (.interp s e st) (.interp s e' st)
  | ifCond {s p u v e e' st ts t el ep et est} : InPlaceOf x y u v → Swap u v e e' →
      SwapElem x y (.ifDir s p e st ts t el ep et est) (.ifDir s p e' st ts t el ep et est)
  | ifTrue {s p c st ts xs l l' ys el ep et est} : SwapElem x y l l' →
      SwapElem x y (.ifDir s p c st ts (xs ++ l :: ys) el ep et est) (.ifDir s p c st ts (xs ++ l' :: ys) el ep et est)
  | ifFalse {s p c st ts t lp lt ls lts xs l l' ys ep et est} : SwapElem x y l l' →
      SwapElem x y (.ifDir s p c st ts t (some (.mk lp lt ls lts (xs ++ l :: ys))) ep et est)
        (.ifDir s p c st ts t (some (.mk lp lt ls lts (xs ++ l' :: ys))) ep et est)
  | coll {s p k n u v e e' st ts t ep et est} : InPlaceOf x y u v → Swap u v e e' →
      SwapElem x y (.forDir s p k n e st ts t ep et est) (.forDir s p k n e' st ts t ep et est)
  | forBody {s p k n c st ts xs l l' ys ep et est} : SwapElem x y l l' →
      SwapElem x y (.forDir s p k n c st ts (xs ++ l :: ys) ep et est) (.forDir s p k n c st ts (xs ++ l' :: ys) ep et est)

end

/-- The block has `ms'` in one place where the other has `ms`, in its own body or in that of a block inside.
The body is not written on one line. -/
inductive EditStruct (ms ms' : List EStruct) : EStruct → EStruct → Prop
  | body {m i ls bm xs ys om} : EditStruct ms ms' (.block m i ls (.mk bm (xs ++ ms ++ ys) false om))
      (.block m i ls (.mk bm (xs ++ ms' ++ ys) false om))
  | block {m i ls bm xs z z' ys o om} : EditStruct ms ms' z z' →
      EditStruct ms ms' (.block m i ls (.mk bm (xs ++ z :: ys) o om)) (.block m i ls (.mk bm (xs ++ z' :: ys) o om))

/-- The same for a document. At its end the document must have a final newline. -/
inductive EditBody (ms ms' : List EStruct) : EBody → EBody → Prop
  | body {m xs ys o om} : om = false ∨ ys ≠ [] →
      EditBody ms ms' (.mk m (xs ++ ms ++ ys) o om) (.mk m (xs ++ ms' ++ ys) o om)
  | block {m xs z z' ys o om} : EditStruct ms ms' z z' →
      EditBody ms ms' (.mk m (xs ++ z :: ys) o om) (.mk m (xs ++ z' :: ys) o om)

/-- The lines of attributes and blocks: each with a newline. -/
def linesText (F : FmtEnv) : List EStruct → Str
  | [] => []
  | x :: xs => (x.enc F [] [] false).1 ++ '\n' :: linesText F xs

/-- What is printed between the braces of a block that is marked as a block on one line. -/
def onelineText (F : FmtEnv) : List EStruct → Str
  | [] => []
  | [.attr m k e] => ((EStruct.attr m k e).enc F c!" " c!" " false).1
  | ss => '\n' :: linesText F ss

/-- The prefix or the suffix is printed as nothing or a blank if there is none. -/
def NoneOrBlank (d : Str) : Prop := d = [] ∨ d = c!" "

/-- What an expression is printed as, with its prefix and suffix, or `p` and `q` instead of them. -/
def exprText (F : FmtEnv) (p q : Str) (e : EExpr) : Str := (e.enc F p q false).1

/-- What an expression is printed as inside of a template, whose text is escaped if `f` is set: the text of a heredoc in
the expression is then escaped, too. -/
def innerText (F : FmtEnv) (f : Bool) (p q : Str) (e : EExpr) : Str := (e.enc F p q f).1

/-- What an expression is printed as, without its prefix and suffix. -/
def bareText (F : FmtEnv) (e : EExpr) : Str := (e.core F false).1

end Verif.Spec
