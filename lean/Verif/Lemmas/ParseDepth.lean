import Verif.Model.EditParse
/-! The bound on the depth of the recursion has no influence on the result of the parsers, unless it is exceeded. -/

namespace Verif
namespace P

/-- The second result is the first one, unless the first one is that the fuel was not enough. -/
def Sub (r r' : Res α) : Prop := r = .oof ∨ r = r'

/-- The same for parsers. -/
def PSub (p q : P α) : Prop := ∀ i, Sub (p i) (q i)




theorem PSub.rfl {p : P α} : PSub p p := fun _ => .inr _root_.rfl

theorem psub_oof {q : P α} : PSub oof q := fun _ => .inl _root_.rfl

theorem PSub.bind' {p q : P α} {f g : α → P β} (h : PSub p q) (hf : ∀ a, PSub (f a) (g a)) :
    PSub (P.bind p f) (P.bind q g) := by
  intro i
  unfold P.bind
  rcases h i with h | h
  · rw [h]; exact .inl _root_.rfl
  · rw [← h]
    cases p i with
    | ok a j => exact hf a j
    | _ => exact .inr _root_.rfl

theorem PSub.bind {p q : P α} {f g : α → P β} (h : PSub p q) (hf : ∀ a, PSub (f a) (g a)) :
    PSub (p >>= f) (q >>= g) := h.bind' hf

theorem PSub.map {p q : P α} {f : α → β} (h : PSub p q) : PSub (P.map f p) (P.map f q) := h.bind' fun _ => .rfl

/-- For combinators that run a parser and look at the result. -/
theorem PSub.run {p q : P α} {F : Input → Res α → Res β} (hF : ∀ i, F i .oof = .oof) (h : PSub p q) :
    PSub (fun i => F i (p i)) (fun i => F i (q i)) := by
  intro i
  rcases h i with h | h
  · exact .inl (by simp only [h, hF])
  · exact .inr (by simp only [h])

theorem PSub.cutErr {p q : P α} (h : PSub p q) : PSub (cutErr p) (cutErr q) := by
  intro i; unfold P.cutErr
  rcases h i with h | h
  · rw [h]; exact .inl _root_.rfl
  · rw [h]; exact .inr _root_.rfl

theorem PSub.opt {p q : P α} (h : PSub p q) : PSub (opt p) (opt q) := by
  intro i; unfold P.opt
  rcases h i with h | h
  · rw [h]; exact .inl _root_.rfl
  · rw [h]; exact .inr _root_.rfl

theorem PSub.peek {p q : P α} (h : PSub p q) : PSub (peek p) (peek q) := by
  intro i; unfold P.peek
  rcases h i with h | h
  · rw [h]; exact .inl _root_.rfl
  · rw [h]; exact .inr _root_.rfl

theorem PSub.withSpan {p q : P α} (h : PSub p q) : PSub (withSpan p) (withSpan q) := by
  intro i; unfold P.withSpan
  rcases h i with h | h
  · rw [h]; exact .inl _root_.rfl
  · rw [h]; exact .inr _root_.rfl

theorem PSub.spanOf {p q : P α} (h : PSub p q) : PSub (spanOf p) (spanOf q) := h.withSpan.map

theorem PSub.alt {p q p' q' : P α} (h : PSub p q) (h' : PSub p' q') : PSub (alt p p') (alt q q') := by
  intro i; unfold P.alt
  rcases h i with h | h
  · rw [h]; exact .inl _root_.rfl
  · rw [← h]
    cases p i with
    | back j => exact h' i
    | _ => exact .inr _root_.rfl

theorem PSub.preceded {p q : P α} {p' q' : P β} (h : PSub p q) (h' : PSub p' q') : PSub (preceded p p') (preceded q q') :=
  h.bind' fun _ => h'

theorem PSub.terminated {p q : P α} {p' q' : P β} (h : PSub p q) (h' : PSub p' q') :
    PSub (terminated p p') (terminated q q') := h.bind' fun _ => h'.bind' fun _ => .rfl

theorem PSub.delimited {p q : P α} {p' q' : P β} {p₃ q₃ : P γ} (h : PSub p q) (h' : PSub p' q') (h₃ : PSub p₃ q₃) :
    PSub (delimited p p' p₃) (delimited q q' q₃) := h.preceded (h'.terminated h₃)

theorem PSub.repeatF {p q : P α} (h : PSub p q) : ∀ n, PSub (repeatF p n) (repeatF q n)
  | 0 => .rfl
  | n + 1 => by
    intro i
    rw [P.repeatF, P.repeatF]
    dsimp only
    rcases h i with hi | hi
    · rw [hi]; exact .inl _root_.rfl
    · rw [← hi]
      cases p i with
      | ok a j =>
        dsimp only
        split
        · rcases h.repeatF n j with hj | hj
          · rw [hj]; exact .inl _root_.rfl
          · rw [hj]; exact .inr _root_.rfl
        · exact .inr _root_.rfl
      | _ => exact .inr _root_.rfl

theorem PSub.repeat0 {p q : P α} (h : PSub p q) : PSub (repeat0 p) (repeat0 q) := fun i => h.repeatF _ i

theorem PSub.repeat1 {p q : P α} (h : PSub p q) : PSub (repeat1 p) (repeat1 q) := h.bind' fun _ => h.repeat0.map

theorem PSub.sepF {p q : P α} {sep : P β} (h : PSub p q) : ∀ n, PSub (sepF p sep n) (sepF q sep n)
  | 0 => .rfl
  | n + 1 => by
    intro i
    rw [P.sepF, P.sepF]
    dsimp only
    have h' : PSub (P.bind sep fun _ => p) (P.bind sep fun _ => q) := PSub.rfl.bind' fun _ => h
    rcases h' i with hi | hi
    · rw [hi]; exact .inl _root_.rfl
    · rw [← hi]
      cases P.bind sep (fun _ => p) i with
      | ok a j =>
        dsimp only
        split
        · rcases h.sepF n j with hj | hj
          · rw [hj]; exact .inl _root_.rfl
          · rw [hj]; exact .inr _root_.rfl
        · exact .inr _root_.rfl
      | _ => exact .inr _root_.rfl

theorem PSub.separated1 {p q : P α} {sep : P β} (h : PSub p q) : PSub (separated1 p sep) (separated1 q sep) :=
  h.bind' fun _ i => (h.sepF _).map i

theorem PSub.separated0 {p q : P α} {sep : P β} (h : PSub p q) : PSub (separated0 p sep) (separated0 q sep) := by
  intro i
  unfold P.separated0
  rcases h i with hi | hi
  · rw [hi]; exact .inl _root_.rfl
  · rw [← hi]
    cases p i with
    | ok a j => exact (h.sepF _).map j
    | _ => exact .inr _root_.rfl

theorem PSub.spanned [Gram.HasMeta α] {p q : P α} (h : PSub p q) : PSub (Gram.spanned p) (Gram.spanned q) := h.withSpan.map

theorem PSub.decorated [Gram.HasMeta α] {a : P β} {b : P γ} {p q : P α} (h : PSub p q) :
    PSub (Gram.decorated a p b) (Gram.decorated a q b) := PSub.rfl.bind fun _ => h.spanned.bind fun _ => .rfl

theorem PSub.prefixDecorated [Gram.HasMeta α] {a : P β} {p q : P α} (h : PSub p q) :
    PSub (Gram.prefixDecorated a p) (Gram.prefixDecorated a q) := PSub.rfl.bind fun _ => h.spanned.bind fun _ => .rfl

theorem PSub.suffixDecorated [Gram.HasMeta α] {a : P β} {p q : P α} (h : PSub p q) :
    PSub (Gram.suffixDecorated p a) (Gram.suffixDecorated q a) := h.spanned.bind fun _ => .rfl

theorem PSub.forOrItems {f f' g g' : P α} (h : PSub f f') (h' : PSub g g') : PSub (Gram.forOrItems f g) (Gram.forOrItems f' g') := by
  intro i
  unfold Gram.forOrItems
  split
  · exact h i
  · exact h' i
  · exact h' i
  · exact .inr _root_.rfl
  · exact .inr _root_.rfl

theorem PSub.control {s : Str} {p q : P α} (h : PSub p q) : PSub (Gram.control s p) (Gram.control s q) :=
  PSub.rfl.bind fun _ => PSub.rfl.bind fun _ => h.bind fun _ => .rfl

end P

namespace Gram
open P

/-- The parsers of a deeper recursion. -/
structure RSub (R R' : PRec) : Prop where
  expr : ∀ nl, PSub (R.expr nl) (R'.expr nl)
  term : ∀ nl, PSub (R.term nl) (R'.term nl)
  template : PSub R.template R'.template
  body : PSub R.body R'.body

/-- Goes through a parser. -/
macro "psub" : tactic => `(tactic| repeat' (first
  | with_reducible exact PSub.rfl | with_reducible assumption
  | with_reducible exact RSub.expr ‹_› _ | with_reducible exact RSub.term ‹_› _
  | with_reducible exact RSub.template ‹_› | with_reducible exact RSub.body ‹_›
  | with_reducible refine PSub.bind ?_ fun _ => ?_
  | with_reducible refine PSub.map ?_ | with_reducible refine PSub.withSpan ?_ | with_reducible refine PSub.opt ?_
  | with_reducible refine PSub.cutErr ?_ | with_reducible refine PSub.peek ?_
  | with_reducible refine PSub.decorated ?_ | with_reducible refine PSub.prefixDecorated ?_
  | with_reducible refine PSub.suffixDecorated ?_
  | with_reducible refine PSub.delimited ?_ ?_ ?_ | with_reducible refine PSub.terminated ?_ ?_
  | with_reducible refine PSub.preceded ?_ ?_
  | with_reducible refine PSub.separated0 ?_ | with_reducible refine PSub.separated1 ?_
  | with_reducible refine PSub.repeat1 ?_ | with_reducible refine PSub.repeat0 ?_
  | with_reducible refine PSub.alt ?_ ?_ | with_reducible refine PSub.forOrItems ?_ ?_
  | with_reducible refine PSub.control ?_
  | split))

variable {E : PEnv} {R R' : PRec} {nl : Bool}

theorem unaryOp_sub (h : RSub R R') : PSub (unaryOp R nl) (unaryOp R' nl) := by unfold unaryOp; psub
theorem bracketOperator_sub (h : RSub R R') : PSub (bracketOperator R) (bracketOperator R') := by unfold bracketOperator; psub
theorem traversalOperator_sub (h : RSub R R') : PSub (traversalOperator E R) (traversalOperator E R') := by
  have := bracketOperator_sub h
  unfold traversalOperator; psub
theorem traversalStep_sub (h : RSub R R') : PSub (traversalStep E R nl) (traversalStep E R' nl) := by
  have := traversalOperator_sub (E := E) h
  unfold traversalStep; psub
theorem traversal_sub (h : RSub R R') : PSub (traversal E R nl) (traversal E R' nl) := (traversalStep_sub h).repeat1
theorem binaryStep_sub (h : RSub R R') : PSub (binaryStep R nl) (binaryStep R' nl) := by unfold binaryStep; psub
theorem binaryOps_sub (h : RSub R R') : PSub (binaryOps R nl) (binaryOps R' nl) := (binaryStep_sub h).repeat1
theorem conditional_sub (h : RSub R R') : PSub (conditional R nl) (conditional R' nl) := by unfold conditional; psub
theorem forIntro_sub (h : RSub R R') : PSub (forIntro E R) (forIntro E R') := by unfold forIntro; psub
theorem forCond_sub (h : RSub R R') : PSub (forCond R nl) (forCond R' nl) := by unfold forCond; psub
theorem forListExpr_sub (h : RSub R R') : PSub (forListExpr E R) (forListExpr E R') := by
  have := forIntro_sub (E := E) h
  have := forCond_sub (nl := true) h
  unfold forListExpr; psub
theorem forObjectExpr_sub (h : RSub R R') : PSub (forObjectExpr E R) (forObjectExpr E R') := by
  have := forIntro_sub (E := E) h
  have := forCond_sub (nl := true) h
  unfold forObjectExpr; psub
theorem arrayItems_sub (h : RSub R R') : PSub (arrayItems R) (arrayItems R') := by unfold arrayItems; psub
theorem array_sub (h : RSub R R') : PSub (array E R) (array E R') := by
  have := forListExpr_sub (E := E) h
  have := arrayItems_sub h
  unfold array; psub
theorem objectKey_sub (h : RSub R R') : PSub (objectKey R) (objectKey R') := by unfold objectKey; psub
theorem objectValue_sub (h : RSub R R') : PSub (objectValue R) (objectValue R') := by unfold objectValue; psub
theorem objectLoop_sub (h : RSub R R') : ∀ n is, PSub (objectLoop R n is) (objectLoop R' n is)
  | 0, _ => .rfl
  | n + 1, is => by
    have h1 := objectKey_sub h
    have h2 := objectValue_sub h
    have ih := objectLoop_sub h n
    rw [objectLoop, objectLoop]
    refine PSub.rfl.bind fun _ => PSub.rfl.bind fun _ => ?_
    split
    · exact .rfl
    refine h1.bind fun _ => h2.bind fun x => PSub.rfl.bind fun _ => ?_
    split
    · exact .rfl
    exact PSub.rfl.bind fun _ => ih _
theorem object_sub (h : RSub R R') : PSub (object E R nl) (object E R' nl) := by
  have := forObjectExpr_sub (E := E) h
  have : PSub (objectItems R) (objectItems R') := fun i => objectLoop_sub h _ _ i
  unfold object; psub
theorem parenthesis_sub (h : RSub R R') : PSub (parenthesis R) (parenthesis R') := by unfold parenthesis; psub
theorem funcArgs_sub (h : RSub R R') : PSub (funcArgs R) (funcArgs R') := by unfold funcArgs; psub
theorem identlike_sub (h : RSub R R') : PSub (identlike E R nl) (identlike E R' nl) := by
  have := funcArgs_sub h
  unfold identlike; psub
theorem interpolation_sub (h : RSub R R') : PSub (interpolation R) (interpolation R') := by unfold interpolation; psub
theorem elseExpr_sub (h : RSub R R') : PSub (elseExpr R) (elseExpr R') := by unfold elseExpr; psub
theorem ifDirective_sub (h : RSub R R') : PSub (ifDirective R) (ifDirective R') := by
  have := elseExpr_sub h
  unfold ifDirective; psub
theorem forDirective_sub (h : RSub R R') : PSub (forDirective E R) (forDirective E R') := by unfold forDirective; psub
theorem element_sub (h : RSub R R') {lit : P Str} : PSub (element E R lit) (element E R' lit) := by
  have := interpolation_sub h
  have := ifDirective_sub h
  have := forDirective_sub (E := E) h
  unfold element directive; psub
theorem elements_sub (h : RSub R R') {lit : P Str} : PSub (elements E R lit) (elements E R' lit) := (element_sub h).repeat0
theorem stringTemplate_sub (h : RSub R R') : PSub (stringTemplate E R) (stringTemplate E R') :=
  PSub.rfl.delimited (elements_sub h) .rfl
theorem heredocTemplate_sub (h : RSub R R') {d : Str} : PSub (heredocTemplate E R d) (heredocTemplate E R' d) := by
  have := fun lit => elements_sub (E := E) h (lit := lit)
  unfold heredocTemplate
  exact ((this _).bind fun _ => .rfl).opt.bind fun _ => .rfl
theorem heredoc_sub (h : RSub R R') : PSub (heredoc E R) (heredoc E R') := by
  have := fun d => heredocTemplate_sub (E := E) h (d := d)
  unfold heredoc
  exact PSub.rfl.bind fun _ => (this _).withSpan.bind fun _ => .rfl
theorem stringlike_sub (h : RSub R R') : PSub (stringlike E R) (stringlike E R') := by
  have := stringTemplate_sub (E := E) h
  unfold stringlike; psub
theorem termCore_sub (h : RSub R R') : PSub (termCore E R nl) (termCore E R' nl) := by
  have := stringlike_sub (E := E) h
  have := array_sub (E := E) h
  have := object_sub (E := E) (nl := nl) h
  have := heredoc_sub (E := E) h
  have := unaryOp_sub (nl := nl) h
  have := parenthesis_sub h
  have := identlike_sub (E := E) (nl := nl) h
  unfold termCore; psub
theorem termInner_sub (h : RSub R R') : PSub (termInner E R nl) (termInner E R' nl) := by
  have h1 := termCore_sub (E := E) (nl := nl) h
  have h2 := fun nl => traversal_sub (E := E) (nl := nl) h
  unfold termInner
  refine PSub.rfl.bind fun _ => h1.withSpan.bind fun x => PSub.rfl.bind fun _ => PSub.rfl.bind fun _ => PSub.rfl.bind fun _ => ?_
  split
  · exact (h2 _).withSpan.bind fun _ => .rfl
  · exact .rfl
theorem exprLoop_sub (h : RSub R R') {st : Nat} : ∀ n e, PSub (exprLoop R st nl n e) (exprLoop R' st nl n e)
  | 0, _ => .rfl
  | n + 1, e => by
    have ih := exprLoop_sub h (st := st) n
    rw [exprLoop, exprLoop]
    refine PSub.rfl.bind fun _ => PSub.rfl.bind fun _ => PSub.rfl.bind fun _ => ?_
    split
    · exact (conditional_sub h).withSpan.bind fun _ => .rfl
    split
    · exact PSub.rfl.bind fun _ => (binaryOps_sub h).withSpan.bind fun _ => ih _
    · exact .rfl
theorem exprInner_sub (h : RSub R R') : PSub (exprInner E R nl) (exprInner E R' nl) := by
  unfold exprInner
  exact PSub.rfl.bind fun _ => (termInner_sub h).bind fun _ i => exprLoop_sub h _ _ i
theorem attributeExpr_sub (h : RSub R R') : PSub (attributeExpr R) (attributeExpr R') := by unfold attributeExpr; psub
theorem attributeP_sub (h : RSub R R') : PSub (attributeP E R) (attributeP E R') := by
  have := attributeExpr_sub h
  unfold attributeP; psub
theorem onelineBody_sub (h : RSub R R') : PSub (onelineBody E R) (onelineBody E R') := by
  have := attributeP_sub (E := E) h
  unfold onelineBody; psub
theorem blockBody_sub (h : RSub R R') : PSub (blockBody E R) (blockBody E R') := by
  have := onelineBody_sub (E := E) h
  unfold blockBody; psub
theorem structureP_sub (h : RSub R R') {ks : List Str} : PSub (structureP E R ks) (structureP E R' ks) := by
  have := attributeExpr_sub h
  have := blockBody_sub (E := E) h
  unfold structureP; psub
theorem bodyItem_sub (h : RSub R R') {ks : List Str} : PSub (bodyItem E R ks) (bodyItem E R' ks) := by
  have := structureP_sub (E := E) h (ks := ks)
  unfold bodyItem; psub
theorem bodyLoop_sub (h : RSub R R') : ∀ n ks, PSub (bodyLoop E R n ks) (bodyLoop E R' n ks)
  | 0, _ => .rfl
  | n + 1, ks => by
    intro i
    rw [bodyLoop, bodyLoop]
    dsimp only
    rcases bodyItem_sub (E := E) h (ks := ks) i with hi | hi
    · rw [hi]; exact .inl rfl
    · rw [← hi]
      cases bodyItem E R ks i with
      | ok a j =>
        dsimp only
        split
        · exact (bodyLoop_sub h n _).map j
        · exact .inr rfl
      | _ => exact .inr rfl
theorem body_sub (h : RSub R R') : PSub (body E R) (body E R') := by
  have : PSub (fun i => bodyLoop E R (i.rest.length + 1) [] i) (fun i => bodyLoop E R' (i.rest.length + 1) [] i) :=
    fun i => bodyLoop_sub h _ _ i
  unfold body
  exact this.withSpan.bind fun _ => .rfl

theorem step_sub (h : RSub R R') : RSub (R.step E) (R'.step E) :=
  ⟨fun _ => exprInner_sub h, fun _ => (termInner_sub h).map, elements_sub h, body_sub h⟩

/-- Deeper recursion changes nothing. -/
theorem parsers_sub : ∀ {n m}, n ≤ m → RSub (parsers E n) (parsers E m)
  | 0, _, _ => ⟨fun _ => psub_oof, fun _ => psub_oof, psub_oof, psub_oof⟩
  | n + 1, 0, h => absurd h (Nat.not_succ_le_zero n)
  | n + 1, m + 1, h => step_sub (parsers_sub (Nat.le_of_succ_le_succ h))

end Gram

open P Gram in
theorem parseComplete_sub {p q : P α} (h : PSub p q) {raws : α → List Raw} {d : α → α} {s : Str}
    (hp : parseComplete p raws d s ≠ .oof) : parseComplete q raws d s = parseComplete p raws d s := by
  unfold parseComplete at hp ⊢
  rcases h.terminated (q' := eof) .rfl ⟨0, s⟩ with h | h
  · rw [h] at hp; exact absurd rfl hp
  · rw [h]

end Verif
