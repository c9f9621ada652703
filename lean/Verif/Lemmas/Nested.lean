import Verif.Lemmas.ParseBody
import Verif.Spec.Span
import Verif.Model.EditDespan
/-! The spans of a tree that the grammar relates to a source nest, and the spans of its decor are in
the source. -/

namespace Verif.Spec
open Gram

variable {U : Uni} {s : Str}

/-! ### Raw strings -/

/-- All raw strings are in the input. -/
def AllIn (s : Str) (l : List Raw) : Prop := ∀ r ∈ l, r.inInput s = true

theorem AllIn.nil : AllIn s [] := nofun
theorem AllIn.app {l k : List Raw} (h1 : AllIn s l) (h2 : AllIn s k) : AllIn s (l ++ k) := by
  intro r hr
  rcases List.mem_append.mp hr with h | h
  · exact h1 r h
  · exact h2 r h
theorem AllIn.cons {r : Raw} {l : List Raw} (h1 : r.inInput s = true) (h2 : AllIn s l) :
    AllIn s (r :: l) := by
  intro x hx
  rcases List.mem_cons.mp hx with rfl | h
  · exact h1
  · exact h2 x h

theorem raw_in {a b : Nat} (h1 : a ≤ b) (h2 : b ≤ s.length) :
    (Raw.fromSpan ⟨a, b⟩).inInput s = true := by
  unfold Raw.fromSpan
  split
  · simp only [Raw.inInput, decide_eq_true_eq]; exact ⟨h1, h2⟩
  · rfl

theorem Triv.rawIn {nl : Bool} {a b : Nat} (h : Triv s nl a b) :
    (Raw.fromSpan ⟨a, b⟩).inInput s = true := raw_in h.1 h.2.1

theorem LineTail.rawIn {a b : Nat} (h : LineTail s a b) :
    (Raw.fromSpan ⟨a, b⟩).inInput s = true := raw_in h.le h.bound

theorem decM_in {p a b q : Nat} (h1 : (Raw.fromSpan ⟨p, a⟩).inInput s = true)
    (h2 : (Raw.fromSpan ⟨b, q⟩).inInput s = true) : AllIn s (decM p a b q).raws :=
  .cons h1 (.cons h2 .nil)

theorem preM_in {p a b : Nat} (h1 : (Raw.fromSpan ⟨p, a⟩).inInput s = true) :
    AllIn s (preM p a b).raws := .cons h1 .nil

theorem sufM_in {a b q : Nat} (h1 : (Raw.fromSpan ⟨b, q⟩).inInput s = true) :
    AllIn s (sufM a b q).raws := .cons h1 .nil

theorem OwnSuf.rawIn {e : EExpr} {b : Nat} {r : Option Raw} (h : OwnSuf s e b r) : AllIn s r.toList := by
  rcases h with rfl | ⟨-, h1, h2, rfl⟩
  · exact .nil
  · exact .cons (raw_in (by omega) (by omega)) .nil

/-! ### Nesting -/

theorem Nested.mono {lo hi lo' hi' : Nat} {t : SpanTree} (h : Nested s lo hi t) (h1 : lo' ≤ lo)
    (h2 : hi ≤ hi') : Nested s lo' hi' t := by
  induction h with
  | none _ ih => exact .none fun t ht => ih t ht h1 h2
  | some h3 h4 h5 h6 h7 _ => exact .some (by omega) h4 (by omega) h6 h7

/-- All trees are between two offsets. -/
def AllN (s : Str) (lo hi : Nat) (ts : List SpanTree) : Prop := ∀ t ∈ ts, Nested s lo hi t

theorem AllN.nil {lo hi : Nat} : AllN s lo hi [] := nofun
theorem AllN.cons {lo hi : Nat} {t : SpanTree} {ts : List SpanTree} (h1 : Nested s lo hi t)
    (h2 : AllN s lo hi ts) : AllN s lo hi (t :: ts) := by
  intro x hx
  rcases List.mem_cons.mp hx with rfl | h
  · exact h1
  · exact h2 x h
theorem AllN.mono {lo hi lo' hi' : Nat} {ts : List SpanTree} (h : AllN s lo hi ts) (h1 : lo' ≤ lo)
    (h2 : hi ≤ hi') : AllN s lo' hi' ts := fun t ht => (h t ht).mono h1 h2

/-- The trees below a node. -/
def kids : SpanTree → List SpanTree
  | .node _ _ ks => ks

/-- The text of a node. -/
def txt : SpanTree → Option Str
  | .node _ t _ => t

theorem tree_eq (e : EExpr) : e.tree = .node e.getMeta.span (txt e.tree) (kids e.tree) := by
  cases e <;> simp only [EExpr.tree, SpanTree.leaf, kids, txt, EExpr.getMeta]

/-- What is proved of an expression without its decor. -/
def Good (s : Str) (e : EExpr) (a b : Nat) : Prop :=
  (AllN s a b (kids e.tree) ∧ (AllIn s e.getMeta.raws → AllIn s e.raws)) ∧
    ∀ t ∈ txt e.tree, slice s a b = t

theorem noText {e : EExpr} {a b : Nat}
    (h : AllN s a b (kids e.tree) ∧ (AllIn s e.getMeta.raws → AllIn s e.raws))
    (h' : txt e.tree = none := by rfl) : Good s e a b := ⟨h, by rw [h']; nofun⟩

theorem Good.leaf {e : EExpr} {a b : Nat} {t : Str} (h' : Tok s t a b)
    (h : AllN s a b (kids e.tree) ∧ (AllIn s e.getMeta.raws → AllIn s e.raws))
    (ht : txt e.tree = some t := by rfl) : Good s e a b :=
  ⟨h, by rw [ht]; rintro _ ⟨⟩; exact h'.2.2⟩

/-- What is proved of an expression with its decor. -/
def Sub (s : Str) (e : EExpr) (lo hi : Nat) : Prop := Nested s lo hi e.tree ∧ AllIn s e.raws

theorem Good.sub {e : EExpr} {a b : Nat} (h : Good s e a b) (hab : a ≤ b) {d : Decor}
    (hm : e.getMeta = ⟨d, some ⟨a, b⟩⟩) (hd : AllIn s (Meta.raws ⟨d, some ⟨a, b⟩⟩)) : Sub s e a b := by
  refine ⟨?_, h.1.2 (by rw [hm]; exact hd)⟩
  rw [tree_eq, hm]
  exact .some (Nat.le_refl _) hab (Nat.le_refl _) h.2 h.1.1

theorem Sub.mono {e : EExpr} {lo hi lo' hi' : Nat} (h : Sub s e lo hi) (h1 : lo' ≤ lo)
    (h2 : hi ≤ hi') : Sub s e lo' hi' := ⟨h.1.mono h1 h2, h.2⟩

theorem Good.dec {e : EExpr} {p a b q : Nat} (h : Good s e a b) (hab : a ≤ b)
    (h1 : (Raw.fromSpan ⟨p, a⟩).inInput s = true) (h2 : (Raw.fromSpan ⟨b, q⟩).inInput s = true)
    (hm : e.getMeta = decM p a b q) : Sub s e a b :=
  h.sub hab hm (decM_in h1 h2)

theorem Good.pre {e : EExpr} {p a b : Nat} {nl : Bool} (h : Good s e a b) (hab : a ≤ b)
    (h1 : Triv s nl p a) (hm : PreNodeM s e p a b) : Sub s e a b := by
  obtain ⟨r, h2, h3⟩ := hm
  exact h.sub hab h2 (.app (.cons h1.rawIn .nil) h3.rawIn)

theorem Good.suf {e : EExpr} {a b q : Nat} {nl : Bool} (h : Good s e a b) (hab : a ≤ b)
    (h1 : Triv s nl b q) (hm : e.getMeta = sufM a b q) : Sub s e a b :=
  h.sub hab hm (sufM_in h1.rawIn)

theorem Good.node {e : EExpr} {a b : Nat} (h : Good s e a b) (hab : a ≤ b) (hm : NodeM s e a b) :
    Sub s e a b := by
  obtain ⟨r, h2, h3⟩ := hm
  exact h.sub hab h2 (.app .nil h3.rawIn)

theorem leafText {t : Str} {a b : Nat} (h : Tok s t a b) : ∀ u ∈ some t, slice s a b = u := by
  rintro _ ⟨⟩; exact h.2.2

theorem DecIdent.good {nl : Bool} {d : DIdent} {p q : Nat} (h : DecIdent U s nl d p q) :
    Nested s p q d.tree ∧ AllIn s d.m.raws := by
  obtain ⟨a, b, h1, h2, h3, h4⟩ := h
  have := identAt_lt h2; have := h1.le; have := h3.le
  unfold DIdent.tree
  rw [h4]
  exact ⟨.some (by omega) (by omega) (by omega) (leafText h2.1) nofun, decM_in h1.rawIn h3.rawIn⟩

theorem SufIdent.good {nl : Bool} {d : DIdent} {p q : Nat} (h : SufIdent U s nl d p q) :
    Nested s p q d.tree ∧ AllIn s d.m.raws := by
  obtain ⟨b, h1, h2, h3⟩ := h
  have := identAt_lt h1; have := h2.le
  unfold DIdent.tree
  rw [h3]
  exact ⟨.some (by omega) (by omega) (by omega) (leafText h1.1) nofun, sufM_in h2.rawIn⟩

theorem ForVars.good {k : Option DIdent} {v : DIdent} {p q : Nat} (h : ForVars U s k v p q) :
    Nested s p q v.tree ∧ AllN s p q (DIdent.treeOpt k) ∧ AllIn s v.m.raws ∧ AllIn s (DIdent.rawsOpt k) := by
  rcases h with ⟨rfl, h⟩ | ⟨d, x, y, rfl, h1, h2, h3⟩
  · exact ⟨h.good.1, .nil, h.good.2, .nil⟩
  · have := h1.lt; have := h2.le; have := h3.lt
    exact ⟨h3.good.1.mono (by omega) (by omega),
      .cons (h1.good.1.mono (by omega) (by omega)) .nil, h3.good.2, h1.good.2⟩

theorem PathTail.good {nl : Bool} {ds : List DIdent} {p q : Nat} (h : PathTail U s nl ds p q) :
    ∀ d ∈ ds, Nested s p q d.tree ∧ AllIn s d.m.raws := by
  induction h with
  | nil => exact nofun
  | cons h1 h2 h3 ih =>
    have := h1.le; have := h2.lt; have := h3.le
    intro d hd
    rcases List.mem_cons.mp hd with rfl | hd
    · exact ⟨h2.good.1.mono (by omega) (by omega), h2.good.2⟩
    · exact ⟨(ih d hd).1.mono (by omega) (by omega), (ih d hd).2⟩

theorem Path.good {nl : Bool} {ds : List DIdent} {p q : Nat} (h : Path U s nl ds p q) :
    ∀ d ∈ ds, Nested s p q d.tree ∧ AllIn s d.m.raws := by
  obtain ⟨d, tl, x, rfl, h1, h2⟩ := h
  have := h1.lt; have := h2.le
  intro d hd
  rcases List.mem_cons.mp hd with rfl | hd
  · exact ⟨h1.good.1.mono (by omega) (by omega), h1.good.2⟩
  · exact ⟨(h2.good d hd).1.mono (by omega) (by omega), (h2.good d hd).2⟩

theorem Marker.good {kw : Str} {st : Strip} {p t : Raw} {a b : Nat} (h : Marker s kw st p t a b) :
    p.inInput s = true ∧ t.inInput s = true := by
  obtain ⟨x₁, x₂, x₃, x₄, h1, h2, rfl, h3, h4, rfl, h5⟩ := h
  exact ⟨h2.rawIn, h4.rawIn⟩

/-! ### Parts of the trees -/

/-- What is proved of an object item. -/
def ItemGood (s : Str) (lo hi : Nat) : EItem → Prop
  | .mk k v _ _ => Nested s lo hi (k.tree) ∧ AllIn s (k.raws) ∧ Sub s v lo hi

theorem ItemGood.mono {lo hi lo' hi' : Nat} {i : EItem} (h : ItemGood s lo hi i) (h1 : lo' ≤ lo)
    (h2 : hi ≤ hi') : ItemGood s lo' hi' i := by
  cases i
  exact ⟨h.1.mono h1 h2, h.2.1, h.2.2.mono h1 h2⟩

theorem items_good {lo hi : Nat} {is : List EItem} (h : ∀ i ∈ is, ItemGood s lo hi i) :
    AllN s lo hi (EExpr.treeItems is) ∧ AllIn s (EExpr.rawsItems is) := by
  induction is with
  | nil => exact ⟨.nil, .nil⟩
  | cons i is ih =>
    obtain ⟨k, v, a, t⟩ := i
    obtain ⟨h1, h2, h3⟩ := h _ (List.mem_cons_self ..)
    obtain ⟨h4, h5⟩ := ih fun i hi => h i (List.mem_cons_of_mem _ hi)
    constructor
    · unfold EExpr.treeItems
      exact .cons h1 (.cons h3.1 h4)
    · unfold EExpr.rawsItems
      exact .app h2 (.app h3.2 h5)

theorem itemInsert_good {lo hi : Nat} {k : EKey} {v : EExpr} {a : Assign} {t : ItemEnd}
    {is : List EItem} (h1 : ItemGood s lo hi (.mk k v a t)) (h2 : ∀ i ∈ is, ItemGood s lo hi i) :
    ∀ i ∈ itemInsert k v a t is, ItemGood s lo hi i := by
  induction is with
  | nil =>
    intro i hi
    rcases List.mem_cons.mp hi with rfl | hi
    · exact h1
    · cases hi
  | cons j js ih =>
    obtain ⟨k', v', a', t'⟩ := j
    have hj := h2 _ (List.mem_cons_self ..)
    have hjs := fun i hi => h2 i (List.mem_cons_of_mem _ hi)
    unfold itemInsert
    split
    · intro i hi
      rcases List.mem_cons.mp hi with rfl | hi
      · exact ⟨hj.1, hj.2.1, h1.2.2⟩
      · exact hjs i hi
    · intro i hi
      rcases List.mem_cons.mp hi with rfl | hi
      · exact hj
      · exact ih hjs i hi

theorem insertItems_good {lo hi : Nat} {is acc : List EItem} (h1 : ∀ i ∈ is, ItemGood s lo hi i)
    (h2 : ∀ i ∈ acc, ItemGood s lo hi i) : ∀ i ∈ insertItems acc is, ItemGood s lo hi i := by
  induction is generalizing acc with
  | nil => exact h2
  | cons i is ih =>
    obtain ⟨k, v, a, t⟩ := i
    exact ih (fun i hi => h1 i (List.mem_cons_of_mem _ hi))
      (itemInsert_good (h1 _ (List.mem_cons_self ..)) h2)

theorem treeElems_cons (e : EElem) (es : List EElem) :
    EExpr.treeElems (e :: es) = EExpr.treeElems [e] ++ EExpr.treeElems es := by
  cases e <;> simp only [EExpr.treeElems, List.cons_append, List.nil_append]

theorem rawsElems_cons (e : EElem) (es : List EElem) :
    EExpr.rawsElems (e :: es) = EExpr.rawsElems [e] ++ EExpr.rawsElems es := by
  cases e <;> simp [EExpr.rawsElems]

theorem AllN.app {lo hi : Nat} {l k : List SpanTree} (h1 : AllN s lo hi l) (h2 : AllN s lo hi k) :
    AllN s lo hi (l ++ k) := by
  intro r hr
  rcases List.mem_append.mp hr with h | h
  · exact h1 r h
  · exact h2 r h

/-- What is proved of the introduction of a `for`. -/
def IntroGood (s : Str) (im : Meta) (k : Option DIdent) (v : DIdent) (c : EExpr) (p q : Nat) : Prop :=
  Nested s p q (.node im.span none (v.tree :: c.tree :: DIdent.treeOpt k)) ∧ AllIn s im.raws ∧
    AllIn s (DIdent.rawsOpt k) ∧ AllIn s v.m.raws ∧ AllIn s c.raws

/-- What is proved of the condition of a `for`. -/
def CondGood (s : Str) (cm : Meta) (co : Option EExpr) (p q : Nat) : Prop :=
  Nested s p q (.node cm.span none (EExpr.treeOpt co)) ∧ AllIn s cm.raws ∧ AllIn s (EExpr.rawsOpt co)

theorem forE_good {m im cm : Meta} {k : Option DIdent} {v : DIdent} {c ve : EExpr}
    {ke co : Option EExpr} {g : Bool} {a b p q r t x y : Nat} (h1 : IntroGood s im k v c p q)
    (h2 : AllN s a b (EExpr.treeOpt ke)) (h2' : AllIn s (EExpr.rawsOpt ke)) (h3 : Sub s ve x y)
    (h4 : CondGood s cm co r t) (hp : a ≤ p) (hq : q ≤ b) (hr : a ≤ r) (ht : t ≤ b) (hx : a ≤ x)
    (hy : y ≤ b) : Good s (.forE m im k v c ke ve g cm co) a b := by
  refine noText ⟨?_, ?_⟩
  · simp only [EExpr.tree, kids]
    exact .cons (h1.1.mono hp hq) (.cons (h3.1.mono hx hy) (.cons (h4.1.mono hr ht) h2))
  · intro hm
    simp only [EExpr.raws]
    exact .app hm (.app h1.2.1 (.app h1.2.2.1 (.app h1.2.2.2.1 (.app h1.2.2.2.2 (.app h2'
      (.app h3.2 (.app h4.2.1 h4.2.2)))))))

mutual

theorem Core.good : ∀ {nl e a b}, Core U s nl e a b → Good s e a b
  | _, _, _, _, .null h => .leaf h ⟨.nil, id⟩
  | _, _, _, _, .bool h => .leaf h ⟨.nil, id⟩
  | _, _, _, _, .number _ h => .leaf h ⟨.nil, id⟩
  | _, _, _, _, .string _ => noText ⟨.nil, id⟩
  | _, _, _, _, .array h1 h2 h3 h4 h5 =>
    have e1 := h1.le; have e3 := h3.le; have e4 := h4.le; have e5 := h5.le
    noText ⟨h2.good.1.mono (by omega) (by omega), fun hm => .app hm (.cons h4.rawIn h2.good.2)⟩
  | _, _, _, _, .object h1 h2 h3 =>
    have e1 := h1.le; have e2 := h2.le; have e3 := h3.le
    have hg := items_good (insertItems_good (fun i hi => (h2.good.1 i hi).mono e1 e3)
      (fun _ h => (List.not_mem_nil h).elim))
    noText ⟨hg.1, fun hm => .app hm (.cons h2.good.2 hg.2)⟩
  | _, _, _, _, .strTmpl h1 h2 h3 =>
    have e1 := h1.le; have e3 := h3.le
    noText ⟨h2.good.1.mono e1 e3, fun hm => .app hm h2.good.2⟩
  | _, _, _, _, .heredoc h1 _ h3 _ h5 _ h7 h8 =>
    have e1 := h1.le; have e3 := h3.lt; have e5 := h5.le; have e7 := h7.1; have e8 := h8.le
    noText ⟨.cons (.some (by omega) e5 (by omega) nofun h5.good.1) .nil,
      fun hm => .app hm (.cons (raw_in h7.1 h7.2.1) h5.good.2)⟩
  | _, _, _, _, .paren h1 h2 h3 h4 h5 h6 =>
    have e1 := h1.le; have e2 := h2.le; have e3 := h3.bounds; have e4 := h4.le; have e6 := h6.le
    have hs := h3.good.dec (by omega) h2.rawIn h4.rawIn h5
    noText ⟨.cons (hs.1.mono (by omega) (by omega)) .nil, fun hm => .app hm hs.2⟩
  | _, _, _, _, .var h _ => .leaf h.1 ⟨.nil, id⟩
  | _, _, _, _, .cond h1 h2 _ h3 h4 h5 h6 h7 h8 h9 h10 h11 h12 =>
    have e1 := h1.bounds; have e3 := h3.le; have e4 := h4.le; have e5 := h5.le; have e6 := h6.bounds
    have e7 := h7.le; have e9 := h9.le; have e10 := h10.le; have e11 := h11.bounds
    have g1 := h1.good.suf (by omega) h3 h2
    have g2 := h6.good.dec (by omega) h5.rawIn h7.rawIn h8
    have g3 := h11.good.pre (by omega) h10 h12
    noText ⟨.cons (g1.1.mono (by omega) (by omega)) (.cons (g2.1.mono (by omega) (by omega))
      (.cons (g3.1.mono (by omega) (by omega)) .nil)),
      fun hm => .app hm (.app g1.2 (.app g2.2 g3.2))⟩
  | _, _, _, _, .call (ns := ns) (n := n) h1 h2 h3 h4 h5 h6 =>
    have e1 := h1.lt; have e2 := h2.le; have e3 := h3.le; have e4 := h4.le; have e5 := h5.le
    have e6 := h6.le
    have hn := h1.good n (by simp)
    have hns : ∀ d ∈ ns, _ := fun d hd => h1.good d (List.mem_append_left _ hd)
    noText ⟨.cons (.none (h3.good.1.mono (by omega) (by omega))) (.cons (hn.1.mono (by omega) (by omega))
      (fun t ht => by
        obtain ⟨d, hd, rfl⟩ := List.mem_map.mp ht
        exact (hns d hd).1.mono (by omega) (by omega))),
      fun hm => .app hm (.app (fun r hr => by
        obtain ⟨d, hd, hr⟩ := List.mem_flatMap.mp hr
        exact (hns d hd).2 r hr) (.app hn.2 (.app .nil (.cons h5.rawIn h3.good.2))))⟩
  | _, _, _, _, .trav h1 h2 h3 h4 _ _ =>
    have e1 := h1.bounds; have e3 := h3.le; have e4 := h4.le
    have g1 := h1.good.suf (by omega) h3 h2
    noText ⟨.cons (g1.1.mono (by omega) (by omega)) (h4.good.1.mono (by omega) (by omega)),
      fun hm => .app hm (.app g1.2 h4.good.2)⟩
  | _, _, _, _, .unary h1 h2 h3 h4 _ =>
    have e1 := h1.le; have e2 := h2.le; have e3 := h3.bounds
    have g := h3.good.pre (by omega) h2 h4
    noText ⟨.cons (.some (by omega) (by omega) (by omega) (leafText h1) nofun)
      (.cons (g.1.mono (by omega) (by omega)) .nil), fun hm => .app hm g.2⟩
  | _, _, _, _, .binary h1 h2 h3 h4 h5 h6 h7 _ _ h8 =>
    have e1 := h1.bounds; have e3 := h3.le; have e4 := h4.le; have e5 := h5.le; have e6 := h6.bounds
    have e8 := h8.le
    have g1 := h1.good.node (by omega) h2
    have g2 := h6.good.node (by omega) h7
    noText ⟨.cons (g1.1.mono (by omega) (by omega)) (.cons (.some (by omega) (by omega) (by omega) (leafText h4) nofun)
      (.cons (g2.1.mono (by omega) (by omega)) .nil)), fun hm => .app hm (.app g1.2 g2.2)⟩
  | _, _, _, _, .forList h1 h2 h3 h4 h5 h6 h7 h8 =>
    have e1 := h1.le; have e2 := h2.le; have e3 := h3.le; have e4 := h4.bounds; have e5 := h5.le
    have e7 := h7.le; have e8 := h8.le
    forE_good h2.good .nil .nil (h4.good.dec (by omega) h3.rawIn h5.rawIn h6) h7.good (by omega)
      (by omega) (by omega) (by omega) (by omega) (by omega)
  | _, _, _, _, .forObj h1 h2 h3 h4 h5 h6 h7 h8 h9 h10 h11 h12 _ h14 h15 =>
    have e1 := h1.le; have e2 := h2.le; have e3 := h3.le; have e4 := h4.bounds; have e5 := h5.le
    have e7 := h7.le; have e8 := h8.le; have e9 := h9.bounds; have e10 := h10.le; have e12 := h12.le
    have e14 := h14.le; have e15 := h15.le
    have g := h4.good.dec (by omega) h3.rawIn h5.rawIn h6
    forE_good h2.good (.cons (g.1.mono (by omega) (by omega)) .nil) g.2
      (h9.good.dec (by omega) h8.rawIn h10.rawIn h11) h14.good (by omega)
      (by omega) (by omega) (by omega) (by omega) (by omega)
  | _, _, _, _, .forGroup (t := t) h1 h2 h3 h4 h5 h6 h7 h8 h9 h10 h11 h12 h13 h14 =>
    have e1 := h1.le; have e2 := h2.le; have e3 := h3.le; have e4 := h4.bounds; have e5 := h5.le
    have e7 := h7.le; have e8 := h8.le; have e9 := h9.bounds; have e10 := h10.le; have e12 := h12.le
    have e13 := h13.le; have e14 := h14.le
    have g := h4.good.dec (by omega) h3.rawIn h5.rawIn h6
    forE_good (r := t) (t := t) h2.good (.cons (g.1.mono (by omega) (by omega)) .nil) g.2
      (h9.good.dec (by omega) h8.rawIn h10.rawIn h11) ⟨.none nofun, .nil, .nil⟩ (by omega)
      (by omega) (by omega) (by omega) (by omega) (by omega)

theorem Intro.good : ∀ {im k v c p q}, Intro U s im k v c p q → IntroGood s im k v c p q
  | _, _, _, _, _, _, .mk h1 h2 h3 h4 h5 h6 h7 h8 h9 =>
    have e1 := h1.le; have e2 := h2.le; have e3 := h3.le; have e4 := h4.le; have e5 := h5.le
    have e6 := h6.bounds; have e7 := h7.le; have e9 := h9.le
    have g := h6.good.dec (by omega) h5.rawIn h7.rawIn h8
    ⟨.some (by omega) (by omega) (by omega) nofun (AllN.cons (h3.good.1.mono (by omega) (by omega))
      (.cons (g.1.mono (by omega) (by omega)) (h3.good.2.1.mono (by omega) (by omega)))),
      preM_in h1.rawIn, h3.good.2.2.2, h3.good.2.2.1, g.2⟩

theorem Cond.good : ∀ {cm co p q}, Cond U s cm co p q → CondGood s cm co p q
  | _, _, _, _, .none => ⟨.none nofun, .nil, .nil⟩
  | _, _, _, _, .some h1 h2 h3 h4 h5 h6 =>
    have e1 := h1.le; have e2 := h2.le; have e3 := h3.le; have e4 := h4.bounds; have e5 := h5.le
    have g := h4.good.dec (by omega) h3.rawIn h5.rawIn h6
    ⟨.some (by omega) (by omega) (by omega) nofun (AllN.cons (g.1.mono (by omega) (by omega)) .nil),
      preM_in h1.rawIn, g.2⟩

theorem Elems.good : ∀ {es a b}, Elems U s es a b →
    AllN s a b (EExpr.treeList es) ∧ AllIn s (EExpr.rawsList es)
  | _, _, _, .nil => ⟨.nil, .nil⟩
  | _, _, _, .cons h1 h2 h3 h4 h5 =>
    have e1 := h1.le; have e2 := h2.bounds; have e3 := h3.le; have e5 := h5.le
    have g := h2.good.dec (by omega) h1.rawIn h3.rawIn h4
    ⟨.cons (g.1.mono (by omega) (by omega)) (h5.good.1.mono (by omega) (by omega)),
      .app g.2 h5.good.2⟩

theorem ElemsTail.good : ∀ {es a b}, ElemsTail U s es a b →
    AllN s a b (EExpr.treeList es) ∧ AllIn s (EExpr.rawsList es)
  | _, _, _, .nil => ⟨.nil, .nil⟩
  | _, _, _, .cons h0 h1 h2 h3 h4 h5 =>
    have e0 := h0.le; have e1 := h1.le; have e2 := h2.bounds; have e3 := h3.le; have e5 := h5.le
    have g := h2.good.dec (by omega) h1.rawIn h3.rawIn h4
    ⟨.cons (g.1.mono (by omega) (by omega)) (h5.good.1.mono (by omega) (by omega)),
      .app g.2 h5.good.2⟩

theorem Items.good : ∀ {is tr a b}, Items U s is tr a b →
    (∀ i ∈ is, ItemGood s a b i) ∧ tr.inInput s = true
  | _, _, _, _, .nil h => ⟨nofun, h.rawIn⟩
  | _, _, _, _, .last h => ⟨fun i hi => by
      rw [List.mem_singleton.mp hi]; exact h.good, rfl⟩
  | _, _, _, _, .cons h1 _ h3 h4 =>
    have e1 := h1.le; have e3 := h3.le; have e4 := h4.le
    ⟨fun i hi => by
      rcases List.mem_cons.mp hi with rfl | hi
      · exact ItemGood.mono h1.good (by omega) (by omega)
      · exact (h4.good.1 i hi).mono (by omega) (by omega), h4.good.2⟩

theorem Item.good : ∀ {k v as a b}, Item U s k v as a b → ∀ {t}, ItemGood s a b (.mk k v as t)
  | _, _, _, _, _, .ident h1 h2 h3 h4 h5 h6 h7 h8 h9 _, _ =>
    have e1 := h1.le; have e2 := identAt_lt h2; have e3 := h3.le; have e5 := h5.le; have e6 := h6.le
    have e7 := h7.bounds; have e8 := h8.le
    have g := h7.good.dec (by omega) h6.rawIn h8.rawIn h9
    ⟨by
      simp only [EKey.tree, DIdent.tree]
      rw [h4]
      exact .some (by omega) (by omega) (by omega) (leafText h2.1) nofun,
      by simp only [EKey.raws]; rw [h4]; exact decM_in h1.rawIn h3.rawIn, g.mono (by omega) (by omega)⟩
  | _, _, _, _, _, .expr h1 h2 h3 h4 h5 h6 h7 h8 h9 _, _ =>
    have e1 := h1.le; have e2 := h2.bounds; have e3 := h3.le; have e5 := h5.le; have e6 := h6.le
    have e7 := h7.bounds; have e8 := h8.le
    have g := h7.good.dec (by omega) h6.rawIn h8.rawIn h9
    have g' := h2.good.dec (by omega) h1.rawIn h3.rawIn h4
    ⟨g'.1.mono (by omega) (by omega), g'.2, g.mono (by omega) (by omega)⟩

theorem Travs.good : ∀ {nl os a b}, Travs U s nl os a b →
    AllN s a b (EExpr.treeTravs os) ∧ AllIn s (EExpr.rawsTravs os)
  | _, _, _, _, .nil => ⟨.nil, .nil⟩
  | _, _, _, _, .cons h1 h2 h3 =>
    have e1 := h1.le; have e2 := h2.bounds; have e3 := h3.le
    ⟨by
      simp only [EExpr.treeTravs]
      exact .cons (.some (by omega) (by omega) (by omega) nofun (AllN.cons h2.good.1 .nil))
        (h3.good.1.mono (by omega) (by omega)),
      by simp only [EExpr.rawsTravs]; exact .app h2.good.2 h3.good.2⟩

theorem TravOp.good : ∀ {o a b}, TravOp U s o a b →
    Nested s a b (o.tree) ∧ AllIn s (o.raws)
  | _, _, _, .attrSplat h1 h2 h3 =>
    have e1 := h1.le; have e2 := h2.le; have e3 := h3.le
    ⟨.some (by omega) (by omega) (by omega) (leafText h3) nofun, preM_in h2.rawIn⟩
  | _, _, _, .fullSplat h1 h2 h3 h4 h5 =>
    have e1 := h1.le; have e2 := h2.le; have e3 := h3.le; have e4 := h4.le; have e5 := h5.le
    ⟨.some (by omega) (by omega) (by omega) (leafText h3) nofun, decM_in h2.rawIn h4.rawIn⟩
  | _, _, _, .getAttr h1 h2 h3 h4 =>
    have e1 := h1.le; have e2 := h2.le; have e3 := identAt_lt h3
    ⟨by
      simp only [ETravOp.tree, DIdent.tree]
      rw [h4]
      exact .some (by omega) (by omega) (by omega) (leafText h3.1) nofun,
      by simp only [ETravOp.raws]; rw [h4]; exact preM_in h2.rawIn⟩
  | _, _, _, .index h1 h2 h3 h4 h5 h6 =>
    have e1 := h1.le; have e2 := h2.le; have e3 := h3.bounds; have e4 := h4.le; have e6 := h6.le
    have g := h3.good.dec (by omega) h2.rawIn h4.rawIn h5
    ⟨g.1.mono (by omega) (by omega), g.2⟩
  | _, _, _, .legacyIndex h1 h2 h3 _ =>
    have e1 := h1.le; have e2 := h2.le; have e3 := h3.le
    ⟨.some (by omega) (by omega) (by omega) (leafText h3) nofun, preM_in h2.rawIn⟩

theorem TElems.good : ∀ {m es a b}, TElems U s m es a b →
    AllN s a b (EExpr.treeElems es) ∧ AllIn s (EExpr.rawsElems es)
  | _, _, _, _, .nil => ⟨.nil, .nil⟩
  | _, _, _, _, .cons h1 h2 =>
    have e1 := h1.bounds; have e2 := h2.le
    ⟨by
      rw [treeElems_cons]
      exact .app (h1.good.1.mono (by omega) (by omega)) (h2.good.1.mono (by omega) (by omega)),
      by rw [rawsElems_cons]; exact .app h1.good.2 h2.good.2⟩

theorem ElemAt.good : ∀ {m e a b}, ElemAt U s m e a b →
    AllN s a b (EExpr.treeElems [e]) ∧ AllIn s (EExpr.rawsElems [e])
  | _, _, _, _, .lit h1 h2 _ =>
    ⟨.cons (.some (by omega) (by omega) (by omega) nofun nofun) .nil, .nil⟩
  | _, _, _, _, .interp h1 h2 h3 h4 h5 h6 =>
    have e1 := h1.le; have e2 := h2.le; have e3 := h3.bounds; have e4 := h4.le; have e6 := h6.le
    have g := h3.good.dec (by omega) h2.rawIn h4.rawIn h5
    ⟨.cons (.some (by omega) (by omega) (by omega) nofun
      (AllN.cons (g.1.mono (by omega) (by omega)) .nil)) .nil, .app g.2 .nil⟩
  | _, _, _, _, .ifDir h1 h2 h3 h4 h5 h6 h7 h8 h9 h10 h11 =>
    have e1 := h1.le; have e2 := h2.le; have e3 := h3.le; have e4 := h4.le; have e5 := h5.bounds
    have e6 := h6.le; have e8 := h8.le; have e9 := h9.le; have e10 := h10.le; have e11 := h11.le
    have g := h5.good.dec (by omega) h4.rawIn h6.rawIn h7
    have gm := h11.good
    have gl := h10.good
    ⟨.cons (.some (by omega) (by omega) (by omega) nofun (AllN.cons (g.1.mono (by omega) (by omega))
      (.cons (.some (by omega) e9 (by omega) nofun h9.good.1)
        (gl.1.mono (by omega) (by omega))))) .nil,
      .cons h2.rawIn (.cons gm.1 (.cons gm.2 (.app g.2 (.app h9.good.2 (.app gl.2 .nil)))))⟩
  | _, _, _, _, .forDir (k := k) h1 h2 h3 h4 h5 h6 h7 h8 h9 h10 h11 h12 =>
    have e1 := h1.le; have e2 := h2.le; have e3 := h3.le; have e4 := h4.le; have e5 := h5.le
    have e6 := h6.le; have e7 := h7.bounds; have e8 := h8.le; have e10 := h10.le; have e11 := h11.le
    have e12 := h12.le
    have g := h7.good.dec (by omega) h6.rawIn h8.rawIn h9
    have gm := h12.good
    have gv := h4.good
    ⟨.cons (.some (by omega) (by omega) (by omega) nofun (AllN.cons (gv.1.mono (by omega) (by omega))
      (.cons (g.1.mono (by omega) (by omega)) (.cons (.some (by omega) e11 (by omega) nofun h11.good.1)
        (gv.2.1.mono (by omega) (by omega)))))) .nil,
      .cons h2.rawIn (.cons gm.1 (.cons gm.2 (.app gv.2.2.2 (.app gv.2.2.1 (.app g.2
        (.app h11.good.2 .nil))))))⟩

theorem Else.good : ∀ {el a b}, Else U s el a b → AllN s a b (EExpr.treeElse el) ∧ AllIn s (EExpr.rawsElse el)
  | _, _, _, .none => ⟨.nil, .nil⟩
  | _, _, _, .some h1 h2 =>
    have e1 := h1.le; have e2 := h2.le
    ⟨.cons (.some (by omega) e2 (by omega) nofun h2.good.1) .nil,
      .cons h1.good.1 (.cons h1.good.2 h2.good.2)⟩

end

/-! ### Structures -/

theorem SufIdent.le {nl : Bool} {d : DIdent} {p q : Nat} (h : SufIdent U s nl d p q) : p ≤ q := by
  obtain ⟨b, h1, h2, -⟩ := h
  have := identAt_lt h1; have := h2.le
  omega

theorem LineEnding.le {a b : Nat} (h : LineEnding s a b) : a ≤ b := by
  rcases h with h | h <;> exact h.le

theorem Labels.good {ls : List ELabel} {p q : Nat} (h : Labels U s ls p q) :
    AllN s p q (ls.map ELabel.tree) ∧ AllIn s (ls.flatMap ELabel.raws) := by
  induction h with
  | nil => exact ⟨.nil, .nil⟩
  | ident h1 h2 ih =>
    have e1 := h1.le; have e2 := h2.le
    simp only [List.map_cons, List.flatMap_cons]
    exact ⟨.cons (h1.good.1.mono (by omega) (by omega)) (ih.1.mono (by omega) (by omega)),
      .app h1.good.2 ih.2⟩
  | string h1 h2 h3 ih =>
    have e1 := QuotedAt.bounds h1; have e2 := h2.le; have e3 := h3.le
    simp only [List.map_cons, List.flatMap_cons]
    exact ⟨.cons (.some (by omega) (by omega) (by omega) nofun nofun) (ih.1.mono (by omega) (by omega)),
      .app (sufM_in h2.rawIn) ih.2⟩

theorem struct_tree_eq (e : EStruct) : e.tree = .node (structMeta e).span none (kids e.tree) := by
  cases e <;> simp only [EStruct.tree, kids, structMeta]

/-- What is proved of a structure without its decor. -/
def StructGood (s : Str) (e : EStruct) (a b : Nat) : Prop :=
  AllN s a b (kids e.tree) ∧ (AllIn s (structMeta e).raws → AllIn s e.raws)

theorem StructGood.dec {e : EStruct} {p a b q : Nat} (h : StructGood s e a b) (hab : a ≤ b)
    (h1 : (Raw.fromSpan ⟨p, a⟩).inInput s = true) (h2 : (Raw.fromSpan ⟨b, q⟩).inInput s = true)
    (hm : structMeta e = decM p a b q) : Nested s a b e.tree ∧ AllIn s e.raws := by
  refine ⟨?_, h.2 (by rw [hm]; exact decM_in h1 h2)⟩
  rw [struct_tree_eq, hm]
  exact .some (Nat.le_refl _) hab (Nat.le_refl _) nofun h.1

mutual

theorem StructAt.good : ∀ {e a b}, StructAt U s e a b → StructGood s e a b
  | _, _, _, .attr h1 h2 h3 h4 h5 =>
    have e1 := h1.le; have e2 := h2.le; have e3 := h3.le; have e4 := h4.bounds
    have g := h4.good.pre (by omega) h3 h5
    ⟨.cons (h1.good.1.mono (by omega) (by omega)) (.cons (g.1.mono (by omega) (by omega)) .nil),
      fun hm => .app hm (.app h1.good.2 g.2)⟩
  | _, _, _, .block h1 h2 h3 h4 h5 =>
    have e1 := h1.le; have e2 := h2.le; have e3 := h3.le; have e4 := h4.le; have e5 := h5.le
    ⟨.cons (h1.good.1.mono (by omega) (by omega)) (.cons (h4.good.1.mono (by omega) (by omega))
      (h2.good.1.mono (by omega) (by omega))),
      fun hm => .app hm (.app h1.good.2 (.app h2.good.2 h4.good.2))⟩

theorem BlockBody.good : ∀ {bd p q}, BlockBody U s bd p q → Nested s p q bd.tree ∧ AllIn s bd.raws
  | _, _, _, .lines h1 h2 h3 _ h5 =>
    have e1 := h1.le; have e2 := h2.le; have e3 := h3.le; have e5 := h5.le
    ⟨.some (by omega) (by omega) (by omega) nofun (h3.good.1.mono (by omega) (by omega)),
      .app (.cons h1.rawIn (.cons h5.rawIn .nil)) h3.good.2⟩
  | _, _, _, .empty h1 => ⟨.none nofun, .app (.cons h1.rawIn .nil) .nil⟩
  | _, _, _, .single h1 h2 h3 h4 =>
    have e1 := h1.le; have e2 := h2.bounds; have e3 := h3.le; have e4 := h4.le
    have g := h2.good.dec (by omega) h1.rawIn h3.rawIn rfl
    ⟨.none (AllN.cons (g.1.mono (by omega) (by omega)) .nil),
      .app (.cons h4.rawIn .nil) (.app g.2 .nil)⟩

theorem Lines.good : ∀ {ss fin p q}, Lines U s ss fin p q →
    AllN s p q (EStruct.treeList ss) ∧ AllIn s (EStruct.rawsList ss)
  | _, _, _, _, .nil => ⟨.nil, .nil⟩
  | _, _, _, _, .cons h1 h2 h3 h4 h5 h6 =>
    have e1 := h1.le; have e2 := h2.bounds; have e4 := h4.le; have e5 := h5.le; have e6 := h6.le
    have g := h2.good.dec (by omega) h1.rawIn h4.rawIn h3
    ⟨.cons (g.1.mono (by omega) (by omega)) (h6.good.1.mono (by omega) (by omega)),
      .app g.2 h6.good.2⟩
  | _, _, _, _, .last h1 h2 h3 h4 =>
    have e1 := h1.le; have e2 := h2.bounds; have e4 := h4.le
    have g := h2.good.dec (by omega) h1.rawIn h4.rawIn h3
    ⟨.cons (g.1.mono (by omega) (by omega)) .nil, .app g.2 .nil⟩

end

theorem Document.good {bd : EBody} (h : Document U s bd) :
    Nested s 0 s.length bd.tree ∧ AllIn s bd.raws := by
  obtain ⟨h1, -, h3⟩ := h
  have e1 := h1.le; have e3 := h3.le
  exact ⟨.some (by omega) (by omega) (by omega) nofun h1.good.1,
    .app (.cons h3.rawIn .nil) h1.good.2⟩

end Verif.Spec

/-! ### `despan` keeps the spans -/

namespace Verif

theorem Meta.despan_span (full : Str) (m : Meta) : (m.despan full).span = m.span := rfl

theorem DIdent.despan_tree (full : Str) (d : DIdent) : (d.despan full).tree = d.tree := rfl

theorem DIdent.despan_treeOpt (full : Str) (k : Option DIdent) :
    DIdent.treeOpt (k.map (DIdent.despan full)) = DIdent.treeOpt k := by
  cases k <;> rfl

theorem DIdent.despan_treeList (full : Str) (ds : List DIdent) :
    (ds.map (DIdent.despan full)).map DIdent.tree = ds.map DIdent.tree := by
  rw [List.map_map]; rfl

mutual

theorem EExpr.despan_tree (full : Str) : ∀ e : EExpr, (e.despan full).tree = e.tree
  | .null _ | .bool _ _ | .number _ _ _ | .string _ _ | .var _ _ => rfl
  | .array _ vs _ _ => by
    simp only [EExpr.despan, EExpr.tree, EExpr.despan_treeList full vs, Meta.despan_span]
  | .object _ is _ => by
    simp only [EExpr.despan, EExpr.tree, EExpr.despan_treeItems full is, Meta.despan_span]
  | .strTmpl _ es => by
    simp only [EExpr.despan, EExpr.tree, EExpr.despan_treeElems full es, Meta.despan_span]
  | .heredoc _ _ _ es _ _ => by
    simp only [EExpr.despan, EExpr.tree, EExpr.despan_treeElems full es, Meta.despan_span]
  | .paren _ e => by simp only [EExpr.despan, EExpr.tree, e.despan_tree full, Meta.despan_span]
  | .cond _ c t f => by
    simp only [EExpr.despan, EExpr.tree, c.despan_tree full, t.despan_tree full,
      f.despan_tree full, Meta.despan_span]
  | .call _ _ _ _ as _ _ _ => by
    simp only [EExpr.despan, EExpr.tree, EExpr.despan_treeList full as, Meta.despan_span,
      DIdent.despan_tree, DIdent.despan_treeList]
  | .trav _ e os => by
    simp only [EExpr.despan, EExpr.tree, e.despan_tree full, EExpr.despan_treeTravs full os,
      Meta.despan_span]
  | .unary _ _ _ e => by
    simp only [EExpr.despan, EExpr.tree, e.despan_tree full, Meta.despan_span]
  | .binary _ l _ _ r => by
    simp only [EExpr.despan, EExpr.tree, l.despan_tree full, r.despan_tree full, Meta.despan_span]
  | .forE _ _ _ _ c ke ve _ _ co => by
    simp only [EExpr.despan, EExpr.tree, c.despan_tree full, ve.despan_tree full,
      EExpr.despan_treeOpt full ke, EExpr.despan_treeOpt full co, Meta.despan_span,
      DIdent.despan_tree, DIdent.despan_treeOpt]

theorem EExpr.despan_treeOpt (full : Str) :
    ∀ e : Option EExpr, EExpr.treeOpt (EExpr.despanOpt full e) = EExpr.treeOpt e
  | none => rfl
  | some e => by simp only [EExpr.despanOpt, EExpr.treeOpt, e.despan_tree full]

theorem EExpr.despan_treeList (full : Str) :
    ∀ es : List EExpr, EExpr.treeList (EExpr.despanList full es) = EExpr.treeList es
  | [] => rfl
  | e :: es => by
    simp only [EExpr.despanList, EExpr.treeList, e.despan_tree full, EExpr.despan_treeList full es]

theorem EExpr.despan_treeItems (full : Str) :
    ∀ is : List EItem, EExpr.treeItems (EExpr.despanItems full is) = EExpr.treeItems is
  | [] => rfl
  | .mk k v _ _ :: is => by
    simp only [EExpr.despanItems, EExpr.treeItems, k.despan_tree full, v.despan_tree full,
      EExpr.despan_treeItems full is]

theorem EKey.despan_tree (full : Str) : ∀ k : EKey, (k.despan full).tree = k.tree
  | .ident _ => rfl
  | .expr e => by simp only [EKey.despan, EKey.tree, e.despan_tree full]

theorem EExpr.despan_treeTravs (full : Str) :
    ∀ os : List ETrav, EExpr.treeTravs (EExpr.despanTravs full os) = EExpr.treeTravs os
  | [] => rfl
  | .mk _ o :: os => by
    simp only [EExpr.despanTravs, EExpr.treeTravs, o.despan_tree full,
      EExpr.despan_treeTravs full os]

theorem ETravOp.despan_tree (full : Str) : ∀ o : ETravOp, (o.despan full).tree = o.tree
  | .attrSplat _ | .fullSplat _ | .getAttr _ | .legacyIndex _ _ => rfl
  | .index e => by simp only [ETravOp.despan, ETravOp.tree, e.despan_tree full]

theorem EExpr.despan_treeElems (full : Str) :
    ∀ es : List EElem, EExpr.treeElems (EExpr.despanElems full es) = EExpr.treeElems es
  | [] => rfl
  | .lit _ _ :: es => by
    simp only [EExpr.despanElems, EExpr.treeElems, EExpr.despan_treeElems full es]
  | .interp _ e _ :: es => by
    simp only [EExpr.despanElems, EExpr.treeElems, e.despan_tree full,
      EExpr.despan_treeElems full es]
  | .ifDir _ _ c _ _ t el _ _ _ :: es => by
    simp only [EExpr.despanElems, EExpr.treeElems, c.despan_tree full,
      EExpr.despan_treeElems full t, EExpr.despan_treeElse full el, EExpr.despan_treeElems full es]
  | .forDir _ _ _ _ c _ _ t _ _ _ :: es => by
    simp only [EExpr.despanElems, EExpr.treeElems, c.despan_tree full,
      EExpr.despan_treeElems full t, EExpr.despan_treeElems full es, DIdent.despan_tree,
      DIdent.despan_treeOpt]

theorem EExpr.despan_treeElse (full : Str) :
    ∀ el : Option EElse, EExpr.treeElse (EExpr.despanElse full el) = EExpr.treeElse el
  | none => rfl
  | some (.mk _ _ _ _ es) => by
    simp only [EExpr.despanElse, EExpr.treeElse, EExpr.despan_treeElems full es]

end

theorem ELabel.despan_tree (full : Str) (l : ELabel) : (l.despan full).tree = l.tree := by
  cases l <;> rfl

theorem ELabel.despan_treeList (full : Str) (ls : List ELabel) :
    (ls.map (ELabel.despan full)).map ELabel.tree = ls.map ELabel.tree := by
  rw [List.map_map]
  exact List.map_congr_left fun l _ => ELabel.despan_tree full l

mutual

theorem EStruct.despan_tree (full : Str) : ∀ e : EStruct, (e.despan full).tree = e.tree
  | .attr _ _ v => by
    simp only [EStruct.despan, EStruct.tree, v.despan_tree full, Meta.despan_span,
      DIdent.despan_tree]
  | .block _ _ ls b => by
    simp only [EStruct.despan, EStruct.tree, b.despan_tree full, Meta.despan_span,
      DIdent.despan_tree, ELabel.despan_treeList full ls]

theorem EBody.despan_tree (full : Str) : ∀ b : EBody, (b.despan full).tree = b.tree
  | .mk _ ss _ _ => by
    simp only [EBody.despan, EBody.tree, EStruct.despan_treeList full ss, Meta.despan_span]

theorem EStruct.despan_treeList (full : Str) :
    ∀ ss : List EStruct, EStruct.treeList (EStruct.despanList full ss) = EStruct.treeList ss
  | [] => rfl
  | s :: ss => by
    simp only [EStruct.despanList, EStruct.treeList, s.despan_tree full,
      EStruct.despan_treeList full ss]

end

end Verif
