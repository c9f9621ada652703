import Verif.Spec.Content
import Verif.Model.EditEq
import Verif.Props.NumberOrder
/-! The equality of the trees, read off their contents. -/

set_option linter.unusedSimpArgs false

namespace Verif.Spec

/-! ### `Same` is an equivalence -/

theorem Atom.Same.refl (a : Atom) : a.Same a := by cases a <;> rfl

theorem Atom.Same.symm {a b : Atom} (h : a.Same b) : b.Same a := by
  cases a <;> cases b <;> first | exact Eq.symm h | cases h

theorem Atom.Same.trans {a b c : Atom} (h : a.Same b) (k : b.Same c) : a.Same c := by
  cases a <;> cases b <;> first
    | (cases h; done)
    | (cases c <;> first | exact Eq.trans h k | (cases k; done))

theorem SameAtoms.refl : ∀ d, SameAtoms d d
  | [] => .nil
  | a :: d => .cons (.refl a) (SameAtoms.refl d)

theorem SameAtoms.symm {d e} (h : SameAtoms d e) : SameAtoms e d := by
  induction h with
  | nil => exact .nil
  | cons h _ ih => exact .cons h.symm ih

theorem SameAtoms.trans {d e f} (h : SameAtoms d e) (k : SameAtoms e f) : SameAtoms d f := by
  induction h generalizing f with
  | nil => exact k
  | cons h _ ih => cases k with | cons k ks => exact .cons (h.trans k) (ih ks)

mutual
theorem Same.refl : ∀ c, Same c c
  | .node _ d cs => .node (.refl d) (SameAll.refl cs)
  | .map d es => .map (.refl d) (SameEntries.refl es) (List.Perm.refl _)
theorem SameAll.refl : ∀ cs, SameAll cs cs
  | [] => .nil
  | c :: cs => .cons (Same.refl c) (SameAll.refl cs)
theorem SameEntries.refl : ∀ es, SameEntries es es
  | [] => .nil
  | (k, v) :: es => .cons (Same.refl k) (Same.refl v) (SameEntries.refl es)
end

/-- Entries that are the same in order can be reordered together. -/
theorem SameEntries.perm {ys zs : List (Content × Content)} (hp : ys.Perm zs) : ∀ {xs},
    SameEntries ys xs → ∃ ws, SameEntries zs ws ∧ ws.Perm xs := by
  induction hp with
  | nil => intro xs h; exact ⟨xs, h, List.Perm.refl _⟩
  | cons x _ ih =>
    intro xs h
    cases h with
    | cons h1 h2 h =>
      obtain ⟨ws, h3, h4⟩ := ih h
      exact ⟨_ :: ws, .cons h1 h2 h3, h4.cons _⟩
  | swap x y l =>
    intro xs h
    cases h with
    | cons h1 h2 h =>
      cases h with
      | cons h3 h4 h => exact ⟨_, .cons h3 h4 (.cons h1 h2 h), List.Perm.swap ..⟩
  | trans _ _ ih1 ih2 =>
    intro xs h
    obtain ⟨ws, h1, h2⟩ := ih1 h
    obtain ⟨vs, h3, h4⟩ := ih2 h1
    exact ⟨vs, h3, h4.trans h2⟩

mutual
theorem Same.symm : ∀ {a b}, Same a b → Same b a
  | _, _, .node hd h => .node hd.symm (SameAll.symm h)
  | _, _, .map hd h hp =>
    have ⟨_, h3, h4⟩ := SameEntries.perm hp (SameEntries.symm h)
    .map hd.symm h3 h4
theorem SameAll.symm : ∀ {a b}, SameAll a b → SameAll b a
  | _, _, .nil => .nil
  | _, _, .cons h hs => .cons (Same.symm h) (SameAll.symm hs)
theorem SameEntries.symm : ∀ {a b}, SameEntries a b → SameEntries b a
  | _, _, .nil => .nil
  | _, _, .cons h k hs => .cons (Same.symm h) (Same.symm k) (SameEntries.symm hs)
end

mutual
theorem Same.trans : ∀ {a b c}, Same a b → Same b c → Same a c
  | _, _, _, .node hd h, .node hd' h' => .node (hd.trans hd') (SameAll.trans h h')
  | _, _, _, .map hd h hp, .map hd' h' hp' =>
    have ⟨_, h3, h4⟩ := SameEntries.perm hp.symm h'
    .map (hd.trans hd') (SameEntries.trans h h3) (h4.trans hp')
theorem SameAll.trans : ∀ {a b c}, SameAll a b → SameAll b c → SameAll a c
  | _, _, _, .nil, .nil => .nil
  | _, _, _, .cons h hs, .cons k ks => .cons (Same.trans h k) (SameAll.trans hs ks)
theorem SameEntries.trans : ∀ {a b c}, SameEntries a b → SameEntries b c → SameEntries a c
  | _, _, _, .nil, .nil => .nil
  | _, _, _, .cons h k hs, .cons h' k' hs' =>
    .cons (Same.trans h h') (Same.trans k k') (SameEntries.trans hs hs')
end

/-! ### A boolean version -/

/-- Equality of atoms as the code decides it. -/
def Atom.beq : Atom → Atom → Bool
  | .text a, .text b => decide (a = b)
  | .optText a, .optText b => decide (a = b)
  | .texts a, .texts b => decide (a = b)
  | .num a, .num b => N.eq a b
  | .flag a, .flag b => a == b
  | .count a, .count b => a == b
  | .optCount a, .optCount b => decide (a = b)
  | .unary a, .unary b => decide (a = b)
  | .binary a, .binary b => decide (a = b)
  | .strip a, .strip b => decide (a = b)
  | .raw a, .raw b => decide (a = b)
  | .assign a, .assign b => decide (a = b)
  | .term a, .term b => decide (a = b)
  | .tmpl a, .tmpl b => decide (a = b)
  | _, _ => false

/-- Elementwise. -/
def Atom.beqs : List Atom → List Atom → Bool
  | [], [] => true
  | a :: as, b :: bs => a.beq b && Atom.beqs as bs
  | _, _ => false

mutual
/-- Equality of contents as the code decides it. -/
def Content.beq : Content → Content → Bool
  | .node k d cs, .node l e ds => decide (k = l) && Atom.beqs d e && Content.beqs cs ds
  | .map d xs, .map e ys => Atom.beqs d e && xs.length == ys.length && Content.beqEntries xs ys
  | _, _ => false
/-- Elementwise. -/
def Content.beqs : List Content → List Content → Bool
  | [], [] => true
  | a :: as, b :: bs => a.beq b && Content.beqs as bs
  | _, _ => false
/-- Every entry is found in the other map. -/
def Content.beqEntries : List (Content × Content) → List (Content × Content) → Bool
  | [], _ => true
  | (k, v) :: rest, other =>
    (other.find? (fun p => k.beq p.1)).any (fun p => v.beq p.2) && Content.beqEntries rest other
end

theorem Atom.beq_iff {a b : Atom} (ha : ∀ n, a = .num n → WellFormed n)
    (hb : ∀ n, b = .num n → WellFormed n) : a.beq b = true ↔ a.Same b := by
  cases a <;> cases b <;> simp [Atom.beq, Atom.Same]
  exact Props.C10_equality_partial _ _ (ha _ rfl) (hb _ rfl)

theorem Atom.beqs_iff : ∀ {d e : List Atom}, (∀ n, .num n ∈ d → WellFormed n) →
    (∀ n, .num n ∈ e → WellFormed n) → (Atom.beqs d e = true ↔ SameAtoms d e)
  | [], [], _, _ => by simp [Atom.beqs, SameAtoms.nil]
  | [], _ :: _, _, _ => by simp only [Atom.beqs]; constructor <;> intro h <;> cases h
  | _ :: _, [], _, _ => by simp only [Atom.beqs]; constructor <;> intro h <;> cases h
  | a :: d, b :: e, hd, he => by
    have h1 := Atom.beq_iff (a := a) (b := b) (fun n h => hd n (by simp [h])) (fun n h => he n (by simp [h]))
    have h2 := Atom.beqs_iff (d := d) (e := e) (fun n h => hd n (by simp [h])) (fun n h => he n (by simp [h]))
    rw [Atom.beqs, Bool.and_eq_true, h1, h2]
    constructor
    · rintro ⟨h, k⟩; exact .cons h k
    · rintro (_ | ⟨h, k⟩); exact ⟨h, k⟩

/-- Entries that each have the same in another list of the same length, and that have different
keys, are the entries of that list. -/
theorem entries_of_found {xs : List (Content × Content)} : ∀ {ys}, xs.length = ys.length →
    xs.Pairwise (fun x y => ¬ Same x.1 y.1) →
    (∀ x ∈ xs, ∃ y ∈ ys, Same x.1 y.1 ∧ Same x.2 y.2) → ∃ zs, SameEntries xs zs ∧ zs.Perm ys := by
  induction xs with
  | nil =>
    intro ys hl _ _
    cases ys with
    | nil => exact ⟨[], .nil, .nil⟩
    | cons => cases hl
  | cons x xs ih =>
    intro ys hl hp hx
    obtain ⟨y, hy, h1, h2⟩ := hx x (List.mem_cons_self ..)
    obtain ⟨l, r, rfl⟩ := List.append_of_mem hy
    rw [List.pairwise_cons] at hp
    obtain ⟨zs, h3, h4⟩ := ih (ys := l ++ r) (by simp at hl ⊢; omega) hp.2 (fun z hz => by
      obtain ⟨w, hw, h5, h6⟩ := hx z (List.mem_cons_of_mem _ hz)
      refine ⟨w, ?_, h5, h6⟩
      rcases List.mem_append.mp hw with hw | hw
      · exact List.mem_append_left _ hw
      · rcases List.mem_cons.mp hw with rfl | hw
        · exact absurd (h1.trans h5.symm) (hp.1 z hz)
        · exact List.mem_append_right _ hw)
    exact ⟨y :: zs, .cons h1 h2 h3, (h4.cons y).trans List.perm_middle.symm⟩

theorem SameEntries.length {xs ys} : SameEntries xs ys → xs.length = ys.length := by
  induction xs generalizing ys with
  | nil => intro h; cases h; rfl
  | cons x xs ih =>
    intro h
    cases h with
    | cons _ _ h => simp [ih h]

theorem SameEntries.mem {xs ys} (h : SameEntries xs ys) :
    ∀ x ∈ xs, ∃ y ∈ ys, Same x.1 y.1 ∧ Same x.2 y.2 := by
  induction xs generalizing ys with
  | nil => nofun
  | cons x xs ih =>
    cases h with
    | cons h1 h2 h =>
      intro z hz
      rcases List.mem_cons.mp hz with rfl | hz
      · exact ⟨_, List.mem_cons_self .., h1, h2⟩
      · obtain ⟨w, hw, h3⟩ := ih h z hz
        exact ⟨w, List.mem_cons_of_mem _ hw, h3⟩

theorem pairwise_eq {ys : List (Content × Content)} (hp : ys.Pairwise fun x y => ¬ Same x.1 y.1)
    {x y} (hx : x ∈ ys) (hy : y ∈ ys) (h : Same x.1 y.1) : x = y := by
  induction hp with
  | nil => cases hx
  | cons hz _ ih =>
    rcases List.mem_cons.mp hx with rfl | hx' <;> rcases List.mem_cons.mp hy with rfl | hy'
    · rfl
    · exact absurd h (hz _ hy')
    · exact absurd h.symm (hz _ hx')
    · exact ih hx' hy'

mutual
theorem Content.beq_iff : ∀ (a : Content) {b : Content}, Proper a → Proper b →
    (a.beq b = true ↔ Same a b)
  | .node k d cs, .node l e ds, .node hd hc, .node he hc' => by
    rw [Content.beq, Bool.and_eq_true, Bool.and_eq_true, decide_eq_true_iff, Atom.beqs_iff hd he,
      Content.beqs_iff cs hc hc']
    constructor
    · rintro ⟨⟨rfl, h⟩, h'⟩; exact .node h h'
    · rintro (⟨h, h'⟩ | _); exact ⟨⟨rfl, h⟩, h'⟩
  | .map d xs, .map e ys, .map hd hk hv hp, .map he hk' hv' hp' => by
    have hf := Content.beqEntries_iff xs hk hv hk' hv' hp'
    rw [Content.beq, Bool.and_eq_true, Bool.and_eq_true, Atom.beqs_iff hd he, beq_iff_eq, hf]
    constructor
    · rintro ⟨⟨h1, h2⟩, h3⟩
      obtain ⟨zs, h4, h5⟩ := entries_of_found h2 hp h3
      exact .map h1 h4 h5
    · rintro (_ | ⟨h1, h2, h3⟩)
      refine ⟨⟨h1, h2.length.trans h3.length_eq⟩, fun x hx => ?_⟩
      obtain ⟨y, hy, h4⟩ := h2.mem x hx
      exact ⟨y, h3.mem_iff.mp hy, h4⟩
  | .node .., .map .., _, _ => by
    simp only [Content.beq]; constructor <;> intro h <;> cases h
  | .map .., .node .., _, _ => by
    simp only [Content.beq]; constructor <;> intro h <;> cases h
theorem Content.beqs_iff : ∀ (as : List Content) {bs : List Content}, (∀ a ∈ as, Proper a) →
    (∀ b ∈ bs, Proper b) → (Content.beqs as bs = true ↔ SameAll as bs)
  | [], [], _, _ => by simp [Content.beqs, SameAll.nil]
  | [], _ :: _, _, _ => by simp only [Content.beqs]; constructor <;> intro h <;> cases h
  | _ :: _, [], _, _ => by simp only [Content.beqs]; constructor <;> intro h <;> cases h
  | a :: as, b :: bs, ha, hb => by
    rw [Content.beqs, Bool.and_eq_true,
      Content.beq_iff a (ha a (List.mem_cons_self ..)) (hb b (List.mem_cons_self ..)),
      Content.beqs_iff as (fun x hx => ha x (List.mem_cons_of_mem _ hx))
        (fun x hx => hb x (List.mem_cons_of_mem _ hx))]
    constructor
    · rintro ⟨h, k⟩; exact .cons h k
    · rintro (_ | ⟨h, k⟩); exact ⟨h, k⟩
theorem Content.beqEntries_iff : ∀ (xs : List (Content × Content)) {ys : List (Content × Content)},
    (∀ x ∈ xs, Proper x.1) → (∀ x ∈ xs, Proper x.2) → (∀ y ∈ ys, Proper y.1) → (∀ y ∈ ys, Proper y.2) →
    ys.Pairwise (fun x y => ¬ Same x.1 y.1) →
    (Content.beqEntries xs ys = true ↔ ∀ x ∈ xs, ∃ y ∈ ys, Same x.1 y.1 ∧ Same x.2 y.2)
  | [], _, _, _, _, _, _ => by simp [Content.beqEntries]
  | (k, v) :: xs, ys, hk, hv, hk', hv', hp => by
    have ih := Content.beqEntries_iff xs (ys := ys) (fun x hx => hk x (List.mem_cons_of_mem _ hx))
      (fun x hx => hv x (List.mem_cons_of_mem _ hx)) hk' hv' hp
    have h1 : ∀ y ∈ ys, (k.beq y.1 = true ↔ Same k y.1) := fun y hy =>
      Content.beq_iff k (hk _ (List.mem_cons_self ..)) (hk' y hy)
    have h2 : ∀ y ∈ ys, (v.beq y.2 = true ↔ Same v y.2) := fun y hy =>
      Content.beq_iff v (hv _ (List.mem_cons_self ..)) (hv' y hy)
    rw [Content.beqEntries, Bool.and_eq_true, ih, List.forall_mem_cons]
    refine and_congr_left fun _ => ?_
    constructor
    · intro h
      cases hf : ys.find? (fun p => k.beq p.1) with
      | none => rw [hf] at h; cases h
      | some p =>
        rw [hf] at h
        have hm := List.mem_of_find?_eq_some hf
        exact ⟨p, hm, (h1 p hm).mp (List.find?_some (p := fun p : Content × Content => k.beq p.1) hf), (h2 p hm).mp h⟩
    · rintro ⟨y, hy, h3, h4⟩
      cases hf : ys.find? (fun p => k.beq p.1) with
      | none =>
        have := List.find?_eq_none.mp hf y hy
        exact absurd ((h1 y hy).mpr h3) this
      | some p =>
        have hm := List.mem_of_find?_eq_some hf
        have hs := (h1 p hm).mp (List.find?_some (p := fun p : Content × Content => k.beq p.1) hf)
        have : p = y := pairwise_eq hp hm hy (hs.symm.trans h3)
        subst this
        exact (h2 p hm).mpr h4
end

/-! ### The code's equality is the boolean version on the contents -/

theorem DIdent.beqList_eq : ∀ as bs : List DIdent,
    DIdent.beqList as bs = decide (as.map DIdent.name = bs.map DIdent.name)
  | [], [] => rfl
  | [], _ :: _ => by simp [DIdent.beqList]
  | _ :: _, [] => by simp [DIdent.beqList]
  | a :: as, b :: bs => by simp [DIdent.beqList, DIdent.beq, DIdent.beqList_eq as bs]

theorem DIdent.beqOpt_eq (a b : Option DIdent) :
    DIdent.beqOpt a b = decide (a.map DIdent.name = b.map DIdent.name) := by
  cases a <;> cases b <;> simp [DIdent.beqOpt, DIdent.beq]

theorem itemsContent_find (k : EKey) (h : ∀ k', EExpr.beqKey k k' = (keyContent k).beq (keyContent k'))
    (v : EExpr) (hv : ∀ v', EExpr.beq v v' = (content v).beq (content v')) (a : Assign) (t : ItemEnd) :
    ∀ is : List EItem,
    (is.find? (fun p => EExpr.beqKey k p.key)).any
      (fun p => EExpr.beq v p.value && decide (a = p.assign) && decide (t = p.term)) =
    ((itemsContent is).find? (fun p => (keyContent k).beq p.1)).any
      (fun p => (Content.node c!"value" [.assign a, .term t] [content v]).beq p.2)
  | [] => rfl
  | .mk k' v' a' t' :: is => by
    rw [itemsContent, List.find?_cons, List.find?_cons]
    simp only [EItem.key, ← h k']
    cases EExpr.beqKey k k' with
    | true =>
      show (EExpr.beq v v' && decide (a = a') && decide (t = t')) = _
      rw [Bool.eq_iff_iff]
      simp [hv v', Content.beq, Content.beqs, Atom.beqs, Atom.beq]
      tauto
    | false => exact itemsContent_find k h v hv a t is

theorem itemsContent_length : ∀ is : List EItem, (itemsContent is).length = is.length
  | [] => rfl
  | .mk .. :: is => by simp [itemsContent, itemsContent_length is]

mutual
theorem beq_content : ∀ a b : EExpr, EExpr.beq a b = (content a).beq (content b)
  | .null .., b => by
    cases b <;> simp [EExpr.beq, content, Content.beq, Atom.beqs, Atom.beq, Content.beqs]
  | .bool .., b => by
    cases b <;> simp [EExpr.beq, content, Content.beq, Atom.beqs, Atom.beq, Content.beqs]
  | .number .., b => by
    cases b <;> simp [EExpr.beq, content, Content.beq, Atom.beqs, Atom.beq, Content.beqs]
  | .string .., b => by
    cases b <;> simp [EExpr.beq, content, Content.beq, Atom.beqs, Atom.beq, Content.beqs]
  | .var .., b => by
    cases b <;> simp [EExpr.beq, content, Content.beq, Atom.beqs, Atom.beq, Content.beqs]
  | .array _ vs _ _, b => by
    cases b <;> rw [Bool.eq_iff_iff] <;>
      simp [EExpr.beq, content, Content.beq, Atom.beqs, Atom.beq, Content.beqs, beqList_content vs] <;> tauto
  | .object _ is _, b => by
    cases b <;> rw [Bool.eq_iff_iff] <;>
      simp [EExpr.beq, content, Content.beq, Atom.beqs, Atom.beq, Content.beqs, beqItems_content is, itemsContent_length] <;> tauto
  | .strTmpl _ es, b => by
    cases b <;> rw [Bool.eq_iff_iff] <;>
      simp [EExpr.beq, content, Content.beq, Atom.beqs, Atom.beq, Content.beqs, beqElems_content es] <;> tauto
  | .heredoc _ _ _ es _ _, b => by
    cases b <;> rw [Bool.eq_iff_iff] <;>
      simp [EExpr.beq, content, Content.beq, Atom.beqs, Atom.beq, Content.beqs, beqElems_content es] <;> tauto
  | .paren _ e, b => by
    cases b <;> rw [Bool.eq_iff_iff] <;>
      simp [EExpr.beq, content, Content.beq, Atom.beqs, Atom.beq, Content.beqs, beq_content e] <;> tauto
  | .cond _ x y z, b => by
    cases b <;> rw [Bool.eq_iff_iff] <;>
      simp [EExpr.beq, content, Content.beq, Atom.beqs, Atom.beq, Content.beqs, beq_content x, beq_content y, beq_content z] <;> tauto
  | .call _ _ _ _ as _ _ _, b => by
    cases b <;> rw [Bool.eq_iff_iff] <;>
      simp [EExpr.beq, content, Content.beq, Atom.beqs, Atom.beq, Content.beqs, DIdent.beqList_eq, DIdent.beq, beqList_content as] <;> tauto
  | .trav _ e os, b => by
    cases b <;> rw [Bool.eq_iff_iff] <;>
      simp [EExpr.beq, content, Content.beq, Atom.beqs, Atom.beq, Content.beqs, beq_content e, beqTravs_content os] <;> tauto
  | .unary _ _ _ e, b => by
    cases b <;> rw [Bool.eq_iff_iff] <;>
      simp [EExpr.beq, content, Content.beq, Atom.beqs, Atom.beq, Content.beqs, beq_content e] <;> tauto
  | .binary _ l _ _ r, b => by
    cases b <;> rw [Bool.eq_iff_iff] <;>
      simp [EExpr.beq, content, Content.beq, Atom.beqs, Atom.beq, Content.beqs, beq_content l, beq_content r] <;> tauto
  | .forE _ _ _ _ x ke y _ _ co, b => by
    cases b <;> rw [Bool.eq_iff_iff] <;>
      simp [EExpr.beq, content, Content.beq, Atom.beqs, Atom.beq, Content.beqs, DIdent.beqOpt_eq, DIdent.beq, beq_content x, beqOpt_content ke, beq_content y,
        beqOpt_content co] <;> tauto
theorem beqOpt_content : ∀ a b : Option EExpr,
    EExpr.beqOpt a b = (optContent a).beq (optContent b)
  | none, b => by
    rcases b with _ | b
    · simp [EExpr.beqOpt, optContent, Content.absent, Content.beq, Atom.beqs, Content.beqs]
    · cases b <;> simp [EExpr.beqOpt, optContent, Content.absent, content, Content.beq]
  | some a, b => by
    have ih := beq_content a
    rcases b with _ | b
    · cases a <;> simp [EExpr.beqOpt, optContent, Content.absent, content, Content.beq]
    · exact ih b
theorem beqList_content : ∀ as bs : List EExpr,
    EExpr.beqList as bs = Content.beqs (contents as) (contents bs)
  | [], bs => by cases bs <;> simp [EExpr.beqList, contents, Content.beqs]
  | a :: as, bs => by
    cases bs <;> simp [EExpr.beqList, contents, Content.beqs, beq_content a, beqList_content as]
theorem beqItems_content : ∀ as bs : List EItem,
    EExpr.beqItems as bs = Content.beqEntries (itemsContent as) (itemsContent bs)
  | [], bs => by simp [EExpr.beqItems, itemsContent, Content.beqEntries]
  | .mk k v a t :: is, bs => by
    rw [EExpr.beqItems, itemsContent, Content.beqEntries, beqItems_content is bs,
      itemsContent_find k (fun k' => beqKey_content k k') v (fun v' => beq_content v v') a t bs]
theorem beqKey_content : ∀ a b : EKey, EExpr.beqKey a b = (keyContent a).beq (keyContent b)
  | .ident _, b => by
    cases b <;> simp [EExpr.beqKey, keyContent, Content.beq, Atom.beqs, Atom.beq, Content.beqs, DIdent.beq]
  | .expr e, b => by
    cases b <;> simp [EExpr.beqKey, keyContent, Content.beq, Atom.beqs, Content.beqs, beq_content e]
theorem beqTravOp_content : ∀ a b : ETravOp, EExpr.beqTravOp a b = (travContent a).beq (travContent b)
  | .attrSplat _, b => by
    cases b <;> simp [EExpr.beqTravOp, travContent, Content.beq, Atom.beqs, Content.beqs]
  | .fullSplat _, b => by
    cases b <;> simp [EExpr.beqTravOp, travContent, Content.beq, Atom.beqs, Content.beqs]
  | .getAttr _, b => by
    cases b <;> simp [EExpr.beqTravOp, travContent, Content.beq, Atom.beqs, Atom.beq, Content.beqs, DIdent.beq]
  | .index e, b => by
    cases b <;> simp [EExpr.beqTravOp, travContent, Content.beq, Atom.beqs, Content.beqs, beq_content e]
  | .legacyIndex _ _, b => by
    cases b <;> simp [EExpr.beqTravOp, travContent, Content.beq, Atom.beqs, Atom.beq, Content.beqs]
theorem beqTravs_content : ∀ as bs : List ETrav,
    EExpr.beqTravs as bs = Content.beqs (travsContent as) (travsContent bs)
  | [], bs => by rcases bs with _ | ⟨⟨_, _⟩, _⟩ <;> simp [EExpr.beqTravs, travsContent, Content.beqs]
  | .mk _ a :: as, bs => by
    rcases bs with _ | ⟨⟨_, _⟩, _⟩ <;>
      simp [EExpr.beqTravs, travsContent, Content.beqs, beqTravOp_content a, beqTravs_content as]
theorem beqElem_content : ∀ a b : EElem, EExpr.beqElem a b = (elemContent a).beq (elemContent b)
  | .lit _ _, b => by
    cases b <;> simp [EExpr.beqElem, elemContent, Content.beq, Atom.beqs, Atom.beq, Content.beqs]
  | .interp _ e _, b => by
    cases b <;> rw [Bool.eq_iff_iff] <;>
      simp [EExpr.beqElem, elemContent, Content.beq, Atom.beqs, Atom.beq, Content.beqs, beq_content e] <;> tauto
  | .ifDir _ _ c _ _ t el _ _ _, b => by
    cases b <;> rw [Bool.eq_iff_iff] <;>
      simp [EExpr.beqElem, elemContent, Content.beq, Atom.beqs, Atom.beq, Content.beqs, beq_content c,
        beqElems_content t, beqElseOpt_content el] <;> tauto
  | .forDir _ _ _ _ c _ _ t _ _ _, b => by
    cases b <;> rw [Bool.eq_iff_iff] <;>
      simp [EExpr.beqElem, elemContent, Content.beq, Atom.beqs, Atom.beq, Content.beqs, DIdent.beqOpt_eq,
        DIdent.beq, beq_content c, beqElems_content t] <;> tauto
theorem beqElse_content : ∀ a b : EElse, EExpr.beqElse a b = (elseContent a).beq (elseContent b)
  | .mk _ _ _ _ es, b => by
    cases b
    rw [Bool.eq_iff_iff]
    simp [EExpr.beqElse, elseContent, Content.beq, Atom.beqs, Atom.beq, beqElems_content es]
    tauto
theorem beqElseOpt_content : ∀ a b : Option EElse,
    EExpr.beqElseOpt a b = (optElseContent a).beq (optElseContent b)
  | none, b => by
    rcases b with _ | ⟨_, _, _, _, _⟩ <;>
      simp [EExpr.beqElseOpt, optElseContent, Content.absent, elseContent, Content.beq, Atom.beqs, Content.beqs]
  | some a, b => by
    have ih := beqElse_content a
    rcases b with _ | b
    · cases a; simp [EExpr.beqElseOpt, optElseContent, Content.absent, elseContent, Content.beq]
    · exact ih b
theorem beqElems_content : ∀ as bs : List EElem,
    EExpr.beqElems as bs = Content.beqs (elemsContent as) (elemsContent bs)
  | [], bs => by cases bs <;> simp [EExpr.beqElems, elemsContent, Content.beqs]
  | a :: as, bs => by
    cases bs <;> simp [EExpr.beqElems, elemsContent, Content.beqs, beqElem_content a, beqElems_content as]
end

theorem labelBeq_content (a b : ELabel) : ELabel.beq a b = (labelContent a).beq (labelContent b) := by
  cases a <;> cases b <;>
    simp [ELabel.beq, labelContent, Content.beq, Atom.beqs, Atom.beq, Content.beqs, DIdent.beq]

theorem labelsBeq_content : ∀ as bs : List ELabel,
    ELabel.beqList as bs = Content.beqs (as.map labelContent) (bs.map labelContent)
  | [], bs => by cases bs <;> simp [ELabel.beqList, Content.beqs]
  | a :: as, bs => by
    cases bs <;> simp [ELabel.beqList, Content.beqs, labelBeq_content a, labelsBeq_content as]

mutual
theorem structBeq_content : ∀ a b : EStruct, EStruct.beq a b = (structContent a).beq (structContent b)
  | .attr _ k v, b => by
    cases b with
    | attr =>
      simp [EStruct.beq, structContent, Content.beq, Atom.beqs, Atom.beq, Content.beqs, DIdent.beq, beq_content v]
    | block => simp [EStruct.beq]; rfl
  | .block _ i ls bd, b => by
    cases b with
    | attr => simp [EStruct.beq]; rfl
    | block =>
      rw [Bool.eq_iff_iff]
      simp [EStruct.beq, structContent, Content.beq, Atom.beqs, Atom.beq, Content.beqs, DIdent.beq,
        labelsBeq_content ls, bodyBeq_content bd]
      tauto
theorem bodyBeq_content : ∀ a b : EBody, EBody.beq a b = (bodyContent a).beq (bodyContent b)
  | .mk _ ss _ _, .mk _ ts _ _ => by
    simp [EBody.beq, bodyContent, Content.beq, Atom.beqs, structsBeq_content ss ts]
theorem structsBeq_content : ∀ as bs : List EStruct,
    EStruct.beqList as bs = Content.beqs (structsContent as) (structsContent bs)
  | [], bs => by cases bs <;> simp [EStruct.beqList, structsContent, Content.beqs]
  | a :: as, bs => by
    cases bs <;> simp [EStruct.beqList, structsContent, Content.beqs, structBeq_content a, structsBeq_content as]
end

theorem entriesContent_length : ∀ is : List (ObjKey × Expr), (entriesContent is).length = is.length
  | [] => rfl
  | (_, _) :: is => by simp [entriesContent, entriesContent_length is]

theorem entriesContent_find (k : ObjKey)
    (h : ∀ k', ObjKey.beq k k' = (objKeyContent k).beq (objKeyContent k'))
    (v : Expr) (hv : ∀ v', Expr.beq v v' = (exprContent v).beq (exprContent v')) :
    ∀ is : List (ObjKey × Expr),
    (is.find? (fun p => ObjKey.beq k p.1)).any (fun p => Expr.beq v p.2) =
    ((entriesContent is).find? (fun p => (objKeyContent k).beq p.1)).any
      (fun p => (exprContent v).beq p.2)
  | [] => rfl
  | (k', v') :: is => by
    rw [entriesContent, List.find?_cons, List.find?_cons]
    simp only [← h k']
    cases ObjKey.beq k k' with
    | true => exact hv v'
    | false => exact entriesContent_find k h v hv is

mutual
theorem exprBeq_content : ∀ a b : Expr, Expr.beq a b = (exprContent a).beq (exprContent b)
  | .null, b => by
    cases b <;> simp [Expr.beq, exprContent, Content.beq, Atom.beqs, Atom.beq, Content.beqs]
  | .bool .., b => by
    cases b <;> simp [Expr.beq, exprContent, Content.beq, Atom.beqs, Atom.beq, Content.beqs]
  | .number .., b => by
    cases b <;> simp [Expr.beq, exprContent, Content.beq, Atom.beqs, Atom.beq, Content.beqs]
  | .string .., b => by
    cases b <;> simp [Expr.beq, exprContent, Content.beq, Atom.beqs, Atom.beq, Content.beqs]
  | .var .., b => by
    cases b <;> simp [Expr.beq, exprContent, Content.beq, Atom.beqs, Atom.beq, Content.beqs]
  | .template .., b => by
    cases b <;> simp [Expr.beq, exprContent, Content.beq, Atom.beqs, Atom.beq, Content.beqs]
  | .array vs, b => by
    cases b <;> rw [Bool.eq_iff_iff] <;>
      simp [Expr.beq, exprContent, Content.beq, Atom.beqs, Atom.beq, Content.beqs, exprsBeq_content vs] <;> tauto
  | .object is, b => by
    cases b <;> rw [Bool.eq_iff_iff] <;>
      simp [Expr.beq, exprContent, Content.beq, Atom.beqs, Atom.beq, Content.beqs, entriesBeq_content is, entriesContent_length] <;> tauto
  | .paren e, b => by
    cases b <;> rw [Bool.eq_iff_iff] <;>
      simp [Expr.beq, exprContent, Content.beq, Atom.beqs, Atom.beq, Content.beqs, exprBeq_content e] <;> tauto
  | .cond x y z, b => by
    cases b <;> rw [Bool.eq_iff_iff] <;>
      simp [Expr.beq, exprContent, Content.beq, Atom.beqs, Atom.beq, Content.beqs, exprBeq_content x, exprBeq_content y, exprBeq_content z] <;> tauto
  | .call n as x, b => by
    rcases n with ⟨ns, n⟩
    cases b <;> rw [Bool.eq_iff_iff] <;>
      simp [Expr.beq, exprContent, Content.beq, Atom.beqs, Atom.beq, Content.beqs, exprsBeq_content as]
    rename_i n' _ _
    cases n'
    simp
    tauto
  | .traversal e os, b => by
    cases b <;> rw [Bool.eq_iff_iff] <;>
      simp [Expr.beq, exprContent, Content.beq, Atom.beqs, Atom.beq, Content.beqs, exprBeq_content e, opsBeq_content os] <;> tauto
  | .unary _ e, b => by
    cases b <;> rw [Bool.eq_iff_iff] <;>
      simp [Expr.beq, exprContent, Content.beq, Atom.beqs, Atom.beq, Content.beqs, exprBeq_content e] <;> tauto
  | .binary l _ r, b => by
    cases b <;> rw [Bool.eq_iff_iff] <;>
      simp [Expr.beq, exprContent, Content.beq, Atom.beqs, Atom.beq, Content.beqs, exprBeq_content l, exprBeq_content r] <;> tauto
  | .forE _ _ x ke y _ co, b => by
    cases b <;> rw [Bool.eq_iff_iff] <;>
      simp [Expr.beq, exprContent, Content.beq, Atom.beqs, Atom.beq, Content.beqs, exprBeq_content x, optExprBeq_content ke, exprBeq_content y,
        optExprBeq_content co] <;> tauto
theorem optExprBeq_content : ∀ a b : Option Expr,
    Expr.beqOpt a b = (optExprContent a).beq (optExprContent b)
  | none, b => by
    rcases b with _ | b
    · simp [Expr.beqOpt, optExprContent, Content.absent, Content.beq, Atom.beqs, Content.beqs]
    · cases b <;> simp [Expr.beqOpt, optExprContent, Content.absent, exprContent, Content.beq]
  | some a, b => by
    have ih := exprBeq_content a
    rcases b with _ | b
    · cases a <;> simp [Expr.beqOpt, optExprContent, Content.absent, exprContent, Content.beq]
    · exact ih b
theorem exprsBeq_content : ∀ as bs : List Expr,
    Expr.beqList as bs = Content.beqs (exprContents as) (exprContents bs)
  | [], bs => by cases bs <;> simp [Expr.beqList, exprContents, Content.beqs]
  | a :: as, bs => by
    cases bs <;> simp [Expr.beqList, exprContents, Content.beqs, exprBeq_content a, exprsBeq_content as]
theorem entriesBeq_content : ∀ as bs : List (ObjKey × Expr),
    Expr.beqObj as bs = Content.beqEntries (entriesContent as) (entriesContent bs)
  | [], bs => by simp [Expr.beqObj, entriesContent, Content.beqEntries]
  | (k, v) :: is, bs => by
    rw [Expr.beqObj, entriesContent, Content.beqEntries, entriesBeq_content is bs,
      entriesContent_find k (fun k' => objKeyBeq_content k k') v (fun v' => exprBeq_content v v') bs]
theorem objKeyBeq_content : ∀ a b : ObjKey, ObjKey.beq a b = (objKeyContent a).beq (objKeyContent b)
  | .ident _, b => by
    cases b <;> simp [ObjKey.beq, objKeyContent, Content.beq, Atom.beqs, Atom.beq, Content.beqs]
  | .expr e, b => by
    cases b <;> simp [ObjKey.beq, objKeyContent, Content.beq, Atom.beqs, Content.beqs, exprBeq_content e]
theorem opBeq_content : ∀ a b : Verif.TravOp, Verif.TravOp.beq a b = (opContent a).beq (opContent b)
  | .attrSplat, b => by
    cases b <;> simp [Verif.TravOp.beq, opContent, Content.beq, Atom.beqs, Content.beqs]
  | .fullSplat, b => by
    cases b <;> simp [Verif.TravOp.beq, opContent, Content.beq, Atom.beqs, Content.beqs]
  | .getAttr _, b => by
    cases b <;> simp [Verif.TravOp.beq, opContent, Content.beq, Atom.beqs, Atom.beq, Content.beqs]
  | .index e, b => by
    cases b <;> simp [Verif.TravOp.beq, opContent, Content.beq, Atom.beqs, Content.beqs, exprBeq_content e]
  | .legacyIndex _, b => by
    cases b <;> simp [Verif.TravOp.beq, opContent, Content.beq, Atom.beqs, Atom.beq, Content.beqs]
theorem opsBeq_content : ∀ as bs : List Verif.TravOp,
    Verif.TravOp.beqList as bs = Content.beqs (opsContent as) (opsContent bs)
  | [], bs => by cases bs <;> simp [Verif.TravOp.beqList, opsContent, Content.beqs]
  | a :: as, bs => by
    cases bs <;> simp [Verif.TravOp.beqList, opsContent, Content.beqs, opBeq_content a, opsBeq_content as]
end

end Verif.Spec
