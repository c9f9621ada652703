import Verif.Spec.ParsedKeys
import Verif.Lemmas.Content
import Verif.Lemmas.ParseTop
/-! Helper lemmas for C75. -/

namespace Verif.Spec
open Gram

/-! ### Replacing the raw strings of a content -/

/-- Replace a raw string. -/
def Atom.mapRaw (f : Raw → Raw) : Atom → Atom
  | .raw r => .raw (f r)
  | a => a

mutual
/-- Replace the raw strings. -/
def Content.mapRaw (f : Raw → Raw) : Content → Content
  | .node k d cs => .node k (d.map (Atom.mapRaw f)) (Content.mapRaws f cs)
  | .map d es => .map (d.map (Atom.mapRaw f)) (Content.mapRawEntries f es)
def Content.mapRaws (f : Raw → Raw) : List Content → List Content
  | [] => []
  | c :: cs => c.mapRaw f :: Content.mapRaws f cs
def Content.mapRawEntries (f : Raw → Raw) : List (Content × Content) → List (Content × Content)
  | [] => []
  | (k, v) :: es => (k.mapRaw f, v.mapRaw f) :: Content.mapRawEntries f es
end

theorem despan_name (s : Str) (d : DIdent) : (d.despan s).name = d.name := rfl

theorem despan_names (s : Str) (ds : List DIdent) :
    (ds.map (DIdent.despan s)).map DIdent.name = ds.map DIdent.name := by
  rw [List.map_map]; rfl

theorem despan_optName (s : Str) (d : Option DIdent) :
    (d.map (DIdent.despan s)).map DIdent.name = d.map DIdent.name := by
  cases d <;> rfl

theorem elemsContent_cons (e : EElem) (es : List EElem) :
    elemsContent (e :: es) = elemContent e :: elemsContent es := by rw [elemsContent]

mutual

theorem content_despan (s : Str) : ∀ e : EExpr, content (e.despan s) = (content e).mapRaw (Raw.despan s)
  | .null .. | .bool .. | .number .. | .string .. | .var .. => by
    simp [EExpr.despan, content, Content.mapRaw, Content.mapRaws, Atom.mapRaw]
  | .array _ vs _ _ => by
    simp [EExpr.despan, content, Content.mapRaw, Atom.mapRaw, contents_despan s vs]
  | .object _ is _ => by
    simp [EExpr.despan, content, Content.mapRaw, Atom.mapRaw, itemsContent_despan s is]
  | .strTmpl _ es => by
    simp [EExpr.despan, content, Content.mapRaw, elemsContent_despan s es]
  | .heredoc _ _ _ es _ _ => by
    simp [EExpr.despan, content, Content.mapRaw, Atom.mapRaw, elemsContent_despan s es]
  | .paren _ e => by
    simp [EExpr.despan, content, Content.mapRaw, Content.mapRaws, content_despan s e]
  | .cond _ c t f => by
    simp [EExpr.despan, content, Content.mapRaw, Content.mapRaws, content_despan s c, content_despan s t,
      content_despan s f]
  | .call _ ns n _ as _ _ _ => by
    simp only [EExpr.despan, content, Content.mapRaw, Atom.mapRaw, contents_despan s as, despan_names,
      despan_name, List.map_cons, List.map_nil]
  | .trav _ e os => by
    simp [EExpr.despan, content, Content.mapRaw, Content.mapRaws, content_despan s e,
      travsContent_despan s os]
  | .unary _ _ _ e => by
    simp [EExpr.despan, content, Content.mapRaw, Content.mapRaws, Atom.mapRaw, content_despan s e]
  | .binary _ l _ _ r => by
    simp [EExpr.despan, content, Content.mapRaw, Content.mapRaws, Atom.mapRaw, content_despan s l,
      content_despan s r]
  | .forE _ _ k v c ke ve _ _ co => by
    simp only [EExpr.despan, content, Content.mapRaw, Content.mapRaws, Atom.mapRaw, content_despan s c,
      content_despan s ve, optContent_despan s ke, optContent_despan s co, despan_optName, despan_name,
      List.map_cons, List.map_nil]

theorem optContent_despan (s : Str) : ∀ e : Option EExpr,
    optContent (EExpr.despanOpt s e) = (optContent e).mapRaw (Raw.despan s)
  | none => by simp [EExpr.despanOpt, optContent, Content.absent, Content.mapRaw, Content.mapRaws]
  | some e => by simp [EExpr.despanOpt, optContent, content_despan s e]

theorem contents_despan (s : Str) : ∀ es : List EExpr,
    contents (EExpr.despanList s es) = Content.mapRaws (Raw.despan s) (contents es)
  | [] => by simp [EExpr.despanList, contents, Content.mapRaws]
  | e :: es => by simp [EExpr.despanList, contents, Content.mapRaws, content_despan s e, contents_despan s es]

theorem itemsContent_despan (s : Str) : ∀ is : List EItem,
    itemsContent (EExpr.despanItems s is) = Content.mapRawEntries (Raw.despan s) (itemsContent is)
  | [] => by simp [EExpr.despanItems, itemsContent, Content.mapRawEntries]
  | .mk k v a t :: is => by
    simp [EExpr.despanItems, itemsContent, Content.mapRawEntries, Content.mapRaw, Content.mapRaws,
      Atom.mapRaw, keyContent_despan s k, content_despan s v, itemsContent_despan s is]

theorem keyContent_despan (s : Str) : ∀ k : EKey,
    keyContent (k.despan s) = (keyContent k).mapRaw (Raw.despan s)
  | .ident d => by
    simp [EKey.despan, keyContent, Content.mapRaw, Content.mapRaws, Atom.mapRaw, despan_name]
  | .expr e => by
    simp [EKey.despan, keyContent, Content.mapRaw, Content.mapRaws, content_despan s e]

theorem travContent_despan (s : Str) : ∀ o : ETravOp,
    travContent (o.despan s) = (travContent o).mapRaw (Raw.despan s)
  | .attrSplat _ | .fullSplat _ | .legacyIndex _ _ => by
    simp [ETravOp.despan, travContent, Content.mapRaw, Content.mapRaws, Atom.mapRaw]
  | .getAttr d => by
    simp [ETravOp.despan, travContent, Content.mapRaw, Content.mapRaws, Atom.mapRaw, despan_name]
  | .index e => by
    simp [ETravOp.despan, travContent, Content.mapRaw, Content.mapRaws, content_despan s e]

theorem travsContent_despan (s : Str) : ∀ os : List ETrav,
    travsContent (EExpr.despanTravs s os) = Content.mapRaws (Raw.despan s) (travsContent os)
  | [] => by simp [EExpr.despanTravs, travsContent, Content.mapRaws]
  | .mk _ o :: os => by
    simp [EExpr.despanTravs, travsContent, Content.mapRaws, travContent_despan s o, travsContent_despan s os]

theorem elemsContent_despan (s : Str) : ∀ es : List EElem,
    elemsContent (EExpr.despanElems s es) = Content.mapRaws (Raw.despan s) (elemsContent es)
  | [] => by simp [EExpr.despanElems, elemsContent, Content.mapRaws]
  | .lit _ _ :: es => by
    simp [EExpr.despanElems, elemsContent, elemContent, Content.mapRaws, Content.mapRaw, Atom.mapRaw,
      elemsContent_despan s es]
  | .interp _ e _ :: es => by
    simp [EExpr.despanElems, elemsContent, elemContent, Content.mapRaws, Content.mapRaw, Atom.mapRaw,
      content_despan s e, elemsContent_despan s es]
  | .ifDir _ _ c _ _ t el _ _ _ :: es => by
    simp [EExpr.despanElems, elemsContent, elemContent, Content.mapRaws, Content.mapRaw, Atom.mapRaw,
      content_despan s c, elemsContent_despan s t, elseContent_despan s el, elemsContent_despan s es]
  | .forDir _ _ k v c _ _ t _ _ _ :: es => by
    simp only [EExpr.despanElems, elemsContent, elemContent, Content.mapRaws, Content.mapRaw, Atom.mapRaw,
      content_despan s c, elemsContent_despan s t, elemsContent_despan s es, despan_optName, despan_name,
      List.map_cons, List.map_nil]

theorem elseContent_despan (s : Str) : ∀ el : Option EElse,
    optElseContent (EExpr.despanElse s el) = (optElseContent el).mapRaw (Raw.despan s)
  | none => by simp [EExpr.despanElse, optElseContent, Content.absent, Content.mapRaw, Content.mapRaws]
  | some (.mk _ _ _ _ es) => by
    simp [EExpr.despanElse, optElseContent, elseContent, Content.mapRaw, Atom.mapRaw, elemsContent_despan s es]

end

theorem labelsContent_despan (s : Str) (ls : List ELabel) :
    (ls.map (ELabel.despan s)).map labelContent = Content.mapRaws (Raw.despan s) (ls.map labelContent) := by
  induction ls with
  | nil => rfl
  | cons l ls ih =>
    simp only [List.map_cons, Content.mapRaws, ih]
    cases l <;> rfl

mutual

theorem structContent_despan (s : Str) : ∀ st : EStruct,
    structContent (st.despan s) = (structContent st).mapRaw (Raw.despan s)
  | .attr _ k v => by
    simp [EStruct.despan, structContent, Content.mapRaw, Content.mapRaws, Atom.mapRaw, content_despan,
      despan_name]
  | .block _ i ls b => by
    simp only [EStruct.despan, structContent, Content.mapRaw, Content.mapRaws, Atom.mapRaw,
      bodyContent_despan s b, labelsContent_despan, despan_name, List.map_cons, List.map_nil]

theorem bodyContent_despan (s : Str) : ∀ b : EBody,
    bodyContent (b.despan s) = (bodyContent b).mapRaw (Raw.despan s)
  | .mk _ ss _ _ => by
    simp [EBody.despan, bodyContent, Content.mapRaw, structsContent_despan s ss]

theorem structsContent_despan (s : Str) : ∀ ss : List EStruct,
    structsContent (EStruct.despanList s ss) = Content.mapRaws (Raw.despan s) (structsContent ss)
  | [] => by simp [EStruct.despanList, structsContent, Content.mapRaws]
  | x :: xs => by
    simp [EStruct.despanList, structsContent, Content.mapRaws, structContent_despan s x,
      structsContent_despan s xs]

end

/-! ### The contents of the parser's trees before the spans are resolved -/

/-- A raw string that is resolved to the empty text is empty. -/
def Solid (s : Str) (r : Raw) : Prop := r.despan s = .empty → r = .empty

/-- The raw string in the atom is solid. -/
def SolidAtom (s : Str) : Atom → Prop
  | .raw r => Solid s r
  | _ => True

/-- No map has two keys that compare equal, and all raw strings are solid. -/
inductive Fit (s : Str) : Content → Prop
  | node {k d cs} : (∀ a ∈ d, SolidAtom s a) → (∀ c ∈ cs, Fit s c) → Fit s (.node k d cs)
  | map {d es} : (∀ a ∈ d, SolidAtom s a) → (∀ e ∈ es, Fit s e.1) → (∀ e ∈ es, Fit s e.2) →
      es.Pairwise (fun x y => x.1.beq y.1 = false) → Fit s (.map d es)

theorem solid_fromSpan {s : Str} {a b : Nat} (h1 : a ≤ b) (h2 : b ≤ s.length) :
    Solid s (.fromSpan ⟨a, b⟩) := by
  unfold Solid Raw.fromSpan
  split
  case isFalse => intro _; rfl
  case isTrue h =>
    intro h3
    exfalso
    simp only [Raw.despan, Raw.ofStr] at h3
    split at h3
    · rename_i h4
      rw [List.isEmpty_iff] at h4
      have := congrArg List.length h4
      simp only [Span.slice, List.length_take, List.length_drop, List.length_nil] at this
      simp only at h
      omega
    · cases h3

theorem Triv.solid {s : Str} {nl : Bool} {a b : Nat} (h : Triv s nl a b) : Solid s (.fromSpan ⟨a, b⟩) :=
  solid_fromSpan h.1 h.2.1

theorem solid_empty {s : Str} : Solid s .empty := fun _ => rfl

theorem Marker.solid {s kw : Str} {st : Strip} {p t : Raw} {a b : Nat} (h : Marker s kw st p t a b) :
    Solid s p ∧ Solid s t := by
  obtain ⟨_, _, _, _, -, h2, rfl, -, h5, rfl, -⟩ := h
  exact ⟨h2.solid, h5.solid⟩

/-- A content with no raw strings among its data. -/
theorem Fit.leaf {s k : Str} {d : List Atom} (h : ∀ a ∈ d, SolidAtom s a) : Fit s (.node k d []) :=
  .node h nofun

theorem fit_absent {s : Str} : Fit s .absent := .leaf nofun

/-- The content of an item's key and value. -/
def ItemFit (s : Str) (i : EItem) : Prop := Fit s (keyContent i.key) ∧ Fit s (content i.value)

theorem itemInsert_pairwise {k : EKey} {v : EExpr} {a : Assign} {t : ItemEnd} {is : List EItem}
    (h : is.Pairwise fun i j => EExpr.beqKey i.key j.key = false) :
    (itemInsert k v a t is).Pairwise fun i j => EExpr.beqKey i.key j.key = false := by
  have hm : ∀ {is : List EItem} {j}, j ∈ itemInsert k v a t is →
      (∃ i ∈ is, j.key = i.key) ∨ (j.key = k ∧ ∀ i ∈ is, EExpr.beqKey i.key k = false) := by
    intro is
    induction is with
    | nil => intro j hj; rw [List.mem_singleton.mp hj]; exact .inr ⟨rfl, nofun⟩
    | cons i is ih =>
      intro j hj
      cases i with
      | mk k' v' a' t' =>
        rw [itemInsert] at hj
        split at hj
        · rcases List.mem_cons.mp hj with rfl | hj
          · exact .inl ⟨_, List.mem_cons_self .., rfl⟩
          · exact .inl ⟨j, List.mem_cons_of_mem _ hj, rfl⟩
        · rename_i hb
          rcases List.mem_cons.mp hj with rfl | hj
          · exact .inl ⟨_, List.mem_cons_self .., rfl⟩
          · rcases ih hj with ⟨x, hx, e⟩ | ⟨e, hx⟩
            · exact .inl ⟨x, List.mem_cons_of_mem _ hx, e⟩
            · refine .inr ⟨e, fun y hy => ?_⟩
              rcases List.mem_cons.mp hy with rfl | hy
              · simpa [EItem.key] using hb
              · exact hx y hy
  induction is with
  | nil => exact List.pairwise_singleton ..
  | cons i is ih =>
    obtain ⟨h1, h2⟩ := List.pairwise_cons.mp h
    cases i with
    | mk k' v' a' t' =>
      rw [itemInsert]
      split
      · exact List.pairwise_cons.mpr ⟨h1, h2⟩
      · rename_i hb
        refine List.pairwise_cons.mpr ⟨fun j hj => ?_, ih h2⟩
        rcases hm hj with ⟨x, hx, e⟩ | ⟨e, _⟩
        · rw [e]; exact h1 x hx
        · rw [e]; simpa [EItem.key] using hb

theorem itemInsert_fit {s : Str} {k : EKey} {v : EExpr} {a : Assign} {t : ItemEnd} {is : List EItem}
    (h : ∀ i ∈ is, ItemFit s i) (hn : ItemFit s (.mk k v a t)) : ∀ i ∈ itemInsert k v a t is, ItemFit s i := by
  induction is with
  | nil => intro i hi; rw [List.mem_singleton.mp hi]; exact hn
  | cons i is ih =>
    have h1 := h i (List.mem_cons_self ..)
    have h2 : ∀ i ∈ is, ItemFit s i := fun i hi => h i (List.mem_cons_of_mem _ hi)
    intro j hj
    cases i with
    | mk k' v' a' t' =>
      rw [itemInsert] at hj
      split at hj
      · rcases List.mem_cons.mp hj with rfl | hj
        · exact ⟨h1.1, hn.2⟩
        · exact h2 j hj
      · rcases List.mem_cons.mp hj with rfl | hj
        · exact h1
        · exact ih h2 j hj

theorem insertItems_fit {s : Str} : ∀ {is acc : List EItem}, (∀ i ∈ is, ItemFit s i) →
    (∀ i ∈ acc, ItemFit s i) → (acc.Pairwise fun i j => EExpr.beqKey i.key j.key = false) →
    (∀ i ∈ insertItems acc is, ItemFit s i) ∧
      (insertItems acc is).Pairwise fun i j => EExpr.beqKey i.key j.key = false
  | [], _, _, h2, h3 => ⟨h2, h3⟩
  | .mk k v a t :: is, acc, h1, h2, h3 => by
    rw [insertItems]
    exact insertItems_fit (fun i hi => h1 i (List.mem_cons_of_mem _ hi))
      (itemInsert_fit h2 (h1 _ (List.mem_cons_self ..))) (itemInsert_pairwise h3)

theorem mem_itemsContent {is : List EItem} {e : Content × Content} (h : e ∈ itemsContent is) :
    ∃ i ∈ is, e = (keyContent i.key, .node c!"value" [.assign i.assign, .term i.term] [content i.value]) := by
  induction is with
  | nil => simp only [itemsContent] at h; cases h
  | cons i is ih =>
    cases i with
    | mk k v a t =>
      simp only [itemsContent] at h
      rcases List.mem_cons.mp h with rfl | h
      · exact ⟨_, List.mem_cons_self .., rfl⟩
      · obtain ⟨j, hj, e⟩ := ih h
        exact ⟨j, List.mem_cons_of_mem _ hj, e⟩

theorem itemsContent_pairwise {R : Content → Content → Prop} {is : List EItem} :
    ((itemsContent is).Pairwise fun x y => R x.1 y.1) ↔
      is.Pairwise fun i j => R (keyContent i.key) (keyContent j.key) := by
  have : (itemsContent is).map (·.1) = is.map fun i => keyContent i.key := by
    induction is with
    | nil => simp [itemsContent]
    | cons i is ih => cases i; simp [itemsContent, ih, EItem.key]
  rw [← List.pairwise_map (f := fun i : EItem => keyContent i.key), ← this, List.pairwise_map]

theorem fit_object {s : Str} {m : Meta} {is : List EItem} {t : Raw} (ht : Solid s t)
    (h1 : ∀ i ∈ is, ItemFit s i) (h2 : is.Pairwise fun i j => EExpr.beqKey i.key j.key = false) :
    Fit s (content (.object m is t)) := by
  rw [content]
  refine .map (by simpa [SolidAtom] using ht) ?_ ?_ ?_
  · intro e he
    obtain ⟨i, hi, rfl⟩ := mem_itemsContent he
    exact (h1 i hi).1
  · intro e he
    obtain ⟨i, hi, rfl⟩ := mem_itemsContent he
    exact .node (by simp [SolidAtom]) (by simpa using (h1 i hi).2)
  · rw [itemsContent_pairwise (R := fun a b => a.beq b = false)]
    exact h2.imp fun h => by rw [← beqKey_content]; exact h

variable {U : Uni} {s : Str}

mutual

theorem Core.fit : ∀ {nl e a b}, Core U s nl e a b → Fit s (content e)
  | _, _, _, _, .null _ => by rw [content]; exact .leaf nofun
  | _, _, _, _, .bool _ => by rw [content]; exact .leaf (by simp [SolidAtom])
  | _, _, _, _, .number _ _ => by rw [content]; exact .leaf (by simp [SolidAtom])
  | _, _, _, _, .string _ => by rw [content]; exact .leaf (by simp [SolidAtom])
  | _, _, _, _, .array _ h2 _ h4 _ => by
    rw [content]; exact .node (by simpa [SolidAtom] using h4.solid) h2.fit
  | _, _, _, _, .object _ h2 _ =>
    have h := insertItems_fit h2.fit.1 (acc := []) nofun .nil
    fit_object h2.fit.2 h.1 h.2
  | _, _, _, _, .strTmpl _ h2 _ => by rw [content]; exact .node nofun h2.fit
  | _, _, _, _, .heredoc _ _ _ _ h5 _ h7 _ => by
    rw [content]; exact .node (by simpa [SolidAtom] using solid_fromSpan h7.1 h7.2.1) h5.fit
  | _, _, _, _, .paren _ _ h3 _ _ _ => by
    have := h3.fit
    rw [content]; exact .node nofun (by simpa using this)
  | _, _, _, _, .var _ _ => by rw [content]; exact .leaf (by simp [SolidAtom])
  | _, _, _, _, .cond h1 _ _ _ _ _ h6 _ _ _ _ h11 _ => by
    have g1 := h1.fit; have g2 := h6.fit; have g3 := h11.fit
    rw [content]; exact .node nofun (by simp [g1, g2, g3])
  | _, _, _, _, .call _ _ h3 _ h5 _ => by
    rw [content]; exact .node (by simpa [SolidAtom] using h5.solid) h3.fit
  | _, _, _, _, .trav h1 _ _ h4 _ _ => by
    have g1 := h1.fit; have g4 := h4.fit
    rw [content]; exact .node nofun (by simpa [g1] using g4)
  | _, _, _, _, .unary _ _ h3 _ _ => by
    have := h3.fit
    rw [content]; exact .node (by simp [SolidAtom]) (by simpa using this)
  | _, _, _, _, .binary h1 _ _ _ _ h6 _ _ _ _ => by
    have g1 := h1.fit; have g2 := h6.fit
    rw [content]; exact .node (by simp [SolidAtom]) (by simp [g1, g2])
  | _, _, _, _, .forList _ h2 _ h4 _ _ h7 _ => by
    have g2 := h2.fit; have g4 := h4.fit; have g7 := h7.fit
    rw [content]; exact .node (by simp [SolidAtom]) (by simp [g2, g4, g7, optContent, fit_absent])
  | _, _, _, _, .forObj _ h2 _ h4 _ _ _ _ h9 _ _ _ _ h14 _ => by
    have g2 := h2.fit; have g4 := h4.fit; have g9 := h9.fit; have g7 := h14.fit
    rw [content]; exact .node (by simp [SolidAtom]) (by simp [g2, g4, g7, g9, optContent])
  | _, _, _, _, .forGroup _ h2 _ h4 _ _ _ _ h9 _ _ _ _ _ => by
    have g2 := h2.fit; have g4 := h4.fit; have g9 := h9.fit
    rw [content]; exact .node (by simp [SolidAtom]) (by simp [g2, g4, g9, optContent, fit_absent])

theorem Intro.fit : ∀ {im k v c p q}, Intro U s im k v c p q → Fit s (content c)
  | _, _, _, _, _, _, .mk _ _ _ _ _ h6 _ _ _ => h6.fit

theorem Cond.fit : ∀ {cm co p q}, Cond U s cm co p q → Fit s (optContent co)
  | _, _, _, _, .none => by rw [optContent]; exact fit_absent
  | _, _, _, _, .some _ _ _ h4 _ _ => by rw [optContent]; exact h4.fit

theorem Elems.fit : ∀ {es a b}, Elems U s es a b → ∀ c ∈ contents es, Fit s c
  | _, _, _, .nil => by rw [contents]; nofun
  | _, _, _, .cons _ h2 _ _ h5 => by
    have g2 := h2.fit; have g5 := h5.fit
    rw [contents]; simpa [g2] using g5

theorem ElemsTail.fit : ∀ {es a b}, ElemsTail U s es a b → ∀ c ∈ contents es, Fit s c
  | _, _, _, .nil => by rw [contents]; nofun
  | _, _, _, .cons _ _ h2 _ _ h5 => by
    have g2 := h2.fit; have g5 := h5.fit
    rw [contents]; simpa [g2] using g5

theorem Items.fit : ∀ {is tr a b}, Items U s is tr a b → (∀ i ∈ is, ItemFit s i) ∧ Solid s tr
  | _, _, _, _, .nil h => ⟨nofun, h.solid⟩
  | _, _, _, _, .last h => ⟨fun i hi => by rw [List.mem_singleton.mp hi]; exact h.fit, solid_empty⟩
  | _, _, _, _, .cons h1 _ _ h4 => ⟨fun i hi => by
      rcases List.mem_cons.mp hi with rfl | hi
      · exact h1.fit
      · exact h4.fit.1 i hi, h4.fit.2⟩

theorem Item.fit : ∀ {k v as a b}, Item U s k v as a b → ∀ {t}, ItemFit s (.mk k v as t)
  | _, _, _, _, _, .ident _ _ _ _ _ _ h7 _ _ _, _ =>
    ⟨by simp only [EItem.key, keyContent]; exact .leaf (by simp [SolidAtom]), h7.fit⟩
  | _, _, _, _, _, .expr _ h2 _ _ _ _ h7 _ _ _, _ => by
    have g2 := h2.fit
    exact ⟨by simp only [EItem.key, keyContent]; exact .node nofun (by simpa using g2), h7.fit⟩

theorem Travs.fit : ∀ {nl os a b}, Travs U s nl os a b → ∀ c ∈ travsContent os, Fit s c
  | _, _, _, _, .nil => by rw [travsContent]; nofun
  | _, _, _, _, .cons _ h2 h3 => by
    have g2 := h2.fit; have g3 := h3.fit
    rw [travsContent]; simpa [g2] using g3

theorem TravOp.fit : ∀ {o a b}, TravOp U s o a b → Fit s (travContent o)
  | _, _, _, .attrSplat _ _ _ => by rw [travContent]; exact .leaf nofun
  | _, _, _, .fullSplat _ _ _ _ _ => by rw [travContent]; exact .leaf nofun
  | _, _, _, .getAttr _ _ _ _ => by rw [travContent]; exact .leaf (by simp [SolidAtom])
  | _, _, _, .index _ _ h3 _ _ _ => by
    have g := h3.fit
    rw [travContent]; exact .node nofun (by simpa using g)
  | _, _, _, .legacyIndex _ _ _ _ => by rw [travContent]; exact .leaf (by simp [SolidAtom])

theorem TElems.fit : ∀ {m es a b}, TElems U s m es a b → ∀ c ∈ elemsContent es, Fit s c
  | _, _, _, _, .nil => by rw [elemsContent]; nofun
  | _, _, _, _, .cons h1 h2 => by
    have g1 := h1.fit; have g2 := h2.fit
    rw [elemsContent]; simpa [g1] using g2

theorem ElemAt.fit : ∀ {m e a b}, ElemAt U s m e a b → Fit s (elemContent e)
  | _, _, _, _, .lit _ _ _ => by rw [elemContent]; exact .leaf (by simp [SolidAtom])
  | _, _, _, _, .interp _ _ h3 _ _ _ => by
    have g := h3.fit
    rw [elemContent]; exact .node (by simp [SolidAtom]) (by simpa using g)
  | _, _, _, _, .ifDir _ h2 _ _ h5 _ _ _ h9 h10 h11 => by
    have g5 := h5.fit; have g9 := Fit.node (k := c!"then") (d := []) nofun h9.fit; have g10 := h10.fit
    rw [elemContent]
    exact .node (by simp [SolidAtom, h2.solid, h11.solid]) (by simp [g5, g9, g10])
  | _, _, _, _, .forDir _ h2 _ _ _ _ h7 _ _ _ h11 h12 => by
    have g7 := h7.fit; have g11 := h11.fit
    rw [elemContent]
    exact .node (by simp [SolidAtom, h2.solid, h12.solid]) (by simpa [g7] using g11)

theorem Else.fit : ∀ {el a b}, Else U s el a b → Fit s (optElseContent el)
  | _, _, _, .none => by rw [optElseContent]; exact fit_absent
  | _, _, _, .some h1 h2 => by
    rw [optElseContent, elseContent]
    exact .node (by simp [SolidAtom, h1.solid]) h2.fit

end

theorem fit_labels (ls : List ELabel) : Fit s (.node c!"labels" [] (ls.map labelContent)) := by
  refine .node nofun fun c hc => ?_
  obtain ⟨l, _, rfl⟩ := List.mem_map.mp hc
  cases l <;> exact .leaf (by simp [SolidAtom])

mutual

theorem StructAt.fit : ∀ {e a b}, StructAt U s e a b → Fit s (structContent e)
  | _, _, _, .attr _ _ _ h4 _ => by
    have g := h4.fit
    rw [structContent]; exact .node (by simp [SolidAtom]) (by simpa using g)
  | _, _, _, .block _ _ _ h4 _ => by
    have g := h4.fit
    rw [structContent]; exact .node (by simp [SolidAtom]) (by simp [g, fit_labels])

theorem BlockBody.fit : ∀ {bd p q}, BlockBody U s bd p q → Fit s (bodyContent bd)
  | _, _, _, .lines _ _ h3 _ _ => by rw [bodyContent]; exact .node nofun h3.fit
  | _, _, _, .empty _ => by simp only [bodyContent, structsContent]; exact .leaf nofun
  | _, _, _, .single _ h2 _ _ => by
    have g := h2.fit
    simp only [bodyContent, structsContent]; exact .node nofun (by simpa using g)

theorem Lines.fit : ∀ {ss fin p q}, Lines U s ss fin p q → ∀ c ∈ structsContent ss, Fit s c
  | _, _, _, _, .nil => by rw [structsContent]; nofun
  | _, _, _, _, .cons _ h2 _ _ _ h6 => by
    have g2 := h2.fit; have g6 := h6.fit
    rw [structsContent]; simpa [g2] using g6
  | _, _, _, _, .last _ h2 _ _ => by
    have g2 := h2.fit
    simp only [structsContent]; simpa using g2

end

theorem Document.fit {bd : EBody} (h : Document U s bd) : Fit s (bodyContent bd) := by
  obtain ⟨h1, -, -⟩ := h
  rw [bodyContent]; exact .node nofun h1.fit

/-! ### Resolving the spans -/

theorem mem_mapRaws {f : Raw → Raw} {cs : List Content} {c : Content} :
    c ∈ Content.mapRaws f cs ↔ ∃ x ∈ cs, c = x.mapRaw f := by
  induction cs with
  | nil => simp [Content.mapRaws]
  | cons x xs ih => simp [Content.mapRaws, ih]

theorem mem_mapRawEntries {f : Raw → Raw} {es : List (Content × Content)} {e : Content × Content} :
    e ∈ Content.mapRawEntries f es ↔ ∃ x ∈ es, e = (x.1.mapRaw f, x.2.mapRaw f) := by
  induction es with
  | nil => simp [Content.mapRawEntries]
  | cons x xs ih => cases x; simp [Content.mapRawEntries, ih]

theorem mapRawEntries_eq (f : Raw → Raw) (es : List (Content × Content)) :
    Content.mapRawEntries f es = es.map fun x => (x.1.mapRaw f, x.2.mapRaw f) := by
  induction es with
  | nil => simp [Content.mapRawEntries]
  | cons x xs ih => cases x; simp [Content.mapRawEntries, ih]

theorem mapRaws_eq (f : Raw → Raw) (cs : List Content) : Content.mapRaws f cs = cs.map (Content.mapRaw f) := by
  induction cs with
  | nil => simp [Content.mapRaws]
  | cons x xs ih => simp [Content.mapRaws, ih]

theorem data_mapRaw (f : Raw → Raw) (c : Content) : (c.mapRaw f).data = c.data.map (Atom.mapRaw f) := by
  cases c <;> simp [Content.mapRaw, Content.data]

theorem atoms_self {d : List Atom} (h1 : ∀ a ∈ d, SolidAtom s a)
    (h2 : ∀ r, Atom.raw r ∈ d.map (Atom.mapRaw (Raw.despan s)) → r = .empty) :
    d.map (Atom.mapRaw (Raw.despan s)) = d := by
  conv => rhs; rw [← List.map_id d]
  refine List.map_congr_left fun a ha => ?_
  cases a with
  | raw r =>
    have h3 := h2 (r.despan s) (List.mem_map.mpr ⟨_, ha, rfl⟩)
    have h4 : r = .empty := h1 _ ha h3
    subst h4
    rfl
  | _ => rfl

theorem RawFree.sub {c x : Content} (h : RawFree c) (hx : ∀ y, Contained y x → Contained y c) : RawFree x :=
  fun y hy => h y (hx y hy)

/-- Keys without whitespace are not changed when spans are resolved. -/
theorem Fit.self {c : Content} (h : Fit s c) (hr : RawFree (c.mapRaw (Raw.despan s))) :
    c.mapRaw (Raw.despan s) = c := by
  induction h with
  | @node k d cs h1 _ ih =>
    have hd := atoms_self h1 fun r hm => hr _ .self r (by simpa [Content.mapRaw, Content.data] using hm)
    rw [Content.mapRaw, hd, mapRaws_eq]
    congr 1
    conv => rhs; rw [← List.map_id cs]
    refine List.map_congr_left fun c hc => ih c hc (hr.sub fun y hy => ?_)
    rw [Content.mapRaw]
    exact .child (mem_mapRaws.mpr ⟨c, hc, rfl⟩) hy
  | @map d es h1 _ _ _ ih1 ih2 =>
    have hd := atoms_self h1 fun r hm => hr _ .self r (by simpa [Content.mapRaw, Content.data] using hm)
    rw [Content.mapRaw, hd, mapRawEntries_eq]
    congr 1
    conv => rhs; rw [← List.map_id es]
    refine List.map_congr_left fun e he => ?_
    have hm : ((e.1.mapRaw (Raw.despan s), e.2.mapRaw (Raw.despan s)) : Content × Content) ∈
        Content.mapRawEntries (Raw.despan s) es := mem_mapRawEntries.mpr ⟨e, he, rfl⟩
    have e1 := ih1 e he (hr.sub fun y hy => by rw [Content.mapRaw]; exact .key hm hy)
    have e2 := ih2 e he (hr.sub fun y hy => by rw [Content.mapRaw]; exact .value hm hy)
    simp only [e1, e2]
    rfl

/-- No map has two keys that compare equal. -/
inductive Apart : Content → Prop
  | node {k d cs} : (∀ c ∈ cs, Apart c) → Apart (.node k d cs)
  | map {d es} : (∀ e ∈ es, Apart e.1) → (∀ e ∈ es, Apart e.2) →
      es.Pairwise (fun x y => x.1.beq y.1 = false) → Apart (.map d es)

theorem PlainKeys.sub {c x : Content} (h : PlainKeys c) (hx : ∀ y, Contained y x → Contained y c) : PlainKeys x :=
  fun d es hy => h d es (hx _ hy)

theorem GoodNumbers.sub {c x : Content} (h : GoodNumbers c) (hx : ∀ y, Contained y x → Contained y c) :
    GoodNumbers x := fun y hy => h y (hx y hy)

theorem Fit.apart {c : Content} (h : Fit s c) (hp : PlainKeys (c.mapRaw (Raw.despan s))) :
    Apart (c.mapRaw (Raw.despan s)) := by
  induction h with
  | @node k d cs _ _ ih =>
    rw [Content.mapRaw] at hp ⊢
    refine .node fun c hc => ?_
    obtain ⟨x, hx, rfl⟩ := mem_mapRaws.mp hc
    exact ih x hx (hp.sub fun y hy => .child hc hy)
  | @map d es _ h2 _ h4 ih1 ih2 =>
    rw [Content.mapRaw] at hp ⊢
    refine .map (fun e he => ?_) (fun e he => ?_) ?_
    · obtain ⟨x, hx, rfl⟩ := mem_mapRawEntries.mp he
      exact ih1 x hx (hp.sub fun y hy => .key he hy)
    · obtain ⟨x, hx, rfl⟩ := mem_mapRawEntries.mp he
      exact ih2 x hx (hp.sub fun y hy => .value he hy)
    · rw [mapRawEntries_eq, List.pairwise_map]
      refine h4.imp_of_mem fun {a b} ha hb h => ?_
      have key : ∀ e ∈ es, e.1.mapRaw (Raw.despan s) = e.1 := fun e he =>
        (h2 e he).self (hp _ _ .self _ (mem_mapRawEntries.mpr ⟨e, he, rfl⟩))
      rw [key a ha, key b hb]
      exact h

theorem Apart.within {c : Content} (h : Apart c) {d : List Atom} {es : List (Content × Content)}
    (hw : Contained (.map d es) c) : es.Pairwise fun x y => x.1.beq y.1 = false := by
  induction h with
  | node _ ih =>
    cases hw with
    | child hc hw => exact ih _ hc hw
  | map _ _ h3 ih1 ih2 =>
    cases hw with
    | self => exact h3
    | key he hw => exact ih1 _ he hw
    | value he hw => exact ih2 _ he hw

theorem Apart.proper {c : Content} (h : Apart c) (hn : GoodNumbers c) : Proper c := by
  induction h with
  | node _ ih =>
    exact .node (fun n hm => hn _ .self n hm) fun c hc => ih c hc (hn.sub fun y hy => .child hc hy)
  | map _ _ h3 ih1 ih2 =>
    have p1 := fun e he => ih1 e he (hn.sub fun y hy => .key he hy)
    refine .map (fun n hm => hn _ .self n hm) p1
      (fun e he => ih2 e he (hn.sub fun y hy => .value he hy)) ?_
    refine h3.imp_of_mem fun {a b} ha hb h hs => ?_
    rw [(Content.beq_iff _ (p1 a ha) (p1 b hb)).mpr hs] at h
    cases h

/-! ### A decision procedure for examples -/

mutual
/-- No raw string but the empty one. -/
def rawFreeB : Content → Bool
  | .node _ d cs => rawFreeD d && rawFreeL cs
  | .map d es => rawFreeD d && rawFreeE es
def rawFreeL : List Content → Bool
  | [] => true
  | c :: cs => rawFreeB c && rawFreeL cs
def rawFreeE : List (Content × Content) → Bool
  | [] => true
  | (k, v) :: es => rawFreeB k && rawFreeB v && rawFreeE es
def rawFreeD : List Atom → Bool
  | [] => true
  | .raw r :: d => decide (r = .empty) && rawFreeD d
  | _ :: d => rawFreeD d
end

mutual
/-- All keys are without raw strings. -/
def plainKeysB : Content → Bool
  | .node _ _ cs => plainKeysL cs
  | .map _ es => plainKeysE es
def plainKeysL : List Content → Bool
  | [] => true
  | c :: cs => plainKeysB c && plainKeysL cs
def plainKeysE : List (Content × Content) → Bool
  | [] => true
  | (k, v) :: es => rawFreeB k && plainKeysB k && plainKeysB v && plainKeysE es
end

theorem rawFreeD_sound {d : List Atom} (h : rawFreeD d = true) {r : Raw} (hr : Atom.raw r ∈ d) : r = .empty := by
  induction d with
  | nil => cases hr
  | cons a d ih =>
    rcases List.mem_cons.mp hr with rfl | hr
    · simp [rawFreeD] at h; exact h.1
    · refine ih ?_ hr
      cases a <;> simp [rawFreeD] at h <;> first | exact h | exact h.2

theorem rawFreeL_mem : ∀ {cs : List Content}, rawFreeL cs = true → ∀ c ∈ cs, rawFreeB c = true
  | [], _, _, h => nomatch h
  | _ :: _, h, c, hc => by
    simp only [rawFreeL, Bool.and_eq_true] at h
    rcases List.mem_cons.mp hc with rfl | hc
    · exact h.1
    · exact rawFreeL_mem h.2 c hc

theorem rawFreeE_mem : ∀ {es : List (Content × Content)}, rawFreeE es = true →
    ∀ e ∈ es, rawFreeB e.1 = true ∧ rawFreeB e.2 = true
  | [], _, _, h => nomatch h
  | (_, _) :: _, h, e, he => by
    simp only [rawFreeE, Bool.and_eq_true] at h
    rcases List.mem_cons.mp he with rfl | he
    · exact h.1
    · exact rawFreeE_mem h.2 e he

theorem rawFreeB_sound {c : Content} (h : rawFreeB c = true) : RawFree c := by
  intro x hw
  induction hw with
  | self =>
    intro r hr
    cases x <;> simp only [rawFreeB, Bool.and_eq_true] at h <;> exact rawFreeD_sound h.1 hr
  | child hc _ ih => simp only [rawFreeB, Bool.and_eq_true] at h; exact ih (rawFreeL_mem h.2 _ hc)
  | key he _ ih => simp only [rawFreeB, Bool.and_eq_true] at h; exact ih (rawFreeE_mem h.2 _ he).1
  | value he _ ih => simp only [rawFreeB, Bool.and_eq_true] at h; exact ih (rawFreeE_mem h.2 _ he).2

theorem plainKeysL_mem : ∀ {cs : List Content}, plainKeysL cs = true → ∀ c ∈ cs, plainKeysB c = true
  | [], _, _, h => nomatch h
  | _ :: _, h, c, hc => by
    simp only [plainKeysL, Bool.and_eq_true] at h
    rcases List.mem_cons.mp hc with rfl | hc
    · exact h.1
    · exact plainKeysL_mem h.2 c hc

theorem plainKeysE_mem : ∀ {es : List (Content × Content)}, plainKeysE es = true →
    ∀ e ∈ es, rawFreeB e.1 = true ∧ plainKeysB e.1 = true ∧ plainKeysB e.2 = true
  | [], _, _, h => nomatch h
  | (_, _) :: _, h, e, he => by
    simp only [plainKeysE, Bool.and_eq_true] at h
    rcases List.mem_cons.mp he with rfl | he
    · exact ⟨h.1.1.1, h.1.1.2, h.1.2⟩
    · exact plainKeysE_mem h.2 e he

theorem plainKeysB_sound {c : Content} (h : plainKeysB c = true) : PlainKeys c := by
  intro d es hw e he
  induction hw with
  | self => simp only [plainKeysB] at h; exact rawFreeB_sound (plainKeysE_mem h e he).1
  | child hc _ ih => simp only [plainKeysB] at h; exact ih (plainKeysL_mem h _ hc)
  | key he' _ ih => simp only [plainKeysB] at h; exact ih (plainKeysE_mem h _ he').2.1
  | value he' _ ih => simp only [plainKeysB] at h; exact ih (plainKeysE_mem h _ he').2.2

end Verif.Spec
