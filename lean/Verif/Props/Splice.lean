import Verif.Lemmas.SpliceAt
import Verif.Lemmas.SpliceTmpl
import Verif.Lemmas.ParseTop
import Verif.Model.EditBody
/-! C77: changing a part of a document changes its text in the place of this part only. -/

namespace Verif.Props
open Gram Spec

private def Er : PEnv := ⟨.ascii, .release⟩
private def Ef : FmtEnv := ⟨.ascii, fun _ => []⟩

/-! ### Any tree -/

/-- Changing one expression of any document, at any depth but not inside of templates: the text before it and
the text after it stay. -/
theorem C77_expression (F : FmtEnv) (x y : EExpr) (b b' : EBody) (h : SwapBody x y b b') :
    ∃ pre suf p q, NoneOrBlank p ∧ NoneOrBlank q ∧ b.show F = pre ++ exprText F p q x ++ suf ∧
      b'.show F = pre ++ exprText F p q y ++ suf := swapBody_loc h

/-- The same for an expression inside of a template, which can be inside of an expression of another template and so on,
if both of the expressions contain a quoted template or none of them does. -/
theorem C77_template_partial (F : FmtEnv) (x y u v : EExpr) (b b' : EBody) (h : InPlaceOf x y u v) (hb : SwapBody u v b b')
    (hq : noQuoted x = noQuoted y) :
    ∃ pre suf p q f, NoneOrBlank p ∧ NoneOrBlank q ∧ b.show F = pre ++ innerText F f p q x ++ suf ∧
      b'.show F = pre ++ innerText F f p q y ++ suf := swapBody_locB hb (around_loc hq h)

/-- If only one of them does, the text behind it can change: the quote is not escaped any more, and what is printed is
not the template. -/
theorem C77_template_fails : ∃ x y u v b b', InPlaceOf x y u v ∧ SwapBody u v b b' ∧
    b.show Ef = c!"a = \"${ x }\\\"\"\n" ∧ b'.show Ef = c!"a = \"${ \"${ x }\" }\"\"\n" :=
  ⟨.var {} c!"x", .strTmpl {} [.interp none (.var {} c!"x") .none], _, _,
    .mk {} [.attr {} ⟨{}, c!"a"⟩ (.strTmpl {} ([] ++ .interp none (.var {} c!"x") .none :: [.lit none c!"\""]))] false false,
    .mk {} [.attr {} ⟨{}, c!"a"⟩ (.strTmpl {} ([] ++ .interp none (.strTmpl {} [.interp none (.var {} c!"x") .none]) .none ::
      [.lit none c!"\""]))] false false,
    .quoted (.interp .here .here), .mk (xs := []) (.attr .here), by decide +kernel, by decide +kernel⟩

/-- Replacing a run of attributes and blocks of any document by another one (adding some, if the run is empty;
removing some, if the other is), in any body that is not on one line: the lines before and after them stay. -/
theorem C77_structures (F : FmtEnv) (ms ms' : List EStruct) (b b' : EBody) (h : EditBody ms ms' b b') :
    ∃ pre suf, b.show F = pre ++ linesText F ms ++ suf ∧ b'.show F = pre ++ linesText F ms' ++ suf := editBody_locT h

/-! ### Parsed documents -/

/-- Changing one expression of a parsed document to one with the same prefix and suffix: the source with the text
of the new expression in the place of the old one. The document must be spelled the way it is printed (C18). -/
theorem C77_source_partial (E : PEnv) (F : FmtEnv) (s : Str) (b b' : EBody) (x y : EExpr) (p r : Nat)
    (h : parseBody E s = .ok b) (hr : '\r' ∉ s) (hc : canonBody E.U s b = true) (hs : SwapBody x y b b')
    (hx : x.getMeta.span = some ⟨p, r⟩) (hd : y.getMeta.decor = x.getMeta.decor) :
    p ≤ r ∧ r ≤ s.length ∧
      b'.show F = s.take p ++ bareText F y ++ s.drop r := by
  have h' := parseBody_ok E s
  rw [h] at h'
  obtain ⟨b₀, rfl, h2⟩ := h'
  obtain ⟨h3, h4, h5⟩ := h2.slot F hr ⟨hx, hd⟩ hc hs
  refine ⟨h3, h4, ?_⟩
  rw [h5]
  simp [slice, bareText, List.take_of_length_le]

/-- The same for an expression inside of a template: its text in the source is replaced. (That this text is the one at
the span of the expression is not shown here.) -/
theorem C77_source_template_partial (E : PEnv) (F : FmtEnv) (s : Str) (b b' : EBody) (x y u v : EExpr)
    (h : parseBody E s = .ok b) (hr : '\r' ∉ s) (hc : canonBody E.U s b = true) (hu : InPlaceOf x y u v)
    (hs : SwapBody u v b b') (hq : noQuoted x = noQuoted y) :
    ∃ pre suf p q f, NoneOrBlank p ∧ NoneOrBlank q ∧ s = pre ++ innerText F f p q x ++ suf ∧
      b'.show F = pre ++ innerText F f p q y ++ suf := by
  have h' := parseBody_ok E s
  rw [h] at h'
  obtain ⟨b₀, rfl, h2⟩ := h'
  obtain ⟨pre, suf, p, q, f, h3, h4, h5, h6⟩ := C77_template_partial F x y u v _ b' hu hs hq
  exact ⟨pre, suf, p, q, f, h3, h4, (h2.show F hr hc).symm.trans h5, h6⟩

/-- Replacing attributes and blocks of a parsed document: their lines in the source are replaced. -/
theorem C77_source_structures_partial (E : PEnv) (F : FmtEnv) (s : Str) (b b' : EBody) (ms ms' : List EStruct)
    (h : parseBody E s = .ok b) (hr : '\r' ∉ s) (hc : canonBody E.U s b = true) (hs : EditBody ms ms' b b') :
    ∃ pre suf, s = pre ++ linesText F ms ++ suf ∧ b'.show F = pre ++ linesText F ms' ++ suf := by
  have h' := parseBody_ok E s
  rw [h] at h'
  obtain ⟨b₀, rfl, h2⟩ := h'
  obtain ⟨pre, suf, h3, h4⟩ := editBody_locT (E := F) hs
  exact ⟨pre, suf, (h2.show F hr hc).symm.trans h3, h4⟩

/-- The document is its lines, between its prefix and its suffix, if it has a final newline. -/
theorem C77_lines (F : FmtEnv) (m : Meta) (ss : List EStruct) (o : Bool) :
    (EBody.mk m ss o false).show F = encDecor [] m.decor.pre ++ linesText F ss ++ encDecor [] m.decor.suf := by
  have := encStructs_text (E := F) false [] (.inl rfl) ss
  rw [List.append_nil] at this
  show (deco m [] [] (encStructs F false ss) false).1 = _
  rw [deco_apply, this]
  simp [encStructs, W.str]

/-- A document without a final newline is its lines without the last newline. So, structures that are added at the end
get no newline, and the line that was the last one gets one. -/
theorem C77_lines_open (F : FmtEnv) (m : Meta) (ss : List EStruct) (o : Bool) :
    (EBody.mk m ss o true).show F = encDecor [] m.decor.pre ++ (linesText F ss).dropLast ++ encDecor [] m.decor.suf := by
  have key : ∀ ss : List EStruct, encStructs F true ss false = ((linesText F ss).dropLast, false) := by
    intro ss
    induction ss with
    | nil => rfl
    | cons z ss ih =>
      have hz : z.enc F [] [] false = ((z.enc F [] [] false).1, false) := Prod.ext rfl (still_struct z)
      show (z.enc F [] [] +> W.str (if !ss.isEmpty || !true then c!"\n" else []) +> encStructs F true ss) false = _
      rw [W.seq_apply, hz, W.seq_apply, W.str, ih]
      cases ss with
      | nil => simp [linesText]
      | cons z' ss =>
        have hne : linesText F (z' :: ss) ≠ [] := by simp [linesText]
        rw [linesText.eq_2 F z, List.dropLast_append_of_ne_nil (by simp), List.dropLast_cons_of_ne_nil hne]
        simp
  show (deco m [] [] (encStructs F true ss) false).1 = _
  rw [deco_apply, key, List.append_assoc]

/-- Whatever attributes and blocks a block on one line is given, only the text between its braces changes. Two or more
attributes, or a block, are put on lines of their own. -/
theorem C77_oneline (F : FmtEnv) (m bm : Meta) (i : DIdent) (ls : List ELabel) (om : Bool) :
    ∃ pre suf, ∀ ss, linesText F [.block m i ls (.mk bm ss true om)] = pre ++ c!"{" ++ encDecor [] bm.decor.pre ++
      onelineText F ss ++ encDecor [] bm.decor.suf ++ c!"}" ++ suf := by
  refine ⟨encDecor [] m.decor.pre ++ (i.enc [] c!" " false).1 ++ (encLabels ls false).1, encDecor [] m.decor.suf ++ c!"\n",
    fun ss => ?_⟩
  have key : ∀ ss : List EStruct, (if true && onelineOk ss then EStruct.encOneline F ss else W.str c!"\n" +> EStruct.encList F ss)
      false = (onelineText F ss, false) := by
    intro ss
    have hl : ∀ ss, (W.str c!"\n" +> EStruct.encList F ss) false = ('\n' :: linesText F ss, false) := fun ss => by
      have := encList_text (E := F) ss []
      rw [List.append_nil] at this
      rw [W.seq_apply, W.str, this]
      simp [EStruct.encList, W.str]
    match ss with
    | [] => rfl
    | [.attr m k e] => exact Prod.ext rfl (still_struct (.attr m k e))
    | .block .. :: _ => exact hl _
    | .attr .. :: _ :: _ => exact hl _
  have hi : i.enc [] c!" " false = ((i.enc [] c!" " false).1, false) := Prod.ext rfl (still_ident i)
  have hls : encLabels ls false = ((encLabels ls false).1, false) := Prod.ext rfl (still_labels ls)
  simp only [linesText, EStruct.enc]
  rw [deco_apply, W.seq_apply, hi, W.seq_apply, hls, W.seq_apply, W.str, W.seq_apply, deco_apply, key]
  simp [W.str]

/-! ### The operations on bodies -/

private theorem join_split : EStruct.join ∘ EStruct.split = id := by
  funext z; cases z <;> rfl

private theorem map_join (ss : List EStruct) : (ss.map EStruct.split).map EStruct.join = ss := by
  rw [List.map_map, join_split, List.map_id]

private theorem join_split' (z : EStruct) : EStruct.join z.split = z := congrFun join_split z

/-- `insert` adds the lines of the structure, and nothing else changes. (It must not be put at the end of a
document without a final newline.) -/
theorem C77_insert (F : FmtEnv) (m : Meta) (ss : List EStruct) (o om : Bool) (i : Nat) (z : EStruct) (b' : EBody)
    (h : (EBody.mk m ss o om).step (.insert i z.split) = some (b', .unit)) (hn : om = false ∨ i < ss.length) :
    ∃ pre suf, (EBody.mk m ss o om).show F = pre ++ suf ∧ b'.show F = pre ++ linesText F [z] ++ suf := by
  have key : b' = .mk m (ss.take i ++ z :: ss.drop i) o om := by
    have hv : ∀ w : BStruct EAttr EBlock, EStruct.join w = z →
        ((Body.vecInsert i w (ss.map EStruct.split)).map (·, (Body.Ret.unit : Body.Ret EAttr EBlock))).map
          (fun r => (EBody.mk m (r.1.map EStruct.join) o om, r.2)) = some (b', .unit) →
        b' = .mk m (ss.take i ++ z :: ss.drop i) o om := by
      intro w hw hv
      unfold Body.vecInsert at hv
      split at hv
      · simp only [Option.map_some, Option.some.injEq, Prod.mk.injEq, and_true] at hv
        rw [← hv, List.map_append, List.map_cons, hw, ← List.map_take, ← List.map_drop, map_join, map_join]
      · cases hv
    cases z with
    | attr zm k v =>
      unfold EBody.step Body.step Body.tryInsert EStruct.split at h
      dsimp only at h
      split at h
      · cases h
      · exact hv _ rfl h
    | block zm j ls bd => exact hv _ rfl h
  subst key
  have he : EditBody [] [z] (EBody.mk m ss o om) (.mk m (ss.take i ++ z :: ss.drop i) o om) := by
    have := EditBody.body (ms := []) (ms' := [z]) (m := m) (xs := ss.take i) (ys := ss.drop i) (o := o) (om := om)
      (hn.imp_right fun h e => by rw [List.drop_eq_nil_iff] at e; omega)
    simpa using this
  obtain ⟨pre, suf, h1, h2⟩ := editBody_locT (E := F) he
  exact ⟨pre, suf, by rw [h1]; simp [linesText], h2⟩

/-- `push` adds the lines of the structure in front of the suffix of the body. -/
theorem C77_push (F : FmtEnv) (m : Meta) (ss : List EStruct) (o : Bool) (z : EStruct) (b' : EBody)
    (h : (EBody.mk m ss o false).step (.push z.split) = some (b', .unit)) :
    ∃ pre suf, (EBody.mk m ss o false).show F = pre ++ suf ∧ b'.show F = pre ++ linesText F [z] ++ suf := by
  have key : b' = .mk m (ss ++ [z]) o false := by
    cases z with
    | attr zm k v =>
      simp only [EBody.step, Body.step, Body.tryPush, EStruct.split] at h
      split at h
      · cases h
      · simp only [Option.map_some, Option.some.injEq, Prod.mk.injEq, and_true] at h
        rw [← h, List.map_append, map_join]; rfl
    | block zm j ls bd =>
      simp only [EBody.step, Body.step, Body.tryPush, EStruct.split, Option.map_some, Option.some.injEq, Prod.mk.injEq,
        and_true] at h
      rw [← h, List.map_append]
      exact congrArg (EBody.mk m · o false) (by rw [map_join]; rfl)
  subst key
  have he : EditBody [] [z] (EBody.mk m ss o false) (.mk m (ss ++ [z]) o false) := by
    have := EditBody.body (ms := []) (ms' := [z]) (m := m) (xs := ss) (ys := []) (o := o) (om := false) (.inl rfl)
    simpa using this
  obtain ⟨pre, suf, h1, h2⟩ := editBody_locT (E := F) he
  exact ⟨pre, suf, by rw [h1]; simp [linesText], h2⟩

/-- A refused attribute changes nothing. -/
theorem C77_refused (F : FmtEnv) (b b' : EBody) (op : Body.Op EAttr EBlock) (k : Str) (a : EAttr)
    (h : b.step op = some (b', .rejected k a)) : b'.show F = b.show F := by
  obtain ⟨m, ss, o, om⟩ := b
  have : b' = .mk m ss o om := by
    unfold EBody.step at h
    cases op with
    | insert i z =>
      unfold Body.step Body.tryInsert at h
      cases z with
      | attr k v =>
        dsimp only at h
        split at h
        · simp only [Option.map_some, Option.some.injEq, Prod.mk.injEq] at h
          rw [← h.1, map_join]
        · unfold Body.vecInsert at h; split at h <;> cases h
      | block j x => dsimp only at h; unfold Body.vecInsert at h; split at h <;> cases h
    | push z =>
      unfold Body.step Body.tryPush at h
      cases z with
      | attr k v =>
        dsimp only at h
        split at h
        · simp only [Option.map_some, Option.some.injEq, Prod.mk.injEq] at h
          rw [← h.1, map_join]
        · cases h
      | block j x => cases h
    | extend => cases h
    | pop => cases h
    | remove i =>
      cases hv : Body.vecRemove i (ss.map EStruct.split) <;> simp [Body.step, hv] at h
    | removeAttribute k =>
      cases hv : Body.removeAttribute k (ss.map EStruct.split) <;> simp [Body.step, hv] at h
    | removeBlocks k =>
      cases hv : Body.removeBlocks k (ss.map EStruct.split) <;> simp [Body.step, hv] at h
    | setAttribute => cases h
    | clear => cases h
  rw [this]

private theorem remove_text (F : FmtEnv) {m : Meta} {ss : List EStruct} {o om : Bool} {i : Nat}
    {z : BStruct EAttr EBlock} {r : List (BStruct EAttr EBlock)}
    (h : Body.vecRemove i (ss.map EStruct.split) = some (z, r)) (hn : om = false ∨ i + 1 < ss.length) :
    ∃ w, ss[i]? = some w ∧ z = w.split ∧ ∃ pre suf, (EBody.mk m ss o om).show F = pre ++ linesText F [w] ++ suf ∧
      (EBody.mk m (r.map EStruct.join) o om).show F = pre ++ suf := by
  unfold Body.vecRemove at h
  rw [List.getElem?_map] at h
  cases hw : ss[i]? with
  | none => rw [hw] at h; cases h
  | some w =>
    rw [hw] at h
    cases h
    refine ⟨w, rfl, rfl, ?_⟩
    rw [List.map_append, ← List.map_take, ← List.map_drop, map_join, map_join]
    have hss : ss = ss.take i ++ [w] ++ ss.drop (i + 1) := by
      obtain ⟨hi, rfl⟩ := List.getElem?_eq_some_iff.1 hw
      simp
    have he : EditBody [w] [] (EBody.mk m ss o om) (.mk m (ss.take i ++ ss.drop (i + 1)) o om) := by
      have := EditBody.body (ms := [w]) (ms' := []) (m := m) (xs := ss.take i) (ys := ss.drop (i + 1)) (o := o) (om := om)
        (hn.imp_right fun h e => by rw [List.drop_eq_nil_iff] at e; omega)
      rw [← hss] at this
      simpa using this
    obtain ⟨pre, suf, h1, h2⟩ := editBody_locT (E := F) he
    exact ⟨pre, suf, h1, by rw [h2]; simp [linesText]⟩

/-- `remove` removes the lines of the structure it returns, and nothing else. -/
theorem C77_remove (F : FmtEnv) (m : Meta) (ss : List EStruct) (o om : Bool) (i : Nat) (z : EStruct) (b' : EBody)
    (h : (EBody.mk m ss o om).step (.remove i) = some (b', .structure (some z.split)))
    (hn : om = false ∨ i + 1 < ss.length) :
    ∃ pre suf, (EBody.mk m ss o om).show F = pre ++ linesText F [z] ++ suf ∧ b'.show F = pre ++ suf := by
  unfold EBody.step Body.step at h
  dsimp only at h
  cases hv : Body.vecRemove i (ss.map EStruct.split) with
  | none => rw [hv] at h; cases h
  | some r =>
    obtain ⟨z', r⟩ := r
    rw [hv] at h
    simp only [Option.map_some, Option.some.injEq, Prod.mk.injEq, Body.Ret.structure.injEq] at h
    obtain ⟨rfl, hz⟩ := h
    obtain ⟨w, -, rfl, pre, suf, h1, h2⟩ := remove_text F (m := m) (o := o) (om := om) hv hn
    have : w = z := by rw [← join_split' w, hz, join_split']
    subst this
    exact ⟨pre, suf, h1, h2⟩

/-- `remove_attribute` removes the lines of the attribute it returns, and nothing else. -/
theorem C77_remove_attribute (F : FmtEnv) (m : Meta) (ss : List EStruct) (o : Bool) (key k' : Str) (am : Meta)
    (k : DIdent) (e : EExpr) (b' : EBody)
    (h : (EBody.mk m ss o false).step (.removeAttribute key) = some (b', .attribute (some (k', am, k, e)))) :
    ∃ pre suf, (EBody.mk m ss o false).show F = pre ++ linesText F [.attr am k e] ++ suf ∧ b'.show F = pre ++ suf := by
  unfold EBody.step Body.step Body.removeAttribute at h
  dsimp only at h
  split at h
  · simp at h
  · rename_i i _
    cases hv : Body.vecRemove i (ss.map EStruct.split) with
    | none => rw [hv] at h; cases h
    | some r =>
      obtain ⟨z', r⟩ := r
      rw [hv] at h
      simp only [Option.map_some, Option.some.injEq, Prod.mk.injEq, Body.Ret.attribute.injEq] at h
      obtain ⟨rfl, hz⟩ := h
      obtain ⟨w, -, rfl, pre, suf, h1, h2⟩ := remove_text F (m := m) (o := o) (om := false) hv (.inl rfl)
      have : w = .attr am k e := by
        cases w with
        | attr => cases hz; rfl
        | block => cases hz
      subst this
      exact ⟨pre, suf, h1, h2⟩

/-- Assigning the value of the attribute that `get_attribute_mut` returns changes the text of the value, and
nothing else. -/
theorem C77_set_attribute (F : FmtEnv) (m : Meta) (ss : List EStruct) (o om : Bool) (key k' : Str) (am : Meta)
    (k : DIdent) (e e' : EExpr) (b' : EBody) (ret : Body.Ret EAttr EBlock)
    (hg : Body.getAttribute key (ss.map EStruct.split) = some (k', am, k, e))
    (h : (EBody.mk m ss o om).step (.setAttribute key (am, k, e')) = some (b', ret)) :
    ∃ pre suf p q, NoneOrBlank p ∧ NoneOrBlank q ∧ (EBody.mk m ss o om).show F = pre ++ exprText F p q e ++ suf ∧
      b'.show F = pre ++ exprText F p q e' ++ suf := by
  have key : ∃ xs ys, ss = xs ++ .attr am k e :: ys ∧
      (Body.setAttribute key (am, k, e') (ss.map EStruct.split)).map EStruct.join = xs ++ .attr am k e' :: ys := by
    clear h
    induction ss with
    | nil => cases hg
    | cons z ss ih =>
      cases z with
      | block bm i ls b =>
        obtain ⟨xs, ys, h1, h2⟩ := ih hg
        refine ⟨.block bm i ls b :: xs, ys, by rw [h1]; rfl, ?_⟩
        rw [List.cons_append, ← h2]
        rfl
      | attr am' kk v =>
        by_cases hk : kk.name = key
        · simp only [Body.getAttribute, List.map_cons, EStruct.split, List.filterMap_cons, Body.asAttribute,
            List.find?_cons, hk, decide_true, Option.some.injEq, Prod.mk.injEq] at hg
          obtain ⟨-, rfl, rfl, rfl⟩ := hg
          refine ⟨[], ss, rfl, ?_⟩
          simp only [List.map_cons, EStruct.split, Body.setAttribute, Body.isAttr, Body.asAttribute, hk, decide_true,
            if_true, EStruct.join, map_join, List.nil_append]
        · have hg' : Body.getAttribute key (ss.map EStruct.split) = some (k', am, k, e) := by
            simpa only [Body.getAttribute, List.map_cons, EStruct.split, List.filterMap_cons, Body.asAttribute,
              List.find?_cons, hk, decide_false] using hg
          obtain ⟨xs, ys, h1, h2⟩ := ih hg'
          refine ⟨.attr am' kk v :: xs, ys, by rw [h1]; rfl, ?_⟩
          rw [List.cons_append, ← h2]
          simp [EStruct.split, Body.setAttribute, Body.isAttr, Body.asAttribute, hk, EStruct.join]
  obtain ⟨xs, ys, rfl, hj⟩ := key
  simp only [EBody.step, Body.step, Option.map_some, Option.some.injEq, Prod.mk.injEq] at h
  obtain ⟨rfl, -⟩ := h
  rw [hj]
  exact swapBody_loc (.mk (.attr .here))

/-! ### Numbers

The text of a number that was read is kept when the number is changed in place. -/

/-- A number that is changed in place is printed as before. -/
theorem C77_number_fails (F : FmtEnv) (m : Meta) (n n' : N) (t : Raw) :
    bareText F (EExpr.setNumber n' (.number m n (some t))) = bareText F (.number m n (some t)) := rfl

/-- It is printed as the new number after `format`. -/
theorem C77_number_format (F : FmtEnv) (m : Meta) (n n' : N) (t : Option Raw) :
    bareText F ((EExpr.setNumber n' (.number m n t)).formatNumber F) = showNumber F n' := by
  show (Raw.ofStr (showNumber F n')).enc [] = showNumber F n'
  unfold Raw.ofStr
  split
  · rename_i h; exact (List.isEmpty_iff.1 h).symm
  · rfl

/-! ### Examples -/

private def doc : Str := c!"a = 1 # x\n\nb \"l\" {\n  c = [ 2, /* y */ f( 3 ) ] // z\n}\nd = 0.50\n"
private def doc' : Str := c!"a = 1 # x\n\nb \"l\" {\n  c = [ 2, /* y */ f( null ) ] // z\n}\nd = 0.50\n"

/-- An argument of a function call inside of an array inside of a block is changed. -/
example : ∃ b b' x y, parseBody Er doc = .ok b ∧ '\r' ∉ doc ∧ canonBody .ascii doc b = true ∧ SwapBody x y b b' ∧
    x.getMeta.span = some ⟨41, 42⟩ ∧ y.getMeta.decor = x.getMeta.decor ∧ b'.show Ef = doc' := by
  have : (match parseBody Er doc with
    | .ok (.mk m [a, .block bm i ls (.mk m₂ [.attr am k (.array m₃ [e, .call cm ns n aam [x] c₁ ex t₁] c t)] o om), d] o₂ om₂) =>
      canonBody .ascii doc (.mk m [a, .block bm i ls (.mk m₂ [.attr am k (.array m₃ [e, .call cm ns n aam [x] c₁ ex t₁] c t)] o om), d] o₂ om₂) &&
      decide (x.getMeta.span = some ⟨41, 42⟩) &&
      decide ((EBody.mk m [a, .block bm i ls (.mk m₂ [.attr am k (.array m₃ [e, .call cm ns n aam [.null x.getMeta] c₁ ex t₁] c t)] o om), d] o₂ om₂).show Ef = doc')
    | _ => false) = true := by decide +kernel
  split at this
  · rename_i m a bm i ls m₂ am k m₃ e cm ns n aam x c₁ ex t₁ c t o om d o₂ om₂ hb
    simp only [Bool.and_eq_true, decide_eq_true_eq] at this
    exact ⟨_, _, x, .null x.getMeta, hb, by decide, this.1.1, .mk (xs := [a]) (.block (xs := []) (.attr (.array (xs := [e])
      (.arg (xs := []) .here)))), this.1.2, rfl, this.2⟩
  · cases this

/-- The block is replaced by an attribute. -/
example : ∃ b b' z w, parseBody Er doc = .ok b ∧ '\r' ∉ doc ∧ canonBody .ascii doc b = true ∧ EditBody [z] [w] b b' ∧
    b'.show Ef = c!"a = 1 # x\nx = null\nd = 0.50\n" := by
  have : (match parseBody Er doc with
    | .ok (.mk m [a, z, d] o om) =>
      canonBody .ascii doc (.mk m [a, z, d] o om) &&
      decide ((EBody.mk m [a, .attr {} ⟨{}, c!"x"⟩ (.null {}), d] o om).show Ef = c!"a = 1 # x\nx = null\nd = 0.50\n")
    | _ => false) = true := by decide +kernel
  split at this
  · rename_i m a z d o om hb
    simp only [Bool.and_eq_true, decide_eq_true_eq] at this
    exact ⟨_, _, z, _, hb, by decide, this.1, .body (xs := [a]) (ys := [d]) (.inr nofun), this.2⟩
  · cases this

private def x₁ : EStruct := .attr {} ⟨{}, c!"x"⟩ (.null {})
private def x₂ : EStruct := .attr {} ⟨{}, c!"y"⟩ (.bool {} true)

/-- The operations. -/
example : ∃ b', (EBody.mk {} [x₁] false false).step (.insert 0 x₂.split) = some (b', .unit) ∧
    b'.show Ef = c!"y = true\nx = null\n" := ⟨_, rfl, by decide⟩
example : ∃ b', (EBody.mk {} [x₁] false false).step (.push x₂.split) = some (b', .unit) ∧
    b'.show Ef = c!"x = null\ny = true\n" := ⟨_, rfl, by decide⟩
example : ∃ b' k a, (EBody.mk {} [x₁] false false).step (.push x₁.split) = some (b', .rejected k a) := ⟨_, _, _, rfl⟩
example : ∃ b', (EBody.mk {} [x₁, x₂] false true).step (.remove 0) = some (b', .structure (some x₁.split)) := ⟨_, rfl⟩
example : ∃ b' am k e, (EBody.mk {} [x₁, x₂] false false).step (.removeAttribute c!"y") =
    some (b', .attribute (some (c!"y", am, k, e))) := ⟨_, _, _, _, rfl⟩
example : ∃ b' am k e ret, Body.getAttribute c!"y" ([x₁, x₂].map EStruct.split) = some (c!"y", am, k, e) ∧
    (EBody.mk {} [x₁, x₂] false false).step (.setAttribute c!"y" (am, k, .bool {} false)) = some (b', ret) ∧
    b'.show Ef = c!"x = null\ny = false\n" := ⟨_, _, _, _, _, rfl, rfl, by decide⟩

/-- In a document without a final newline a structure at the end gets no newline: the line before it gets one. -/
example : (EBody.mk {} [x₁] false true).show Ef = c!"x = null" ∧
    (EBody.mk {} [x₁, x₂] false true).show Ef = c!"x = null\ny = true" := by decide

/-- A place in a template in a template: the hypotheses of C77_template_partial hold, and this is what is printed. -/
example : ∃ x y u v b b', InPlaceOf x y u v ∧ SwapBody u v b b' ∧ noQuoted x = noQuoted y ∧
    b.show Ef = c!"a = [ \"${ \"${ x }\" }\"]\n" ∧ b'.show Ef = c!"a = [ \"${ \"${ [null] }\" }\"]\n" :=
  ⟨.var {} c!"x", .array {} [.null {}] false .empty, _, _,
    .mk {} [.attr {} ⟨{}, c!"a"⟩ (.array {} ([] ++ .strTmpl ⟨{ pre := some (.explicit c!" ") }, none⟩ ([] ++ .interp none
      (.strTmpl {} ([] ++ .interp none (.var {} c!"x") .none :: [])) .none :: []) :: []) false .empty)] false false,
    .mk {} [.attr {} ⟨{}, c!"a"⟩ (.array {} ([] ++ .strTmpl ⟨{ pre := some (.explicit c!" ") }, none⟩ ([] ++ .interp none
      (.strTmpl {} ([] ++ .interp none (.array {} [.null {}] false .empty) .none :: [])) .none :: []) :: []) false .empty)]
      false false,
    .quoted (.interp (.quoted (.interp .here .here)) .here), .mk (xs := []) (.attr (.array .here)), rfl,
    by decide +kernel, by decide +kernel⟩

/-- A block on one line. -/
example : (EBody.mk {} [.block {} ⟨{}, c!"b"⟩ [] (.mk {} [x₁] true false)] false false).show Ef = c!"b { x = null }\n" ∧
    (EBody.mk {} [.block {} ⟨{}, c!"b"⟩ [] (.mk {} [x₁, x₂] true false)] false false).show Ef =
      c!"b {\nx = null\ny = true\n}\n" := by decide

/-- A number that is changed in place in a parsed document: the document says the same as before. -/
theorem C77_number_document_fails : ∃ b m am k nm n r o om, parseBody Er c!"a = 1\n" = .ok b ∧
    b = .mk m [.attr am k (.number nm n r)] o om ∧ n = .posInt 1 ∧
    (EBody.mk m [.attr am k (EExpr.setNumber (.posInt 2) (.number nm n r))] o om).show Ef = c!"a = 1\n" := by
  have : (match parseBody Er c!"a = 1\n" with
    | .ok (.mk m [.attr am k (.number nm n r)] o om) => decide (n = .posInt 1) &&
      decide ((EBody.mk m [.attr am k (EExpr.setNumber (.posInt 2) (.number nm n r))] o om).show Ef = c!"a = 1\n")
    | _ => false) = true := by decide +kernel
  split at this
  · rename_i m am k nm n r o om hb
    simp only [Bool.and_eq_true, decide_eq_true_eq] at this
    exact ⟨_, m, am, k, nm, n, r, o, om, hb, rfl, this⟩
  · cases this

end Verif.Props
