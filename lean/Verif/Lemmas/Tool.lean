import Verif.Spec.Tool
import Verif.Props.Bulk
import Verif.Props.De
import Verif.Props.JsonSpec
import Verif.Props.StagesPlace
/-! Lemmas about `hcl2json`. -/

namespace Verif
open Spec Tool Bulk Props

theorem reads_unique {L : Lib} {s : Bool} {t : Str} {v w : Value} (h : Reads L s t v) (h' : Reads L s t w) : v = w := by
  obtain ⟨b, hb, h⟩ := h
  obtain ⟨b2, hb2, h'⟩ := h'
  rw [hb] at hb2
  cases hb2
  cases s with
  | false =>
    simp only [Bool.false_eq_true, if_false] at h h'
    cases h.unique h'
    rfl
  | true =>
    simp only [if_true] at h h'
    obtain ⟨b1, e1, h1, h⟩ := h
    obtain ⟨b2, e2, h2, h'⟩ := h'
    rw [h1] at h2
    cases h2
    cases h.unique h'
    rfl

theorem readHcl_ok {L : Lib} {a : Args} {t : Option Str} {v : Value} :
    readHcl L a t = .ok v ↔ ∃ s, t = some s ∧ Reads L a.simplify s v := by
  cases t with
  | none => simp [readHcl]
  | some s =>
    simp only [readHcl, Option.some.injEq, exists_eq_left']
    constructor
    · intro h
      split at h
      · rename_i hx
        cases h
        exact hx.choose_spec
      · cases h
    · intro h
      rw [dif_pos ⟨v, h⟩]
      exact congrArg _ (reads_unique (Exists.choose_spec ⟨v, h⟩) h)

theorem processFile_ok {L : Lib} {w : World} {a : Args} {p : Str} {r : Str × Value} :
    processFile L w a p = .ok r ↔ r.1 = p ∧ FileIs L w a p r.2 := by
  unfold processFile
  cases h : readHcl L a (w.file p) with
  | ok v =>
    obtain ⟨s, hs, hr⟩ := readHcl_ok.1 h
    constructor
    · intro he
      cases he
      exact ⟨rfl, s, hs, hr⟩
    · rintro ⟨rfl, s', hs', hr'⟩
      rw [hs] at hs'
      cases hs'
      rw [reads_unique hr hr']
  | error e =>
    constructor
    · intro he; cases he
    · rintro ⟨rfl, hf⟩
      rw [readHcl_ok.2 hf] at h
      cases h

theorem globFiles_fst (m : Str → Bool) : ∀ (l : List (Option (Str × Bool))) (acc : List Str),
    (globFiles m l acc).1 = acc ++ ((readable l).filter fun q => q.2 && m q.1).map Prod.fst
  | [], acc => by simp [globFiles, readable]
  | none :: _, acc => by simp [globFiles, readable]
  | some (p, f) :: rest, acc => by
    rw [globFiles, globFiles_fst m rest, readable]
    cases h : f && m p <;> simp [h]

theorem globFiles_snd (m : Str → Bool) : ∀ (l : List (Option (Str × Bool))) (acc : List Str),
    (globFiles m l acc).2 = true ↔ none ∉ l
  | [], acc => by simp [globFiles]
  | none :: _, acc => by simp [globFiles]
  | some (p, f) :: rest, acc => by
    rw [globFiles, globFiles_snd m rest]
    simp

theorem gather_ok {w : World} {a : Args} : ∀ (ps acc r : List Str), gather w a ps acc = .ok r →
    r = acc ++ ps.flatMap (filesOf w a) ∧
      (a.continueOnError = false → ∀ p ∈ ps, w.isDir p = true → Walks w p) ∧
      ∀ p ∈ ps, w.isDir p = true → ∃ pattern, a.glob = some pattern ∧ (w.matcher p pattern).isSome
  | [], acc, r, h => by cases h; simp
  | p :: ps, acc, r, h => by
    rw [gather] at h
    cases hd : w.isDir p with
    | false =>
      simp only [hd, Bool.false_eq_true, if_false] at h
      obtain ⟨h1, h2, h3⟩ := gather_ok ps _ r h
      refine ⟨by simp [h1, filesOf, hd], fun hc q hq hqd => ?_, fun q hq hqd => ?_⟩ <;>
        rcases List.mem_cons.1 hq with rfl | hq
      · rw [hd] at hqd; cases hqd
      · exact h2 hc q hq hqd
      · rw [hd] at hqd; cases hqd
      · exact h3 q hq hqd
    | true =>
      simp only [hd, if_true] at h
      cases hg : a.glob with
      | none => rw [hg] at h; cases h
      | some pat =>
        simp only [hg] at h
        cases hm : w.matcher p pat with
        | none => rw [hm] at h; cases h
        | some m =>
          simp only [hm] at h
          split at h
          · rename_i hok
            obtain ⟨h1, h2, h3⟩ := gather_ok ps _ r h
            rw [globFiles_fst] at h1
            refine ⟨by simp [h1, filesOf, hd, hg, hm], fun hc q hq hqd => ?_, fun q hq hqd => ?_⟩ <;>
              rcases List.mem_cons.1 hq with rfl | hq
            · rw [hc, Bool.or_false, globFiles_snd] at hok
              exact hok
            · exact h2 hc q hq hqd
            · exact ⟨pat, rfl, by simp [hm]⟩
            · simpa only [hg] using h3 q hq hqd
          · cases h

theorem gather_total {w : World} {a : Args} : ∀ (ps acc : List Str),
    (∀ p ∈ ps, w.isDir p = true → ∃ pattern, a.glob = some pattern ∧ (w.matcher p pattern).isSome) →
    (a.continueOnError = true ∨ ∀ p ∈ ps, w.isDir p = true → Walks w p) → ∃ r, gather w a ps acc = .ok r
  | [], acc, _, _ => ⟨acc, rfl⟩
  | p :: ps, acc, hg, hw => by
    have ih := fun acc => gather_total (w := w) (a := a) ps acc (fun q hq => hg q (List.mem_cons_of_mem _ hq))
      (hw.imp_right fun h q hq => h q (List.mem_cons_of_mem _ hq))
    rw [gather]
    cases hd : w.isDir p with
    | false => simpa only [Bool.false_eq_true, if_false] using ih _
    | true =>
      obtain ⟨pat, h1, h2⟩ := hg p (List.mem_cons_self ..) hd
      obtain ⟨m, hm⟩ := Option.isSome_iff_exists.1 h2
      simp only [if_true, h1, hm]
      rw [if_pos]
      · exact ih _
      · rcases hw with h | h
        · simp [h]
        · have := (globFiles_snd m (w.walk p) acc).2 (h p (List.mem_cons_self ..) hd)
          simp [this]

/-! ### The written object -/

theorem entriesToExpr_keys : ∀ m : List (Str × JNode), (m.map Prod.fst).Nodup → ∀ acc : List (ObjKey × Expr),
    (∀ p ∈ acc, ∃ s, p.1 = .expr (.string s) ∧ s ∉ m.map Prod.fst) →
    (JNode.entriesToExpr m).foldl (fun m e => objInsert e.1 e.2 m) acc = acc ++ JNode.entriesToExpr m
  | [], _, acc, _ => by simp [JNode.entriesToExpr]
  | (k, n) :: m, hn, acc, ha => by
    simp only [List.map_cons, List.nodup_cons] at hn
    rw [JNode.entriesToExpr, List.foldl_cons, objInsert_fresh _ _ _ fun p hp => ?_,
      entriesToExpr_keys m hn.2]
    · simp
    · intro p hp
      rcases List.mem_append.1 hp with hp | hp
      · obtain ⟨s, h1, h2⟩ := ha p hp
        exact ⟨s, h1, fun h => h2 (by simp [h])⟩
      · simp only [List.mem_singleton] at hp
        subst hp
        exact ⟨k, rfl, hn.1⟩
    · obtain ⟨s, h1, h2⟩ := ha p hp
      rw [h1]
      simp only [List.map_cons, List.mem_cons, not_or] at h2
      simpa [ObjKey.beq, Expr.beq] using h2.1

theorem toValueEntries_nodes (E : FmtEnv) : ∀ m : List (Str × JNode),
    toValueEntries E (JNode.entriesToExpr m) = m.map fun p => (p.1, toValue E p.2.toExpr)
  | [] => rfl
  | (k, n) :: m => by
    simp only [JNode.entriesToExpr, toValueEntries, keyString, toValueEntries_nodes E m, List.map_cons]

theorem get_map {β γ : Type} (f : β → γ) (k : Str) : ∀ m : List (Str × β),
    Map.get? k (m.map fun p => (p.1, f p.2)) = (Map.get? k m).map f
  | [] => rfl
  | (k', b) :: m => by
    simp only [List.map_cons, Map.get?]
    split
    · rfl
    · exact get_map f k m

/-- The object that is written has an attribute's value under its key. -/
theorem toValue_attr (E : FmtEnv) (pre post : List Struct) (k : Str) (e : Expr) (h : ∀ s ∈ post, structName s ≠ k) :
    ∃ fs, toValue E (bodyToJson (pre ++ .attr k e :: post)) = .object fs ∧ Map.get? k fs = some (toValue E e) := by
  have hnd := bodyNodes_nodup (pre ++ .attr k e :: post) (m := []) (by simp)
  have hg : Map.get? k (bodyNodes [] (pre ++ .attr k e :: post)) = some (.expr e) := by
    rw [bodyNodes_append, bodyNodes, bodyNodes_get post h]
    simp only [structNodes, Map.get?_insert, if_pos]
  refine ⟨(bodyNodes [] (pre ++ .attr k e :: post)).map fun p => (p.1, toValue E p.2.toExpr), ?_, ?_⟩
  · simp only [bodyToJson, JNode.toExpr, toValue]
    rw [objCollect, entriesToExpr_keys _ hnd [] (by simp), List.nil_append, toValueEntries_nodes,
      Map.collect_nodup (by rw [List.map_map]; exact hnd)]
  · rw [get_map (fun n : JNode => toValue E n.toExpr), hg]
    rfl

/-! ### In-place evaluation of a part of a body -/

theorem inPlaceBody_split {r : Rec} {c : Ctx} : ∀ (pre post b' : List Struct) (errs : List EvalErr) (k : Str) (e : Expr),
    inPlaceBody r c (pre ++ .attr k e :: post) = .ok (b', errs) →
    ∃ pre' e' post' es, b' = pre' ++ .attr k e' :: post' ∧ inPlace r c e = .ok (e', es) ∧ (∀ x ∈ es, x ∈ errs) ∧
      post'.map structName = post.map structName
  | [], post, b', errs, k, e, h => by
    rw [List.nil_append, inPlaceBody] at h
    obtain ⟨⟨s, e1⟩, h1, h⟩ := bind_ok h
    obtain ⟨⟨ss, e2⟩, h2, h⟩ := bind_ok h
    cases h
    rw [inPlaceStruct] at h1
    obtain ⟨⟨e', es⟩, h3, h1⟩ := bind_ok h1
    cases h1
    exact ⟨[], e', ss, es, rfl, h3, fun x hx => List.mem_append_left _ hx, names h2⟩
  | s :: pre, post, b', errs, k, e, h => by
    rw [List.cons_append, inPlaceBody] at h
    obtain ⟨⟨s', e1⟩, h1, h⟩ := bind_ok h
    obtain ⟨⟨ss, e2⟩, h2, h⟩ := bind_ok h
    cases h
    obtain ⟨pre', e', post', es, rfl, h3, h4, h5⟩ := inPlaceBody_split pre post ss e2 k e h2
    exact ⟨s' :: pre', e', post', es, rfl, h3, fun x hx => List.mem_append_right _ (h4 x hx), h5⟩
where
  names : ∀ {b b' : List Struct} {errs : List EvalErr}, inPlaceBody r c b = .ok (b', errs) →
      b'.map structName = b.map structName
    | [], _, _, h => by cases h; rfl
    | s :: ss, _, _, h => by
      rw [inPlaceBody] at h
      obtain ⟨⟨s', e1⟩, h1, h⟩ := bind_ok h
      obtain ⟨⟨ss', e2⟩, h2, h⟩ := bind_ok h
      cases h
      simp only [List.map_cons, names h2, List.cons.injEq, and_true]
      cases s with
      | attr k e => rw [inPlaceStruct] at h1; obtain ⟨_, _, h1⟩ := bind_ok h1; cases h1; rfl
      | block i ls b => rw [inPlaceStruct] at h1; obtain ⟨_, _, h1⟩ := bind_ok h1; cases h1; rfl

end Verif
