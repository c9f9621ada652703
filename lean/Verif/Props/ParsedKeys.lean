import Verif.Lemmas.ParsedKeys
import Verif.Props.Parse
import Verif.Props.Equality
/-! C75: the keys of objects in parsed trees are different. -/

namespace Verif.Props
open Spec Gram

/-- **C75**: no object in a parsed expression has two keys that compare equal, if no key contains whitespace
or comments that equality looks at (`C75_keys_fails`). -/
theorem C75_expr_partial (E : PEnv) (s : Str) (e : EExpr) (h : parseExpr E s = .ok e)
    (hp : PlainKeys (content e)) (m : Meta) (is : List EItem) (t : Raw)
    (hw : Contained (content (.object m is t)) (content e)) :
    is.Pairwise fun i j => EExpr.beqKey i.key j.key = false := by
  obtain ⟨e₀, h1, _, rfl⟩ := C17_expr_partial E s e h
  rw [content_despan] at hp hw
  rw [content] at hw
  have := (h1.fit.apart hp).within hw
  rw [itemsContent_pairwise (R := fun a b => a.beq b = false)] at this
  exact this.imp fun h => by rw [beqKey_content]; exact h

/-- **C75** for documents. -/
theorem C75_body_partial (E : PEnv) (s : Str) (b : EBody) (h : parseBody E s = .ok b)
    (hp : PlainKeys (bodyContent b)) (m : Meta) (is : List EItem) (t : Raw)
    (hw : Contained (content (.object m is t)) (bodyContent b)) :
    is.Pairwise fun i j => EExpr.beqKey i.key j.key = false := by
  obtain ⟨b₀, h1, rfl⟩ := C17_body_partial E s b h
  rw [bodyContent_despan] at hp hw
  rw [content] at hw
  have := (h1.fit.apart hp).within hw
  rw [itemsContent_pairwise (R := fun a b => a.beq b = false)] at this
  exact this.imp fun h => by rw [beqKey_content]; exact h

/-- **C75** for templates. -/
theorem C75_template_partial (E : PEnv) (s : Str) (es : List EElem) (h : parseTemplate E s = .ok es)
    (hp : ∀ c ∈ elemsContent es, PlainKeys c) (m : Meta) (is : List EItem) (t : Raw)
    (c : Content) (hc : c ∈ elemsContent es) (hw : Contained (content (.object m is t)) c) :
    is.Pairwise fun i j => EExpr.beqKey i.key j.key = false := by
  obtain ⟨t₀, h1, rfl⟩ := C17_template_partial E s es h
  rw [elemsContent_despan] at hp hc
  have hp' := hp c hc
  obtain ⟨x, hx, rfl⟩ := mem_mapRaws.mp hc
  rw [content] at hw
  have := ((h1.fit x hx).apart hp').within hw
  rw [itemsContent_pairwise (R := fun a b => a.beq b = false)] at this
  exact this.imp fun h => by rw [beqKey_content]; exact h

/-- **C75**: if moreover the numbers are well-formed (`C75_numbers_fails`), a parsed expression has what `C25`
and `C56` ask for. -/
theorem C75_expr_proper_partial (E : PEnv) (s : Str) (e : EExpr) (h : parseExpr E s = .ok e)
    (hp : PlainKeys (content e)) (hn : GoodNumbers (content e)) : Proper (content e) := by
  obtain ⟨e₀, h1, _, rfl⟩ := C17_expr_partial E s e h
  rw [content_despan] at hp hn ⊢
  exact (h1.fit.apart hp).proper hn

/-- The same for documents. -/
theorem C75_body_proper_partial (E : PEnv) (s : Str) (b : EBody) (h : parseBody E s = .ok b)
    (hp : PlainKeys (bodyContent b)) (hn : GoodNumbers (bodyContent b)) : Proper (bodyContent b) := by
  obtain ⟨b₀, h1, rfl⟩ := C17_body_partial E s b h
  rw [bodyContent_despan] at hp hn ⊢
  exact (h1.fit.apart hp).proper hn

/-- **C75**: so equality of parsed documents is an equivalence, and says that the contents are the same. -/
theorem C75_equality_partial (E : PEnv) (s s' s'' : Str) (a b c : EBody) (ha : parseBody E s = .ok a)
    (hb : parseBody E s' = .ok b) (hc : parseBody E s'' = .ok c)
    (hp : ∀ x ∈ [a, b, c], PlainKeys (bodyContent x) ∧ GoodNumbers (bodyContent x)) :
    EBody.beq a a = true ∧ EBody.beq a b = EBody.beq b a ∧
    (EBody.beq a b = true → EBody.beq b c = true → EBody.beq a c = true) ∧
    (EBody.beq a b = true ↔ Same (bodyContent a) (bodyContent b)) := by
  have pa := C75_body_proper_partial E s a ha (hp a (by simp)).1 (hp a (by simp)).2
  have pb := C75_body_proper_partial E s' b hb (hp b (by simp)).1 (hp b (by simp)).2
  have pc := C75_body_proper_partial E s'' c hc (hp c (by simp)).1 (hp c (by simp)).2
  have hab := C25_body_partial a b pa pb
  have hba := C25_body_partial b a pb pa
  have hbc := C25_body_partial b c pb pc
  have hac := C25_body_partial a c pa pc
  refine ⟨(C25_body_partial a a pa pa).mpr (Same.refl _), ?_, ?_, hab⟩
  · rw [Bool.eq_iff_iff, hab, hba]; exact ⟨Same.symm, Same.symm⟩
  · rw [hab, hbc, hac]; exact Same.trans

/-! ### The hypotheses are met -/

private def Er : PEnv := ⟨.ascii, .release⟩

private def okWith {α : Type} (f : α → Bool) : Outcome α → Bool
  | .ok a => f a
  | _ => false

private theorem okWith_iff {α : Type} {f : α → Bool} {o : Outcome α} (h : okWith f o = true) :
    ∃ a, o = .ok a ∧ f a = true := by
  cases o <;> first | exact ⟨_, rfl, h⟩ | cases h

-- an object with a list and an object in it and keys that are expressions
example : ∃ e, parseExpr Er c!"{ a = [1, ], (b) = { a = 2, \"a\" = 3, f(c) = 4 }, a = 5 }" = .ok e ∧
    PlainKeys (content e) := by
  obtain ⟨e, h, hp⟩ := okWith_iff (f := fun e => plainKeysB (content e))
    (o := parseExpr Er c!"{ a = [1, ], (b) = { a = 2, \"a\" = 3, f(c) = 4 }, a = 5 }") (by decide +kernel)
  exact ⟨e, h, plainKeysB_sound hp⟩

private def entries (n : Nat) : EExpr → Bool
  | .object _ is _ => decide (is.length = n) && is.all fun i => is.all fun j => EExpr.beqKey i.key j.key
  | _ => false

private theorem entries_two {o : Outcome EExpr} (h : okWith (entries 2) o = true) :
    ∃ m i j t, o = .ok (.object m [i, j] t) ∧ EExpr.beqKey i.key j.key = true := by
  obtain ⟨e, rfl, h'⟩ := okWith_iff h
  clear h
  unfold entries at h'
  split at h'
  case h_2 => cases h'
  rename_i m is t
  rw [Bool.and_eq_true, decide_eq_true_eq] at h'
  match is, h' with
  | [i, j], h =>
    refine ⟨_, _, _, _, rfl, ?_⟩
    have := h.2
    simp only [List.all_cons, List.all_nil, Bool.and_true, Bool.and_eq_true] at this
    exact this.1.2

private theorem entries_one {o : Outcome EExpr} (h : okWith (entries 1) o = true) :
    ∃ m i t, o = .ok (.object m [i] t) := by
  obtain ⟨e, rfl, h'⟩ := okWith_iff h
  clear h
  unfold entries at h'
  split at h'
  case h_2 => cases h'
  rename_i m is t
  rw [Bool.and_eq_true, decide_eq_true_eq] at h'
  match is, h' with
  | [i], h => exact ⟨_, _, _, rfl⟩

/-! ### What does not hold -/

/-- The keys of objects are compared while the whitespace in them is recorded as positions in the text. Two
keys that are the same text, with whitespace between brackets, are both kept: the object has two entries
whose keys compare equal, and `get` does not see the second. Without the whitespace there is one entry. -/
theorem C75_keys_fails :
    (∃ m i j t, parseExpr Er c!"{ ([ ]) = 1, ([ ]) = 2 }" = .ok (.object m [i, j] t) ∧
      EExpr.beqKey i.key j.key = true) ∧
    (∃ m i j t, parseExpr Er c!"{ f( ) = 1, f( ) = 2 }" = .ok (.object m [i, j] t) ∧
      EExpr.beqKey i.key j.key = true) ∧
    (∃ m i t, parseExpr Er c!"{ ([]) = 1, ([]) = 2 }" = .ok (.object m [i] t)) :=
  ⟨entries_two (by decide +kernel), entries_two (by decide +kernel), entries_one (by decide +kernel)⟩

/-- In a release build a negative number beyond the range of `i64` wraps around to a positive number. It then
compares equal to two numbers that are different. -/
theorem C75_numbers_fails :
    ∃ a b c, parseExpr Er c!"9223372036854775808" = .ok a ∧
      parseExpr Er c!"-9223372036854775809" = .ok b ∧ parseExpr Er c!"9223372036854775807" = .ok c ∧
      EExpr.beq a b = true ∧ EExpr.beq b c = true ∧ EExpr.beq a c = false := by
  obtain ⟨a, ha, h⟩ := okWith_iff (f := fun a => okWith (fun b => okWith (fun c => EExpr.beq a b && EExpr.beq b c &&
      !EExpr.beq a c) (parseExpr Er c!"9223372036854775807")) (parseExpr Er c!"-9223372036854775809"))
    (o := parseExpr Er c!"9223372036854775808") (by decide +kernel)
  obtain ⟨b, hb, h⟩ := okWith_iff h
  obtain ⟨c, hc, h⟩ := okWith_iff h
  simp only [Bool.and_eq_true, Bool.not_eq_true'] at h
  exact ⟨a, b, c, ha, hb, hc, h.1.1, h.1.2, h.2⟩

end Verif.Props
