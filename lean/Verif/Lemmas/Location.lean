import Verif.Model.EditError
import Verif.Spec.Location
/-! The location of an error, in terms of characters. -/

namespace Verif
open Spec

theorem strBytes_append (a b : Str) : strBytes (a ++ b) = strBytes a ++ strBytes b :=
  List.flatMap_append

theorem strBytes_cons (c : Char) (b : Str) : strBytes (c :: b) = charBytes c ++ strBytes b := rfl

theorem charBytes_length (c : Char) : (charBytes c).length = c.utf8Size := by
  have := Char.utf8Size_pos c
  simp only [charBytes, List.length_cons, List.length_replicate]
  omega

theorem charBytes_nl : charBytes '\n' = [some '\n'] := rfl

theorem mem_strBytes {s : Str} {c : Char} (h : some c ∈ strBytes s) : c ∈ s := by
  obtain ⟨d, h1, h2⟩ := List.mem_flatMap.mp h
  rcases List.mem_cons.mp h2 with h2 | h2
  · injection h2 with h2; subst h2; exact h1
  · rw [List.mem_replicate] at h2; cases h2.2

/-- No byte is a line break. -/
def NoNl (l : List (Option Char)) : Prop := ∀ b ∈ l, b ≠ some '\n'

theorem NoNl.ofStr {s : Str} (h : '\n' ∉ s) : NoNl (strBytes s) := fun b hb hn =>
  h (mem_strBytes (hn ▸ hb))

theorem NoNl.app {a b : List (Option Char)} (h1 : NoNl a) (h2 : NoNl b) : NoNl (a ++ b) := by
  intro x hx
  rcases List.mem_append.mp hx with h | h
  · exact h1 x h
  · exact h2 x h

theorem findIdx_nl {l r : List (Option Char)} (h : NoNl l) :
    (l ++ some '\n' :: r).findIdx? (· == some '\n') = some l.length := by
  induction l with
  | nil => rfl
  | cons x xs ih =>
    rw [List.cons_append, List.findIdx?_cons,
      if_neg (by simpa using h x (List.mem_cons_self ..)),
      ih fun b hb => h b (List.mem_cons_of_mem _ hb)]
    rfl

theorem findIdx_none {l : List (Option Char)} (h : NoNl l) :
    l.findIdx? (· == some '\n') = none := by
  rw [List.findIdx?_eq_none_iff]
  intro x hx
  simpa using h x hx

theorem countP_nl (s : Str) : (strBytes s).countP (· == some '\n') = s.count '\n' := by
  induction s with
  | nil => rfl
  | cons c cs ih =>
    have hr : (List.replicate (c.utf8Size - 1) (none : Option Char)).countP (· == some '\n') = 0 := by
      rw [List.countP_eq_zero]
      intro x hx
      rw [(List.mem_replicate.mp hx).2]
      decide
    rw [strBytes_cons, List.countP_append, ih, charBytes, List.countP_cons, hr, List.count_cons,
      Nat.zero_add, Nat.add_comm]
    rfl

theorem countChars_replicate (k : Nat) (r : List (Option Char)) :
    countChars k (List.replicate k none ++ r) = countChars 0 r := by
  induction k with
  | zero => rfl
  | succ k ih => rw [List.replicate_succ]; exact ih

theorem countChars_str (s : Str) (r : List (Option Char)) :
    countChars 0 (strBytes s ++ r) = (countChars 0 r).map (· + s.length) := by
  induction s with
  | nil => simp [strBytes]
  | cons c cs ih =>
    rw [strBytes_cons, charBytes, List.append_assoc, List.cons_append]
    show (countChars (c.utf8Size - 1) _).map (· + 1) = _
    rw [countChars_replicate, ih, Option.map_map]
    rfl

theorem not_mem_takeWhile (s : Str) : '\n' ∉ s.takeWhile (· != '\n') := by
  induction s with
  | nil => exact List.not_mem_nil
  | cons c cs ih =>
    by_cases h : c = '\n'
    · subst h; exact List.not_mem_nil
    · rw [List.takeWhile_cons_of_pos (by simpa using h)]
      intro hm
      rcases List.mem_cons.mp hm with rfl | hm
      · exact h rfl
      · exact ih hm

/-- The text before a position, split at the start of its line. -/
theorem split_line (s : Str) (n : Nat) : ∃ A, s.take n = A ++ linePrefix s n ∧
    (A = [] ∨ ∃ B, A = B ++ ['\n']) ∧ '\n' ∉ linePrefix s n := by
  refine ⟨((s.take n).reverse.dropWhile (· != '\n')).reverse, ?_, ?_, ?_⟩
  · unfold linePrefix
    rw [← List.reverse_append, List.takeWhile_append_dropWhile, List.reverse_reverse]
  · cases h : (s.take n).reverse.dropWhile (· != '\n') with
    | nil => exact .inl rfl
    | cons x xs =>
      right
      refine ⟨xs.reverse, ?_⟩
      have : (x != '\n') = false := by
        have := List.head?_dropWhile_not (· != '\n') (s.take n).reverse
        rw [h] at this
        simpa using this
      have hx : x = '\n' := by simpa using this
      rw [hx, List.reverse_cons]
  · intro h
    exact not_mem_takeWhile _ (List.mem_reverse.mp h)

/-- The start of the line, from the bytes before the offset. -/
theorem lineBegin_eq {A : Str} {X input : List (Option Char)} {offset : Nat}
    (ht : input.take offset = strBytes A ++ X) (ho : offset = (strBytes A ++ X).length)
    (hA : A = [] ∨ ∃ B, A = B ++ ['\n']) (hX : NoNl X) :
    lineBegin input offset = (strBytes A).length := by
  have hX' : NoNl X.reverse := fun b hb => hX b (List.mem_reverse.mp hb)
  unfold lineBegin
  rw [ht, List.reverse_append]
  rcases hA with rfl | ⟨B, rfl⟩
  · rw [show strBytes [] = [] from rfl, List.reverse_nil, List.append_nil, findIdx_none hX']
    rfl
  · rw [strBytes_append, show strBytes ['\n'] = [some '\n'] from rfl] at ho ⊢
    rw [List.reverse_append, List.reverse_singleton, List.singleton_append, findIdx_nl hX', ho]
    simp only [List.length_append, List.length_reverse]
    omega

theorem takeWhile_split (s : Str) :
    (∃ r, s = s.takeWhile (· != '\n') ++ '\n' :: r) ∨ s.takeWhile (· != '\n') = s := by
  induction s with
  | nil => exact .inr rfl
  | cons c cs ih =>
    by_cases h : c = '\n'
    · subst h; exact .inl ⟨cs, rfl⟩
    · rw [List.takeWhile_cons_of_pos (by simpa using h)]
      rcases ih with ⟨r, hr⟩ | hr
      · exact .inl ⟨r, by rw [List.cons_append, ← hr]⟩
      · exact .inr (by rw [hr])

theorem context_eq {A L : Str} (hL : (∃ r, A = L ++ '\n' :: r ∧ '\n' ∉ L) ∨ (A = L ∧ '\n' ∉ L)) :
    lineContext (strBytes A) = strBytes L := by
  unfold lineContext
  rcases hL with ⟨r, rfl, h⟩ | ⟨rfl, h⟩
  · rw [strBytes_append, strBytes_cons, charBytes_nl, List.singleton_append,
      findIdx_nl (.ofStr h)]
    exact List.take_left
  · rw [findIdx_none (.ofStr h)]

theorem line_after {s : Str} {n : Nat} {A : Str} (hA : s.take n = A ++ linePrefix s n)
    (hP : '\n' ∉ linePrefix s n) :
    s = A ++ (linePrefix s n ++ s.drop n) ∧
    ((∃ r, linePrefix s n ++ s.drop n = lineText s n ++ '\n' :: r ∧ '\n' ∉ lineText s n) ∨
      (linePrefix s n ++ s.drop n = lineText s n ∧ '\n' ∉ lineText s n)) := by
  constructor
  · rw [← List.append_assoc, ← hA, List.take_append_drop]
  · have hn : '\n' ∉ lineText s n := by
      intro h
      rcases List.mem_append.mp h with h | h
      · exact hP h
      · exact not_mem_takeWhile _ h
    rcases takeWhile_split (s.drop n) with ⟨r, hr⟩ | hr
    · refine .inl ⟨r, ?_, hn⟩
      unfold lineText
      rw [List.append_assoc, ← hr]
    · refine .inr ⟨?_, hn⟩
      unfold lineText
      rw [hr]

theorem count_line {s : Str} {n : Nat} {A : Str} (hA : s.take n = A ++ linePrefix s n)
    (hP : '\n' ∉ linePrefix s n) : A.count '\n' + 1 = lineNumber s n := by
  unfold lineNumber
  rw [hA, List.count_append, List.count_eq_zero_of_not_mem hP, Nat.add_zero]

theorem columnCount_char (P : Str) (c : Char) : columnCount (strBytes P ++ [some c]) =
    if c.utf8Size = 1 then P.length + 1 else (strBytes P).length + 1 := by
  have hc' := Char.utf8Size_pos c
  unfold columnCount
  rw [countChars_str, show countChars 0 [some c] = (countChars (c.utf8Size - 1) []).map (· + 1) from rfl]
  by_cases h1 : c.utf8Size = 1
  · rw [if_pos h1, h1]
    show 0 + 1 + _ = _
    omega
  · rw [if_neg h1]
    obtain ⟨k, hk⟩ : ∃ k, c.utf8Size - 1 = k + 1 := ⟨c.utf8Size - 2, by omega⟩
    rw [hk]
    show (_ ++ [_]).length = _
    rw [List.length_append]
    rfl

theorem columnCount_str (P : Str) : columnCount (strBytes P) = P.length := by
  unfold columnCount
  have := countChars_str P []
  rw [List.append_nil] at this
  rw [this]
  show 0 + P.length = _
  omega

/-- The location of an error before the end of the input. -/
theorem locate_before {s : Str} {n : Nat} (hn : n < s.length) :
    locateError s (byteOffset s n) = (strBytes (lineText s n), ⟨lineNumber s n,
      (if s[n].utf8Size = 1 then columnNumber s n else (strBytes (linePrefix s n)).length + 1),
      byteOffset s n⟩) := by
  obtain ⟨A, hA, hA', hP⟩ := split_line s n
  obtain ⟨hs, hctx⟩ := line_after hA hP
  have hb : strBytes s = strBytes (s.take n) ++ (charBytes s[n] ++ strBytes (s.drop (n + 1))) := by
    rw [← strBytes_cons, ← strBytes_append, ← List.drop_eq_getElem_cons hn, List.take_append_drop]
  have hc := charBytes_length s[n]
  have hc' := Char.utf8Size_pos s[n]
  have hlen : (strBytes s).length = byteOffset s n + ((charBytes s[n]).length +
      (strBytes (s.drop (n + 1))).length) := by
    rw [hb, List.length_append, List.length_append]; rfl
  have hne : (strBytes s).isEmpty = false := by
    rw [List.isEmpty_eq_false_iff, ← List.length_pos_iff]; omega
  have hmin : min (byteOffset s n) ((strBytes s).length - 1) = byteOffset s n := by omega
  have htake : (strBytes s).take (byteOffset s n) = strBytes A ++ strBytes (linePrefix s n) := by
    rw [hb, ← strBytes_append, ← hA]
    exact List.take_left
  have hoff : byteOffset s n = (strBytes A ++ strBytes (linePrefix s n)).length := by
    rw [← strBytes_append, ← hA]; rfl
  have htake1 : (strBytes s).take (byteOffset s n + 1) =
      strBytes A ++ (strBytes (linePrefix s n) ++ [some s[n]]) := by
    rw [List.take_add, htake, List.append_assoc]
    congr 2
    rw [hb, show byteOffset s n = (strBytes (s.take n)).length from rfl, List.drop_left]
    rfl
  have hlb := lineBegin_eq htake hoff hA' (NoNl.ofStr hP)
  have hdrop : (strBytes s).drop (strBytes A).length =
      strBytes (linePrefix s n ++ s.drop n) := by
    conv => lhs; rw [hs]
    rw [strBytes_append]
    exact List.drop_left
  have htakeA : (strBytes s).take (strBytes A).length = strBytes A := by
    conv => lhs; rw [hs]
    rw [strBytes_append]
    exact List.take_left
  unfold locateError
  simp only [hne, hmin, hlb, Bool.false_eq_true, if_false]
  rw [hdrop, context_eq hctx, htakeA, countP_nl, count_line hA hP, htake1, List.drop_left,
    Nat.sub_self, Nat.add_zero]
  rw [columnCount_char]
  rfl

/-- The location of an error at the end of the input. -/
theorem locate_end {s : Str} (hs : s ≠ []) :
    locateError s (byteOffset s s.length) = (strBytes (lineText s (s.length - 1)),
      ⟨lineNumber s (s.length - 1), columnNumber s (s.length - 1) + 1,
        byteOffset s s.length - 1⟩) := by
  have hpos := List.length_pos_iff.mpr hs
  generalize hn' : s.length - 1 = n
  have hn : n < s.length := by omega
  obtain ⟨A, hA, hA', hP⟩ := split_line s n
  obtain ⟨hs', hctx⟩ := line_after hA hP
  have hlast : s.drop n = [s[n]] := by
    rw [List.drop_eq_getElem_cons hn, List.drop_eq_nil_of_le (by omega)]
  have hb : strBytes s = strBytes A ++ (strBytes (linePrefix s n) ++ charBytes s[n]) := by
    conv => lhs; rw [hs', hlast]
    rw [strBytes_append, strBytes_append]
    simp [strBytes]
  have hc := charBytes_length s[n]
  have hc' := Char.utf8Size_pos s[n]
  have hoff : byteOffset s s.length = (strBytes s).length := by
    unfold byteOffset; rw [List.take_length]
  have hlen : (strBytes s).length = (strBytes A).length + ((strBytes (linePrefix s n)).length +
      (charBytes s[n]).length) := by
    rw [hb, List.length_append, List.length_append]
  have hne : (strBytes s).isEmpty = false := by
    rw [List.isEmpty_eq_false_iff, ← List.length_pos_iff]; omega
  have hmin : min (byteOffset s s.length) ((strBytes s).length - 1) = (strBytes s).length - 1 := by
    omega
  -- the bytes of the last character that are before the offset
  have hchar : (charBytes s[n]).take (s[n].utf8Size - 1) ++ (charBytes s[n]).drop (s[n].utf8Size - 1)
      = charBytes s[n] := List.take_append_drop ..
  have hX : NoNl (strBytes (linePrefix s n) ++ (charBytes s[n]).take (s[n].utf8Size - 1)) := by
    refine (NoNl.ofStr hP).app fun b hb hnl => ?_
    subst hnl
    have hm := List.mem_of_mem_take hb
    rcases List.mem_cons.mp hm with h | h
    · injection h with h
      rw [← h, show ('\n').utf8Size - 1 = 0 from rfl] at hb
      cases hb
    · rw [List.mem_replicate] at h; cases h.2
  have htake : (strBytes s).take ((strBytes s).length - 1) =
      strBytes A ++ (strBytes (linePrefix s n) ++ (charBytes s[n]).take (s[n].utf8Size - 1)) := by
    conv => lhs; arg 2; rw [hb, ← hchar, ← List.append_assoc, ← List.append_assoc]
    rw [← List.append_assoc]
    refine List.take_left' ?_
    simp only [List.length_append, List.length_take]
    omega
  have ho : (strBytes s).length - 1 =
      (strBytes A ++ (strBytes (linePrefix s n) ++ (charBytes s[n]).take (s[n].utf8Size - 1))).length := by
    simp only [List.length_append, List.length_take]
    omega
  have hlb := lineBegin_eq htake ho hA' hX
  have hdrop : (strBytes s).drop (strBytes A).length = strBytes (linePrefix s n ++ s.drop n) := by
    conv => lhs; rw [hs']
    rw [strBytes_append]
    exact List.drop_left
  have htakeA : (strBytes s).take (strBytes A).length = strBytes A := by
    conv => lhs; rw [hb]
    exact List.take_left
  have hdrop' : (strBytes s).drop (strBytes A).length = strBytes (linePrefix s n ++ [s[n]]) := by
    rw [hdrop, hlast]
  unfold locateError
  simp only [hne, hmin, hlb, Bool.false_eq_true, if_false]
  rw [show (strBytes s).length - 1 + 1 = (strBytes s).length by omega, List.take_length, htakeA,
    countP_nl, count_line hA hP, hdrop', columnCount_str, hoff]
  rw [← hdrop', hdrop, context_eq hctx]
  congr 2
  · unfold columnNumber
    rw [List.length_append, List.length_singleton]
    omega

end Verif
