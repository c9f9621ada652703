import Verif.Props.Parse
import Verif.Lemmas.Printable
/-! C26: the caret of a displayed error points at the character where the error is. -/

namespace Verif.Props
open Spec Gram

private theorem decode_encode (t : Str) : decodeBytes (strBytes t) = t := by
  unfold decodeBytes strBytes
  induction t with
  | nil => rfl
  | cons c t ih =>
    rw [List.flatMap_cons, List.filterMap_append, ih]
    have : ∀ k, (List.replicate k (none : Option Char)).filterMap id = [] := by
      intro k
      induction k with
      | zero => rfl
      | succ k ih => simpa [List.replicate_succ, List.filterMap_cons] using ih
    simp [charBytes, this]

private theorem number_line (n : Nat) : '\n' ∉ natStr n := by
  intro h
  have := (natStr_digits n).2 _ h
  revert this
  decide

private theorem takeWhile_line (t : Str) : '\n' ∉ t.takeWhile (· != '\n') := by
  induction t with
  | nil => nofun
  | cons c t ih =>
    rw [List.takeWhile_cons]
    split
    · rename_i hc
      simp only [List.mem_cons, not_or]
      exact ⟨fun h => by subst h; simp at hc, ih⟩
    · nofun

private theorem prefix_line (s : Str) (n : Nat) : '\n' ∉ linePrefix s n := by
  unfold linePrefix
  rw [List.mem_reverse]
  exact takeWhile_line _

private theorem at_length {a b : Str} {c : Char} {i : Nat} (h : i = a.length) : (a ++ c :: b)[i]? = some c := by
  subst h
  simp

/-- A displayed error shows the line of the error, and a line below it in which the caret stands exactly under
the character of the error. As for the column (`C26_location_partial`) the character there, or everything
before it on the line, has to be encoded in one byte; and it is not itself a line break. -/
theorem C26_display_partial (E : PEnv) (s : Str) (n : Nat) (message : Str) (h : parseBody E s = .err n ∨
    parseExpr E s = .err n ∨ parseTemplate E s = .err n) (hn : n < s.length)
    (hc : s[n].utf8Size = 1 ∨ ∀ c ∈ linePrefix s n, c.utf8Size = 1) (hl : s[n] ≠ '\n') :
    ∃ head shown marker rest, displayError s n message =
        head ++ c!"\n" ++ shown ++ c!"\n" ++ marker ++ c!"\n" ++ rest ∧
      shown = natStr (lineNumber s n) ++ c!" | " ++ lineText s n ∧ '\n' ∉ shown ∧ '\n' ∉ marker ∧
      ∃ i : Nat, shown[i]? = some s[n] ∧ marker[i]? = some '^' ∧ ∀ j : Nat, j < i → marker[j]? ≠ some '^' := by
  obtain ⟨_, -, h2, h3, h4⟩ | ⟨h1, -⟩ | ⟨-, h1, -⟩ := C26_location_partial E s n h
  · have h4 := h4 hc
    let L := natStr (lineNumber s n)
    let sp := List.replicate L.length ' '
    let P := linePrefix s n
    refine ⟨sp ++ c!"--> HCL parse error in line " ++ L ++ c!", column " ++
        natStr (columnNumber s n) ++ c!"\n" ++ sp ++ c!" |", L ++ c!" | " ++ lineText s n,
      sp ++ c!" | " ++ (List.replicate P.length ' ' ++ ['^']) ++ c!"---",
      sp ++ c!" |\n" ++ sp ++ c!" = " ++ message, ?_, rfl, ?_, ?_, L.length + 3 + P.length, ?_, ?_, ?_⟩
    · have hcol : columnNumber s n - 1 = P.length := rfl
      have hsp : errorSpacing (errorLocation s n) = sp := by rw [errorSpacing, h2]
      unfold displayError
      simp only [hsp, h2, h3, h4, decode_encode, hcol]
      simp only [List.append_assoc, List.cons_append, List.nil_append, L]
    · simp only [List.mem_append, not_or]
      refine ⟨⟨number_line _, by decide⟩, ?_⟩
      unfold lineText
      rw [List.mem_append, not_or]
      exact ⟨prefix_line s n, takeWhile_line _⟩
    · simp only [List.mem_append, not_or]
      refine ⟨⟨⟨?_, by decide⟩, ?_, by decide⟩, by decide⟩
      · intro h; have := List.eq_of_mem_replicate h; revert this; decide
      · intro h; have := List.eq_of_mem_replicate h; revert this; decide
    · have : lineText s n = P ++ s[n] :: (s.drop (n + 1)).takeWhile (· != '\n') := by
        unfold lineText
        rw [List.drop_eq_getElem_cons hn, List.takeWhile_cons, if_pos (by simpa using hl)]
      rw [this, ← List.append_assoc]
      exact at_length (by simp only [List.length_append]; rfl)
    · have : sp ++ c!" | " ++ (List.replicate P.length ' ' ++ ['^']) ++ c!"---" =
          (sp ++ c!" | " ++ List.replicate P.length ' ') ++ '^' :: c!"---" := by
        simp only [List.append_assoc, List.cons_append, List.nil_append]
      rw [this]
      exact at_length (by simp only [List.length_append, List.length_replicate, sp]; rfl)
    · intro j hj
      have : sp ++ c!" | " ++ (List.replicate P.length ' ' ++ ['^']) ++ c!"---" =
          (sp ++ c!" | " ++ List.replicate P.length ' ') ++ (['^'] ++ c!"---") := by
        simp only [List.append_assoc]
      rw [this, List.getElem?_append_left (by simp [sp]; omega)]
      intro hj
      have := List.mem_of_getElem? hj
      simp only [List.mem_append] at this
      rcases this with (h | h) | h
      · have := List.eq_of_mem_replicate h; revert this; decide
      · revert h; decide
      · have := List.eq_of_mem_replicate h; revert this; decide
  · omega
  · subst h1; cases hn

private def Er : PEnv := ⟨.ascii, .release⟩

example : (parseBody Er c!"a = 1\nb = [\"é\" ]]\n").errAt = some 16 := by decide +kernel
example : displayError c!"a = 1\nb = [\"é\" ]]\n" 16 c!"expected newline" =
    c!" --> HCL parse error in line 2, column 11\n  |\n2 | b = [\"é\" ]]\n  |           ^---\n  |\n  = expected newline" := by
  decide +kernel

end Verif.Props
