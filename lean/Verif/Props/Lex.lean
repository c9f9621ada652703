import Verif.Lemmas.RunLex
import Verif.Lemmas.RunTrivia
/-! C13, C14, C15: quoted strings, whitespace and comments of `hcl-edit`. -/

namespace Verif.Props
open Gram Spec

/-! ### C15: whitespace and comments -/

/-- Skipping trivia succeeds on every text, what is skipped is trivia, and what follows does not
start with trivia. -/
theorem C15_ws (u : Str) (pos : Nat) : ∃ x r, u = x ++ r ∧
    ws ⟨pos, u⟩ = .ok () ⟨pos + x.length, r⟩ ∧ Trivia true x ∧ ¬ StartsTrivia true r := by
  obtain ⟨x, r, rfl, h1, h2, h3⟩ := trivia_run true u
  obtain ⟨v, h4, -⟩ := h3 pos
  exact ⟨x, r, rfl, h4, h1, h2⟩

/-- The same within a line. -/
theorem C15_sp (u : Str) (pos : Nat) : ∃ x r, u = x ++ r ∧
    sp ⟨pos, u⟩ = .ok () ⟨pos + x.length, r⟩ ∧ Trivia false x ∧ ¬ StartsTrivia false r := by
  obtain ⟨x, r, rfl, h1, h2, h3⟩ := trivia_run false u
  obtain ⟨v, h4, -⟩ := h3 pos
  exact ⟨x, r, rfl, h4, h1, h2⟩

/-- Within a line, only blanks are skipped outside of block comments. -/
theorem C15_sp_within_line (u : Str) (pos : Nat) (i : Input) (h : sp ⟨pos, u⟩ = .ok () i) :
    ∃ x, u = x ++ i.rest ∧ (¬ c!"/*" <:+: x → ∀ c ∈ x, c = ' ' ∨ c = '\t') := by
  obtain ⟨x, r, rfl, h1, h2, -⟩ := C15_sp u pos
  rw [h1] at h
  cases h
  refine ⟨x, rfl, ?_⟩
  clear h1
  generalize hf : false = nl at h2
  induction h2 with
  | nil => nofun
  | blank hc _ ih =>
    intro hn c hm
    rcases List.mem_cons.mp hm with rfl | hm
    · exact hc
    · exact ih hf (fun h => hn (h.trans (List.suffix_cons ..).isInfix)) c hm
  | newline => cases hf
  | line => cases hf
  | block hx =>
    obtain ⟨t, rfl, -⟩ := hx
    intro hn
    exact absurd ⟨[], _, by rw [List.nil_append, List.append_assoc, List.append_assoc]⟩ hn

example : ws ⟨0, c!" # a\n /* b\n */\t// c"⟩ = .ok () ⟨19, []⟩ := by decide +kernel
example : sp ⟨0, c!" /* b\n */\t// c\n"⟩ = .ok () ⟨10, c!"// c\n"⟩ := by decide +kernel

/-- A comment with a carriage return in it is not a comment to the parser. -/
theorem C15_lone_cr : ws ⟨0, c!"# a\rb\n"⟩ = .ok () ⟨0, c!"# a\rb\n"⟩ := by decide +kernel

/-! ### C13: encoded strings -/

/-- **C13 is false of the code**: the encoder's escaping of markers is lossy (see C06), so the string
`${$${` is parsed back as `${${`. -/
theorem C13_roundtrip_fails :
    quotedString ⟨0, encQuoted c!"${$${"⟩ = .ok c!"${${" ⟨8, []⟩ := by decide +kernel

/-- **C13**: and the encoded string `${$%{` is not a string to the parser. -/
theorem C13_not_a_string_fails :
    quotedString ⟨0, encQuoted c!"${$%{"⟩ = .back ⟨5, c!"%{\""⟩ := by decide +kernel

/-- **C13, partial**: if after the first marker of a string no marker is directly preceded by another
`$`/`%`, then the string that is written is parsed as exactly the original string, with every
following text, which is left untouched. Missing: the strings of `C13_roundtrip_fails`. -/
theorem C13_roundtrip_partial (s r : Str) (pos : Nat)
    (h : ∀ a c d b, s = a ++ c :: d :: '{' :: b → Sigil c → Sigil d → ¬ HasMarker a) :
    quotedString ⟨pos, encQuoted s ++ r⟩ = .ok s ⟨pos + (encQuoted s).length, r⟩ := by
  obtain ⟨v, h1, rfl⟩ := runs_quotedString (encEscaped_text _ _ (Markers.read_esc s h)) r pos
  exact h1

/-- In particular every string without markers, whatever other characters it has. -/
theorem C13_no_marker_partial (s r : Str) (pos : Nat) (h : ¬ HasMarker s) :
    quotedString ⟨pos, encQuoted s ++ r⟩ = .ok s ⟨pos + (encQuoted s).length, r⟩ :=
  C13_roundtrip_partial s r pos fun a c d b hs _ hd _ => h ⟨a ++ [c], d, b, by rw [hs]; simp, hd⟩

/-- The hypothesis is met by strings with quotes, backslashes, control characters and markers. -/
example : quotedString ⟨0, encQuoted c!"a\"\\\n${b}%{c}\x7f"  ++ c!" = 1"⟩ =
    .ok c!"a\"\\\n${b}%{c}\x7f" ⟨25, c!" = 1"⟩ := by decide +kernel

/-! ### C14: malformed escape sequences -/

/-- **C14 is false of the code**: `"foo\x"` is accepted as the string `foo`. -/
theorem C14_accepted_fails : quotedString ⟨0, c!"\"foo\\x\""⟩ = .ok c!"foo" ⟨7, []⟩ := by
  decide +kernel

/-- A malformed escape sequence in front of the text `r`. -/
def BadEscapeText (e r : Str) : Prop :=
  c!"\\" <+: e ∧ e.length ≤ 2 ∧ ∀ t c, t <+: e ++ r → ¬ Escape t c

/-- **C14, partial**: an accepted string is a sequence of characters, of escaped markers and of valid
escape sequences, and its value is what they stand for. The exception is one malformed escape sequence
right in front of the closing quote of a string that is otherwise not empty. Missing: that this
exception is rejected too, which is false of the code. -/
theorem C14_accepted_partial (u v : Str) (pos : Nat) (i : Input)
    (h : quotedString ⟨pos, u⟩ = .ok v i) :
    ∃ t e, u = '"' :: (t ++ (e ++ '"' :: i.rest)) ∧ QuotedText t v ∧
      (e = [] ∨ t ≠ [] ∧ BadEscapeText e ('"' :: i.rest)) := by
  let s : Str := List.replicate pos ' ' ++ u
  have hl : (List.replicate pos ' ').length = pos := List.length_replicate
  have hd : s.drop pos = u := by
    show (List.replicate pos ' ' ++ u).drop pos = u
    conv => lhs; arg 1; rw [← hl]
    exact List.drop_left
  have hp : pos ≤ s.length := by
    show pos ≤ (List.replicate pos ' ' ++ u).length
    rw [List.length_append, hl]; omega
  have hw := tri_quotedString (pan := False) (s := s) (lo := 0) pos (Nat.zero_le _) hp
  unfold inp at hw
  rw [hd, h] at hw
  obtain ⟨q, rfl, h1, h2, p, x, h3, ⟨y, h4, h5⟩, h6⟩ := hw
  have e1 := tok_drop h3
  have e2 := tok_drop h6
  have h7 : y ≤ x := by rcases h5 with rfl | ⟨-, h5, -⟩ <;> omega
  have e3 : s.drop p = slice s p y ++ (slice s y x ++ s.drop x) := by
    rw [← List.append_assoc, slice_append h4.le h7, slice_drop (Nat.le_trans h4.le h7)]
  refine ⟨slice s p y, slice s y x, ?_, litAt_text h4, ?_⟩
  · rw [← hd, e1, e3, e2]; rfl
  · rcases h5 with rfl | ⟨h5, h8, h9, h10, h11, h12⟩
    · exact .inl (slice_self ..)
    · refine .inr ⟨fun hn => ?_, ?_, ?_, ?_⟩
      · have := congrArg List.length hn
        rw [slice_length (by omega)] at this
        simp at this
        omega
      · have := tok_drop h11
        refine ⟨slice s (y + 1) x, ?_⟩
        rw [← h11.text, slice_append (by omega) (by omega)]
      · rw [slice_length (by omega)]; omega
      · rintro t c ⟨k, hk⟩ he
        rw [show '"' :: s.drop q = s.drop x from e2.symm, slice_drop h7] at hk
        refine h12 t c (y + t.length) ⟨rfl, ?_, ?_⟩ he
        · have := congrArg List.length hk
          rw [List.length_append, List.length_drop] at this
          omega
        · unfold slice
          rw [← hk, Nat.add_sub_cancel_left, List.take_left]

/-- Conversely, everything without a malformed escape sequence is accepted. -/
theorem C14_wellformed_accepted (t v r : Str) (pos : Nat) (h : QuotedText t v) :
    quotedString ⟨pos, '"' :: (t ++ '"' :: r)⟩ = .ok v ⟨pos + t.length + 2, r⟩ := by
  obtain ⟨w, h1, rfl⟩ := runs_quotedString h r pos
  simpa [Nat.add_assoc] using h1

example : quotedString ⟨0, c!"\"a\\u00e4$${\\n$\" b"⟩ = .ok c!"aä${\n$" ⟨15, c!" b"⟩ := by decide +kernel
example : quotedString ⟨0, c!"\"\\x\""⟩ = .cut ⟨3, c!"\""⟩ := by decide +kernel

end Verif.Props
