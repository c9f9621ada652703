import Verif.Lemmas.Markers
/-! Properties C05 and C06 (template marker escaping). -/

namespace Verif.Props
open Verif Verif.Spec

/-- **C05 is false of the code**: the slow path of `escape_markers` steps over two characters at a
time, so a marker directly preceded by `$`/`%` after an earlier marker is not escaped. -/
theorem C05_roundtrip_fails : ∃ s, unescapeMarkers (escapeMarkers s) ≠ s :=
  ⟨c!"${$${", by decide⟩

/-- **C05** also fails for a text whose markers are far apart: `unescape_markers` steps over three
characters at a time. -/
theorem C05_roundtrip_fails_unescape : unescapeMarkers (escapeMarkers c!"${$a${") ≠ c!"${$a${" := by
  decide

/-- **C05, partial**: unescaping an escaped text gives it back, provided that between two markers
every `$`/`%` is itself followed by `{` (in particular for every text with at most one marker, and
for every text in which `$` and `%` only occur as `${` and `%{`). Missing: texts with a stray
sigil between two markers, for which the claim is false (`C05_roundtrip_fails`). -/
theorem C05_roundtrip_partial (s : Str)
    (h : ∀ a c b, s = a ++ c :: b → HasMarker a → Sigil c → HasMarker (c :: b) →
      ∃ b', b = '{' :: b') :
    unescapeMarkers (escapeMarkers s) = s :=
  Markers.unesc_esc s h

/-- **C05, partial**: the instance for texts with at most one marker. -/
theorem C05_roundtrip_one_marker_partial (s : Str)
    (h : ∀ a b, s = a ++ b → HasMarker a → ¬ HasMarker b) :
    unescapeMarkers (escapeMarkers s) = s :=
  Markers.unesc_esc s (fun a c b heq hma _ hm => absurd hm (h a (c :: b) heq hma))

/-- **C06 is false of the code**: an escaped literal can still contain a live directive. -/
theorem C06_no_live_marker_fails : ∃ s, readLiteral (escapeMarkers s) = none :=
  ⟨c!"${$%{if}", by decide⟩

/-- **C06**: it can also be read back as a different text. -/
theorem C06_literal_changed : ∃ s t, readLiteral (escapeMarkers s) = some t ∧ t ≠ s :=
  ⟨c!"${$${", c!"${${", by decide, by decide⟩

/-- **C06, partial**: if after the first marker no marker is directly preceded by another
`$`/`%`, then the escaped text contains no live marker and is read as exactly the original text.
Missing: texts such as `${$%{`, for which the claim is false (`C06_no_live_marker_fails`). -/
theorem C06_escaped_reads_back_partial (s : Str)
    (h : ∀ a c d b, s = a ++ c :: d :: '{' :: b → Sigil c → Sigil d → ¬ HasMarker a) :
    readLiteral (escapeMarkers s) = some s :=
  Markers.read_esc s h

/-- The hypotheses are met by texts with several markers; here with two. -/
example : readLiteral (escapeMarkers c!"a$${b}-%{c}$") = some c!"a$${b}-%{c}$" := by decide
example : ¬ HasMarker c!"a$$ {" := by
  rintro ⟨a, c, b, heq, hc⟩
  match a, heq with
  | [], heq => cases heq
  | [_], heq => cases heq
  | [_, _], heq => cases heq
  | [_, _, _], heq => cases heq; rcases hc with h | h <;> exact absurd h (by decide)
  | [_, _, _, _], heq => cases heq
  | _ :: _ :: _ :: _ :: _ :: _, heq => simp at heq

end Verif.Props
