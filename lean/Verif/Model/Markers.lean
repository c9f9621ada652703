import Verif.Basic
/-!
Model of `escape_markers` / `unescape_markers`, `crates/hcl-primitives/src/template.rs`.

The Rust code scans bytes in its fast path. The two- and three-byte windows it looks for consist of
ASCII bytes, which in UTF-8 never occur inside a multi-byte character, so scanning characters finds
the same position. `literal.len() < 2` (a byte count) only skips strings without a marker.
-/

namespace Verif

/-- The windows of `escape_markers`, `template.rs:101`: does the text start with `${` or `%{`? -/
def startsMarker : Str → Bool
  | '$' :: '{' :: _ => true
  | '%' :: '{' :: _ => true
  | _ => false

/-- The windows of `unescape_markers`, `template.rs:156`: does the text start with `$${` or
`%%{`? -/
def startsEscapedMarker : Str → Bool
  | '$' :: '$' :: '{' :: _ => true
  | '%' :: '%' :: '{' :: _ => true
  | _ => false

/-- The loop of `escape_markers_owned`, `crates/hcl-primitives/src/template.rs:114-132`. -/
def escapeMarkersOwned : Str → Str
  | [] => []
  | ch :: rest =>
    if ch ≠ '$' ∧ ch ≠ '%' then ch :: escapeMarkersOwned rest
    else match rest with
      | ch2 :: rest' =>
        if ch2 = '{' then ch :: ch :: ch2 :: escapeMarkersOwned rest'
        else ch :: ch2 :: escapeMarkersOwned rest'
      | [] => [ch]

/-- `escape_markers`, `crates/hcl-primitives/src/template.rs:94-108`: text before the first marker
is copied (`split_buf`, lines 194-198), the slow path handles the rest. -/
def escapeMarkers : Str → Str
  | [] => []
  | c :: cs =>
    if startsMarker (c :: cs) then escapeMarkersOwned (c :: cs) else c :: escapeMarkers cs

/-- The loop of `unescape_markers_owned`, `crates/hcl-primitives/src/template.rs:169-190`. -/
def unescapeMarkersOwned : Str → Str
  | [] => []
  | ch :: rest =>
    if ch ≠ '$' ∧ ch ≠ '%' then ch :: unescapeMarkersOwned rest
    else match rest with
      | ch2 :: ch3 :: rest' =>
        if ch2 = ch ∧ ch3 = '{' then ch :: '{' :: unescapeMarkersOwned rest'
        else ch :: ch2 :: ch3 :: unescapeMarkersOwned rest'
      | [ch2] => [ch, ch2]
      | [] => [ch]

/-- `unescape_markers`, `crates/hcl-primitives/src/template.rs:149-163`. -/
def unescapeMarkers : Str → Str
  | [] => []
  | c :: cs =>
    if startsEscapedMarker (c :: cs) then unescapeMarkersOwned (c :: cs)
    else c :: unescapeMarkers cs

end Verif
