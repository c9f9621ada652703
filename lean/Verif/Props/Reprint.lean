import Verif.Lemmas.Canon
import Verif.Lemmas.ParseTop
/-! C18: parsing and printing reproduces the document.

The property is false of the code: the witnesses below are documents that are printed differently from
how they were written. They also tell which constructs are the problem. The `_partial` theorems say
that these are all: a document without carriage returns in which each of them is spelled the way it is
printed (`canonBody`, in `Spec/Canon.lean`) is reproduced, whatever else it contains. `canonBody` is a
computable test on the parsed tree and the source. -/

namespace Verif.Props
open Gram Spec

private def Er : PEnv := ⟨.ascii, .release⟩
private def Ef : FmtEnv := ⟨.ascii, fun _ => []⟩

/-- A test for what is printed for a document. -/
private def printsAs (s t : Str) : Bool :=
  match parseBody Er s with
  | .ok b => decide (b.show Ef = t)
  | _ => false

private theorem printsAs.spec {s t : Str} (h : printsAs s t = true) :
    ∃ b, parseBody Er s = .ok b ∧ b.show Ef = t := by
  unfold printsAs at h
  split at h
  · rename_i b hb; exact ⟨b, hb, of_decide_eq_true h⟩
  · cases h

/-- A test for what is printed for an expression. -/
private def exprPrintsAs (s t : Str) : Bool :=
  match parseExpr Er s with
  | .ok b => decide (b.show Ef = t)
  | _ => false

private theorem exprPrintsAs.spec {s t : Str} (h : exprPrintsAs s t = true) :
    ∃ b, parseExpr Er s = .ok b ∧ b.show Ef = t := by
  unfold exprPrintsAs at h
  split at h
  · rename_i b hb; exact ⟨b, hb, of_decide_eq_true h⟩
  · cases h

/-- Documents. -/
theorem C18_body_partial (E : PEnv) (F : FmtEnv) (s : Str) (b : EBody) (h : parseBody E s = .ok b)
    (hr : '\r' ∉ s) (hc : canonBody E.U s b = true) : b.show F = s := by
  have h' := parseBody_ok E s
  rw [h] at h'
  obtain ⟨b₀, rfl, h2⟩ := h'
  exact h2.show F hr hc

/-- Expressions. -/
theorem C18_expr_partial (E : PEnv) (F : FmtEnv) (s : Str) (e : EExpr) (h : parseExpr E s = .ok e)
    (hr : '\r' ∉ s) (hc : canon E.U s false e = true) (hp : plainSuf e = true) : e.show F = s := by
  have h' := parseExpr_ok E s
  rw [h] at h'
  obtain ⟨e₀, rfl, h2, h3⟩ := h'
  have := ((h2.prints F hr (by obtain ⟨r, hr, -⟩ := h3; rw [hr]) hc).node h3 hp).2 false nofun
  exact this.1.trans (slice_all s)

/-- Templates. -/
theorem C18_template_partial (E : PEnv) (F : FmtEnv) (s : Str) (t : List EElem)
    (h : parseTemplate E s = .ok t) (hr : '\r' ∉ s) (hc : canonElems E.U s false t = true) :
    showTemplate F t = s := by
  have h' := parseTemplate_ok E s
  rw [h] at h'
  obtain ⟨t₀, rfl, h2⟩ := h'
  exact ((h2.prints F hr).1 hc).2.trans (slice_all s)

/-- Printing is a fixed point: what is printed for such a document parses to the same tree. -/
theorem C18_reparse_partial (E : PEnv) (F : FmtEnv) (s : Str) (b : EBody) (h : parseBody E s = .ok b)
    (hr : '\r' ∉ s) (hc : canonBody E.U s b = true) : parseBody E (b.show F) = .ok b := by
  rw [C18_body_partial E F s b h hr hc, h]

/-- The condition on a quoted string is met by all strings that are written without escape sequences:
those without control characters, quotes, backslashes and template markers. -/
theorem C18_plain_string (x : Str)
    (h : ∀ c ∈ x, 0x20 ≤ c.toNat ∧ c.toNat ≠ 0x7f ∧ c ≠ '"' ∧ c ≠ '\\') (hm : noMarker x = true) :
    encQuoted x = '"' :: (x ++ ['"']) := by
  rw [encQuoted, esc_noMarker hm]
  congr 2
  clear hm
  induction x with
  | nil => rfl
  | cons c r ih =>
    obtain ⟨h1, h2, h3, h4⟩ := h c (List.mem_cons_self ..)
    have h3 : c.toNat ≠ 0x22 := fun e => h3 (Char.toNat_inj.1 e)
    have h4 : c.toNat ≠ 0x5c := fun e => h4 (Char.toNat_inj.1 e)
    rw [encEscaped, ih fun d hd => h d (List.mem_cons_of_mem _ hd), encEscChar]
    repeat rw [if_neg (by omega)]
    rfl

/-! Documents with many constructs that meet the conditions. -/

private def doc : Str :=
  c!"// top\na = [ 1.50, /* c */ 1e3 ,]\n\n# next\nb \"x y\" z { # tail\n\tc = a.b[ 0 ].*.d[*] ? -x : (1 + 2)*3 // d\n  e { f = { a = 1, \"b\" : 2\n } }\n}\nt = \"a ${ b } $${c} %{ if d ~} e %{else}f%{ endif }\"\nh = <<EOT\n a ${b}\n  \"c\"\n EOT\ni = <<-EOT\n    a ${b}\n\n      c\n    EOT\nn = [for k, v in a : x::f(k, v...) if v]\no = {for v in a : v => v... if v } # end"

example : ∃ b, parseBody Er doc = .ok b ∧ '\r' ∉ doc ∧ canonBody .ascii doc b = true := by
  have : (match parseBody Er doc with
    | .ok b => canonBody .ascii doc b
    | _ => false) = true := by decide +kernel
  split at this
  · rename_i b hb; exact ⟨b, hb, by decide, this⟩
  · cases this

example : ∃ e, parseExpr Er c!"f( a , [b] ...)" = .ok e ∧
    canon .ascii c!"f( a , [b] ...)" false e = true ∧ plainSuf e = true := by
  have : (match parseExpr Er c!"f( a , [b] ...)" with
    | .ok e => canon .ascii c!"f( a , [b] ...)" false e && plainSuf e
    | _ => false) = true := by decide +kernel
  split at this
  · rename_i e he; exact ⟨e, he, Bool.and_eq_true_iff.1 this⟩
  · cases this

private def tmpl : Str := c!"a\n%{ for k ,v in x~} \"${ k}\" $${ %{endfor}"

example : ∃ t, parseTemplate Er tmpl = .ok t ∧ canonElems .ascii tmpl false t = true := by
  have : (match parseTemplate Er tmpl with
    | .ok t => canonElems .ascii tmpl false t
    | _ => false) = true := by decide +kernel
  split at this
  · rename_i e he; exact ⟨e, he, this⟩
  · cases this

/-! ### Documents that are not reproduced -/

/-- Whitespace around an operator is replaced by one blank, comments around it are lost. -/
theorem C18_operator_space_lost : ∃ b, parseBody Er c!"a = 1  + /* one */ 2\n" = .ok b ∧
    b.show Ef = c!"a = 1 + 2\n" :=
  printsAs.spec (by decide +kernel)

/-- Whitespace in front of a traversal operator is lost. -/
theorem C18_traversal_space_lost : ∃ b, parseBody Er c!"a = (b\n .c\n .d)\n" = .ok b ∧
    b.show Ef = c!"a = (b\n .c.d)\n" :=
  printsAs.spec (by decide +kernel)

/-- A comparison after a comparison is lost. -/
theorem C18_operand_lost : ∃ b, parseBody Er c!"a = b == c == d\n" = .ok b ∧
    b.show Ef = c!"a = b == c\n" :=
  printsAs.spec (by decide +kernel)

/-- The first value of a key that an object has twice is lost, together with what separates it from
the next item: the result does not parse. -/
theorem C18_duplicate_key_lost : (∃ b, parseBody Er c!"a = { b = 1, c = 2, b = 3 }\n" = .ok b ∧
    b.show Ef = c!"a = { b = 3  c = 2,}\n") ∧
    (parseBody Er c!"a = { b = 3  c = 2,}\n").isOk = false :=
  ⟨printsAs.spec (by decide +kernel), by decide +kernel⟩

/-- Line endings become newlines. -/
theorem C18_crlf_lost : ∃ b, parseBody Er c!"a = 1\r\nb = 2\r\n" = .ok b ∧
    b.show Ef = c!"a = 1\nb = 2\n" :=
  printsAs.spec (by decide +kernel)

/-- Escape sequences in strings are normalised. -/
theorem C18_escape_lost : ∃ b, parseBody Er c!"a = \"\\u00e9\\/\"\n" = .ok b ∧
    b.show Ef = c!"a = \"é/\"\n" :=
  printsAs.spec (by decide +kernel)

/-- A newline in a quoted string becomes an escape sequence. -/
theorem C18_newline_escaped : ∃ b, parseBody Er c!"a = \"b\nc\"\n" = .ok b ∧
    b.show Ef = c!"a = \"b\\nc\"\n" :=
  printsAs.spec (by decide +kernel)

/-- A heredoc with `-` whose lines are not indented loses the `-`. -/
theorem C18_heredoc_dash_lost : ∃ b, parseBody Er c!"a = <<-EOT\nb\nEOT\n" = .ok b ∧
    b.show Ef = c!"a = <<EOT\nb\nEOT\n" :=
  printsAs.spec (by decide +kernel)

/-- After a nested quoted template the literals of the outer one are printed without escape sequences;
the result does not parse. -/
theorem C18_nested_template : (∃ b, parseBody Er c!"a = \"${\"${b}\"}\\\"\"\n" = .ok b ∧
    b.show Ef = c!"a = \"${\"${b}\"}\"\"\n") ∧
    (parseBody Er c!"a = \"${\"${b}\"}\"\"\n").isOk = false :=
  ⟨printsAs.spec (by decide +kernel), by decide +kernel⟩

/-- A heredoc inside of a quoted template is printed with escape sequences, its newlines too; the
result does not parse. -/
theorem C18_nested_heredoc : (∃ b, parseBody Er c!"a = \"${<<E\n\"b\"\nE\n}\"\n" = .ok b ∧
    b.show Ef = c!"a = \"${<<E\n\\\"b\\\"\\nE\n}\"\n") ∧
    (parseBody Er c!"a = \"${<<E\n\\\"b\\\"\\nE\n}\"\n").isOk = false :=
  ⟨printsAs.spec (by decide +kernel), by decide +kernel⟩

/-- Whitespace between `...` and `}` is moved behind the expression, or lost. -/
theorem C18_grouping_space : (∃ e, parseExpr Er c!"{for v in a : v => v... }" = .ok e ∧
    e.show Ef = c!"{for v in a : v => v...} ") ∧
    ∃ e, parseExpr Er c!"({for v in a : v => v... })" = .ok e ∧
      e.show Ef = c!"({for v in a : v => v...})" :=
  ⟨exprPrintsAs.spec (by decide +kernel), exprPrintsAs.spec (by decide +kernel)⟩

/-- The property as stated does not hold. -/
theorem C18_false : ¬ ∀ s b, parseBody Er s = .ok b → b.show Ef = s := by
  intro h
  obtain ⟨b, h1, h2⟩ := C18_operator_space_lost
  rw [h _ b h1] at h2
  exact absurd h2 (by decide)

end Verif.Props
