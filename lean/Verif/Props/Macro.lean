import Verif.Lemmas.Macro
/-! C70: the macros build what their tokens say.

`ExprToks`, `ValueToks` and `BodyToks` (in `Spec/Macro.lean`) relate a tree to the tokens it is written with,
`Sane` says what is assumed of the compiler. A macro that expands has the result for every recursion limit
that is large enough. -/

namespace Verif.Props
open Macro Spec

/-- `expression!` gives the expression that is written. -/
theorem C70_expression_partial (R : Rust) (hR : Sane R) (e : Expr) (ts : List TT) (h : ExprToks R e ts) :
    ∃ n₀, ∀ n ≥ n₀, expression R n ts = some e :=
  Writes.runs hR (fits_expr hR) h

/-- `value!` gives the value that is written. -/
theorem C70_value_partial (R : Rust) (hR : Sane R) (v : Value) (ts : List TT) (h : ValueToks R v ts) :
    ∃ n₀, ∀ n ≥ n₀, value R n ts = some v :=
  Writes.runs hR (fits_value hR) h

/-- `body!` gives the document that is written, with braces around it or without. -/
theorem C70_body_partial (R : Rust) (hR : Sane R) (b : List Struct) (ts : List TT) (h : BodyToks R b ts) :
    ∃ n₀, ∀ n ≥ n₀, body R n ts = some b ∧ body R n [.group .brace ts] = some b := by
  have h1 : Ev (body R · ts) b := ((h.runs hR).1 []).step fun m hm => by
    unfold body
    split
    · exact ((h.runs hR).2 _ rfl).elim
    · simpa using hm
  have h2 : Ev (body R · [.group .brace ts]) b := h1.step fun m hm => by
    unfold body
    exact hm
  obtain ⟨n, h1⟩ := h1
  obtain ⟨n', h2⟩ := h2
  exact ⟨n + n', fun m hm => ⟨h1 m (by omega), h2 m (by omega)⟩⟩

/-- `attribute!` gives the attribute that is written; the value may be any expression, also a negative
number. -/
theorem C70_attribute_partial (R : Rust) (hR : Sane R) (k : Str) (hk : IsIdentifier R.U k) (e : Expr)
    (ts : List TT) (h : ExprToks R e ts) :
    ∃ n₀, ∀ n ≥ n₀, Macro.attr R n (.ident k) ts = some (.attr k e) := by
  obtain ⟨n, hn⟩ := C70_expression_partial R hR e ts h
  exact ⟨n, fun m hm => by simp only [Macro.attr, name_ident hk, hn m hm]⟩

/-- `block!` gives the block that is written, with braces around it or without. -/
theorem C70_block_partial (R : Rust) (hR : Sane R) (i : Str) (hi : IsIdentifier R.U i) (ls : List Label)
    (lt : List TT) (hl : LabelToks ls lt) (b : List Struct) (us : List TT) (h : BodyToks R b us) :
    ∃ n₀, ∀ n ≥ n₀, block R n (.ident i :: lt ++ [.group .brace us]) = some (.block i ls b) ∧
      block R n [.group .brace (.ident i :: lt ++ [.group .brace us])] = some (.block i ls b) := by
  obtain ⟨n, hn⟩ := C70_body_partial R hR b us h
  have key : ∀ m ≥ n, block.go R m (.ident i) (lt ++ [.group .brace us]) = some (.block i ls b) :=
    fun m hm => by
      simp only [block.go, name_ident hi, hl.runs hR [] us [], List.nil_append, (hn m hm).1, Option.map_some]
  refine ⟨n, fun m hm => ⟨?_, key m hm⟩⟩
  exact key m hm

mutual
/-- The identifiers of attributes and blocks are identifiers, inside of blocks too. -/
def Named (U : Uni) : Struct → Prop
  | .attr k _ => IsIdentifier U k
  | .block i _ b => IsIdentifier U i ∧ AllNamed U b
def AllNamed (U : Uni) : List Struct → Prop
  | [] => True
  | st :: b => Named U st ∧ AllNamed U b
end

private theorem allNamed_append {U : Uni} {b c : List Struct} (hb : AllNamed U b) (hc : AllNamed U c) :
    AllNamed U (b ++ c) := by
  induction b with
  | nil => exact hc
  | cons st b ih => rw [AllNamed] at hb; rw [List.cons_append, AllNamed]; exact ⟨hb.1, ih hb.2⟩

private theorem name_identifier {R : Rust} {t : TT} {k : Str} (h : name R t = some k) : IsIdentifier R.U k := by
  unfold name at h
  split at h
  · cases h; exact C02_sanitized_valid ..
  · split at h
    · obtain ⟨x, _, rfl⟩ := Option.map_eq_some_iff.mp h; exact C02_sanitized_valid ..
    · cases h
  · cases h

private theorem attr_named {R : Rust} {n : Nat} {t : TT} {ts : List TT} {st : Struct}
    (h : Macro.attr R n t ts = some st) : Named R.U st := by
  unfold Macro.attr at h
  split at h
  · rename_i hk _; cases h; rw [Named]; exact name_identifier hk
  · cases h

private theorem body_named {R : Rust} : ∀ n, (∀ ts b, body R n ts = some b → AllNamed R.U b) ∧
    ∀ acc ts b, AllNamed R.U acc → structures R n acc ts = some b → AllNamed R.U b := by
  intro n
  induction n with
  | zero => exact ⟨fun ts b h => by simp [body] at h, fun acc ts b _ h => by simp [structures] at h⟩
  | succ n ih =>
    refine ⟨fun ts b h => ?_, fun acc ts b ha h => ?_⟩
    · unfold body at h
      split at h
      · exact ih.1 _ _ h
      · exact ih.2 _ _ _ (by rw [AllNamed]; trivial) h
    · unfold structures at h
      split at h
      · cases h; exact ha
      · split at h
        · rename_i hst
          exact ih.2 _ _ _ (allNamed_append ha (by simp only [AllNamed]; exact ⟨attr_named hst, trivial⟩)) h
        · cases h
      · split at h
        · split at h
          · rename_i hi _ _ _ hb
            refine ih.2 _ _ _ (allNamed_append ha ?_) h
            simp only [AllNamed, Named]
            exact ⟨⟨name_identifier hi, ih.1 _ _ hb⟩, trivial⟩
          · cases h
        · cases h

/-- The identifiers of what the macros build are identifiers, whatever the tokens are: keys that are expressions
of the program are sanitized. (The labels are not, `C70_raw_label_fails`.) -/
theorem C70_identifiers (R : Rust) (n : Nat) :
    (∀ ts b, body R n ts = some b → AllNamed R.U b) ∧
    (∀ ts st, block R n ts = some st → Named R.U st) ∧
    (∀ t ts st, Macro.attr R n t ts = some st → Named R.U st) := by
  have hb := (body_named (R := R) n).1
  have hgo : ∀ t rest st, block.go R n t rest = some st → Named R.U st := by
    intro t rest st h
    unfold block.go at h
    split at h
    · rename_i hi _
      obtain ⟨b, e, rfl⟩ := Option.map_eq_some_iff.mp h
      rw [Named]
      exact ⟨name_identifier hi, hb _ _ e⟩
    · cases h
  refine ⟨hb, fun ts st h => ?_, fun t ts st h => attr_named h⟩
  unfold block at h
  split at h
  · exact hgo _ _ _ h
  · exact hgo _ _ _ h
  · cases h

/-! ### A compiler that satisfies the assumptions -/

/-- Literals, negative numbers and literals in parentheses are the only expressions. -/
private def R₀ : Rust where
  Ex := Bool × Lit
  expr
    | .lit l :: rest => .ok (false, l) rest
    | .punct '-' :: .lit (.num n) :: rest => .ok (true, .num n) rest
    | .group .paren [.lit l] :: rest => .ok (false, l) rest
    | .punct '-' :: _ => .bad
    | _ => .no
  ofLit := Prod.mk
  toExpr
    | (_, .str s) => some (.string s)
    | (neg, .num n) => some (.number (litNum neg n))
  toValue
    | (_, .str s) => some (.string s)
    | (neg, .num n) => some (.number (litNum neg n))
  toStr
    | (_, .str s) => some s
    | _ => none
  U := .ascii

private theorem sane₀ : Sane R₀ where
  str _ _ _ := rfl
  num neg _ _ _ := by cases neg <;> rfl
  paren us e rest h _ := by
    revert h
    simp only [R₀]
    split
    · rename_i h; cases h
    · rename_i h; cases h
    · rename_i h; cases h; rintro ⟨⟩; rfl
    · nofun
    · nofun
  strExpr _ := rfl
  numExpr _ _ := rfl
  strValue _ := rfl
  numValue _ _ := rfl
  strStr _ := rfl

private def one : TT := .lit (.num (.posInt 1))
private def two : TT := .lit (.num (.posInt 2))

-- `b "l" { a = [null, -1,]  c = { x = 1 "y" = 2 } }` is a document
example : BodyToks R₀
    [.block c!"b" [.string c!"l"] [.attr c!"a" (.array [.null, .number (.negInt (-1))]),
      .attr c!"c" (.object [(.ident c!"x", .number (.posInt 1)), (.expr (.string c!"y"), .number (.posInt 2))])]]
    [.ident c!"b", .lit (.str c!"l"), .group .brace
      [.ident c!"a", .punct '=', .group .bracket [.ident c!"null", .punct ',', .punct '-', one, .punct ','],
       .ident c!"c", .punct '=', .group .brace
        [.ident c!"x", .punct '=', one, .lit (.str c!"y"), .punct '=', two]]] := by
  have hid : ∀ x : Str, isIdent Uni.ascii x = true → IsIdentifier Uni.ascii x :=
    fun x h => (C01_isIdent_iff _ _).mp h
  refine .block (hid _ rfl) (.string .nil) (.attr (hid _ rfl) (.array ?_) (.attr (hid _ rfl)
    (Writes.object (L := exprLang) (es := [(.ident c!"x", .number (.posInt 1)),
      (.expr (.string c!"y"), .number (.posInt 2))]) ?_) .nil)) .nil
  · exact .cons .null (.cons (.num true (.posInt 1)) .nil)
  · have hy : WKey R₀ exprLang (fun e => (R₀.toExpr e).map ObjKey.expr) (.expr (.string c!"y"))
        [.lit (.str c!"y")] := .str rfl
    exact .bare (.ident _) (.num false (.posInt 1)) (.bare hy (.num false (.posInt 2)) .nil trivial) trivial

-- the hypothesis of `C70_identifiers`: `("a b") = 1` expands, and the key is sanitized
example : body R₀ 5 [.group .paren [.lit (.str c!"a b")], .punct '=', one] =
    some [.attr c!"a_b" (.number (.posInt 1))] := rfl

/-! ### What does not hold -/

/-- The value of an attribute of a body cannot be a negative number, nor can the last value of an object;
`attribute!` and arrays accept them. -/
theorem C70_negative_fails :
    (∀ n, body R₀ n [.ident c!"a", .punct '=', .punct '-', one] = none) ∧
    (∀ n, expression R₀ n [.group .brace [.ident c!"a", .punct '=', .punct '-', one]] = none) ∧
    (∃ st, Macro.attr R₀ 5 (.ident c!"a") [.punct '-', one] = some st) ∧
    (∃ e, expression R₀ 5 [.group .bracket [.punct '-', one]] = some e) := by
  refine ⟨fun n => ?_, fun n => ?_, ⟨_, rfl⟩, ⟨_, rfl⟩⟩
  · rcases n with _ | _ | _ | n <;> rfl
  · rcases n with _ | _ | _ | _ | n <;> rfl

/-- A comma in front of the elements of an array is ignored; in the language it is an error. -/
theorem C70_leading_comma_fails :
    expression R₀ 5 [.group .bracket [.punct ',', one]] = some (.array [.number (.posInt 1)]) := rfl

/-- A raw identifier as a label gives a label that is not an identifier. -/
theorem C70_raw_label_fails :
    body R₀ 5 [.ident c!"b", .ident c!"r#in", .group .brace []] = some [.block c!"b" [.ident c!"r#in"] []] ∧
      ¬ IsIdentifier Uni.ascii c!"r#in" := by
  refine ⟨rfl, fun h => ?_⟩
  have := (C01_isIdent_iff _ _).mpr h
  exact absurd this (by decide)

end Verif.Props
