import Verif.Lemmas.Portable
/-!
C66, C67 and C68: what is accepted from values, expressions and documents, and what is rejected.
-/

namespace Verif.Props
open P Gram Verif.Spec De Syn

variable {E : FmtEnv}

/-! ### C67 -/

/-- `from_value` accepts a value for a type as a datum exactly if `Reads` says so. -/
theorem C67_value {t : Ty} (ht : UserTy t) {v : Value} (hw : v.WF) (hn : NumbersOk v) (d : Datum) :
    Deserializes E t (.value v) d ↔ Reads E.U t v d :=
  ⟨fun ⟨n, h⟩ => reads_sound n ht hw hn h, fun h => reads_complete h ht hw hn⟩

/-- Every other value is rejected with an error; in particular `from_value` always returns. -/
theorem C67_value_rejected {t : Ty} (ht : UserTy t) {v : Value} (hw : v.WF) (hn : NumbersOk v) :
    Rejected E t (.value v) ↔ ∀ d, ¬ Reads E.U t v d := by
  constructor
  · intro h d hd
    exact (reads_complete hd ht hw hn).not_rejected h
  · intro h
    rcases accepted_or_rejected (E := E) ht hw hn with ⟨d, hd⟩ | h'
    · exact absurd ((C67_value ht hw hn d).1 hd) (h d)
    · exact h'

private def E3 : FmtEnv := ⟨Uni.ascii, fun _ => []⟩

/-- `struct S { a: i8, b: Option<char>, c: Vec<V> }` with `enum V { Unit, New(bool), Tuple((), String),
Struct { x: BTreeMap<String, u16> } }`. -/
private def vTy : Ty := .enum c!"V" [(c!"Unit", .unit), (c!"New", .newtype .bool), (c!"Tuple", .tuple [.unit, .string]),
  (c!"Struct", .struct [(c!"x", .map .string (.uint 16))])]

private def sTy : Ty := .struct c!"S" [(c!"a", .sint 8), (c!"b", .option .char), (c!"c", .seq vTy)]

private def sVal : Value := .object [(c!"c", .array [.string c!"Unit", .object [(c!"New", .bool true)],
    .object [(c!"Tuple", .array [.null, .string c!"s"])],
    .object [(c!"Struct", .object [(c!"x", .object [(c!"k", .number (.posInt 7))])])]]),
  (c!"a", .number (.negInt (-5))), (c!"more", .null)]

private def sDatum : Datum := .list [.int (-5), .none,
  .list [.unitVar 0, .var 1 (.bool true), .var 2 (.list [.unit, .str c!"s"]),
    .var 3 (.list [.map [(.str c!"k", .int 7)]])]]

private theorem sTy_user : UserTy sTy := by
  refine ⟨by decide, trivial, trivial, ⟨by decide, by decide, ?_⟩, trivial⟩
  exact ⟨trivial, trivial, ⟨trivial, trivial, trivial⟩, ⟨by decide, ⟨trivial, trivial⟩, trivial⟩, trivial⟩

private theorem sVal_wf : sVal.WF := by
  simp only [sVal, Value.WF, Value.WFObj, Value.WFList]; decide

private theorem sVal_numbers : NumbersOk sVal := by
  simp [sVal, NumbersOk, NumbersOkAll, NumbersOkEntries, NumbersOkEntry, WellFormed]

/-! The hypotheses hold, and a value with an object, an array, all kinds of variants, an unknown field and a
missing `Option` is accepted. -/
example : Deserializes E3 sTy (.value sVal) sDatum := by
  rw [C67_value sTy_user sVal_wf sVal_numbers]
  refine .struct (.found (v := .number (.negInt (-5))) (by simp) (.sint rfl (by omega) (by omega)) (.missing (by decide)
    (.found (v := .array _) (List.mem_cons_self ..) (.seq (.cons (.unitVar rfl) (.cons (.newtypeVar rfl (.bool true))
      (.cons (.tupleVar rfl (.cons .unit (.cons (.string _) .nil))) (.cons (.structVar rfl (.found (List.mem_cons_self ..)
        (.map (.cons (.string _) (.uint rfl (by omega) (by omega)) .nil)) .nil)) .nil))))) .nil)))

/-! An integer that does not fit, a string of two characters, a missing field and an unknown variant are
rejected. -/
example : Rejected E3 (.sint 8) (.value (.number (.posInt 128))) := by
  refine (C67_value_rejected (by trivial) (by trivial) (by simp [NumbersOk, WellFormed])).2 ?_
  intro d h
  cases h with
  | sint h1 h2 h3 =>
    cases h1
    exact absurd h3 (by omega)

example : Rejected E3 .char (.value (.string c!"ab")) := by
  refine (C67_value_rejected (by trivial) (by trivial) (by trivial)).2 ?_
  intro d h
  cases h

example : Rejected E3 (.struct c!"S" [(c!"a", .bool)]) (.value (.object [(c!"b", .bool true)])) := by
  refine (C67_value_rejected (by exact ⟨by decide, trivial, trivial⟩) (by exact ⟨by decide, trivial, trivial⟩)
    (by exact ⟨trivial, trivial⟩)).2 ?_
  intro d h
  cases h with
  | struct h =>
    cases h with
    | found hm => simp at hm

/-! ### C68 -/

/-- `T::deserialize` accepts an expression for a type as a datum exactly if `ReadsE` says so. -/
theorem C68_expression {t : Ty} (ht : UserTy t) {e : Expr} (hc : Clean e) (d : Datum) :
    Deserializes E t (.expr e) d ↔ ReadsE E t e d :=
  ⟨fun ⟨n, h⟩ => (readsE_sound n).1 ht hc h, fun h => readsE_complete h ht hc⟩

/-- Every other expression is rejected. -/
theorem C68_expression_rejected {t : Ty} (ht : UserTy t) {e : Expr} (hc : Clean e) :
    Rejected E t (.expr e) ↔ ∀ d, ¬ ReadsE E t e d := by
  constructor
  · intro h d hd
    exact (readsE_complete hd ht hc).not_rejected h
  · intro h
    rcases accepted_or_rejectedE (E := E) ht e with ⟨d, hd⟩ | h'
    · exact absurd ((C68_expression ht hc d).1 hd) (h d)
    · exact h'

/-- An expression is never accepted as two different data, and what `ReadsE` says is what one gets. -/
theorem C68_unique {t : Ty} (ht : UserTy t) {e : Expr} (hc : Clean e) {d : Datum} (h : ReadsE E t e d) :
    ∀ d', Deserializes E t (.expr e) d' ↔ d' = d :=
  fun _ => ⟨fun h' => h'.unique (readsE_complete h ht hc), fun he => he ▸ readsE_complete h ht hc⟩

/-- Without any condition on the expression: it is either accepted or rejected, deserializing ends. -/
theorem C68_ends {t : Ty} (ht : UserTy t) (e : Expr) :
    (∃ d, Deserializes E t (.expr e) d) ∨ Rejected E t (.expr e) :=
  accepted_or_rejectedE ht e

/-- Every expression is accepted as a `String`: as its text. -/
theorem C68_string (e : Expr) (d : Datum) : Deserializes E .string (.expr e) d ↔ d = .str (textOf E e) := by
  have h : Deserializes E .string (.expr e) (.str (textOf E e)) := ⟨1, by
    change visit E (de E 0) .string (exprString E e) = _
    rw [exprString_text]; rfl⟩
  exact ⟨fun h' => h'.unique h, fun he => he ▸ h⟩

/-- An operation (a conditional, a call, a `for` expression, a traversal, a unary or binary operation or a heredoc) is
accepted for a type exactly if `ReadsOp` says so: as text, as a struct or map of its parts, or as a variant with these
parts. -/
theorem C68_parts {t : Ty} (ht : UserTy t) {e : Expr} {ps : List (Str × Src)}
    (hp : partsOf e = some ps) (d : Datum) : Deserializes E t (.expr e) d ↔ ReadsOp E e ps t d :=
  ⟨fun ⟨n, h⟩ => op_sound hp n ht h, fun h => op_complete hp h ht⟩

/-- A quoted template is accepted as its text, and as a variant `QuotedString` of it. -/
theorem C68_quoted {t : Ty} (ht : UserTy t) (s : Str) (d : Datum) :
    Deserializes E t (.expr (.template (.quoted s))) d ↔ ReadsQuoted E s t d :=
  ⟨fun ⟨n, h⟩ => quoted_sound n ht h, fun h => quoted_complete h ht⟩

/-! `c ? "x" : 2` as a `struct S { true_expr: String, false_expr: u8, key_expr: Option<bool> }`. -/
example (d : Datum) : Deserializes E3 (.struct c!"S" [(c!"true_expr", .string), (c!"false_expr", .uint 8),
    (c!"key_expr", .option .bool)]) (.expr (.cond (.var c!"c") (.string c!"x") (.number (.posInt 2)))) d ↔
    d = .list [.str c!"x", .int 2, .none] := by
  have h : Deserializes E3 (.struct c!"S" [(c!"true_expr", .string), (c!"false_expr", .uint 8),
      (c!"key_expr", .option .bool)]) (.expr (.cond (.var c!"c") (.string c!"x") (.number (.posInt 2))))
      (.list [.str c!"x", .int 2, .none]) := by
    refine (C68_parts (by exact ⟨by decide, trivial, trivial, trivial, trivial⟩) rfl _).2 ?_
    exact .struct (.cons (.inl ⟨.expr (.string c!"x"), by simp, (C68_string _ _).2 rfl⟩)
      (.cons (.inl ⟨.expr (.number (.posInt 2)), by simp, 1, rfl⟩) (.cons (.inr ⟨by simp, rfl, _, rfl⟩) .nil)))
  exact ⟨fun h' => h'.unique h, fun he => he ▸ h⟩

/-! `-a` as `enum Op { Binary(()), Unary { operator: String, expr: String } }`; a conditional is no variant. -/
example (d : Datum) : Deserializes E3 (.enum c!"Op" [(c!"Binary", .newtype .unit), (c!"Unary", .struct
    [(c!"operator", .string), (c!"expr", .string)])]) (.expr (.unary .neg (.var c!"a"))) d ↔
    d = .var 1 (.list [.str c!"-", .str c!"${a}"]) := by
  have h : Deserializes E3 (.enum c!"Op" [(c!"Binary", .newtype .unit), (c!"Unary", .struct
      [(c!"operator", .string), (c!"expr", .string)])]) (.expr (.unary .neg (.var c!"a")))
      (.var 1 (.list [.str c!"-", .str c!"${a}"])) := by
    refine (C68_parts (by exact ⟨by decide, by decide, trivial, ⟨by decide, trivial, trivial, trivial⟩, trivial⟩) rfl _).2 ?_
    exact .enum rfl (.structVar rfl (.cons (.inl ⟨.str c!"-", by simp, 1, rfl⟩)
      (.cons (.inl ⟨.expr (.var c!"a"), by simp, (C68_string _ _).2 rfl⟩) .nil)))
  exact ⟨fun h' => h'.unique h, fun he => he ▸ h⟩

example (e a b : Expr) : Rejected E3 (.enum c!"Op" [(c!"Binary", .newtype .unit)]) (.expr (.cond e a b)) := by
  refine (C68_expression_rejected (by exact ⟨by decide, by decide, trivial, trivial⟩) (by trivial)).2 ?_
  intro d h
  cases h with
  | op hp h =>
    cases h with
    | enum hx => cases hx

/-! `"a${b}"` as `Some` of a `String`. -/
example : Deserializes E3 (.option .string) (.expr (.template (.quoted c!"a${b}"))) (.some (.str c!"a${b}")) :=
  (C68_quoted (by trivial) _ _).2 (.some (.text .string))

/-- A document is read like the expression it stands for, for every user type that is not an `Option` or text. -/
theorem C68_document {t : Ty} (hu : UserTy t) (ho : ∀ u, t ≠ .option u) (hc : t ≠ .char) (hs : t ≠ .string)
    (hi : t ≠ .ident) (b : List Struct) (d : Datum) :
    Deserializes E t (.doc b) d ↔ Deserializes E t (.expr (bodyToJson b)) d := by
  by_cases hg : t = .ignored
  · subst hg
    have hd : Deserializes E .ignored (.doc b) .unit := .of_eventually (by
      filter_upwards [ignored_any (E := E) (bodyToJson b)] with n hn
      exact hn)
    constructor
    · rintro ⟨n, h⟩
      exact ignored_unit h ▸ des_ignored_expr _
    · rintro ⟨n, h⟩
      exact ignored_unit h ▸ hd
  have h : ∀ n, de E n t (.doc b) = de E n t (.expr (bodyToJson b)) := by
    intro n
    cases n with
    | zero => rfl
    | succ n =>
      obtain ⟨es, he⟩ : ∃ es, bodyToJson b = .object es := ⟨_, rfl⟩
      cases t with
      | ignored => exact absurd rfl hg
      | newtype x u =>
        change visit E (de E n) _ (ask E (.doc b) (.newtype x)) = visit E (de E n) _ (exprAsk E (bodyToJson b) (.newtype x))
        simp only [ask, if_neg hu.1]
      | option u => exact absurd rfl (ho u)
      | char => exact absurd rfl hc
      | string => exact absurd rfl hs
      | ident => exact absurd rfl hi
      | unOp => exact absurd hu id
      | binOp => exact absurd hu id
      | strip => exact absurd hu id
      | expr => exact absurd hu id
      | body => exact absurd hu id
      | enum x vs => rfl
      | _ =>
        simp only [de, want, ask, he]
        rfl
  unfold Deserializes
  simp only [h]

/-- Text is never read from a document. -/
theorem C68_document_text_fails {t : Ty} (ht : t = .char ∨ t = .string ∨ t = .ident) (b : List Struct) :
    Rejected E t (.doc b) := by
  refine ⟨1, ?_⟩
  obtain ⟨es, he⟩ : ∃ es, bodyToJson b = .object es := ⟨_, rfl⟩
  rcases ht with rfl | rfl | rfl <;>
    (change visit E (de E 0) _ (exprAny E (bodyToJson b)) = _; rw [he]; rfl)

/-- An `Option` is never read from a document. -/
theorem C68_document_option_fails (t : Ty) (b : List Struct) : Rejected E (.option t) (.doc b) := by
  refine ⟨1, ?_⟩
  obtain ⟨es, he⟩ : ∃ es, bodyToJson b = .object es := ⟨_, rfl⟩
  change visit E (de E 0) _ (exprAny E (bodyToJson b)) = _
  rw [he]; rfl

private theorem fieldKey_ident (x : Str) : FieldKey E (.ident x) := .inl ⟨x, rfl⟩

private theorem fieldKey_string (x : Str) : FieldKey E (.expr (.string x)) := .inl ⟨x, rfl⟩

private theorem denotes_ident {ns : List Str} {s x : Str} : Denotes E ns (.ident s) x ↔ s = x ∧ x ∈ ns := by
  constructor
  · rintro (⟨h1, h2⟩ | ⟨h1, h2⟩)
    exact ⟨Option.some.inj h1, h2⟩
  · rintro ⟨rfl, h⟩
    exact .text rfl h

private def sExpr : Expr := .object [(.ident c!"c", .array [.string c!"Unit", .object [(.ident c!"Unit", .null)],
    .object [(.expr (.string c!"New"), .bool true)],
    .object [(.ident c!"Tuple", .array [.null, .var c!"s"])],
    .object [(.ident c!"Struct", .object [(.ident c!"x", .object [(.ident c!"k", .number (.posInt 7))])])]]),
  (.expr (.string c!"a"), .number (.negInt (-5))), (.ident c!"more", .null)]

private theorem sExpr_ok : Clean sExpr := by
  simp [sExpr, Clean, CleanList, CleanEntries, CleanEntry, CleanKey, WellFormed]

/-! The hypotheses hold, with identifiers and strings as keys, all kinds of variants, a variable as text, an unknown
field and a missing `Option`. -/
example : Deserializes E3 sTy (.expr sExpr) (.list [.int (-5), .none,
    .list [.unitVar 0, .unitVar 0, .var 1 (.bool true), .var 2 (.list [.unit, .str c!"${s}"]),
      .var 3 (.list [.map [(.str c!"k", .int 7)]])]]) := by
  rw [C68_expression sTy_user sExpr_ok]
  refine .struct (by simp [FieldsOnce, fieldKey_ident, fieldKey_string, denotes_ident, denotes_string])
    (.found (k := .expr (.string _)) (e := .number (.negInt (-5))) (by simp) (.text rfl (by simp))
    (.sint rfl (by omega) (by omega)) (.missing (by simp [denotes_ident, denotes_string])
    (.found (k := .ident _) (e := .array _) (List.mem_cons_self ..) (.text rfl (by simp)) (.seq (.cons (.unitVar rfl)
      (.cons (.unitVarNull (.text rfl (by simp)) rfl) (.cons (.newtypeVar (x := c!"New") (.text rfl (by simp)) rfl (.bool true))
      (.cons (.tupleVar (.text rfl (by simp)) rfl (.cons .unit (.cons (.string (.var c!"s")) .nil)))
      (.cons (.structVar (.text rfl (by simp)) rfl (by simp [FieldsOnce, fieldKey_ident])
        (.found (k := .ident _) (List.mem_cons_self ..) (.text rfl (by simp))
        (.map (.cons (.string rfl) (.uint rfl (by omega) (by omega)) .nil)) .nil)) .nil)))))) .nil)))

/-! Numbers in parentheses are not numbers for the types of Rust. -/
example : Rejected E3 (.sint 64) (.expr (.paren (.number (.posInt 1)))) := by
  refine (C68_expression_rejected (by trivial) (by simp [Clean, WellFormed])).2 ?_
  intro d h
  cases h with
  | op hp => cases hp

/-! Keys that repeat each other as names: `{ a = 1, "a" = 2 }` is rejected for a struct with a field `a`, and accepted
for one without. -/
example : Rejected E3 (.struct c!"S" [(c!"a", .uint 8)])
    (.expr (.object [(.ident c!"a", .number (.posInt 1)), (.expr (.string c!"a"), .number (.posInt 2))])) := by
  refine (C68_expression_rejected (by exact ⟨by decide, trivial, trivial⟩)
    (by simp [Clean, CleanEntries, CleanEntry, CleanKey, WellFormed])).2 ?_
  intro d h
  cases h with
  | struct ho _ => simp [FieldsOnce, denotes_ident, denotes_string] at ho
  | op hp => cases hp

example (d : Datum) : Deserializes E3 (.struct c!"S" [(c!"b", .uint 8)])
    (.expr (.object [(.ident c!"a", .number (.posInt 1)), (.expr (.string c!"a"), .number (.posInt 2)),
      (.ident c!"b", .number (.posInt 3))])) d ↔ d = .list [.int 3] :=
  C68_unique (by exact ⟨by decide, trivial, trivial⟩)
    (by simp [Clean, CleanEntries, CleanEntry, CleanKey, WellFormed]) (.struct (by
      simp [FieldsOnce, fieldKey_ident, fieldKey_string, denotes_ident, denotes_string])
      (.found (k := .ident c!"b") (e := .number (.posInt 3)) (by simp) (.text rfl (by simp)) (.uint rfl (by omega) (by omega))
      .nil)) d

/-! Computed keys: `{ (x) = 1 }` has the key `${x}`, `{ 1 = true }` is a map with the key 1, and a struct by position. -/
example (d : Datum) : Deserializes E3 (.map .string (.uint 8))
    (.expr (.object [(.expr (.paren (.var c!"x")), .number (.posInt 1))])) d ↔ d = .map [(.str c!"${x}", .int 1)] :=
  C68_unique (by exact ⟨trivial, trivial⟩) (by simp [Clean, CleanEntries, CleanEntry, CleanKey, WellFormed])
    (.map (.cons (.string rfl) (.uint rfl (by omega) (by omega)) .nil)) d

example (d : Datum) : Deserializes E3 (.map (.uint 8) .bool)
    (.expr (.object [(.expr (.number (.posInt 1)), .bool true)])) d ↔ d = .map [(.int 1, .bool true)] :=
  C68_unique (by exact ⟨trivial, trivial⟩) (by simp [Clean, CleanEntries, CleanEntry, CleanKey, WellFormed])
    (.map (.cons (.data (t := .uint 8) (e := .number (.posInt 1)) trivial trivial (.uint rfl (by omega) (by omega))) (.bool true) .nil)) d

example (d : Datum) : Deserializes E3 (.struct c!"S" [(c!"a", .option .unit), (c!"b", .bool)])
    (.expr (.object [(.expr (.number (.posInt 1)), .bool true)])) d ↔ d = .list [.none, .bool true] :=
  C68_unique (by exact ⟨by decide, trivial, trivial, trivial⟩)
    (by simp [Clean, CleanEntries, CleanEntry, CleanKey, WellFormed])
    (.struct ⟨by simp only [List.mem_singleton, forall_eq]; exact .inr ⟨_, 1, rfl, rfl⟩, by simp⟩
      (.missing (by
        simp only [List.mem_singleton, forall_eq]
        intro h
        cases h with
        | text h => cases h
        | pos h h' => cases h; cases h')
      (.found (k := .expr _) (List.mem_cons_self ..) (.pos rfl rfl) (.bool true) .nil))) d

/-! A key that is no text: `Value` rejects `{ 1 = true }`. -/
example : Rejected E3 .value (.expr (.object [(.expr (.number (.posInt 1)), .bool true)])) := by
  refine (C68_expression_rejected (by trivial) (by simp [Clean, CleanEntries, CleanEntry, CleanKey, WellFormed])).2 ?_
  intro d h
  cases h with
  | value h => cases h
  | op hp => cases hp

/-! With an operation: `f(1)` as a `String`, in a struct. -/
example : ∀ d, Deserializes E3 (.struct c!"S" [(c!"a", .string)])
    (.expr (.object [(.ident c!"a", .call ⟨[], c!"f"⟩ [.bool true] false)])) d ↔ d = .list [.str c!"${f(true)}"] :=
  C68_unique (by exact ⟨by decide, trivial, trivial⟩)
    (by exact ⟨⟨trivial, trivial⟩, trivial⟩) (.struct (by simp [FieldsOnce, fieldKey_ident])
      (.found (k := .ident c!"a") (List.mem_cons_self ..) (.text rfl (by simp))
      (.string (.call ⟨[], c!"f"⟩ [.bool true] false)) .nil))

example : ∃ d, Deserializes E3 (.map .string .bool) (.doc [.attr c!"a" (.bool true)]) d :=
  ⟨.map [(.str c!"a", .bool true)],
    (C68_document (t := .map .string .bool) ⟨trivial, trivial⟩ nofun nofun nofun nofun _ _).2 (readsE_complete (.map (.cons (.string rfl) (.bool true) .nil))
      ⟨trivial, trivial⟩ ⟨⟨trivial, trivial⟩, trivial⟩)⟩

/-! ### C66 -/

/-- What is accepted from a value is accepted, as the same, from the expression that stands for the value. -/
theorem C66_partial {t : Ty} (ht : UserTy t) (hp : Portable t) {v : Value} (hw : v.WF) (hn : NumbersOk v) {d : Datum}
    (h : Deserializes E t (.value v) d) : Deserializes E t (.expr (ofValue v)) d :=
  readsE_complete (portable ((C67_value ht hw hn d).1 h) hp hw) ht (ofValue_clean v hw hn)

example : UserTy (.struct c!"S" [(c!"a", .option (.sint 8)), (c!"c", .map .string (.enum c!"V" [(c!"U", .unit),
    (c!"N", .newtype .bool)]))]) ∧ Portable (.struct c!"S" [(c!"a", .option (.sint 8)), (c!"c", .map .string
      (.enum c!"V" [(c!"U", .unit), (c!"N", .newtype .bool)]))]) :=
  ⟨⟨by decide, trivial, ⟨trivial, by decide, by decide, trivial, trivial, trivial⟩, trivial⟩,
    trivial, ⟨trivial, trivial, trivial⟩, trivial⟩

/-- The full claim is false for newtype structs: those are an array in a value, and what is in them in an
expression. -/
theorem C66_newtype_fails : ∃ t v d, Deserializes E t (.value v) d ∧ Rejected E t (.expr (ofValue v)) :=
  ⟨.newtype c!"N" .bool, .array [.bool true], .newtype (.bool true), ⟨2, rfl⟩, ⟨2, rfl⟩⟩

/-- The full claim is false for struct variants: an array is accepted only in a value. -/
theorem C66_struct_variant_fails : ∃ t v d, Deserializes E t (.value v) d ∧ Rejected E t (.expr (ofValue v)) :=
  ⟨.enum c!"V" [(c!"S", .struct [(c!"x", .bool)])], .object [(c!"S", .array [.bool true])],
    .var 0 (.list [.bool true]), ⟨2, rfl⟩, ⟨2, rfl⟩⟩

/-- The full claim is false for maps whose keys are enums: those are accepted only in a value. -/
theorem C66_enum_key_fails : ∃ t v d, Deserializes E t (.value v) d ∧ Rejected E t (.expr (ofValue v)) :=
  ⟨.map (.enum c!"V" [(c!"U", .unit)]) .bool, .object [(c!"U", .bool true)],
    .map [(.unitVar 0, .bool true)], ⟨2, rfl⟩, ⟨2, rfl⟩⟩

/-- Conversely, an expression accepts more: a boolean is text in an expression, but not in a value. -/
theorem C66_converse_fails : ∃ t v d, Rejected E t (.value v) ∧ Deserializes E t (.expr (ofValue v)) d :=
  ⟨.string, .bool true, .str c!"${true}", ⟨1, rfl⟩, ⟨1, rfl⟩⟩

end Verif.Props
