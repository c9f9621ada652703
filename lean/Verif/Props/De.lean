import Verif.Lemmas.DeValue
/-!
C62: this crate's own trees are deserialized unchanged. C63: values deserialized from expressions and
documents.
-/

namespace Verif.Props
open Verif.Spec De

variable {E : FmtEnv}

/-- The environment of the examples. -/
private def E0 : FmtEnv := ⟨Uni.ascii, fun _ => []⟩

/-! ### C62 -/

/-- `Value::deserialize` from a value gives that value. -/
theorem C62_value {v : Value} (hw : v.WF) (hn : NumbersOk v) : Deserializes E .value (.value v) (.value v) :=
  des_value_same hw hn

/-- `Expression::deserialize` from an expression gives that expression. -/
theorem C62_expression {e : Expr} (h : Sound E.U e) : Deserializes E .expr (.expr e) (.expr e) := des_same h

/-- `Body::deserialize` from a document (`from_str`, `from_body`) gives its body. -/
theorem C62_body {b : List Struct} (h : SoundBody E.U b) : Deserializes E .body (.doc b) (.body b) :=
  des_doc_body h

/-- `Expression::deserialize` from a document gives the same as `Expression::from` of its body. -/
theorem C62_document_expression {b : List Struct} (h : SoundBody E.U b) :
    Deserializes E .expr (.doc b) (.expr (bodyToJson b)) := des_doc_expr (des_same (sound_bodyToJson h))

/-- The result of a deserialization is determined, for every type and every input: there is at most one,
and it is not an error as well. -/
theorem C62_determined {t : Ty} {s : Src} {d : Datum} (h : Deserializes E t s d) :
    (∀ d', Deserializes E t s d' → d' = d) ∧ ¬ Rejected E t s :=
  ⟨fun _ h' => h'.unique h, h.not_rejected⟩

/-- The hypothesis is needed: an identifier made with `Identifier::unchecked` that is none is rejected. -/
theorem C62_unchecked_fails {x : Str} (h : ¬ IsIdentifier E.U x) : Rejected E .expr (.expr (.var x)) := by
  have hx : Ident.tryNew E.U x = none := by
    have : isIdent E.U x = false := by rw [← Bool.not_eq_true, C01_isIdent_iff]; exact h
    simp [Ident.tryNew, this]
  refine ⟨2, ?_⟩
  show DRes.map _ (visitExpr E (de E 1) (.enum (.str c!"Variable") (.expr (.var x)))) = _
  have : visitStr (Ident.tryNew E.U) Datum.str (.str x) = .err := by rw [visitStr, hx]; rfl
  have h2 : newtypeVariant (de E 1) .ident (.expr (.var x)) = .err := this
  simp only [visitExpr, visitEnum]
  show DRes.map _ (DRes.bind (variantContent E (de E 1) 7 (.expr (.var x)) (.newtype .ident)) _) = _
  rw [variantContent, h2]; rfl

/-- An expression with every kind of operator and all kinds of parts. -/
private def sample : Expr :=
  .cond (.binary (.traversal (.var c!"a") [.getAttr c!"b", .fullSplat, .index (.string c!"c"), .legacyIndex 3])
      .eq (.unary .neg (.number (.posInt 1))))
    (.forE (some c!"k") c!"v" (.call ⟨[c!"n"], c!"f"⟩ [.var c!"x"] true) (some (.var c!"k")) (.paren (.var c!"v"))
      true (some (.bool true)))
    (.object [(.ident c!"p", .array [.null]), (.expr (.template (.heredoc c!"EOT" c!"${q}" .indent)), .string c!"r")])

private theorem ident_ascii {x : Str} (h : isIdent Uni.ascii x = true) : IsIdentifier Uni.ascii x :=
  (C01_isIdent_iff _ _).1 h

private theorem sample_sound : Sound Uni.ascii sample := by
  simp only [sample, Sound, SoundOps, SoundOp, SoundOpt, SoundList, SoundEntries, SoundKey, SoundTmpl,
    KeysDiffer, WellFormed, List.forall_mem_singleton, and_true, true_and,
    Option.some.injEq, forall_eq', List.pairwise_pair]
  refine ⟨⟨⟨ident_ascii rfl, ident_ascii rfl, by decide⟩, by decide⟩,
    ⟨ident_ascii rfl, ident_ascii rfl, ⟨ident_ascii rfl, ident_ascii rfl, ident_ascii rfl⟩, ident_ascii rfl,
      ident_ascii rfl⟩, ⟨ident_ascii rfl, ident_ascii rfl⟩, by decide⟩

example : Deserializes E0 .expr (.expr sample) (.expr sample) := C62_expression (E := E0) sample_sound

example : Deserializes E0 .body
    (.doc [.block c!"b" [.ident c!"l", .string c!"m"] [.attr c!"a" sample], .attr c!"c" .null])
    (.body [.block c!"b" [.ident c!"l", .string c!"m"] [.attr c!"a" sample], .attr c!"c" .null]) :=
  C62_body (E := E0) ⟨⟨ident_ascii rfl, by
    simp only [List.mem_cons, List.not_mem_nil, or_false, forall_eq_or_imp, forall_eq, SoundLabel, and_true]
    exact ident_ascii rfl, ⟨ident_ascii rfl, sample_sound⟩, trivial⟩, ⟨ident_ascii rfl, trivial⟩, trivial⟩

example : Deserializes E0 .value (.value (.object [(c!"a", .array [.null, .number (.negInt (-3))]), (c!"b", .bool true)]))
    (.value (.object [(c!"a", .array [.null, .number (.negInt (-3))]), (c!"b", .bool true)])) :=
  C62_value (by simp only [Value.WF, Value.WFObj, Value.WFList]; exact ⟨by decide, by simp⟩)
    ⟨⟨trivial, ⟨by omega, by omega⟩, trivial⟩, trivial, trivial⟩

/-! ### C63 -/

/-- `Value::deserialize` from an expression gives the same as `Value::from`, as long as the keys of its
objects are identifiers or strings. -/
theorem C63_expression_partial {e : Expr} (h : Named e) :
    Deserializes E .value (.expr e) (.value (toValue E e)) := des_named h

/-- The same for a document and `Value::from` of its body. -/
theorem C63_document_partial {b : List Struct} (h : NamedBody b) :
    Deserializes E .value (.doc b) (.value (toValue E (bodyToJson b))) := des_doc_value h

/-- The full claim is false: with a number, a boolean or `null` as a key, which `Value::from` turns into
text, deserialization fails. -/
theorem C63_scalar_key_fails {k : Expr} (hk : k = .null ∨ (∃ b, k = .bool b) ∨ ∃ n, k = .number n)
    (v : Expr) (es : List (ObjKey × Expr)) : Rejected E .value (.expr (.object ((.expr k, v) :: es))) := by
  refine ⟨2, ?_⟩
  rcases hk with rfl | ⟨b, rfl⟩ | ⟨n, rfl⟩
  · rfl
  · rfl
  · cases n <;> rfl

/-- The full claim is false: a key that is a variable, which `Value::from` turns into its name, comes out
of a deserialization in template syntax. -/
theorem C63_variable_key_fails : toValue E0 (.object [(.expr (.var c!"x"), .null)]) = .object [(c!"x", .null)] ∧
    Deserializes E0 .value (.expr (.object [(.expr (.var c!"x"), .null)])) (.value (.object [(c!"${x}", .null)])) :=
  ⟨by rfl, 2, by rfl⟩

/-- Expressions are not deserialized from values: of those that are not strings or objects, none is
accepted. -/
theorem C63_expression_from_value_fails {v : Value} (h : (∀ s, v ≠ .string s) ∧ ∀ es, v ≠ .object es) :
    Rejected E .expr (.value v) := by
  cases v with
  | string s => exact absurd rfl (h.1 s)
  | object es => exact absurd rfl (h.2 es)
  | _ => exact ⟨1, rfl⟩

example : Deserializes E0 .value (.doc [.attr c!"a" (.object [(.ident c!"k", .var c!"x"), (.expr (.string c!"l"),
      .paren (.number (.posInt 2)))]), .block c!"b" [.ident c!"c"] [.attr c!"d" .null]])
    (.value (.object [(c!"a", .object [(c!"k", .string c!"${x}"), (c!"l", .number (.posInt 2))]),
      (c!"b", .object [(c!"c", .object [(c!"d", .null)])])])) := by
  refine C63_document_partial (E := E0) ?_
  simp [NamedBody, NamedStruct, Named, NamedEntries, NamedKey, WellFormed]

end Verif.Props
