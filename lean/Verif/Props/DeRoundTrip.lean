import Verif.Lemmas.DeRoundTrip
/-!
C64: data that is serialized and deserialized again.
-/

namespace Verif.Props
open Verif.Spec De

variable {E : FmtEnv}

/-- The environment of the examples. -/
private def E0 : FmtEnv := ⟨Uni.ascii, fun _ => []⟩

/-- What `to_expression` makes of the user's data, `T::deserialize` turns back into the same data. -/
theorem C64_expression_partial {t : Ty} {d : Datum} {v : SVal} (h : Impl E.U t d v) (hs : ExprSafe E.U v)
    {st : SerSt} (hst : StOk st) :
    ∃ e, (serialize E .expr v st).1 = .expr e ∧ Deserializes E t (.expr e) d := by
  obtain ⟨e, h1, h2, -⟩ := rt_expr (bd := .release) (cfg := .default) h hs
  exact ⟨e, (serialize_expr hst h1).1, h2⟩

/-- What `to_value` makes of the user's data, `from_value` turns back into the same data. -/
theorem C64_value_partial {t : Ty} {d : Datum} {v : SVal} (h : Impl E.U t d v) (hs : ValueSafe v) (st : SerSt) :
    ∃ w, serialize E .value v st = (.value w, st) ∧ Deserializes E t (.value w) d := by
  obtain ⟨w, h1, h2, -⟩ := rt_value h hs
  refine ⟨w, ?_, h2⟩
  show (SRes.got Got.value _, _) = _
  rw [h1]; rfl

/-! The full claim is false. -/

/-- A newtype struct around a string: `from_value` rejects what `to_value` gives. -/
theorem C64_newtype_fails : ∃ t d v, Impl E0.U t d v ∧
    ∀ st, ∃ w, serialize E0 .value v st = (.value w, st) ∧ Rejected E0 t (.value w) :=
  ⟨.newtype c!"Name" .string, .newtype (.str c!"x"), .newtypeStruct c!"Name" (.str c!"x"), .newtype (.string _),
    fun _ => ⟨.string c!"x", rfl, 2, rfl⟩⟩

/-- A newtype struct around an array of one element: `from_value` gives the element. -/
theorem C64_newtype_array_fails : ∃ t d v, Impl E0.U t d v ∧
    ∀ st, ∃ w d', serialize E0 .value v st = (.value w, st) ∧ Deserializes E0 t (.value w) d' ∧ d' ≠ d :=
  ⟨.newtype c!"W" .value, .newtype (.value (.array [.null])), .newtypeStruct c!"W" (.seq [.unit]),
    .newtype (.value (by simp [Value.WF, Value.WFList]) ⟨trivial, trivial⟩ rfl),
    fun _ => ⟨.array [.null], .newtype (.value .null), rfl, ⟨2, rfl⟩, by simp⟩⟩

/-- `Some(())` and `Some(None)` come back as `None`, from values as well as from expressions. -/
theorem C64_some_null_fails : ∃ t d v, Impl E0.U t d v ∧ ∀ st,
    (∃ w d', serialize E0 .value v st = (.value w, st) ∧ Deserializes E0 t (.value w) d' ∧ d' ≠ d) ∧
    ∃ e d', serialize E0 .expr v st = (.expr e, st) ∧ Deserializes E0 t (.expr e) d' ∧ d' ≠ d :=
  ⟨.option (.option .bool), .some .none, .some .unit, .some (.none _),
    fun _ => ⟨⟨.null, .none, rfl, ⟨1, rfl⟩, by simp⟩, ⟨.null, .none, rfl, ⟨1, rfl⟩, by simp⟩⟩⟩

/-- Infinity is serialized as `null`, which is not accepted for a float. -/
theorem C64_infinity_fails : ∃ t d v, Impl E0.U t d v ∧
    ∀ st, ∃ w, serialize E0 .value v st = (.value w, st) ∧ Rejected E0 t (.value w) :=
  ⟨.f64, .f64 (.inf false), .f64 (.inf false), .f64 _, fun _ => ⟨.null, rfl, 1, rfl⟩⟩

/-- A map whose keys are enum variants: an expression is not read back, but a value is. -/
theorem C64_variant_key_fails : ∃ t d v, Impl E0.U t d v ∧ ∀ st,
    (∃ e, serialize E0 .expr v st = (.expr e, st) ∧ Rejected E0 t (.expr e)) ∧
    ∃ w, serialize E0 .value v st = (.value w, st) ∧ Deserializes E0 t (.value w) d := by
  refine ⟨.map (.enum c!"K" [(c!"A", .unit)]) .unit, .map [(.unitVar 0, .unit)],
    .map [(.unitVariant c!"A", .unit)],
    .map (.cons (.unitVar (by decide) (by decide) rfl) .unit .nil) (by simp),
    fun st => ⟨⟨.object [(.ident c!"A", .null)], rfl, 2, rfl⟩, ⟨.object [(c!"A", .null)], rfl, 2, rfl⟩⟩⟩

/-- Integer keys are serialized in expressions but not in values. -/
theorem C64_integer_key_fails : ∃ t d v, Impl E0.U t d v ∧ ExprSafe E0.U v ∧
    ∀ st, (serialize E0 .value v st).1 = .err :=
  ⟨.map (.uint 8) .unit, .map [(.int 1, .unit)], .map [(.uint 1, .unit)],
    .map (.cons (.uint (n := 1) (by omega) (by omega)) .unit .nil) (by simp), ⟨⟨trivial, trivial⟩, trivial⟩,
    fun _ => rfl⟩

/-! A concrete case: a struct with an optional field, a sequence of enums of all kinds, a map and a field
of type `Expression`. -/

private def kinds : List (Str × VTy) :=
  [(c!"Unit", .unit), (c!"One", .newtype (.sint 32)), (c!"Two", .tuple [.bool, .char]), (c!"Named", .struct [(c!"p", .string)])]

private def sampleTy : Ty := .struct c!"S" [(c!"a", .option (.uint 8)), (c!"b", .seq (.enum c!"K" kinds)),
  (c!"c", .map .string (.tuple [.unit, .string])), (c!"d", .value)]

private def sampleData : Datum := .list [.some (.int 7),
  .list [.unitVar 0, .var 1 (.int (-3)), .var 2 (.list [.bool true, .char 'x']), .var 3 (.list [.str c!"q"])],
  .map [(.str c!"k", .list [.unit, .str c!"v"]), (.str c!"l", .list [.unit, .str c!"w"])],
  .value (.array [.null, .bool false])]

private def sampleSVal : SVal := .struct c!"S" [(c!"a", .some (.uint 7)),
  (c!"b", .seq [.unitVariant c!"Unit", .newtypeVariant c!"One" (.int (-3)),
    .tupleVariant c!"Two" [.bool true, .char 'x'], .structVariant c!"Named" [(c!"p", .str c!"q")]]),
  (c!"c", .map [(.str c!"k", .seq [.unit, .str c!"v"]), (.str c!"l", .seq [.unit, .str c!"w"])]),
  (c!"d", .seq [.unit, .bool false])]

private theorem sample_impl : Impl Uni.ascii sampleTy sampleData sampleSVal := by
  have hk : (kinds.map Prod.fst).Nodup := by decide
  refine .struct (by decide) (by decide) (by decide) (.cons (.some (.uint (n := 7) (by omega) (by omega))) (.cons (.seq ?_)
    (.cons (.map ?_ (by simp)) (.cons (.value (by simp [Value.WF, Value.WFList]) ⟨trivial, trivial, trivial⟩ rfl) .nil))))
  · exact .cons (.unitVar (by decide) hk rfl) (.cons (.newtypeVar (by decide) hk rfl (.sint (by omega) (by omega) (by omega)))
      (.cons (.tupleVar (by decide) hk rfl (.cons (.bool _) (.cons (.char _) .nil)))
        (.cons (.structVar (by decide) hk rfl (by decide) (.cons (.string _) .nil)) .nil)))
  · exact .cons (.string _) (.tuple (.cons .unit (.cons (.string _) .nil)))
      (.cons (.string _) (.tuple (.cons .unit (.cons (.string _) .nil))) .nil)

example : ∃ e, (serialize E0 .expr sampleSVal .initial).1 = .expr e ∧ Deserializes E0 sampleTy (.expr e) sampleData :=
  C64_expression_partial (E := E0) sample_impl (by
    simp [sampleSVal, ExprSafe, ExprSafeFields, ExprSafeField, ExprSafeAll, ExprSafeEntries, ExprSafeEntry, ExprKey,
      nullLike]
    exact (C01_isIdent_iff _ _).1 rfl) stOk_initial

example : ∃ w, serialize E0 .value sampleSVal .initial = (.value w, .initial) ∧ Deserializes E0 sampleTy (.value w) sampleData :=
  C64_value_partial (E := E0) sample_impl (by
    simp [sampleSVal, ValueSafe, ValueSafeFields, ValueSafeField, ValueSafeAll, ValueSafeEntries, ValueSafeEntry, ValueKey,
      nullLike]) _

end Verif.Props
