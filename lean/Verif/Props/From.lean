import Verif.Lemmas.From
/-!
C87: conversions of Rust data into values and expressions.
-/

namespace Verif.Spec

variable {E : FmtEnv}

/-- **C87**: for every data, whatever was serialized before, `to_value` gives what `Value::from` gives,
`to_expression` what `Expression::from` gives, and neither leaves a trace. -/
theorem C87_serialize {x : Native} (h : Native.Ok x) (st : SerSt) :
    serialize E .value x.sval st = (.value x.intoValue, st) ∧
      serialize E .expr x.sval st = (.expr x.intoExpr, st) := by
  constructor
  · show (SRes.got Got.value _, _) = _
    rw [native_value E x h]; rfl
  · show (SRes.got Got.expr (withInternal _ st).1, (withInternal _ st).2) = _
    rw [native_expr E x h]; rfl

/-- **C87**: it makes no difference whether the data is converted into a value directly or by way of an
expression. -/
theorem C87_by_way (x : Native) : toValue E x.intoExpr = x.intoValue := native_toValue E x

/-- **C87**: the value is well formed: no object has a key twice, and its numbers are well formed. -/
theorem C87_well_formed {x : Native} (h : Native.Ok x) : x.intoValue.WF ∧ NumbersOk x.intoValue :=
  native_wf x h

/-- **C87**: an iterator of pairs gives an object with the keys in the order in which they appear first,
each with the value it was given last. -/
theorem C87_pairs (ps : List (Str × Native)) : ∃ es, (Native.pairs ps).intoValue = .object es ∧
    es.map Prod.fst = firstSeen (ps.map Prod.fst) ∧
    ∀ k v, (k, v) ∈ es → ∃ x, LastFor k x ps ∧ v = x.intoValue := by
  refine ⟨_, rfl, ?_, fun k v h => ?_⟩
  · rw [collect_keys, intoEntries_map, List.map_map]; rfl
  · obtain ⟨a, b, h1, h2⟩ := collect_last _ _ h
    rw [intoEntries_map] at h1
    obtain ⟨a', b', rfl, rfl, hb⟩ := List.map_eq_append_iff.mp h1
    obtain ⟨p, b'', rfl, hp, rfl⟩ := List.map_eq_cons_iff.mp hb
    obtain ⟨h3, h4⟩ := Prod.mk.inj hp
    subst h3
    refine ⟨p.2, ⟨a', b'', rfl, ?_⟩, h4.symm⟩
    simpa [List.map_map, Function.comp_def] using h2

/-- **C87**: every integer of a Rust type becomes the number of the same value, and a double becomes null if
it is not finite, and otherwise a number, of the same value between `-2^63` and `2^63`. -/
theorem C87_numbers :
    (∀ i : Int, ∃ n, (Native.signed i).intoValue = .number n ∧ value n = some (i : ℚ)) ∧
    (∀ m : Nat, ∃ n, (Native.unsigned m).intoValue = .number n ∧ value n = some (m : ℚ)) ∧
    (∀ x : F64, Spec.F64.toRat? x = none → (Native.float x).intoValue = .null) ∧
    (∀ (x : F64) (q : ℚ), x.Canonical → Spec.F64.toRat? x = some q →
      ∃ n, (Native.float x).intoValue = .number n ∧ (-2 ^ 63 ≤ q ∧ q < 2 ^ 63 → value n = some q)) := by
  refine ⟨fun i => ⟨_, rfl, value_ofI64 i⟩, fun m => ⟨_, rfl, rfl⟩, fun x h => ?_, fun x q hc h => ?_⟩
  · rw [Native.intoValue, (Props.C09_none_iff x).mpr h]; rfl
  · obtain ⟨n, h1, -, h2⟩ := Props.C09_value_partial x q hc h
    exact ⟨n, by rw [Native.intoValue, h1]; rfl, h2.mpr⟩

/-! ### Data with all of this -/

private def sample : Native :=
  .pairs [(c!"a", .list [.signed (-3), .unsigned 7, .unit]), (c!"b", .float .nan),
    (c!"a", .pairs [(c!"x y", .bool true), (c!"n", .number (.negInt (-1)))])]

example : Native.Ok sample := by
  simp [sample, Native.Ok, Native.OkAll, Native.OkPairs, WellFormed, F64.Canonical]

example : sample.intoValue = .object [(c!"a", .object [(c!"x y", .bool true), (c!"n", .number (.negInt (-1)))]),
    (c!"b", .null)] := by rfl

example : sample.intoExpr = .object [(.expr (.string c!"a"),
      .object [(.expr (.string c!"x y"), .bool true), (.expr (.string c!"n"), .number (.negInt (-1)))]),
    (.expr (.string c!"b"), .null)] := by rfl

example : firstSeen [c!"a", c!"b", c!"a"] = [c!"a", c!"b"] := by decide

example : (F64.fin false (2 ^ 52) (-52)).Canonical ∧
    Spec.F64.toRat? (.fin false (2 ^ 52) (-52)) = some 1 := by
  refine ⟨by simp [F64.Canonical], ?_⟩
  rw [F64.toRat?_fin]; norm_num [F64.toRat, F64.sm]

end Verif.Spec
