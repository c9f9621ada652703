import Verif.Lemmas.Document
import Verif.Props.Roundtrip
/-!
C65: data that is written as a document and read back.
-/

namespace Verif.Props
open P Gram Verif.Spec De Syn

/-- What `to_string` writes for the user's data, `from_str` reads back as the same data: structs, maps
and enum variants of attributes, blocks and labeled blocks, nested to any depth. -/
theorem C65_partial (E F : FmtEnv) (bd : Build) (cfg : FmtCfg) (hc : cfg.preferIdentKeys = false)
    (hi : Gap false cfg.indent) {t : Ty} {d : Datum} {v : SVal} (h : DocRoot E bd cfg t d v) {st : SerSt}
    (hst : StOk st) :
    ∃ ss, (serialize E .body v st).1 = .body ss ∧
      ∃ b, parseBody ⟨E.U, bd⟩ (formatBody E cfg ss) = .ok b ∧ Deserializes E t (.doc (toHclBody F b)) d := by
  obtain ⟨ss, hg, hd, ht⟩ := rt_root hc h
  obtain ⟨b, h1, -, h2⟩ := C51_body_partial E bd cfg false hi ss ht
  exact ⟨ss, (serialize_body hst hg).1, b, h1, (h2 F (printableStructs_noTemplate ss ht.2)).symm ▸ hd⟩

/-! The hypotheses hold: the document

```
n = -5
s { a = true }
s { a = false }
r "x" "y" { a = null }
r "x" "z" { a = null }
o { }
```

with `n : i64`, `s : Block<Vec<S>>`, `r : LabeledBlock<Map<LabeledBlock<Map<S>>>>` and
`o : Option<Block<Map<bool>>>`. -/

private def E2 : FmtEnv := ⟨Uni.ascii, fun _ => []⟩

private def sTy : Ty := .struct c!"S" [(c!"a", .option .bool)]

private theorem id1 (c : Char) (h : isIdStart .ascii c = true) : IsIdentifier E2.U [c] :=
  ⟨c, [], rfl, idFirst_iff.mp h, nofun⟩

private theorem s_some (b : Bool) : DocBody E2 .release .default sTy (.list [.some (.bool b)])
    (.struct c!"S" [(c!"a", .some (.bool b))]) :=
  .struct (by decide) (by decide) (by decide)
    (.cons (id1 _ rfl) (.attr (.some (.bool b)) trivial ⟨rfl, trivial⟩ trivial) .nil)

private theorem s_none : DocBody E2 .release .default sTy (.list [.none]) (.struct c!"S" [(c!"a", .unit)]) :=
  .struct (by decide) (by decide) (by decide) (.cons (id1 _ rfl) (.attr (.none _) trivial trivial trivial) .nil)

example : DocBody E2 .release .default
    (.struct c!"T" [(c!"n", .sint 64), (c!"s", .seq sTy), (c!"r", .map .string (.map .string sTy)),
      (c!"o", .option (.map .string .bool))])
    (.list [.int (-5), .list [.list [.some (.bool true)], .list [.some (.bool false)]],
      .map [(.str c!"x", .map [(.str c!"y", .list [.none]), (.str c!"z", .list [.none])])], .some (.map [])])
    (.struct c!"T" [(c!"n", .int (-5)),
      (c!"s", .block (.seq [.struct c!"S" [(c!"a", .some (.bool true))], .struct c!"S" [(c!"a", .some (.bool false))]])),
      (c!"r", .labeled (.map [(.str c!"x", .labeled (.map [(.str c!"y", .struct c!"S" [(c!"a", .unit)]),
        (.str c!"z", .struct c!"S" [(c!"a", .unit)])]))])),
      (c!"o", .some (.block (.map [])))]) := by
  refine .struct (by decide) (by decide) (by decide) (.cons (id1 _ rfl) ?_ (.cons (id1 _ rfl) ?_
    (.cons (id1 _ rfl) ?_ (.cons (id1 _ rfl) ?_ .nil))))
  · exact .attr (.sint (by omega) (by omega) (by omega)) trivial trivial nofun
  · exact .block (.many (.cons (s_some _) (.cons (s_some _) .nil)) (by simp))
  · exact .labeled (.map (.cons (stringSafe_char _) (.labeled (.map (.cons (stringSafe_char _) (.one s_none)
      (.cons (stringSafe_char _) (.one s_none) .nil)) (by simp) nofun)) .nil) (by simp) nofun)
  · exact .some (.block (.one (.map .nil .nil))) id

private def vTy : Ty := .enum c!"V" [(c!"U", .unit), (c!"N", .newtype (.seq sTy)), (c!"F", .struct [(c!"b", .bool)]),
  (c!"T", .tuple [.bool, .bool])]

/-! Enums: `V::N(vec![..])` in a `Block` is the document

```
N { a = true }
N { a = false }
```

`V::F { b: true }` in a `Block` is the block `b { F { b = true } }`, and in a `LabeledBlock`, inside of another variant,
the variant is the label. `V::T(true, false)` is the document `T = [true, false]`. -/
example : DocRoot E2 .release .default vTy (.var 1 (.list [.list [.some (.bool true)], .list [.some (.bool false)]]))
    (.newtypeVariant c!"N" (.block (.seq [.struct c!"S" [(c!"a", .some (.bool true))],
      .struct c!"S" [(c!"a", .some (.bool false))]]))) :=
  .body (.newtypeVar (t := .seq sTy) (by decide) (by decide) rfl (id1 _ rfl)
    (.block (.many (.cons (s_some _) (.cons (s_some _) .nil)) (by simp))))

example : DocRoot E2 .release .default (.newtype c!"W" (.map .string vTy)) (.newtype (.map [(.str c!"b", .var 2 (.list [.bool true]))]))
    (.newtypeStruct c!"W" (.map [(.str c!"b", .block (.structVariant c!"F" [(c!"b", .bool true)]))])) :=
  .body (.newtype (by decide) (by decide) (.map (.cons (id1 _ rfl)
    (.block (.one (.structVar (by decide) (by decide) rfl (id1 _ rfl) (by decide)
      (.cons (id1 _ rfl) (.attr (.bool true) trivial trivial trivial) .nil)))) .nil) (by simp)))

example : DocRoot E2 .release .default (.map .string (.enum c!"L" [(c!"l", .newtype sTy)]))
    (.map [(.str c!"b", .var 0 (.list [.none]))])
    (.map [(.str c!"b", .labeled (.newtypeVariant c!"l" (.struct c!"S" [(c!"a", .unit)])))]) :=
  .body (.map (.cons (id1 _ rfl) (.labeled (.newtypeVar (by decide) (by decide) rfl (stringSafe_char _) (.one s_none)))
    .nil) (by simp))

/-! A struct in a `LabeledBlock`: `b "l" { a = null }`. -/
example : DocRoot E2 .release .default (.map .string (.struct c!"L" [(c!"l", sTy)]))
    (.map [(.str c!"b", .list [.list [.none]])])
    (.map [(.str c!"b", .labeled (.struct c!"L" [(c!"l", .struct c!"S" [(c!"a", .unit)])]))]) :=
  .body (.map (.cons (id1 _ rfl) (.labeled (.struct (by decide) nofun (.cons (stringSafe_char _) (.one s_none) .nil)))
    .nil) (by simp))

example : DocRoot E2 .release .default vTy (.var 3 (.list [.bool true, .bool false]))
    (.tupleVariant c!"T" [.bool true, .bool false]) :=
  .tupleVar (by decide) (by decide) rfl (id1 _ rfl) (.cons (.bool _) (.cons (.bool _) .nil)) ⟨trivial, trivial, trivial⟩
    ⟨⟨trivial, trivial, trivial⟩, rfl⟩

/-! The full claim is false. -/

/-- A variant with several values in a `Block` is not written as the array it is read from: with one value it is
one block. -/
theorem C65_tuple_block_fails : ∃ t d v, Impl E2.U t d v ∧ ∀ st, ∃ ss,
    (serialize E2 .body v st).1 = .body ss ∧ Rejected E2 t (.doc ss) :=
  ⟨.struct c!"S" [(c!"a", .enum c!"V" [(c!"T", .tuple [.map .string .bool])])], .list [.var 0 (.list [.map []])],
    .struct c!"S" [(c!"a", .block (.tupleVariant c!"T" [.map []]))],
    .struct (by decide) (by decide) (by decide) (.cons (.block (.tupleVar (by decide) (by decide) rfl
      (.cons (.map .nil .nil) .nil))) .nil),
    fun _ => ⟨[.block c!"a" [] [.block c!"T" [] []]], rfl, 5, rfl⟩⟩

/-- `Block<Vec<T>>` with one element is written as one block, which is not read as a sequence. -/
theorem C65_one_block_fails : ∃ t d v, Impl E2.U t d v ∧ ∀ st, ∃ ss,
    (serialize E2 .body v st).1 = .body ss ∧ Rejected E2 t (.doc ss) :=
  ⟨.struct c!"T" [(c!"s", .seq (.map .string .bool))], .list [.list [.map []]],
    .struct c!"T" [(c!"s", .block (.seq [.map []]))],
    .struct (by decide) (by decide) (by decide) (.cons (.block (.seq (.cons (.map .nil .nil) .nil))) .nil),
    fun _ => ⟨[.block c!"s" [] []], rfl, 4, rfl⟩⟩

/-- `Block<Vec<T>>` without elements is not written at all, and is then missing. -/
theorem C65_no_block_fails : ∃ t d v, Impl E2.U t d v ∧ ∀ st, ∃ ss,
    (serialize E2 .body v st).1 = .body ss ∧ Rejected E2 t (.doc ss) :=
  ⟨.struct c!"T" [(c!"s", .seq (.map .string .bool))], .list [.list []],
    .struct c!"T" [(c!"s", .block (.seq []))],
    .struct (by decide) (by decide) (by decide) (.cons (.block (.seq .nil)) .nil),
    fun _ => ⟨[], rfl, 4, rfl⟩⟩

/-- A document that is an `Option` is written but not read back. -/
theorem C65_option_fails : ∃ t d v, Impl E2.U t d v ∧ ∀ st, ∃ ss,
    (serialize E2 .body v st).1 = .body ss ∧ Rejected E2 t (.doc ss) :=
  ⟨.option (.struct c!"T" [(c!"a", .bool)]), .some (.list [.bool true]),
    .some (.struct c!"T" [(c!"a", .bool true)]),
    .some (.struct (by decide) (by decide) (by decide) (.cons (.bool _) .nil)),
    fun _ => ⟨[.attr c!"a" (.bool true)], rfl, 4, rfl⟩⟩

/-- A map from labels to `Block<Vec<T>>`: with two elements for the label it comes back, with one it does not. -/
theorem C65_labeled_one_fails : ∃ t d v, Impl E2.U t d v ∧ ∀ st, ∃ ss,
    (serialize E2 .body v st).1 = .body ss ∧ Rejected E2 t (.doc ss) :=
  ⟨.struct c!"T" [(c!"s", .map .string (.seq (.map .string .bool)))], .list [.map [(.str c!"x", .list [.map []])]],
    .struct c!"T" [(c!"s", .labeled (.map [(.str c!"x", .seq [.map []])]))],
    .struct (by decide) (by decide) (by decide) (.cons (.labeled (.map (.cons (.string _) (.seq (.cons (.map .nil .nil) .nil)) .nil)
      (by simp))) .nil),
    fun _ => ⟨[.block c!"s" [.string c!"x"] []], rfl, 5, rfl⟩⟩

end Verif.Props
