import Verif.Lemmas.Nested
import Verif.Model.EditParse
import Verif.Spec.Unique
/-! The entry points of the parser. -/

namespace Verif.Gram
open P Spec

/-- What parsing a complete text gives, for a parser that satisfies a triple. -/
def OutcomeOK (pan : Prop) (s : Str) (Q : α → Prop) : Outcome α → Prop
  | .ok a => Q a
  | .err n => n ≤ s.length
  | .panic => pan
  | .oof => False

theorem terminated_ok {pan : Prop} {s : Str} {p : P α} {Q : Nat → α → Nat → Prop}
    (h : Tri pan s 0 p Q) :
    Wp pan s 0 (fun a q => q = s.length ∧ Q 0 a s.length) (terminated p eof ⟨0, s⟩) := by
  have ht : Wp pan s 0 (fun a q => q = s.length ∧ Q 0 a s.length) (terminated p eof (inp s 0)) := by
    unfold terminated
    stp h => a q h1
    stp (tri_eof (lo := 0)) => u q' h2
    obtain ⟨rfl, h3⟩ := h2
    exact wp_pure (by omega) (by omega) ⟨h3, by rwa [← h3]⟩
  rwa [show inp s 0 = ⟨0, s⟩ by simp] at ht

theorem terminated_val {pan : Prop} {s : Str} {p : P α} {Q : Nat → α → Nat → Prop}
    (h : Tri pan s 0 p Q) {a : α} {i : Input} (hp : terminated p eof ⟨0, s⟩ = .ok a i) :
    Q 0 a s.length := by
  have ht := terminated_ok h
  rw [hp] at ht
  obtain ⟨q, -, -, -, -, h1⟩ := ht
  exact h1

theorem parseComplete_ok {pan : Prop} {s : Str} {p : P α} {Q : Nat → α → Nat → Prop}
    {raws : α → List Raw} {despan : α → α} (h : Tri pan s 0 p Q)
    (hr : ∀ a, Q 0 a s.length → AllIn s (raws a)) :
    OutcomeOK pan s (fun b => ∃ a, b = despan a ∧ Q 0 a s.length)
      (parseComplete p raws despan s) := by
  have ht := terminated_ok h
  unfold parseComplete
  revert ht
  cases terminated p eof ⟨0, s⟩ with
  | ok a i =>
    rintro ⟨q, rfl, -, -, -, h1⟩
    dsimp only
    rw [if_pos (List.all_eq_true.mpr (hr a h1))]
    exact ⟨a, rfl, h1⟩
  | back i => rintro ⟨q, rfl, -, h⟩; exact h
  | cut i => rintro ⟨q, rfl, -, h⟩; exact h
  | panic => exact id
  | oof => exact id

theorem bodyQ_document {U : Uni} {s : Str} {b : EBody} (h : BodyQ U s 0 b s.length) :
    Document U s b := by
  obtain ⟨ss, fin, z, h1, h2, h3, rfl⟩ := h
  exact .mk h1 h2 h3

theorem parseBody_ok (E : PEnv) (s : Str) :
    OutcomeOK (NegOverflow E s) s (fun b => ∃ b₀, b = b₀.despan s ∧ Document E.U s b₀)
      (parseBody E s) := by
  have h := parseComplete_ok (raws := EBody.raws) (despan := EBody.despan s)
    (parsersFor_ok E s).body fun _ h => (bodyQ_document h).good.2
  revert h
  unfold parseBody
  cases parseComplete (parsersFor E s).body EBody.raws (EBody.despan s) s with
  | ok b => rintro ⟨b₀, h1, h2⟩; exact ⟨b₀, h1, bodyQ_document h2⟩
  | _ => exact id

theorem parseExpr_ok (E : PEnv) (s : Str) :
    OutcomeOK (NegOverflow E s) s (fun e => ∃ e₀, e = e₀.despan s ∧ Core E.U s false e₀ 0 s.length ∧
      NodeM s e₀ 0 s.length) (parseExpr E s) := by
  exact parseComplete_ok (raws := EExpr.raws) (despan := EExpr.despan s)
    ((parsersFor_ok E s).expr false) fun _ h => (h.1.good.node (Nat.le_of_lt h.1.bounds.1) h.2).2

theorem parseTemplate_ok (E : PEnv) (s : Str) :
    OutcomeOK (NegOverflow E s) s (fun t => ∃ t₀, t = EExpr.despanElems s t₀ ∧
      TElems E.U s .plain t₀ 0 s.length) (parseTemplate E s) :=
  parseComplete_ok (raws := EExpr.rawsElems) (despan := EExpr.despanElems s)
    (parsersFor_ok E s).template fun _ h => h.good.2

end Verif.Gram

namespace Verif.Spec

variable {U : Uni} {s : Str}

theorem bodyKeys_despan (full : Str) (ss : List EStruct) :
    bodyKeys (EStruct.despanList full ss) = bodyKeys ss := by
  induction ss with
  | nil => rfl
  | cons x xs ih =>
    cases x with
    | attr m k v =>
      simp only [EStruct.despanList, EStruct.despan, bodyKeys, ih]; rfl
    | block m i ls b =>
      simp only [EStruct.despanList, EStruct.despan, bodyKeys, ih]

theorem mem_despanList {full : Str} {x : EStruct} {ss : List EStruct}
    (h : x ∈ EStruct.despanList full ss) : ∃ y ∈ ss, x = y.despan full := by
  induction ss with
  | nil => simp only [EStruct.despanList, List.not_mem_nil] at h
  | cons y ys ih =>
    simp only [EStruct.despanList] at h
    rcases List.mem_cons.mp h with rfl | h
    · exact ⟨y, List.mem_cons_self .., rfl⟩
    · obtain ⟨z, h1, h2⟩ := ih h
      exact ⟨z, List.mem_cons_of_mem _ h1, h2⟩

theorem UniqueKeys.despan {b : EBody} (full : Str) (h : UniqueKeys b) :
    UniqueKeys (b.despan full) := by
  induction h with
  | mk h1 _ ih =>
    unfold EBody.despan
    refine .mk (by rw [bodyKeys_despan]; exact h1) fun bm i ls b hb => ?_
    obtain ⟨y, h3, h4⟩ := mem_despanList hb
    cases y with
    | attr m k v => simp only [EStruct.despan] at h4; cases h4
    | block m i' ls' b' =>
      simp only [EStruct.despan] at h4
      injection h4 with _ _ _ h5
      subst h5
      exact ih _ _ _ _ h3

/-- The bodies of the blocks in a list satisfy the predicate. -/
def BlocksUnique (ss : List EStruct) : Prop :=
  ∀ bm i ls b, EStruct.block bm i ls b ∈ ss → UniqueKeys b

theorem BlocksUnique.cons {st : EStruct} {ss : List EStruct}
    (h1 : ∀ bm i ls b, st = .block bm i ls b → UniqueKeys b) (h2 : BlocksUnique ss) :
    BlocksUnique (st :: ss) := by
  intro bm i ls b h
  rcases List.mem_cons.mp h with h | h
  · exact h1 bm i ls b h.symm
  · exact h2 bm i ls b h

mutual

theorem StructAt.unique : ∀ {e a b}, StructAt U s e a b →
    ∀ bm i ls bd, e = .block bm i ls bd → UniqueKeys bd
  | _, _, _, .attr _ _ _ _ _, _, _, _, _, h => nomatch h
  | _, _, _, .block _ _ _ h4 _, _, _, _, _, h => by
    injection h with _ _ _ h5
    subst h5
    exact h4.unique

theorem BlockBody.unique : ∀ {bd p q}, BlockBody U s bd p q → UniqueKeys bd
  | _, _, _, .lines _ _ h3 h4 _ => .mk h4 h3.unique
  | _, _, _, .empty _ => .mk List.nodup_nil nofun
  | _, _, _, .single _ _ _ _ => .mk (List.nodup_cons.mpr ⟨nofun, List.nodup_nil⟩)
      (fun _ _ _ _ h => by simp at h)

theorem Lines.unique : ∀ {ss fin p q}, Lines U s ss fin p q → BlocksUnique ss
  | _, _, _, _, .nil => nofun
  | _, _, _, _, .cons _ h2 _ _ _ h6 => .cons h2.unique h6.unique
  | _, _, _, _, .last _ h2 _ _ => .cons h2.unique nofun

end

theorem Document.unique {bd : EBody} (h : Document U s bd) : UniqueKeys bd := by
  obtain ⟨h1, h2, -⟩ := h
  exact .mk h2 h1.unique

end Verif.Spec
