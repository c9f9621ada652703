import Verif.Lemmas.RunTrivia
import Verif.Lemmas.ParseExpr
import Verif.Lemmas.Number
/-! Forward runs of the number parsers. -/

namespace Verif.Gram
open P Spec

theorem isDigit_digitChar {d : Nat} (h : d < 10) : isDigit (digitChar d) = true := by
  revert d; decide

theorem digitChar_val {d : Nat} (h : d < 10) : (digitChar d).toNat - 48 = d := by
  revert d; decide

theorem natStr_spec (n : Nat) : (∀ c ∈ natStr n, isDigit c = true) ∧ natStr n ≠ [] ∧
    digitsVal (natStr n) = n := by
  induction n using Nat.strongRecOn with
  | ind n ih =>
    by_cases h : n < 10
    · rw [natStr_small h]
      refine ⟨fun c hc => ?_, by simp, ?_⟩
      · rw [List.mem_singleton.mp hc]; exact isDigit_digitChar h
      · show 10 * 0 + ((digitChar n).toNat - 48) = n
        rw [digitChar_val h]; omega
    · obtain ⟨h1, h2, h3⟩ := ih (n / 10) (by omega)
      rw [natStr_step (by omega)]
      refine ⟨fun c hc => ?_, by simp, ?_⟩
      · rcases List.mem_append.mp hc with hc | hc
        · exact h1 c hc
        · rw [List.mem_singleton.mp hc]; exact isDigit_digitChar (by omega)
      · unfold digitsVal at h3 ⊢
        rw [List.foldl_append, h3]
        show 10 * (n / 10) + ((digitChar (n % 10)).toNat - 48) = n
        rw [digitChar_val (by omega)]; omega

/-- A text that does not continue a number. -/
def NumEnd (r : Str) : Prop := ∀ c cs, r = c :: cs →
  isDigit c = false ∧ c ≠ 'e' ∧ c ≠ 'E' ∧ (c = '.' → ∀ d ds, cs = d :: ds → isDigit d = false)

theorem backs_float {t r : Str} (h1 : ∀ c ∈ t, isDigit c = true) (h2 : t ≠ []) (hr : NumEnd r) :
    Backs float (t ++ r) := by
  unfold float
  refine Runs.bind_backs (runs_takeWhile1 h2 h1 fun c cs h => (hr c cs h).1) fun _ _ => ?_
  refine Backs.bind (Backs.alt ?_ ?_)
  · by_cases hd : ∃ cs, r = '.' :: cs
    · obtain ⟨cs, rfl⟩ := hd
      refine Runs.bind_backs (t := ['.']) (r := cs) runs_chr fun _ _ => Backs.bind ?_
      exact backs_takeWhile1 fun d ds h => (hr _ _ rfl).2.2.2 rfl d ds h
    · exact (backs_chr fun cs h => hd ⟨cs, h⟩).bind
  · refine Backs.bind (Backs.bind (backs_oneOf fun c cs h => ?_))
    obtain ⟨-, h3, h4, -⟩ := hr c cs h
    simp [h3, h4]

theorem runs_digits {t r : Str} {n : Nat} (h1 : ∀ c ∈ t, isDigit c = true) (h2 : t ≠ [])
    (h3 : digitsVal t = n) (hn : n < 2 ^ 64) (hr : NumEnd r) : Runs num t r fun v => v = .posInt n := by
  unfold num
  refine .alt_right (backs_float h1 h2 hr).verifyMap (Runs.map ?_)
  refine Runs.verifyMap (runs_takeWhile1 h2 h1 fun c cs h => (hr c cs h).1) ?_
  rintro _ rfl
  exact ⟨n, by rw [h3, if_pos hn], rfl⟩

theorem runs_num {n : Nat} {r : Str} (hn : n < 2 ^ 64) (hr : NumEnd r) :
    Runs num (natStr n) r fun v => v = .posInt n :=
  runs_digits (natStr_spec n).1 (natStr_spec n).2.1 (natStr_spec n).2.2 hn hr

theorem runs_numberTerm {n : Nat} {r : Str} (hn : n < 2 ^ 64) (hr : NumEnd r) :
    Runs numberTerm (natStr n) r fun v => v = .number {} (.posInt n) (some (.explicit (natStr n))) := by
  unfold numberTerm
  refine (runs_num hn hr).withTaken.bind_last ?_
  rintro ⟨v, t⟩ ⟨rfl, rfl⟩
  exact .pure rfl

/-- Negating the number that was read: `i64::MIN` panics in a debug build. -/
theorem neg_natAbs {bd : Build} {i : Int} (h0 : i < 0) (h1 : -2 ^ 63 ≤ i) (h2 : bd = .debug → i ≠ -2 ^ 63) :
    N.neg bd (.posInt i.natAbs) = some (.negInt i) := by
  have h : (i64Result bd (-(wrapI64 i.natAbs))) = some i := by
    by_cases hm : i = -2 ^ 63
    · cases bd with
      | debug => exact absurd hm (h2 rfl)
      | release =>
        have hw : wrapI64 i.natAbs = i := by
          unfold wrapI64
          omega
        unfold i64Result
        rw [hw, if_neg (by omega)]
        dsimp only
        have : wrapI64 (-i) = i := by unfold wrapI64; omega
        rw [this]
    · have hw : wrapI64 i.natAbs = -i := by
        unfold wrapI64
        rw [show ((i.natAbs : Nat) : Int) = -i by omega, Int.emod_eq_of_lt (by omega) (by omega)]
        omega
      unfold i64Result
      rw [hw, if_pos (by omega), Int.neg_neg]
  show (i64Result bd (-(wrapI64 (i.natAbs : Int)))).map N.negInt = _
  rw [h, Option.map_some]

theorem runs_negDigits {E : PEnv} {t r : Str} {n : Nat} {v : N} (d1 : ∀ c ∈ t, isDigit c = true)
    (d2 : t ≠ []) (d3 : digitsVal t = n) (hlt : n < 2 ^ 64) (hr : NumEnd r)
    (hneg : N.neg E.bd (.posInt n) = some v) :
    Runs (negNumber E) ('-' :: t) r fun e => e = .number {} v (some (.explicit ('-' :: t))) := by
  unfold negNumber
  have hn : Runs (P.bind (chr '-') fun _ => P.bind sp fun _ => num) ('-' :: t) r
      fun v => v = .posInt n := by
    refine Runs.bind (t := ['-']) runs_chr fun _ _ => ?_
    refine Runs.bind_nil (Q := fun _ => True) (runs_blanks (nl := false) nofun ?_) fun _ _ =>
      runs_digits d1 d2 d3 hlt hr
    cases t with
    | nil => exact absurd rfl d2
    | cons c cs =>
      have hc : isDigit c = true := d1 c (List.mem_cons_self ..)
      rintro (⟨d, k, hk, hd⟩ | ⟨x, k, hk, hx⟩)
      · rw [List.cons_append] at hk
        injection hk with hk _
        subst hk
        rcases hd with rfl | rfl | ⟨h, -⟩
        · cases hc
        · cases hc
        · cases h
      · rcases hx with ⟨t, rfl, -⟩ | ⟨h, -⟩
        · rw [List.cons_append] at hk; injection hk with hk _; subst hk; cases hc
        · cases h
  refine hn.withTaken.bind_last ?_
  rintro ⟨v', t'⟩ ⟨hv, rfl⟩
  dsimp only at hv ⊢
  rw [hv, hneg]
  exact .pure rfl

theorem runs_negNumber {E : PEnv} {i : Int} {r : Str} (h0 : i < 0) (h1 : -2 ^ 63 ≤ i)
    (h2 : E.bd = .debug → i ≠ -2 ^ 63) (hr : NumEnd r) :
    Runs (negNumber E) (intStr i) r fun v => v = .number {} (.negInt i) (some (.explicit (intStr i))) := by
  have hi : intStr i = '-' :: natStr i.natAbs := by unfold intStr; rw [if_pos h0]
  rw [hi]
  obtain ⟨d1, d2, d3⟩ := natStr_spec i.natAbs
  exact runs_negDigits d1 d2 d3 (by omega) hr (neg_natAbs h0 h1 h2)

end Verif.Gram
