import Verif.Lemmas.DeRoundTrip
import Verif.Spec.Reads
/-!
What is accepted: each visitor, given what the deserializations of the parts give.
-/

namespace Verif
open Spec De

namespace DRes
variable {α β γ : Type}

theorem dbind_ok {x : DRes α} {f : α → DRes β} {b : β} : x.bind f = .ok b ↔ ∃ a, x = .ok a ∧ f a = .ok b := by
  cases x <;> simp [DRes.bind]

theorem dmap_ok {x : DRes α} {f : α → β} {b : β} : x.map f = .ok b ↔ ∃ a, x = .ok a ∧ f a = b := by
  cases x <;> simp [DRes.map, DRes.bind]

theorem ofOption_ok {o : Option α} {a : α} : DRes.ofOption o = .ok a ↔ o = some a := by
  cases o <;> simp [DRes.ofOption]

theorem each_iff {f : α → DRes β} : ∀ {l : List α} {bs : List β},
    DRes.each f l = .ok bs ↔ List.Forall₂ (fun a b => f a = .ok b) l bs
  | [], bs => by
    simp only [DRes.each, List.forall₂_nil_left_iff]
    exact ⟨fun h => (DRes.ok.inj h).symm, fun h => by rw [h]⟩
  | a :: l, bs => by
    simp only [DRes.each, dbind_ok, each_iff (l := l), List.forall₂_cons_left_iff]
    constructor
    · rintro ⟨b, h1, bs', h2, h3⟩
      exact ⟨b, bs', h1, h2, (DRes.ok.inj h3).symm⟩
    · rintro ⟨b, bs', h1, h2, rfl⟩
      exact ⟨b, h1, bs', h2, rfl⟩

end DRes

open DRes

/-- An entry of a map: the name in its key. -/
structure KS where
  key : Src
  src : Src
  name : Str

namespace De
variable {E : FmtEnv} {r : Ty → Src → DRes Datum}

theorem findIdx_iff {names : List Str} (hn : names.Nodup) {x : Str} {i : Nat} :
    names.findIdx? (fun y => y == x) = some i ↔ names[i]? = some x := by
  rw [List.findIdx?_eq_some_iff_getElem]
  constructor
  · rintro ⟨h, h1, -⟩
    rw [List.getElem?_eq_getElem h, beq_iff_eq.1 h1]
  · intro h
    obtain ⟨h1, h2⟩ := List.getElem?_eq_some_iff.1 h
    refine ⟨h1, by simp [h2], fun j hj => ?_⟩
    simp only [beq_iff_eq]
    intro he
    have := (List.Nodup.getElem_inj_iff hn (hi := hj.trans h1) (hj := h1)).1 (by rw [he, h2])
    omega

theorem findIdx_none {names : List Str} {x : Str} :
    names.findIdx? (fun y => y == x) = none ↔ x ∉ names := by
  simp only [List.findIdx?_eq_none_iff, beq_eq_false_iff_ne, ne_eq]
  exact ⟨fun h hx => h x hx rfl, fun h y hy he => h (he ▸ hy)⟩

theorem elements_iff : ∀ {ts : List Ty} {ss : List Src} {ds : List Datum} {rest : List Src},
    elements r ts ss = .ok (ds, rest) ↔
      ∃ ss', ss = ss' ++ rest ∧ List.Forall₂ (fun (p : Ty × Src) d => r p.1 p.2 = .ok d) (ts.zip ss') ds ∧
        ss'.length = ts.length
  | [], ss, ds, rest => by
    constructor
    · intro h
      simp only [elements, DRes.ok.injEq, Prod.mk.injEq] at h
      obtain ⟨rfl, rfl⟩ := h
      exact ⟨[], rfl, .nil, rfl⟩
    · rintro ⟨ss', rfl, h, hl⟩
      rw [List.length_nil, List.length_eq_zero_iff] at hl
      subst hl
      cases h
      rfl
  | t :: ts, [], ds, rest => by
    constructor
    · intro h; cases h
    · rintro ⟨ss', h, -, hl⟩
      have := congrArg List.length h
      simp at this hl
      omega
  | t :: ts, s :: ss, ds, rest => by
    simp only [elements, dbind_ok]
    constructor
    · rintro ⟨d, h1, ⟨ds', rest'⟩, h2, h3⟩
      obtain ⟨ss', rfl, h4, h5⟩ := elements_iff.1 h2
      simp only [DRes.ok.injEq, Prod.mk.injEq] at h3
      obtain ⟨rfl, rfl⟩ := h3
      exact ⟨s :: ss', rfl, .cons h1 h4, by simp [h5]⟩
    · rintro ⟨ss', h, h1, hl⟩
      cases ss' with
      | nil => simp at hl
      | cons s' ss' =>
        simp only [List.cons_append, List.cons.injEq] at h
        obtain ⟨rfl, rfl⟩ := h
        rw [List.zip_cons_cons] at h1
        cases h1 with
        | cons h1 h2 =>
          exact ⟨_, h1, ⟨_, rest⟩, elements_iff.2 ⟨ss', rfl, h2, by simpa using hl⟩, rfl⟩

section
variable {fs : List (Str × Ty)}

theorem fields_keep : ∀ {es : List (Src × Src)} {acc acc' : List (Nat × Datum)},
    fields E r fs acc es = .ok acc' → ∀ p ∈ acc, p ∈ acc'
  | [], acc, acc', h, p, hp => by
    cases h; exact hp
  | (k, v) :: es, acc, acc', h, p, hp => by
    simp only [fields, dbind_ok] at h
    obtain ⟨o, -, h⟩ := h
    cases o with
    | none =>
      simp only [dbind_ok] at h
      obtain ⟨_, -, h⟩ := h
      exact fields_keep h p hp
    | some i =>
      dsimp only at h
      split at h
      · cases h
      · split at h
        · simp only [dbind_ok] at h
          obtain ⟨_, -, h⟩ := h
          exact fields_keep h p (by simp [hp])
        · cases h

/-- The key stands for the field of this name, if there is one. -/
structure Names (E : FmtEnv) (fs : List (Str × Ty)) (key : Src) (name : Str) : Prop where
  eq : fieldOf (fs.map Prod.fst) (ask E key .identifier) = .ok ((fs.map Prod.fst).findIdx? fun x => x == name)

theorem names_str {key : Src} {name : Str} (h : ask E key .identifier = .str name) : Names E fs key name :=
  ⟨by rw [h]; rfl⟩

theorem fields_sound (hn : (fs.map Prod.fst).Nodup) : ∀ {l : List KS} {acc acc' : List (Nat × Datum)},
    (∀ q ∈ l, Names E fs q.key q.name) →
    fields E r fs acc (l.map fun q => (q.key, q.src)) = .ok acc' →
    (∀ q ∈ l, q.name ∉ fs.map Prod.fst → ∃ x, r .ignored q.src = .ok x) ∧
    (∀ p ∈ acc', p ∈ acc ∨ ∃ q ∈ l, ∃ f, fs[p.1]? = some f ∧ f.1 = q.name ∧ r f.2 q.src = .ok p.2) ∧
    ∀ q ∈ l, ∀ i f, fs[i]? = some f → f.1 = q.name → ∃ d, (i, d) ∈ acc' ∧ r f.2 q.src = .ok d
  | [], acc, acc', _, h => by
    cases h
    exact ⟨nofun, fun p hp => .inl hp, nofun⟩
  | q :: l, acc, acc', ha, h => by
    rw [List.forall_mem_cons] at ha
    simp only [List.map_cons, fields, ha.1.eq, DRes.bind] at h
    cases ho : (fs.map Prod.fst).findIdx? (fun x => x == q.name) with
    | none =>
      rw [ho] at h
      change (r .ignored q.src).bind _ = _ at h
      rw [dbind_ok] at h
      obtain ⟨x, hx, h⟩ := h
      have hq := findIdx_none.1 ho
      obtain ⟨h1, h2, h3⟩ := fields_sound hn ha.2 h
      refine ⟨?_, fun p hp => (h2 p hp).imp id fun ⟨q', hq', h⟩ => ⟨q', by simp [hq'], h⟩, ?_⟩
      · rw [List.forall_mem_cons]; exact ⟨fun _ => ⟨x, hx⟩, h1⟩
      · rw [List.forall_mem_cons]
        refine ⟨fun i f hf he => absurd ?_ hq, h3⟩
        rw [← he]
        exact List.mem_map_of_mem (List.mem_of_getElem? hf)
    | some i =>
      rw [ho] at h
      have hi := (findIdx_iff hn).1 ho
      dsimp only at h
      split at h
      · cases h
      · cases hf : fs[i]? with
        | none => rw [hf] at h; cases h
        | some f =>
          rw [hf] at h
          change (r f.2 q.src).bind _ = _ at h
          rw [dbind_ok] at h
          obtain ⟨d, hd, h⟩ := h
          have hfn : f.1 = q.name := by
            rw [List.getElem?_map, hf] at hi
            exact Option.some.inj hi
          have hkeep := fields_keep h
          obtain ⟨h1, h2, h3⟩ := fields_sound hn ha.2 h
          refine ⟨?_, fun p hp => ?_, ?_⟩
          · rw [List.forall_mem_cons]
            refine ⟨fun hq => absurd ?_ hq, h1⟩
            exact List.mem_of_getElem? hi
          · rcases h2 p hp with h4 | ⟨q', hq', h4⟩
            · rcases List.mem_cons.1 h4 with rfl | h4
              · exact .inr ⟨q, by simp, f, hf, hfn, hd⟩
              · exact .inl h4
            · exact .inr ⟨q', by simp [hq'], h4⟩
          · rw [List.forall_mem_cons]
            refine ⟨fun j g hg he => ?_, h3⟩
            have : (fs.map Prod.fst)[j]? = some q.name := by rw [List.getElem?_map, hg, Option.map_some, he]
            have := (findIdx_iff hn).2 this
            rw [ho] at this
            cases this
            rw [hf] at hg
            cases hg
            exact ⟨d, hkeep _ (by simp), hd⟩

/-- No field is given twice. -/
def KSOnce (fs : List (Str × Ty)) (l : List KS) : Prop :=
  l.Pairwise fun p q => p.name = q.name → p.name ∉ fs.map Prod.fst

theorem ksOnce_nodup {l : List KS} (h : (l.map KS.name).Nodup) : KSOnce fs l :=
  (List.pairwise_map.1 h).imp fun h he => absurd he h

theorem ksOnce_inj {l : List KS} (h : KSOnce fs l) {p q : KS} (hp : p ∈ l) (hq : q ∈ l) (hn : p.name = q.name)
    (hf : p.name ∈ fs.map Prod.fst) : p = q := by
  by_contra hne
  induction l with
  | nil => cases hp
  | cons x l ih =>
    obtain ⟨h1, h2⟩ := List.pairwise_cons.1 h
    rcases List.mem_cons.1 hp with rfl | hp' <;> rcases List.mem_cons.1 hq with rfl | hq'
    · exact hne rfl
    · exact h1 q hq' hn hf
    · exact h1 p hp' hn.symm (hn ▸ hf)
    · exact ih h2 hp' hq'

theorem fields_once (hn : (fs.map Prod.fst).Nodup) : ∀ {l : List KS} {acc acc' : List (Nat × Datum)},
    (∀ q ∈ l, Names E fs q.key q.name) →
    fields E r fs acc (l.map fun q => (q.key, q.src)) = .ok acc' →
    KSOnce fs l ∧ ∀ q ∈ l, ∀ p ∈ acc, (fs.map Prod.fst)[p.1]? ≠ some q.name
  | [], acc, acc', _, h => ⟨.nil, nofun⟩
  | q :: l, acc, acc', ha, h => by
    rw [List.forall_mem_cons] at ha
    simp only [List.map_cons, fields, ha.1.eq, DRes.bind] at h
    cases ho : (fs.map Prod.fst).findIdx? (fun x => x == q.name) with
    | none =>
      rw [ho] at h
      change (r .ignored q.src).bind _ = _ at h
      rw [dbind_ok] at h
      obtain ⟨x, hx, h⟩ := h
      have hq := findIdx_none.1 ho
      obtain ⟨h1, h2⟩ := fields_once hn ha.2 h
      refine ⟨List.pairwise_cons.2 ⟨fun _ _ _ => hq, h1⟩, ?_⟩
      rw [List.forall_mem_cons]
      exact ⟨fun p _ he => hq (List.mem_of_getElem? he), h2⟩
    | some i =>
      rw [ho] at h
      have hi := (findIdx_iff hn).1 ho
      dsimp only at h
      split at h
      · cases h
      · rename_i hany
        cases hf : fs[i]? with
        | none => rw [hf] at h; cases h
        | some f =>
          rw [hf] at h
          change (r f.2 q.src).bind _ = _ at h
          rw [dbind_ok] at h
          obtain ⟨d, hd, h⟩ := h
          obtain ⟨h1, h2⟩ := fields_once hn ha.2 h
          refine ⟨List.pairwise_cons.2 ⟨fun q' hq' he => ?_, h1⟩, ?_⟩
          · exact absurd (he ▸ hi) (h2 q' hq' (i, d) (by simp))
          · rw [List.forall_mem_cons]
            refine ⟨fun p hp he => hany ?_, fun q' hq' p hp => h2 q' hq' p (by simp [hp])⟩
            have := (findIdx_iff hn).2 he
            rw [ho] at this
            cases this
            exact List.any_eq_true.2 ⟨p, hp, by simp⟩

theorem fields_complete (hn : (fs.map Prod.fst).Nodup) : ∀ {l : List KS} {acc : List (Nat × Datum)},
    (∀ q ∈ l, Names E fs q.key q.name) → KSOnce fs l →
    (∀ q ∈ l, ∀ p ∈ acc, (fs.map Prod.fst)[p.1]? ≠ some q.name) →
    (∀ q ∈ l, q.name ∉ fs.map Prod.fst → ∃ x, r .ignored q.src = .ok x) →
    (∀ q ∈ l, ∀ f ∈ fs, f.1 = q.name → ∃ d, r f.2 q.src = .ok d) →
    ∃ acc', fields E r fs acc (l.map fun q => (q.key, q.src)) = .ok acc'
  | [], acc, _, _, _, _, _ => ⟨acc, rfl⟩
  | q :: l, acc, ha, hl, hacc, h1, h2 => by
    rw [List.forall_mem_cons] at ha h1 h2 hacc
    replace hl := List.pairwise_cons.1 hl
    simp only [List.map_cons, fields, ha.1.eq, DRes.bind]
    cases ho : (fs.map Prod.fst).findIdx? (fun x => x == q.name) with
    | none =>
      obtain ⟨x, hx⟩ := h1.1 (findIdx_none.1 ho)
      obtain ⟨acc', h⟩ := fields_complete hn ha.2 hl.2 hacc.2 h1.2 h2.2
      refine ⟨acc', ?_⟩
      simp only [hx]
      exact h
    | some i =>
      have hi := (findIdx_iff hn).1 ho
      have hany : acc.any (fun p : Nat × Datum => p.1 == i) = false := by
        rw [List.any_eq_false]
        intro p hp he
        rw [beq_iff_eq] at he
        exact hacc.1 p hp (he ▸ hi)
      cases hf : fs[i]? with
      | none => rw [List.getElem?_map, hf] at hi; cases hi
      | some f =>
        have hfn : f.1 = q.name := by
          rw [List.getElem?_map, hf] at hi
          exact Option.some.inj hi
        obtain ⟨d, hd⟩ := h2.1 f (List.mem_of_getElem? hf) hfn
        obtain ⟨acc', h⟩ := fields_complete (acc := (i, d) :: acc) hn ha.2 hl.2 (fun q' hq' => by
          rw [List.forall_mem_cons]
          refine ⟨?_, hacc.2 q' hq'⟩
          rw [hi]
          intro he
          exact hl.1 q' hq' (Option.some.inj he) (List.mem_of_getElem? hi)) h1.2 h2.2
        refine ⟨acc', ?_⟩
        simp only [hany, hf, hd]
        exact h

/-- How a field of a struct gets its value. -/
def FieldFrom (r : Ty → Src → DRes Datum) (l : List KS) (f : Str × Ty) (d : Datum) : Prop :=
  (∃ q ∈ l, q.name = f.1 ∧ r f.2 q.src = .ok d) ∨ (f.1 ∉ l.map KS.name ∧ r f.2 .missing = .ok d)

theorem gather_iff {l : List KS} {acc : List (Nat × Datum)} (hl : KSOnce fs l)
    (h1 : ∀ p ∈ acc, ∃ q ∈ l, ∃ f, fs[p.1]? = some f ∧ f.1 = q.name ∧ r f.2 q.src = .ok p.2)
    (h2 : ∀ q ∈ l, ∀ i f, fs[i]? = some f → f.1 = q.name → ∃ d, (i, d) ∈ acc ∧ r f.2 q.src = .ok d) :
    ∀ (post pre : List (Str × Ty)) (ds : List Datum), fs = pre ++ post →
      (gather r acc pre.length post = .ok ds ↔ List.Forall₂ (FieldFrom r l) post ds)
  | [], pre, ds, _ => by
    simp only [gather, List.forall₂_nil_left_iff]
    exact ⟨fun h => (DRes.ok.inj h).symm, fun h => by rw [h]⟩
  | f :: post, pre, ds, hfs => by
    have hget : fs[pre.length]? = some f := by simp [hfs]
    have ih := fun ds => gather_iff hl h1 h2 post (pre ++ [f]) ds (by simp [hfs])
    simp only [List.length_append, List.length_singleton] at ih
    have key : ∀ d, (match acc.find? (fun p : Nat × Datum => p.1 == pre.length) with
        | some p => DRes.ok p.2
        | none => r f.2 .missing) = .ok d ↔ FieldFrom r l f d := by
      intro d
      cases hp : acc.find? (fun p : Nat × Datum => p.1 == pre.length) with
      | some p =>
        have hm := List.mem_of_find?_eq_some hp
        have he := List.find?_some hp
        rw [beq_iff_eq] at he
        obtain ⟨q, hq, f', hf', hfn, hd⟩ := h1 p hm
        rw [he, hget] at hf'
        cases hf'
        constructor
        · intro h; cases h
          exact .inl ⟨q, hq, hfn.symm, hd⟩
        · rintro (⟨q', hq', hn, hd'⟩ | ⟨hn, -⟩)
          · have : q' = q := ksOnce_inj hl hq' hq (hn.trans hfn)
              (hn ▸ List.mem_map_of_mem (List.mem_of_getElem? hget))
            subst this
            exact hd.symm.trans hd'
          · exact absurd (List.mem_map.2 ⟨q, hq, hfn.symm⟩) hn
      | none =>
        rw [List.find?_eq_none] at hp
        constructor
        · intro h
          refine .inr ⟨fun hm => ?_, h⟩
          obtain ⟨q, hq, hn⟩ := List.mem_map.1 hm
          obtain ⟨d', hd', -⟩ := h2 q hq _ f hget hn.symm
          exact hp _ hd' (by simp)
        · rintro (⟨q', hq', hn, hd'⟩ | ⟨-, h⟩)
          · obtain ⟨d', hd', -⟩ := h2 q' hq' _ f hget hn.symm
            exact absurd (by simp) (hp _ hd')
          · exact h
    simp only [gather, dbind_ok, List.forall₂_cons_left_iff]
    constructor
    · rintro ⟨d, h3, ds', h4, h5⟩
      exact ⟨d, ds', (key d).1 h3, (ih ds').1 h4, (DRes.ok.inj h5).symm⟩
    · rintro ⟨d, ds', h3, h4, rfl⟩
      exact ⟨d, (key d).2 h3, ds', (ih ds').2 h4, rfl⟩

theorem visitStruct_map_once (hn : (fs.map Prod.fst).Nodup) {l : List KS}
    (ha : ∀ q ∈ l, Names E fs q.key q.name) {d : Datum} :
    visitStruct E r fs (.map (l.map fun q => (q.key, q.src))) = .ok d ↔
      KSOnce fs l ∧ (∀ q ∈ l, q.name ∉ fs.map Prod.fst → ∃ x, r .ignored q.src = .ok x) ∧
      ∃ ds, d = .list ds ∧ List.Forall₂ (FieldFrom r l) fs ds := by
  simp only [visitStruct, dbind_ok, dmap_ok]
  constructor
  · rintro ⟨acc, h, ds, h', rfl⟩
    have hl := (fields_once hn ha h).1
    obtain ⟨h1, h2, h3⟩ := fields_sound hn ha h
    exact ⟨hl, h1, ds, rfl, (gather_iff hl (fun p hp => (h2 p hp).resolve_left (by simp)) h3 fs [] ds rfl).1 h'⟩
  · rintro ⟨hl, h1, ds, rfl, h2⟩
    obtain ⟨acc, h⟩ := fields_complete (acc := []) hn ha hl (by simp) h1 (fun q hq f hf he => by
      obtain ⟨i, hi, hfi⟩ := List.mem_iff_getElem.1 hf
      have hlen := h2.length_eq
      have := (List.forall₂_iff_get.1 h2).2 i hi (hlen ▸ hi)
      rw [List.get_eq_getElem, hfi] at this
      rcases this with ⟨q', hq', hn', hd⟩ | ⟨hno, -⟩
      · have : q' = q := ksOnce_inj hl hq' hq (hn'.trans he) (hn' ▸ List.mem_map_of_mem hf)
        subst this
        exact ⟨_, hd⟩
      · exact absurd (List.mem_map.2 ⟨q, hq, he.symm⟩) hno)
    obtain ⟨-, h3, h4⟩ := fields_sound hn ha h
    exact ⟨acc, h, ds, (gather_iff hl (fun p hp => (h3 p hp).resolve_left (by simp)) h4 fs [] ds rfl).2 h2, rfl⟩

theorem visitStruct_map_iff (hn : (fs.map Prod.fst).Nodup) {l : List KS} (hl : (l.map KS.name).Nodup)
    (ha : ∀ q ∈ l, ask E q.key .identifier = .str q.name) {d : Datum} :
    visitStruct E r fs (.map (l.map fun q => (q.key, q.src))) = .ok d ↔
      (∀ q ∈ l, q.name ∉ fs.map Prod.fst → ∃ x, r .ignored q.src = .ok x) ∧
      ∃ ds, d = .list ds ∧ List.Forall₂ (FieldFrom r l) fs ds := by
  rw [visitStruct_map_once hn fun q hq => names_str (ha q hq)]
  exact ⟨fun h => h.2, fun h => ⟨ksOnce_nodup hl, h⟩⟩

end

end De

end Verif
