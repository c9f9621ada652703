import Verif.Spec.Parts
import Verif.Lemmas.ReadsText
/-! Helpers for C68: operations read as structs and maps. -/

namespace Verif
open Spec De Filter DRes

variable {E : FmtEnv}

namespace De

theorem each_of {α β : Type} {f : α → DRes β} {b : β} : ∀ {l : List α}, (∀ a ∈ l, f a = .ok b) →
    ∃ bs, DRes.each f l = .ok bs
  | [], _ => ⟨_, rfl⟩
  | a :: l, h => by
    obtain ⟨bs, hb⟩ := each_of (l := l) fun a ha => h a (by simp [ha])
    exact ⟨b :: bs, by rw [DRes.each, h a (by simp), DRes.bind, hb]; rfl⟩

theorem each_forall {α β : Type} {f : α → DRes β} : ∀ {l : List α} {bs : List β},
    DRes.each f l = .ok bs ↔ List.Forall₂ (fun a b => f a = .ok b) l bs
  | [], bs => by
    simp only [DRes.each, List.forall₂_nil_left_iff]
    exact ⟨fun h => (DRes.ok.inj h).symm, fun h => by rw [h]⟩
  | a :: l, bs => by
    simp only [DRes.each, dbind_ok, List.forall₂_cons_left_iff, each_forall (l := l)]
    constructor
    · rintro ⟨b, h1, bs', h2, h3⟩
      exact ⟨b, bs', h1, h2, (DRes.ok.inj h3).symm⟩
    · rintro ⟨b, bs', h1, h2, rfl⟩
      exact ⟨b, h1, bs', h2, rfl⟩

theorem eventually_forall₂ {α β : Type} {P : Nat → α → β → Prop} : ∀ {l : List α} {l' : List β},
    List.Forall₂ (fun a b => ∀ᶠ n in atTop, P n a b) l l' → ∀ᶠ n in atTop, List.Forall₂ (P n) l l'
  | _, _, .nil => .of_forall fun _ => .nil
  | _, _, .cons h hs => by
    filter_upwards [h, eventually_forall₂ hs] with n h hs
    exact .cons h hs

/-! ### Every part can be ignored -/

theorem ignored_seq {ss : List Src} {ends : Bool} (h : ∀ s ∈ ss, Deserializes E .ignored s .unit) :
    ∀ᶠ n in atTop, visitIgnored (de E n) (.seq ss ends) = .ok .unit := by
  filter_upwards [eventually_list fun s hs => (h s hs).eventually] with n hn
  obtain ⟨bs, hb⟩ := each_of hn
  rw [visitIgnored, hb]; rfl

mutual
theorem ignored_any : ∀ e : Expr, ∀ᶠ n in atTop, visitIgnored (de E n) (exprAny E e) = .ok .unit
  | .null => .of_forall fun _ => rfl
  | .bool _ => .of_forall fun _ => rfl
  | .number n => .of_forall fun _ => by cases n <;> rfl
  | .string _ => .of_forall fun _ => rfl
  | .array es => ignored_seq (ends := false) fun s hs => by
    obtain ⟨e, -, rfl⟩ := List.mem_map.1 hs
    exact des_ignored_expr e
  | .object es => by
    filter_upwards [ignored_keys es] with n hn
    obtain ⟨bs, hb⟩ := each_of (f := fun p : Src × Src => (de E n .ignored p.1).bind fun _ => de E n .ignored p.2)
      (b := Datum.unit) (l := entries es) hn
    rw [exprAny, visitIgnored, hb]; rfl
  | .template _ => .of_forall fun _ => rfl
  | .var _ => .of_forall fun _ => rfl
  | .traversal _ _ => .of_forall fun _ => rfl
  | .call _ _ _ => .of_forall fun _ => rfl
  | .paren e => ignored_any e
  | .cond _ _ _ => .of_forall fun _ => rfl
  | .unary _ _ => .of_forall fun _ => rfl
  | .binary _ _ _ => .of_forall fun _ => rfl
  | .forE _ _ _ _ _ _ _ => .of_forall fun _ => rfl
termination_by structural x => x
theorem ignored_keys : ∀ es : List (ObjKey × Expr), ∀ᶠ n in atTop, ∀ p ∈ entries es,
    ((de E n .ignored p.1).bind fun _ => de E n .ignored p.2) = .ok .unit
  | [] => .of_forall fun _ _ h => absurd h (by simp [entries])
  | p :: es => by
    filter_upwards [ignored_entry p, ignored_keys es] with n h1 h2 q hq
    rcases List.mem_cons.1 hq with rfl | hq
    · exact h1
    · exact h2 q hq
termination_by structural x => x
theorem ignored_entry : ∀ p : ObjKey × Expr, ∀ᶠ n in atTop,
    ((de E n .ignored (.key p.1)).bind fun _ => de E n .ignored (.expr p.2)) = .ok .unit
  | (k, e) => by
    have h := ignored_key k
    filter_upwards [h, (des_ignored_expr (E := E) e).eventually] with n h1 h2
    rw [h1, DRes.bind, h2]
termination_by structural x => x
theorem ignored_key : ∀ k : ObjKey, ∀ᶠ n in atTop, de E n .ignored (.key k) = .ok .unit
  | .ident _ => Deserializes.eventually ⟨1, rfl⟩
  | .expr e => (Deserializes.of_eventually (t := .ignored) (s := .key (.expr e)) (d := .unit) (ignored_any e)).eventually
termination_by structural x => x
end

theorem ignored_op (o : TravOp) : Deserializes E .ignored (.travOp o) .unit := by
  refine .of_eventually ?_
  change ∀ᶠ n in atTop, visitIgnored (de E n) (travAny E o) = _
  cases o with
  | index e => exact ignored_any e
  | _ => exact .of_forall fun _ => rfl

theorem ignored_opt (o : Option Src) (h : ∀ s ∈ o, Deserializes E .ignored s .unit) :
    Deserializes E .ignored (.opt o) .unit := by
  cases o with
  | none => exact ⟨1, rfl⟩
  | some s => exact .of_eventually (h s rfl).eventually

theorem ignored_part {e : Expr} {ps : List (Str × Src)} (h : partsOf e = some ps) :
    ∀ p ∈ ps, Deserializes E .ignored p.2 .unit := by
  have hs : ∀ x : Str, Deserializes E .ignored (.str x) .unit := fun x => ⟨1, rfl⟩
  have hb : ∀ x : Bool, Deserializes E .ignored (.bool x) .unit := fun x => ⟨1, rfl⟩
  have he := des_ignored_expr (E := E)
  have hl : ∀ ss : List Src, (∀ s ∈ ss, Deserializes E .ignored s .unit) → Deserializes E .ignored (.seq ss) .unit :=
    fun ss h => .of_eventually (ignored_seq (ends := true) h)
  cases e with
  | cond c a b => cases h; simp [he]
  | traversal e os =>
    cases h
    simp only [List.forall_mem_cons, List.not_mem_nil, false_imp_iff, implies_true, and_true]
    refine ⟨he e, hl _ fun s hs => ?_⟩
    obtain ⟨o, -, rfl⟩ := List.mem_map.1 hs
    exact ignored_op o
  | call f args x =>
    cases h
    simp only [List.forall_mem_cons, List.not_mem_nil, false_imp_iff, implies_true, and_true]
    refine ⟨.of_eventually ?_, hl _ fun s hs => ?_, hb x⟩
    · have h1 : Deserializes E .ignored (.seq (f.namespaces.map .str)) .unit := hl _ fun s hs' => by
        obtain ⟨o, -, rfl⟩ := List.mem_map.1 hs'
        exact hs o
      filter_upwards [h1.eventually, (hs c!"namespace").eventually, (hs c!"name").eventually, (hs f.name).eventually]
        with n h1 h2 h3 h4
      change visitIgnored (de E n) (.map [(.str c!"namespace", .seq (f.namespaces.map .str)),
        (.str c!"name", .str f.name)]) = _
      simp only [visitIgnored, DRes.each, h1, h2, h3, h4, DRes.bind, DRes.map]
    · obtain ⟨o, -, rfl⟩ := List.mem_map.1 hs
      exact he o
  | forE k v c ke ve g ce =>
    cases h
    simp only [List.forall_mem_cons, List.not_mem_nil, false_imp_iff, implies_true, and_true]
    refine ⟨ignored_opt _ ?_, hs v, he c, ignored_opt _ ?_, he ve, hb g, ignored_opt _ ?_⟩
    · intro s h; cases k <;> cases h; exact hs _
    · intro s h; cases ke <;> cases h; exact he _
    · intro s h; cases ce <;> cases h; exact he _
  | unary o e => cases o <;> cases h <;> simp [he, hs]
  | binary l o r => cases h; simp [he, hs]
  | template t =>
    rcases t with t | ⟨d, t, m⟩
    · cases h
    · cases m <;> cases h <;> simp [hs]
  | _ => cases h

/-! ### What is visited -/

theorem exprMap_parts {e : Expr} {ps : List (Str × Src)} (h : partsOf e = some ps) :
    exprMap e = .map (named ps) ∧ exprAsk E e .struct = .map (named ps) ∧ (ps.map Prod.fst).Nodup := by
  cases e with
  | cond c a b => cases h; exact ⟨rfl, rfl, by simp⟩
  | traversal e os => cases h; exact ⟨rfl, rfl, by simp⟩
  | call f args x => cases h; exact ⟨rfl, rfl, by simp⟩
  | forE k v c ke ve g ce => cases h; exact ⟨rfl, rfl, by simp⟩
  | unary o e => cases o <;> cases h <;> exact ⟨rfl, rfl, by simp⟩
  | binary l o r => cases o <;> cases h <;> exact ⟨rfl, rfl, by simp⟩
  | template t =>
    rcases t with t | ⟨d, t, m⟩
    · cases h
    · cases m <;> cases h <;> exact ⟨rfl, rfl, by simp⟩
  | _ => cases h

theorem missing_iff {n : Nat} {t : Ty} {d : Datum} :
    de E (n + 1) t .missing = .ok d ↔ d = .none ∧ ∃ u, t = .option u := by
  constructor
  · intro h
    cases t with
    | option u => cases h; exact ⟨rfl, u, rfl⟩
    | _ => cases h
  · rintro ⟨rfl, u, rfl⟩; rfl

theorem parts_fields_sound {ps : List (Str × Src)} (hn : (ps.map Prod.fst).Nodup) {fs : List (Str × Ty)}
    (hf : (fs.map Prod.fst).Nodup) {n : Nat} {d : Datum} (h : visitStruct E (de E n) fs (.map (named ps)) = .ok d) :
    ∃ ds, d = .list ds ∧ List.Forall₂ (FieldOf E ps) fs ds := by
  let l : List KS := ps.map fun p => ⟨.str p.1, p.2, p.1⟩
  have hl : l.map KS.name = ps.map Prod.fst := by simp [l]
  have hev : named ps = l.map fun q => (q.key, q.src) := by simp [l, named]
  rw [hev, visitStruct_map_iff (E := E) hf (hl ▸ hn) (by
      intro q hq
      obtain ⟨p, -, rfl⟩ := List.mem_map.1 hq
      rfl)] at h
  obtain ⟨-, ds, rfl, hds⟩ := h
  refine ⟨ds, rfl, hds.imp fun f d => ?_⟩
  rintro (⟨q, hq, hqn, hqd⟩ | ⟨hno, hqd⟩)
  · obtain ⟨p, hp, rfl⟩ := List.mem_map.1 hq
    exact .inl ⟨p.2, hqn ▸ hp, n, hqd⟩
  · rw [hl] at hno
    cases n with
    | zero => cases hqd
    | succ n => exact .inr ⟨hno, missing_iff.1 hqd⟩

theorem parts_fields_complete {ps : List (Str × Src)} (hn : (ps.map Prod.fst).Nodup)
    (hi : ∀ p ∈ ps, Deserializes E .ignored p.2 .unit) {fs : List (Str × Ty)} (hf : (fs.map Prod.fst).Nodup)
    {ds : List Datum} (hds : List.Forall₂ (FieldOf E ps) fs ds) :
    ∀ᶠ n in atTop, visitStruct E (de E n) fs (.map (named ps)) = .ok (.list ds) := by
  let l : List KS := ps.map fun p => ⟨.str p.1, p.2, p.1⟩
  have hl : l.map KS.name = ps.map Prod.fst := by simp [l]
  have hev : named ps = l.map fun q => (q.key, q.src) := by simp [l, named]
  have h2 : ∀ᶠ n in atTop, List.Forall₂ (FieldFrom (de E n) l) fs ds := by
    refine eventually_forall₂ (hds.imp fun f d => ?_)
    rintro (⟨s, hs, hd⟩ | ⟨hno, hd⟩)
    · filter_upwards [hd.eventually] with n hn
      exact .inl ⟨⟨.str f.1, s, f.1⟩, List.mem_map.2 ⟨(f.1, s), hs, rfl⟩, rfl, hn⟩
    · filter_upwards [eventually_ge_atTop 1] with n hn
      obtain ⟨m, rfl⟩ : ∃ m, n = m + 1 := ⟨n - 1, by omega⟩
      exact .inr ⟨hl ▸ hno, missing_iff.2 hd⟩
  filter_upwards [h2, eventually_list fun p hp => (hi p hp).eventually] with n h2 h3
  rw [hev, visitStruct_map_iff (E := E) hf (hl ▸ hn) (by
      intro q hq
      obtain ⟨p, -, rfl⟩ := List.mem_map.1 hq
      rfl)]
  refine ⟨fun q hq _ => ?_, ds, rfl, h2⟩
  obtain ⟨p, hp, rfl⟩ := List.mem_map.1 hq
  exact ⟨_, h3 p hp⟩

theorem struct_parts {e : Expr} {ps : List (Str × Src)} (h : partsOf e = some ps) {x : Str}
    {fs : List (Str × Ty)} (hf : (fs.map Prod.fst).Nodup) {d : Datum} :
    Deserializes E (.struct x fs) (.expr e) d ↔ ∃ ds, d = .list ds ∧ List.Forall₂ (FieldOf E ps) fs ds := by
  obtain ⟨-, hm, hn⟩ := exprMap_parts (E := E) h
  have key : ∀ n, de E (n + 1) (.struct x fs) (.expr e) = visitStruct E (de E n) fs (.map (named ps)) := by
    intro n
    rw [← hm]; rfl
  constructor
  · rintro ⟨n, hd⟩
    cases n with
    | zero => cases hd
    | succ n => exact parts_fields_sound hn hf (key n ▸ hd)
  · rintro ⟨ds, rfl, hds⟩
    refine .of_eventually ?_
    filter_upwards [parts_fields_complete hn (ignored_part h) hf hds] with n hn
    exact (key n).trans hn

theorem parts_entries_iff {ps : List (Str × Src)} {k v : Ty} {n : Nat} {d : Datum} :
    visit E (de E n) (.map k v) (.map (named ps)) = .ok d ↔ ∃ ds, d = .map ds ∧
      List.Forall₂ (fun (p : Str × Src) d => de E n k (.str p.1) = .ok d.1 ∧ de E n v p.2 = .ok d.2) ps ds := by
  have : visit E (de E n) (.map k v) (.map (named ps)) = (DRes.each (fun p : Src × Src =>
      (de E n k p.1).bind fun x => (de E n v p.2).bind fun y => .ok (x, y)) (named ps)).map .map := rfl
  rw [this]
  simp only [dmap_ok, each_forall, named, List.forall₂_map_left_iff, dbind_ok]
  have hp : ∀ (p : Str × Src) (b : Datum × Datum), (∃ a, de E n k (.str p.1) = .ok a ∧
      ∃ a_1, de E n v p.2 = .ok a_1 ∧ DRes.ok (a, a_1) = .ok b) ↔
      (de E n k (.str p.1) = .ok b.1 ∧ de E n v p.2 = .ok b.2) := by
    intro p b
    constructor
    · rintro ⟨a, h1, a', h2, h3⟩
      cases h3
      exact ⟨h1, h2⟩
    · rintro ⟨h1, h2⟩
      exact ⟨_, h1, _, h2, rfl⟩
  simp only [hp]
  constructor
  · rintro ⟨ds, h, rfl⟩; exact ⟨ds, rfl, h⟩
  · rintro ⟨ds, rfl, h⟩; exact ⟨ds, h, rfl⟩

theorem parts_entries_sound {ps : List (Str × Src)} {k v : Ty} {n : Nat} {d : Datum}
    (h : visit E (de E n) (.map k v) (.map (named ps)) = .ok d) :
    ∃ ds, d = .map ds ∧ List.Forall₂ (EntryOf E k v) ps ds := by
  obtain ⟨ds, rfl, hds⟩ := parts_entries_iff.1 h
  exact ⟨ds, rfl, hds.imp fun p d h => ⟨⟨n, h.1⟩, ⟨n, h.2⟩⟩⟩

theorem parts_entries_complete {ps : List (Str × Src)} {k v : Ty} {ds : List (Datum × Datum)}
    (hds : List.Forall₂ (EntryOf E k v) ps ds) :
    ∀ᶠ n in atTop, visit E (de E n) (.map k v) (.map (named ps)) = .ok (.map ds) := by
  filter_upwards [eventually_forall₂ (P := fun n (p : Str × Src) d => de E n k (.str p.1) = .ok d.1 ∧
    de E n v p.2 = .ok d.2) (hds.imp fun p d h => by
      filter_upwards [h.1.eventually, h.2.eventually] with n h1 h2
      exact ⟨h1, h2⟩)] with n hn
  exact parts_entries_iff.2 ⟨ds, rfl, hn⟩

theorem map_parts {e : Expr} {ps : List (Str × Src)} (h : partsOf e = some ps) {k v : Ty} {d : Datum} :
    Deserializes E (.map k v) (.expr e) d ↔ ∃ ds, d = .map ds ∧ List.Forall₂ (EntryOf E k v) ps ds := by
  obtain ⟨hm, -, -⟩ := exprMap_parts (E := E) h
  have key : ∀ n, de E (n + 1) (.map k v) (.expr e) = visit E (de E n) (.map k v) (.map (named ps)) := by
    intro n
    rw [← hm]; rfl
  constructor
  · rintro ⟨n, hd⟩
    cases n with
    | zero => cases hd
    | succ n => exact parts_entries_sound (key n ▸ hd)
  · rintro ⟨ds, rfl, hds⟩
    refine .of_eventually ?_
    filter_upwards [parts_entries_complete hds] with n hn
    exact (key n).trans hn

theorem op_ask {e : Expr} {ps : List (Str × Src)} (h : partsOf e = some ps) :
    exprAsk E e .bool = .err ∧ exprAsk E e .num = .err ∧ exprAsk E e .unit = .err ∧ exprSeq e = .err ∧
    exprAny E e = .str (textOf E e) ∧ exprAsk E e .option = .some (.expr e) := by
  cases e with
  | template t =>
    rcases t with t | ⟨d, t, m⟩
    · cases h
    · exact ⟨rfl, rfl, rfl, rfl, rfl, rfl⟩
  | cond => exact ⟨rfl, rfl, rfl, rfl, exprString_text E _, rfl⟩
  | call => exact ⟨rfl, rfl, rfl, rfl, exprString_text E _, rfl⟩
  | forE => exact ⟨rfl, rfl, rfl, rfl, exprString_text E _, rfl⟩
  | unary => exact ⟨rfl, rfl, rfl, rfl, exprString_text E _, rfl⟩
  | binary => exact ⟨rfl, rfl, rfl, rfl, exprString_text E _, rfl⟩
  | traversal => exact ⟨rfl, rfl, rfl, rfl, exprString_text E _, rfl⟩
  | _ => cases h

theorem op_named {e : Expr} {ps : List (Str × Src)} (h : partsOf e = some ps) : Named e ∧ e ≠ .null := by
  cases e with
  | template | cond | call | forE | unary | binary | traversal => exact ⟨trivial, nofun⟩
  | _ => cases h

/-! ### The data of a variant -/

/-- The source is an object with the entries `ps`, and for an enum the variant `x` with itself as data. -/
structure OpView (E : FmtEnv) (x : Str) (ps : List (Str × Src)) (s : Src) : Prop where
  map : ∀ r, (∀ y, r ≠ .enum y) → ask E s r = .map (named ps)
  enum : ∀ y, ask E s (.enum y) = .enum (.str x) (.source s)

/-- What `deserialize_enum` finds in an operation. -/
theorem op_enum {e : Expr} {ps : List (Str × Src)} (h : partsOf e = some ps) {n : Str}
    (hn : n ≠ c!"$hcl::Expression") :
    (variantFor e = none ∧ exprEnum n e = .err) ∨
    ∃ x s, variantFor e = some x ∧ exprEnum n e = .enum (.str x) (.source s) ∧ OpView E x ps s := by
  unfold exprEnum
  rw [if_neg hn]
  cases e with
  | cond | call | forE | traversal => exact .inl ⟨rfl, rfl⟩
  | unary o e =>
    refine .inr ⟨_, .unaryOp o e, rfl, rfl, fun r hr => ?_, fun _ => rfl⟩
    cases r with
    | enum y => exact absurd rfl (hr y)
    | _ => cases o <;> cases h <;> rfl
  | binary l o r =>
    refine .inr ⟨_, .binaryOp l o r, rfl, rfl, fun r hr => ?_, fun _ => rfl⟩
    cases r with
    | enum y => exact absurd rfl (hr y)
    | _ => cases o <;> cases h <;> rfl
  | template t =>
    rcases t with t | ⟨d, t, m⟩
    · cases h
    · refine .inr ⟨_, .tmpl (.heredoc d t m), rfl, rfl, fun r hr => ?_, fun _ => rfl⟩
      cases r with
      | enum y => exact absurd rfl (hr y)
      | _ => cases m <;> cases h <;> rfl
  | _ => cases h

theorem asValue_eq {d : Datum} {v : Value} (h : asValue d = some v) : d = .value v := by
  cases d <;> cases h; rfl

theorem parts_members_sound {ps : List (Str × Src)} (hn : (ps.map Prod.fst).Nodup) {n : Nat} {v : Value}
    (h : visitValue (de E n) (.map (named ps)) = .ok v) : ∃ es, v = .object es ∧ List.Forall₂ (MemberOf E) ps es := by
  simp only [visitValue, dmap_ok, each_forall, named, List.forall₂_map_left_iff, dbind_ok] at h
  obtain ⟨es, h, rfl⟩ := h
  have h' : List.Forall₂ (MemberOf E) ps es := by
    refine h.imp fun p q => ?_
    rintro ⟨k, h1, k', h2, d, h3, v, h4, h5⟩
    cases Deserializes.unique ⟨n, h1⟩ (⟨1, rfl⟩ : Deserializes E .string (.str p.1) (.str p.1))
    rw [ofOption_ok] at h2 h4
    cases h2
    cases h5
    cases asValue_eq h4
    exact ⟨rfl, n, h3⟩
  have hk : es.map Prod.fst = ps.map Prod.fst := by
    clear h hn
    induction h' with
    | nil => rfl
    | cons h _ ih => rw [List.map_cons, List.map_cons, h.1, ih]
  exact ⟨es, by rw [Map.collect_nodup (hk ▸ hn)], h'⟩

theorem parts_members_complete {ps : List (Str × Src)} (hn : (ps.map Prod.fst).Nodup) {es : List (Str × Value)}
    (h : List.Forall₂ (MemberOf E) ps es) :
    ∀ᶠ n in atTop, visitValue (de E n) (.map (named ps)) = .ok (.object es) := by
  have hk : es.map Prod.fst = ps.map Prod.fst := by
    clear hn
    induction h with
    | nil => rfl
    | cons h _ ih => rw [List.map_cons, List.map_cons, h.1, ih]
  filter_upwards [eventually_forall₂ (P := fun n (p : Str × Src) (q : Str × Value) => q.1 = p.1 ∧
      de E n .value p.2 = .ok (.value q.2)) (h.imp fun p d h => by
        filter_upwards [h.2.eventually] with n h2
        exact ⟨h.1, h2⟩), eventually_ge_atTop 1] with n h1 h2
  obtain ⟨m, rfl⟩ : ∃ m, n = m + 1 := ⟨n - 1, by omega⟩
  simp only [visitValue, dmap_ok, each_forall, named, List.forall₂_map_left_iff, dbind_ok]
  refine ⟨es, h1.imp fun p q h => ?_, by rw [Map.collect_nodup (hk ▸ hn)]⟩
  exact ⟨.str p.1, rfl, p.1, rfl, _, h.2, q.2, rfl, by rw [← h.1]⟩

section
variable {x : Str} {s : Src} {ps : List (Str × Src)}

theorem view_enum (h : OpView E x ps s) {y : Str} {n : Nat} {vs : List (Str × VTy)} :
    visit E (de E n) (.enum y vs) (ask E s (.enum y)) = visitEnum E (de E n) vs (.str x) (.source s) := by
  rw [h.enum]; rfl

theorem view_sound (hn : (ps.map Prod.fst).Nodup)
    (hs : OpView E x ps s) :
    ∀ (n : Nat) {t : Ty} {d : Datum}, UserTy t → de E n t s = .ok d → ReadsParts E x ps t d
  | 0, _, _, _, hd => nomatch hd
  | n + 1, t, d, hu, hd => by
    have hd' : visit E (de E n) t (ask E s (want t)) = .ok d := hd
    have hm := hs.map
    cases t with
    | bool | sint | uint | f64 | char | string | unit | option | seq | tuple | tupleStruct | newtype | number | ident =>
      rw [hm _ (by nofun)] at hd'; cases hd'
    | map k v =>
      rw [hm _ (by nofun)] at hd'
      obtain ⟨ds, rfl, hds⟩ := parts_entries_sound hd'
      exact .map hds
    | struct y fs =>
      rw [hm _ (by nofun)] at hd'
      obtain ⟨ds, rfl, hds⟩ := parts_fields_sound hn hu.1 hd'
      exact .struct hds
    | enum y vs =>
      have hd : visit E (de E n) (.enum y vs) (ask E s (.enum y)) = .ok d := hd
      rw [view_enum hs] at hd
      clear hd'
      rename visitEnum E (de E n) vs (.str x) (.source s) = .ok d => hd
      obtain ⟨i, v, hv, huv, hc⟩ := enum_pick hu.1 hu.2.2 rfl hd
      cases v with
      | unit =>
        simp only [variantContent, unitVariant, dmap_ok] at hc
        obtain ⟨_, ⟨_, hc, _⟩, _⟩ := hc
        cases n with
        | zero => cases hc
        | succ n =>
          change visit E (de E n) .unit (ask E s .unit) = _ at hc
          rw [hm _ (by nofun)] at hc; cases hc
      | newtype t =>
        simp only [variantContent, newtypeVariant, dmap_ok] at hc
        obtain ⟨d, hc, rfl⟩ := hc
        exact .newtypeVar hv (view_sound hn hs n huv hc)
      | tuple ts =>
        simp only [variantContent, VAcc.tuple, hm .seq (by nofun), dmap_ok] at hc
        obtain ⟨_, hc, _⟩ := hc
        cases hc
      | struct fs =>
        simp only [variantContent, VAcc.struct, hm .map (by nofun), dmap_ok] at hc
        obtain ⟨_, hc, rfl⟩ := hc
        obtain ⟨ds, rfl, hds⟩ := parts_fields_sound hn huv.1 hc
        exact .structVar hv hds
    | ignored =>
      rw [hm _ (by nofun)] at hd'
      change (DRes.each _ _).map _ = _ at hd'
      rw [dmap_ok] at hd'
      obtain ⟨_, _, rfl⟩ := hd'
      exact .ignored
    | value =>
      rw [hm _ (by nofun)] at hd'
      change (visitValue _ _).map _ = _ at hd'
      rw [dmap_ok] at hd'
      obtain ⟨v, hv, rfl⟩ := hd'
      obtain ⟨es, rfl, hes⟩ := parts_members_sound hn hv
      exact .value hes
    | unOp | binOp | strip | expr | body => exact absurd hu id

theorem view_complete (hn : (ps.map Prod.fst).Nodup) (hi : ∀ p ∈ ps, Deserializes E .ignored p.2 .unit)
    (hs : OpView E x ps s) {t : Ty} {d : Datum} (h : ReadsParts E x ps t d) :
    UserTy t → Deserializes E t s d := by
  have hm := hs.map
  induction h with
  | ignored =>
    refine fun _ => .of_eventually ?_
    filter_upwards [eventually_list fun p hp => (hi p hp).eventually, eventually_ge_atTop 1] with n h1 h2
    obtain ⟨m, rfl⟩ : ∃ m, n = m + 1 := ⟨n - 1, by omega⟩
    change visit E (de E (m + 1)) .ignored (ask E s .ignored) = _
    rw [hm _ (by nofun)]
    obtain ⟨bs, hb⟩ := each_of (f := fun p : Src × Src => (de E (m + 1) .ignored p.1).bind fun _ => de E (m + 1) .ignored p.2)
      (b := Datum.unit) (l := named ps) (by
        intro q hq
        obtain ⟨p, hp, rfl⟩ := List.mem_map.1 hq
        exact h1 p hp)
    change (DRes.each _ _).map _ = _
    rw [hb]; rfl
  | value hv =>
    refine fun _ => .of_eventually ?_
    filter_upwards [parts_members_complete hn hv] with n h1
    change visit E (de E n) .value (ask E s .any) = _
    rw [hm _ (by nofun)]
    change (visitValue _ _).map _ = _
    rw [h1]; rfl
  | struct hds =>
    refine fun hu => .of_eventually ?_
    filter_upwards [parts_fields_complete hn hi hu.1 hds] with n h1
    change visit E (de E n) (.struct _ _) (ask E s .struct) = _
    rw [hm _ (by nofun)]
    exact h1
  | map hds =>
    refine fun hu => .of_eventually ?_
    filter_upwards [parts_entries_complete hds] with n h1
    change visit E (de E n) (.map _ _) (ask E s .map) = _
    rw [hm _ (by nofun)]
    exact h1
  | newtypeVar hv _ ih =>
    refine fun hu => .of_eventually ?_
    have hut := userVariants_get hu.2.2 _ (List.mem_of_getElem? hv)
    filter_upwards [(ih hut).eventually] with n h1
    change visit E (de E n) (.enum _ _) (ask E s (.enum _)) = _
    rw [view_enum hs]
    refine enum_completeE hu.1 rfl hv ?_
    rw [variantContent, newtypeVariant, h1]; rfl
  | structVar hv hds =>
    refine fun hu => .of_eventually ?_
    have hut := userVariants_get hu.2.2 _ (List.mem_of_getElem? hv)
    filter_upwards [parts_fields_complete hn hi hut.1 hds] with n h1
    change visit E (de E n) (.enum _ _) (ask E s (.enum _)) = _
    rw [view_enum hs]
    refine enum_completeE hu.1 rfl hv ?_
    rw [variantContent, VAcc.struct, hm .map (by nofun), h1]; rfl

end

theorem op_sound {e : Expr} {ps : List (Str × Src)} (h : partsOf e = some ps) : ∀ (n : Nat) {t : Ty} {d : Datum},
    UserTy t → de E n t (.expr e) = .ok d → ReadsOp E e ps t d
  | 0, _, _, _, hd => nomatch hd
  | n + 1, t, d, hu, hd => by
    obtain ⟨h1, h2, h3, h4, h5, h6⟩ := op_ask (E := E) h
    have hs : exprString E e = .str (textOf E e) := exprString_text E e
    have hd' : visit E (de E n) t (exprAsk E e (want t)) = .ok d := hd
    cases t with
    | bool => simp only [want, h1] at hd'; cases hd'
    | sint b => simp only [want, h2] at hd'; cases hd'
    | uint b => simp only [want, h2] at hd'; cases hd'
    | f64 => simp only [want, h2] at hd'; cases hd'
    | char =>
      change visit E (de E n) .char (exprString E e) = _ at hd'
      rw [hs] at hd'
      rcases ht : textOf E e with _ | ⟨c, _ | ⟨c', r⟩⟩
      · rw [ht] at hd'; cases hd'
      · rw [ht] at hd'; cases hd'; exact .char ht
      · rw [ht] at hd'; cases hd'
    | string =>
      change visit E (de E n) .string (exprString E e) = _ at hd'
      rw [hs] at hd'; cases hd'; exact .string
    | unit => simp only [want, h3] at hd'; cases hd'
    | option t =>
      simp only [want, h6, visit, dmap_ok] at hd'
      obtain ⟨d, h, rfl⟩ := hd'
      exact .some (op_sound ‹_› n hu h)
    | seq t => change visit E (de E n) (.seq t) (exprSeq e) = _ at hd'; rw [h4] at hd'; cases hd'
    | tuple t => change visit E (de E n) (.tuple t) (exprSeq e) = _ at hd'; rw [h4] at hd'; cases hd'
    | tupleStruct t => change visit E (de E n) (.tupleStruct t) (exprSeq e) = _ at hd'; rw [h4] at hd'; cases hd'
    | map k v =>
      obtain ⟨ds, rfl, hds⟩ := (map_parts h).1 ⟨n + 1, hd⟩
      exact .map hds
    | newtype x t =>
      have : (de E n t (.expr e)).map Datum.newtype = .ok d := hd'
      rw [dmap_ok] at this
      obtain ⟨d, h, rfl⟩ := this
      exact .newtype (op_sound ‹_› n hu.2 h)
    | struct x fs =>
      obtain ⟨ds, rfl, hds⟩ := (struct_parts h hu.1).1 ⟨n + 1, hd⟩
      exact .struct hds
    | enum x vs =>
      change visit E (de E n) (.enum x vs) (exprEnum x e) = _ at hd'
      rcases op_enum (E := E) h hu.2.1 with ⟨-, hq⟩ | ⟨y, s, hy, hq, hs⟩
      · rw [hq] at hd'; cases hd'
      · rw [hq] at hd'
        refine .enum hy (view_sound (exprMap_parts (E := E) h).2.2 hs (n + 1) hu ?_)
        change visit E (de E n) (.enum x vs) (ask E s (.enum x)) = _
        rw [view_enum hs]; exact hd'
    | ignored => cases hd'; exact .ignored
    | value =>
      cases Deserializes.unique ⟨n + 1, hd⟩ (des_named (op_named h).1)
      exact .value
    | number =>
      change visit E (de E n) .number (exprAny E e) = _ at hd'
      rw [h5] at hd'; cases hd'
    | ident =>
      change visit E (de E n) .ident (exprString E e) = _ at hd'
      rw [hs] at hd'
      obtain ⟨hi, rfl⟩ := str_ident hd'
      exact .ident hi
    | unOp | binOp | strip | expr | body => exact absurd hu id

theorem op_complete {e : Expr} {ps : List (Str × Src)} (h : partsOf e = some ps) {t : Ty} {d : Datum}
    (hr : ReadsOp E e ps t d) : UserTy t → Deserializes E t (.expr e) d := by
  induction hr with
  | string => exact fun _ => des_text_string e
  | char hc => exact fun _ => des_text_char hc
  | ident hi => exact fun _ => des_ident_text hi
  | value => exact fun _ => des_named (op_named h).1
  | ignored => exact fun _ => des_ignored_expr e
  | some _ ih => exact fun hu => option_completeE (op_named h).2 (ih hu)
  | newtype _ ih =>
    intro hu
    refine .of_eventually ?_
    filter_upwards [(ih hu.2).eventually] with n h
    show (de E n _ (.expr e)).map Datum.newtype = _
    rw [h]; rfl
  | struct hs => exact fun hu => (struct_parts h hu.1).2 ⟨_, rfl, hs⟩
  | map hs => exact fun _ => (map_parts h).2 ⟨_, rfl, hs⟩
  | enum hx hr =>
    intro hu
    rcases op_enum (E := E) h hu.2.1 with ⟨hq, -⟩ | ⟨y, s, hy, hq, hs⟩
    · rw [hq] at hx; cases hx
    · cases hy.symm.trans hx
      obtain ⟨n, hn⟩ := view_complete (exprMap_parts (E := E) h).2.2 (ignored_part h) hs hr hu
      refine ⟨n, ?_⟩
      cases n with
      | zero => cases hn
      | succ n =>
        change visit E (de E n) _ (ask E s (.enum _)) = _ at hn
        rw [hs.enum] at hn
        change visit E (de E n) _ (exprEnum _ e) = _
        rw [hq]; exact hn

/-! ### Quoted templates -/

theorem quoted_enum {x : Str} {y : Str} {n : Nat} {vs : List (Str × VTy)} :
    de E (n + 1) (.enum y vs) (.tmpl (.quoted x)) =
      visitEnum E (de E n) vs (.str c!"QuotedString") (.source (.tmpl (.quoted x))) := rfl

theorem text_sound {x : Str} : ∀ (n : Nat) {t : Ty} {d : Datum}, UserTy t → de E n t (.tmpl (.quoted x)) = .ok d →
    ReadsText E x t d
  | 0, _, _, _, hd => nomatch hd
  | n + 1, t, d, hu, hd => by
    cases t with
    | bool | sint | uint | f64 | unit | option | seq | tuple | tupleStruct | newtype | map | struct | number => cases hd
    | char =>
      obtain ⟨c, rfl, rfl⟩ := str_char (E := E) (r := de E n) hd
      exact .char rfl
    | string => cases hd; exact .string
    | ident =>
      obtain ⟨hx, rfl⟩ := str_ident (E := E) (r := de E n) hd
      exact .ident hx
    | ignored => cases hd; exact .ignored
    | value => cases hd; exact .value
    | enum y vs =>
      rw [quoted_enum] at hd
      obtain ⟨i, v, hv, huv, hc⟩ := enum_pick hu.1 hu.2.2 rfl hd
      cases v with
      | unit =>
        simp only [variantContent, unitVariant, dmap_ok] at hc
        obtain ⟨_, ⟨_, hc, _⟩, _⟩ := hc
        cases n <;> cases hc
      | newtype t =>
        simp only [variantContent, newtypeVariant, dmap_ok] at hc
        obtain ⟨d, hc, rfl⟩ := hc
        exact .newtypeVar hv (text_sound n huv hc)
      | tuple ts => cases hc
      | struct fs => cases hc
    | unOp | binOp | strip | expr | body => exact absurd hu id

theorem text_complete {x : Str} {t : Ty} {d : Datum} (h : ReadsText E x t d) :
    UserTy t → Deserializes E t (.tmpl (.quoted x)) d := by
  induction h with
  | string | value | ignored => exact fun _ => ⟨1, rfl⟩
  | char hc => subst hc; exact fun _ => ⟨1, rfl⟩
  | ident hx =>
    intro _
    obtain ⟨n, hn⟩ := des_ident (E := E) hx
    cases n with
    | zero => cases hn
    | succ n => exact ⟨n + 1, hn⟩
  | newtypeVar hv _ ih =>
    refine fun hu => .of_eventually ?_
    filter_upwards [(ih (userVariants_get hu.2.2 _ (List.mem_of_getElem? hv))).eventually] with n h1
    refine enum_completeE hu.1 (name := .str c!"QuotedString") rfl hv ?_
    rw [variantContent, newtypeVariant, h1]; rfl

theorem quoted_sound {x : Str} : ∀ (n : Nat) {t : Ty} {d : Datum}, UserTy t →
    de E n t (.expr (.template (.quoted x))) = .ok d → ReadsQuoted E x t d
  | 0, _, _, _, hd => nomatch hd
  | n + 1, t, d, hu, hd => by
    cases t with
    | option t =>
      change (de E n t _).map _ = _ at hd
      rw [dmap_ok] at hd
      obtain ⟨d, hd, rfl⟩ := hd
      exact .some (quoted_sound n hu hd)
    | newtype y t =>
      change (de E n t _).map _ = _ at hd
      rw [dmap_ok] at hd
      obtain ⟨d, hd, rfl⟩ := hd
      exact .newtype (quoted_sound n hu.2 hd)
    | enum y vs =>
      change visit E (de E n) (.enum y vs) (exprEnum y (.template (.quoted x))) = _ at hd
      simp only [exprEnum, if_neg hu.2.1] at hd
      exact .text (text_sound (n + 1) hu hd)
    | seq | tuple | tupleStruct | map | struct => cases hd
    | unOp | binOp | strip | expr | body => exact absurd hu id
    | ignored => cases hd; exact .text .ignored
    | _ => exact .text (text_sound (n + 1) hu hd)

theorem quoted_complete {x : Str} {t : Ty} {d : Datum} (h : ReadsQuoted E x t d) :
    UserTy t → Deserializes E t (.expr (.template (.quoted x))) d := by
  induction h with
  | some _ ih => exact fun hu => option_completeE nofun (ih hu)
  | newtype _ ih =>
    intro hu
    refine .of_eventually ?_
    filter_upwards [(ih hu.2).eventually] with n h
    show (de E n _ _).map Datum.newtype = _
    rw [h]; rfl
  | text h =>
    intro hu
    cases h with
    | newtypeVar hv h =>
      obtain ⟨n, hn⟩ := text_complete (.newtypeVar hv h) hu
      cases n with
      | zero => cases hn
      | succ n =>
        refine ⟨n + 1, ?_⟩
        change visit E (de E n) (.enum _ _) (exprEnum _ (.template (.quoted x))) = _
        simp only [exprEnum, if_neg hu.2.1]
        exact hn
    | ignored => exact des_ignored_expr _
    | ident hx => exact des_ident_text hx
    | string => exact des_text_string _
    | char hc => exact des_text_char hc
    | value => exact ⟨1, rfl⟩

end De

end Verif
