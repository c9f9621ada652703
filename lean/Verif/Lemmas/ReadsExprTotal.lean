import Verif.Lemmas.ReadsExpr
/-!
From expressions: every deserialization ends.
-/

namespace Verif
open Spec De DRes Filter

variable {E : FmtEnv}

theorem visitEnum_ends {r : Ty → Src → DRes Datum} {vs : List (Str × VTy)} {name : Src} {acc : VAcc}
    (h : ∀ v ∈ vs, ∀ i, variantContent E r i acc v.2 ≠ .out) : visitEnum E r vs name acc ≠ .out := by
  refine bind_ends ?_ fun i => ?_
  · generalize ask E name .identifier = ev
    cases ev with
    | str s => exact ofOption_ends _
    | u64 n => simp only [variantOf]; split <;> exact nofun
    | _ => exact nofun
  · split
    · rename_i hv
      exact h _ (List.mem_of_getElem? hv) _
    · exact nofun

/-- The sources that are reached from an expression. -/
inductive OpSrc : Src → Prop
  | expr (e : Expr) : OpSrc (.expr e)
  | key (k : ObjKey) : OpSrc (.key k)
  | tmpl (t : TmplExpr) : OpSrc (.tmpl t)
  | unaryOp (o : UnOp) (e : Expr) : OpSrc (.unaryOp o e)
  | binaryOp (l : Expr) (o : BinOp) (r : Expr) : OpSrc (.binaryOp l o r)
  | travOp (o : TravOp) : OpSrc (.travOp o)
  | str (s : Str) : OpSrc (.str s)
  | bool (b : Bool) : OpSrc (.bool b)
  | none : OpSrc (.opt none)
  | some {s : Src} : OpSrc s → OpSrc (.opt (some s))
  | seq {ss : List Src} : (∀ s ∈ ss, OpSrc s) → OpSrc (.seq ss)
  | access {fs : List (Str × Src)} : (∀ p ∈ fs, OpSrc p.2) → OpSrc (.access fs)

def OpAcc : VAcc → Prop
  | .unitOnly => True
  | .source s => OpSrc s
  | .expr _ => False
  | .key _ => True
  | .travOp _ => True
  | .value _ => False
  | .entry s => OpSrc s

def OpEv : Ev → Prop
  | .some s => OpSrc s
  | .newtype s => OpSrc s
  | .seq ss _ => ∀ s ∈ ss, OpSrc s
  | .map es => ∀ p ∈ es, OpSrc p.1 ∧ OpSrc p.2
  | .enum name acc => OpSrc name ∧ OpAcc acc
  | _ => True

theorem opEv_number (n : N) : OpEv (number n) := by
  cases n <;> trivial

theorem opEv_exprs (es : List Expr) (b : Bool) : OpEv (.seq (exprs es) b) := by
  intro s hs
  obtain ⟨e, -, rfl⟩ := List.mem_map.1 hs
  exact .expr e

theorem opEv_entries (es : List (ObjKey × Expr)) : OpEv (.map (entries es)) := by
  intro s hs
  obtain ⟨p, -, rfl⟩ := List.mem_map.1 hs
  exact ⟨.key _, .expr _⟩

theorem opEv_named {fs : List (Str × Src)} (h : ∀ p ∈ fs, OpSrc p.2) : OpEv (.map (named fs)) := by
  intro s hs
  obtain ⟨p, hp, rfl⟩ := List.mem_map.1 hs
  exact ⟨.str _, h p hp⟩

theorem opEv_any : ∀ e : Expr, OpEv (exprAny E e)
  | .null => trivial
  | .bool _ => trivial
  | .number n => opEv_number n
  | .string _ => trivial
  | .array es => opEv_exprs es false
  | .object es => opEv_entries es
  | .template _ => trivial
  | .var _ => trivial
  | .traversal _ _ => trivial
  | .call _ _ _ => trivial
  | .paren e => opEv_any e
  | .cond _ _ _ => trivial
  | .unary _ _ => trivial
  | .binary _ _ _ => trivial
  | .forE _ _ _ _ _ _ _ => trivial
termination_by structural x => x

theorem opEv_string (e : Expr) : OpEv (exprString E e) := by
  rw [exprString_text]; trivial

theorem opSrc_part {e : Expr} {ps : List (Str × Src)} (h : partsOf e = some ps) : ∀ p ∈ ps, OpSrc p.2 := by
  have hl : ∀ {α : Type} (f : α → Src) (l : List α), (∀ a, OpSrc (f a)) → OpSrc (.seq (l.map f)) := by
    intro α f l h
    refine .seq fun s hs => ?_
    obtain ⟨a, -, rfl⟩ := List.mem_map.1 hs
    exact h a
  have ho : ∀ {α : Type} (f : α → Src) (o : Option α), (∀ a, OpSrc (f a)) → OpSrc (.opt (o.map f)) := by
    intro α f o h
    cases o with
    | none => exact .none
    | some a => exact .some (h a)
  cases e with
  | cond c a b => cases h; simp [OpSrc.expr]
  | traversal e os =>
    cases h
    simp only [List.forall_mem_cons, List.not_mem_nil, false_imp_iff, implies_true, and_true]
    exact ⟨.expr e, hl _ _ .travOp⟩
  | call f args x =>
    cases h
    simp only [List.forall_mem_cons, List.not_mem_nil, false_imp_iff, implies_true, and_true]
    refine ⟨.access ?_, hl _ _ .expr, .bool x⟩
    simp only [List.forall_mem_cons, List.not_mem_nil, false_imp_iff, implies_true, and_true]
    exact ⟨hl _ _ .str, .str _⟩
  | forE k v c ke ve g ce =>
    cases h
    simp only [List.forall_mem_cons, List.not_mem_nil, false_imp_iff, implies_true, and_true]
    exact ⟨ho _ _ .str, .str v, .expr c, ho _ _ .expr, .expr ve, .bool g, ho _ _ .expr⟩
  | unary o e => cases o <;> cases h <;> simp [OpSrc.expr, OpSrc.str]
  | binary l o r => cases h; simp [OpSrc.expr, OpSrc.str]
  | template t =>
    rcases t with t | ⟨d, t, m⟩
    · cases h
    · cases m <;> cases h <;> simp [OpSrc.str]
  | _ => cases h

theorem opEv_map (E : FmtEnv) (e : Expr) : OpEv (exprMap e) := by
  cases hq : partsOf e with
  | some ps =>
    rw [(exprMap_parts (E := E) hq).1]
    exact opEv_named (opSrc_part hq)
  | none =>
    cases e with
    | object es => exact opEv_entries es
    | template w =>
      rcases w with w | ⟨a, w, m⟩
      · trivial
      · cases m <;> cases hq
    | unary o w => cases o <;> cases hq
    | traversal _ _ => cases hq
    | call _ _ _ => cases hq
    | cond _ _ _ => cases hq
    | binary _ _ _ => cases hq
    | forE _ _ _ _ _ _ _ => cases hq
    | _ => trivial

theorem opEv_seq (e : Expr) : OpEv (exprSeq e) := by
  cases e with
  | array es => exact opEv_exprs es false
  | _ => trivial

theorem opEv_unary (o : UnOp) (e : Expr) : OpEv (unaryAny o e) :=
  opEv_named (by simp [unaryAccess, OpSrc.expr, OpSrc.str])

theorem opEv_binary (l : Expr) (o : BinOp) (r : Expr) : OpEv (binaryAny l o r) :=
  opEv_named (by simp [binaryAccess, OpSrc.expr, OpSrc.str])

theorem opEv_tmpl (t : TmplExpr) : OpEv (tmplAny t) := by
  cases t with
  | quoted s => trivial
  | heredoc d t m => exact opEv_named (by simp [heredocAccess, OpSrc.str])

theorem opEv_key (k : ObjKey) : OpEv (keyAny E k) := by
  cases k with
  | ident x => trivial
  | expr e => exact opEv_any e

theorem opEv_trav (o : TravOp) : OpEv (travAny E o) := by
  cases o with
  | index e => exact opEv_any e
  | _ => trivial

theorem opEv_enum {n : Str} (hn : n ≠ c!"$hcl::Expression") (e : Expr) : OpEv (exprEnum n e) := by
  simp only [exprEnum, if_neg hn]
  cases e with
  | string s => exact ⟨.str s, trivial⟩
  | object es =>
    cases es with
    | nil => trivial
    | cons p es => exact ⟨.key _, OpSrc.expr _⟩
  | unary o e => exact ⟨.str _, OpSrc.unaryOp o e⟩
  | binary l o r => exact ⟨.str _, OpSrc.binaryOp l o r⟩
  | template t => exact ⟨.str _, OpSrc.tmpl t⟩
  | _ => trivial

theorem opEv_expr (e : Expr) {r : Req} (hr : r ≠ .enum c!"$hcl::Expression") : OpEv (exprAsk E e r) := by
  cases r with
  | any => exact opEv_any e
  | bool => cases e <;> trivial
  | num =>
    cases e with
    | number n => exact opEv_number n
    | _ => trivial
  | char => exact opEv_string e
  | str => exact opEv_string e
  | identifier => exact opEv_string e
  | bytes =>
    cases e with
    | array es => exact opEv_exprs es false
    | _ => trivial
  | option =>
    cases e with
    | null => trivial
    | _ => exact OpSrc.expr _
  | unit => cases e <;> trivial
  | newtype n => exact OpSrc.expr e
  | seq => exact opEv_seq e
  | tuple => exact opEv_seq e
  | tupleStruct => exact opEv_seq e
  | map => exact opEv_map E e
  | struct =>
    have h := opEv_map E e
    cases e with
    | array es => exact opEv_exprs es false
    | _ => exact h
  | enum n => exact opEv_enum (fun h => hr (h ▸ rfl)) e
  | ignored => trivial

/-- What a source gives are again sources of this kind. -/
theorem opEv_ask {s : Src} (h : OpSrc s) {r : Req} (hr : r ≠ .enum c!"$hcl::Expression") : OpEv (ask E s r) := by
  cases h with
  | expr e => exact opEv_expr e hr
  | key k =>
    cases r with
    | enum n => exact ⟨.str _, trivial⟩
    | _ => exact opEv_key k
  | tmpl t =>
    cases r with
    | enum n => exact ⟨.str _, OpSrc.tmpl t⟩
    | _ => exact opEv_tmpl t
  | unaryOp o e =>
    cases r with
    | enum n => exact ⟨.str _, OpSrc.unaryOp o e⟩
    | _ => exact opEv_unary o e
  | binaryOp l o e =>
    cases r with
    | enum n => exact ⟨.str _, OpSrc.binaryOp l o e⟩
    | _ => exact opEv_binary l o e
  | travOp o =>
    cases r with
    | enum n => exact ⟨.str _, trivial⟩
    | _ => exact opEv_trav o
  | str s =>
    cases r with
    | enum n => exact ⟨.str _, trivial⟩
    | _ => trivial
  | bool b => cases r <;> trivial
  | none => cases r <;> trivial
  | some h => cases r <;> exact h
  | seq h => cases r <;> exact h
  | @access fs h =>
    cases r with
    | enum n =>
      cases fs with
      | nil => trivial
      | cons p fs => exact ⟨.str _, h p (by simp)⟩
    | _ => cases fs <;> exact opEv_named h

/-! ### The types that take everything -/

theorem string_ends {n : Nat} (hn : 1 ≤ n) (s : Src) : de E n .string s ≠ .out := by
  obtain ⟨m, rfl⟩ : ∃ m, n = m + 1 := ⟨n - 1, by omega⟩
  change visitStr some .str (ask E s .str) ≠ _
  generalize ask E s .str = ev
  cases ev <;> exact nofun

theorem source_ignored {s : Src} (h : OpSrc s) : ∀ᶠ n in atTop, de E n .ignored s ≠ .out := by
  have fin : ∀ {fs : List (Str × Src)}, (∀ p ∈ fs, ∀ᶠ n in atTop, de E n .ignored p.2 ≠ .out) →
      ∀ᶠ n in atTop, visitIgnored (de E n) (.map (named fs)) ≠ .out := by
    intro fs h
    filter_upwards [eventually_list h, eventually_ge_atTop 1] with n h1 h2
    refine map_ends (each_ends fun q hq => ?_)
    obtain ⟨p, hp, rfl⟩ := List.mem_map.1 hq
    obtain ⟨m, rfl⟩ : ∃ m, n = m + 1 := ⟨n - 1, by omega⟩
    exact bind_ends (by exact nofun) fun _ => h1 p hp
  have ok : ∀ {s : Src}, Deserializes E .ignored s .unit → ∀ᶠ n in atTop, de E n .ignored s ≠ .out := by
    intro s h
    filter_upwards [h.eventually] with n h
    rw [h]; exact nofun
  have hs : ∀ x : Str, ∀ᶠ n in atTop, de E n .ignored (.str x) ≠ .out := fun x => ok ⟨1, rfl⟩
  have he : ∀ x : Expr, ∀ᶠ n in atTop, de E n .ignored (.expr x) ≠ .out := fun x => ok (des_ignored_expr x)
  induction h with
  | expr e => exact he e
  | key k => filter_upwards [ignored_key (E := E) k] with n h; rw [h]; exact nofun
  | tmpl t =>
    refine shift ?_
    cases t with
    | quoted s => exact .of_forall fun _ => nofun
    | heredoc d t m => exact fin (by simp only [heredocAccess, List.forall_mem_cons, List.not_mem_nil, false_imp_iff, implies_true, and_true]; exact ⟨hs _, hs _, hs _⟩)
  | unaryOp o e => exact shift (fin (by simp only [unaryAccess, List.forall_mem_cons, List.not_mem_nil, false_imp_iff, implies_true, and_true]; exact ⟨hs _, he _⟩))
  | binaryOp l o r => exact shift (fin (by simp only [binaryAccess, List.forall_mem_cons, List.not_mem_nil, false_imp_iff, implies_true, and_true]; exact ⟨he _, hs _, he _⟩))
  | travOp o => exact ok (ignored_op o)
  | str s => exact hs s
  | bool b => exact ok ⟨1, rfl⟩
  | none => exact ok ⟨1, rfl⟩
  | some _ ih => exact shift ih
  | seq _ ih =>
    refine shift ?_
    filter_upwards [eventually_list ih] with n h
    exact map_ends (each_ends h)
  | @access fs _ ih => exact shift (by cases fs <;> exact fin ih)

/-- A list or object of which all parts are done. -/
theorem value_seq {ss : List Src} {b : Bool} (h : ∀ s ∈ ss, ∀ᶠ n in atTop, de E n .value s ≠ .out) :
    ∀ᶠ n in atTop, visitValue (de E n) (.seq ss b) ≠ .out := by
  filter_upwards [eventually_list h] with n h
  exact map_ends (each_ends fun s hs => bind_ends (h s hs) fun _ => ofOption_ends _)

theorem value_map {es : List (Src × Src)} (h : ∀ p ∈ es, ∀ᶠ n in atTop, de E n .value p.2 ≠ .out) :
    ∀ᶠ n in atTop, visitValue (de E n) (.map es) ≠ .out := by
  filter_upwards [eventually_list h, eventually_ge_atTop 1] with n h h1
  exact map_ends (each_ends fun p hp => bind_ends (string_ends h1 _) fun _ => bind_ends (ofOption_ends _) fun _ =>
    bind_ends (h p hp) fun _ => bind_ends (ofOption_ends _) nofun)

theorem value_of {s : Src} (h : ∀ᶠ n in atTop, visitValue (de E n) (ask E s .any) ≠ .out) :
    ∀ᶠ n in atTop, de E n .value s ≠ .out := by
  refine shift ?_
  filter_upwards [h] with n h
  exact map_ends h

mutual
theorem value_any : ∀ e : Expr, ∀ᶠ n in atTop, visitValue (de E n) (exprAny E e) ≠ .out
  | .null => .of_forall fun _ => nofun
  | .bool _ => .of_forall fun _ => nofun
  | .number n => .of_forall fun _ => by cases n <;> exact nofun
  | .string _ => .of_forall fun _ => nofun
  | .array es => value_seq fun s hs => by
    obtain ⟨e, he, rfl⟩ := List.mem_map.1 hs
    exact value_exprs es e he
  | .object es => value_map fun s hs => by
    obtain ⟨p, hp, rfl⟩ := List.mem_map.1 hs
    exact value_entries es p hp
  | .template _ => .of_forall fun _ => nofun
  | .var _ => .of_forall fun _ => nofun
  | .traversal _ _ => .of_forall fun _ => nofun
  | .call _ _ _ => .of_forall fun _ => nofun
  | .paren e => value_any e
  | .cond _ _ _ => .of_forall fun _ => nofun
  | .unary _ _ => .of_forall fun _ => nofun
  | .binary _ _ _ => .of_forall fun _ => nofun
  | .forE _ _ _ _ _ _ _ => .of_forall fun _ => nofun
termination_by structural x => x
theorem value_exprs : ∀ es : List Expr, ∀ e ∈ es, ∀ᶠ n in atTop, de E n .value (.expr e) ≠ .out
  | [], _, h => absurd h (by simp)
  | e' :: es, e, h => by
    have h1 : ∀ᶠ n in atTop, de E n .value (.expr e') ≠ .out := value_of (value_any e')
    have h2 := value_exprs es
    rcases List.mem_cons.1 h with rfl | h
    · exact h1
    · exact h2 e h
termination_by structural x => x
theorem value_entries : ∀ es : List (ObjKey × Expr), ∀ p ∈ es, ∀ᶠ n in atTop, de E n .value (.expr p.2) ≠ .out
  | [], _, h => absurd h (by simp)
  | q :: es, p, h => by
    have h1 := value_entry q
    have h2 := value_entries es
    rcases List.mem_cons.1 h with rfl | h
    · exact h1
    · exact h2 p h
termination_by structural x => x
theorem value_entry : ∀ p : ObjKey × Expr, ∀ᶠ n in atTop, de E n .value (.expr p.2) ≠ .out
  | (_, e) => value_of (value_any e)
termination_by structural x => x
end

theorem source_value {s : Src} (h : OpSrc s) : ∀ᶠ n in atTop, de E n .value s ≠ .out := by
  have fin : ∀ {fs : List (Str × Src)}, (∀ p ∈ fs, ∀ᶠ n in atTop, de E n .value p.2 ≠ .out) →
      ∀ᶠ n in atTop, visitValue (de E n) (.map (named fs)) ≠ .out := by
    intro fs h
    refine value_map fun q hq => ?_
    obtain ⟨p, hp, rfl⟩ := List.mem_map.1 hq
    exact h p hp
  have hs : ∀ x : Str, ∀ᶠ n in atTop, de E n .value (.str x) ≠ .out := fun x =>
    value_of (.of_forall fun _ => nofun)
  have he : ∀ x : Expr, ∀ᶠ n in atTop, de E n .value (.expr x) ≠ .out := fun x => value_of (value_any x)
  induction h with
  | expr e => exact he e
  | key k =>
    refine value_of ?_
    cases k with
    | ident x => exact .of_forall fun _ => nofun
    | expr e => exact value_any e
  | tmpl t =>
    refine value_of ?_
    cases t with
    | quoted s => exact .of_forall fun _ => nofun
    | heredoc d t m => exact fin (by simp only [heredocAccess, List.forall_mem_cons, List.not_mem_nil, false_imp_iff, implies_true, and_true]; exact ⟨hs _, hs _, hs _⟩)
  | unaryOp o e => exact value_of (fin (by simp only [unaryAccess, List.forall_mem_cons, List.not_mem_nil, false_imp_iff, implies_true, and_true]; exact ⟨hs _, he _⟩))
  | binaryOp l o r => exact value_of (fin (by simp only [binaryAccess, List.forall_mem_cons, List.not_mem_nil, false_imp_iff, implies_true, and_true]; exact ⟨he _, hs _, he _⟩))
  | travOp o =>
    refine value_of ?_
    cases o with
    | index e => exact value_any e
    | _ => exact .of_forall fun _ => nofun
  | str s => exact hs s
  | bool b => exact value_of (.of_forall fun _ => nofun)
  | none => exact value_of (.of_forall fun _ => nofun)
  | some _ ih =>
    refine value_of ?_
    filter_upwards [ih] with n h
    exact bind_ends h fun _ => ofOption_ends _
  | seq _ ih => exact value_of (value_seq ih)
  | @access fs _ ih => exact value_of (by cases fs <;> exact fin ih)

/-! ### All types -/

/-- With enough steps every source is either accepted or rejected. -/
def EndsE (E : FmtEnv) (t : Ty) : Prop := ∀ s, OpSrc s → ∀ᶠ n in atTop, de E n t s ≠ .out

def EndsVE (E : FmtEnv) : VTy → Prop
  | .unit => True
  | .newtype t => EndsE E t
  | .tuple ts => ∀ t ∈ ts, EndsE E t
  | .struct fs => ∀ t ∈ fs.map Prod.snd, EndsE E t

theorem endsE_of {t : Ty} (ht : want t ≠ .enum c!"$hcl::Expression")
    (h : ∀ ev, OpEv ev → ∀ᶠ n in atTop, visit E (de E n) t ev ≠ .out) : EndsE E t :=
  fun s hs => shift (h _ (opEv_ask hs ht))

theorem endsE_tuple {ts : List Ty} (h : ∀ t ∈ ts, EndsE E t) {ev : Ev} (he : OpEv ev) :
    ∀ᶠ n in atTop, visitTuple (de E n) ts ev ≠ .out := by
  cases ev with
  | seq ss b =>
    filter_upwards [eventually_pairs fun t ht s hs => h t ht s (he s hs)] with n h
    exact visitTuple_ends h
  | _ => exact .of_forall fun _ => nofun

theorem endsE_struct {fs : List (Str × Ty)} (h : ∀ t ∈ fs.map Prod.snd, EndsE E t) {ev : Ev} (he : OpEv ev) :
    ∀ᶠ n in atTop, visitStruct E (de E n) fs ev ≠ .out := by
  cases ev with
  | map es =>
    filter_upwards [eventually_pairs fun t ht p hp => h t ht p.2 (he p hp).2,
      eventually_list fun p hp => source_ignored (E := E) (he p hp).2, eventually_ge_atTop 1] with n h h2 h1
    exact bind_ends (fields_ends h2 fun f hf e he => h _ (List.mem_map.2 ⟨f, hf, rfl⟩) e he) fun _ =>
      map_ends (gather_ends (missing_ends h1))
  | _ => exact endsE_tuple h he

theorem endsE_str {α : Type} {f : Str → Option α} {g : α → Datum} {ev : Ev} : visitStr f g ev ≠ .out := by
  cases ev with
  | str s => exact map_ends (ofOption_ends _)
  | _ => exact nofun

theorem endsE_unit {ev : Ev} {n : Nat} : visit E (de E n) .unit ev ≠ .out := by
  cases ev <;> exact nofun

theorem endsE_enum {vs : List (Str × VTy)} (h : ∀ v ∈ vs, EndsVE E v.2) {name : Src} {acc : VAcc} (ha : OpAcc acc) :
    ∀ᶠ n in atTop, visitEnum E (de E n) vs name acc ≠ .out := by
  have unit : ∀ s, ∀ᶠ n in atTop, de E n .unit s ≠ .out := fun s => shift (.of_forall fun _ => endsE_unit)
  have : ∀ v ∈ vs, ∀ᶠ n in atTop, ∀ i, variantContent E (de E n) i acc v.2 ≠ .out := by
    intro v hv
    have hv := h v hv
    obtain ⟨_, v⟩ := v
    cases v with
    | unit =>
      have : ∀ᶠ n in atTop, unitVariant (de E n) acc ≠ .out := by
        cases acc with
        | unitOnly => exact .of_forall fun _ => nofun
        | source s => filter_upwards [unit s] with n h; exact map_ends h
        | expr e => exact ha.elim
        | key k => filter_upwards [unit (.key k)] with n h; exact map_ends h
        | travOp o => filter_upwards [unit (.travOp o)] with n h; exact map_ends h
        | value v => exact ha.elim
        | entry s => filter_upwards [unit s] with n h; exact map_ends h
      filter_upwards [this] with n h i
      exact map_ends h
    | newtype t =>
      have : ∀ᶠ n in atTop, newtypeVariant (de E n) t acc ≠ .out := by
        cases acc with
        | unitOnly => exact .of_forall fun _ => nofun
        | source s => exact hv s ha
        | expr e => exact ha.elim
        | key k =>
          cases k with
          | ident x => exact hv _ (.key _)
          | expr e => exact hv _ (.expr e)
        | travOp o =>
          cases o with
          | index e => exact hv _ (.expr e)
          | getAttr x => exact hv _ (.str x)
          | _ => exact hv _ (.travOp _)
        | value v => exact ha.elim
        | entry s => exact hv s ha
      filter_upwards [this] with n h i
      exact map_ends h
    | tuple ts =>
      have he : OpEv (VAcc.tuple E acc) := by
        cases acc with
        | unitOnly => trivial
        | source s => exact opEv_ask ha nofun
        | expr e => exact ha.elim
        | key k => exact opEv_key k
        | travOp o => exact opEv_trav o
        | value v => exact ha.elim
        | entry s => exact opEv_ask ha nofun
      filter_upwards [endsE_tuple hv he] with n h i
      exact map_ends h
    | struct fs =>
      have he : OpEv (VAcc.struct E acc) := by
        cases acc with
        | unitOnly => trivial
        | source s => exact opEv_ask ha nofun
        | expr e => exact ha.elim
        | key k => exact opEv_key k
        | travOp o => exact opEv_trav o
        | value v => exact ha.elim
        | entry s => exact opEv_ask ha nofun
      filter_upwards [endsE_struct hv he] with n h i
      exact map_ends h
  filter_upwards [eventually_list this] with n h
  exact visitEnum_ends h

mutual
theorem endsE_all : ∀ t : Ty, UserTy t → EndsE E t
  | .bool, _ => endsE_of nofun fun ev _ => .of_forall fun _ => by cases ev <;> exact nofun
  | .sint _, _ => endsE_of nofun fun ev _ => .of_forall fun _ => by
    cases ev <;> simp only [visit, visitInt] <;> (try split) <;> exact nofun
  | .uint _, _ => endsE_of nofun fun ev _ => .of_forall fun _ => by
    cases ev <;> simp only [visit, visitInt] <;> (try split) <;> exact nofun
  | .f64, _ => endsE_of nofun fun ev _ => .of_forall fun _ => by cases ev <;> exact nofun
  | .char, _ => endsE_of nofun fun ev _ => .of_forall fun _ => by
    cases ev with
    | str s => rcases s with _ | ⟨c, _ | ⟨c', s⟩⟩ <;> exact nofun
    | _ => exact nofun
  | .string, _ => endsE_of nofun fun ev _ => .of_forall fun _ => endsE_str
  | .unit, _ => endsE_of nofun fun ev _ => .of_forall fun _ => endsE_unit
  | .option t, hu => endsE_of nofun fun ev he => by
    cases ev with
    | some s =>
      filter_upwards [endsE_all t hu s he] with n h
      exact map_ends h
    | _ => exact .of_forall fun _ => nofun
  | .seq t, hu => endsE_of nofun fun ev he => by
    cases ev with
    | seq ss b =>
      filter_upwards [eventually_list fun s hs => endsE_all t hu s (he s hs)] with n h
      exact map_ends (each_ends h)
    | _ => exact .of_forall fun _ => nofun
  | .tuple ts, hu => endsE_of nofun fun ev he => endsE_tuple (endsE_tys ts hu) he
  | .map k t, hu => endsE_of nofun fun ev he => by
    cases ev with
    | map es =>
      filter_upwards [eventually_list fun p hp => endsE_all t hu.2 p.2 (he p hp).2,
        eventually_list fun p hp => endsE_all k hu.1 p.1 (he p hp).1] with n h h'
      exact map_ends (each_ends fun p hp => bind_ends (h' p hp) fun _ => bind_ends (h p hp) nofun)
    | _ => exact .of_forall fun _ => nofun
  | .newtype _ t, hu => endsE_of nofun fun ev he => by
    cases ev with
    | newtype s =>
      filter_upwards [endsE_all t hu.2 s he] with n h
      exact map_ends h
    | seq ss b =>
      filter_upwards [eventually_list fun s hs => endsE_all t hu.2 s (he s hs)] with n h
      refine bind_ends (visitTuple_ends fun t' ht s hs => ?_) fun d => ?_
      · rw [List.mem_singleton.1 ht]; exact h s hs
      · split <;> exact nofun
    | _ => exact .of_forall fun _ => nofun
  | .tupleStruct ts, hu => endsE_of nofun fun ev he => endsE_tuple (endsE_tys ts hu) he
  | .struct _ fs, hu => endsE_of nofun fun ev he => endsE_struct (endsE_fields fs hu.2) he
  | .enum _ vs, hu => endsE_of (fun h => hu.2.1 (by cases h; rfl)) fun ev he => by
    cases ev with
    | enum name acc => exact endsE_enum (endsE_variants vs hu.2.2) he.2
    | _ => exact .of_forall fun _ => nofun
  | .ignored, _ => fun _ hs => source_ignored hs
  | .value, _ => fun _ hs => source_value hs
  | .number, _ => endsE_of nofun fun ev _ => .of_forall fun _ => by
    cases ev with
    | f64 x => exact map_ends (ofOption_ends _)
    | _ => exact nofun
  | .ident, _ => endsE_of nofun fun ev _ => .of_forall fun _ => endsE_str
  | .unOp, hu => hu.elim
  | .binOp, hu => hu.elim
  | .strip, hu => hu.elim
  | .expr, hu => hu.elim
  | .body, hu => hu.elim
theorem endsE_tys : ∀ ts : List Ty, UserTys ts → ∀ t ∈ ts, EndsE E t
  | [], _, _, h => absurd h (by simp)
  | t' :: ts, hu, t, h => by
    rcases List.mem_cons.1 h with heq | h
    · rw [heq]; exact endsE_all t' hu.1
    · exact endsE_tys ts hu.2 t h
theorem endsE_fields : ∀ fs : List (Str × Ty), UserFields fs → ∀ t ∈ fs.map Prod.snd, EndsE E t
  | [], _, _, h => absurd h (by simp)
  | (_, t') :: fs, hu, t, h => by
    rcases List.mem_cons.1 h with heq | h
    · rw [heq]; exact endsE_all t' hu.1
    · exact endsE_fields fs hu.2 t h
theorem endsE_variants : ∀ vs : List (Str × VTy), UserVariants vs → ∀ v ∈ vs, EndsVE E v.2
  | [], _, _, h => absurd h (by simp)
  | (_, .unit) :: vs, hu, v, h => by
    rcases List.mem_cons.1 h with heq | h
    · rw [heq]; trivial
    · exact endsE_variants vs hu.2 v h
  | (_, .newtype t) :: vs, hu, v, h => by
    rcases List.mem_cons.1 h with heq | h
    · rw [heq]; exact endsE_all t hu.1
    · exact endsE_variants vs hu.2 v h
  | (_, .tuple ts) :: vs, hu, v, h => by
    rcases List.mem_cons.1 h with heq | h
    · rw [heq]; exact endsE_tys ts hu.1
    · exact endsE_variants vs hu.2 v h
  | (_, .struct fs) :: vs, hu, v, h => by
    rcases List.mem_cons.1 h with heq | h
    · rw [heq]; exact endsE_fields fs hu.1.2
    · exact endsE_variants vs hu.2 v h
end

theorem accepted_or_rejectedE {t : Ty} (hu : UserTy t) (e : Expr) :
    (∃ d, Deserializes E t (.expr e) d) ∨ Rejected E t (.expr e) := by
  obtain ⟨n, h⟩ := ((endsE_all (E := E) t hu) _ (.expr e)).exists
  cases hd : de E n t (.expr e) with
  | ok d => exact .inl ⟨d, n, hd⟩
  | err => exact .inr ⟨n, hd⟩
  | out => exact absurd hd h

end Verif
