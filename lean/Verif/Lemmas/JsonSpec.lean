import Verif.Model.JsonSpec
import Verif.Spec.JsonSpec
import Verif.Lemmas.EvalWF
/-! Helper lemmas for the JSON conversion. -/

namespace Verif
open Spec

theorem field_objInsert (k k' : Str) (e : Expr) (m : List (ObjKey × Expr)) :
    field k (objInsert (.expr (.string k')) e m) = if k' = k then some e else field k m := by
  induction m with
  | nil => simp [objInsert, field]
  | cons p m ih =>
    obtain ⟨key, v⟩ := p
    simp only [objInsert]
    by_cases hb : ObjKey.beq key (.expr (.string k')) = true
    · rw [if_pos hb]
      cases key with
      | ident x => simp [ObjKey.beq] at hb
      | expr x =>
        cases x <;> simp [ObjKey.beq, Expr.beq] at hb
        subst hb
        simp only [field]
        split <;> rfl
    · rw [if_neg hb]
      cases key with
      | ident x => simp only [field]; exact ih
      | expr x =>
        cases x <;> simp only [field] <;> try exact ih
        rename_i s
        have hs : s ≠ k' := by intro h; subst h; simp [ObjKey.beq, Expr.beq] at hb
        by_cases h1 : s = k
        · rw [if_pos h1, if_pos h1, if_neg (by rintro rfl; exact hs h1)]
        · rw [if_neg h1, if_neg h1]; exact ih

theorem field_fold (k : Str) (es : List (Str × JNode)) (h : (es.map Prod.fst).Nodup)
    (m : List (ObjKey × Expr)) :
    field k ((JNode.entriesToExpr es).foldl (fun m e => objInsert e.1 e.2 m) m) =
      match Map.get? k es with
      | some n => some n.toExpr
      | none => field k m := by
  induction es generalizing m with
  | nil => simp [JNode.entriesToExpr, Map.get?]
  | cons p es ih =>
    obtain ⟨k', n⟩ := p
    simp only [List.map_cons, List.nodup_cons] at h
    simp only [JNode.entriesToExpr, List.foldl_cons]
    rw [ih h.2, field_objInsert]
    simp only [Map.get?]
    by_cases hk : k' = k
    · subst hk
      have : Map.get? k' es = none := by
        cases hg : Map.get? k' es with
        | none => rfl
        | some v => exact absurd (List.mem_map_of_mem (f := Prod.fst) (Map.get?_mem hg)) h.1
      simp [this]
    · simp [hk]

theorem field_object (k : Str) (es : List (Str × JNode)) (h : (es.map Prod.fst).Nodup) :
    field k (objCollect (JNode.entriesToExpr es)) = (Map.get? k es).map JNode.toExpr := by
  unfold objCollect
  rw [field_fold k es h]
  cases Map.get? k es <;> rfl

theorem mergeAll_one (m : List (Str × JNode)) (k : Str) (n : JNode) :
    JNode.mergeAll m [(k, n)] = Map.insert k (match Map.get? k m with
      | some old => JNode.merge old n
      | none => n) m := by
  simp only [JNode.mergeAll]
  cases Map.get? k m <;> rfl

theorem mergeAll_one_nil (k : Str) (n : JNode) : JNode.mergeAll [] [(k, n)] = [(k, n)] := rfl

/-- What the node map looks like along the path `p` when the blocks with exactly this path have
produced `bs` so far. -/
def Inv : List Str → List (Str × JNode) → List Expr → Prop
  | [], _, _ => False
  | [k], m, bs => (m.map Prod.fst).Nodup ∧ match Map.get? k m with
    | none => bs = []
    | some (.body l) => l = bs ∧ bs ≠ []
    | some _ => False
  | k :: k2 :: ks, m, bs => (m.map Prod.fst).Nodup ∧ match Map.get? k m with
    | none => bs = []
    | some (.map m') => Inv (k2 :: ks) m' bs
    | some _ => False

theorem Inv.nil (p : List Str) (h : p ≠ []) : Inv p [] [] := by
  match p, h with
  | [k], _ => simp [Inv, Map.get?]
  | k :: k2 :: ks, _ => simp [Inv, Map.get?]

theorem Inv.nodup {p : List Str} {m : List (Str × JNode)} {bs : List Expr} (h : Inv p m bs) :
    (m.map Prod.fst).Nodup := by
  match p, h with
  | [k], h => exact h.1
  | k :: k2 :: ks, h => exact h.1

/-- Changing another key does not matter. -/
theorem Inv.insert_ne {p : List Str} {m : List (Str × JNode)} {bs : List Expr} (h : Inv p m bs)
    {k : Str} (hk : p.head? ≠ some k) (n : JNode) : Inv p (Map.insert k n m) bs := by
  match p, h with
  | [k'], h =>
    have : Map.get? k' (Map.insert k n m) = Map.get? k' m := by
      rw [Map.get?_insert, if_neg (by rintro rfl; exact hk rfl)]
    exact ⟨Map.nodup_insert h.1, by rw [this]; exact h.2⟩
  | k' :: k2 :: ks, h =>
    have : Map.get? k' (Map.insert k n m) = Map.get? k' m := by
      rw [Map.get?_insert, if_neg (by rintro rfl; exact hk rfl)]
    exact ⟨Map.nodup_insert h.1, by rw [this]; exact h.2⟩

theorem Inv.merge (x : Expr) (ls : List Label) : ∀ (p : List Str) (i : Str) (m : List (Str × JNode))
    (bs : List Expr), Inv p m bs →
    (blockPath i ls = p ∨ ¬ (blockPath i ls <+: p ∨ p <+: blockPath i ls)) →
    Inv p (JNode.mergeAll m [(i, blockNode x ls)]) (if blockPath i ls = p then bs ++ [x] else bs) := by
  induction ls with
  | nil =>
    intro p i m bs h hp
    rw [mergeAll_one]
    simp only [blockPath, List.map_nil] at hp ⊢
    rcases hp with rfl | hp
    · rw [if_pos rfl]
      refine ⟨Map.nodup_insert h.1, ?_⟩
      rw [Map.get?_insert, if_pos rfl]
      obtain ⟨_, h⟩ := h
      revert h
      cases Map.get? i m with
      | none => intro h; subst h; simp [blockNode]
      | some n =>
        cases n with
        | body l => rintro ⟨rfl, hn⟩; simp [blockNode, JNode.merge]
        | map es => intro h; exact h.elim
        | expr e => intro h; exact h.elim
    · have hne : p.head? ≠ some i := by
        intro he
        match p, h, he with
        | k :: ks, _, he =>
          simp only [List.head?_cons, Option.some.injEq] at he
          subst he
          exact hp (.inl ⟨ks, rfl⟩)
      rw [if_neg (fun he => hne (by rw [← he]; rfl))]
      exact h.insert_ne hne _
  | cons l ls ih =>
    intro p i m bs h hp
    rw [mergeAll_one]
    by_cases hne : p.head? = some i
    case neg =>
      rw [if_neg (fun he => hne (by rw [← he]; rfl))]
      exact h.insert_ne hne _
    match p, h, hne with
    | [k], h, hne =>
      simp only [List.head?_cons, Option.some.injEq] at hne
      subst hne
      exfalso
      rcases hp with hp | hp
      · simp [blockPath] at hp
      · exact hp (.inr ⟨_, rfl⟩)
    | k :: k2 :: ks, h, hne =>
      simp only [List.head?_cons, Option.some.injEq] at hne
      subst hne
      have hp' : blockPath l.asStr ls = k2 :: ks ∨
          ¬ (blockPath l.asStr ls <+: k2 :: ks ∨ k2 :: ks <+: blockPath l.asStr ls) := by
        rcases hp with hp | hp
        · left
          simpa [blockPath] using hp
        · right
          intro hh
          apply hp
          simpa [blockPath, List.cons_prefix_cons] using hh
      have hiff : (blockPath k (l :: ls) = k :: k2 :: ks) ↔ (blockPath l.asStr ls = k2 :: ks) := by
        simp [blockPath]
      obtain ⟨hnd, h⟩ := h
      refine ⟨Map.nodup_insert hnd, ?_⟩
      rw [Map.get?_insert, if_pos rfl]
      revert h
      cases Map.get? k m with
      | none =>
        intro h
        subst h
        have := ih (k2 :: ks) l.asStr [] [] (Inv.nil _ (by simp)) hp'
        rw [mergeAll_one_nil] at this
        simp only [blockNode, hiff]
        exact this
      | some n =>
        cases n with
        | body l => intro h; exact h.elim
        | expr e => intro h; exact h.elim
        | map m' =>
          intro h
          have := ih (k2 :: ks) l.asStr m' bs h hp'
          simp only [blockNode, JNode.merge, hiff]
          exact this

theorem bodyNodes_inv {p : List Str} (b : List Struct) : ∀ (m : List (Str × JNode)) (bs : List Expr),
    Inv p m bs → NoClash p b →
    Inv p (bodyNodes m b) (bs ++ (blocksAt p b).map bodyToJson) := by
  induction b with
  | nil => intro m bs h _; simpa [bodyNodes, blocksAt] using h
  | cons s b ih =>
    intro m bs h hc
    have hs := hc s (by simp)
    have hb : NoClash p b := fun t ht => hc t (by simp [ht])
    cases s with
    | attr k e =>
      simp only [bodyNodes, structNodes, blocksAt]
      exact ih _ _ (h.insert_ne hs _) hb
    | block i ls bd =>
      simp only [bodyNodes, structNodes, blocksAt]
      have := ih _ _ (h.merge (JNode.map (bodyNodes [] bd)).toExpr ls p i m bs hs) hb
      by_cases hp : blockPath i ls = p
      · rw [if_pos hp] at this ⊢
        simpa [bodyToJson] using this
      · rw [if_neg hp] at this ⊢
        exact this

theorem Inv.at {p : List Str} : ∀ {m : List (Str × JNode)} {bs : List Expr}, Inv p m bs → bs ≠ [] →
    at? p (JNode.map m).toExpr = some (match bs with | [b] => b | bs => .array bs) := by
  induction p with
  | nil => intro m bs h; exact h.elim
  | cons k ks ih =>
    intro m bs h hne
    have hf := field_object k m h.nodup
    simp only [JNode.toExpr, at?, hf]
    cases ks with
    | nil =>
      obtain ⟨_, h⟩ := h
      revert h
      cases Map.get? k m with
      | none => intro h; exact absurd h hne
      | some n =>
        cases n with
        | body l => rintro ⟨rfl, _⟩; simp only [Option.map_some, Option.bind_some, at?, JNode.toExpr]; rcases l with _ | ⟨a, _ | ⟨b, l⟩⟩ <;> rfl
        | map es => intro h; exact h.elim
        | expr e => intro h; exact h.elim
    | cons k2 ks =>
      obtain ⟨_, h⟩ := h
      revert h
      cases Map.get? k m with
      | none => intro h; exact absurd h hne
      | some n =>
        cases n with
        | body l => intro h; exact h.elim
        | expr e => intro h; exact h.elim
        | map m' => intro h; exact ih h hne

theorem structNodes_nodup {m : List (Str × JNode)} (h : (m.map Prod.fst).Nodup) (s : Struct) :
    ((structNodes m s).map Prod.fst).Nodup := by
  cases s with
  | attr k e => exact Map.nodup_insert h
  | block i ls b => simp only [structNodes, mergeAll_one]; exact Map.nodup_insert h

theorem structNodes_get {m : List (Str × JNode)} {s : Struct} {k : Str} (h : structName s ≠ k) :
    Map.get? k (structNodes m s) = Map.get? k m := by
  cases s with
  | attr k' e => simp only [structNodes, Map.get?_insert]; exact if_neg h
  | block i ls b => simp only [structNodes, mergeAll_one, Map.get?_insert]; exact if_neg h

theorem bodyNodes_nodup (b : List Struct) : ∀ {m : List (Str × JNode)}, (m.map Prod.fst).Nodup →
    ((bodyNodes m b).map Prod.fst).Nodup := by
  induction b with
  | nil => intro m h; exact h
  | cons s b ih => intro m h; exact ih (structNodes_nodup h s)

theorem bodyNodes_get (b : List Struct) : ∀ {m : List (Str × JNode)} {k : Str},
    (∀ s ∈ b, structName s ≠ k) → Map.get? k (bodyNodes m b) = Map.get? k m := by
  induction b with
  | nil => intro m k _; rfl
  | cons s b ih =>
    intro m k h
    rw [bodyNodes, ih (fun t ht => h t (by simp [ht])), structNodes_get (h s (by simp))]

theorem bodyNodes_append (m : List (Str × JNode)) (a b : List Struct) :
    bodyNodes m (a ++ b) = bodyNodes (bodyNodes m a) b := by
  induction a generalizing m with
  | nil => rfl
  | cons s a ih => simp only [List.cons_append, bodyNodes, ih]

end Verif
