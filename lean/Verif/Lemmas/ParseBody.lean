import Verif.Lemmas.ParseTerm
import Verif.Model.EditParse
/-! Triples for the grammar functions of structures, and the recursive knot. -/

namespace Verif.Spec
open Gram
variable {U : Uni} {s : Str}

theorem Labels.le {ls : List ELabel} {p q : Nat} (h : Labels U s ls p q) : p ≤ q := by
  induction h with
  | nil => exact Nat.le_refl _
  | ident h _ ih => have := h.lt; omega
  | string h1 h2 _ ih => have := QuotedAt.bounds h1; have := h2.le; omega

mutual

theorem StructAt.bounds : ∀ {st a b}, StructAt U s st a b → a < b ∧ b ≤ s.length
  | _, _, _, .attr h1 h2 h3 h4 _ =>
    ⟨by have := h1.lt; have := h2.le; have := h3.le; have := h4.bounds; omega, h4.bounds.2⟩
  | _, _, _, .block h1 h2 h3 h4 h5 =>
    ⟨by have := h1.lt; have := h2.le; have := h3.le; have := h4.le; have := h5.le; omega, h5.bound⟩

theorem BlockBody.le : ∀ {bd a b}, BlockBody U s bd a b → a ≤ b
  | _, _, _, .lines h1 h2 h3 _ h5 => by
    have := h1.le; have := h2.lt; have := h3.le; have := h5.le; omega
  | _, _, _, .empty h => h.le
  | _, _, _, .single h1 h2 h3 h4 => by
    have := h1.le; have := h2.bounds; have := h3.le; have := h4.le; omega

theorem Lines.le : ∀ {ss fin a b}, Lines U s ss fin a b → a ≤ b
  | _, _, _, _, .nil => Nat.le_refl _
  | _, _, _, _, .cons h1 h2 _ h3 h4 h5 => by
    have := h1.le; have := h2.bounds; have := h3.le; have := h4.lt; have := h5.le; omega
  | _, _, _, _, .last h1 h2 _ h3 => by
    have := h1.le; have := h2.bounds; have := h3.le; omega

end

theorem Lines.at_end {ss : List EStruct} {fin : Bool} {a b : Nat} (h : Lines U s ss fin a b)
    (ha : s.length ≤ a) : ss = [] ∧ fin = false ∧ b = a := by
  cases h with
  | nil => exact ⟨rfl, rfl, rfl⟩
  | cons h1 h2 => have := h1.le; have := h2.bounds; omega
  | last h1 h2 => have := h1.le; have := h2.bounds; omega

theorem Lines.fin_end : ∀ {ss : List EStruct} {a b : Nat}, Lines U s ss true a b → b = s.length := by
  intro ss
  induction ss with
  | nil => intro a b h; cases h
  | cons st ss ih =>
    intro a b h
    cases h with
    | cons _ _ _ _ _ h => exact ih h
    | last => rfl

end Verif.Spec

namespace Verif.Gram
open P Spec

variable {pan : Prop} {s : Str} {E : PEnv} {R : PRec} {lo : Nat}

theorem tri_attributeExpr (hR : RecOK E.U pan s (lo + 1) R) : Tri pan s lo (attributeExpr R) fun q e b =>
    ∃ r, Tok s c!"=" q r ∧ PreQ E.U s false false r e b := by
  intro q _ _
  refine Tri.step (tri_cutChar (lo := lo)) (by omega) (by omega) (by omega) fun _ r _ _ h1 => ?_
  have := tok_one h1
  fin (prefixDecorated_expr tri_sp' (hR.expr false)) => e b h2
  exact ⟨r, h1, h2⟩

theorem tri_blockLabels : Tri pan s lo (blockLabels E) fun a ls b => Labels E.U s ls a b := by
  have h : Tri pan s lo (suffixDecorated (blockLabel E) sp) fun a l c =>
      (∃ d, l = .ident d ∧ SufIdent E.U s false d a c) ∨
        ∃ t b, l = .string (sufM a b c) t ∧ QuotedAt s t a b ∧ Triv s false b c := by
    have hl : Tri pan s lo (blockLabel E) fun a l b => (∃ t, l = .string {} t ∧ QuotedAt s t a b) ∨
        ∃ d, l = .ident d ∧ IdentAt E.U s d.name a b ∧ d.m = {} := by
      refine Tri.alt tri_quotedString.map tri_ident.map (fun a l b h => .inl h) (fun a l b h => ?_)
      obtain ⟨d, rfl, h⟩ := h
      exact .inr ⟨d, rfl, h⟩
    refine (hl.suffixDecorated tri_sp').conseq fun a l c _ _ _ h => ?_
    obtain ⟨v, b, ⟨t, rfl, h1⟩ | ⟨d, rfl, h1, h2⟩, ⟨_, h4⟩, rfl⟩ := h
    · exact .inr ⟨t, b, rfl, h1, h4⟩
    · refine .inl ⟨_, rfl, b, h1, h4, ?_⟩
      show Meta.setSuf _ (Meta.setSpan _ d.m) = _
      rw [h2]; rfl
  refine (h.repeat0 fun a l b _ _ h => ?_).conseq fun a ls b _ _ _ h => ?_
  · rcases h with ⟨d, -, h⟩ | ⟨t, b', -, h1, h4⟩
    · exact h.lt
    · have := QuotedAt.bounds h1; have := h4.le; omega
  · have h := h.1
    clear * - h
    induction h with
    | nil => exact .nil
    | cons _ h2 _ ih =>
      rcases h2 with ⟨d, rfl, h⟩ | ⟨t, b', rfl, h1, h4⟩
      · exact .ident h ih
      · exact .string h1 h4 ih

theorem tri_attributeP (hR : RecOK E.U pan s (lo + 1) R) : Tri pan s lo (attributeP E R) fun a st b =>
    ∃ k v, st = .attr {} k v ∧ ∀ m, StructAt E.U s (.attr m k v) a b := by
  intro a _ _
  stp (tri_ident.suffixDecorated tri_sp') => k q h1
  obtain ⟨d, x, ⟨h1, h2⟩, ⟨_, h3⟩, rfl⟩ := h1
  stp (tri_attributeExpr hR) => e b h4
  obtain ⟨r, h4, y, k1, k2, k3⟩ := h4
  refine wp_pure (by omega) (by omega) ⟨_, e, rfl, fun m => .attr ⟨x, h1, h3, ?_⟩ h4 k1 k2 k3⟩
  show Meta.setSuf _ (Meta.setSpan _ d.m) = _
  rw [h2]; rfl

theorem tri_onelineBody (hR : RecOK E.U pan s (lo + 1) R) : Tri pan s lo (onelineBody E R)
    fun p bd q => BlockBody E.U s bd p q := by
  intro p _ _
  stp (tri_sp'.decorated (tri_attributeP hR) tri_sp').opt => o x h1
  stp tri_sp'.rawString => r q h2
  obtain ⟨rfl, _, h2⟩ := h2
  cases o with
  | none =>
    obtain rfl : x = p := h1
    exact wp_pure (by omega) (by omega) (.empty h2)
  | some st =>
    obtain ⟨v, a, b, ⟨_, h3⟩, ⟨k, e, rfl, h4⟩, ⟨_, h5⟩, rfl⟩ := h1
    exact wp_pure (by omega) (by omega) (.single h3 (h4 _) h5 h2)

theorem tri_blockBody (hR : RecOK E.U pan s (lo + 1) R) : Tri pan s lo (blockBody E R) fun r bd b =>
    ∃ t u, Tok s c!"{" r t ∧ BlockBody E.U s bd t u ∧ Tok s c!"}" u b := by
  intro r _ _
  refine Tri.step (tri_cutChar (lo := lo)) (by omega) (by omega) (by omega) fun _ t _ _ h1 => ?_
  have := tok_one h1
  have key : Tri pan s (lo + 1)
      (P.alt (prefixDecorated lineEnd (preceded lineEnding R.body)) (onelineBody E R)) fun t bd u =>
      u < s.length → BlockBody E.U s bd t u := by
    refine Tri.alt (tri_lineEnd.prefixDecorated (tri_lineEnding'.preceded hR.body))
      (tri_onelineBody (hR := ?_)) (fun t bd u h => ?_) (fun _ _ _ h _ => h)
    · exact ⟨fun nl => (hR.expr nl).weaken (by omega), fun nl => (hR.term nl).weaken (by omega),
        hR.template.weaken (by omega), hR.body.weaken (by omega)⟩
    · obtain ⟨v, x, ⟨_, h2⟩, ⟨_, y, _, h3, ss, fin, z, h4, h5, h6, rfl⟩, rfl⟩ := h
      intro hu
      cases fin with
      | true => have := h4.fin_end; have := h6.le; omega
      | false => exact .lines h2 h3 h4 h5 h6
  fin (key.terminated tri_cutChar) => bd b h2
  obtain ⟨_, u, _, _, h2, h3⟩ := h2
  have := tok_one h3
  exact ⟨t, u, h1, h2 (by omega), h3⟩

/-- A structure without the decor around it, and the attribute keys including it. -/
def StructQ (U : Uni) (s : Str) (keys : List Str) (a : Nat) (x : EStruct × List Str) (b : Nat) : Prop :=
  (∀ g : Meta → Meta, StructAt U s (x.1.mapMeta g) a b) ∧ structMeta x.1 = ⟨{}, some ⟨a, b⟩⟩ ∧
    ((∃ m k v, x.1 = .attr m k v ∧ k.name ∉ keys ∧ x.2 = k.name :: keys) ∨
      ((∃ m i ls bd, x.1 = .block m i ls bd) ∧ x.2 = keys))

theorem tri_structureP (hR : RecOK E.U pan s (lo + 1) R) (keys : List Str) :
    Tri pan s lo (structureP E R keys) (StructQ E.U s keys) := by
  intro a _ _
  stp (tri_getInput (lo := lo)) => st a' hst
  obtain ⟨rfl, rfl⟩ := hst
  stp (tri_oneOf (lo := lo)).peek => _ a'' h0
  obtain ⟨rfl, -⟩ := h0
  stp (tri_strIdent (lo := lo)).cutErr.withSpan => x b hx
  obtain ⟨x, xs⟩ := x
  obtain ⟨rfl, hx⟩ := hx
  have := identAt_lt hx
  dsimp only at hx ⊢
  stp (tri_sp' (lo := lo)).rawString => r q h1
  obtain ⟨rfl, _, h1⟩ := h1
  stp (tri_any (lo := lo)).peek => c q' hc
  obtain ⟨rfl, -⟩ := hc
  have hsuf : SufIdent E.U s false ⟨(Meta.setSuf (Raw.fromSpan ⟨b, q'⟩) {}).setSpan ⟨a'', b⟩, x⟩ a'' q' :=
    ⟨b, hx, h1, rfl⟩
  by_cases hc : c = '='
  · rw [if_pos hc]
    by_cases hk : x ∈ keys
    · rw [if_pos hk]
      exact wp_setInput (wp_cutFail (by omega) (by omega))
    · rw [if_neg hk]
      stp (tri_attributeExpr (lo := lo) hR) => e d h2
      obtain ⟨r, h2, y, k1, k2, k3⟩ := h2
      stp (tri_getInput (lo := lo)) => fi d' hfi
      obtain ⟨rfl, rfl⟩ := hfi
      exact wp_pure (by omega) (by omega) ⟨fun g => .attr hsuf h2 k1 k2 k3, rfl,
        .inl ⟨_, _, _, rfl, hk, rfl⟩⟩
  rw [if_neg hc]; clear hc
  by_cases hc : c = '{'
  · rw [if_pos hc]
    stp (tri_blockBody (lo := lo) hR) => bd d h2
    obtain ⟨t, u, h2, h3, h4⟩ := h2
    stp (tri_getInput (lo := lo)) => fi d' hfi
    obtain ⟨rfl, rfl⟩ := hfi
    exact wp_pure (by omega) (by omega) ⟨fun g => .block hsuf .nil h2 h3 h4, rfl,
      .inr ⟨⟨_, _, _, _, rfl⟩, rfl⟩⟩
  rw [if_neg hc]; clear hc
  by_cases hc : c = '"' ∨ isIdStart E.U c
  · rw [if_pos hc]
    stp (tri_blockLabels (lo := lo)) => ls q h5
    stp (tri_blockBody (lo := lo) hR) => bd d h2
    obtain ⟨t, u, h2, h3, h4⟩ := h2
    stp (tri_getInput (lo := lo)) => fi d' hfi
    obtain ⟨rfl, rfl⟩ := hfi
    exact wp_pure (by omega) (by omega) ⟨fun g => .block hsuf h5 h2 h3 h4, rfl,
      .inr ⟨⟨_, _, _, _, rfl⟩, rfl⟩⟩
  rw [if_neg hc]
  exact wp_cutFail (by omega) (by omega)

/-- A structure on its own lines. -/
def ItemQ (U : Uni) (s : Str) (keys : List Str) (p : Nat) (x : EStruct × List Str × Bool) (d : Nat) :
    Prop :=
  (∃ a b c, Triv s true p a ∧ StructAt U s x.1 a b ∧ structMeta x.1 = decM p a b c ∧ LineTail s b c ∧
    (if x.2.2 then c = s.length ∧ d = s.length else LineEnding s c d)) ∧
    ((∃ m k v, x.1 = .attr m k v ∧ k.name ∉ keys ∧ x.2.1 = k.name :: keys) ∨
      ((∃ m i ls bd, x.1 = .block m i ls bd) ∧ x.2.1 = keys))

theorem tri_bodyItem (hR : RecOK E.U pan s (lo + 1) R) (keys : List Str) :
    Tri pan s lo (bodyItem E R keys) (ItemQ E.U s keys) := by
  intro p _ _
  stp (tri_ws' (lo := lo)).spanOf => pre a h1
  obtain ⟨rfl, _, h1⟩ := h1
  stp (tri_structureP (lo := lo) hR keys) => x b h2
  obtain ⟨st, keys'⟩ := x
  obtain ⟨h2, h3, h4⟩ := h2
  stp (tri_lineEnd (lo := lo)).spanOf => suf c h5
  obtain ⟨rfl, _, h5⟩ := h5
  have hfin : Tri pan s lo (cutErr (P.alt (P.map (fun _ => false) lineEnding)
      (P.map (fun _ => true) eof))) fun c fin d =>
      if fin then c = s.length ∧ d = s.length else LineEnding s c d := by
    refine Tri.cutErr (Tri.alt tri_lineEnding'.map tri_eof.map (fun c f d h => ?_) (fun c f d h => ?_))
    · obtain ⟨_, rfl, h⟩ := h; exact h
    · obtain ⟨_, rfl, h, h'⟩ := h; exact ⟨h', by omega⟩
  stp hfin => fi d h6
  refine wp_pure (by omega) (by omega) ⟨⟨a, b, c, h1, h2 _, ?_, h5, h6⟩, ?_⟩
  · cases st with
    | attr m k v =>
      change m = _ at h3
      subst h3
      rfl
    | block m i ls bd =>
      change m = _ at h3
      subst h3
      rfl
  · rcases h4 with ⟨m, k, v, rfl, hk, hk'⟩ | ⟨⟨m, i, ls, bd, rfl⟩, hk⟩
    · exact .inl ⟨_, k, v, rfl, hk, hk'⟩
    · exact .inr ⟨⟨_, i, ls, bd, rfl⟩, hk⟩

theorem itemQ_lt {U : Uni} {keys : List Str} {p : Nat} {x : EStruct × List Str × Bool} {d : Nat}
    (h : ItemQ U s keys p x d) : p < d := by
  obtain ⟨⟨a, b, c, h1, h2, -, h3, h4⟩, -⟩ := h
  have := h1.le; have := h2.bounds; have := h3.le
  split at h4
  · omega
  · have := h4.lt; omega

theorem bodyLoop_tri (hR : RecOK E.U pan s (lo + 1) R) (n : Nat) : ∀ (keys : List Str) (p : Nat),
    lo ≤ p → p ≤ s.length → s.length - p < n →
    Wp pan s p (fun x q => Lines E.U s x.1 x.2 p q ∧ (bodyKeys x.1).Nodup ∧
      ∀ k ∈ bodyKeys x.1, k ∉ keys) (bodyLoop E R n keys (inp s p)) := by
  induction n with
  | zero => intro _ p _ _ h; omega
  | succ n ih =>
    intro keys p h1 h2 h3
    have hit := tri_bodyItem hR keys p h1 h2
    unfold bodyLoop
    revert hit
    cases hb : bodyItem E R keys (inp s p) with
    | ok x i =>
      rintro ⟨d, rfl, h4, h5, h6⟩
      obtain ⟨st, keys', fin⟩ := x
      have hlt := itemQ_lt h6
      dsimp only
      rw [if_pos ((rest_lt h2 h5).mpr hlt)]
      refine wp_bind (Q := fun x q => d ≤ q ∧ Lines E.U s x.1 x.2 d q ∧ (bodyKeys x.1).Nodup ∧
        ∀ k ∈ bodyKeys x.1, k ∉ keys')
        ((ih keys' d (by omega) h5 (by omega)).mono h4 fun _ _ hd _ h => ⟨hd, h⟩) ?_
      rintro ⟨ss, fin'⟩ q h7 h8 ⟨h9, h10, h11, h12⟩
      dsimp only at h10 h11 h12
      obtain ⟨⟨a, b, c, k1, k2, k3, k4, k5⟩, k6⟩ := h6
      dsimp only at k2 k3 k5 k6
      refine wp_pure h7 h8 ⟨?_, ?_, ?_⟩
      · cases fin with
        | true =>
          obtain ⟨rfl, rfl⟩ := k5
          obtain ⟨rfl, rfl, rfl⟩ := h10.at_end (Nat.le_refl _)
          exact .last k1 k2 k3 k4
        | false => exact .cons k1 k2 k3 k4 k5 h10
      · show (bodyKeys (st :: ss)).Nodup
        rcases k6 with ⟨m, k, v, rfl, hk, rfl⟩ | ⟨⟨m, i, ls, bd, rfl⟩, rfl⟩
        · refine List.nodup_cons.mpr ⟨fun hm => ?_, h11⟩
          exact h12 _ hm (List.mem_cons_self ..)
        · exact h11
      · show ∀ k ∈ bodyKeys (st :: ss), k ∉ keys
        rcases k6 with ⟨m, k, v, rfl, hk, rfl⟩ | ⟨⟨m, i, ls, bd, rfl⟩, rfl⟩
        · intro k' hk'
          rcases List.mem_cons.mp hk' with rfl | hk'
          · exact hk
          · exact fun hm => h12 _ hk' (List.mem_cons_of_mem _ hm)
        · exact h12
    | back i => intro _; exact ⟨p, rfl, Nat.le_refl _, h2, .nil, List.nodup_nil, by simp [bodyKeys]⟩
    | cut i => exact id
    | panic => exact id
    | oof => exact id

theorem tri_body (hR : RecOK E.U pan s (lo + 1) R) : Tri pan s lo (Gram.body E R) (BodyQ E.U s) := by
  intro a _ _
  have h : Tri pan s lo (fun i => bodyLoop E R (i.rest.length + 1) [] i) fun a x b =>
      Lines E.U s x.1 x.2 a b ∧ (bodyKeys x.1).Nodup := by
    intro a h1 h2
    exact (bodyLoop_tri hR _ [] a h1 h2 (by simp only [List.length_drop]; omega)).mono (Nat.le_refl _)
      fun _ _ _ _ h => ⟨h.1, h.2.1⟩
  stp h.withSpan => x z hx
  obtain ⟨⟨ss, fin⟩, sp'⟩ := x
  obtain ⟨rfl, h1, h2⟩ := hx
  dsimp only at h1 h2 ⊢
  stp (tri_ws' (lo := lo)).rawString => r b h3
  obtain ⟨rfl, _, h3⟩ := h3
  exact wp_pure (by omega) (by omega) ⟨ss, fin, z, h1, h2, h3, rfl⟩

/-! ### The recursive knot -/

theorem recOK_step (hpan : NegOverflow E s → pan) (hR : RecOK E.U pan s (lo + 1) R) (hT : TermsEnd E R) (hD : TermsNum R) :
    RecOK E.U pan s lo (R.step E) where
  expr nl := tri_exprInner hpan hR hT hD nl
  term nl := (tri_termInner hpan hR hT hD nl).map.conseq fun a e b _ _ _ h => by
    obtain ⟨x, rfl, h⟩ := h; exact ⟨h.1, h.2.1⟩
  template := tri_template hR
  body := tri_body hR

theorem recOK_parsers (hpan : NegOverflow E s → pan) (n : Nat) : ∀ lo, s.length < lo + n →
    RecOK E.U pan s lo (parsers E n) := by
  induction n with
  | zero =>
    intro lo h
    constructor
    · intro _ a h1 h2; omega
    · intro _ a h1 h2; omega
    · intro a h1 h2; omega
    · intro a h1 h2; omega
  | succ n ih => intro lo h; exact recOK_step hpan (ih (lo + 1) (by omega)) (termsEnd_parsers E n) (termsNum_parsers E n)

/-- The parsers are sound, do not run out of fuel, and panic only on the negation of 2^63. -/
theorem parsersFor_ok (E : PEnv) (s : Str) :
    RecOK E.U (NegOverflow E s) s 0 (parsersFor E s) := recOK_parsers id _ 0 (by omega)

end Verif.Gram
