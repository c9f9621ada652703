import Verif.Lemmas.Reformat
import Verif.Lemmas.Portable
import Verif.Lemmas.DeRoundTrip
import Verif.Lemmas.Tool
import Verif.Spec.EvalText
import Verif.Model.EvalText
/-!
Lemmas for C84.
-/

namespace Verif
open Spec De

/-! ### Evaluation of bodies -/

mutual
theorem evalBody_shape {env : Env} {c : Ctx} : ∀ (b b' : List Struct), evalBody (evalRec env) c b = .ok b' →
    Evaluated env c b b'
  | [], _, h => by cases h; exact .nil
  | s :: ss, _, h => by
    rw [evalBody] at h
    obtain ⟨s', h1, h⟩ := bind_ok h
    obtain ⟨ss', h2, h⟩ := bind_ok h
    cases h
    exact .cons (evalStruct_shape s s' h1) (evalBody_shape ss ss' h2)
theorem evalStruct_shape {env : Env} {c : Ctx} : ∀ (s s' : Struct), evalStruct (evalRec env) c s = .ok s' →
    SameShape1 (fun e e' => ∃ v, eval env c e = .ok v ∧ e' = ofValue v) s s'
  | .attr k e, _, h => by
    rw [evalStruct] at h
    obtain ⟨v, h1, h⟩ := bind_ok h
    cases h
    exact .attr ⟨v, h1, rfl⟩
  | .block i ls b, _, h => by
    rw [evalStruct] at h
    obtain ⟨b', h1, h⟩ := bind_ok h
    cases h
    exact .block (evalBody_shape b b' h1)
end

mutual
theorem shape_all {R : Expr → Expr → Prop} : ∀ {b b' : List Struct}, SameShape R b b' →
    ∀ e ∈ attrsOf b, ∃ e', R e e'
  | _, _, .nil => nofun
  | _, _, .cons h1 h2 => by
    intro e he
    rw [attrsOf] at he
    rcases List.mem_append.1 he with he | he
    · exact shape1_all h1 e he
    · exact shape_all h2 e he
theorem shape1_all {R : Expr → Expr → Prop} : ∀ {s s' : Struct}, SameShape1 R s s' →
    ∀ e ∈ attrsOfStruct s, ∃ e', R e e'
  | _, _, .attr h => by
    intro e he
    simp only [attrsOfStruct, List.mem_singleton] at he
    exact he ▸ ⟨_, h⟩
  | _, _, .block h => by
    intro e he
    rw [attrsOfStruct] at he
    exact shape_all h e he
end

mutual
theorem shape_of_all {R : Expr → Expr → Prop} : ∀ {b : List Struct}, (∀ e ∈ attrsOf b, ∃ e', R e e') →
    ∃ b', SameShape R b b'
  | [], _ => ⟨[], .nil⟩
  | s :: ss, h => by
    obtain ⟨s', h1⟩ := shape1_of_all (s := s) fun e he => h e (by rw [attrsOf]; exact List.mem_append_left _ he)
    obtain ⟨ss', h2⟩ := shape_of_all (b := ss) fun e he => h e (by rw [attrsOf]; exact List.mem_append_right _ he)
    exact ⟨_, .cons h1 h2⟩
theorem shape1_of_all {R : Expr → Expr → Prop} : ∀ {s : Struct}, (∀ e ∈ attrsOfStruct s, ∃ e', R e e') →
    ∃ s', SameShape1 R s s'
  | .attr k e, h => by
    obtain ⟨e', h⟩ := h e (by simp [attrsOfStruct])
    exact ⟨_, .attr h⟩
  | .block i ls b, h => by
    obtain ⟨b', h⟩ := shape_of_all (b := b) fun e he => h e (by rw [attrsOfStruct]; exact he)
    exact ⟨_, .block h⟩
end

mutual
theorem shape_back {R : Expr → Expr → Prop} : ∀ {b b' : List Struct}, SameShape R b b' →
    ∀ e' ∈ attrsOf b', ∃ e, R e e'
  | _, _, .nil => nofun
  | _, _, .cons h1 h2 => by
    intro e he
    rw [attrsOf] at he
    rcases List.mem_append.1 he with he | he
    · exact shape1_back h1 e he
    · exact shape_back h2 e he
theorem shape1_back {R : Expr → Expr → Prop} : ∀ {s s' : Struct}, SameShape1 R s s' →
    ∀ e' ∈ attrsOfStruct s', ∃ e, R e e'
  | _, _, .attr h => by
    intro e he
    simp only [attrsOfStruct, List.mem_singleton] at he
    exact he ▸ ⟨_, h⟩
  | _, _, .block h => by
    intro e he
    rw [attrsOfStruct] at he
    exact shape_back h e he
end

mutual
theorem shape_refl : ∀ b : List Struct, SameShape (fun e e' => e = e') b b
  | [] => .nil
  | s :: ss => .cons (shape1_refl s) (shape_refl ss)
theorem shape1_refl : ∀ s : Struct, SameShape1 (fun e e' => e = e') s s
  | .attr _ _ => .attr rfl
  | .block _ _ b => .block (shape_refl b)
end

mutual
theorem named_bodyAll : ∀ {b : List Struct}, BodyAll Named b → NamedBody b
  | [], _ => trivial
  | _ :: ss, h => ⟨named_structAll h.1, named_bodyAll (b := ss) h.2⟩
theorem named_structAll : ∀ {s : Struct}, StructAll Named s → NamedStruct s
  | .attr _ _, h => h
  | .block _ _ b, h => named_bodyAll (b := b) h
end

mutual
/-- What holds of all new expressions. -/
theorem shape_bodyAll {R : Expr → Expr → Prop} {Q : Expr → Prop} (h : ∀ e e', R e e' → Q e') :
    ∀ {b b' : List Struct}, SameShape R b b' → BodyAll Q b'
  | _, _, .nil => trivial
  | _, _, .cons h1 h2 => ⟨shape_structAll h h1, shape_bodyAll h h2⟩
theorem shape_structAll {R : Expr → Expr → Prop} {Q : Expr → Prop} (h : ∀ e e', R e e' → Q e') :
    ∀ {s s' : Struct}, SameShape1 R s s' → StructAll Q s'
  | _, _, .attr h1 => h _ _ h1
  | _, _, .block h1 => shape_bodyAll h h1
end

theorem shape_names {R : Expr → Expr → Prop} : ∀ {b b' : List Struct}, SameShape R b b' →
    b'.map Spec.structName = b.map Spec.structName
  | _, _, .nil => rfl
  | _, _, .cons h1 h2 => by
    rw [List.map_cons, List.map_cons, shape_names h2]
    cases h1 <;> rfl

theorem shape_attrKeys {R : Expr → Expr → Prop} : ∀ {b b' : List Struct}, SameShape R b b' →
    Syn.attrKeys b' = Syn.attrKeys b
  | _, _, .nil => rfl
  | _, _, .cons h1 h2 => by
    have := shape_attrKeys h2
    cases h1 with
    | attr _ => exact congrArg (List.cons _) this
    | block _ => exact this

/-- The part of a body around an attribute. -/
theorem shape_split {R : Expr → Expr → Prop} {k : Str} {e : Expr} {post : List Struct} : ∀ {pre b' : List Struct},
    SameShape R (pre ++ .attr k e :: post) b' →
    ∃ pre' e' post', b' = pre' ++ .attr k e' :: post' ∧ R e e' ∧ post'.map Spec.structName = post.map Spec.structName
  | [], _, .cons (.attr h1) h2 => ⟨[], _, _, rfl, h1, shape_names h2⟩
  | _ :: _, _, .cons _ h2 => by
    obtain ⟨pre', e', post', rfl, h3, h4⟩ := shape_split h2
    exact ⟨_ :: pre', e', post', rfl, h3, h4⟩

/-! ### Values as text -/

section
variable {E : FmtEnv} {bd : Build} {cfg : FmtCfg}

mutual
theorem writable_text (hc : cfg.preferIdentKeys = false) : ∀ {v : Value}, v.WF → Writable E bd v →
    Printable E bd cfg false (ofValue v)
  | .null, _, _ => trivial
  | .bool _, _, _ => trivial
  | .number _, _, h => h
  | .string _, _, h => h
  | .array vs, hw, h => by
    refine ⟨writable_texts hc (vs := vs) hw h, ?_⟩
    cases vs with
    | nil => rfl
    | cons v vs => exact startsFor_ofValue v
  | .object es, hw, h => by
    have hd : KeysDiffer (ofEntries es) := ofEntries_differ hw.1
    have := writable_items hc (es := es) hw.2 h
    show Printable E bd cfg false (.object (objCollect (ofEntries es)))
    rw [keys_objCollect hd]
    exact printable_object this.1 hd this.2
theorem writable_texts (hc : cfg.preferIdentKeys = false) : ∀ {vs : List Value}, Value.WFList vs →
    WritableList E bd vs → PrintableList E bd cfg false (ofValues vs)
  | [], _, _ => trivial
  | _ :: _, hw, h => ⟨writable_text hc hw.1 h.1, writable_texts hc hw.2 h.2⟩
theorem writable_items (hc : cfg.preferIdentKeys = false) : ∀ {es : List (Str × Value)}, Value.WFObj es →
    WritableEntries E bd es →
    PrintableItems E bd cfg false (ofEntries es) ∧ ∀ p ∈ ofEntries es, SimpleKey p.1 ∧ PlainKey p.1
  | [], _, _ => ⟨trivial, nofun⟩
  | (k, _) :: _, hw, h => by
    have h1 := writable_text hc hw.1 h.2.1
    have h2 := writable_items hc hw.2 h.2.2
    refine ⟨⟨printable_stringKey hc h.1, h1, h2.1⟩, ?_⟩
    rw [ofEntries, List.forall_mem_cons]
    exact ⟨⟨.str k, .str k⟩, h2.2⟩
end

/-! ### Bodies as text -/

variable {s : Str} {R : Expr → Expr → Prop} {tm : Bool}

mutual

theorem StructAt.frame (hR : ∀ e e', R e e' → Printable E bd cfg tm e') : ∀ {st a b x}, StructAt E.U s st a b →
    SameShape1 R (toHclStruct E (st.despan s)) x → LabelsSafe1 (toHclStruct E (st.despan s)) →
    PrintableStruct E bd cfg tm x
  | _, _, _, _, .attr (k := k) h1 _ _ _ _, .attr h, _ => ⟨(sufIdent_name h1 : IsIdentifier E.U k.name), hR _ _ h⟩
  | _, _, _, _, .block (i := i) h1 h2 _ h4 _, .block h, hl =>
    ⟨(sufIdent_name h1 : IsIdentifier E.U i.name), labels_tame h2 hl.1, (BlockBody.frame hR h4 h hl.2).1,
      (BlockBody.frame hR h4 h hl.2).2⟩

theorem BlockBody.frame (hR : ∀ e e', R e e' → Printable E bd cfg tm e') : ∀ {b p q x}, BlockBody E.U s b p q →
    SameShape R (toHclBody E (b.despan s)) x → LabelsSafe (toHclBody E (b.despan s)) →
    (Syn.attrKeys x).Nodup ∧ PrintableStructs E bd cfg tm x
  | _, _, _, _, .lines (ss := ss) _ _ h3 h4 _, h, hl =>
    ⟨shape_attrKeys h ▸ (attrKeys_hcl (E := E) (s := s) ss).symm ▸ h4, Lines.frame hR h3 h hl⟩
  | _, _, _, _, .empty _, .nil, _ => ⟨.nil, trivial⟩
  | _, _, _, _, .single _ h2 _ _, .cons h .nil, hl => by
    cases h with
    | attr h => exact ⟨List.nodup_singleton _, StructAt.frame hR h2 (.attr h) hl.1, trivial⟩

theorem Lines.frame (hR : ∀ e e', R e e' → Printable E bd cfg tm e') : ∀ {ss fin p q x}, Lines E.U s ss fin p q →
    SameShape R (toHclStructs E (EStruct.despanList s ss)) x → LabelsSafe (toHclStructs E (EStruct.despanList s ss)) →
    PrintableStructs E bd cfg tm x
  | _, _, _, _, _, .nil, .nil, _ => trivial
  | _, _, _, _, _, .cons _ h2 _ _ _ h6, .cons h h', hl => ⟨StructAt.frame hR h2 h hl.1, Lines.frame hR h6 h' hl.2⟩
  | _, _, _, _, _, .last _ h2 _ _, .cons h .nil, hl => ⟨StructAt.frame hR h2 h hl.1, trivial⟩

end

/-- A document with other expressions. -/
theorem Document.frame (hR : ∀ e e', R e e' → Printable E bd cfg tm e') {b : EBody} {x : List Struct}
    (h : Document E.U s b) (hx : SameShape R (toHclBody E (b.despan s)) x)
    (hl : LabelsSafe (toHclBody E (b.despan s))) : PrintableBody E bd cfg tm x := by
  cases h with
  | mk h1 h2 h3 =>
    exact ⟨shape_attrKeys hx ▸ (attrKeys_hcl (E := E) (s := s) _).symm ▸ h2, Lines.frame hR h1 hx hl⟩

end

/-! ### The object a document stands for -/

theorem cleanEntries_of : ∀ {es : List (ObjKey × Expr)}, (∀ p ∈ es, CleanKey p.1 ∧ Clean p.2) → CleanEntries es
  | [], _ => trivial
  | (k, v) :: es, h => ⟨h (k, v) (by simp), cleanEntries_of (es := es) fun p hp => h p (by simp [hp])⟩

theorem cleanList_of : ∀ {es : List Expr}, (∀ e ∈ es, Clean e) → CleanList es
  | [], _ => trivial
  | _ :: es, h => ⟨h _ (by simp), cleanList_of (es := es) fun p hp => h p (by simp [hp])⟩

theorem clean_bodyToJson {b : List Struct} (h : BodyAll Clean b) : Clean (bodyToJson b) :=
  bodyToJson_all (Q := Clean)
    (fun _ hes _ => cleanEntries_of fun p hp => by
        obtain ⟨⟨s, hs⟩, hv⟩ := hes p hp
        exact ⟨by rw [hs]; trivial, hv⟩)
    (fun _ hes => cleanList_of fun e he => hes e he) h

/-- The object has an attribute's value under its key. -/
theorem bodyToJson_attr (pre post : List Struct) (k : Str) (e : Expr) (h : ∀ s ∈ post, Spec.structName s ≠ k) :
    ∃ es, bodyToJson (pre ++ .attr k e :: post) = .object es ∧ (∃ ks : List Str, ks.Nodup ∧
      es.map Prod.fst = ks.map fun x => .expr (.string x)) ∧ (ObjKey.expr (.string k), e) ∈ es := by
  have hnd := bodyNodes_nodup (pre ++ .attr k e :: post) (m := []) (by simp)
  have hg : Map.get? k (bodyNodes [] (pre ++ .attr k e :: post)) = some (.expr e) := by
    rw [bodyNodes_append, bodyNodes, bodyNodes_get post h]
    simp only [structNodes, Map.get?_insert, if_pos]
  have hkeys : ∀ m : List (Str × JNode), (JNode.entriesToExpr m).map Prod.fst =
      (m.map Prod.fst).map fun x => ObjKey.expr (.string x) := by
    intro m
    induction m with
    | nil => rfl
    | cons p m ih => obtain ⟨k, n⟩ := p; rw [JNode.entriesToExpr, List.map_cons, List.map_cons, List.map_cons, ih]
  have hmem : ∀ m : List (Str × JNode), Map.get? k m = some (.expr e) →
      (ObjKey.expr (.string k), e) ∈ JNode.entriesToExpr m := by
    intro m
    induction m with
    | nil => intro h; cases h
    | cons p m ih =>
      obtain ⟨k', n⟩ := p
      intro h
      rw [Map.get?] at h
      rw [JNode.entriesToExpr]
      split at h
      · rename_i hk
        injection h with h
        subst h
        simp_all [JNode.toExpr]
      · exact List.mem_cons_of_mem _ (ih h)
  refine ⟨JNode.entriesToExpr (bodyNodes [] (pre ++ .attr k e :: post)), ?_, ?_, hmem _ hg⟩
  · simp only [bodyToJson, JNode.toExpr]
    rw [objCollect, entriesToExpr_keys _ hnd [] (by simp), List.nil_append]
  · exact ⟨_, hnd, hkeys _⟩

end Verif
