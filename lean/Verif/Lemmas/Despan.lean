import Verif.Model.EditDespan
/-! The raw strings of a tree after `despan`. -/

set_option linter.unusedSimpArgs false

namespace Verif

theorem Meta.despan_raws (full : Str) (m : Meta) :
    (m.despan full).raws = m.raws.map (Raw.despan full) := by
  obtain ⟨⟨p, q⟩, sp⟩ := m
  cases p <;> cases q <;> rfl

theorem DIdent.despan_rawsOpt (full : Str) (k : Option DIdent) :
    DIdent.rawsOpt (k.map (DIdent.despan full)) = (DIdent.rawsOpt k).map (Raw.despan full) := by
  cases k
  · rfl
  · exact Meta.despan_raws ..

theorem DIdent.despan_raws (full : Str) (d : DIdent) :
    (d.despan full).m.raws = d.m.raws.map (Raw.despan full) := Meta.despan_raws ..

theorem DIdent.despan_rawsList (full : Str) : ∀ ds : List DIdent,
    (ds.map (DIdent.despan full)).flatMap (·.m.raws) =
      (ds.flatMap (·.m.raws)).map (Raw.despan full)
  | [] => rfl
  | d :: ds => by
    rw [List.map_cons, List.flatMap_cons, List.flatMap_cons, List.map_append,
      DIdent.despan_rawsList full ds, DIdent.despan_raws]

mutual

theorem EExpr.despan_raws (full : Str) : ∀ e : EExpr, (e.despan full).raws = (e.raws).map (Raw.despan full)
  | .null _ | .bool _ _ | .number _ _ _ | .string _ _ | .var _ _ => Meta.despan_raws ..
  | .array _ vs _ _ => by
    simp only [List.map_append, List.map_cons, List.map_nil, EExpr.despan, EExpr.raws, EExpr.despan_rawsList full vs, Meta.despan_raws]
  | .object _ is _ => by
    simp only [List.map_append, List.map_cons, List.map_nil, EExpr.despan, EExpr.raws, EExpr.despan_rawsItems full is, Meta.despan_raws]
  | .strTmpl _ es => by
    simp only [List.map_append, List.map_cons, List.map_nil, EExpr.despan, EExpr.raws, EExpr.despan_rawsElems full es, Meta.despan_raws]
  | .heredoc _ _ _ es _ _ => by
    simp only [List.map_append, List.map_cons, List.map_nil, EExpr.despan, EExpr.raws, EExpr.despan_rawsElems full es, Meta.despan_raws]
  | .paren _ e => by simp only [List.map_append, List.map_cons, List.map_nil, EExpr.despan, EExpr.raws, e.despan_raws full, Meta.despan_raws]
  | .cond _ c t f => by
    simp only [List.map_append, List.map_cons, List.map_nil, EExpr.despan, EExpr.raws, c.despan_raws full, t.despan_raws full,
      f.despan_raws full, Meta.despan_raws]
  | .call _ _ _ _ as _ _ _ => by
    simp only [List.map_append, List.map_cons, List.map_nil, EExpr.despan, EExpr.raws, EExpr.despan_rawsList full as, Meta.despan_raws,
      DIdent.despan_raws, DIdent.despan_rawsList]
  | .trav _ e os => by
    simp only [List.map_append, List.map_cons, List.map_nil, EExpr.despan, EExpr.raws, e.despan_raws full, EExpr.despan_rawsTravs full os,
      Meta.despan_raws]
  | .unary _ _ _ e => by
    simp only [List.map_append, List.map_cons, List.map_nil, EExpr.despan, EExpr.raws, e.despan_raws full, Meta.despan_raws]
  | .binary _ l _ _ r => by
    simp only [List.map_append, List.map_cons, List.map_nil, EExpr.despan, EExpr.raws, l.despan_raws full, r.despan_raws full, Meta.despan_raws]
  | .forE _ _ _ _ c ke ve _ _ co => by
    simp only [List.map_append, List.map_cons, List.map_nil, EExpr.despan, EExpr.raws, c.despan_raws full, ve.despan_raws full,
      EExpr.despan_rawsOpt full ke, EExpr.despan_rawsOpt full co, Meta.despan_raws,
      DIdent.despan_raws, DIdent.despan_rawsOpt]

theorem EExpr.despan_rawsOpt (full : Str) :
    ∀ e : Option EExpr, EExpr.rawsOpt (EExpr.despanOpt full e) = (EExpr.rawsOpt e).map (Raw.despan full)
  | none => rfl
  | some e => by simp only [List.map_append, List.map_cons, List.map_nil, EExpr.despanOpt, EExpr.rawsOpt, e.despan_raws full]

theorem EExpr.despan_rawsList (full : Str) :
    ∀ es : List EExpr, EExpr.rawsList (EExpr.despanList full es) = (EExpr.rawsList es).map (Raw.despan full)
  | [] => rfl
  | e :: es => by
    simp only [List.map_append, List.map_cons, List.map_nil, EExpr.despanList, EExpr.rawsList, e.despan_raws full, EExpr.despan_rawsList full es]

theorem EExpr.despan_rawsItems (full : Str) :
    ∀ is : List EItem, EExpr.rawsItems (EExpr.despanItems full is) = (EExpr.rawsItems is).map (Raw.despan full)
  | [] => rfl
  | .mk k v _ _ :: is => by
    simp only [List.map_append, List.map_cons, List.map_nil, EExpr.despanItems, EExpr.rawsItems, k.despan_raws full, v.despan_raws full,
      EExpr.despan_rawsItems full is]

theorem EKey.despan_raws (full : Str) : ∀ k : EKey, (k.despan full).raws = (k.raws).map (Raw.despan full)
  | .ident _ => Meta.despan_raws ..
  | .expr e => by simp only [List.map_append, List.map_cons, List.map_nil, EKey.despan, EKey.raws, e.despan_raws full]

theorem EExpr.despan_rawsTravs (full : Str) :
    ∀ os : List ETrav, EExpr.rawsTravs (EExpr.despanTravs full os) = (EExpr.rawsTravs os).map (Raw.despan full)
  | [] => rfl
  | .mk _ o :: os => by
    simp only [List.map_append, List.map_cons, List.map_nil, EExpr.despanTravs, EExpr.rawsTravs, o.despan_raws full,
      EExpr.despan_rawsTravs full os]

theorem ETravOp.despan_raws (full : Str) : ∀ o : ETravOp, (o.despan full).raws = (o.raws).map (Raw.despan full)
  | .attrSplat _ | .fullSplat _ | .getAttr _ | .legacyIndex _ _ => Meta.despan_raws ..
  | .index e => by simp only [List.map_append, List.map_cons, List.map_nil, ETravOp.despan, ETravOp.raws, e.despan_raws full]

theorem EExpr.despan_rawsElems (full : Str) :
    ∀ es : List EElem, EExpr.rawsElems (EExpr.despanElems full es) = (EExpr.rawsElems es).map (Raw.despan full)
  | [] => rfl
  | .lit _ _ :: es => by
    simp only [List.map_append, List.map_cons, List.map_nil, EExpr.despanElems, EExpr.rawsElems, EExpr.despan_rawsElems full es]
  | .interp _ e _ :: es => by
    simp only [List.map_append, List.map_cons, List.map_nil, EExpr.despanElems, EExpr.rawsElems, e.despan_raws full,
      EExpr.despan_rawsElems full es]
  | .ifDir _ _ c _ _ t el _ _ _ :: es => by
    simp only [List.map_append, List.map_cons, List.map_nil, EExpr.despanElems, EExpr.rawsElems, c.despan_raws full,
      EExpr.despan_rawsElems full t, EExpr.despan_rawsElse full el, EExpr.despan_rawsElems full es]
  | .forDir _ _ _ _ c _ _ t _ _ _ :: es => by
    simp only [List.map_append, List.map_cons, List.map_nil, EExpr.despanElems, EExpr.rawsElems, c.despan_raws full,
      EExpr.despan_rawsElems full t, EExpr.despan_rawsElems full es, DIdent.despan_raws,
      DIdent.despan_rawsOpt]

theorem EExpr.despan_rawsElse (full : Str) :
    ∀ el : Option EElse, EExpr.rawsElse (EExpr.despanElse full el) = (EExpr.rawsElse el).map (Raw.despan full)
  | none => rfl
  | some (.mk _ _ _ _ es) => by
    simp only [List.map_append, List.map_cons, List.map_nil, EExpr.despanElse, EExpr.rawsElse, EExpr.despan_rawsElems full es]

end

theorem ELabel.despan_raws (full : Str) : ∀ l : ELabel,
    (l.despan full).raws = l.raws.map (Raw.despan full)
  | .ident _ | .string _ _ => Meta.despan_raws ..

theorem ELabel.despan_rawsList (full : Str) : ∀ ls : List ELabel,
    (ls.map (ELabel.despan full)).flatMap ELabel.raws =
      (ls.flatMap ELabel.raws).map (Raw.despan full)
  | [] => rfl
  | l :: ls => by
    rw [List.map_cons, List.flatMap_cons, List.flatMap_cons, List.map_append,
      ELabel.despan_rawsList full ls, ELabel.despan_raws]

mutual

theorem EStruct.despan_raws (full : Str) : ∀ e : EStruct, (e.despan full).raws = (e.raws).map (Raw.despan full)
  | .attr _ _ v => by
    simp only [List.map_append, List.map_cons, List.map_nil, EStruct.despan, EStruct.raws, v.despan_raws full, Meta.despan_raws,
      DIdent.despan_raws]
  | .block _ _ ls b => by
    simp only [List.map_append, List.map_cons, List.map_nil, EStruct.despan, EStruct.raws, b.despan_raws full, Meta.despan_raws,
      DIdent.despan_raws, ELabel.despan_rawsList full ls]

theorem EBody.despan_raws (full : Str) : ∀ b : EBody, (b.despan full).raws = (b.raws).map (Raw.despan full)
  | .mk _ ss _ _ => by
    simp only [List.map_append, List.map_cons, List.map_nil, EBody.despan, EBody.raws, EStruct.despan_rawsList full ss, Meta.despan_raws]

theorem EStruct.despan_rawsList (full : Str) :
    ∀ ss : List EStruct, EStruct.rawsList (EStruct.despanList full ss) = (EStruct.rawsList ss).map (Raw.despan full)
  | [] => rfl
  | s :: ss => by
    simp only [List.map_append, List.map_cons, List.map_nil, EStruct.despanList, EStruct.rawsList, s.despan_raws full,
      EStruct.despan_rawsList full ss]

end


end Verif

namespace Verif

/-- `despan` leaves no span. -/
theorem Raw.despan_text (full : Str) (r : Raw) : ∀ sp, r.despan full ≠ .spanned sp := by
  intro sp
  cases r with
  | empty => nofun
  | explicit t => nofun
  | spanned s => 
    show (if (s.slice full).isEmpty then Raw.empty else Raw.explicit (s.slice full)) ≠ _
    by_cases h : (s.slice full).isEmpty = true
    · rw [if_pos h]; nofun
    · rw [if_neg h]; nofun

end Verif
