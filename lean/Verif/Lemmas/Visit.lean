import Verif.Model.Visit
/-! The calls of the default visitor, in terms of the parts of a node. -/

set_option linter.unusedSimpArgs false

namespace Verif.Spec

/-- The steps the default visitor does not take. -/
def skips (mt : Bool) (n m : Node) : Bool := toCollection n m || (mt && toKey n m)

variable {mt : Bool}

theorem flatMap_expr : ∀ es : List EExpr, (es.map Node.expr).flatMap (visitNode mt) = visitList mt es
  | [] => rfl
  | e :: es => by
    rw [List.map_cons, List.flatMap_cons, flatMap_expr es, visitList]; rfl

theorem flatMap_exprOpt (e : Option EExpr) :
    (e.toList.map Node.expr).flatMap (visitNode mt) = visitOpt mt e := by
  cases e <;> simp [visitOpt, visitNode]

theorem flatMap_ident : ∀ ds : List DIdent, (ds.map Node.ident).flatMap (visitNode mt) = visitIdents ds
  | [] => rfl
  | d :: ds => by rw [List.map_cons, List.flatMap_cons, flatMap_ident ds, visitIdents]; rfl

theorem flatMap_identOpt (d : Option DIdent) :
    (d.toList.map Node.ident).flatMap (visitNode mt) = visitIdentOpt d := by
  cases d <;> simp [visitIdentOpt, visitNode]

theorem flatMap_item : ∀ is : List EItem,
    (is.flatMap itemParts).flatMap (visitNode mt) = visitItems mt is
  | [] => rfl
  | .mk k v a t :: is => by
    rw [List.flatMap_cons, List.flatMap_append, flatMap_item is, visitItems]
    simp [itemParts, visitNode]

theorem flatMap_op : ∀ os : List ETrav,
    (os.map travPart).flatMap (visitNode mt) = visitTravs mt os
  | [] => rfl
  | .mk m o :: os => by
    rw [List.map_cons, List.flatMap_cons, flatMap_op os, visitTravs]; rfl

theorem flatMap_elem : ∀ es : List EElem, (es.map Node.elem).flatMap (visitNode mt) = visitElems mt es
  | [] => rfl
  | e :: es => by
    rw [List.map_cons, List.flatMap_cons, flatMap_elem es, visitElems]; rfl

theorem flatMap_elseOpt (e : Option EElse) :
    (e.toList.flatMap elseParts).flatMap (visitNode mt) = visitElseOpt mt e := by
  cases e with
  | none => rfl
  | some e =>
    cases e with
    | mk p t s ts es =>
      simp only [Option.toList_some, List.flatMap_cons, List.flatMap_nil, List.append_nil, elseParts,
        visitElseOpt, visitElse]
      exact flatMap_elem es

theorem flatMap_label : ∀ ls : List ELabel, (ls.map Node.label).flatMap (visitNode mt) = visitLabels ls
  | [] => rfl
  | l :: ls => by rw [List.map_cons, List.flatMap_cons, flatMap_label ls, visitLabels]; rfl

theorem flatMap_struct : ∀ ss : List EStruct,
    (ss.map Node.struct).flatMap (visitNode mt) = visitStructs mt ss
  | [] => rfl
  | s :: ss => by
    rw [List.map_cons, List.flatMap_cons, flatMap_struct ss, visitStructs]; rfl

theorem filter_all {n : Node} {l : List Node} (h : ∀ m, skips mt n m = false) :
    l.filter (fun m => !skips mt n m) = l := by
  simp [h]

/-- A visit: the node itself, then its parts in order, except for the skipped ones. -/
theorem visitNode_eq (n : Node) : visitNode mt n =
    n :: ((parts n).filter fun m => !skips mt n m).flatMap (visitNode mt) := by
  cases n with
  | body b =>
    obtain ⟨m, ss, o, nl⟩ := b
    rw [filter_all (by intro m; simp [skips, toCollection, toKey])]
    simp only [parts, flatMap_struct]
    rw [visitNode, visitBody]
  | struct s =>
    cases s with
    | attr m k v =>
      simp only [visitNode, visitStruct, parts, List.cons.injEq, true_and]
      cases mt <;> simp [skips, toCollection, toKey, visitNode, List.filter]
    | block m i ls b =>
      rw [filter_all (by intro m; simp [skips, toCollection, toKey])]
      simp only [parts, List.cons_append, List.flatMap_cons, List.flatMap_append, flatMap_label]
      simp [visitNode, visitStruct]
  | label l =>
    rw [filter_all (by intro m; simp [skips, toCollection, toKey])]
    cases l <;> simp [parts, visitNode, visitLabel]
  | expr e =>
    rw [filter_all (by intro m; simp [skips, toCollection, toKey])]
    cases e with
    | array m vs c t => simp only [parts, flatMap_expr]; rw [visitNode, visitExpr]
    | object m is t => simp only [parts, flatMap_item]; rw [visitNode, visitExpr]
    | strTmpl m es => simp only [parts, flatMap_elem]; rw [visitNode, visitExpr]
    | heredoc m d ts es i t => simp only [parts, flatMap_elem]; rw [visitNode, visitExpr]
    | call m ns n am as c x t =>
      simp only [parts, List.flatMap_append, List.flatMap_cons, flatMap_ident, flatMap_expr]
      simp [visitNode, visitExpr]
    | trav m e os =>
      simp only [parts, List.flatMap_cons, flatMap_op]
      simp [visitNode, visitExpr]
    | forE m im k v c ke ve g cm co =>
      simp only [parts, List.flatMap_append, List.flatMap_cons, List.cons_append, flatMap_identOpt,
        flatMap_exprOpt]
      simp [visitNode, visitExpr]
    | _ => simp [parts, visitNode, visitExpr]
  | key k =>
    cases k <;> cases mt <;> simp [parts, visitNode, visitKey, skips, toCollection, toKey, List.filter]
  | op o =>
    rw [filter_all (by intro m; simp [skips, toCollection, toKey])]
    cases o <;> simp [parts, visitNode, visitOp]
  | elem e =>
    cases e with
    | lit sp s =>
      rw [filter_all (by intro m; simp [skips, toCollection, toKey])]
      simp [parts, visitNode, visitElem]
    | interp sp e st =>
      rw [filter_all (by intro m; simp [skips, toCollection, toKey])]
      simp [parts, visitNode, visitElem]
    | ifDir sp p c s ts t els ep et es =>
      rw [filter_all (by intro m; simp [skips, toCollection, toKey])]
      simp only [parts, List.flatMap_cons, List.flatMap_append, List.cons_append, flatMap_elem,
        flatMap_elseOpt]
      simp [visitNode, visitElem]
    | forDir sp p k v c s ts t ep et es =>
      have h1 : ∀ l : List EElem, (l.map Node.elem).filter (fun m =>
          !skips mt (.elem (.forDir sp p k v c s ts t ep et es)) m) = l.map .elem := by
        intro l
        induction l with
        | nil => rfl
        | cons a l ih =>
          rw [List.map_cons, List.filter_cons, ih]
          simp [skips, toCollection, toKey]
      have h2 : ∀ l : List DIdent, (l.map Node.ident).filter (fun m =>
          !skips mt (.elem (.forDir sp p k v c s ts t ep et es)) m) = l.map .ident := by
        intro l
        induction l with
        | nil => rfl
        | cons a l ih =>
          rw [List.map_cons, List.filter_cons, ih]
          simp [skips, toCollection, toKey]
      have h3 : skips mt (.elem (.forDir sp p k v c s ts t ep et es)) (.ident v) = false := by
        simp [skips, toCollection, toKey]
      have h4 : skips mt (.elem (.forDir sp p k v c s ts t ep et es)) (.expr c) = true := by
        simp [skips, toCollection]
      simp only [parts, List.filter_append, List.filter_cons, h1, h2, h3, h4, List.flatMap_append,
        flatMap_identOpt, Bool.not_false, if_true, Bool.not_true, Bool.false_eq_true, if_false,
        List.flatMap_cons, flatMap_elem]
      simp [visitNode, visitElem]
  | ident d => rfl
  | literal sp s => rfl

theorem visited_of_inside {n l : Node} (h : Inside (skips mt) n l) : l ∈ visitNode mt n := by
  induction h with
  | refl n => rw [visitNode_eq]; exact List.mem_cons_self ..
  | step hp hs _ ih =>
    rw [visitNode_eq]
    refine List.mem_cons_of_mem _ (List.mem_flatMap.2 ⟨_, ?_, ih⟩)
    exact List.mem_filter.2 ⟨hp, by simp [hs]⟩

theorem length_le_flatMap {f : Node → List Node} {m : Node} : ∀ {l : List Node}, m ∈ l →
    (f m).length ≤ (l.flatMap f).length
  | a :: l, h => by
    rw [List.flatMap_cons, List.length_append]
    rcases List.mem_cons.1 h with rfl | h
    · omega
    · have := length_le_flatMap (f := f) h
      omega

theorem inside_of_visited : ∀ (k : Nat) {n l : Node}, (visitNode mt n).length = k →
    l ∈ visitNode mt n → Inside (skips mt) n l := by
  intro k
  induction k using Nat.strongRecOn with
  | _ k ih =>
    intro n l hk h
    have heq := visitNode_eq (mt := mt) n
    rw [heq] at h
    rcases List.mem_cons.1 h with rfl | h
    · exact .refl _
    · obtain ⟨m, hm, hl⟩ := List.mem_flatMap.1 h
      have hlen := length_le_flatMap (f := visitNode mt) hm
      obtain ⟨hp, hs⟩ := List.mem_filter.1 hm
      refine .step hp (by simpa using hs) (ih _ ?_ rfl hl)
      rw [heq, List.length_cons] at hk
      omega

theorem visited_iff {n l : Node} : l ∈ visitNode mt n ↔ Inside (skips mt) n l :=
  ⟨inside_of_visited _ rfl, visited_of_inside⟩

end Verif.Spec
