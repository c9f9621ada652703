import Verif.Spec.VisitMut
/-! Mutable visitors rewrite the parts of a node one after the other (C71). -/

namespace Verif.Spec

variable {σ : Type} {V : Visitor σ}

/-! ### Calls of methods -/

theorem run_body {x : EBody} {d : σ → EBody × σ} {s : σ}
    (h : RewrittenParts V (.body x) (parts (.body x)) s (parts (.body (d s).1)) (d s).2)
    (hs : shell (.body (d s).1) = shell (.body x)) :
    Rewritten V (.body x) s (.body (V.body.run x d s).1) (V.body.run x d s).2 := by
  unfold Hook.run
  cases hp : V.body.pre x s with
  | some r => exact .replaced (by simp only [methodBefore, hp]; rfl)
  | none => exact .inside (by simp only [methodBefore, hp]; rfl) h hs rfl

theorem run_struct {x : EStruct} {d : σ → EStruct × σ} {s : σ}
    (h : RewrittenParts V (.struct x) (parts (.struct x)) s (parts (.struct (d s).1)) (d s).2)
    (hs : shell (.struct (d s).1) = shell (.struct x)) :
    Rewritten V (.struct x) s (.struct (V.struct.run x d s).1) (V.struct.run x d s).2 := by
  unfold Hook.run
  cases hp : V.struct.pre x s with
  | some r => exact .replaced (by simp only [methodBefore, hp]; rfl)
  | none => exact .inside (by simp only [methodBefore, hp]; rfl) h hs rfl

theorem run_label {x : ELabel} {d : σ → ELabel × σ} {s : σ}
    (h : RewrittenParts V (.label x) (parts (.label x)) s (parts (.label (d s).1)) (d s).2)
    (hs : shell (.label (d s).1) = shell (.label x)) :
    Rewritten V (.label x) s (.label (V.label.run x d s).1) (V.label.run x d s).2 := by
  unfold Hook.run
  cases hp : V.label.pre x s with
  | some r => exact .replaced (by simp only [methodBefore, hp]; rfl)
  | none => exact .inside (by simp only [methodBefore, hp]; rfl) h hs rfl

theorem run_expr {x : EExpr} {d : σ → EExpr × σ} {s : σ}
    (h : RewrittenParts V (.expr x) (parts (.expr x)) s (parts (.expr (d s).1)) (d s).2)
    (hs : shell (.expr (d s).1) = shell (.expr x)) :
    Rewritten V (.expr x) s (.expr (V.expr.run x d s).1) (V.expr.run x d s).2 := by
  unfold Hook.run
  cases hp : V.expr.pre x s with
  | some r => exact .replaced (by simp only [methodBefore, hp]; rfl)
  | none => exact .inside (by simp only [methodBefore, hp]; rfl) h hs rfl

theorem run_op {x : ETravOp} {d : σ → ETravOp × σ} {s : σ}
    (h : RewrittenParts V (.op x) (parts (.op x)) s (parts (.op (d s).1)) (d s).2)
    (hs : shell (.op (d s).1) = shell (.op x)) :
    Rewritten V (.op x) s (.op (V.op.run x d s).1) (V.op.run x d s).2 := by
  unfold Hook.run
  cases hp : V.op.pre x s with
  | some r => exact .replaced (by simp only [methodBefore, hp]; rfl)
  | none => exact .inside (by simp only [methodBefore, hp]; rfl) h hs rfl

theorem run_elem {x : EElem} {d : σ → EElem × σ} {s : σ}
    (h : RewrittenParts V (.elem x) (parts (.elem x)) s (parts (.elem (d s).1)) (d s).2)
    (hs : shell (.elem (d s).1) = shell (.elem x)) :
    Rewritten V (.elem x) s (.elem (V.elem.run x d s).1) (V.elem.run x d s).2 := by
  unfold Hook.run
  cases hp : V.elem.pre x s with
  | some r => exact .replaced (by simp only [methodBefore, hp]; rfl)
  | none => exact .inside (by simp only [methodBefore, hp]; rfl) h hs rfl

theorem mutIdent_rewritten (d : DIdent) (s : σ) :
    Rewritten V (.ident d) s (.ident (mutIdent V d s).1) (mutIdent V d s).2 := by
  unfold mutIdent Hook.run
  cases hp : V.ident.pre d s with
  | some r => exact .replaced (by simp only [methodBefore, hp]; rfl)
  | none => exact .inside (n₁ := .ident d) (by simp only [methodBefore, hp]; rfl) .nil rfl rfl

theorem mutLiteral_rewritten (sp : Option Span) (x : Str) (s : σ) :
    Rewritten V (.literal sp x) s
      (.literal (V.literal.run (sp, x) (fun s => ((sp, x), s)) s).1.1
        (V.literal.run (sp, x) (fun s => ((sp, x), s)) s).1.2)
      (V.literal.run (sp, x) (fun s => ((sp, x), s)) s).2 := by
  unfold Hook.run
  cases hp : V.literal.pre (sp, x) s with
  | some r => exact .replaced (by simp only [methodBefore, hp]; rfl)
  | none => exact .inside (n₁ := .literal sp x) (by simp only [methodBefore, hp]; rfl) .nil rfl rfl

theorem mutKey_rewritten (k : EKey) (s : σ) :
    Rewritten V (.key k) s (.key (mutKey V k s).1) (mutKey V k s).2 := by
  unfold mutKey Hook.run
  cases hp : V.key.pre k s with
  | some r => exact .replaced (by simp only [methodBefore, hp]; rfl)
  | none =>
    refine .inside (n₁ := .key k) (by simp only [methodBefore, hp]; rfl) ?_ rfl rfl
    cases k <;> exact .skip (.inr rfl) .nil

/-! ### Lists of parts -/

/-- No part of the node is left out. -/
def Whole (n : Node) : Prop := ∀ p, toCollection n p = false ∧ toKey n p = false

theorem RewrittenParts.append {n : Node} {ps qs ps' qs' : List Node} {s s₁ s₂ : σ}
    (h : RewrittenParts V n ps s ps' s₁) (h' : RewrittenParts V n qs s₁ qs' s₂) :
    RewrittenParts V n (ps ++ qs) s (ps' ++ qs') s₂ := by
  induction ps generalizing s ps' with
  | nil => cases h with | nil => exact h'
  | cons p ps ih =>
    cases h with
    | skip hp h => exact .skip hp (ih h)
    | cons hc hk hp h => exact .cons hc hk hp (ih h)

theorem RewrittenParts.one {n p p' : Node} {s s' : σ} (hc : toCollection n p = false) (hk : toKey n p = false)
    (h : Rewritten V p s p' s') : RewrittenParts V n [p] s [p'] s' :=
  .cons hc hk h .nil

theorem mutIdents_rewritten (n : Node) (hc : ∀ d, toCollection n (.ident d) = false)
    (hk : ∀ d, toKey n (.ident d) = false) : ∀ (ds : List DIdent) (s : σ),
    RewrittenParts V n (ds.map .ident) s ((mutIdents V ds s).1.map .ident) (mutIdents V ds s).2
  | [], _ => .nil
  | d :: ds, s => .cons (hc d) (hk d) (mutIdent_rewritten d s) (mutIdents_rewritten n hc hk ds _)

theorem mutIdents_shell (c : DIdent) : ∀ (ds : List DIdent) (s : σ),
    (mutIdents V ds s).1.map (fun _ => c) = ds.map fun _ => c
  | [], _ => rfl
  | _ :: ds, _ => congrArg (c :: ·) (mutIdents_shell c ds _)

theorem mutIdentOpt_rewritten (n : Node) (hc : ∀ d, toCollection n (.ident d) = false)
    (hk : ∀ d, toKey n (.ident d) = false) : ∀ (d : Option DIdent) (s : σ),
    RewrittenParts V n (d.toList.map .ident) s ((mutIdentOpt V d s).1.toList.map .ident) (mutIdentOpt V d s).2
  | none, _ => .nil
  | some d, s => .one (hc d) (hk d) (mutIdent_rewritten d s)

theorem mutIdentOpt_shell (c : DIdent) (d : Option DIdent) (s : σ) :
    (mutIdentOpt V d s).1.map (fun _ => c) = d.map fun _ => c := by
  cases d <;> rfl

theorem mutList_shell (c : EExpr) : ∀ (es : List EExpr) (s : σ),
    (mutList V es s).1.map (fun _ => c) = es.map fun _ => c
  | [], _ => by rw [mutList]
  | e :: es, s => by rw [mutList]; exact congrArg (c :: ·) (mutList_shell c es _)

theorem mutOpt_shell (c : EExpr) (e : Option EExpr) (s : σ) :
    (mutOpt V e s).1.map (fun _ => c) = e.map fun _ => c := by
  cases e <;> rw [mutOpt] <;> rfl

theorem mutElems_shell (c : EElem) : ∀ (es : List EElem) (s : σ),
    (mutElems V es s).1.map (fun _ => c) = es.map fun _ => c
  | [], _ => by rw [mutElems]
  | e :: es, s => by rw [mutElems]; exact congrArg (c :: ·) (mutElems_shell c es _)

theorem mutItems_shell : ∀ (is : List EItem) (s : σ), (mutItems V is s).1.map itemShell = is.map itemShell
  | [], _ => by rw [mutItems]
  | .mk k v a t :: is, s => by rw [mutItems]; exact congrArg (_ :: ·) (mutItems_shell is _)

theorem mutTravs_shell : ∀ (os : List ETrav) (s : σ), (mutTravs V os s).1.map travShell = os.map travShell
  | [], _ => by rw [mutTravs]
  | .mk m o :: os, s => by rw [mutTravs]; exact congrArg (_ :: ·) (mutTravs_shell os _)

theorem mutElseOpt_shell (e : Option EElse) (s : σ) :
    (mutElseOpt V e s).1.map elseShell = e.map elseShell := by
  cases e with
  | none => rw [mutElseOpt]
  | some e =>
    obtain ⟨p, t, st, ts, es⟩ := e
    rw [mutElseOpt, mutElse]
    simp only [Option.map_some, elseShell, mutElems_shell]

mutual

theorem mutExpr_rewritten : ∀ (e : EExpr) (s : σ),
    Rewritten V (.expr e) s (.expr (mutExpr V e s).1) (mutExpr V e s).2
  | .null m, s => by rw [mutExpr]; exact run_expr .nil rfl
  | .bool m b, s => by rw [mutExpr]; exact run_expr .nil rfl
  | .number m n r, s => by rw [mutExpr]; exact run_expr .nil rfl
  | .string m x, s => by rw [mutExpr]; exact run_expr .nil rfl
  | .array m vs c t, s => by
    rw [mutExpr]
    exact run_expr (mutList_rewritten vs _ (fun _ => ⟨rfl, rfl⟩) s) (by simp only [shell, mutList_shell])
  | .object m is t, s => by
    rw [mutExpr]
    exact run_expr (mutItems_rewritten is _ (fun _ => ⟨rfl, rfl⟩) s) (by simp only [shell, mutItems_shell])
  | .strTmpl m es, s => by
    rw [mutExpr]
    exact run_expr (mutElems_rewritten es _ (fun _ => ⟨rfl, rfl⟩) s) (by simp only [shell, mutElems_shell])
  | .heredoc m d ts es i t, s => by
    rw [mutExpr]
    exact run_expr (mutElems_rewritten es _ (fun _ => ⟨rfl, rfl⟩) s) (by simp only [shell, mutElems_shell])
  | .paren m e, s => by
    rw [mutExpr]; exact run_expr (.one rfl rfl (mutExpr_rewritten e s)) rfl
  | .var m x, s => by
    rw [mutExpr]; exact run_expr (.one rfl rfl (mutIdent_rewritten ⟨m, x⟩ s)) rfl
  | .cond m c t f, s => by
    rw [mutExpr]
    exact run_expr (.cons rfl rfl (mutExpr_rewritten c s) (.cons rfl rfl (mutExpr_rewritten t _)
      (.one rfl rfl (mutExpr_rewritten f _)))) rfl
  | .call m ns n am as c x t, s => by
    rw [mutExpr]
    exact run_expr ((mutIdents_rewritten _ (fun _ => rfl) (fun _ => rfl) ns s).append
      (.cons rfl rfl (mutIdent_rewritten n _) (mutList_rewritten as _ (fun _ => ⟨rfl, rfl⟩) _)))
      (by simp only [shell, mutIdents_shell, mutList_shell])
  | .trav m e os, s => by
    rw [mutExpr]
    exact run_expr (.cons rfl rfl (mutExpr_rewritten e s) (mutTravs_rewritten os _ (fun _ => ⟨rfl, rfl⟩) _))
      (by simp only [shell, mutTravs_shell])
  | .unary m os o e, s => by
    rw [mutExpr]; exact run_expr (.one rfl rfl (mutExpr_rewritten e s)) rfl
  | .binary m l om o r, s => by
    rw [mutExpr]
    exact run_expr (.cons rfl rfl (mutExpr_rewritten l s) (.one rfl rfl (mutExpr_rewritten r _))) rfl
  | .forE m im k v c ke ve g cm co, s => by
    rw [mutExpr]
    refine run_expr ?_ (by simp only [shell, mutIdentOpt_shell, mutOpt_shell])
    simp only [parts, List.append_assoc, List.cons_append]
    exact (mutIdentOpt_rewritten _ (fun _ => rfl) (fun _ => rfl) k s).append
      (.cons rfl rfl (mutIdent_rewritten v _) (.cons rfl rfl (mutExpr_rewritten c _)
        ((mutOpt_rewritten ke _ (fun _ => ⟨rfl, rfl⟩) _).append (.cons rfl rfl (mutExpr_rewritten ve _)
          (mutOpt_rewritten co _ (fun _ => ⟨rfl, rfl⟩) _)))))
termination_by structural x => x

theorem mutOpt_rewritten : ∀ (e : Option EExpr) (n : Node) (_ : Whole n) (s : σ),
    RewrittenParts V n (e.toList.map .expr) s ((mutOpt V e s).1.toList.map .expr) (mutOpt V e s).2
  | none, _, _, _ => by rw [mutOpt]; exact .nil
  | some e, _, h, s => by rw [mutOpt]; exact .one (h _).1 (h _).2 (mutExpr_rewritten e s)
termination_by structural x => x

theorem mutList_rewritten : ∀ (es : List EExpr) (n : Node) (_ : Whole n) (s : σ),
    RewrittenParts V n (es.map .expr) s ((mutList V es s).1.map .expr) (mutList V es s).2
  | [], _, _, _ => by rw [mutList]; exact .nil
  | e :: es, n, h, s => by
    rw [mutList]; exact .cons (h _).1 (h _).2 (mutExpr_rewritten e s) (mutList_rewritten es n h _)
termination_by structural x => x

theorem mutItems_rewritten : ∀ (is : List EItem) (n : Node) (_ : Whole n) (s : σ),
    RewrittenParts V n (is.flatMap itemParts) s ((mutItems V is s).1.flatMap itemParts) (mutItems V is s).2
  | [], _, _, _ => by rw [mutItems]; exact .nil
  | .mk k v a t :: is, n, h, s => by
    rw [mutItems]
    exact .cons (h _).1 (h _).2 (mutKey_rewritten k s) (.cons (h _).1 (h _).2 (mutExpr_rewritten v _)
      (mutItems_rewritten is n h _))
termination_by structural x => x

theorem mutTravs_rewritten : ∀ (os : List ETrav) (n : Node) (_ : Whole n) (s : σ),
    RewrittenParts V n (os.map travPart) s ((mutTravs V os s).1.map travPart) (mutTravs V os s).2
  | [], _, _, _ => by rw [mutTravs]; exact .nil
  | .mk m o :: os, n, h, s => by
    rw [mutTravs]; exact .cons (h _).1 (h _).2 (mutOp_rewritten o s) (mutTravs_rewritten os n h _)
termination_by structural x => x

theorem mutOp_rewritten : ∀ (o : ETravOp) (s : σ),
    Rewritten V (.op o) s (.op (mutOp V o s).1) (mutOp V o s).2
  | .attrSplat m, s => by rw [mutOp]; exact run_op .nil rfl
  | .fullSplat m, s => by rw [mutOp]; exact run_op .nil rfl
  | .getAttr d, s => by rw [mutOp]; exact run_op (.one rfl rfl (mutIdent_rewritten d s)) rfl
  | .index e, s => by rw [mutOp]; exact run_op (.one rfl rfl (mutExpr_rewritten e s)) rfl
  | .legacyIndex m n, s => by rw [mutOp]; exact run_op .nil rfl
termination_by structural x => x

theorem mutElems_rewritten : ∀ (es : List EElem) (n : Node)
    (_ : ∀ e, toCollection n (.elem e) = false ∧ toKey n (.elem e) = false) (s : σ),
    RewrittenParts V n (es.map .elem) s ((mutElems V es s).1.map .elem) (mutElems V es s).2
  | [], _, _, _ => by rw [mutElems]; exact .nil
  | e :: es, n, h, s => by
    rw [mutElems]; exact .cons (h _).1 (h _).2 (mutElem_rewritten e s) (mutElems_rewritten es n h _)
termination_by structural x => x

theorem mutElem_rewritten : ∀ (e : EElem) (s : σ),
    Rewritten V (.elem e) s (.elem (mutElem V e s).1) (mutElem V e s).2
  | .lit sp x, s => by rw [mutElem]; exact run_elem (.one rfl rfl (mutLiteral_rewritten sp x s)) rfl
  | .interp sp e st, s => by rw [mutElem]; exact run_elem (.one rfl rfl (mutExpr_rewritten e s)) rfl
  | .ifDir sp p c st ts t els ep et es, s => by
    rw [mutElem]
    exact run_elem (.cons rfl rfl (mutExpr_rewritten c s)
      ((mutElems_rewritten t _ (fun _ => ⟨rfl, rfl⟩) _).append
        (mutElseOpt_rewritten els _ (fun _ => ⟨rfl, rfl⟩) _)))
      (by simp only [shell, mutElems_shell, mutElseOpt_shell])
  | .forDir sp p k v c st ts t ep et es, s => by
    rw [mutElem]
    exact run_elem ((mutIdentOpt_rewritten _ (fun _ => rfl) (fun _ => rfl) k s).append
      (.cons rfl rfl (mutIdent_rewritten v _) (.skip (.inl rfl)
        (mutElems_rewritten t _ (fun _ => ⟨rfl, rfl⟩) _))))
      (by simp only [shell, mutIdentOpt_shell, mutElems_shell])
termination_by structural x => x

theorem mutElseOpt_rewritten : ∀ (e : Option EElse) (n : Node)
    (_ : ∀ e, toCollection n (.elem e) = false ∧ toKey n (.elem e) = false) (s : σ),
    RewrittenParts V n (e.toList.flatMap elseParts) s ((mutElseOpt V e s).1.toList.flatMap elseParts)
      (mutElseOpt V e s).2
  | none, _, _, _ => by rw [mutElseOpt]; exact .nil
  | some e, n, h, s => by
    rw [mutElseOpt]
    simp only [Option.toList_some, List.flatMap_cons, List.flatMap_nil, List.append_nil]
    exact mutElse_rewritten e n h s
termination_by structural x => x

theorem mutElse_rewritten : ∀ (e : EElse) (n : Node)
    (_ : ∀ e, toCollection n (.elem e) = false ∧ toKey n (.elem e) = false) (s : σ),
    RewrittenParts V n (elseParts e) s (elseParts (mutElse V e s).1) (mutElse V e s).2
  | .mk p t st ts es, n, h, s => by rw [mutElse]; exact mutElems_rewritten es n h s
termination_by structural x => x

end

theorem mutLabel_rewritten (l : ELabel) (s : σ) :
    Rewritten V (.label l) s (.label (mutLabel V l s).1) (mutLabel V l s).2 := by
  cases l with
  | ident d => rw [mutLabel]; exact run_label (.one rfl rfl (mutIdent_rewritten d s)) rfl
  | string m x => rw [mutLabel]; exact run_label .nil rfl

theorem mutLabels_rewritten (n : Node) (hc : ∀ d, toCollection n (.label d) = false)
    (hk : ∀ d, toKey n (.label d) = false) : ∀ (ls : List ELabel) (s : σ),
    RewrittenParts V n (ls.map .label) s ((mutLabels V ls s).1.map .label) (mutLabels V ls s).2
  | [], _ => .nil
  | d :: ds, s => .cons (hc d) (hk d) (mutLabel_rewritten d s) (mutLabels_rewritten n hc hk ds _)

theorem mutLabels_shell (c : ELabel) : ∀ (ds : List ELabel) (s : σ),
    (mutLabels V ds s).1.map (fun _ => c) = ds.map fun _ => c
  | [], _ => rfl
  | _ :: ds, _ => congrArg (c :: ·) (mutLabels_shell c ds _)

theorem mutStructs_shell (c : EStruct) : ∀ (es : List EStruct) (s : σ),
    (mutStructs V es s).1.map (fun _ => c) = es.map fun _ => c
  | [], _ => by rw [mutStructs]
  | e :: es, s => by rw [mutStructs]; exact congrArg (c :: ·) (mutStructs_shell c es _)

mutual

theorem mutStruct_rewritten : ∀ (x : EStruct) (s : σ),
    Rewritten V (.struct x) s (.struct (mutStruct V x s).1) (mutStruct V x s).2
  | .attr m k v, s => by
    rw [mutStruct]
    exact run_struct (.skip (.inr rfl) (.one rfl rfl (mutExpr_rewritten v s))) rfl
  | .block m i ls b, s => by
    rw [mutStruct]
    exact run_struct (.cons rfl rfl (mutIdent_rewritten i s)
      ((mutLabels_rewritten _ (fun _ => rfl) (fun _ => rfl) ls _).append
        (.one rfl rfl (mutBody_rewritten b _)))) (by simp only [shell, mutLabels_shell])
termination_by structural x => x

theorem mutBody_rewritten : ∀ (x : EBody) (s : σ),
    Rewritten V (.body x) s (.body (mutBody V x s).1) (mutBody V x s).2
  | .mk m ss o n, s => by
    rw [mutBody]
    exact run_body (mutStructs_rewritten ss _ (fun _ => ⟨rfl, rfl⟩) s) (by simp only [shell, mutStructs_shell])
termination_by structural x => x

theorem mutStructs_rewritten : ∀ (xs : List EStruct) (n : Node) (_ : Whole n) (s : σ),
    RewrittenParts V n (xs.map .struct) s ((mutStructs V xs s).1.map .struct) (mutStructs V xs s).2
  | [], _, _, _ => by rw [mutStructs]; exact .nil
  | x :: xs, n, h, s => by
    rw [mutStructs]; exact .cons (h _).1 (h _).2 (mutStruct_rewritten x s) (mutStructs_rewritten xs n h _)
termination_by structural x => x

end

/-! ### The result is determined -/

theorem map_inj {α β : Type} {f : α → β} (hf : ∀ a b, f a = f b → a = b) :
    ∀ {xs ys : List α}, xs.map f = ys.map f → xs = ys
  | [], [], _ => rfl
  | [], _ :: _, h => nomatch h
  | _ :: _, [], h => nomatch h
  | x :: xs, y :: ys, h => by
    rw [List.map_cons, List.map_cons] at h
    injection h with h1 h2
    rw [hf _ _ h1, map_inj hf h2]

theorem exprs_inj {xs ys : List EExpr} (h : xs.map Node.expr = ys.map Node.expr) : xs = ys :=
  map_inj (fun _ _ h => by injection h) h
theorem elems_inj {xs ys : List EElem} (h : xs.map Node.elem = ys.map Node.elem) : xs = ys :=
  map_inj (fun _ _ h => by injection h) h
theorem idents_inj {xs ys : List DIdent} (h : xs.map Node.ident = ys.map Node.ident) : xs = ys :=
  map_inj (fun _ _ h => by injection h) h
theorem labels_inj {xs ys : List ELabel} (h : xs.map Node.label = ys.map Node.label) : xs = ys :=
  map_inj (fun _ _ h => by injection h) h
theorem structs_inj {xs ys : List EStruct} (h : xs.map Node.struct = ys.map Node.struct) : xs = ys :=
  map_inj (fun _ _ h => by injection h) h

theorem length_of_shell {α β γ : Type} {f : α → β} {g : γ → β} {xs : List α} {ys : List γ}
    (h : xs.map f = ys.map g) : xs.length = ys.length := by
  have := congrArg List.length h
  simpa using this

theorem opt_length {α : Type} {c : α} {x y : Option α} (h : x.map (fun _ => c) = y.map fun _ => c) :
    x.toList.length = y.toList.length := by
  cases x <;> cases y <;> first | rfl | cases h

theorem opt_inj {α : Type} {x y : Option α} (h : x.toList = y.toList) : x = y := by
  cases x <;> cases y <;> first | rfl | cases h | skip
  rfl

theorem items_inj : ∀ {xs ys : List EItem}, xs.map itemShell = ys.map itemShell →
    xs.flatMap itemParts = ys.flatMap itemParts → xs = ys
  | [], [], _, _ => rfl
  | [], _ :: _, h, _ => nomatch h
  | _ :: _, [], h, _ => nomatch h
  | .mk k v a t :: xs, .mk k' v' a' t' :: ys, h, h' => by
    simp only [List.map_cons, itemShell, List.cons.injEq, EItem.mk.injEq, true_and] at h
    simp only [List.flatMap_cons, itemParts, List.cons_append, List.nil_append, List.cons.injEq,
      Node.key.injEq, Node.expr.injEq] at h'
    rw [items_inj h.2 h'.2.2, h.1.1, h.1.2, h'.1, h'.2.1]

theorem travs_inj : ∀ {xs ys : List ETrav}, xs.map travShell = ys.map travShell →
    xs.map travPart = ys.map travPart → xs = ys
  | [], [], _, _ => rfl
  | [], _ :: _, h, _ => nomatch h
  | _ :: _, [], h, _ => nomatch h
  | .mk m o :: xs, .mk m' o' :: ys, h, h' => by
    simp only [List.map_cons, travShell, List.cons.injEq, ETrav.mk.injEq, and_true] at h
    simp only [List.map_cons, travPart, List.cons.injEq, Node.op.injEq] at h'
    rw [travs_inj h.2 h'.2, h.1, h'.1]

theorem elses_inj {x y : Option EElse} (h : x.map elseShell = y.map elseShell)
    (h' : x.toList.flatMap elseParts = y.toList.flatMap elseParts) : x = y := by
  cases x with
  | none => cases y with
    | none => rfl
    | some y => cases h
  | some x => cases y with
    | none => cases h
    | some y =>
      obtain ⟨p, t, st, ts, es⟩ := x
      obtain ⟨p', t', st', ts', es'⟩ := y
      simp only [Option.map_some, elseShell, Option.some.injEq, EElse.mk.injEq] at h
      simp only [Option.toList_some, List.flatMap_cons, List.flatMap_nil, List.append_nil, elseParts] at h'
      obtain ⟨rfl, rfl, rfl, rfl, -⟩ := h
      rw [elems_inj h']

/-- The kind of a node. -/
def kind : Node → Nat
  | .body _ => 0
  | .struct _ => 1
  | .label _ => 2
  | .expr _ => 3
  | .key _ => 4
  | .op _ => 5
  | .elem _ => 6
  | .ident _ => 7
  | .literal _ _ => 8

theorem kind_shell (n : Node) : kind (shell n) = kind n := by
  unfold shell
  split <;> rfl

theorem expr_eq {a b : EExpr} (h : shell (.expr a) = shell (.expr b)) (h' : parts (.expr a) = parts (.expr b)) :
    a = b := by
  cases a <;> cases b <;>
    simp only [shell, Node.expr.injEq, reduceCtorEq, EExpr.null.injEq, EExpr.bool.injEq, EExpr.number.injEq,
      EExpr.string.injEq, EExpr.array.injEq, EExpr.object.injEq, EExpr.strTmpl.injEq, EExpr.heredoc.injEq,
      EExpr.paren.injEq, EExpr.cond.injEq, EExpr.call.injEq, EExpr.trav.injEq, EExpr.unary.injEq,
      EExpr.binary.injEq, EExpr.forE.injEq] at h <;>
    simp only [parts] at h'
  case null.null => rw [h]
  case bool.bool => rw [h.1, h.2]
  case number.number => rw [h.1, h.2.1, h.2.2]
  case string.string => rw [h.1, h.2]
  case array.array => rw [h.1, h.2.2.1, h.2.2.2, exprs_inj h']
  case object.object => rw [h.1, h.2.2, items_inj h.2.1 h']
  case strTmpl.strTmpl => rw [h.1, elems_inj h']
  case heredoc.heredoc => rw [h.1, h.2.1, h.2.2.1, h.2.2.2.2.1, h.2.2.2.2.2, elems_inj h']
  case paren.paren =>
    injection h' with h'
    injection h' with h'
    rw [h.1, h']
  case var.var =>
    injection h' with h'
    injection h' with h'
    injection h' with h1 h2
    rw [h1, h2]
  case cond.cond =>
    simp only [List.cons.injEq, Node.expr.injEq, and_true] at h'
    rw [h.1, h'.1, h'.2.1, h'.2.2]
  case call.call =>
    obtain ⟨rfl, h1, -, rfl, -, rfl, rfl, rfl⟩ := h
    have hl := length_of_shell h1
    obtain ⟨h2, h3⟩ := List.append_inj h' (by simpa using hl)
    injection h3 with h3 h4
    injection h3 with h3
    rw [idents_inj h2, h3, exprs_inj h4]
  case trav.trav =>
    injection h' with h1 h2
    injection h1 with h1
    rw [h.1, h1, travs_inj h.2.2 h2]
  case unary.unary =>
    injection h' with h'
    injection h' with h'
    rw [h.1, h.2.1, h.2.2.1, h']
  case binary.binary =>
    simp only [List.cons.injEq, Node.expr.injEq, and_true] at h'
    rw [h.1, h.2.2.1, h.2.2.2.1, h'.1, h'.2]
  case forE.forE =>
    obtain ⟨rfl, rfl, h1, -, -, h2, -, rfl, rfl, h3⟩ := h
    rw [List.append_assoc, List.append_assoc] at h'
    obtain ⟨e1, h'⟩ := List.append_inj h' (by simpa using opt_length h1)
    simp only [List.cons_append] at h'
    injection h' with e2 h'
    injection h' with e3 h'
    obtain ⟨e4, h'⟩ := List.append_inj h' (by simpa using opt_length h2)
    injection h' with e5 e6
    injection e2 with e2
    injection e3 with e3
    injection e5 with e5
    rw [opt_inj (idents_inj e1), e2, e3, opt_inj (exprs_inj e4), e5, opt_inj (exprs_inj e6)]

theorem elem_eq {a b : EElem} (h : shell (.elem a) = shell (.elem b)) (h' : parts (.elem a) = parts (.elem b)) :
    a = b := by
  cases a <;> cases b <;>
    simp only [shell, Node.elem.injEq, reduceCtorEq, EElem.interp.injEq, EElem.ifDir.injEq,
      EElem.forDir.injEq] at h <;>
    simp only [parts] at h'
  case lit.lit =>
    injection h' with h'
    injection h' with h1 h2
    rw [h1, h2]
  case interp.interp =>
    injection h' with h'
    injection h' with h'
    rw [h.1, h.2.2, h']
  case ifDir.ifDir =>
    obtain ⟨rfl, rfl, -, rfl, rfl, h1, h2, rfl, rfl, rfl⟩ := h
    rw [List.cons_append, List.cons_append] at h'
    injection h' with e1 h'
    injection e1 with e1
    have hl := length_of_shell h1
    obtain ⟨e2, e3⟩ := List.append_inj h' (by simpa using hl)
    rw [e1, elems_inj e2, elses_inj h2 e3]
  case forDir.forDir =>
    obtain ⟨rfl, rfl, h1, -, -, rfl, rfl, h2, rfl, rfl, rfl⟩ := h
    obtain ⟨e1, h'⟩ := List.append_inj h' (by simpa using opt_length h1)
    injection h' with e2 h'
    injection h' with e3 e4
    injection e2 with e2
    injection e3 with e3
    rw [opt_inj (idents_inj e1), e2, e3, elems_inj e4]

/-- A node is determined by what it is without its parts and its parts. -/
theorem node_eq {a b : Node} (h : shell a = shell b) (h' : parts a = parts b) : a = b := by
  have hk : kind a = kind b := by rw [← kind_shell a, ← kind_shell b, h]
  cases a <;> cases b <;> first | cases hk | skip
  case body.body a b =>
    obtain ⟨m, ss, o, n⟩ := a
    obtain ⟨m', ss', o', n'⟩ := b
    simp only [shell, Node.body.injEq, EBody.mk.injEq] at h
    obtain ⟨rfl, -, rfl, rfl⟩ := h
    rw [structs_inj h']
  case struct.struct a b =>
    cases a <;> cases b <;>
      simp only [shell, Node.struct.injEq, reduceCtorEq, EStruct.attr.injEq, EStruct.block.injEq] at h <;>
      simp only [parts] at h'
    · simp only [List.cons.injEq, Node.ident.injEq, Node.expr.injEq, and_true] at h'
      rw [h.1, h'.1, h'.2]
    · obtain ⟨rfl, -, h1, -⟩ := h
      rw [List.cons_append, List.cons_append] at h'
      injection h' with e1 h'
      injection e1 with e1
      have hl := length_of_shell h1
      obtain ⟨e2, e3⟩ := List.append_inj h' (by simpa using hl)
      injection e3 with e3
      injection e3 with e3
      rw [e1, labels_inj e2, e3]
  case label.label a b =>
    cases a <;> cases b <;> simp only [shell, Node.label.injEq, reduceCtorEq, ELabel.string.injEq] at h
    · injection h' with h'
      injection h' with h'
      rw [h']
    · rw [h.1, h.2]
  case expr.expr a b => rw [expr_eq h h']
  case key.key a b =>
    cases a <;> cases b <;> simp only [shell, Node.key.injEq, reduceCtorEq] at h <;>
    · injection h' with h'
      injection h' with h'
      rw [h']
  case op.op a b =>
    cases a <;> cases b <;> simp only [shell, Node.op.injEq, reduceCtorEq, ETravOp.attrSplat.injEq,
      ETravOp.fullSplat.injEq, ETravOp.legacyIndex.injEq] at h
    · rw [h]
    · rw [h]
    · injection h' with h'
      injection h' with h'
      rw [h']
    · injection h' with h'
      injection h' with h'
      rw [h']
    · rw [h.1, h.2]
  case elem.elem a b => rw [elem_eq h h']
  case ident.ident a b => exact h
  case literal.literal a b => exact h

mutual

/-- The result of a visit is determined. -/
theorem Rewritten.det : ∀ {n : Node} {s : σ} {a b : Node} {s' s'' : σ}, Rewritten V n s a s' →
    Rewritten V n s b s'' → a = b ∧ s' = s''
  | _, _, _, _, _, _, .replaced h, h' => by
    cases h' with
    | replaced h' =>
      rw [h] at h'
      injection h' with h'
      injection h' with h1 h2
      exact ⟨h1, h2⟩
    | inside h' => rw [h] at h'; cases h'
  | _, _, _, _, _, _, .inside h hp hs ha, h' => by
    cases h' with
    | replaced h' => rw [h] at h'; cases h'
    | inside _ hp' hs' ha' =>
      obtain ⟨e1, rfl⟩ := RewrittenParts.det hp hp'
      have := node_eq (hs.trans hs'.symm) e1
      subst this
      rw [ha] at ha'
      injection ha' with h1 h2
      exact ⟨h1, h2⟩

theorem RewrittenParts.det : ∀ {n : Node} {ps : List Node} {s : σ} {a b : List Node} {s' s'' : σ},
    RewrittenParts V n ps s a s' → RewrittenParts V n ps s b s'' → a = b ∧ s' = s''
  | _, _, _, _, _, _, _, .nil, h' => by cases h'; exact ⟨rfl, rfl⟩
  | _, _, _, _, _, _, _, .skip hk h, h' => by
    cases h' with
    | skip _ h' =>
      obtain ⟨rfl, rfl⟩ := RewrittenParts.det h h'
      exact ⟨rfl, rfl⟩
    | cons h1 h2 => simp [h1, h2] at hk
  | _, _, _, _, _, _, _, .cons h1 h2 hp h, h' => by
    cases h' with
    | skip hk => simp [h1, h2] at hk
    | cons _ _ hp' h' =>
      obtain ⟨rfl, rfl⟩ := Rewritten.det hp hp'
      obtain ⟨rfl, rfl⟩ := RewrittenParts.det h h'
      exact ⟨rfl, rfl⟩

end

/-! ### What is not rewritten stays the same -/

mutual

theorem Rewritten.same : ∀ {n : Node} {s : σ} {a : Node} {s' : σ}, Rewritten V n s a s' →
    (∀ m, Inside (fun a b => toCollection a b || toKey a b) n m →
      ∀ s, methodBefore V m s = none ∧ methodAfter V m s = (m, s)) → a = n ∧ s' = s
  | _, _, _, _, .replaced h, hV => by rw [(hV _ (.refl _) _).1] at h; cases h
  | n, _, _, _, .inside h hp hs ha, hV => by
    obtain ⟨e, rfl⟩ := RewrittenParts.same hp fun p hp h1 h2 m hm => hV m (.step hp (by simp [h1, h2]) hm)
    have := node_eq hs e
    subst this
    rw [(hV _ (.refl _) _).2] at ha
    injection ha with h1 h2
    exact ⟨h1.symm, h2.symm⟩

theorem RewrittenParts.same : ∀ {n : Node} {ps : List Node} {s : σ} {a : List Node} {s' : σ},
    RewrittenParts V n ps s a s' →
    (∀ p ∈ ps, toCollection n p = false → toKey n p = false →
      ∀ m, Inside (fun a b => toCollection a b || toKey a b) p m →
      ∀ s, methodBefore V m s = none ∧ methodAfter V m s = (m, s)) → a = ps ∧ s' = s
  | _, _, _, _, _, .nil, _ => ⟨rfl, rfl⟩
  | _, _, _, _, _, .skip _ h, hV => by
    obtain ⟨rfl, rfl⟩ := RewrittenParts.same h fun p hp => hV p (.tail _ hp)
    exact ⟨rfl, rfl⟩
  | _, _, _, _, _, .cons h1 h2 hp h, hV => by
    obtain ⟨rfl, rfl⟩ := Rewritten.same hp (hV _ (.head _) h1 h2)
    obtain ⟨rfl, rfl⟩ := RewrittenParts.same h fun p hp => hV p (.tail _ hp)
    exact ⟨rfl, rfl⟩

end

end Verif.Spec
