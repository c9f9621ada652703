import Verif.Lemmas.RunTerm
/-! Running the parser on objects. -/

namespace Verif.Gram
open P Spec Syn

variable {E : PEnv} {R : PRec} {m : Nat}

theorem runs_lineEnding {e r : Str} (h : e = c!"\n" ∨ e = c!"\r\n") : Runs lineEnding e r fun _ => True := by
  rcases h with rfl | rfl <;> exact fun _ => ⟨_, rfl, trivial⟩

theorem lineEnd_at {e r : Str} (h : e = c!"\n" ∨ e = c!"\r\n") : AtLineEnd (e ++ r) := by
  rcases h with rfl | rfl
  · exact .inr (.inl ⟨r, rfl⟩)
  · exact .inr (.inr ⟨r, rfl⟩)

theorem lineEnd_head {e : Str} (h : e = c!"\n" ∨ e = c!"\r\n") : ∃ c cs, e = c :: cs ∧ (c = '\n' ∨ c = '\r') := by
  rcases h with rfl | rfl
  · exact ⟨_, _, rfl, .inl rfl⟩
  · exact ⟨_, _, rfl, .inr rfl⟩

theorem runs_lineComment {x r : Str} (h : LineComment x) (hr : AtLineEnd r) : Runs lineComment x r fun _ => True := by
  obtain ⟨t, rfl | rfl, h1, h2⟩ := h
  · unfold lineComment
    refine Runs.bind_nil (Runs.peek (t := ['#']) runs_any) ?_
    rintro _ rfl
    exact hashComment_run h1 h2 hr
  · unfold lineComment
    refine Runs.bind_nil (Runs.peek (t := ['/']) runs_any) ?_
    rintro _ rfl
    exact slashComment_run h1 h2 hr

/-- How the ends of object items start. -/
theorem sep_head {s : Str} (h : ItemSep s) : ∃ c cs, s = c :: cs ∧
    (c = ',' ∨ c = '\n' ∨ c = '\r' ∨ c = '#' ∨ c = '/') := by
  cases h with
  | comma => exact ⟨_, _, rfl, .inl rfl⟩
  | newline h => rcases h with rfl | rfl <;> exact ⟨_, _, rfl, by decide⟩
  | line h _ =>
    obtain ⟨c, t, rfl, hc⟩ := lineComment_head h
    exact ⟨c, _, rfl, by rcases hc with rfl | rfl <;> decide⟩

theorem sep_quiet {s r : Str} (h : ItemSep s) : QuietE false (s ++ r) := by
  cases h with
  | comma => exact quiet_calm rfl
  | newline h => rcases h with rfl | rfl <;> exact quiet_newline (by decide)
  | line h _ => rw [List.append_assoc]; exact quiet_lineComment h

theorem sep_idEnd {U : Uni} {s r : Str} (h : ItemSep s) : IdEnd U (s ++ r) := by
  obtain ⟨c, cs, rfl, hc⟩ := sep_head h
  exact idEnd_cons (by rcases hc with rfl | rfl | rfl | rfl | rfl <;> rfl)

theorem sep_gap {s : Str} (h : ItemSep s) (hs : s ≠ c!",") : Gap true s := by
  cases h with
  | comma => exact absurd rfl hs
  | newline h =>
    rcases h with rfl | rfl
    · exact .newline (.inl rfl) .nil
    · exact .newline (.inr rfl) (.newline (.inl rfl) .nil)
  | line h he => simpa using Gap.line h he .nil

theorem run_itemEnd {v : EExpr} {e : Expr} {s r : Str} (h : ItemSep s) (hv : Means E.U E.bd v e) :
    ∃ c cs, s = c :: cs ∧ c ≠ '}' ∧ Runs (itemEnd v c) s r fun p => Means E.U E.bd p.1 e := by
  unfold itemEnd
  cases h with
  | comma =>
    refine ⟨',', [], rfl, by decide, ?_⟩
    exact Runs.bind_last (runs_takeN (t := [','])) fun _ _ => .pure hv
  | newline h =>
    rcases h with rfl | rfl
    · exact ⟨'\n', [], rfl, by decide, Runs.bind_last runs_tag fun _ _ => .pure hv⟩
    · exact ⟨'\r', ['\n'], rfl, by decide, Runs.bind_last runs_tag fun _ _ => .pure hv⟩
  | @line x k h he =>
    obtain ⟨c, t, rfl, hc⟩ := lineComment_head h
    refine ⟨c, t ++ k, rfl, by rcases hc with rfl | rfl <;> decide, ?_⟩
    have h1 : c ≠ '\r' := by rcases hc with rfl | rfl <;> decide
    have h2 : c ≠ '\n' := by rcases hc with rfl | rfl <;> decide
    have h3 : c ≠ ',' := by rcases hc with rfl | rfl <;> decide
    rw [if_neg h1, if_neg h2, if_neg h3, if_pos hc]
    refine Runs.bind (runs_lineComment h (lineEnd_at he)).spanOf fun s _ => ?_
    exact (runs_lineEnding he).bind_last fun _ _ => .pure (hv.mapMeta _)

/-- The text of a list of items starts with whitespace, and then with a key. -/
theorem items_split {es : List (ObjKey × Expr)} {w : Str} (h : Items E.U E.bd es w) :
    ∃ g u, w = g ++ u ∧ Gap true g ∧ (u = [] ∨ Starts E.U u) := by
  have key : ∀ {k t}, Key E.U E.bd k t → Starts E.U t := by
    intro k t h
    cases h with
    | ident h _ => exact ident_starts h
    | expr h _ => exact full_starts h
  cases h with
  | nil hg => exact ⟨w, [], (List.append_nil _).symm, hg, .inl rfl⟩
  | last hg hk => exact ⟨_, _, by simp only [List.append_assoc]; rfl, hg, .inr ((key hk).append _)⟩
  | cons hg hk => exact ⟨_, _, by simp only [List.append_assoc]; rfl, hg, .inr ((key hk).append _)⟩

theorem items_quiet {es : List (ObjKey × Expr)} {w r : Str} (h : Items E.U E.bd es w) (hc : ¬ Continues w) :
    ∃ g u, w ++ '}' :: r = g ++ u ∧ Gap true g ∧ QuietE true u := by
  obtain ⟨g, u, rfl, hg, rfl | hu⟩ := items_split h
  · exact ⟨g, '}' :: r, by asc, hg, quiet_calm rfl⟩
  · refine ⟨g, u ++ '}' :: r, by asc, hg, ?_⟩
    have hs := hu.solid (b := true)
    obtain ⟨c, cs, rfl, hh⟩ := hu
    have key : ∀ d ∈ ['?', '[', '(', '.', ':', '=', '!', '<', '>', '+', '-', '*', '/', '%', '&', '|'], c ≠ d := by
      rintro d hd rfl
      exact hc ⟨g, c, cs, rfl, hg, hs, hd⟩
    refine quiet_calm (r := cs ++ '}' :: r) ?_
    unfold headC at hh
    simp only [Bool.or_eq_true, beq_iff_eq] at hh
    rcases hh with (((((((h | h) | h) | h) | h) | h) | h) | h) | h
    · subst h; rfl
    · exact absurd h (key '[' (by decide))
    · subst h; rfl
    · exact calm_digit h
    · exact absurd h (key '-' (by decide))
    · exact absurd h (key '!' (by decide))
    · exact absurd h (key '(' (by decide))
    · exact absurd h (key '<' (by decide))
    · exact calm_idStart h

theorem den_var {v : EExpr} {x : Str} (h : Means E.U E.bd v (.var x)) : ∃ mm, v = .var mm x := by
  cases h
  exact ⟨_, rfl⟩

theorem toKey_var {v : EExpr} {x : Str} (h : Means E.U E.bd v (.var x)) : MeansKey E.U E.bd (toObjectKey v) (.ident x) := by
  obtain ⟨mm, rfl⟩ := den_var h
  exact .ident (d := ⟨_, x⟩)

theorem toKey_expr {v : EExpr} {e : Expr} (h : Means E.U E.bd v e) (he : isVar e = false) :
    MeansKey E.U E.bd (toObjectKey v) (.expr e) := by
  cases h with
  | var => cases he
  | null => exact .expr .null
  | bool => exact .expr .bool
  | number => exact .expr .number
  | string => exact .expr .string
  | array h => exact .expr (.array h)
  | object h k => exact .expr (.object h k)
  | template h k => exact .expr (.template h k)
  | heredoc h k l => exact .expr (.heredoc h k l)
  | paren h => exact .expr (.paren h)
  | cond h1 h2 h3 => exact .expr (.cond h1 h2 h3)
  | call h => exact .expr (.call h)
  | trav h k => exact .expr (.trav h k)
  | unary h => exact .expr (.unary h)
  | binary h k => exact .expr (.binary h k)
  | forE h1 h2 h3 h4 => exact .expr (.forE h1 h2 h3 h4)

theorem key_full {k : ObjKey} {t : Str} (h : Key E.U E.bd k t) : ∃ e, Full E.U E.bd false e t ∧
    ∀ v, Means E.U E.bd v e → MeansKey E.U E.bd (toObjectKey v) k := by
  cases h with
  | ident h1 h2 => exact ⟨_, .chain (.term (.atom (.var h1 h2))), fun v hv => toKey_var hv⟩
  | expr h1 h2 => exact ⟨_, h1, fun v hv => toKey_expr hv h2⟩

/-- An item without the text after its value. -/
theorem run_item (HG : Good E R m) {k : ObjKey} {v : Expr} {t h a g' u h' r : Str}
    (hk : Key E.U E.bd k t) (hh : Gap false h) (ha : a = c!"=" ∨ a = c!":") (hg' : Gap false g')
    (hv : Full E.U E.bd false v u) (hh' : Gap false h') (hm : (t ++ (h ++ (a ++ (g' ++ (u ++ h'))))).length < m)
    (hr : FolE E.U (opens v) (h' ++ r)) (hr' : ¬ StartsTrivia false r) {β : Type} {f : EKey → EExpr × Assign → P β}
    {Q : β → Prop} {s r' : Str} (hs : r = s ++ r')
    (hf : ∀ kk vv, MeansKey E.U E.bd kk k → Means E.U E.bd vv.1 v → Runs (f kk vv) s r' Q) :
    Runs (P.bind (objectKey R) fun kk => P.bind (objectValue R) fun vv => f kk vv)
      (t ++ (h ++ (a ++ (g' ++ (u ++ (h' ++ s)))))) r' Q := by
  subst hs
  obtain ⟨ke, hke, hto⟩ := key_full hk
  have hne : ∀ {d : Char}, (nonId d && !(d == '"' || d == '[' || d == '{' || d == '!' || d == '(' || d == '<')) = true →
      solid d = true → ∀ x, g' ++ (u ++ (h' ++ s)) ++ r' ≠ d :: x := by
    intro d hd hs
    asc
    exact gap_ne hg' hs (((full_starts hv).append _).ne hd)
  have hqa : ∀ b, QuietE b (a ++ (g' ++ (u ++ (h' ++ s))) ++ r') := by
    intro b
    rw [List.append_assoc]
    rcases ha with rfl | rfl
    · exact quiet_equals (hne rfl rfl)
    · exact quiet_colon (hne rfl rfl)
  have hida : IdEnd E.U (a ++ (g' ++ (u ++ (h' ++ s))) ++ r') := by
    rcases ha with rfl | rfl <;> exact idEnd_cons rfl
  simp only [List.length_append] at hm
  rw [show t ++ (h ++ (a ++ (g' ++ (u ++ (h' ++ s))))) = (t ++ h) ++ (a ++ (g' ++ (u ++ (h' ++ s)))) by asc]
  refine Runs.bind (Q := fun kk => MeansKey E.U E.bd kk k) ?_ fun kk hkk => ?_
  · refine runs_suffixDecorated (Q := fun kk => MeansKey E.U E.bd kk k)
      (Runs.map ((HG.expr hke (by omega) (b := false) (fun h => h) (folE_of (hh.mono ?_) (hqa _) (.inl hida))).conseq hto))
      (runs_sp hh (hqa _).triv) fun v f f' hv => (hv.mapMeta _).mapMeta _
    intro h; cases h
  · rw [show a ++ (g' ++ (u ++ (h' ++ s))) = (a ++ (g' ++ (u ++ h'))) ++ s by asc]
    refine Runs.bind (Q := fun vv => Means E.U E.bd vv.1 v) ?_ fun vv hvv => hf kk vv hkk hvv
    unfold objectValue
    refine Runs.bind (Q := fun _ => True) ?_ fun _ _ => ?_
    · unfold objectAssign
      rcases ha with rfl | rfl
      · refine Runs.bind_last runs_any ?_
        rintro _ rfl
        exact .pure trivial
      · refine Runs.bind_last runs_any ?_
        rintro _ rfl
        exact .pure trivial
    · refine Runs.bind_last (runs_decExpr (e := v) (runs_sp hg' ((full_starts hv).append _).solid)
        (HG.expr hv (by omega) (b := false) (fun h => h) hr) (runs_sp hh' hr')) fun vv hvv => .pure hvv

theorem den_object {is : List EItem} {es : List (ObjKey × Expr)} {mm : Meta} {t : Raw} (h : MeansItems E.U E.bd is es)
    (ha : KeysApart (es.map Prod.fst)) : Means E.U E.bd (.object mm is t) (.object es) := .object h ha

theorem run_objectLoop (HG : Good E R m) {r : Str} : ∀ {es : List (ObjKey × Expr)} {w : Str},
    Items E.U E.bd es w → w.length < m → ∀ {n : Nat} {items : List EItem} {acc : List (ObjKey × Expr)},
    w.length < n → MeansItems E.U E.bd items acc → KeysApart ((acc ++ es).map Prod.fst) →
    Runs (objectLoop R n items) w ('}' :: r) fun v => Means E.U E.bd v (.object (acc ++ es)) := by
  intro es
  induction es with
  | nil =>
    intro w h hm n items acc hn hi hap
    cases n with
    | zero => omega
    | succ n =>
      cases h with
      | nil hg =>
        unfold objectLoop
        refine Runs.bind (u := []) (runs_rawWs hg (solid_starts rfl)) (fun tr _ => ?_) |> fun h => by
          rw [List.append_nil] at h; exact h
        refine Runs.bind_nil (Runs.peek (t := ['}']) runs_any) ?_
        rintro _ rfl
        rw [List.append_nil] at hap ⊢
        exact .pure (den_object hi hap)
  | cons p es ih =>
    intro w h hm n items acc hn hi hap
    cases n with
    | zero => omega
    | succ n =>
      have hins : ∀ {k : EKey} {v : EExpr} {a : Assign} {t : ItemEnd}, MeansKey E.U E.bd k p.1 →
          itemInsert k v a t items = items ++ [.mk k v a t] := fun hk => by
        refine itemInsert_append hi hk fun q hq => ?_
        unfold KeysApart at hap
        rw [List.map_append, List.pairwise_append] at hap
        exact hap.2.2 q.1 (List.mem_map_of_mem hq) p.1 (List.mem_cons_self ..)
      have key : ∀ {k t}, Key E.U E.bd k t → Starts E.U t := by
        intro k t h
        cases h with
        | ident h _ => exact ident_starts h
        | expr h _ => exact full_starts h
      unfold objectLoop
      cases h with
      | @last k v g t h a g' u h' hg hk hh ha hg' hv hh' =>
        simp only [List.append_assoc] at hm ⊢
        refine Runs.bind (t := g) (runs_rawWs hg (((key hk).append _).append _).solid) fun tr _ => ?_
        obtain ⟨c, cs, ht, hc⟩ := key hk
        refine Runs.bind_nil (Q := fun x => x = c) ?_ ?_
        · have := Runs.peek (t := [c]) (r := (cs ++ (h ++ (a ++ (g' ++ (u ++ h')))) ++ '}' :: r)) runs_any
          rw [ht]; exact this
        rintro _ rfl
        rw [if_neg (head_ne hc rfl)]
        rw [← List.append_nil h']
        refine run_item HG hk hh ha hg' hv hh' ?_ (r := '}' :: r) ?_ (solid_starts rfl) rfl ?_
        · simp only [List.length_append] at hm ⊢; omega
        · exact folE_of (hh'.mono nofun) (quiet_calm rfl) (.inl (idEnd_cons rfl))
        rintro kk ⟨vv, aa⟩ hkk hvv
        refine Runs.bind_nil (Runs.peek (t := ['}']) runs_any) ?_
        rintro _ rfl
        refine .pure ?_
        rw [hins (hkk.mapMeta _)]
        exact den_object (hi.append (.one (hkk.mapMeta _) hvv)) hap
      | @cons k v _ g t h a g' u h' s w hg hk hh ha hg' hv hh' hs hw hct =>
        simp only [List.append_assoc] at hm ⊢
        refine Runs.bind (t := g) (runs_rawWs hg (((key hk).append _).append _).solid) fun tr _ => ?_
        obtain ⟨c, cs, ht, hc⟩ := key hk
        refine Runs.bind_nil (Q := fun x => x = c) ?_ ?_
        · have := Runs.peek (t := [c]) (r := (cs ++ (h ++ (a ++ (g' ++ (u ++ (h' ++ (s ++ w)))))) ++ '}' :: r)) runs_any
          rw [ht]; exact this
        rintro _ rfl
        rw [if_neg (head_ne hc rfl)]
        refine run_item HG hk hh ha hg' hv hh' ?_ (r := s ++ w ++ '}' :: r) ?_ ?_ rfl ?_
        · simp only [List.length_append] at hm ⊢; omega
        · rw [List.append_assoc]
          cases ho : opens v with
          | false => exact folE_of hh' (sep_quiet hs) (.inl (sep_idEnd hs))
          | true =>
            by_cases hcm : s = c!","
            · subst hcm
              exact folE_of (hh'.mono nofun) (quiet_calm rfl) (.inl (idEnd_cons rfl))
            · obtain ⟨g2, u2, h1, h2, h3⟩ := items_quiet (r := r) hw (hct ho hcm)
              rw [h1, show h' ++ (s ++ (g2 ++ u2)) = (h' ++ (s ++ g2)) ++ u2 by asc]
              refine folE_of ((hh'.mono nofun).append ((sep_gap hs hcm).append h2)) h3 (.inr ?_)
              intro hx
              simp only [List.append_eq_nil_iff] at hx
              obtain ⟨c, cs, hsc, _⟩ := sep_head hs
              rw [hx.2.1] at hsc
              cases hsc
        · rw [List.append_assoc]; exact (sep_quiet hs).triv
        rintro kk ⟨vv, aa⟩ hkk hvv
        obtain ⟨d, ds, hsd, hd, hend⟩ := run_itemEnd (r := w ++ '}' :: r) hs hvv
        refine Runs.bind_nil (Q := fun x => x = d) ?_ ?_
        · have := Runs.peek (t := [d]) (r := ds ++ w ++ '}' :: r) runs_any
          rw [hsd]; exact this
        rintro _ rfl
        rw [if_neg hd]
        refine Runs.bind hend ?_
        rintro ⟨v2, t2⟩ hv2
        rw [hins (hkk.mapMeta _)]
        have : acc ++ (k, v) :: es = (acc ++ [(k, v)]) ++ es := by asc
        rw [this] at hap ⊢
        simp only [List.length_append] at hm hn
        refine ih hw (by omega) ?_ (hi.append (.one (hkk.mapMeta _) hv2)) hap
        have : 0 < s.length := by rw [hsd]; exact Nat.zero_lt_succ _
        omega

theorem items_probe {es : List (ObjKey × Expr)} {t r : Str} (h : Items E.U E.bd es t) (hf : ¬ ForStart t) :
    Backs forProbe (t ++ '}' :: r) := by
  obtain ⟨g, u, rfl, hg, rfl | hu⟩ := items_split h
  · rw [List.append_nil] at hf ⊢
    exact backs_forProbe (u := []) hg (solid_starts rfl) (by rwa [List.append_nil]) (.inr (.inr rfl))
  · rw [List.append_assoc]
    exact backs_forProbe hg (hu.append _).solid hf (.inr (.inr rfl))

theorem run_object (HG : Good E R m) {b : Bool} {es : List (ObjKey × Expr)} {t r : Str} (h : Items E.U E.bd es t)
    (hm : t.length < m) (hf : ¬ ForStart t) (ha : KeysApart (es.map Prod.fst)) :
    Runs (object E R b) ('{' :: (t ++ ['}'])) r fun v => Means E.U E.bd v.1 (.object es) ∧ v.2 = b := by
  refine Runs.delimited (t := ['{']) runs_chr (runs_forItems (items_probe h hf) ?_) runs_chr.cutErr
  refine Runs.map ((show Runs (objectItems R) t ('}' :: r) _ from fun pos => ?_).conseq fun v hv => ⟨hv, rfl⟩)
  exact run_objectLoop HG h hm (n := (t ++ '}' :: r).length + 1) (by rw [List.length_append]; omega)
    (items := []) (acc := []) (.nil) ha pos

end Verif.Gram
