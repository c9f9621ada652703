import Verif.Props.Ident
import Verif.Spec.Ser
import Verif.Lemmas.InPlace
import Verif.Model.Convert
/-!
Lemmas about serialization.
-/

namespace Verif
open Spec

set_option linter.unusedSectionVars false

namespace Sers

/-- Every method of the behaviours satisfies the predicate. -/
structure Each (P : (α : Type) → SM α → Prop) (s : Sers) : Prop where
  body : P _ s.body
  struct : ∀ id, P _ (s.struct id)
  block : ∀ id, P _ (s.block id)
  labeled : ∀ id, P _ (s.labeled id)
  expr : P _ s.expr
  key : P _ s.key
  ident : P _ s.ident
  string : P _ s.string
  u64 : P _ s.u64
  value : P _ s.value

end Sers

/-- Predicates on computations that are closed under sequencing. -/
structure Lite (P : (α : Type) → SM α → Prop) : Prop where
  ret : ∀ {α} (a : α), P α (SM.ret a)
  fail : ∀ {α}, P α SM.fail
  chain : ∀ {α β} {m : SM α} {k : α → SM β}, P α m → (∀ a, P β (k a)) → P β (SM.chain m k)

namespace Lite
variable {P : (α : Type) → SM α → Prop} (h : Lite P)
include h

theorem each {α β : Type} {f : α → SM β} {l : List α} (hf : ∀ a ∈ l, P β (f a)) :
    P _ (SM.each f l) := by
  induction l with
  | nil => exact h.ret _
  | cons a l ih =>
    exact h.chain (hf a (by simp)) fun b =>
      h.chain (ih fun x hx => hf x (by simp [hx])) fun bs => h.ret _

theorem newIdent {U : Uni} {s : Str} : P _ (Ser.newIdent U s) := by
  unfold Ser.newIdent; split
  · exact h.ret _
  · exact h.fail

theorem attr {id : Str} {m : SM Expr} (hm : P _ m) : P _ (Ser.attr id m) := h.chain hm fun _ => h.ret _

theorem labeledBlocks {id : Str} {v : Sers} {f : List Label → List Label} (hv : P _ (v.block id)) :
    P _ (Ser.labeledBlocks id v f) := h.chain hv fun _ => h.ret _

theorem entry {α β γ : Type} {k : SM α} {v : α → SM β} {f : α → β → γ} (hk : P _ k)
    (hv : ∀ a, P _ (v a)) : P _ (Ser.entry k v f) :=
  h.chain hk fun a => h.chain (hv a) fun _ => h.ret _

theorem scalar {e v k i s u} (hk : P _ k) (hi : P _ i) (hs : P _ s) (hu : P _ u) :
    (Ser.scalar e v k i s u).Each P :=
  ⟨h.fail, fun _ => h.attr (h.ret _), fun _ => h.fail, fun _ => h.fail, h.ret _, hk, hi, hs, hu,
    h.ret _⟩

theorem bool (b) : (Ser.bool b).Each P := h.scalar h.fail h.fail h.fail h.fail
theorem int (b) : (Ser.int b).Each P := h.scalar (h.ret _) h.fail h.fail h.fail
theorem uint (b) : (Ser.uint b).Each P := h.scalar (h.ret _) h.fail h.fail h.fail
theorem u64 (b) : (Ser.u64 b).Each P := h.scalar (h.ret _) h.fail h.fail (h.ret _)
theorem f64 (b) : (Ser.f64 b).Each P := h.scalar h.fail h.fail h.fail h.fail
theorem str (U s) : (Ser.str U s).Each P := h.scalar (h.ret _) h.newIdent (h.ret _) h.fail
theorem char (U s) : (Ser.char U s).Each P := h.str _ _
theorem bytes (b) : (Ser.bytes b).Each P := h.scalar h.fail h.fail h.fail h.fail
theorem unit : Ser.unit.Each P := h.scalar h.fail h.fail h.fail h.fail
theorem unitVariant (U s) : (Ser.unitVariant U s).Each P :=
  h.scalar (h.chain h.newIdent fun _ => h.ret _) h.newIdent (h.ret _) h.fail

theorem some {v : Sers} (hv : v.Each P) : (Ser.some v).Each P := { hv with u64 := h.fail }

theorem newtypeStruct {n : Str} {v : Sers} (hv : v.Each P) : (Ser.newtypeStruct n v).Each P where
  body := hv.body
  struct id := by
    simp only [Ser.newtypeStruct]
    split
    · exact hv.block id
    split
    · exact hv.labeled id
    · exact h.attr hv.expr
  block id := by
    simp only [Ser.newtypeStruct]
    split
    · exact hv.labeled id
    · exact hv.block id
  labeled id := hv.labeled id
  expr := hv.expr
  key := hv.key
  ident := hv.ident
  string := hv.string
  u64 := h.fail
  value := hv.value

theorem newtypeVariant {U x} {v : Sers} (hv : v.Each P) : (Ser.newtypeVariant U x v).Each P where
  body := h.chain h.newIdent fun _ => hv.struct _
  struct _ := h.attr (h.chain h.newIdent fun _ => h.chain hv.expr fun _ => h.ret _)
  block _ := h.chain h.newIdent fun _ => h.chain (hv.struct _) fun _ => h.ret _
  labeled _ := h.labeledBlocks (hv.block _)
  expr := h.chain h.newIdent fun _ => h.chain hv.expr fun _ => h.ret _
  key := hv.key
  ident := h.fail
  string := h.fail
  u64 := h.fail
  value := h.chain hv.value fun _ => h.ret _

theorem seq {vs : List Sers} (hv : ∀ v ∈ vs, v.Each P) : (Ser.seq vs).Each P where
  body := h.chain (h.each fun v m => (hv v m).body) fun _ => h.ret _
  struct _ := h.attr (h.chain (h.each fun v m => (hv v m).expr) fun _ => h.ret _)
  block id := h.chain (h.each fun v m => (hv v m).block id) fun _ => h.ret _
  labeled id := h.chain (h.each fun v m => (hv v m).labeled id) fun _ => h.ret _
  expr := h.chain (h.each fun v m => (hv v m).expr) fun _ => h.ret _
  key := h.fail
  ident := h.fail
  string := h.fail
  u64 := h.fail
  value := h.chain (h.each fun v m => (hv v m).value) fun _ => h.ret _

theorem tupleVariant {U x} {vs : List Sers} (hv : ∀ v ∈ vs, v.Each P) :
    (Ser.tupleVariant U x vs).Each P where
  body := h.chain h.newIdent fun _ => h.chain (h.each fun v m => (hv v m).expr) fun _ => h.ret _
  struct _ := h.attr (h.chain (h.each fun v m => (hv v m).expr) fun _ => h.ret _)
  block _ := h.chain h.newIdent fun x => h.chain (h.each fun v m => (hv v m).block x) fun _ => h.ret _
  labeled id := h.chain (h.each fun v m => h.labeledBlocks ((hv v m).block id)) fun _ => h.ret _
  expr := h.chain (h.each fun v m => (hv v m).expr) fun _ => h.ret _
  key := h.fail
  ident := h.fail
  string := h.fail
  u64 := h.fail
  value := h.chain (h.each fun v m => (hv v m).value) fun _ => h.ret _

theorem map {es : List (Sers × Sers)} (hk : ∀ p ∈ es, p.1.Each P) (hv : ∀ p ∈ es, p.2.Each P) :
    (Ser.map es).Each P where
  body := h.chain (h.each fun p m => h.entry (hk p m).ident fun _ => (hv p m).struct _) fun _ => h.ret _
  struct _ := h.attr (h.chain (h.each fun p m => h.entry (hk p m).key fun _ => (hv p m).expr)
    fun _ => h.ret _)
  block _ := h.chain (h.chain (h.each fun p m => h.entry (hk p m).ident fun _ => (hv p m).struct _)
    fun _ => h.ret _) fun _ => h.ret _
  labeled id := h.chain (h.each fun p m => h.entry (hk p m).string fun _ =>
    h.labeledBlocks ((hv p m).block id)) fun _ => h.ret _
  expr := h.chain (h.each fun p m => h.entry (hk p m).key fun _ => (hv p m).expr) fun _ => h.ret _
  key := h.fail
  ident := h.fail
  string := h.fail
  u64 := h.fail
  value := h.chain (h.each fun p m => h.entry (hk p m).string fun _ => (hv p m).value) fun _ => h.ret _

theorem structVariant {U x} {fs : List (Str × Sers)} (hv : ∀ p ∈ fs, p.2.Each P) :
    (Ser.structVariant U x fs).Each P where
  body := h.chain h.newIdent fun _ => h.chain (h.chain (h.each fun p m =>
    h.entry h.newIdent fun _ => (hv p m).struct _) fun _ => h.ret _) fun _ => h.ret _
  struct _ := h.attr (h.chain (h.each fun p m => h.entry (h.ret _) fun _ => (hv p m).expr)
    fun _ => h.ret _)
  block _ := h.chain h.newIdent fun _ => h.chain (h.chain (h.each fun p m =>
    h.entry h.newIdent fun _ => (hv p m).struct _) fun _ => h.ret _) fun _ => h.ret _
  labeled id := h.chain (h.each fun p m => h.labeledBlocks ((hv p m).block id)) fun _ => h.ret _
  expr := h.chain (h.each fun p m => h.entry (h.ret _) fun _ => (hv p m).expr) fun _ => h.ret _
  key := h.fail
  ident := h.fail
  string := h.fail
  u64 := h.fail
  value := h.chain (h.each fun p m => h.entry (h.ret _) fun _ => (hv p m).value) fun _ => h.ret _

/-- Structs, given the two special cases of handles. -/
theorem struct {U n} {fs : List (Str × Sers)} (hv : ∀ p ∈ fs, p.2.Each P)
    (he : n = exprMarker → P _ (SM.chain (Ser.handleFields none fs) removeExpr))
    (hb : n = exprMarker →
      P _ (SM.chain (Ser.handleFields none fs) fun x => SM.chain (removeExpr x) (Ser.exprBody U)))
    (hs : n = structMarker →
      P _ (SM.chain (Ser.handleFields none fs) fun x => SM.chain (removeStruct x) fun s =>
        SM.ret [s])) :
    (Ser.struct U n fs).Each P := by
  have ent : P _ (SM.chain (SM.each (fun p => Ser.bodyEntry (Ser.newIdent U p.1) p.2) fs)
      fun bs => SM.ret bs.flatten) :=
    h.chain (h.each fun p m => h.entry h.newIdent fun _ => (hv p m).struct _) fun _ => h.ret _
  have ex : P _ (Ser.struct U n fs).expr := by
    simp only [Ser.struct]
    split
    next e => exact he e
    · exact h.chain (h.each fun p m => h.entry (h.ret _) fun _ => (hv p m).expr) fun _ => h.ret _
  refine ⟨?_, fun id => ?_, fun id => ?_, fun id => ?_, ex, h.fail, h.fail, h.fail, h.fail, ?_⟩
  · simp only [Ser.struct]
    split
    next e => exact hs e
    split
    next e => exact hb e
    · exact ent
  · exact h.attr ex
  · exact h.chain ent fun _ => h.ret _
  · exact h.chain (h.each fun p m => h.labeledBlocks ((hv p m).block id)) fun _ => h.ret _
  · exact h.chain (h.each fun p m => h.entry (h.ret _) fun _ => (hv p m).value) fun _ => h.ret _

/-- Structs whose name is not reserved. -/
theorem struct' {U n} {fs : List (Str × Sers)} (hv : ∀ p ∈ fs, p.2.Each P) (h1 : n ≠ exprMarker)
    (h2 : n ≠ structMarker) : (Ser.struct U n fs).Each P :=
  h.struct hv (fun e => absurd e h1) (fun e => absurd e h1) (fun e => absurd e h2)

theorem objectAttrs {U : Uni} (es) : P _ (Ser.objectAttrs U es) := by
  induction es with
  | nil => exact h.ret _
  | cons p es ih =>
    rcases p with ⟨k, e⟩
    cases k with
    | ident x => exact h.chain ih fun _ => h.ret _
    | expr k =>
      cases k
      case string => exact h.chain ih fun _ => h.ret _
      all_goals exact h.fail

theorem exprBody {U : Uni} (e) : P _ (Ser.exprBody U e) := by
  cases e
  case object => exact h.objectAttrs _
  all_goals exact h.fail

theorem labelSers (U : Uni) (l : Label) : (Verif.labelSers U l).Each P := by
  cases l <;> exact h.newtypeVariant (h.str _ _)

variable {E : FmtEnv}
  (hm : ∀ (e : Expr) {b : Sers}, b.Each P →
    (Ser.byMode (Ser.handle E.U exprMarker (insertExpr e)) b).Each P)
include hm

mutual
theorem exprSers : ∀ e : Expr, (Verif.exprSers E e).Each P
  | .null => hm _ h.unit
  | .bool b => hm _ (h.bool b)
  | .number (.posInt n) => hm _ (h.u64 n)
  | .number (.negInt i) => hm _ (h.int i)
  | .number (.float x) => hm _ (h.f64 x)
  | .string s => hm _ (h.str _ _)
  | .array xs => hm _ (h.seq (exprSersList xs))
  | .object es => hm _
      (h.map (fun p m => (exprSersEntries es p m).1) fun p m => (exprSersEntries es p m).2)
  | .paren e => hm _ (exprSers e)
  | .template t => hm _ (h.str _ _)
  | .var x => hm _ (h.str _ _)
  | .traversal e os => hm _ (h.str _ _)
  | .call n as x => hm _ (h.str _ _)
  | .cond c t f => hm _ (h.str _ _)
  | .unary o e => hm _ (h.str _ _)
  | .binary l o r => hm _ (h.str _ _)
  | .forE k v c ke ve g ce => hm _ (h.str _ _)
theorem exprSersList : ∀ es : List Expr, ∀ v ∈ Verif.exprSersList E es, v.Each P
  | [], _, hv => nomatch hv
  | e :: es, v, hv => by
    simp only [Verif.exprSersList, List.mem_cons] at hv
    rcases hv with rfl | hv
    · exact exprSers e
    · exact exprSersList es v hv
theorem exprSersEntries : ∀ es : List (ObjKey × Expr), ∀ p ∈ Verif.exprSersEntries E es,
    p.1.Each P ∧ p.2.Each P
  | [], _, hv => nomatch hv
  | (k, e) :: es, p, hp => by
    simp only [Verif.exprSersEntries, List.mem_cons] at hp
    rcases hp with rfl | hp
    · exact ⟨keySers k, exprSers e⟩
    · exact exprSersEntries es p hp
theorem keySers : ∀ k : ObjKey, (Verif.keySers E k).Each P
  | .ident _ => h.newtypeVariant (h.str _ _)
  | .expr e => h.newtypeVariant (exprSers e)
end

variable
  (hs : ∀ (x : Struct) {b : Sers}, b.Each P →
    (Ser.byMode (Ser.handle E.U structMarker (insertStruct x)) b).Each P)
include hs

mutual
theorem structSers : ∀ s : Struct, (Verif.structSers E s).Each P
  | .attr k e => hs _ (h.struct' (fun p hp => by
      simp only [List.mem_cons, List.not_mem_nil, or_false] at hp
      rcases hp with rfl | rfl
      · exact h.str _ _
      · exact h.exprSers hm e) (by decide) (by decide))
  | .block i ls b => hs _ (h.struct' (fun p hp => by
      have hb := structSersList b
      simp only [List.mem_cons, List.not_mem_nil, or_false] at hp
      rcases hp with rfl | rfl | rfl
      · exact h.str _ _
      · refine h.seq fun v hv => ?_
        obtain ⟨l, -, rfl⟩ := List.mem_map.1 hv
        exact h.labelSers _ l
      · exact h.newtypeStruct (h.seq hb)) (by decide) (by decide))
theorem structSersList : ∀ ss : List Struct, ∀ v ∈ Verif.structSersList E ss, v.Each P
  | [], _, hv => nomatch hv
  | s :: ss, v, hv => by
    have h1 := structSers s
    have h2 := structSersList ss
    simp only [Verif.structSersList, List.mem_cons] at hv
    rcases hv with rfl | hv
    · exact h1
    · exact h2 v hv
end

end Lite

/-- Predicates on computations that are closed under everything a serialization does. -/
structure Closed (P : (α : Type) → SM α → Prop) : Prop extends Lite P where
  panic : ∀ {α}, P α SM.panic
  mode : ∀ {α} {m n : SM α}, P α m → P α n → P α (fun st => if st.internal then m st else n st)
  insertExpr : ∀ e, P _ (insertExpr e)
  insertStruct : ∀ s, P _ (insertStruct s)
  removeExpr : ∀ n, P _ (removeExpr n)
  removeStruct : ∀ n, P _ (removeStruct n)
  enter : ∀ {α} {m : SM α}, P α m → P α (withInternal m)
  catch' : ∀ {α} {m : SM α} (f : α → Got), P α m →
    P Got (fun st => (.ok ((m st).1.got f), (m st).2))

namespace Closed
variable {P : (α : Type) → SM α → Prop} (h : Closed P)
include h

theorem byMode {a b : Sers} (ha : a.Each P) (hb : b.Each P) : (Ser.byMode a b).Each P :=
  ⟨h.mode ha.body hb.body, fun _ => h.mode (ha.struct _) (hb.struct _),
    fun _ => h.mode (ha.block _) (hb.block _), fun _ => h.mode (ha.labeled _) (hb.labeled _),
    h.mode ha.expr hb.expr, h.mode ha.key hb.key, h.mode ha.ident hb.ident,
    h.mode ha.string hb.string, h.mode ha.u64 hb.u64, h.mode ha.value hb.value⟩

theorem after {α} {m : SM α} {k : α → Sers} (hm : P _ m) (hk : ∀ a, (k a).Each P) :
    (Ser.after m k).Each P :=
  ⟨h.chain hm fun a => (hk a).body, fun _ => h.chain hm fun a => (hk a).struct _,
    fun _ => h.chain hm fun a => (hk a).block _, fun _ => h.chain hm fun a => (hk a).labeled _,
    h.chain hm fun a => (hk a).expr, h.chain hm fun a => (hk a).key, h.chain hm fun a => (hk a).ident,
    h.chain hm fun a => (hk a).string, h.chain hm fun a => (hk a).u64,
    h.chain hm fun a => (hk a).value⟩

theorem handleFields {fs : List (Str × Sers)} (hv : ∀ p ∈ fs, p.2.Each P) (o : Option Nat) :
    P _ (Ser.handleFields o fs) := by
  induction fs generalizing o with
  | nil => cases o with
    | none => exact h.panic
    | some n => exact h.ret _
  | cons p fs ih =>
    rcases p with ⟨k, v⟩
    have : Ser.handleFields o ((k, v) :: fs) =
        if k = c!"handle" then SM.chain v.u64 fun x => Ser.handleFields (Option.some x) fs
        else SM.panic := by
      cases o <;> rfl
    rw [this]
    split
    · exact h.chain (hv (k, v) (by simp)).u64 fun x => ih (fun p m => hv p (by simp [m])) _
    · exact h.panic

theorem anyStruct {U n} {fs : List (Str × Sers)} (hv : ∀ p ∈ fs, p.2.Each P) :
    (Ser.struct U n fs).Each P :=
  h.toLite.struct hv (fun _ => h.chain (h.handleFields hv _) h.removeExpr)
    (fun _ => h.chain (h.handleFields hv _) fun x => h.chain (h.removeExpr x) h.toLite.exprBody)
    (fun _ => h.chain (h.handleFields hv _) fun x => h.chain (h.removeStruct x) fun _ => h.ret _)

theorem handle {U n} {m : SM Nat} (hm : P _ m) : (Ser.handle U n m).Each P :=
  h.after hm fun x => h.anyStruct fun p hp => by
    simp only [List.mem_singleton] at hp; subst hp; exact h.toLite.u64 x

theorem exprSers (E : FmtEnv) (e : Expr) : (Verif.exprSers E e).Each P :=
  h.toLite.exprSers (fun _ _ hb => h.byMode (h.handle (h.insertExpr _)) hb) e

theorem structSers (E : FmtEnv) (x : Struct) : (Verif.structSers E x).Each P :=
  h.toLite.structSers (fun _ _ hb => h.byMode (h.handle (h.insertExpr _)) hb)
    (fun _ _ hb => h.byMode (h.handle (h.insertStruct _)) hb) x

theorem enterGot {v : Sers} (hv : v.Each P) (en : Entry) :
    P Got (fun st => (.ok (v.enter en st).1, (v.enter en st).2)) := by
  cases en
  · exact h.catch' .body (h.enter hv.body)
  · exact h.catch' .expr (h.enter hv.expr)
  · exact h.catch' .value hv.value

mutual
/-- Every behaviour of every value satisfies a closed predicate. -/
theorem run (E : FmtEnv) : ∀ v : SVal, (v.run E).Each P
  | .bool b => h.toLite.bool b
  | .int i => h.toLite.int i
  | .uint n => h.toLite.uint n
  | .u64 n => h.toLite.u64 n
  | .f64 x => h.toLite.f64 x
  | .char c => h.toLite.char _ c
  | .str s => h.toLite.str _ s
  | .bytes bs => h.toLite.bytes bs
  | .unit => h.toLite.unit
  | .unitVariant x => h.toLite.unitVariant _ x
  | .some v => h.toLite.some (run E v)
  | .newtypeStruct _ v => h.toLite.newtypeStruct (run E v)
  | .newtypeVariant _ v => h.toLite.newtypeVariant (run E v)
  | .seq vs => h.toLite.seq (runs E vs)
  | .tupleVariant _ vs => h.toLite.tupleVariant (runs E vs)
  | .map es =>
    h.toLite.map (fun p m => (runEntries E es p m).1) (fun p m => (runEntries E es p m).2)
  | .struct _ fs => h.anyStruct (runFields E fs)
  | .structVariant _ fs => h.toLite.structVariant (runFields E fs)
  | .block v => h.byMode (h.toLite.newtypeStruct (run E v)) (run E v)
  | .labeled v => h.byMode (h.toLite.newtypeStruct (run E v)) (run E v)
  | .hclExpr e => h.exprSers E e
  | .hclStruct s => h.structSers E s
  | .fail => ⟨h.fail, fun _ => h.fail, fun _ => h.fail, fun _ => h.fail, h.fail, h.fail, h.fail, h.fail,
      h.fail, h.fail⟩
  | .panic => ⟨h.panic, fun _ => h.panic, fun _ => h.panic, fun _ => h.panic, h.panic, h.panic, h.panic,
      h.panic, h.panic, h.panic⟩
  | .nested en v k => h.after (h.enterGot (run E v) en) fun g => run E (k g)
theorem runs (E : FmtEnv) : ∀ vs : List SVal, ∀ s ∈ SVal.runs E vs, s.Each P
  | [], _, hs => nomatch hs
  | v :: vs, s, hs => by
    have h1 := run E v
    have h2 := runs E vs
    simp only [SVal.runs, List.mem_cons] at hs
    rcases hs with rfl | hs
    · exact h1
    · exact h2 s hs
theorem runEntries (E : FmtEnv) : ∀ es : List (SVal × SVal), ∀ p ∈ SVal.runEntries E es,
    p.1.Each P ∧ p.2.Each P
  | [], _, hp => nomatch hp
  | (k, v) :: es, p, hp => by
    have h1 := run E k
    have h2 := run E v
    have h3 := runEntries E es
    simp only [SVal.runEntries, SVal.runEntry, List.mem_cons] at hp
    rcases hp with rfl | hp
    · exact ⟨h1, h2⟩
    · exact h3 p hp
theorem runFields (E : FmtEnv) : ∀ fs : List (Str × SVal), ∀ p ∈ SVal.runFields E fs, p.2.Each P
  | [], _, hp => nomatch hp
  | (k, v) :: fs, p, hp => by
    have h1 := run E v
    have h2 := runFields E fs
    simp only [SVal.runFields, SVal.runField, List.mem_cons] at hp
    rcases hp with rfl | hp
    · exact h1
    · exact h2 p hp
end

end Closed


namespace SM

theorem chain_assoc {α β γ : Type} (m : SM α) (k : α → SM β) (l : β → SM γ) :
    chain (chain m k) l = chain m fun a => chain (k a) l := by
  funext st
  simp only [chain]
  rcases h : m st with ⟨_ | _ | _, st'⟩ <;> rfl

theorem ret_chain {α β : Type} (a : α) (k : α → SM β) : chain (ret a) k = k a := rfl

theorem chain_ret {α : Type} (m : SM α) : (chain m fun a => ret a) = m := by
  funext st
  simp only [chain]
  rcases m st with ⟨_ | _ | _, _⟩ <;> rfl

theorem fail_chain {α β : Type} (k : α → SM β) : chain fail k = fail := rfl

end SM

namespace Ser

theorem handleFields_handle (x : Nat) : handleFields none [(c!"handle", u64 x)] = SM.ret x := by
  simp [handleFields, u64, scalar, SM.ret_chain]

variable (U : Uni)

theorem handle_expr (e : Expr) :
    (handle U exprMarker (insertExpr e)).expr = SM.chain (insertExpr e) removeExpr := by
  simp only [handle, after, struct, if_true, handleFields_handle, SM.ret_chain]

theorem handle_struct (e : Expr) (id : Str) : (handle U exprMarker (insertExpr e)).struct id =
    attr id (SM.chain (insertExpr e) removeExpr) := by
  simp only [handle, after, struct, if_true, handleFields_handle, SM.ret_chain, attr, SM.chain_assoc]

theorem handle_body (e : Expr) : (handle U exprMarker (insertExpr e)).body =
    SM.chain (SM.chain (insertExpr e) removeExpr) (exprBody U) := by
  have : exprMarker ≠ structMarker := by decide
  simp only [handle, after, struct, if_neg this, if_true, handleFields_handle, SM.ret_chain,
    SM.chain_assoc]

theorem handle_structBody (x : Struct) : (handle U structMarker (insertStruct x)).body =
    SM.chain (SM.chain (insertStruct x) removeStruct) (fun s => SM.ret [s]) := by
  simp only [handle, after, struct, if_true, handleFields_handle, SM.ret_chain, SM.chain_assoc]

end Ser

/-- Run a serialization of a part and hand its result on. -/
def caught {α : Type} (m : SM α) (f : α → Got) : SM Got := fun st => (.ok ((m st).1.got f), (m st).2)

theorem enter_caught (v : Sers) (en : Entry) :
    (fun st => (SRes.ok (v.enter en st).1, (v.enter en st).2) : SM Got) = match en with
      | .body => caught (withInternal v.body) .body
      | .expr => caught (withInternal v.expr) .expr
      | .value => caught v.value .value := by
  cases en <;> rfl

/-- Predicates on computations that are closed under everything the serialization of an honest value
does. -/
structure Semi (P : (α : Type) → SM α → Prop) : Prop extends Lite P where
  mode : ∀ {α} {m n : SM α}, P α m → P α n → P α (fun st => if st.internal then m st else n st)
  insertExpr : ∀ e, P _ (insertExpr e)
  insertStruct : ∀ s, P _ (insertStruct s)
  dropExpr : ∀ e, P _ (SM.chain (Verif.insertExpr e) removeExpr)
  dropStruct : ∀ s, P _ (SM.chain (Verif.insertStruct s) removeStruct)
  enter : ∀ {α} {m : SM α}, P α m → P α (withInternal m)
  nested : ∀ {α β} {m : SM α} (f : α → Got) {k : Got → SM β}, (∀ a, f a ≠ .panic) → P α m →
    (∀ g, g ≠ .panic → P β (k g)) → P β (SM.chain (caught m f) k)

namespace Semi
variable {P : (α : Type) → SM α → Prop} (h : Semi P)
include h

theorem byMode {a b : Sers} (ha : a.Each P) (hb : b.Each P) : (Ser.byMode a b).Each P :=
  ⟨h.mode ha.body hb.body, fun _ => h.mode (ha.struct _) (hb.struct _),
    fun _ => h.mode (ha.block _) (hb.block _), fun _ => h.mode (ha.labeled _) (hb.labeled _),
    h.mode ha.expr hb.expr, h.mode ha.key hb.key, h.mode ha.ident hb.ident,
    h.mode ha.string hb.string, h.mode ha.u64 hb.u64, h.mode ha.value hb.value⟩

theorem field (U : Uni) (x : Nat) : (Ser.struct U [] [(c!"handle", Ser.u64 x)]).Each P :=
  h.toLite.struct' (fun p hp => by
    simp only [List.mem_singleton] at hp; subst hp; exact h.toLite.u64 x) (by decide) (by decide)

theorem handleExpr (U : Uni) (e : Expr) : (Ser.handle U exprMarker (Verif.insertExpr e)).Each P where
  body := by rw [Ser.handle_body]; exact h.chain (h.dropExpr e) h.toLite.exprBody
  struct id := by rw [Ser.handle_struct]; exact h.toLite.attr (h.dropExpr e)
  block id := by
    have := h.chain (h.insertExpr e) fun x => (h.field U x).block id
    exact this
  labeled id := h.chain (h.insertExpr e) fun x => (h.field U x).labeled id
  expr := by rw [Ser.handle_expr]; exact h.dropExpr e
  key := h.chain (h.insertExpr e) fun _ => h.fail
  ident := h.chain (h.insertExpr e) fun _ => h.fail
  string := h.chain (h.insertExpr e) fun _ => h.fail
  u64 := h.chain (h.insertExpr e) fun _ => h.fail
  value := h.chain (h.insertExpr e) fun x => (h.field U x).value

theorem handleStruct (U : Uni) (s : Struct) :
    (Ser.handle U structMarker (Verif.insertStruct s)).Each P where
  body := by rw [Ser.handle_structBody]; exact h.chain (h.dropStruct s) fun _ => h.ret _
  struct id := h.chain (h.insertStruct s) fun x => (h.field U x).struct id
  block id := by
    have := h.chain (h.insertStruct s) fun x => (h.field U x).block id
    exact this
  labeled id := h.chain (h.insertStruct s) fun x => (h.field U x).labeled id
  expr := h.chain (h.insertStruct s) fun x => (h.field U x).expr
  key := h.chain (h.insertStruct s) fun _ => h.fail
  ident := h.chain (h.insertStruct s) fun _ => h.fail
  string := h.chain (h.insertStruct s) fun _ => h.fail
  u64 := h.chain (h.insertStruct s) fun _ => h.fail
  value := h.chain (h.insertStruct s) fun x => (h.field U x).value

theorem exprSers (E : FmtEnv) (e : Expr) : (Verif.exprSers E e).Each P :=
  h.toLite.exprSers (fun e _ hb => h.byMode (h.handleExpr _ e) hb) e

theorem structSers (E : FmtEnv) (x : Struct) : (Verif.structSers E x).Each P :=
  h.toLite.structSers (fun e _ hb => h.byMode (h.handleExpr _ e) hb)
    (fun s _ hb => h.byMode (h.handleStruct _ s) hb) x

theorem nestedGot {v : Sers} (hv : v.Each P) (en : Entry) {β : Type} {k : Got → SM β}
    (hk : ∀ g, g ≠ .panic → P β (k g)) :
    P β (SM.chain (fun st => (.ok (v.enter en st).1, (v.enter en st).2)) k) := by
  rw [enter_caught]
  cases en
  · exact h.nested _ (fun _ => nofun) (h.enter hv.body) hk
  · exact h.nested _ (fun _ => nofun) (h.enter hv.expr) hk
  · exact h.nested _ (fun _ => nofun) hv.value hk

mutual
/-- Every behaviour of every honest value satisfies a closed predicate. -/
theorem run (E : FmtEnv) : ∀ v : SVal, Honest v → (v.run E).Each P
  | .bool b, _ => h.toLite.bool b
  | .int i, _ => h.toLite.int i
  | .uint n, _ => h.toLite.uint n
  | .u64 n, _ => h.toLite.u64 n
  | .f64 x, _ => h.toLite.f64 x
  | .char c, _ => h.toLite.char _ c
  | .str s, _ => h.toLite.str _ s
  | .bytes bs, _ => h.toLite.bytes bs
  | .unit, _ => h.toLite.unit
  | .unitVariant x, _ => h.toLite.unitVariant _ x
  | .some v, hv => h.toLite.some (run E v hv)
  | .newtypeStruct _ v, hv => h.toLite.newtypeStruct (run E v hv)
  | .newtypeVariant _ v, hv => h.toLite.newtypeVariant (run E v hv)
  | .seq vs, hv => h.toLite.seq (runs E vs hv)
  | .tupleVariant _ vs, hv => h.toLite.tupleVariant (runs E vs hv)
  | .map es, hv =>
    h.toLite.map (fun p m => (runEntries E es hv p m).1) (fun p m => (runEntries E es hv p m).2)
  | .struct _ fs, hv => h.toLite.struct' (runFields E fs hv.2.2) hv.1 hv.2.1
  | .structVariant _ fs, hv => h.toLite.structVariant (runFields E fs hv)
  | .block v, hv => h.byMode (h.toLite.newtypeStruct (run E v hv)) (run E v hv)
  | .labeled v, hv => h.byMode (h.toLite.newtypeStruct (run E v hv)) (run E v hv)
  | .hclExpr e, _ => h.exprSers E e
  | .hclStruct s, _ => h.structSers E s
  | .fail, _ => ⟨h.fail, fun _ => h.fail, fun _ => h.fail, fun _ => h.fail, h.fail, h.fail, h.fail, h.fail,
      h.fail, h.fail⟩
  | .nested en v k, hv => by
    have h1 := run E v hv.1
    have h2 := fun g hg => run E (k g) (hv.2 g hg)
    exact ⟨h.nestedGot h1 en fun g hg => (h2 g hg).body,
      fun _ => h.nestedGot h1 en fun g hg => (h2 g hg).struct _,
      fun _ => h.nestedGot h1 en fun g hg => (h2 g hg).block _,
      fun _ => h.nestedGot h1 en fun g hg => (h2 g hg).labeled _,
      h.nestedGot h1 en fun g hg => (h2 g hg).expr, h.nestedGot h1 en fun g hg => (h2 g hg).key,
      h.nestedGot h1 en fun g hg => (h2 g hg).ident, h.nestedGot h1 en fun g hg => (h2 g hg).string,
      h.nestedGot h1 en fun g hg => (h2 g hg).u64, h.nestedGot h1 en fun g hg => (h2 g hg).value⟩
theorem runs (E : FmtEnv) : ∀ vs : List SVal, HonestAll vs → ∀ s ∈ SVal.runs E vs, s.Each P
  | [], _, _, hs => nomatch hs
  | v :: vs, hv, s, hs => by
    have h1 := run E v hv.1
    have h2 := runs E vs hv.2
    simp only [SVal.runs, List.mem_cons] at hs
    rcases hs with rfl | hs
    · exact h1
    · exact h2 s hs
theorem runEntries (E : FmtEnv) : ∀ es : List (SVal × SVal), HonestEntries es →
    ∀ p ∈ SVal.runEntries E es, p.1.Each P ∧ p.2.Each P
  | [], _, _, hp => nomatch hp
  | (k, v) :: es, hv, p, hp => by
    have h1 := run E k hv.1.1
    have h2 := run E v hv.1.2
    have h3 := runEntries E es hv.2
    simp only [SVal.runEntries, SVal.runEntry, List.mem_cons] at hp
    rcases hp with rfl | hp
    · exact ⟨h1, h2⟩
    · exact h3 p hp
theorem runFields (E : FmtEnv) : ∀ fs : List (Str × SVal), HonestFields fs →
    ∀ p ∈ SVal.runFields E fs, p.2.Each P
  | [], _, _, hp => nomatch hp
  | (k, v) :: fs, hv, p, hp => by
    have h1 := run E v hv.1
    have h2 := runFields E fs hv.2
    simp only [SVal.runFields, SVal.runField, List.mem_cons] at hp
    rcases hp with rfl | hp
    · exact h1
    · exact h2 p hp
end

end Semi

/-! ### The registries -/

theorem regOk_insert {α : Type} {r : Reg α} (h : RegOk r) (a : α) : RegOk (r.insert a).2 := by
  refine ⟨?_, ?_⟩
  · simp only [Reg.insert, List.map_cons, List.nodup_cons]
    refine ⟨?_, (h.1.sublist (List.filter_sublist.map _))⟩
    simp
  · intro p hp
    simp only [Reg.insert, List.mem_cons, List.mem_filter] at hp ⊢
    rcases hp with rfl | hp
    · simp
    · have := h.2 p hp.1
      omega

theorem regOk_remove {α : Type} {r r' : Reg α} {n : Nat} {a : α} (h : RegOk r)
    (hr : r.remove n = some (a, r')) : RegOk r' := by
  simp only [Reg.remove] at hr
  split at hr
  · injection hr with hr
    injection hr with _ hr
    subst hr
    exact ⟨h.1.sublist (List.filter_sublist.map _), fun p hp => h.2 p (List.mem_filter.1 hp).1⟩
  · cases hr

theorem filter_fresh {α : Type} {r : Reg α} (h : RegOk r) :
    r.live.filter (fun p => p.1 != r.last) = r.live := by
  refine List.filter_eq_self.2 fun p hp => ?_
  have := h.2 p hp
  simp only [bne_iff_ne, ne_eq]
  omega

theorem insert_live {α : Type} {r : Reg α} (h : RegOk r) (a : α) :
    (r.insert a).2.live = (r.last, a) :: r.live := by
  simp only [Reg.insert, filter_fresh h]

/-- What has just been put in is taken out again, and nothing else changes. -/
theorem remove_insert {α : Type} {r : Reg α} (h : RegOk r) (a : α) :
    (r.insert a).2.remove r.last = some (a, ⟨r.last + 1, r.live⟩) := by
  simp only [Reg.remove, insert_live h, List.find?_cons, beq_self_eq_true, List.filter_cons,
    bne_self_eq_false, filter_fresh h]
  rfl

theorem regOk_next {α : Type} {r : Reg α} (h : RegOk r) : RegOk (⟨r.last + 1, r.live⟩ : Reg α) :=
  ⟨h.1, fun p hp => Nat.lt_succ_of_lt (h.2 p hp)⟩

theorem chain_insertExpr {st : SerSt} (h : StOk st) (e : Expr) :
    SM.chain (insertExpr e) removeExpr st =
      (.ok e, { st with exprs := ⟨st.exprs.last + 1, st.exprs.live⟩ }) := by
  have : (st.exprs.insert e).2.remove (st.exprs.insert e).1 = _ := remove_insert h.1 e
  simp only [SM.chain, insertExpr, removeExpr, this]

theorem chain_insertStruct {st : SerSt} (h : StOk st) (s : Struct) :
    SM.chain (insertStruct s) removeStruct st =
      (.ok s, { st with structs := ⟨st.structs.last + 1, st.structs.live⟩ }) := by
  have : (st.structs.insert s).2.remove (st.structs.insert s).1 = _ := remove_insert h.2 s
  simp only [SM.chain, insertStruct, removeStruct, this]

/-! ### The mode and the registries after a serialization -/

/-- The mode is the same afterwards. -/
def KeepsMode (α : Type) (m : SM α) : Prop := ∀ st, (m st).2.internal = st.internal

theorem closed_keepsMode : Closed KeepsMode where
  ret _ _ := rfl
  fail _ := rfl
  panic _ := rfl
  chain {_ _ m k} hm hk st := by
    have := hm st
    simp only [SM.chain]
    rcases h : m st with ⟨_ | _ | _, st'⟩ <;> rw [h] at this
    · exact (hk _ st').trans this
    · exact this
    · exact this
  mode hm hn st := by
    show (if st.internal then _ else _ : SRes _ × SerSt).2.internal = _
    split
    · exact hm st
    · exact hn st
  insertExpr _ _ := rfl
  insertStruct _ _ := rfl
  removeExpr n st := by
    simp only [removeExpr]
    split <;> rfl
  removeStruct n st := by
    simp only [removeStruct]
    split <;> rfl
  enter _ _ := rfl
  catch' _ hm st := hm st

/-- The registries stay well formed and the counters never go back. -/
def KeepsOk (α : Type) (m : SM α) : Prop :=
  ∀ st, StOk st → StOk (m st).2 ∧ st.exprs.last ≤ (m st).2.exprs.last ∧
    st.structs.last ≤ (m st).2.structs.last

theorem closed_keepsOk : Closed KeepsOk where
  ret _ _ h := ⟨h, Nat.le_refl _, Nat.le_refl _⟩
  fail _ h := ⟨h, Nat.le_refl _, Nat.le_refl _⟩
  panic _ h := ⟨h, Nat.le_refl _, Nat.le_refl _⟩
  chain {_ _ m k} hm hk st h := by
    have h1 := hm st h
    simp only [SM.chain]
    rcases h : m st with ⟨a | _ | _, st'⟩ <;> rw [h] at h1
    · have h2 := hk a st' h1.1
      exact ⟨h2.1, Nat.le_trans h1.2.1 h2.2.1, Nat.le_trans h1.2.2 h2.2.2⟩
    · exact h1
    · exact h1
  mode hm hn st h := by
    show StOk (if st.internal then _ else _ : SRes _ × SerSt).2 ∧ _ ≤ (if st.internal then _ else _ : SRes _ × SerSt).2.exprs.last ∧
      _ ≤ (if st.internal then _ else _ : SRes _ × SerSt).2.structs.last
    split
    · exact hm st h
    · exact hn st h
  insertExpr e st h := ⟨⟨regOk_insert h.1 e, h.2⟩, Nat.le_succ _, Nat.le_refl _⟩
  insertStruct e st h := ⟨⟨h.1, regOk_insert h.2 e⟩, Nat.le_refl _, Nat.le_succ _⟩
  removeExpr n st h := by
    simp only [removeExpr]
    split
    next e r hr =>
      refine ⟨⟨regOk_remove h.1 hr, h.2⟩, ?_, Nat.le_refl _⟩
      simp only [Reg.remove] at hr
      split at hr
      · injection hr with hr; injection hr with _ hr; subst hr; exact Nat.le_refl _
      · cases hr
    · exact ⟨h, Nat.le_refl _, Nat.le_refl _⟩
  removeStruct n st h := by
    simp only [removeStruct]
    split
    next e r hr =>
      refine ⟨⟨h.1, regOk_remove h.2 hr⟩, Nat.le_refl _, ?_⟩
      simp only [Reg.remove] at hr
      split at hr
      · injection hr with hr; injection hr with _ hr; subst hr; exact Nat.le_refl _
      · cases hr
    · exact ⟨h, Nat.le_refl _, Nat.le_refl _⟩
  enter hm st h := hm { st with internal := true } h
  catch' _ hm st h := hm st h

/-- No panic, and everything that was in the registries is still there. -/
def KeepsLive (α : Type) (m : SM α) : Prop :=
  ∀ st, StOk st → (m st).1 ≠ .panic ∧ StOk (m st).2 ∧
    (∀ p ∈ st.exprs.live, p ∈ (m st).2.exprs.live) ∧ (∀ p ∈ st.structs.live, p ∈ (m st).2.structs.live)

theorem semi_keepsLive : Semi KeepsLive where
  ret _ _ h := ⟨nofun, h, fun _ hp => hp, fun _ hp => hp⟩
  fail _ h := ⟨nofun, h, fun _ hp => hp, fun _ hp => hp⟩
  chain {_ _ m k} hm hk st h := by
    have h1 := hm st h
    simp only [SM.chain]
    rcases h : m st with ⟨a | _ | _, st'⟩ <;> rw [h] at h1
    · have h2 := hk a st' h1.2.1
      exact ⟨h2.1, h2.2.1, fun p hp => h2.2.2.1 p (h1.2.2.1 p hp), fun p hp => h2.2.2.2 p (h1.2.2.2 p hp)⟩
    · exact ⟨nofun, h1.2⟩
    · exact absurd rfl h1.1
  mode {_ m n} hm hn st h := by
    have h1 := hm st h
    have h2 := hn st h
    rcases hb : st.internal
    · simpa only [hb, Bool.false_eq_true, if_false] using h2
    · simpa only [hb, if_true] using h1
  insertExpr e st h := ⟨nofun, ⟨regOk_insert h.1 e, h.2⟩, fun p hp => by
    show p ∈ (st.exprs.insert e).2.live
    rw [insert_live h.1]
    exact List.mem_cons_of_mem _ hp, fun _ hp => hp⟩
  insertStruct e st h := ⟨nofun, ⟨h.1, regOk_insert h.2 e⟩, fun _ hp => hp, fun p hp => by
    show p ∈ (st.structs.insert e).2.live
    rw [insert_live h.2]
    exact List.mem_cons_of_mem _ hp⟩
  dropExpr e st h := by
    rw [chain_insertExpr h]
    exact ⟨nofun, ⟨regOk_next h.1, h.2⟩, fun _ hp => hp, fun _ hp => hp⟩
  dropStruct e st h := by
    rw [chain_insertStruct h]
    exact ⟨nofun, ⟨h.1, regOk_next h.2⟩, fun _ hp => hp, fun _ hp => hp⟩
  enter hm st h := hm { st with internal := true } h
  nested {_ _ m} f k hf hm hk st h := by
    have h1 := hm st h
    simp only [SM.chain, caught]
    rcases h : m st with ⟨a | _ | _, st'⟩ <;> rw [h] at h1
    · have h2 := hk (f a) (hf a) st' h1.2.1
      exact ⟨h2.1, h2.2.1, fun p hp => h2.2.2.1 p (h1.2.2.1 p hp), fun p hp => h2.2.2.2 p (h1.2.2.2 p hp)⟩
    · have h2 := hk .err nofun st' h1.2.1
      exact ⟨h2.1, h2.2.1, fun p hp => h2.2.2.1 p (h1.2.2.1 p hp), fun p hp => h2.2.2.2 p (h1.2.2.2 p hp)⟩
    · exact absurd rfl h1.1

/-! ### Computations that leave the registries as they were -/

/-- In the given mode the computation gives the result whatever is in the registries, and leaves them
as they were. -/
def Gives {α : Type} (b : Bool) (m : SM α) (r : SRes α) : Prop :=
  ∀ st, StOk st → st.internal = b → (m st).1 = r ∧ SameLive st (m st).2 ∧ StOk (m st).2

/-- The computation gives some result like that, and does not panic. -/
def Tame (b : Bool) (α : Type) (m : SM α) : Prop := ∃ r, r ≠ .panic ∧ Gives b m r

theorem _root_.Verif.Spec.SameLive.rfl' (st : SerSt) : SameLive st st := ⟨rfl, rfl, rfl⟩

theorem _root_.Verif.Spec.SameLive.trans' {a b c : SerSt} (h : SameLive a b) (k : SameLive b c) : SameLive a c :=
  ⟨k.1.trans h.1, k.2.1.trans h.2.1, k.2.2.trans h.2.2⟩

theorem gives_ret {α : Type} {b : Bool} (a : α) : Gives b (SM.ret a) (.ok a) :=
  fun st h _ => ⟨rfl, SameLive.rfl' st, h⟩

theorem gives_fail {α : Type} {b : Bool} : Gives b (SM.fail : SM α) .err :=
  fun st h _ => ⟨rfl, SameLive.rfl' st, h⟩

theorem gives_chain {α β : Type} {b : Bool} {m : SM α} {k : α → SM β} {a : α} {r : SRes β}
    (hm : Gives b m (.ok a)) (hk : Gives b (k a) r) : Gives b (SM.chain m k) r := by
  intro st h hb
  have h1 := hm st h hb
  simp only [SM.chain]
  rcases e : m st with ⟨a' | _ | _, st'⟩ <;> rw [e] at h1
  · obtain rfl : a' = a := by injection h1.1
    have h2 := hk st' h1.2.2 (h1.2.1.1.trans hb)
    exact ⟨h2.1, SameLive.trans' h1.2.1 h2.2.1, h2.2.2⟩
  · exact nomatch h1.1
  · exact nomatch h1.1

theorem gives_chain_err {α β : Type} {b : Bool} {m : SM α} {k : α → SM β}
    (hm : Gives b m .err) : Gives b (SM.chain m k) .err := by
  intro st h hb
  have h1 := hm st h hb
  simp only [SM.chain]
  rcases e : m st with ⟨a' | _ | _, st'⟩ <;> rw [e] at h1
  · exact nomatch h1.1
  · exact ⟨rfl, h1.2⟩
  · exact nomatch h1.1

theorem gives_each {α β : Type} {b : Bool} {f : α → SM β} {g : α → β} {l : List α}
    (h : ∀ a ∈ l, Gives b (f a) (.ok (g a))) : Gives b (SM.each f l) (.ok (l.map g)) := by
  induction l with
  | nil => exact gives_ret _
  | cons a l ih =>
    exact gives_chain (h a (by simp))
      (gives_chain (ih fun x hx => h x (by simp [hx])) (gives_ret _))

theorem gives_enter {α : Type} {b : Bool} {m : SM α} {r : SRes α} (hm : Gives true m r) :
    Gives b (withInternal m) r := by
  intro st h _
  have h1 := hm { st with internal := true } h rfl
  exact ⟨h1.1, ⟨rfl, h1.2.1.2.1, h1.2.1.2.2⟩, h1.2.2⟩

theorem gives_caught {α : Type} {b : Bool} {m : SM α} {r : SRes α} (f : α → Got)
    (hm : Gives b m r) : Gives b (caught m f) (.ok (r.got f)) := by
  intro st h hb
  have h1 := hm st h hb
  exact ⟨congrArg (fun r => SRes.ok (SRes.got f r)) h1.1, h1.2⟩

theorem gives_dropExpr {b : Bool} (e : Expr) : Gives b (SM.chain (insertExpr e) removeExpr) (.ok e) := by
  intro st h _
  rw [chain_insertExpr h]
  exact ⟨rfl, ⟨rfl, rfl, rfl⟩, regOk_next h.1, h.2⟩

theorem gives_dropStruct {b : Bool} (s : Struct) :
    Gives b (SM.chain (insertStruct s) removeStruct) (.ok s) := by
  intro st h _
  rw [chain_insertStruct h]
  exact ⟨rfl, ⟨rfl, rfl, rfl⟩, h.1, regOk_next h.2⟩

theorem gives_mode_true {α : Type} {m n : SM α} {r : SRes α} (h : Gives true m r) :
    Gives true (fun st => if st.internal then m st else n st) r := by
  intro st hs hb
  simp only [hb, if_true]
  exact h st hs hb

theorem gives_mode_false {α : Type} {m n : SM α} {r : SRes α} (h : Gives false n r) :
    Gives false (fun st => if st.internal then m st else n st) r := by
  intro st hs hb
  simp only [hb, Bool.false_eq_true, if_false]
  exact h st hs hb

theorem tame_mode_true {α : Type} {m n : SM α} : Tame true α m →
    Tame true α (fun st => if st.internal then m st else n st)
  | ⟨r, hr, h⟩ => ⟨r, hr, gives_mode_true h⟩

theorem tame_mode_false {α : Type} {m n : SM α} : Tame false α n →
    Tame false α (fun st => if st.internal then m st else n st)
  | ⟨r, hr, h⟩ => ⟨r, hr, gives_mode_false h⟩

theorem lite_tame (b : Bool) : Lite (Tame b) where
  ret a := ⟨.ok a, nofun, gives_ret a⟩
  fail := ⟨.err, nofun, gives_fail⟩
  chain {_ _ m k} hm hk := by
    obtain ⟨r, hr, h⟩ := hm
    cases r with
    | ok a =>
      obtain ⟨r, hr, h'⟩ := hk a
      exact ⟨r, hr, gives_chain h h'⟩
    | err => exact ⟨.err, nofun, gives_chain_err h⟩
    | panic => exact absurd rfl hr

theorem tame_exprSers (E : FmtEnv) (e : Expr) : (exprSers E e).Each (Tame false) :=
  (lite_tame false).exprSers (fun _ _ hb => ⟨tame_mode_false hb.body, fun _ => tame_mode_false (hb.struct _),
    fun _ => tame_mode_false (hb.block _), fun _ => tame_mode_false (hb.labeled _),
    tame_mode_false hb.expr, tame_mode_false hb.key, tame_mode_false hb.ident,
    tame_mode_false hb.string, tame_mode_false hb.u64, tame_mode_false hb.value⟩) e

theorem tame_structSers (E : FmtEnv) (s : Struct) : (structSers E s).Each (Tame false) :=
  (lite_tame false).structSers (fun _ _ hb => ⟨tame_mode_false hb.body, fun _ => tame_mode_false (hb.struct _),
    fun _ => tame_mode_false (hb.block _), fun _ => tame_mode_false (hb.labeled _),
    tame_mode_false hb.expr, tame_mode_false hb.key, tame_mode_false hb.ident,
    tame_mode_false hb.string, tame_mode_false hb.u64, tame_mode_false hb.value⟩)
    (fun _ _ hb => ⟨tame_mode_false hb.body, fun _ => tame_mode_false (hb.struct _),
    fun _ => tame_mode_false (hb.block _), fun _ => tame_mode_false (hb.labeled _),
    tame_mode_false hb.expr, tame_mode_false hb.key, tame_mode_false hb.ident,
    tame_mode_false hb.string, tame_mode_false hb.u64, tame_mode_false hb.value⟩) s

/-- The behaviour that matters at the place leaves the registries as they were. -/
def Sers.At (s : Sers) : Pos → Prop
  | .document => Tame true _ s.body
  | .field => ∀ id, Tame true _ (s.struct id)
  | .block => ∀ id, Tame true _ (s.block id)
  | .labeled => ∀ id, Tame true _ (s.labeled id)
  | .expr => Tame true _ s.expr
  | .key b => Tame b _ s.key ∧ Tame b _ s.ident ∧ Tame b _ s.string
  | .value b => Tame b _ s.value

namespace Sers

theorem Each.at {s : Sers} {p : Pos} (h : s.Each (Tame p.internal)) : s.At p := by
  cases p
  · exact h.body
  · exact h.struct
  · exact h.block
  · exact h.labeled
  · exact h.expr
  · exact ⟨h.key, h.ident, h.string⟩
  · exact h.value

theorem at_key {s : Sers} {p : Pos} (hp : p.isKey = true) (hk : s.key = SM.fail)
    (hi : s.ident = SM.fail) (hs : s.string = SM.fail) : s.At p := by
  cases p <;> first | (simp [Pos.isKey] at hp; done) | skip
  next b =>
    have h := lite_tame b
    simp only [At, hk, hi, hs]
    exact ⟨h.fail, h.fail, h.fail⟩

theorem at_some {v : Sers} {p : Pos} (hv : v.At p) : (Ser.some v).At p := by
  cases p <;> exact hv

theorem at_newtypeStruct {n : Str} {v : Sers} {p : Pos} (hv : v.At (p.wrapped n)) :
    (Ser.newtypeStruct n v).At p := by
  cases p
  case field =>
    intro id
    simp only [Pos.wrapped] at hv
    simp only [Ser.newtypeStruct]
    by_cases h1 : n = blockMarker
    · rw [if_pos h1] at hv ⊢
      exact hv id
    rw [if_neg h1] at hv ⊢
    by_cases h2 : n = labeledMarker
    · rw [if_pos h2] at hv ⊢
      exact hv id
    rw [if_neg h2] at hv ⊢
    exact (lite_tame true).attr hv
  case block =>
    intro id
    simp only [Pos.wrapped] at hv
    simp only [Ser.newtypeStruct]
    by_cases h2 : n = labeledMarker
    · rw [if_pos h2] at hv ⊢
      exact hv id
    rw [if_neg h2] at hv ⊢
    exact hv id
  all_goals exact hv

theorem at_newtypeVariant {U x} {v : Sers} {p : Pos} (hv : v.At p.variant) :
    (Ser.newtypeVariant U x v).At p := by
  have h := lite_tame p.internal
  cases p
  · exact h.chain h.newIdent fun _ => hv _
  · exact fun _ => h.attr (h.chain h.newIdent fun _ => h.chain hv fun _ => h.ret _)
  · exact fun _ => h.chain h.newIdent fun _ => h.chain (hv _) fun _ => h.ret _
  · exact fun _ => h.labeledBlocks (hv _)
  · exact h.chain h.newIdent fun _ => h.chain hv fun _ => h.ret _
  · exact ⟨hv.1, h.fail, h.fail⟩
  · exact h.chain hv fun _ => h.ret _

theorem at_seq {vs : List Sers} {p : Pos} (hv : p.isKey = true ∨ ∀ v ∈ vs, v.At p.elem) :
    (Ser.seq vs).At p := by
  rcases hv with hp | hv
  · exact at_key hp rfl rfl rfl
  have h := lite_tame p.internal
  cases p
  · exact h.chain (h.each fun v m => hv v m) fun _ => h.ret _
  · exact fun _ => h.attr (h.chain (h.each fun v m => hv v m) fun _ => h.ret _)
  · exact fun id => h.chain (h.each fun v m => hv v m id) fun _ => h.ret _
  · exact fun id => h.chain (h.each fun v m => hv v m id) fun _ => h.ret _
  · exact h.chain (h.each fun v m => hv v m) fun _ => h.ret _
  · exact ⟨h.fail, h.fail, h.fail⟩
  · exact h.chain (h.each fun v m => hv v m) fun _ => h.ret _

theorem at_tupleVariant {U x} {vs : List Sers} {p : Pos}
    (hv : p.isKey = true ∨ ∀ v ∈ vs, v.At p.tuple) : (Ser.tupleVariant U x vs).At p := by
  rcases hv with hp | hv
  · exact at_key hp rfl rfl rfl
  have h := lite_tame p.internal
  cases p
  · exact h.chain h.newIdent fun _ => h.chain (h.each fun v m => hv v m) fun _ => h.ret _
  · exact fun _ => h.attr (h.chain (h.each fun v m => hv v m) fun _ => h.ret _)
  · exact fun _ => h.chain h.newIdent fun x => h.chain (h.each fun v m => hv v m x) fun _ => h.ret _
  · exact fun id => h.chain (h.each fun v m => h.labeledBlocks (hv v m id)) fun _ => h.ret _
  · exact h.chain (h.each fun v m => hv v m) fun _ => h.ret _
  · exact ⟨h.fail, h.fail, h.fail⟩
  · exact h.chain (h.each fun v m => hv v m) fun _ => h.ret _

theorem at_map {es : List (Sers × Sers)} {p : Pos}
    (hv : p.isKey = true ∨ ∀ e ∈ es, e.1.At (.key p.internal) ∧ e.2.At p.entry) :
    (Ser.map es).At p := by
  rcases hv with hp | hv
  · exact at_key hp rfl rfl rfl
  have h := lite_tame p.internal
  cases p
  · exact h.chain (h.each fun e m => h.entry (hv e m).1.2.1 fun _ => (hv e m).2 _) fun _ => h.ret _
  · exact fun _ => h.attr (h.chain (h.each fun e m => h.entry (hv e m).1.1 fun _ => (hv e m).2)
      fun _ => h.ret _)
  · exact fun _ => h.chain (h.chain (h.each fun e m => h.entry (hv e m).1.2.1 fun _ => (hv e m).2 _)
      fun _ => h.ret _) fun _ => h.ret _
  · exact fun id => h.chain (h.each fun e m => h.entry (hv e m).1.2.2 fun _ =>
      h.labeledBlocks ((hv e m).2 id)) fun _ => h.ret _
  · exact h.chain (h.each fun e m => h.entry (hv e m).1.1 fun _ => (hv e m).2) fun _ => h.ret _
  · exact ⟨h.fail, h.fail, h.fail⟩
  · exact h.chain (h.each fun e m => h.entry (hv e m).1.2.2 fun _ => (hv e m).2) fun _ => h.ret _

theorem at_struct {U n} {fs : List (Str × Sers)} {p : Pos} (h1 : n ≠ exprMarker)
    (h2 : n ≠ structMarker) (hv : p.isKey = true ∨ ∀ f ∈ fs, f.2.At p.entry) :
    (Ser.struct U n fs).At p := by
  rcases hv with hp | hv
  · exact at_key hp rfl rfl rfl
  have h := lite_tame p.internal
  cases p
  · simp only [At, Ser.struct, if_neg h1, if_neg h2]
    exact h.chain (h.each fun f m => h.entry h.newIdent fun _ => hv f m _) fun _ => h.ret _
  · simp only [At, Ser.struct, if_neg h1]
    exact fun _ => h.attr (h.chain (h.each fun f m => h.entry (h.ret _) fun _ => hv f m) fun _ => h.ret _)
  · exact fun _ => h.chain (h.chain (h.each fun f m => h.entry h.newIdent fun _ => hv f m _)
      fun _ => h.ret _) fun _ => h.ret _
  · exact fun id => h.chain (h.each fun f m => h.labeledBlocks (hv f m id)) fun _ => h.ret _
  · simp only [At, Ser.struct, if_neg h1]
    exact h.chain (h.each fun f m => h.entry (h.ret _) fun _ => hv f m) fun _ => h.ret _
  · exact ⟨h.fail, h.fail, h.fail⟩
  · exact h.chain (h.each fun f m => h.entry (h.ret _) fun _ => hv f m) fun _ => h.ret _

theorem at_structVariant {U x} {fs : List (Str × Sers)} {p : Pos}
    (hv : p.isKey = true ∨ ∀ f ∈ fs, f.2.At p.entry) :
    (Ser.structVariant U x fs).At p := by
  rcases hv with hp | hv
  · exact at_key hp rfl rfl rfl
  have h := lite_tame p.internal
  cases p
  · exact h.chain h.newIdent fun _ => h.chain
      (h.chain (h.each fun f m => h.entry h.newIdent fun _ => hv f m _) fun _ => h.ret _) fun _ => h.ret _
  · exact fun _ => h.attr (h.chain (h.each fun f m => h.entry (h.ret _) fun _ => hv f m) fun _ => h.ret _)
  · exact fun _ => h.chain h.newIdent fun _ => h.chain (h.chain
      (h.each fun f m => h.entry h.newIdent fun _ => hv f m _) fun _ => h.ret _) fun _ => h.ret _
  · exact fun id => h.chain (h.each fun f m => h.labeledBlocks (hv f m id)) fun _ => h.ret _
  · exact h.chain (h.each fun f m => h.entry (h.ret _) fun _ => hv f m) fun _ => h.ret _
  · exact ⟨h.fail, h.fail, h.fail⟩
  · exact h.chain (h.each fun f m => h.entry (h.ret _) fun _ => hv f m) fun _ => h.ret _

theorem at_byMode_true {a b : Sers} {p : Pos} (hp : p.internal = true) (ha : a.At p) :
    (Ser.byMode a b).At p := by
  cases p
  · exact tame_mode_true ha
  · exact fun id => tame_mode_true (ha id)
  · exact fun id => tame_mode_true (ha id)
  · exact fun id => tame_mode_true (ha id)
  · exact tame_mode_true ha
  · obtain rfl : _ = true := hp
    exact ⟨tame_mode_true ha.1, tame_mode_true ha.2.1, tame_mode_true ha.2.2⟩
  · obtain rfl : _ = true := hp
    exact tame_mode_true ha

theorem at_byMode_false {a b : Sers} {p : Pos} (hp : p.internal = false) (hb : b.At p) :
    (Ser.byMode a b).At p := by
  cases p
  case key c =>
    obtain rfl : c = false := hp
    exact ⟨tame_mode_false hb.1, tame_mode_false hb.2.1, tame_mode_false hb.2.2⟩
  case value c =>
    obtain rfl : c = false := hp
    exact tame_mode_false hb
  all_goals cases hp

theorem wrapped_false {p : Pos} (hp : p.internal = false) (n : Str) : p.wrapped n = p := by
  cases p <;> first | rfl | cases hp

theorem at_marked {n : Str} {v : Sers} {p : Pos} (hv : v.At (p.wrapped n)) :
    (Ser.byMode (Ser.newtypeStruct n v) v).At p := by
  rcases hp : p.internal
  · exact at_byMode_false hp (by rwa [wrapped_false hp] at hv)
  · exact at_byMode_true hp (at_newtypeStruct hv)

theorem at_hclExpr {E : FmtEnv} {e : Expr} {p : Pos}
    (hp : p = .document ∨ p = .field ∨ p = .expr ∨ p.internal = false) : (exprSers E e).At p := by
  have drop : Tame true _ (SM.chain (insertExpr e) removeExpr) := ⟨.ok e, nofun, gives_dropExpr e⟩
  have key : p = .document ∨ p = .field ∨ p = .expr →
      (Ser.handle E.U exprMarker (insertExpr e)).At p := by
    rintro (rfl | rfl | rfl)
    · simp only [At, Ser.handle_body]
      exact (lite_tame true).chain drop (lite_tame true).exprBody
    · simp only [At, Ser.handle_struct]
      exact fun _ => (lite_tame true).attr drop
    · simp only [At, Ser.handle_expr]
      exact drop
  by_cases hf : p.internal = false
  · exact Each.at (by rw [hf]; exact tame_exprSers E e)
  have hp : p = .document ∨ p = .field ∨ p = .expr := by
    rcases hp with h | h | h | h <;> simp_all
  have ht : p.internal = true := by simpa using hf
  cases e
  case number n => cases n <;> exact at_byMode_true ht (key hp)
  all_goals exact at_byMode_true ht (key hp)

theorem at_hclStruct {E : FmtEnv} {x : Struct} {p : Pos}
    (hp : p = .document ∨ p.internal = false) : (structSers E x).At p := by
  rcases hp with rfl | hf
  · have drop : Tame true _ (SM.chain (insertStruct x) removeStruct) := ⟨.ok x, nofun, gives_dropStruct x⟩
    have key : (Ser.handle E.U structMarker (insertStruct x)).At .document := by
      simp only [At, Ser.handle_structBody]
      exact (lite_tame true).chain drop fun _ => (lite_tame true).ret _
    cases x <;> exact at_byMode_true rfl key
  · exact Each.at (by rw [hf]; exact tame_structSers E x)

theorem tame_after {p : Pos} {E : FmtEnv} {v : SVal} {en : Entry} {k : Got → SVal}
    (hv : (v.run E).At (p.enter en)) (hk : ∀ g, g ≠ .panic → ((k g).run E).At p) :
    (Ser.after (fun st => (.ok ((v.run E).enter en st).1, ((v.run E).enter en st).2))
      fun g => (k g).run E).At p := by
  rw [enter_caught]
  have : ∃ g, g ≠ .panic ∧ Gives p.internal (match en with
      | .body => caught (withInternal (v.run E).body) .body
      | .expr => caught (withInternal (v.run E).expr) .expr
      | .value => caught (v.run E).value .value) (.ok g) := by
    cases en
    · obtain ⟨r, hr, h⟩ := hv
      exact ⟨r.got .body, by cases r <;> simp_all [SRes.got], gives_caught _ (gives_enter h)⟩
    · obtain ⟨r, hr, h⟩ := hv
      exact ⟨r.got .expr, by cases r <;> simp_all [SRes.got], gives_caught _ (gives_enter h)⟩
    · obtain ⟨r, hr, h⟩ := hv
      exact ⟨r.got .value, by cases r <;> simp_all [SRes.got], gives_caught _ h⟩
  obtain ⟨g, hg, hm⟩ := this
  have hk := hk g hg
  have step : ∀ {α : Type} {f : Got → SM α}, Tame p.internal _ (f g) →
      Tame p.internal _ (SM.chain _ f) := fun ⟨r, hr, h⟩ => ⟨r, hr, gives_chain hm h⟩
  cases p
  · exact step hk
  · exact fun id => step (hk id)
  · exact fun id => step (hk id)
  · exact fun id => step (hk id)
  · exact step hk
  · exact ⟨step hk.1, step hk.2.1, step hk.2.2⟩
  · exact step hk

end Sers

namespace Spec
open Sers

mutual
/-- The registries are balanced after the serialization of an honest, well-placed value. -/
theorem Sited.at (E : FmtEnv) : ∀ (p : Pos) (v : SVal), Honest v → Sited p v → (v.run E).At p
  | _, .bool b, _, _ => Each.at ((lite_tame _).bool b)
  | _, .int i, _, _ => Each.at ((lite_tame _).int i)
  | _, .uint n, _, _ => Each.at ((lite_tame _).uint n)
  | _, .u64 n, _, _ => Each.at ((lite_tame _).u64 n)
  | _, .f64 x, _, _ => Each.at ((lite_tame _).f64 x)
  | _, .char c, _, _ => Each.at ((lite_tame _).char _ c)
  | _, .str s, _, _ => Each.at ((lite_tame _).str _ s)
  | _, .bytes bs, _, _ => Each.at ((lite_tame _).bytes bs)
  | _, .unit, _, _ => Each.at (lite_tame _).unit
  | _, .unitVariant x, _, _ => Each.at ((lite_tame _).unitVariant _ x)
  | p, .some v, hv, hp => at_some (Sited.at E p v hv hp)
  | p, .newtypeStruct n v, hv, hp => at_newtypeStruct (Sited.at E (p.wrapped n) v hv hp)
  | p, .newtypeVariant _ v, hv, hp => at_newtypeVariant (Sited.at E p.variant v hv hp)
  | p, .seq vs, hv, hp => at_seq (hp.imp id fun h => SitedAll.at E p.elem vs hv h)
  | p, .tupleVariant _ vs, hv, hp => at_tupleVariant (hp.imp id fun h => SitedAll.at E p.tuple vs hv h)
  | p, .map es, hv, hp => at_map (hp.imp id fun h => SitedEntries.at E p es hv h)
  | p, .struct _ fs, hv, hp =>
    at_struct hv.1 hv.2.1 (hp.imp id fun h => SitedFields.at E p.entry fs hv.2.2 h)
  | p, .structVariant _ fs, hv, hp => at_structVariant (hp.imp id fun h => SitedFields.at E p.entry fs hv h)
  | p, .block v, hv, hp => at_marked (Sited.at E (p.wrapped blockMarker) v hv hp)
  | p, .labeled v, hv, hp => at_marked (Sited.at E (p.wrapped labeledMarker) v hv hp)
  | _, .hclExpr _, _, hp => at_hclExpr hp
  | _, .hclStruct _, _, hp => at_hclStruct hp
  | _, .fail, _, _ => Each.at ⟨(lite_tame _).fail, fun _ => (lite_tame _).fail, fun _ => (lite_tame _).fail,
      fun _ => (lite_tame _).fail, (lite_tame _).fail, (lite_tame _).fail, (lite_tame _).fail,
      (lite_tame _).fail, (lite_tame _).fail, (lite_tame _).fail⟩
  | p, .nested en v k, hv, hp =>
    tame_after (Sited.at E (p.enter en) v hv.1 hp.1) fun g hg => Sited.at E p (k g) (hv.2 g hg) (hp.2 g)
theorem SitedAll.at (E : FmtEnv) : ∀ (p : Pos) (vs : List SVal), HonestAll vs → SitedAll p vs →
    ∀ s ∈ SVal.runs E vs, s.At p
  | _, [], _, _, _, hs => nomatch hs
  | p, v :: vs, hv, hp, s, hs => by
    have h1 := Sited.at E p v hv.1 hp.1
    have h2 := SitedAll.at E p vs hv.2 hp.2
    simp only [SVal.runs, List.mem_cons] at hs
    rcases hs with rfl | hs
    · exact h1
    · exact h2 s hs
theorem SitedEntries.at (E : FmtEnv) : ∀ (p : Pos) (es : List (SVal × SVal)), HonestEntries es →
    SitedEntries p es → ∀ e ∈ SVal.runEntries E es, e.1.At (.key p.internal) ∧ e.2.At p.entry
  | _, [], _, _, _, he => nomatch he
  | p, (k, v) :: es, hv, hp, e, he => by
    have h1 := Sited.at E (.key p.internal) k hv.1.1 hp.1.1
    have h2 := Sited.at E p.entry v hv.1.2 hp.1.2
    have h3 := SitedEntries.at E p es hv.2 hp.2
    simp only [SVal.runEntries, SVal.runEntry, List.mem_cons] at he
    rcases he with rfl | he
    · exact ⟨h1, h2⟩
    · exact h3 e he
theorem SitedFields.at (E : FmtEnv) : ∀ (p : Pos) (fs : List (Str × SVal)), HonestFields fs →
    SitedFields p fs → ∀ f ∈ SVal.runFields E fs, f.2.At p
  | _, [], _, _, _, he => nomatch he
  | p, (k, v) :: fs, hv, hp, f, hf => by
    have h1 := Sited.at E p v hv.1 hp.1
    have h2 := SitedFields.at E p fs hv.2 hp.2
    simp only [SVal.runFields, SVal.runField, List.mem_cons] at hf
    rcases hf with rfl | hf
    · exact h1
    · exact h2 f hf
end

end Spec

/-! ### Labels -/

theorem filterMap_relabel (content : SVal → List Struct) (id k : Str) (ps : List (List Str × SVal)) :
    (blocksOf content id ps).filterMap (Ser.relabel fun ls => .string k :: ls) =
      blocksOf content id (ps.map fun p => (k :: p.1, p.2)) := by
  induction ps with
  | nil => rfl
  | cons p ps ih =>
    simp only [blocksOf, List.map_cons, List.filterMap_cons, Ser.relabel] at ih ⊢
    rw [ih]

theorem filterMap_relabel2 (content : SVal → List Struct) (id x k : Str) (ps : List (List Str × SVal)) :
    (blocksOf content id ps).filterMap (Ser.relabel fun ls => .string x :: .string k :: ls) =
      blocksOf content id ((ps.map fun p => (k :: p.1, p.2)).map fun p => (x :: p.1, p.2)) := by
  induction ps with
  | nil => rfl
  | cons p ps ih =>
    simp only [blocksOf, List.map_cons, List.filterMap_cons, Ser.relabel] at ih ⊢
    rw [ih]

theorem blocksOf_append (content : SVal → List Struct) (id : Str) (a b : List (List Str × SVal)) :
    blocksOf content id (a ++ b) = blocksOf content id a ++ blocksOf content id b := List.map_append

theorem each_map {α β γ : Type} (f : β → SM γ) (g : α → β) (l : List α) :
    SM.each f (l.map g) = SM.each (fun a => f (g a)) l := by
  induction l with
  | nil => rfl
  | cons a l ih => simp only [List.map_cons, SM.each, ih]

theorem runs_vals (E : FmtEnv) (ts : List LTree) :
    SVal.runs E (LTree.vals ts) = ts.map fun t => t.val.run E := by
  induction ts with
  | nil => rfl
  | cons t ts ih => simp only [LTree.vals, SVal.runs, List.map_cons, ih]

theorem runs_keyVals (E : FmtEnv) (ts : List LKeys) :
    SVal.runs E (LKeys.vals ts) = ts.map fun t => t.val.run E := by
  induction ts with
  | nil => rfl
  | cons t ts ih => simp only [LKeys.vals, SVal.runs, List.map_cons, ih]

theorem runEntries_vals (E : FmtEnv) (ts : List (Str × LTree)) :
    SVal.runEntries E (LTree.valEntries ts) = ts.map fun p => (Ser.str E.U p.1, p.2.val.run E) := by
  induction ts with
  | nil => rfl
  | cons t ts ih =>
    rcases t with ⟨k, t⟩
    simp only [LTree.valEntries, LTree.valEntry, SVal.runEntries, SVal.runEntry, List.map_cons, ih]
    rfl

theorem runFields_vals (E : FmtEnv) (ts : List (Str × LTree)) :
    SVal.runFields E (LTree.valFields ts) = ts.map fun p => (p.1, p.2.val.run E) := by
  induction ts with
  | nil => rfl
  | cons t ts ih =>
    rcases t with ⟨k, t⟩
    simp only [LTree.valFields, LTree.valField, SVal.runFields, SVal.runField, List.map_cons, ih]

theorem pathsAll_eq (ts : List LTree) : LTree.pathsAll ts = (ts.map LTree.paths).flatten := by
  induction ts with
  | nil => rfl
  | cons t ts ih => simp only [LTree.pathsAll, List.map_cons, List.flatten_cons, ih]

theorem keyPathsAll_eq (ts : List LKeys) : LKeys.pathsAll ts = (ts.map LKeys.paths).flatten := by
  induction ts with
  | nil => rfl
  | cons t ts ih => simp only [LKeys.pathsAll, List.map_cons, List.flatten_cons, ih]

theorem pathsFields_eq (ts : List (Str × LTree)) : LTree.pathsFields ts =
    (ts.map fun p => p.2.paths.map fun q => (p.1 :: q.1, q.2)).flatten := by
  induction ts with
  | nil => rfl
  | cons t ts ih =>
    rcases t with ⟨k, t⟩
    simp only [LTree.pathsFields, LTree.pathsField, List.map_cons, List.flatten_cons, ih]

theorem blocksOf_flatten (content : SVal → List Struct) (id : Str) (l : List (List (List Str × SVal))) :
    blocksOf content id l.flatten = (l.map (blocksOf content id)).flatten := by
  simp only [blocksOf, List.map_flatten]
  rfl

theorem map_flatten' {α β : Type} (f : α → β) (l : List (List α)) :
    l.flatten.map f = (l.map (List.map f)).flatten := List.map_flatten

/-- The elements of a list, one after the other, and the results put in a row. -/
theorem gives_eachFlat {α β γ : Type} {b : Bool} {f : α → SM (List β)} {g : α → List β} {l : List α}
    {k : List β → γ} (h : ∀ a ∈ l, Gives b (f a) (.ok (g a))) :
    Gives b (SM.chain (SM.each f l) fun bs => SM.ret (k bs.flatten)) (.ok (k (l.map g).flatten)) :=
  gives_chain (gives_each h) (gives_ret _)

theorem gives_labeledBlocks {b : Bool} {id : Str} {v : Sers} {f : List Label → List Label}
    {ss ss' : List Struct} (h : Gives b (v.block id) (.ok ss)) (hs : ss.filterMap (Ser.relabel f) = ss') :
    Gives b (Ser.labeledBlocks id v f) (.ok ss') := by
  subst hs
  exact gives_chain h (gives_ret _)

theorem gives_marked {α : Type} {m n : SM α} {r : SRes α} (h : Gives true m r) :
    Gives true (fun st => if st.internal then m st else n st) r := gives_mode_true h

/-- The content of a block gives a block with the same structures as the document it would be. -/
theorem gives_content (E : FmtEnv) (id : Str) : ∀ (v : SVal) (ss : List Struct), Honest v → OneBlock v →
    Gives true (v.run E).body (.ok ss) → Gives true ((v.run E).block id) (.ok [.block id [] ss])
  | .map es, ss, _, _, h => gives_chain h (gives_ret _)
  | .struct n fs, ss, hv, _, h => by
    simp only [SVal.run, Ser.struct, if_neg hv.1, if_neg hv.2.1] at h
    exact gives_chain h (gives_ret _)
  | .newtypeVariant x v, ss, _, _, h => by
    have := gives_chain (k := fun ss => SM.ret [Struct.block id [] ss]) h (gives_ret _)
    simp only [SVal.run, Ser.newtypeVariant, SM.chain_assoc] at this
    exact this
  | .structVariant x fs, ss, _, _, h => by
    have := gives_chain (k := fun ss => SM.ret [Struct.block id [] ss]) h (gives_ret _)
    simp only [SVal.run, Ser.structVariant, SM.chain_assoc, SM.ret_chain] at this ⊢
    exact this
  | .some v, ss, hv, hc, h => gives_content E id v ss hv hc h
  | .block v, ss, hv, hc, h => by
    have hb : Gives true (v.run E).body (.ok ss) := by
      intro st hs hi
      have := h st hs hi
      simp only [SVal.run, Ser.byMode, hi, if_true, Ser.newtypeStruct] at this
      exact this
    refine gives_mode_true ?_
    have hm : blockMarker ≠ labeledMarker := by decide
    simp only [Ser.newtypeStruct, if_neg hm]
    exact gives_content E id v ss hv hc hb
  | .newtypeStruct n v, ss, hv, hc, h => by
    simp only [SVal.run, Ser.newtypeStruct, if_neg hc.1]
    exact gives_content E id v ss hv hc.2 h

/-- What is known about the leaves. -/
def LeafOk (E : FmtEnv) (content : SVal → List Struct) (v : SVal) : Prop :=
  Honest v ∧ OneBlock v ∧ Gives true (v.run E).body (.ok (content v))

section
variable {E : FmtEnv} {content : SVal → List Struct} {id : Str}

mutual
theorem LTree.gives : ∀ t : LTree, (∀ p ∈ t.paths, LeafOk E content p.2) →
    Gives true ((t.val.run E).block id) (.ok (blocksOf content id t.paths))
  | .leaf v, h => by
    obtain ⟨h1, h2, h3⟩ := h ([], v) (by simp [LTree.paths])
    exact gives_content E id v _ h1 h2 h3
  | .many ts, h => by
    simp only [LTree.paths, pathsAll_eq] at h ⊢
    have ih := LTree.givesAll ts fun t ht p hp => h p (List.mem_flatten.2 ⟨_, List.mem_map_of_mem ht, hp⟩)
    simp only [LTree.val, SVal.run, runs_vals, Ser.seq, each_map, blocksOf_flatten, List.map_map]
    exact gives_eachFlat (k := fun x => x) ih
  | .labeled c, h => by
    refine gives_mode_true ?_
    simp only [Ser.newtypeStruct, if_true]
    exact LKeys.gives c h
theorem LKeys.gives : ∀ c : LKeys, (∀ p ∈ c.paths, LeafOk E content p.2) →
    Gives true ((c.val.run E).labeled id) (.ok (blocksOf content id c.paths))
  | .map es, h => by
    simp only [LKeys.paths, pathsFields_eq] at h ⊢
    have ih := LTree.givesFields es fun t ht p hp =>
      h (t.1 :: p.1, p.2) (List.mem_flatten.2 ⟨_, List.mem_map_of_mem ht, List.mem_map_of_mem hp⟩)
    simp only [LKeys.val, SVal.run, runEntries_vals, Ser.map, each_map, blocksOf_flatten, List.map_map]
    refine gives_eachFlat (k := fun x => x) fun p hp => ?_
    exact gives_chain (gives_labeledBlocks (ih p hp) (filterMap_relabel _ _ _ _)) (gives_ret _)
  | .struct n fs, h => by
    simp only [LKeys.paths, pathsFields_eq] at h ⊢
    have ih := LTree.givesFields fs fun t ht p hp =>
      h (t.1 :: p.1, p.2) (List.mem_flatten.2 ⟨_, List.mem_map_of_mem ht, List.mem_map_of_mem hp⟩)
    simp only [LKeys.val, SVal.run, runFields_vals, Ser.struct, each_map, blocksOf_flatten, List.map_map]
    exact gives_eachFlat (k := fun x => x) fun p hp =>
      gives_labeledBlocks (ih p hp) (filterMap_relabel _ _ _ _)
  | .variant x t, h => by
    have ih := LTree.gives t fun p hp => h (x :: p.1, p.2) (List.mem_map_of_mem hp)
    exact gives_labeledBlocks ih (filterMap_relabel _ _ _ _)
  | .tuple x ts, h => by
    simp only [LKeys.paths, pathsAll_eq] at h ⊢
    have ih := LTree.givesAll ts fun t ht p hp =>
      h (x :: p.1, p.2) (List.mem_map_of_mem (List.mem_flatten.2 ⟨_, List.mem_map_of_mem ht, hp⟩))
    simp only [LKeys.val, SVal.run, runs_vals, Ser.tupleVariant, each_map, map_flatten',
      blocksOf_flatten, List.map_map]
    exact gives_eachFlat (k := fun x => x) fun t ht =>
      gives_labeledBlocks (ih t ht) (filterMap_relabel _ _ _ _)
  | .fields x fs, h => by
    simp only [LKeys.paths, pathsFields_eq] at h ⊢
    have ih := LTree.givesFields fs fun t ht p hp =>
      h (x :: t.1 :: p.1, p.2)
        (List.mem_map_of_mem (f := fun p : List Str × SVal => (x :: p.1, p.2)) (a := (t.1 :: p.1, p.2))
          (List.mem_flatten.2 ⟨_, List.mem_map_of_mem ht, List.mem_map_of_mem hp⟩))
    simp only [LKeys.val, SVal.run, runFields_vals, Ser.structVariant, each_map, map_flatten',
      blocksOf_flatten, List.map_map]
    exact gives_eachFlat (k := fun x => x) fun p hp =>
      gives_labeledBlocks (ih p hp) (filterMap_relabel2 _ _ _ _ _)
  | .many cs, h => by
    simp only [LKeys.paths, keyPathsAll_eq] at h ⊢
    have ih := LKeys.givesAll cs fun t ht p hp => h p (List.mem_flatten.2 ⟨_, List.mem_map_of_mem ht, hp⟩)
    simp only [LKeys.val, SVal.run, runs_keyVals, Ser.seq, each_map, blocksOf_flatten, List.map_map]
    exact gives_eachFlat (k := fun x => x) ih
  | .labeled c, h => gives_mode_true (LKeys.gives c h)
theorem LTree.givesAll : ∀ ts : List LTree, (∀ t ∈ ts, ∀ p ∈ t.paths, LeafOk E content p.2) →
    ∀ t ∈ ts, Gives true ((t.val.run E).block id) (.ok (blocksOf content id t.paths))
  | [], _, _, ht => nomatch ht
  | t :: ts, h, t', ht' => by
    have h1 := LTree.gives t (h t (by simp))
    have h2 := LTree.givesAll ts fun t ht => h t (by simp [ht])
    rcases List.mem_cons.1 ht' with rfl | ht'
    · exact h1
    · exact h2 t' ht'
theorem LKeys.givesAll : ∀ ts : List LKeys, (∀ t ∈ ts, ∀ p ∈ t.paths, LeafOk E content p.2) →
    ∀ t ∈ ts, Gives true ((t.val.run E).labeled id) (.ok (blocksOf content id t.paths))
  | [], _, _, ht => nomatch ht
  | t :: ts, h, t', ht' => by
    have h1 := LKeys.gives t (h t (by simp))
    have h2 := LKeys.givesAll ts fun t ht => h t (by simp [ht])
    rcases List.mem_cons.1 ht' with rfl | ht'
    · exact h1
    · exact h2 t' ht'
theorem LTree.givesFields : ∀ fs : List (Str × LTree),
    (∀ f ∈ fs, ∀ p ∈ f.2.paths, LeafOk E content p.2) →
    ∀ f ∈ fs, Gives true ((f.2.val.run E).block id) (.ok (blocksOf content id f.2.paths))
  | [], _, _, ht => nomatch ht
  | (k, t) :: fs, h, f, hf => by
    have h1 := LTree.gives t (h (k, t) (by simp))
    have h2 := LTree.givesFields fs fun t ht => h t (by simp [ht])
    rcases List.mem_cons.1 hf with rfl | hf
    · exact h1
    · exact h2 f hf
end

theorem BlockField.gives (f : BlockField) (h : ∀ p ∈ f.paths, LeafOk E content p.2) :
    Gives true ((f.val.run E).struct id) (.ok (blocksOf content id f.paths)) := by
  cases f with
  | block t =>
    refine gives_mode_true ?_
    simp only [Ser.newtypeStruct, if_true]
    exact LTree.gives t h
  | labeled c =>
    refine gives_mode_true ?_
    have hm : labeledMarker ≠ blockMarker := by decide
    simp only [Ser.newtypeStruct, if_neg hm, if_true]
    exact LKeys.gives c h

end

/-! ### Nothing that `LabeledBlock` skips -/

/-- All structures are blocks with the identifier. -/
def OnlyBlocks (id : Str) (ss : List Struct) : Prop := ∀ s ∈ ss, ∃ ls b, s = .block id ls b

/-- If the computation succeeds it gives only blocks with the identifier. -/
def GivesBlocks (id : Str) (m : SM (List Struct)) : Prop :=
  ∀ st ss, (m st).1 = .ok ss → OnlyBlocks id ss

theorem givesBlocks_fail (id : Str) : GivesBlocks id SM.fail := nofun
theorem givesBlocks_panic (id : Str) : GivesBlocks id SM.panic := nofun

theorem givesBlocks_chain {α : Type} {id : Str} {m : SM α} {k : α → SM (List Struct)}
    (h : ∀ a, GivesBlocks id (k a)) : GivesBlocks id (SM.chain m k) := by
  intro st ss hs
  simp only [SM.chain] at hs
  rcases hm : m st with ⟨a | _ | _, st'⟩ <;> rw [hm] at hs
  · exact h a st' ss hs
  · cases hs
  · cases hs

theorem givesBlocks_ret {id : Str} {ss : List Struct} (h : OnlyBlocks id ss) :
    GivesBlocks id (SM.ret ss) := by
  intro st ss' hs
  injection hs with hs
  subst hs
  exact h

theorem givesBlocks_one {id : Str} (ss : List Struct) : GivesBlocks id (SM.ret [.block id [] ss]) :=
  givesBlocks_ret fun s hs => ⟨[], ss, by simpa using hs⟩

/-- Every result of the elements has only blocks. -/
theorem each_onlyBlocks {α : Type} {id : Str} {f : α → SM (List Struct)} {l : List α}
    (h : ∀ a ∈ l, GivesBlocks id (f a)) : ∀ st bs, (SM.each f l st).1 = .ok bs → OnlyBlocks id bs.flatten := by
  induction l with
  | nil =>
    intro st bs hb
    injection hb with hb
    subst hb
    exact nofun
  | cons a l ih =>
    intro st bs hb
    simp only [SM.each, SM.chain] at hb
    rcases h1 : f a st with ⟨x | _ | _, st1⟩ <;> rw [h1] at hb
    · dsimp only at hb
      rcases h2 : SM.each f l st1 with ⟨y | _ | _, st2⟩ <;> rw [h2] at hb
      · injection hb with hb
        subst hb
        have i1 := h a (by simp) st x (by rw [h1])
        have i2 := ih (fun a ha => h a (by simp [ha])) st1 y (by rw [h2])
        intro s hs
        rcases List.mem_append.1 hs with hs | hs
        · exact i1 s hs
        · exact i2 s hs
      · cases hb
      · cases hb
    · cases hb
    · cases hb

theorem givesBlocks_each {α : Type} {id : Str} {f : α → SM (List Struct)} {l : List α}
    (h : ∀ a ∈ l, GivesBlocks id (f a)) :
    GivesBlocks id (SM.chain (SM.each f l) fun bs => SM.ret bs.flatten) := by
  intro st ss hs
  simp only [SM.chain] at hs
  rcases hm : SM.each f l st with ⟨a | _ | _, st'⟩ <;> rw [hm] at hs
  · injection hs with hs
    subst hs
    exact each_onlyBlocks h st a (by rw [hm])
  · cases hs
  · cases hs

theorem givesBlocks_relabel {id : Str} {f : List Label → List Label} {ss : List Struct}
    (h : OnlyBlocks id ss) : OnlyBlocks id (ss.filterMap (Ser.relabel f)) := by
  intro s hs
  obtain ⟨t, ht, e⟩ := List.mem_filterMap.1 hs
  obtain ⟨ls, b, rfl⟩ := h t ht
  injection e with e
  exact ⟨_, _, e.symm⟩

theorem givesBlocks_labeled {id : Str} {v : Sers} {f : List Label → List Label}
    (h : GivesBlocks id (v.block id)) : GivesBlocks id (Ser.labeledBlocks id v f) := by
  intro st ss hs
  simp only [Ser.labeledBlocks, SM.chain] at hs
  rcases hm : v.block id st with ⟨a | _ | _, st'⟩ <;> rw [hm] at hs
  · injection hs with hs
    subst hs
    exact givesBlocks_relabel (h st a (by rw [hm]))
  · cases hs
  · cases hs

theorem givesBlocks_mode {id : Str} {m n : SM (List Struct)} (hm : GivesBlocks id m)
    (hn : GivesBlocks id n) : GivesBlocks id (fun st => if st.internal then m st else n st) := by
  intro st ss hs
  dsimp only at hs
  split at hs
  · exact hm st ss hs
  · exact hn st ss hs

/-- The block serializers only give blocks. -/
structure BlocksOnly (s : Sers) : Prop where
  block : ∀ id, GivesBlocks id (s.block id)
  labeled : ∀ id, GivesBlocks id (s.labeled id)

namespace BlocksOnly

theorem scalar (e v k i s u) : BlocksOnly (Ser.scalar e v k i s u) :=
  ⟨fun _ => givesBlocks_fail _, fun _ => givesBlocks_fail _⟩

theorem newtypeStruct {n v} (h : BlocksOnly v) : BlocksOnly (Ser.newtypeStruct n v) where
  block id := by
    simp only [Ser.newtypeStruct]
    split
    · exact h.labeled id
    · exact h.block id
  labeled id := h.labeled id

theorem newtypeVariant {U x v} (h : BlocksOnly v) : BlocksOnly (Ser.newtypeVariant U x v) where
  block _ := givesBlocks_chain fun _ => givesBlocks_chain fun _ => givesBlocks_one _
  labeled id := givesBlocks_labeled (h.block id)

theorem seq {vs} (h : ∀ v ∈ vs, BlocksOnly v) : BlocksOnly (Ser.seq vs) where
  block id := givesBlocks_each fun v hv => (h v hv).block id
  labeled id := givesBlocks_each fun v hv => (h v hv).labeled id

theorem tupleVariant {U x vs} (h : ∀ v ∈ vs, BlocksOnly v) : BlocksOnly (Ser.tupleVariant U x vs) where
  block _ := givesBlocks_chain fun _ => givesBlocks_chain fun _ => givesBlocks_one _
  labeled id := givesBlocks_each fun v hv => givesBlocks_labeled ((h v hv).block id)

theorem map {es} (h : ∀ e ∈ es, BlocksOnly e.2) : BlocksOnly (Ser.map es) where
  block _ := givesBlocks_chain fun _ => givesBlocks_one _
  labeled id := givesBlocks_each fun e he => givesBlocks_chain fun _ => by
    intro st ss hs
    rcases hm : Ser.labeledBlocks id e.2 (fun ls => .string ‹_› :: ls) st with ⟨a | _ | _, st'⟩ <;>
      simp only [SM.chain] at hs <;> rw [hm] at hs
    · injection hs with hs
      subst hs
      exact givesBlocks_labeled ((h e he).block id) st a (by rw [hm])
    · cases hs
    · cases hs

theorem struct {U n fs} (h : ∀ f ∈ fs, BlocksOnly f.2) : BlocksOnly (Ser.struct U n fs) where
  block _ := givesBlocks_chain fun _ => givesBlocks_one _
  labeled id := givesBlocks_each fun f hf => givesBlocks_labeled ((h f hf).block id)

theorem structVariant {U x fs} (h : ∀ f ∈ fs, BlocksOnly f.2) :
    BlocksOnly (Ser.structVariant U x fs) where
  block _ := givesBlocks_chain fun _ => givesBlocks_chain fun _ => givesBlocks_one _
  labeled id := givesBlocks_each fun f hf => givesBlocks_labeled ((h f hf).block id)

theorem byMode {a b} (ha : BlocksOnly a) (hb : BlocksOnly b) : BlocksOnly (Ser.byMode a b) where
  block id := givesBlocks_mode (ha.block id) (hb.block id)
  labeled id := givesBlocks_mode (ha.labeled id) (hb.labeled id)

theorem after {α : Type} {m : SM α} {k} (h : ∀ a, BlocksOnly (k a)) : BlocksOnly (Ser.after m k) where
  block id := givesBlocks_chain fun a => (h a).block id
  labeled id := givesBlocks_chain fun a => (h a).labeled id

theorem handle {U n m} : BlocksOnly (Ser.handle U n m) := after fun _ => struct fun f hf => by
  simp only [List.mem_singleton] at hf; subst hf; exact scalar ..

mutual
theorem exprSers (E : FmtEnv) : ∀ e : Expr, BlocksOnly (exprSers E e)
  | .null => byMode handle (scalar ..)
  | .bool _ => byMode handle (scalar ..)
  | .number (.posInt _) => byMode handle (scalar ..)
  | .number (.negInt _) => byMode handle (scalar ..)
  | .number (.float _) => byMode handle (scalar ..)
  | .string _ => byMode handle (scalar ..)
  | .array xs => byMode handle (seq (exprSersList E xs))
  | .object es => byMode handle (map (exprSersEntries E es))
  | .paren e => byMode handle (exprSers E e)
  | .template _ => byMode handle (scalar ..)
  | .var _ => byMode handle (scalar ..)
  | .traversal _ _ => byMode handle (scalar ..)
  | .call _ _ _ => byMode handle (scalar ..)
  | .cond _ _ _ => byMode handle (scalar ..)
  | .unary _ _ => byMode handle (scalar ..)
  | .binary _ _ _ => byMode handle (scalar ..)
  | .forE _ _ _ _ _ _ _ => byMode handle (scalar ..)
theorem exprSersList (E : FmtEnv) : ∀ es : List Expr, ∀ v ∈ exprSersList E es, BlocksOnly v
  | [], _, hv => nomatch hv
  | e :: es, v, hv => by
    simp only [Verif.exprSersList, List.mem_cons] at hv
    rcases hv with rfl | hv
    · exact exprSers E e
    · exact exprSersList E es v hv
theorem exprSersEntries (E : FmtEnv) : ∀ es : List (ObjKey × Expr), ∀ p ∈ exprSersEntries E es,
    BlocksOnly p.2
  | [], _, hv => nomatch hv
  | (k, e) :: es, p, hp => by
    simp only [Verif.exprSersEntries, List.mem_cons] at hp
    rcases hp with rfl | hp
    · exact exprSers E e
    · exact exprSersEntries E es p hp
end

mutual
theorem structSers (E : FmtEnv) : ∀ s : Struct, BlocksOnly (structSers E s)
  | .attr k e => byMode handle (struct fun p hp => by
      simp only [List.mem_cons, List.not_mem_nil, or_false] at hp
      rcases hp with rfl | rfl
      · exact scalar ..
      · exact exprSers E e)
  | .block i ls b => byMode handle (struct fun p hp => by
      have hb := structSersList E b
      simp only [List.mem_cons, List.not_mem_nil, or_false] at hp
      rcases hp with rfl | rfl | rfl
      · exact scalar ..
      · refine seq fun v hv => ?_
        obtain ⟨l, -, rfl⟩ := List.mem_map.1 hv
        cases l <;> exact newtypeVariant (scalar ..)
      · exact newtypeStruct (seq hb))
theorem structSersList (E : FmtEnv) : ∀ ss : List Struct, ∀ v ∈ structSersList E ss, BlocksOnly v
  | [], _, hv => nomatch hv
  | s :: ss, v, hv => by
    have h1 := structSers E s
    have h2 := structSersList E ss
    simp only [Verif.structSersList, List.mem_cons] at hv
    rcases hv with rfl | hv
    · exact h1
    · exact h2 v hv
end

mutual
theorem run (E : FmtEnv) : ∀ v : SVal, BlocksOnly (v.run E)
  | .bool _ => scalar ..
  | .int _ => scalar ..
  | .uint _ => scalar ..
  | .u64 _ => scalar ..
  | .f64 _ => scalar ..
  | .char _ => scalar ..
  | .str _ => scalar ..
  | .bytes _ => scalar ..
  | .unit => scalar ..
  | .unitVariant _ => scalar ..
  | .some v => ⟨(run E v).block, (run E v).labeled⟩
  | .newtypeStruct _ v => newtypeStruct (run E v)
  | .newtypeVariant _ v => newtypeVariant (run E v)
  | .seq vs => seq (runs E vs)
  | .tupleVariant _ vs => tupleVariant (runs E vs)
  | .map es => map (runEntries E es)
  | .struct _ fs => struct (runFields E fs)
  | .structVariant _ fs => structVariant (runFields E fs)
  | .block v => byMode (newtypeStruct (run E v)) (run E v)
  | .labeled v => byMode (newtypeStruct (run E v)) (run E v)
  | .hclExpr e => exprSers E e
  | .hclStruct s => structSers E s
  | .fail => ⟨fun _ => givesBlocks_fail _, fun _ => givesBlocks_fail _⟩
  | .panic => ⟨fun _ => givesBlocks_panic _, fun _ => givesBlocks_panic _⟩
  | .nested _ _ k => after fun g => run E (k g)
theorem runs (E : FmtEnv) : ∀ vs : List SVal, ∀ s ∈ SVal.runs E vs, BlocksOnly s
  | [], _, hs => nomatch hs
  | v :: vs, s, hs => by
    have h1 := run E v
    have h2 := runs E vs
    simp only [SVal.runs, List.mem_cons] at hs
    rcases hs with rfl | hs
    · exact h1
    · exact h2 s hs
theorem runEntries (E : FmtEnv) : ∀ es : List (SVal × SVal), ∀ p ∈ SVal.runEntries E es, BlocksOnly p.2
  | [], _, hp => nomatch hp
  | (k, v) :: es, p, hp => by
    have h2 := run E v
    have h3 := runEntries E es
    simp only [SVal.runEntries, SVal.runEntry, List.mem_cons] at hp
    rcases hp with rfl | hp
    · exact h2
    · exact h3 p hp
theorem runFields (E : FmtEnv) : ∀ fs : List (Str × SVal), ∀ p ∈ SVal.runFields E fs, BlocksOnly p.2
  | [], _, hp => nomatch hp
  | (k, v) :: fs, p, hp => by
    have h1 := run E v
    have h2 := runFields E fs
    simp only [SVal.runFields, SVal.runField, List.mem_cons] at hp
    rcases hp with rfl | hp
    · exact h1
    · exact h2 p hp
end

end BlocksOnly

/-! ### Values, expressions and structures -/

theorem gives_exprSers {E : FmtEnv} (e : Expr) : Gives true (exprSers E e).expr (.ok e) := by
  have key : Gives true (Ser.handle E.U exprMarker (insertExpr e)).expr (.ok e) := by
    rw [Ser.handle_expr]; exact gives_dropExpr e
  cases e
  case number n => cases n <;> exact gives_mode_true key
  all_goals exact gives_mode_true key

theorem gives_exprSers_field {E : FmtEnv} (id : Str) (e : Expr) :
    Gives true ((exprSers E e).struct id) (.ok [.attr id e]) := by
  have key : Gives true ((Ser.handle E.U exprMarker (insertExpr e)).struct id) (.ok [.attr id e]) := by
    rw [Ser.handle_struct]; exact gives_chain (gives_dropExpr e) (gives_ret _)
  cases e
  case number n => cases n <;> exact gives_mode_true key
  all_goals exact gives_mode_true key

theorem gives_structSers {E : FmtEnv} (s : Struct) : Gives true (structSers E s).body (.ok [s]) := by
  have key : Gives true (Ser.handle E.U structMarker (insertStruct s)).body (.ok [s]) := by
    rw [Ser.handle_structBody]; exact gives_chain (gives_dropStruct s) (gives_ret _)
  cases s <;> exact gives_mode_true key

theorem runs_map {α : Type} (E : FmtEnv) (f : α → SVal) (l : List α) :
    SVal.runs E (l.map f) = l.map fun a => (f a).run E := by
  induction l with
  | nil => rfl
  | cons t ts ih => simp only [SVal.runs, List.map_cons, ih]

theorem runField_eq (E : FmtEnv) (f : Str × SVal) : SVal.runField E f = (f.1, f.2.run E) := by
  cases f; rfl

theorem runEntry_eq (E : FmtEnv) (f : SVal × SVal) : SVal.runEntry E f = (f.1.run E, f.2.run E) := by
  cases f; rfl

theorem runFields_map {α : Type} (E : FmtEnv) (f : α → Str × SVal) (l : List α) :
    SVal.runFields E (l.map f) = l.map fun a => ((f a).1, (f a).2.run E) := by
  induction l with
  | nil => rfl
  | cons t ts ih => simp only [SVal.runFields, runField_eq, List.map_cons, ih]

theorem runEntries_map {α : Type} (E : FmtEnv) (f : α → SVal × SVal) (l : List α) :
    SVal.runEntries E (l.map f) = l.map fun a => ((f a).1.run E, (f a).2.run E) := by
  induction l with
  | nil => rfl
  | cons t ts ih => simp only [SVal.runEntries, runEntry_eq, List.map_cons, ih]

theorem fromF64_wf {x : F64} (h : WellFormed (.float x)) : N.fromF64 x = some (.float x) := by
  simp only [N.fromF64, h.2.1, if_true, h.2.2, Bool.false_eq_true, if_false]

theorem ofI64_neg {i : Int} (h : i < 0) : N.ofI64 i = .negInt i := by
  simp only [N.ofI64, if_pos h]

mutual
theorem value_sval (E : FmtEnv) : ∀ v : Value, v.WF → NumbersOk v → (v.sval.run E).value = SM.ret v
  | .null, _, _ => rfl
  | .bool _, _, _ => rfl
  | .number (.posInt _), _, _ => rfl
  | .number (.negInt i), _, h => by
    show SM.ret (Value.number (N.ofI64 i)) = _
    rw [ofI64_neg h.2]
  | .number (.float x), _, h => by
    show SM.ret (match N.fromF64 x with | some n => Value.number n | none => Value.null) = _
    rw [fromF64_wf h]
  | .string _, _, _ => rfl
  | .array vs, hv, h => by
    simp only [Value.sval, SVal.run, Ser.seq, values_svals E vs hv h, SM.ret_chain]
  | .object es, hv, h => by
    simp only [Value.sval, SVal.run, Ser.map, entries_sval E es hv.2 h, SM.ret_chain,
      Map.collect_nodup hv.1]
theorem values_svals (E : FmtEnv) : ∀ vs : List Value, Value.WFList vs → NumbersOkAll vs →
    SM.each Sers.value (SVal.runs E (Value.svals vs)) = SM.ret vs
  | [], _, _ => rfl
  | v :: vs, hv, h => by
    simp only [Value.svals, SVal.runs, SM.each, value_sval E v hv.1 h.1, values_svals E vs hv.2 h.2,
      SM.ret_chain]
theorem entries_sval (E : FmtEnv) : ∀ es : List (Str × Value), Value.WFObj es → NumbersOkEntries es →
    SM.each (fun p => Ser.valueEntry p.1.string p.2) (SVal.runEntries E (Value.svalEntries es)) =
      SM.ret es
  | [], _, _ => rfl
  | (k, v) :: es, hv, h => by
    simp only [Value.svalEntries, SVal.runEntries, SVal.runEntry, SM.each, Ser.valueEntry, Ser.entry,
      SVal.run, Ser.str, Ser.scalar, value_sval E v hv.1 h.1, SM.ret_chain]
    have := entries_sval E es hv.2 h.2
    simp only [Ser.valueEntry, Ser.entry] at this
    simp only [this, SM.ret_chain]
end

mutual
theorem expr_sval (E : FmtEnv) : ∀ v : Value, NumbersOk v → (v.sval.run E).expr = SM.ret (ofValue v)
  | .null, _ => rfl
  | .bool _, _ => rfl
  | .number (.posInt _), _ => rfl
  | .number (.negInt i), h => by
    show SM.ret (Expr.number (N.ofI64 i)) = _
    rw [ofI64_neg h.2]
    rfl
  | .number (.float x), h => by
    show SM.ret (match N.fromF64 x with | some n => Expr.number n | none => Expr.null) = _
    rw [fromF64_wf h]
    rfl
  | .string _, _ => rfl
  | .array vs, h => by
    simp only [Value.sval, SVal.run, Ser.seq, exprs_svals E vs h, SM.ret_chain]
    rfl
  | .object es, h => by
    simp only [Value.sval, SVal.run, Ser.map, exprEntries_sval E es h, SM.ret_chain]
    rfl
theorem exprs_svals (E : FmtEnv) : ∀ vs : List Value, NumbersOkAll vs →
    SM.each Sers.expr (SVal.runs E (Value.svals vs)) = SM.ret (ofValues vs)
  | [], _ => rfl
  | v :: vs, h => by
    simp only [Value.svals, SVal.runs, SM.each, expr_sval E v h.1, exprs_svals E vs h.2,
      SM.ret_chain]
    rfl
theorem exprEntries_sval (E : FmtEnv) : ∀ es : List (Str × Value), NumbersOkEntries es →
    SM.each (fun p => Ser.exprEntry p.1.key p.2) (SVal.runEntries E (Value.svalEntries es)) =
      SM.ret (ofEntries es)
  | [], _ => rfl
  | (k, v) :: es, h => by
    simp only [Value.svalEntries, SVal.runEntries, SVal.runEntry, SM.each, Ser.exprEntry, Ser.entry,
      SVal.run, Ser.str, Ser.scalar, expr_sval E v h.1, SM.ret_chain]
    have := exprEntries_sval E es h.2
    simp only [Ser.exprEntry, Ser.entry] at this
    simp only [this, SM.ret_chain]
    rfl
end

theorem place_internal {b : Bool} {en : Entry} : en = .value → (place b en).internal = b := by
  rintro rfl; rfl

/-- A serialization of a value that is tame at its place. -/
theorem serialize_tame {E : FmtEnv} {en : Entry} {v : SVal} {b : Bool}
    (h : (v.run E).At (place b en)) : ∃ g, g ≠ .panic ∧ ∀ st, StOk st → st.internal = b →
      (serialize E en v st).1 = g ∧ SameLive st (serialize E en v st).2 := by
  cases en
  · obtain ⟨r, hr, h⟩ := h
    refine ⟨r.got .body, by cases r <;> simp_all [SRes.got], fun st hs hb => ?_⟩
    obtain ⟨h1, h2, -⟩ := gives_enter (b := b) h st hs hb
    exact ⟨congrArg (SRes.got .body) h1, h2⟩
  · obtain ⟨r, hr, h⟩ := h
    refine ⟨r.got .expr, by cases r <;> simp_all [SRes.got], fun st hs hb => ?_⟩
    obtain ⟨h1, h2, -⟩ := gives_enter (b := b) h st hs hb
    exact ⟨congrArg (SRes.got .expr) h1, h2⟩
  · obtain ⟨r, hr, h⟩ := h
    refine ⟨r.got .value, by cases r <;> simp_all [SRes.got], fun st hs hb => ?_⟩
    obtain ⟨h1, h2, -⟩ := h st hs hb
    exact ⟨congrArg (SRes.got .value) h1, h2⟩

theorem serialize_body {E : FmtEnv} {v : SVal} {ss : List Struct} {st : SerSt} (hs : StOk st)
    (h : Gives true (v.run E).body (.ok ss)) :
    (serialize E .body v st).1 = .body ss ∧ SameLive st (serialize E .body v st).2 := by
  obtain ⟨h1, h2, -⟩ := gives_enter (b := st.internal) h st hs rfl
  exact ⟨congrArg (SRes.got .body) h1, h2⟩

theorem serialize_expr {E : FmtEnv} {v : SVal} {e : Expr} {st : SerSt} (hs : StOk st)
    (h : Gives true (v.run E).expr (.ok e)) :
    (serialize E .expr v st).1 = .expr e ∧ SameLive st (serialize E .expr v st).2 := by
  obtain ⟨h1, h2, -⟩ := gives_enter (b := st.internal) h st hs rfl
  exact ⟨congrArg (SRes.got .expr) h1, h2⟩

theorem stOk_initial : StOk SerSt.initial :=
  ⟨⟨.nil, nofun⟩, ⟨.nil, nofun⟩⟩

/-- What a well-placed document gives in one state it gives in all. -/
theorem gives_of_initial {E : FmtEnv} {v : SVal} {ss : List Struct} (hv : Honest v)
    (hp : Sited .document v) (h : (serialize E .body v SerSt.initial).1 = .body ss) :
    Gives true (v.run E).body (.ok ss) := by
  obtain ⟨r, hr, hg⟩ := Sited.at E .document v hv hp
  obtain ⟨h1, -, -⟩ := gives_enter (b := false) hg SerSt.initial stOk_initial rfl
  have : SRes.got .body r = .body ss := by
    rw [← h, ← h1]; rfl
  cases r with
  | ok a =>
    injection this with this
    subst this
    exact hg
  | err => cases this
  | panic => cases this

theorem entry_same (E : FmtEnv) (v : SVal) (en : Entry) (st : SerSt) :
    (serialize E en v st).2.internal = st.internal := by
  have h := closed_keepsMode.run E v
  cases en
  · rfl
  · rfl
  · exact h.value st

theorem entry_ok (E : FmtEnv) (v : SVal) (en : Entry) {st : SerSt} (hs : StOk st) :
    StOk (serialize E en v st).2 ∧ st.exprs.last ≤ (serialize E en v st).2.exprs.last ∧
      st.structs.last ≤ (serialize E en v st).2.structs.last := by
  have h := closed_keepsOk.run E v
  cases en
  · exact h.body { st with internal := true } hs
  · exact h.expr { st with internal := true } hs
  · exact h.value st hs

theorem entry_live {E : FmtEnv} {v : SVal} (hv : Honest v) (en : Entry) {st : SerSt} (hs : StOk st) :
    (serialize E en v st).1 ≠ .panic ∧ (∀ p ∈ st.exprs.live, p ∈ (serialize E en v st).2.exprs.live) ∧
      ∀ p ∈ st.structs.live, p ∈ (serialize E en v st).2.structs.live := by
  have h := semi_keepsLive.run E v hv
  cases en
  · obtain ⟨h1, -, h2⟩ := h.body { st with internal := true } hs
    refine ⟨?_, h2⟩
    show SRes.got .body ((v.run E).body { st with internal := true }).1 ≠ _
    generalize ((v.run E).body { st with internal := true }).1 = r at h1
    cases r <;> simp_all [SRes.got]
  · obtain ⟨h1, -, h2⟩ := h.expr { st with internal := true } hs
    refine ⟨?_, h2⟩
    show SRes.got .expr ((v.run E).expr { st with internal := true }).1 ≠ _
    generalize ((v.run E).expr { st with internal := true }).1 = r at h1
    cases r <;> simp_all [SRes.got]
  · obtain ⟨h1, -, h2⟩ := h.value st hs
    refine ⟨?_, h2⟩
    show SRes.got .value ((v.run E).value st).1 ≠ _
    generalize ((v.run E).value st).1 = r at h1
    cases r <;> simp_all [SRes.got]

/-! ### Expressions as values -/

theorem gives_plain {v : Value} {m n : SM Value} (h : Gives false n (.ok v)) :
    Gives false (fun st => if st.internal then m st else n st) (.ok v) := gives_mode_false h

mutual
theorem gives_toValue (E : FmtEnv) : ∀ e : Expr, Flat e →
    Gives false (exprSers E e).value (.ok (toValue E e))
  | .null, _ => gives_mode_false (gives_ret _)
  | .bool _, _ => gives_mode_false (gives_ret _)
  | .number (.posInt _), _ => gives_mode_false (gives_ret _)
  | .number (.negInt i), h => by
    have : (Ser.int i).value = SM.ret (.number (.negInt i)) := by
      show SM.ret (Value.number (N.ofI64 i)) = _
      rw [ofI64_neg h.2]
    refine gives_mode_false ?_
    rw [this]
    exact gives_ret _
  | .number (.float x), h => by
    have : (Ser.f64 x).value = SM.ret (.number (.float x)) := by
      show SM.ret (match N.fromF64 x with | some n => Value.number n | none => Value.null) = _
      rw [fromF64_wf h]
    refine gives_mode_false ?_
    rw [this]
    exact gives_ret _
  | .string _, _ => gives_mode_false (gives_ret _)
  | .array xs, h => gives_mode_false (gives_chain (gives_toValues E xs h) (gives_ret _))
  | .object es, h => by
    obtain rfl : es = [] := h
    exact gives_mode_false (gives_ret _)
  | .paren e, h => gives_mode_false (gives_toValue E e h)
  | .var _, _ => gives_mode_false (gives_ret _)
  | .traversal _ _, _ => gives_mode_false (gives_ret _)
  | .call _ _ _, _ => gives_mode_false (gives_ret _)
  | .cond _ _ _, _ => gives_mode_false (gives_ret _)
  | .unary _ _, _ => gives_mode_false (gives_ret _)
  | .binary _ _ _, _ => gives_mode_false (gives_ret _)
  | .forE _ _ _ _ _ _ _, _ => gives_mode_false (gives_ret _)
theorem gives_toValues (E : FmtEnv) : ∀ es : List Expr, FlatAll es →
    Gives false (SM.each Sers.value (exprSersList E es)) (.ok (toValues E es))
  | [], _ => gives_ret _
  | e :: es, h => gives_chain (gives_toValue E e h.1) (gives_chain (gives_toValues E es h.2) (gives_ret _))
end

/-- If one element cannot succeed, the whole cannot. -/
theorem each_ne_ok {α β : Type} {f : α → SM β} {l : List α} {a : α} (ha : a ∈ l)
    (h : ∀ st b, (f a st).1 ≠ .ok b) : ∀ st bs, (SM.each f l st).1 ≠ .ok bs := by
  induction l with
  | nil => exact nomatch ha
  | cons x l ih =>
    intro st bs hb
    simp only [SM.each, SM.chain] at hb
    rcases h1 : f x st with ⟨y | _ | _, st1⟩ <;> rw [h1] at hb
    · dsimp only at hb
      rcases List.mem_cons.1 ha with rfl | ha
      · exact h st y (by rw [h1])
      rcases h2 : SM.each f l st1 with ⟨z | _ | _, st2⟩ <;> rw [h2] at hb
      · exact ih ha st1 z (by rw [h2])
      · cases hb
      · cases hb
    · cases hb
    · cases hb

theorem Map.insert_fresh {V : Type} {k : Str} {v : V} : ∀ {m : List (Str × V)}, k ∉ m.map Prod.fst →
    Map.insert k v m = m ++ [(k, v)]
  | [], _ => rfl
  | (k', v') :: m, h => by
    simp only [List.map_cons, List.mem_cons, not_or] at h
    simp only [Map.insert, if_neg (Ne.symm h.1), Map.insert_fresh h.2, List.cons_append]

/-- Collecting entries with different keys keeps them all in order. -/
theorem Map.collect_distinct {V : Type} {es : List (Str × V)} (h : (es.map Prod.fst).Nodup) :
    Map.collect es = es := by
  have : ∀ (es m : List (Str × V)), ((m ++ es).map Prod.fst).Nodup →
      es.foldl (fun m e => Map.insert e.1 e.2 m) m = m ++ es := by
    intro es
    induction es with
    | nil => intro m _; simp
    | cons e es ih =>
      intro m h
      have hn : e.1 ∉ m.map Prod.fst := by
        intro hm
        rw [List.map_append, List.map_cons] at h
        exact (List.nodup_append.1 h).2.2 _ hm _ (List.mem_cons_self ..) rfl
      rw [List.foldl_cons, Map.insert_fresh hn, ih]
      · simp
      · simpa using h
  exact this es [] (by simpa using h)

theorem valEntries_eq (es : List (Str × LTree)) :
    LTree.valEntries es = es.map fun p => (.str p.1, p.2.val) := by
  induction es with
  | nil => rfl
  | cons t ts ih =>
    rcases t with ⟨k, t⟩
    simp only [LTree.valEntries, LTree.valEntry, List.map_cons, ih]

/-! ### The three serializations of data agree -/

/-- Keys that are strings. -/
def StrKeys (es : List (ObjKey × Expr)) : Prop := ∀ e ∈ es, ∃ s, e.1 = .expr (.string s)

theorem strKeys_objInsert {k : Str} {v : Expr} : ∀ {m : List (ObjKey × Expr)}, StrKeys m →
    StrKeys (objInsert (.expr (.string k)) v m)
  | [], _ => fun e he => by
    simp only [objInsert, List.mem_singleton] at he
    exact ⟨k, by rw [he]⟩
  | (k', v') :: m, h => by
    intro e he
    simp only [objInsert] at he
    split at he
    · rcases List.mem_cons.1 he with rfl | he
      · exact h (k', v') (by simp)
      · exact h e (by simp [he])
    · rcases List.mem_cons.1 he with rfl | he
      · exact h (k', v') (by simp)
      · exact strKeys_objInsert (fun e he => h e (by simp [he])) e he

theorem toValueEntries_objInsert (E : FmtEnv) {k : Str} {v : Expr} :
    ∀ {m : List (ObjKey × Expr)}, StrKeys m →
    toValueEntries E (objInsert (.expr (.string k)) v m) =
      Map.insert k (toValue E v) (toValueEntries E m)
  | [], _ => rfl
  | (k', v') :: m, h => by
    obtain ⟨s, hs⟩ := h (k', v') (by simp)
    simp only at hs
    subst hs
    have hb : ObjKey.beq (.expr (.string s)) (.expr (.string k)) = decide (s = k) := by
      simp [ObjKey.beq, Expr.beq]
    simp only [objInsert, hb, decide_eq_true_eq, toValueEntries, keyString, Map.insert]
    by_cases e : s = k
    · simp only [if_pos e, toValueEntries, keyString]
    · simp only [if_neg e, toValueEntries, keyString,
        toValueEntries_objInsert E (m := m) fun e he => h e (by simp [he])]

theorem toValueEntries_objCollect (E : FmtEnv) {es : List (Str × Expr)} :
    toValueEntries E (objCollect (es.map fun p => (.expr (.string p.1), p.2))) =
      Map.collect (es.map fun p => (p.1, toValue E p.2)) := by
  have key : ∀ (es : List (Str × Expr)) (m : List (ObjKey × Expr)) (n : List (Str × Value)), StrKeys m →
      toValueEntries E m = n →
      toValueEntries E ((es.map fun p => (.expr (.string p.1), p.2)).foldl
        (fun m e => objInsert e.1 e.2 m) m) =
      (es.map fun p => (p.1, toValue E p.2)).foldl (fun m e => Map.insert e.1 e.2 m) n := by
    intro es
    induction es with
    | nil => intro m n _ h; exact h
    | cons e es ih =>
      intro m n hm h
      simp only [List.map_cons, List.foldl_cons]
      refine ih _ _ (strKeys_objInsert hm) ?_
      rw [toValueEntries_objInsert E hm, h]
  exact key es [] [] nofun rfl

theorem collect_collect (es : List (Str × Value)) : Map.collect (Map.collect es) = Map.collect es :=
  Map.collect_nodup (Map.nodup_collect es)

/-- The computation gives an expression that stands for the value. -/
def Stands (E : FmtEnv) (m : SM Expr) (w : Value) : Prop := ∃ e, m = SM.ret e ∧ toValue E e = w

theorem Stands.ret {E : FmtEnv} {e : Expr} {w : Value} (h : toValue E e = w) : Stands E (SM.ret e) w :=
  ⟨e, rfl, h⟩

theorem stands_entries {α : Type} {E : FmtEnv} {f : α → SM (ObjKey × Expr)} {l : List α}
    {ws : List (Str × Value)}
    (h : ∃ es : List (Str × Expr),
      SM.each f l = SM.ret (es.map fun p => (ObjKey.expr (.string p.1), p.2)) ∧
        (es.map fun p => (p.1, toValue E p.2)) = ws)
    {g : List (ObjKey × Expr) → Expr} {w : Value}
    (hg : ∀ m, toValueEntries E m = Map.collect ws → toValue E (g m) = w) :
    Stands E (SM.chain (SM.each f l) fun es => SM.ret (g (objCollect es))) w := by
  obtain ⟨es, h, he⟩ := h
  rw [h, SM.ret_chain]
  refine .ret (hg _ ?_)
  rw [toValueEntries_objCollect, he]

theorem byMode_same {α : Type} (m : SM α) : (fun st => if st.internal then m st else m st) = m := by
  funext st; simp

mutual
theorem data_stands (E : FmtEnv) : ∀ v : SVal, Data E.U v →
    ∃ w, (v.run E).value = SM.ret w ∧ Stands E (v.run E).expr w
  | .bool _, _ => ⟨_, rfl, .ret rfl⟩
  | .int _, _ => ⟨_, rfl, .ret rfl⟩
  | .uint _, _ => ⟨_, rfl, .ret rfl⟩
  | .u64 _, _ => ⟨_, rfl, .ret rfl⟩
  | .f64 x, _ => by
    refine ⟨_, rfl, .ret ?_⟩
    cases N.fromF64 x <;> rfl
  | .char _, _ => ⟨_, rfl, .ret rfl⟩
  | .str _, _ => ⟨_, rfl, .ret rfl⟩
  | .bytes bs, h => by
    refine ⟨_, rfl, .ret ?_⟩
    simp only [toValue]
    congr 1
    clear h
    induction bs with
    | nil => rfl
    | cons b bs ih => simp only [List.map_cons, toValues, toValue, ih]
  | .unit, _ => ⟨_, rfl, .ret rfl⟩
  | .unitVariant _, _ => ⟨_, rfl, .ret rfl⟩
  | .some v, h => data_stands E v h
  | .newtypeStruct _ v, h => data_stands E v h
  | .newtypeVariant x v, h => by
    obtain ⟨w, h1, e, h2, he⟩ := data_stands E v h.2
    refine ⟨.object [(x, w)], ?_, ?_⟩
    · simp only [SVal.run, Ser.newtypeVariant, h1, SM.ret_chain]
    · have hx : Ser.newIdent E.U x = SM.ret x := by
        simp only [Ser.newIdent, Ident.tryNew, (Props.C01_isIdent_iff _ _).2 h.1]
        rfl
      simp only [SVal.run, Ser.newtypeVariant, hx, h2, SM.ret_chain]
      refine .ret ?_
      simp only [toValue, toValueEntries, keyString, he]
      rfl
  | .seq vs, h => by
    obtain ⟨ws, h1, h2⟩ := data_all E vs h
    refine ⟨.array ws, ?_, ?_⟩
    · simp only [SVal.run, Ser.seq, h1, SM.ret_chain]
    · obtain ⟨es, h2, he⟩ := h2
      simp only [SVal.run, Ser.seq, h2, SM.ret_chain]
      exact .ret (by simp only [toValue, he])
  | .tupleVariant x vs, h => by
    obtain ⟨ws, h1, h2⟩ := data_all E vs h
    refine ⟨.object [(x, .array ws)], ?_, ?_⟩
    · simp only [SVal.run, Ser.tupleVariant, h1, SM.ret_chain]
    · obtain ⟨es, h2, he⟩ := h2
      simp only [SVal.run, Ser.tupleVariant, h2, SM.ret_chain]
      refine .ret ?_
      simp only [toValue, toValueEntries, keyString, he]
      rfl
  | .map es, h => by
    obtain ⟨ws, h1, h2⟩ := data_entries E es h
    refine ⟨.object (Map.collect ws), ?_, ?_⟩
    · simp only [SVal.run, Ser.map, h1, SM.ret_chain]
    · exact stands_entries (g := fun m => .object m) h2 fun m hm => by
        simp only [toValue, hm, collect_collect]
  | .struct n fs, h => by
    obtain ⟨ws, h1, h2⟩ := data_fields E fs h.2.2
    refine ⟨.object (Map.collect ws), ?_, ?_⟩
    · simp only [SVal.run, Ser.struct, h1, SM.ret_chain]
    · simp only [SVal.run, Ser.struct, if_neg h.1]
      exact stands_entries (g := fun m => .object m) h2 fun m hm => by
        simp only [toValue, hm, collect_collect]
  | .structVariant x fs, h => by
    obtain ⟨ws, h1, h2⟩ := data_fields E fs h
    refine ⟨.object [(x, .object (Map.collect ws))], ?_, ?_⟩
    · simp only [SVal.run, Ser.structVariant, h1, SM.ret_chain]
    · exact stands_entries (g := fun m => .object [(.expr (.string x), .object m)]) h2 fun m hm => by
        simp only [toValue, toValueEntries, keyString, hm, collect_collect]
        rfl
  | .block v, h => by
    obtain ⟨w, h1, h2⟩ := data_stands E v h
    refine ⟨w, ?_, ?_⟩
    · simp only [SVal.run, Ser.byMode, Ser.newtypeStruct, byMode_same, h1]
    · simp only [SVal.run, Ser.byMode, Ser.newtypeStruct, byMode_same]
      exact h2
  | .labeled v, h => by
    obtain ⟨w, h1, h2⟩ := data_stands E v h
    refine ⟨w, ?_, ?_⟩
    · simp only [SVal.run, Ser.byMode, Ser.newtypeStruct, byMode_same, h1]
    · simp only [SVal.run, Ser.byMode, Ser.newtypeStruct, byMode_same]
      exact h2
theorem data_all (E : FmtEnv) : ∀ vs : List SVal, DataAll E.U vs →
    ∃ ws, SM.each Sers.value (SVal.runs E vs) = SM.ret ws ∧
      ∃ es, SM.each Sers.expr (SVal.runs E vs) = SM.ret es ∧ toValues E es = ws
  | [], _ => ⟨[], rfl, [], rfl, rfl⟩
  | v :: vs, h => by
    obtain ⟨w, h1, e, h2, he⟩ := data_stands E v h.1
    obtain ⟨ws, h3, es, h4, hes⟩ := data_all E vs h.2
    refine ⟨w :: ws, ?_, e :: es, ?_, ?_⟩
    · simp only [SVal.runs, SM.each, h1, h3, SM.ret_chain]
    · simp only [SVal.runs, SM.each, h2, h4, SM.ret_chain]
    · simp only [toValues, he, hes]
theorem data_entries (E : FmtEnv) : ∀ es : List (SVal × SVal), DataEntries E.U es →
    ∃ ws, SM.each (fun p => Ser.valueEntry p.1.string p.2) (SVal.runEntries E es) = SM.ret ws ∧
      ∃ xs : List (Str × Expr), SM.each (fun p => Ser.exprEntry p.1.key p.2) (SVal.runEntries E es) =
          SM.ret (xs.map fun p => (ObjKey.expr (.string p.1), p.2)) ∧
        (xs.map fun p => (p.1, toValue E p.2)) = ws
  | [], _ => ⟨[], rfl, [], rfl, rfl⟩
  | (k, v) :: es, h => by
    obtain ⟨w, h1, e, h2, he⟩ := data_stands E v h.1.2
    obtain ⟨ws, h3, xs, h4, hes⟩ := data_entries E es h.2
    obtain ⟨s, rfl⟩ := h.1.1
    simp only [Ser.valueEntry, Ser.entry, Ser.exprEntry] at h3 h4
    refine ⟨(s, w) :: ws, ?_, (s, e) :: xs, ?_, ?_⟩
    · simp only [SVal.runEntries, SVal.runEntry, SM.each, Ser.valueEntry, Ser.entry, SVal.run, Ser.str,
        Ser.scalar, h1, h3, SM.ret_chain]
    · simp only [SVal.runEntries, SVal.runEntry, SM.each, Ser.exprEntry, Ser.entry, SVal.run, Ser.str,
        Ser.scalar, h2, h4, SM.ret_chain, List.map_cons]
    · simp only [List.map_cons, he, hes]
theorem data_fields (E : FmtEnv) : ∀ fs : List (Str × SVal), DataFields E.U fs →
    ∃ ws, SM.each (fun p => Ser.valueEntry (SM.ret p.1) p.2) (SVal.runFields E fs) = SM.ret ws ∧
      ∃ xs : List (Str × Expr),
        SM.each (fun p => Ser.exprEntry (SM.ret (.expr (.string p.1))) p.2) (SVal.runFields E fs) =
          SM.ret (xs.map fun p => (ObjKey.expr (.string p.1), p.2)) ∧
        (xs.map fun p => (p.1, toValue E p.2)) = ws
  | [], _ => ⟨[], rfl, [], rfl, rfl⟩
  | (s, v) :: fs, h => by
    obtain ⟨w, h1, e, h2, he⟩ := data_stands E v h.1
    obtain ⟨ws, h3, xs, h4, hes⟩ := data_fields E fs h.2
    simp only [Ser.valueEntry, Ser.entry, Ser.exprEntry, SM.ret_chain] at h3 h4
    refine ⟨(s, w) :: ws, ?_, (s, e) :: xs, ?_, ?_⟩
    · simp only [SVal.runFields, SVal.runField, SM.each, Ser.valueEntry, Ser.entry, h1, h3, SM.ret_chain]
    · simp only [SVal.runFields, SVal.runField, SM.each, Ser.exprEntry, Ser.entry, h2, h4, SM.ret_chain,
        List.map_cons]
    · simp only [List.map_cons, he, hes]
end

/-- A field that becomes an attribute. -/
theorem attrField_struct (E : FmtEnv) (i : Str) : ∀ {v : SVal}, AttrField v →
    Data E.U v → (v.run E).struct i = Ser.attr i (v.run E).expr
  | .some v, h, hd => attrField_struct E i (v := v) h hd
  | .newtypeStruct n v, h, _ => by
    simp only [SVal.run, Ser.newtypeStruct, if_neg h.1, if_neg h.2]
  | .block _, h, _ => absurd h id
  | .labeled _, h, _ => absurd h id
  | .bool _, _, _ => rfl
  | .int _, _, _ => rfl
  | .uint _, _, _ => rfl
  | .u64 _, _, _ => rfl
  | .f64 _, _, _ => rfl
  | .char _, _, _ => rfl
  | .str _, _, _ => rfl
  | .bytes _, _, _ => rfl
  | .unit, _, _ => rfl
  | .unitVariant _, _, _ => rfl
  | .newtypeVariant _ _, _, _ => rfl
  | .seq _, _, _ => rfl
  | .tupleVariant _ _, _, _ => rfl
  | .map _, _, _ => rfl
  | .struct _ _, _, _ => rfl
  | .structVariant _ _, _, _ => rfl

theorem gives_exprSers_body' {E : FmtEnv} {e : Expr} {r : SRes (List Struct)}
    (h : Gives true (Ser.exprBody E.U e) r) : Gives true ((SVal.hclExpr e).run E).body r := by
  have key : Gives true (Ser.handle E.U exprMarker (insertExpr e)).body r := by
    rw [Ser.handle_body]; exact gives_chain (gives_dropExpr e) h
  show Gives true (exprSers E e).body r
  cases e
  case number n => cases n <;> exact gives_mode_true key
  all_goals exact gives_mode_true key

theorem gives_exprSers_body {E : FmtEnv} {e : Expr} {ss : List Struct}
    (h : Ser.exprBody E.U e = SM.ret ss) : Gives true ((SVal.hclExpr e).run E).body (.ok ss) :=
  gives_exprSers_body' (by rw [h]; exact gives_ret _)

theorem gives_exprSers_body_err {E : FmtEnv} {e : Expr}
    (h : Ser.exprBody E.U e = SM.fail) : Gives true ((SVal.hclExpr e).run E).body .err :=
  gives_exprSers_body' (by rw [h]; exact gives_fail)

theorem serialize_body_err {E : FmtEnv} {v : SVal} {st : SerSt} (hs : StOk st)
    (h : Gives true (v.run E).body .err) : (serialize E .body v st).1 = .err := by
  obtain ⟨h1, h2, -⟩ := gives_enter (b := st.internal) h st hs rfl
  exact congrArg (SRes.got .body) h1

end Verif
