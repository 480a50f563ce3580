/-
C26: booking without parameters books the parsed ledger.
-/
import Verif.Props.C22
import Verif.Props.C25
import Verif.Props.C27

namespace Limabean

open Spec

variable {E : Ext} {L : BookLib}

/-- The request to book, as a client sends it, with or without directives. -/
def bookLine (id : Json) (params : Option (List Raw.Directive)) : Server.Line :=
  .json (.obj ([(str% "jsonrpc", .str (str% "2.0")), (str% "id", id), (str% "method", .str (str% "book"))] ++
    Json.entry (str% "params") params (fun ds => .arr (ds.map Wire.encDirective))))

theorem resolveElement_span {ds : List Raw.Directive} {e : ElementIdx} (hl : LocOk ds e) {k : Str} {sp : Span}
    (h : Server.resolveElement e ds = some (k, sp)) : ElementSpan ds e sp := by
  unfold Server.resolveElement at h
  cases hd : ds[e.directive]? with
  | none => rw [hd] at h; cases h
  | some d =>
    rw [hd] at h
    simp only at h
    refine ⟨d, hd, ?_, ?_⟩
    · intro hp
      rw [hp] at h
      cases hs : d.span with
      | none => cases hv : d.variant <;> rw [hv, hs] at h <;> cases h
      | some s => cases hv : d.variant <;> rw [hv, hs] at h <;> cases h <;> rfl
    · intro i hi
      obtain ⟨d', t, g1, g2, g3⟩ := hl.2 i hi
      rw [hd] at g1
      cases g1
      rw [hi, g2] at h
      simp only at h
      have hq : t.postings[i]? = some t.postings[i] := List.getElem?_eq_getElem g3
      rw [hq] at h
      simp only at h
      cases hs : t.postings[i].span with
      | none => rw [hs] at h; cases h
      | some s =>
        rw [hs] at h
        cases h
        exact ⟨t, _, g2, hq, hs⟩

theorem all_forall₂ {α β : Type} {f : α → Option β} {l : List α} {bs : List β} (h : Json.all f l = some bs) :
    List.Forall₂ (fun a b => f a = some b) l bs := by
  induction l generalizing bs with
  | nil => simp only [Json.all, Option.some.injEq] at h; subst h; exact .nil
  | cons a l ih =>
    simp only [Json.all] at h
    cases hf : f a with
    | none => simp [hf] at h
    | some b =>
      cases hl : Json.all f l with
      | none => simp [hf, hl] at h
      | some cs =>
        simp [hf, hl] at h
        subst h
        exact .cons hf (ih hl)

theorem resolveReport_corresponds {ds : List Raw.Directive} {i : IndexedReport} (hl : ReportOk ds i) {r : Report}
    (h : Server.resolveReport E ds i = some r) : Corresponds E ds r i := by
  unfold Server.resolveReport at h
  split at h
  · rename_i k sp c rel h1 h2 h3
    cases h
    refine ⟨rfl, rfl, resolveElement_span hl.1 h1, ?_, ?_, ?_, ?_⟩
    · intro hp
      simp only [Server.resolveContexts, hp, Option.some.injEq] at h2
      exact h2.symm
    · intro j hj
      simp only [Server.resolveContexts, hj] at h2
      cases h4 : Server.resolveElement { directive := i.idx.directive } ds with
      | none => simp [h4] at h2
      | some x =>
        obtain ⟨n, sp'⟩ := x
        simp only [h4, Option.some.injEq] at h2
        exact ⟨n, sp', h2.symm, resolveElement_span (e := { directive := i.idx.directive }) (LocOk.plain ⟨rfl, hl.1.1⟩) h4⟩
    · intro hr
      simp only [Server.resolveRelated, hr, Option.some.injEq] at h3
      exact h3.symm
    · intro es he
      simp only [Server.resolveRelated, he, Option.map_eq_some_iff] at h3
      obtain ⟨l, h3, rfl⟩ := h3
      refine ⟨l, rfl, ?_⟩
      have hall : ∀ e ∈ es, LocOk ds e := fun e h => hl.2 e (by simpa [he] using h)
      have := all_forall₂ h3
      clear h3 he
      induction this with
      | nil => exact .nil
      | cons ha _ ih =>
        exact .cons (resolveElement_span (hall _ (by simp)) ha) (ih fun e h => hall e (by simp [h]))
  · cases h

theorem decRequest_bookLine {id : Json} {i : Id} (hi : Wire.decId id = some i)
    {params : Option (List Raw.Directive)} (hp : ∀ ds ∈ params, ∀ d ∈ ds, DirectiveOk d) :
    ∃ j, bookLine id params = .json j ∧
      Wire.decRequest j = some { jsonrpc := str% "2.0", id := some i, method := .book params } := by
  refine ⟨_, rfl, ?_⟩
  have h1 : Json.opt ([(str% "jsonrpc", .str (str% "2.0")), (str% "id", id), (str% "method", .str (str% "book"))] ++
      Json.entry (str% "params") params (fun ds => .arr (ds.map Wire.encDirective))) (str% "params")
        (Json.toList Wire.decDirective) = some params := by
    refine Wire.opt_of_vals (enc := fun ds => .arr (ds.map Wire.encDirective)) ?_ ?_ (by simp)
    · cases params <;> simp [Json.vals, Json.entry]
    · intro ds hds
      exact Wire.all_map _ _ _ fun d hd => Wire.decDirective_encDirective (hp ds hds d hd)
  have h2 : ∀ k, k ≠ str% "params" → Json.field
      ([(str% "jsonrpc", .str (str% "2.0")), (str% "id", id), (str% "method", .str (str% "book"))] ++
      Json.entry (str% "params") params (fun ds => .arr (ds.map Wire.encDirective))) k =
      Json.field [(str% "jsonrpc", .str (str% "2.0")), (str% "id", id), (str% "method", .str (str% "book"))] k := by
    intro k hk
    unfold Json.field
    rw [Wire.vals_append]
    have : Json.vals k (Json.entry (str% "params") params (fun ds => .arr (ds.map Wire.encDirective))) = [] := by
      cases params <;> simp [Json.vals, Json.entry, Ne.symm hk]
    rw [this, List.append_nil]
  have e1 : Json.field [(str% "jsonrpc", .str (str% "2.0")), (str% "id", id), (str% "method", .str (str% "book"))]
    (str% "jsonrpc") = some (some (.str (str% "2.0"))) := by simp [Json.field, Json.vals]
  have e2 : Json.field [(str% "jsonrpc", .str (str% "2.0")), (str% "id", id), (str% "method", .str (str% "book"))]
    (str% "id") = some (some id) := by simp [Json.field, Json.vals]
  have e3 : Json.field [(str% "jsonrpc", .str (str% "2.0")), (str% "id", id), (str% "method", .str (str% "book"))]
    (str% "method") = some (some (.str (str% "book"))) := by simp [Json.field, Json.vals]
  simp only [Wire.decRequest, Wire.decMethod, Json.req]
  rw [h2 (str% "jsonrpc") (by decide), h2 (str% "method") (by decide), e1, e3]
  have e4 : Json.opt ([(str% "jsonrpc", .str (str% "2.0")), (str% "id", id), (str% "method", .str (str% "book"))] ++
      Json.entry (str% "params") params (fun ds => .arr (ds.map Wire.encDirective))) (str% "id") Wire.decId =
      some (some i) := by
    unfold Json.opt
    rw [h2 (str% "id") (by decide), e2]
    cases id <;> simp_all [Wire.decId]
  rw [e4]
  simp only [h1, Json.toStr]
  rfl

/-- C26: booking without parameters gives the same outcome as booking the parsed directives, sent back as they were
written by the server: the same booked directives, or corresponding reports. -/
theorem C26_same_booking (order order' : AMap Str (Account L) → AMap Str (Account L)) (hf : ∀ m, (order m).Perm m)
    (hf' : ∀ m, (order' m).Perm m) (src : E.Sources) (p : Parsed) (hs : AllSpans p.directives)
    (hd : ∀ d ∈ p.directives, DirectiveOk d) (id id' : Json) (i i' : Id) (hi : Wire.decId id = some i)
    (hi' : Wire.decId id' = some i') :
    SameBooking E p.directives
      (Server.dispatch E L order (.ready src (.ok p)) (bookLine id none))
      (Server.dispatch E L order' (.ready src (.ok p)) (bookLine id' (some p.directives))) := by
  obtain ⟨j, e1, e2⟩ := decRequest_bookLine hi (params := none) (by simp)
  obtain ⟨j', e1', e2'⟩ := decRequest_bookLine hi' (params := some p.directives) (by simpa using hd)
  rw [e1, e1']
  simp only [Server.dispatch, e2, e2', Server.answer, Server.healthy, Server.bookRequest]
  have hv : ¬ (str% "2.0" : Str) ≠ Server.jsonrpcVersion := by decide
  simp only [if_neg hv]
  have h := C16_order_independent L order order' hf hf' (Server.bookOptions p.options) p.directives
  simp only [Option.getD_none, Option.getD_some]
  cases h1 : book L order (Server.bookOptions p.options) p.directives <;>
    cases h2 : book L order' (Server.bookOptions p.options) p.directives <;>
    rw [h1, h2] at h <;> simp only [SameOutcome] at h
  case success.success out w out' w' =>
    obtain ⟨rfl, -⟩ := h
    exact Or.inr ⟨_, _, _, _, Or.inl ⟨out, rfl, rfl⟩⟩
  case panic.panic => exact Or.inl ⟨rfl, rfl⟩
  case failure.failure es es' =>
    have hp : es.Perm es' := by
      obtain ⟨a, b, b', rfl, rfl, hb, -⟩ := h
      exact hb.append_left a
    have hok : ∀ r ∈ es, ReportOk p.directives r := (C14_locations L order hf (Server.bookOptions p.options) p.directives).1 es h1
    obtain ⟨l, hl⟩ := resolveReports_some (E := E) hs hok
    simp only [Option.isNone_none, if_true, hl, Option.map_some]
    refine Or.inr ⟨_, _, _, _, Or.inr ⟨_, _, l, es', es, rfl, rfl, hp.symm, ?_⟩⟩
    · have := all_forall₂ hl
      clear hl h1 hp h
      induction this with
      | nil => exact .nil
      | cons ha _ ih => exact .cons (resolveReport_corresponds (hok _ (by simp)) ha) (ih fun r hr => hok r (by simp [hr]))

/-- A ledger with spans, whose booking fails at a posting: its account is not open. -/
def Ex.spanned : List Raw.Directive :=
  [{ Toy.mkOpen 1 Ex.bank with span := some ⟨0, 0, 10⟩ },
   { span := some ⟨0, 10, 30⟩, date := Toy.day 2, variant := .transaction { flag := str% "*", postings := [
      { span := some ⟨0, 20, 25⟩, acc := Ex.bank, units := some ⟨5, 0⟩, cur := some Ex.nzd },
      { span := some ⟨0, 25, 30⟩, acc := Ex.food, units := some ⟨-5, 0⟩, cur := some Ex.nzd }] } }]

example : AllSpans Ex.spanned ∧ (∀ d ∈ Ex.spanned, DirectiveOk d) ∧
    (match book Toy.lib id {} Ex.spanned with
      | .failure es => es.map (·.idx)
      | _ => []) = [{ directive := 1, posting := some 1 }] := by
  have pn : ∀ s : Str, Json.borrowable s = true → PlainName s := fun s => Wire.borrowable_iff.1
  refine ⟨?_, ?_, by decide +kernel⟩
  · simp only [AllSpans, Ex.spanned, List.forall_mem_cons]
    simp [Toy.mkOpen]
  · simp only [Ex.spanned, List.forall_mem_cons]
    refine ⟨⟨Wire.validDate_iff.1 (by decide), ⟨by simp [Toy.mkOpen], by simp [Toy.mkOpen], by simp [Toy.mkOpen]⟩,
      pn _ (by decide), by simp⟩, ⟨Wire.validDate_iff.1 (by decide),
      ⟨by simp, by simp, by simp⟩, ?_⟩, by simp⟩
    simp only [VariantOk, List.forall_mem_cons]
    refine ⟨⟨pn _ (by decide), ?_, by simp, by simp, ⟨by simp, by simp, by simp⟩⟩,
      ⟨pn _ (by decide), ?_, by simp, by simp, ⟨by simp, by simp, by simp⟩⟩, by simp⟩ <;>
    · intro c hc; cases hc; exact pn _ (by decide)

end Limabean
