/-
Running a plugin which makes directives, and the plugin auto_accounts in particular.
-/
import Verif.Clj.AutoPlugin
import Verif.Proofs.CheckedLemmas
import Verif.Props.C66
import Verif.Props.C68
import Verif.Props.C39

namespace Limabean

open Spec Clj

variable {E : Ext} {L : BookLib}

namespace Clj

/-! ### A single plugin runs, if what it makes passes the check -/

variable {hash : Nat → Nat} {valid : Data → Bool} {phase : Option Str}

/-- What holds while a single plugin runs: what it has received is known, identities to come are not. -/
structure Alone (hash : Nat → Nat) (n₀ : Nat) (A : List Nat) (w : World) : Prop where
  next : n₀ ≤ w.next
  known : ∀ h ∈ w.known, ∃ t, h = hash t ∧ (t ∈ A ∨ (n₀ ≤ t ∧ t < w.next))
  received : ∀ o ∈ w.received 0, (isErr o.data || w.known.contains (hash o.tok)) = true

theorem alone_feed {n₀ : Nat} {A : List Nat} (hinj : Function.Injective hash) (hA : ∀ t ∈ A, t < n₀) {tag : Data → Option Data}
    (xs : List Out) {w : World} (hw : Alone hash n₀ A w) {a : List Data}
    (ha : Json.all (passOn tag ((w.received 0).map Obj.data)) xs = some a) (hv : ∀ d ∈ a, valid d = true) :
    ∃ w', feed hash valid tag (w.received 0) (push hash valid phase 1 []) xs w = some w' ∧ Alone hash n₀ A w' ∧
      w'.received = w.received ∧ w'.out.map Obj.data = w.out.map Obj.data ++ a := by
  generalize hg : w.received 0 = got at ha ⊢
  induction xs generalizing w a with
  | nil => cases ha; exact ⟨w, rfl, hw, rfl, by simp⟩
  | cons x xs ih =>
    simp only [Json.all] at ha
    cases hx : passOn tag (got.map Obj.data) x with
    | none => rw [hx] at ha; cases ha
    | some y =>
      rw [hx] at ha
      cases hxs : Json.all (passOn tag (got.map Obj.data)) xs with
      | none => rw [hxs] at ha; cases ha
      | some ys =>
        rw [hxs] at ha
        cases ha
        obtain ⟨w₁, o, h1, h2, h3, h4, h5⟩ : ∃ w₁ o, ((outObj got w x).bind fun q => tagUnseen hash valid tag q.1 q.2) = some (w₁, o) ∧
            Alone hash n₀ A w₁ ∧ w₁.received = w.received ∧ w₁.out = w.out ∧ o.data = y := by
          cases x with
          | old i =>
            simp only [passOn, List.getElem?_map, Option.map_eq_some_iff] at hx
            obtain ⟨o, ho, rfl⟩ := hx
            have hk := hw.received o (by rw [hg]; exact List.mem_of_getElem? ho)
            refine ⟨w, o, ?_, hw, rfl, rfl, rfl⟩
            simp only [outObj, ho, Option.map_some, Option.bind_some, tagUnseen]
            exact if_pos hk
          | throws m => cases hx
          | new d =>
            have hfresh : w.known.contains (hash w.next) = false := by
              rw [Bool.eq_false_iff]
              intro hc
              obtain ⟨t, e, ht⟩ := hw.known _ (List.contains_iff_mem.1 hc)
              have e : w.next = t := hinj e
              have hn := hw.next
              rcases ht with ht | ht
              · have := hA t ht
                omega
              · omega
            have hw' : Alone hash n₀ A { w with next := w.next + 1 } :=
              ⟨Nat.le_succ_of_le hw.next, fun h hh => (hw.known h hh).imp fun t ht => ⟨ht.1, ht.2.imp id fun ht => ⟨ht.1, Nat.lt_succ_of_lt ht.2⟩⟩,
                hw.received⟩
            simp only [passOn] at hx
            split at hx
            · rename_i he
              refine ⟨{ w with next := w.next + 1 }, { tok := w.next, data := d }, ?_, hw', rfl, rfl, Option.some.inj hx⟩
              simp only [outObj, Option.bind_some, tagUnseen]
              exact if_pos (by rw [Bool.or_eq_true]; exact .inl he)
            · rename_i he
              have hval : valid y = true := hv y (by simp)
              refine ⟨{ w with next := w.next + 1 + 1, known := hash (w.next + 1) :: w.known }, { tok := w.next + 1, data := y }, ?_, ?_, rfl, rfl, rfl⟩
              · simp only [outObj, Option.bind_some, tagUnseen]
                rw [if_neg (by simp only [hfresh, Bool.or_false]; exact he), hx]
                simp only [hval, if_true]
              · refine ⟨by have := hw.next; simp only; omega, fun h hh => ?_, fun o ho => ?_⟩
                · rcases List.mem_cons.1 hh with rfl | hh
                  · exact ⟨w.next + 1, rfl, .inr ⟨by have := hw.next; omega, by simp⟩⟩
                  · obtain ⟨t, e, ht⟩ := hw.known h hh
                    exact ⟨t, e, ht.imp id fun ht => ⟨ht.1, by have := ht.2; simp only; omega⟩⟩
                · have := hw.received o ho
                  rw [Bool.or_eq_true] at this ⊢
                  exact this.imp id fun h => by simp only [List.contains_cons, h, Bool.or_true]
        have hw₂ : Alone hash n₀ A { w₁ with out := w₁.out ++ [o] } := ⟨h2.next, h2.known, h2.received⟩
        obtain ⟨w', g1, g2, g3, g4⟩ := ih (w := { w₁ with out := w₁.out ++ [o] }) hw₂ (fun d hd => hv d (by simp [hd])) (by rw [← hg, h3]) hxs
        refine ⟨w', ?_, g2, g3.trans h3, ?_⟩
        · simp only [feed, Option.bind_eq_bind]
          cases ho : outObj got w x with
          | none => rw [ho] at h1; cases h1
          | some q =>
            rw [ho] at h1
            simp only [Option.bind_some] at h1 ⊢
            rw [h1]
            exact g1
        · rw [g4, ← h5, h4]
          simp

theorem alone_pushAll {n₀ : Nat} {A : List Nat} (hinj : Function.Injective hash) (hA : ∀ t ∈ A, t < n₀) (p : Plugin) (os : List Obj)
    (hos : ∀ o ∈ os, o.tok < n₀) (hvalid : ∀ o ∈ os, valid o.data = true) {w : World} (hw : Alone hash n₀ A w) {a : List Data}
    (ha : steps p (provenanceTag p.name phase) ((w.received 0).map Obj.data) (os.map Obj.data) = some a) (hv : ∀ d ∈ a, valid d = true) :
    ∃ w' A', pushAll hash valid phase [p] os w = some w' ∧ (∀ t ∈ A', t < n₀) ∧ Alone hash n₀ A' w' ∧ w'.received 0 = w.received 0 ++ os ∧
      w'.out.map Obj.data = w.out.map Obj.data ++ a := by
  induction os generalizing w a A with
  | nil => cases ha; exact ⟨w, A, rfl, hA, hw, by simp, by simp⟩
  | cons o os ih =>
    simp only [List.map_cons, steps, Option.bind_eq_bind, Option.bind_eq_some_iff] at ha
    obtain ⟨b, hb, c, hc, e⟩ := ha
    cases e
    obtain ⟨w₁, h1, h2, h3, h4, h5⟩ : ∃ w₁, meetUnseen hash valid w o = some w₁ ∧ Alone hash n₀ (o.tok :: A) w₁ ∧ w₁.received = w.received ∧
        w₁.out = w.out ∧ (isErr o.data || w₁.known.contains (hash o.tok)) = true := by
      have hw' : Alone hash n₀ (o.tok :: A) w :=
        ⟨hw.next, fun h hh => (hw.known h hh).imp fun t ht => ⟨ht.1, ht.2.imp (List.mem_cons_of_mem _) id⟩, hw.received⟩
      unfold meetUnseen
      split
      · rename_i hk
        exact ⟨w, rfl, hw', rfl, rfl, hk⟩
      · rw [if_pos (hvalid o (by simp))]
        refine ⟨_, rfl, ⟨hw.next, fun h hh => ?_, fun x hx => ?_⟩, rfl, rfl, by simp⟩
        · rcases List.mem_cons.1 hh with rfl | hh
          · exact ⟨o.tok, rfl, .inl (by simp)⟩
          · exact hw'.known h hh
        · have := hw.received x hx
          rw [Bool.or_eq_true] at this ⊢
          exact this.imp id fun h => by simp only [List.contains_cons, h, Bool.or_true]
    have hA' : ∀ t ∈ o.tok :: A, t < n₀ := by
      intro t ht
      rcases List.mem_cons.1 ht with rfl | ht
      · exact hos o (by simp)
      · exact hA t ht
    have hr : (w₁.receive 0 o).received 0 = w.received 0 ++ [o] := by
      simp [World.receive, h3]
    have hw₂ : Alone hash n₀ (o.tok :: A) (w₁.receive 0 o) := by
      refine ⟨h2.next, h2.known, fun x hx => ?_⟩
      rw [hr] at hx
      rcases List.mem_append.1 hx with hx | hx
      · exact h2.received x (by rw [h3]; exact hx)
      · rw [List.mem_singleton.1 hx]
        exact h5
    obtain ⟨w₃, g1, g2, g3, g4⟩ := alone_feed (valid := valid) (phase := phase) hinj hA' (w := w₁.receive 0 o) (hw := hw₂) (tag := provenanceTag p.name phase) (a := b)
      (xs := p.step (((w₁.receive 0 o).received 0).map Obj.data)) (ha := by rw [hr]; simpa using hb) (hv := fun d hd => hv d (by simp [hd]))
    have hr3 : w₃.received 0 = w.received 0 ++ [o] := by rw [g3, hr]
    obtain ⟨w', A', k1, k2, k3, k4, k5⟩ := ih (A := o.tok :: A) hA' (fun x hx => hos x (by simp [hx])) (fun x hx => hvalid x (by simp [hx])) g2
      (a := c) (by rw [hr3]; simpa using hc) (fun d hd => hv d (by simp [hd]))
    refine ⟨w', A', ?_, k2, k3, ?_, ?_⟩
    · simp only [pushAll, Option.bind_eq_bind, h1, Option.bind_some]
      have : push hash valid phase 0 [p] w₁ o = some w₃ := g1
      rw [this]
      exact k1
    · rw [k4, hr3]
      simp
    · rw [k5, g4]
      show (w₁.out.map Obj.data ++ b) ++ c = _
      rw [h4]
      simp

/-- A single plugin runs: if what it receives and what it passes on satisfies the specification, then that is the result. -/
theorem runPlugins_alone (hinj : Function.Injective hash) (p : Plugin) (os : List Obj) {n₀ : Nat}
    (hos : ∀ o ∈ os, o.tok < n₀) (hvalid : ∀ o ∈ os, valid o.data = true) {a : List Data}
    (ha : through p (provenanceTag p.name phase) (os.map Obj.data) = some a) (hv : ∀ d ∈ a, valid d = true) :
    ∃ out, runPlugins hash valid phase [p] n₀ os = some out ∧ out.map Obj.data = a := by
  simp only [through, Option.bind_eq_bind, Option.bind_eq_some_iff] at ha
  obtain ⟨b, hb, c, hc, e⟩ := ha
  cases e
  have h0 : Alone hash n₀ [] { next := n₀, known := [], received := fun _ => [], out := [] } :=
    ⟨Nat.le_refl _, fun _ h => (by cases h), fun _ h => (by cases h)⟩
  obtain ⟨w, A, h1, h2, h3, h4, h5⟩ := alone_pushAll (valid := valid) (phase := phase) hinj (fun _ h => (by cases h)) p os hos hvalid h0 (a := b) hb
    (fun d hd => hv d (by simp [hd]))
  rw [List.nil_append] at h4
  obtain ⟨w', k1, -, -, k4⟩ := alone_feed (valid := valid) (phase := phase) hinj h2 (hw := h3) (tag := provenanceTag p.name phase) (a := c)
    (xs := p.finish ((w.received 0).map Obj.data)) (ha := by rw [h4]; exact hc) (hv := fun d hd => hv d (by simp [hd]))
  refine ⟨w'.out, ?_, ?_⟩
  · simp only [runPlugins, h1, complete, Option.bind_eq_bind, Option.bind_some, k1]
    rfl
  · rw [k4, h5]
    simp

/-! ### The plugin auto_accounts -/

/-- A directive which the plugin of this name has made, and the front end has marked. -/
def markedOpen (name : Str) (date : Date) (acc : Str) : Data :=
  .map [(str% "dct", .kw (str% "open")), (str% "date", .date date), (str% "acc", .str acc), (str% "metadata", .map [(str% "auto", .nil)]),
    (str% "provenance", .vec [.str name])]

/-- The directive before synthetic spans are added. -/
def Marked₀ (ord : List Data → List Data) (name : Str) (d : Raw.Directive) (x : Data) : Prop :=
  x = ofDirective ord (withoutLostMeta d) ∨ ∃ date acc, d = autoOpen date acc ∧ x = markedOpen name date acc

theorem autoOpen_tag (name : Str) (date : Date) (acc : Str) :
    provenanceTag name none (autoOpenData (.date date) acc) = some (markedOpen name date acc) := rfl

theorem dct_ofDirective (ord : List Data → List Data) (d : Raw.Directive) :
    (ofDirective ord d).get (str% "dct") = match d.variant with
      | .transaction _ => .kw (str% "txn")
      | .price _ => .kw (str% "price")
      | .balance _ => .kw (str% "balance")
      | .opn _ => .kw (str% "open")
      | .close _ => .kw (str% "close")
      | .commodity _ => .kw (str% "commodity")
      | .pad _ => .kw (str% "pad")
      | .document _ => .kw (str% "document")
      | .note _ => .kw (str% "note")
      | .event _ => .kw (str% "event")
      | .query _ => .kw (str% "query")
      | .custom _ => .kw (str% "custom") := by
  unfold ofDirective
  cases d.variant <;> simp [Data.get, ofVariant, get_append, get_optEntry, AMap.get]

theorem date_ofDirective (ord : List Data → List Data) (d : Raw.Directive) : (ofDirective ord d).get (str% "date") = .date d.date := by
  unfold ofDirective
  simp [Data.get, get_append, get_optEntry, AMap.get]

theorem acc_open (ord : List Data → List Data) {d : Raw.Directive} {o : Raw.Open} (h : d.variant = .opn o) :
    (ofDirective ord d).get (str% "acc") = .str o.acc := by
  unfold ofDirective
  simp [Data.get, ofVariant, h, get_append, get_optEntry, AMap.get]

theorem postings_txn (ord : List Data → List Data) {d : Raw.Directive} {t : Raw.Transaction} (h : d.variant = .transaction t) :
    (ofDirective ord d).get (str% "postings") = .vec (t.postings.map (ofPosting ord)) := by
  unfold ofDirective
  simp [Data.get, ofVariant, h, get_append, get_optEntry, AMap.get]

theorem acc_posting (ord : List Data → List Data) (p : Raw.PostingSpec) : (ofPosting ord p).get (str% "acc") = .str p.acc := by
  unfold ofPosting
  simp [Data.get, get_append, get_optEntry, AMap.get]

/-- The plugin's step on a directive as the client has read it. -/
theorem auto_step (ord : List Data → List Data) (s : List Str) (r : List Raw.Directive) (d : Raw.Directive) :
    autoStep .inPlace (s, r) d = (openedAfter s (ofDirective ord (withoutLostMeta d)),
      r ++ ((newAccountsOf s (ofDirective ord (withoutLostMeta d))).map (autoOpen d.date) ++ [d])) := by
  unfold openedAfter newAccountsOf
  rw [dct_ofDirective]
  unfold autoStep
  cases hv : d.variant with
  | opn o =>
    have hv' : (withoutLostMeta d).variant = .opn o := by simp [withoutLostMeta, hv]
    simp [hv', isKw, acc_open ord hv', strings]
  | transaction t =>
    have hv' : (withoutLostMeta d).variant = .transaction { t with postings := t.postings.map fun p => { p with metadata := withoutLost p.metadata } } := by
      simp [withoutLostMeta, hv]
    have e : ((t.postings.map fun p => { p with metadata := withoutLost p.metadata }).map (ofPosting ord)).flatMap
        (fun p => strings (p.get (str% "acc"))) = t.postings.map (·.acc) := by
      rw [List.map_map, List.flatMap_map]
      induction t.postings with
      | nil => rfl
      | cons p ps ih =>
        rw [List.flatMap_cons, ih, Function.comp, acc_posting]
        rfl
    simp only [hv', isKw, postings_txn ord hv', Data.elems, e, newAccounts]
    simp
  | _ => simp [withoutLostMeta, hv, isKw]

theorem auto_run (ord : List Data → List Data) (tag : Data → Option Data) (name : Str) (ht : tag = provenanceTag name none) (pl : Plugin)
    (hpl : pl.step = autoPlugin.step) (ds : List Raw.Directive) (pre : List Data) (r : List Raw.Directive) :
    ∃ ys zs, steps pl tag pre (ds.map fun d => ofDirective ord (withoutLostMeta d)) = some ys ∧
      (ds.foldl (autoStep .inPlace) (openedBy pre, r)).2 = r ++ zs ∧ List.Forall₂ (Marked₀ ord name) zs ys := by
  induction ds generalizing pre r with
  | nil => exact ⟨[], [], rfl, by simp, .nil⟩
  | cons d ds ih =>
    obtain ⟨ys, zs, h1, h2, h3⟩ := ih (pre ++ [ofDirective ord (withoutLostMeta d)])
      (r ++ ((newAccountsOf (openedBy pre) (ofDirective ord (withoutLostMeta d))).map (autoOpen d.date) ++ [d]))
    have hs : pl.step (pre ++ [ofDirective ord (withoutLostMeta d)]) =
        ((newAccountsOf (openedBy pre) (ofDirective ord (withoutLostMeta d))).map fun a => .new (autoOpenData (.date d.date) a)) ++
          [.old pre.length] := by
      rw [hpl]
      simp [autoPlugin, date_ofDirective, withoutLostMeta]
    have ha : ∀ l : List Str, Json.all (passOn tag (pre ++ [ofDirective ord (withoutLostMeta d)]))
        ((l.map fun a => .new (autoOpenData (.date d.date) a)) ++ [.old pre.length]) =
          some (l.map (markedOpen name d.date) ++ [ofDirective ord (withoutLostMeta d)]) := by
      intro l
      induction l with
      | nil => simp [Json.all, passOn]
      | cons a l ih =>
        simp only [List.map_cons, List.cons_append, Json.all, ih]
        have : passOn tag (pre ++ [ofDirective ord (withoutLostMeta d)]) (.new (autoOpenData (.date d.date) a)) =
            some (markedOpen name d.date a) := by
          subst ht
          rfl
        rw [this]
    have hmid : List.Forall₂ (Marked₀ ord name)
        ((newAccountsOf (openedBy pre) (ofDirective ord (withoutLostMeta d))).map (autoOpen d.date) ++ [d])
        ((newAccountsOf (openedBy pre) (ofDirective ord (withoutLostMeta d))).map (markedOpen name d.date) ++ [ofDirective ord (withoutLostMeta d)]) := by
      refine List.rel_append ?_ (.cons (.inl rfl) .nil)
      simp only [List.forall₂_map_left_iff, List.forall₂_map_right_iff]
      exact List.forall₂_same.2 fun a _ => .inr ⟨d.date, a, rfl, rfl⟩
    refine ⟨_, _, ?_, ?_, List.rel_append hmid h3⟩
    · simp only [List.map_cons, steps, hs, ha, h1, Option.bind_eq_bind, Option.bind_some]
      rfl
    · rw [List.foldl_cons, auto_step ord]
      have : openedAfter (openedBy pre) (ofDirective ord (withoutLostMeta d)) = openedBy (pre ++ [ofDirective ord (withoutLostMeta d)]) := by
        simp [openedBy]
      rw [this, h2]
      simp

/-- What the plugin makes of the directives. -/
theorem auto_through (ord : List Data → List Data) (name : Str) (ds : List Raw.Directive) :
    ∃ ys, through { autoPlugin with name := name } (provenanceTag name none) (ds.map fun d => ofDirective ord (withoutLostMeta d)) = some ys ∧
      List.Forall₂ (Marked₀ ord name) (autoAccounts .inPlace ds) ys := by
  obtain ⟨ys, zs, h1, h2, h3⟩ := auto_run ord _ name rfl { autoPlugin with name := name } rfl ds [] []
  refine ⟨ys, ?_, ?_⟩
  · unfold through
    rw [h1]
    simp [autoPlugin, Json.all]
  · unfold autoAccounts
    have : openedBy [] = [] := rfl
    rw [this] at h2
    rw [h2]
    exact h3

/-- A directive as the front end sends it for booking: as it was read, or made by the plugin of this name, with a synthetic span. -/
def Sent (ord : List Data → List Data) (name : Str) (d : Raw.Directive) (x : Data) : Prop :=
  x = ofDirective ord (withoutLostMeta d) ∨
    ∃ date acc sp, d = autoOpen date acc ∧ x = (markedOpen name date acc).assoc (str% "span-p") (ofSpan sp)

theorem createSpans_length (src : E.Sources) (rs : List SyntheticSpan) : (Server.createSpans src rs).2.length = rs.length := by
  induction rs generalizing src with
  | nil => rfl
  | cons r rs ih => simp only [Server.createSpans, List.length_cons, ih]

/-- Each directive which the plugin has made needs a span. -/
theorem auto_requests {ord : List Data → List Data} {name : Str} (T : Texts) (txt : Data → Str) {ds : List Raw.Directive} {l : List Data}
    (h : List.Forall₂ (Marked₀ ord name) ds l) :
    (spanRequests T txt l).length = (l.filter fun d => (d.get (str% "provenance")).truthy).length := by
  unfold spanRequests
  induction h with
  | nil => rfl
  | @cons d x ds l hd _ ih =>
    rcases hd with rfl | ⟨date, acc, rfl, rfl⟩
    · have e : ((ofDirective ord (withoutLostMeta d)).get (str% "provenance")).truthy = false := by rw [noProvenance_ofDirective]; rfl
      simp only [List.filter_cons, e, Bool.false_eq_true, if_false, ih]
    · have e : ((markedOpen name date acc).get (str% "provenance")).truthy = true := rfl
      have e' : elementTexts T (markedOpen name date acc) = [T.directive (markedOpen name date acc)] := rfl
      simp only [List.filter_cons, e, if_true, List.flatMap_cons, List.length_append, ih, e', List.map_cons, List.map_nil, List.length_cons,
        List.length_nil]
      omega

theorem auto_mapN {ord : List Data → List Data} {name : Str} {ds : List Raw.Directive} {l : List Data}
    (h : List.Forall₂ (Marked₀ ord name) ds l) (spans : List Span)
    (hs : spans.length = (l.filter fun d => (d.get (str% "provenance")).truthy).length) :
    List.Forall₂ (Sent ord name) ds (mapN l (spans.map ofSpan)) := by
  induction h generalizing spans with
  | nil => exact .nil
  | @cons d x ds l hd _ ih =>
    rcases hd with rfl | ⟨date, acc, rfl, rfl⟩
    · have e : ((ofDirective ord (withoutLostMeta d)).get (str% "provenance")).truthy = false := by rw [noProvenance_ofDirective]; rfl
      simp only [List.filter_cons, e, Bool.false_eq_true, if_false] at hs
      unfold mapN
      rw [if_pos (by simp [nSpans, e])]
      exact .cons (.inl rfl) (ih spans hs)
    · have e : ((markedOpen name date acc).get (str% "provenance")).truthy = true := rfl
      simp only [List.filter_cons, e, if_true, List.length_cons] at hs
      cases spans with
      | nil => simp at hs
      | cons sp spans =>
        have hn : nSpans (markedOpen name date acc) = 1 := rfl
        unfold mapN
        rw [if_neg (by rw [hn]; omega), hn]
        exact .cons (.inr ⟨date, acc, sp, rfl, rfl⟩) (ih spans (by simpa using hs))

/-- What the plugin passes on is there before, or made for an account which a transaction uses. -/
theorem auto_member {ds : List Raw.Directive} {d : Raw.Directive} (h : d ∈ autoAccounts .inPlace ds) :
    d ∈ ds ∨ ∃ e ∈ ds, ∃ a, Uses a e ∧ d = autoOpen e.date a := by
  have hc := C39_completed ds
  generalize autoAccounts .inPlace ds = out at hc h
  induction hc with
  | nil => cases h
  | @snoc ds out e g _ hg ih =>
    rw [List.append_assoc, List.mem_append, List.mem_append] at h
    rcases h with h | h | h
    · rcases ih h with h | ⟨x, hx, a, hu, rfl⟩
      · exact .inl (by simp [h])
      · exact .inr ⟨x, by simp [hx], a, hu, rfl⟩
    · obtain ⟨a, ha, rfl⟩ := List.mem_map.1 h
      exact .inr ⟨e, by simp, a, ((hg.mem a).1 ha).1, rfl⟩
    · rw [List.mem_singleton] at h
      exact .inl (by simp [h])

theorem valid_markedOpen (name : Str) (date : Date) (acc : Str) : validDct true (markedOpen name date acc) = true := rfl

/-- The front end has run the plugin; the server has made the spans. -/
theorem auto_transformed (F : Front E L) (hinj : Function.Injective F.hash) (ho : IsMapOrder F.ordm) (hs : IsOrder F.ord) (hv : F.valid = validDct)
    (name : Str) {n : Nat} (hn : n < 2147483647) (src : E.Sources) (parsed : Except (List ParserError) Parsed) {ds : List Raw.Directive}
    (hd : ∀ d ∈ ds, NumbersFit (withoutLostMeta d)) :
    ∃ n' src' xs, n' ≤ n + 1 ∧
      transformed F true [{ autoPlugin with name := name }] (ready n src parsed) (ds.map fun d => ofDirective F.ord (withoutLostMeta d)) =
        (ready n' src' parsed, some xs) ∧
      List.Forall₂ (Sent F.ord name) (autoAccounts .inPlace ds) xs := by
  obtain ⟨l, h1, h2⟩ := auto_through F.ord name ds
  have hl : ∀ x ∈ ds.map fun d => ofDirective F.ord (withoutLostMeta d), F.valid true x = true := by
    intro x hx
    obtain ⟨d, hdm, rfl⟩ := List.mem_map.1 hx
    rw [hv]
    exact (valid_raw hs _).2 (hd d hdm)
  have hl' : ∀ x ∈ l, F.valid true x = true := by
    intro x hx
    obtain ⟨d, hdm, hdx⟩ := forall₂_right h2 hx
    rcases hdx with rfl | ⟨date, acc, rfl, rfl⟩
    · rcases auto_member hdm with h | ⟨e, -, acc, -, rfl⟩
      · exact hl _ (List.mem_map_of_mem h)
      · rw [hv]
        refine (valid_raw hs _).2 ⟨?_, ?_⟩ <;>
          simp [withoutLostMeta, autoOpen, withoutLost, metadataNumbers, metaNumbers, variantNumbers, toleranceOf]
    · rw [hv]
      rfl
  generalize hxs : (ds.map fun d => ofDirective F.ord (withoutLostMeta d)) = xs at h1 hl ⊢
  obtain ⟨out, h3, h4⟩ := runPlugins_alone (hash := F.hash) (valid := F.valid true) (phase := none) hinj { autoPlugin with name := name } (objects xs)
    (objects_tok xs) (by
      intro o ho
      refine hl _ ?_
      have := List.mem_map_of_mem (f := Obj.data) ho
      rwa [objects_data] at this) (a := l) (by rw [objects_data]; exact h1) hl'
  unfold transformed
  simp only [if_true, h3, h4]
  unfold mergeWithPod mergeWithProvenance createWithProvenance
  by_cases hq : (spanRequests F.texts F.txt l).isEmpty = true
  · refine ⟨n, src, l, by omega, by simp only [hq, if_true, Option.map_some, List.isEmpty_nil], ?_⟩
    have hc := auto_requests F.texts F.txt h2
    rw [List.isEmpty_iff] at hq
    rw [hq] at hc
    have hm := auto_mapN h2 [] hc
    have : ∀ l : List Data, (∀ d ∈ l, (d.get (str% "provenance")).truthy = false) → mapN l [] = l := by
      intro l hl
      induction l with
      | nil => rfl
      | cons d l ih =>
        unfold mapN
        rw [if_pos (by simp [nSpans, hl d (by simp)]), ih fun x hx => hl x (by simp [hx])]
    rwa [List.map_nil, this l (by
      intro d hdl
      have := List.filter_eq_nil_iff.1 (List.eq_nil_of_length_eq_zero hc.symm) d hdl
      simpa using this)] at hm
  · unfold ready
    simp only [createSpans_ok F ho hn, hq, Bool.false_eq_true, if_false, Option.map_some]
    refine ⟨n + 1, _, _, by omega, rfl, ?_⟩
    have hlen := createSpans_length src (spanRequests F.texts F.txt l)
    have hne : ((Server.createSpans src (spanRequests F.texts F.txt l)).2.map ofSpan).isEmpty = false := by
      rw [Bool.eq_false_iff]
      intro h
      apply hq
      rw [List.isEmpty_iff, List.map_eq_nil_iff] at h
      rw [h] at hlen
      rw [List.isEmpty_iff]
      exact List.eq_nil_of_length_eq_zero hlen.symm
    simp only [hne, Bool.false_eq_true, if_false]
    exact auto_mapN h2 _ (hlen.trans (auto_requests F.texts F.txt h2))

/-! ### Sending what the plugin made -/

theorem auto_ok {ds : List Raw.Directive} (hd : ∀ d ∈ ds, DirectiveOk d) {d : Raw.Directive} (h : d ∈ autoAccounts .inPlace ds) :
    DirectiveOk d := by
  rcases auto_member h with h | ⟨e, he, a, ⟨t, hv, p, hp, rfl⟩, rfl⟩
  · exact hd d h
  · have hk := hd e he
    have hvar := hk.variant
    rw [hv] at hvar
    refine ⟨hk.date, ⟨fun l h => (by cases h), fun l h => (by cases h), fun l h => ?_⟩, (hvar p hp).acc, fun l h => (by cases h)⟩
    cases h
    refine ⟨by simp, fun kv h => ?_⟩
    rw [List.mem_singleton] at h
    subst h
    exact ⟨Wire.borrowable_iff.1 (by decide +kernel), trivial⟩

theorem sent_open {ordm : List (Str × Json) → List (Str × Json)} (ho : IsMapOrder ordm) {name : Str} {date : Date} {acc : Str} (sp : Span)
    (hd : CalendarDate date) (ha : PlainName acc) :
    ∃ e, Wire.decDirective (toJson ordm ((markedOpen name date acc).assoc (str% "span-p") (ofSpan sp))) = some e ∧
      DirectiveLike .reread (autoOpen date acc) e := by
  have hx : (markedOpen name date acc).assoc (str% "span-p") (ofSpan sp) = .map [(str% "dct", .kw (str% "open")), (str% "date", .date date),
    (str% "acc", .str acc), (str% "metadata", .map [(str% "auto", .nil)]), (str% "provenance", .vec [.str name]), (str% "span-p", ofSpan sp)] := rfl
  rw [hx]
  generalize hy : (Data.map [(str% "dct", .kw (str% "open")), (str% "date", .date date),
    (str% "acc", .str acc), (str% "metadata", .map [(str% "auto", .nil)]), (str% "provenance", .vec [.str name]), (str% "span-p", ofSpan sp)]) = x
  have hreal : RealData x := by
    subst hy
    refine .map (by simp only [List.map_cons, List.map_nil]; decide) fun p hp => ?_
    simp only [List.mem_cons, List.not_mem_nil, or_false] at hp
    rcases hp with rfl | rfl | rfl | rfl | rfl | rfl
    · exact .kw _
    · exact .date hd
    · exact .str _
    · refine .map (by decide) fun p hp => ?_
      rw [List.mem_singleton] at hp
      subst hp
      exact .nil
    · refine .vec fun y hy => ?_
      rw [List.mem_singleton] at hy
      subst hy
      exact .str _
    · refine .vec fun y hy => ?_
      simp only [List.mem_cons, List.not_mem_nil, or_false] at hy
      rcases hy with rfl | rfl | rfl <;> exact .num _
  have hv : validDct true x = true := by subst hy; rfl
  have hsp : SpansKept x := by
    subst hy
    exact ⟨.inl rfl, fun p hp => by cases hp⟩
  have hsend : SendDirective x := by
    subst hy
    refine ⟨⟨fun y hy => (by cases hy), fun y hy => (by cases hy), fun l hl p hp => ?_⟩, str% "open", rfl, ?_⟩
    · have hl : Data.map [(str% "auto", .nil)] = .map l := hl
      cases hl
      rw [List.mem_singleton] at hp
      subst hp
      exact ⟨Wire.borrowable_iff.1 (by decide +kernel), fun k _ s h => (by cases h), fun n h => (by cases h)⟩
    · refine ⟨fun k hk s h => ?_, fun h => ?_, fun h => ?_, fun _ y hy => ?_, fun h => ?_⟩
      · have : k = str% "acc" := by simpa [namesOfKind] using hk
        subst this
        have h : Data.str acc = .str s := h
        cases h
        exact ha
      · exact absurd h (by decide)
      · exact absurd h (by decide)
      · cases hy
      · exact absurd h (by decide)
  obtain ⟨e, he⟩ := (C68_accepted_partial ho hreal hsp hv).2 hsend
  refine ⟨e, he, ?_⟩
  have hi := C68_understood_partial ho hreal hsp hv he
  have hset : ∀ o : Option (List Str), Maybe SetIs .nil o → o = none := by
    intro o h
    cases o with
    | none => rfl
    | some l => obtain ⟨_, h, -⟩ := h; cases h
  subst hy
  have h1 : e.date = date := by
    have := hi.date
    have : Data.date date = .date e.date := this
    cases this
    rfl
  have h2 : e.tags = none := hset _ hi.attached.tags
  have h3 : e.links = none := hset _ hi.attached.links
  have h4 : e.metadata = some [(str% "auto", .null)] := by
    have hm : Maybe MetadataIs (.map [(str% "auto", .nil)]) e.metadata := hi.attached.metadata
    cases hmd : e.metadata with
    | none => rw [hmd] at hm; cases hm
    | some l =>
      rw [hmd] at hm
      obtain ⟨xs, hxs, hn, hk, hval⟩ := hm
      cases hxs
      have hkeys : l.map Prod.fst = [str% "auto"] := by
        have hmem : ∀ k, k ∈ l.map Prod.fst ↔ k = str% "auto" := by simpa using hk
        have hp : (l.map Prod.fst).Perm [str% "auto"] := by
          rw [List.perm_ext_iff_of_nodup hn (by simp)]
          simpa using hmem
        exact List.perm_singleton.1 hp
      match l, hkeys with
      | [(k, m)], hkeys =>
        simp only [List.map_cons, List.map_nil, List.cons.injEq, and_true] at hkeys
        subst hkeys
        have := hval _ .nil m (List.mem_singleton.2 rfl) (List.mem_singleton.2 rfl)
        cases m with
        | null => rfl
        | amount u c => cases this.1
        | _ => cases this
  have h5 : e.variant = .opn { acc := acc } := by
    have hvar := hi.variant
    cases hvv : e.variant with
    | opn o =>
      rw [hvv] at hvar
      obtain ⟨-, g1, g2, g3⟩ := hvar
      have g1 : Data.str acc = .str o.acc := g1
      have g2 := hset _ g2
      have g3 : o.booking = none := by
        cases hb : o.booking with
        | none => rfl
        | some b => rw [hb] at g3; cases g3
      cases g1
      cases o
      simp_all
    | _ =>
      rw [hvv] at hvar
      have := hvar.1
      cases this
  refine ⟨h1.symm, ?_, ?_, ?_, ?_⟩
  · rw [h2]; trivial
  · rw [h3]; trivial
  · rw [h4]; exact List.Perm.refl _
  · rw [h5]; exact ⟨trivial, rfl⟩

/-- The server understands what the front end sends: the directives with those which the plugin added. -/
theorem auto_sent {ord : List Data → List Data} (hs : IsOrder ord) {ordm : List (Str × Json) → List (Str × Json)} (ho : IsMapOrder ordm)
    {name : Str} {ds : List Raw.Directive} (hd : ∀ d ∈ ds, DirectiveOk d) {xs : List Data} (h : List.Forall₂ (Sent ord name) ds xs) :
    ∃ es, Json.all Wire.decDirective (xs.map (toJson ordm)) = some es ∧ List.Forall₂ (DirectiveLike .reread) ds es := by
  induction h with
  | nil => exact ⟨[], rfl, .nil⟩
  | @cons d x ds xs hx _ ih =>
    obtain ⟨es, h1, h2⟩ := ih fun d h => hd d (by simp [h])
    have hk := hd d (by simp)
    obtain ⟨e, h3, h4⟩ : ∃ e, Wire.decDirective (toJson ordm x) = some e ∧ DirectiveLike .reread d e := by
      rcases hx with rfl | ⟨date, acc, sp, rfl, rfl⟩
      · have h3 := directiveOk_withoutLost hk
        exact ⟨_, decDirective_sent hs ho h3, like_reread (directiveBack_same hs ho h3)⟩
      · exact sent_open ho sp hk.date hk.variant.1
    exact ⟨e :: es, by simp only [List.map_cons, Json.all, h3, h1], .cons h4 h2⟩

end Clj
end Limabean
