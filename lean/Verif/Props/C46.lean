/-
C46: synthetic spans land on the elements they were created from.

False if a directive which is no transaction has postings, as after a plugin has changed the kind of a transaction: then spans shift to
other elements (`C46_false`). Holds otherwise (`C46_partial`).
-/
import Verif.Clj.Spans
import Verif.Props.C28
import Verif.Props.C42

namespace Limabean

open Spec Clj

/-- `r` is `d` with a synthetic span which was made for the text `s`. -/
structure Spec.Marked (Made : Str → Data → Prop) (s : Str) (d r : Data) : Prop where
  span : Made s (r.get (str% "span-p"))
  kept : ∀ k, k ≠ str% "span-p" → k ≠ str% "postings" → r.get k = d.get k

/-- What a directive with provenance becomes: it is marked for its text, or, if it is a transaction, for its header, and its postings
are marked one by one for theirs. -/
structure Spec.MarkedDirective (T : Texts) (Made : Str → Data → Prop) (d r : Data) : Prop where
  other : isKw (d.get (str% "dct")) (str% "txn") = false → Marked Made (T.directive d) d r ∧ r.get (str% "postings") = d.get (str% "postings")
  txn : isKw (d.get (str% "dct")) (str% "txn") = true → Marked Made (T.header d) d r ∧
    ∀ ps, d.get (str% "postings") = .vec ps → ∃ qs, r.get (str% "postings") = .vec qs ∧
      List.Forall₂ (fun p q => Marked Made (T.posting p) p q ∧ q.get (str% "postings") = p.get (str% "postings")) ps qs

/-- A directive as plugins may produce it: a map; its postings, if any, are a vector of maps; only transactions have postings. -/
structure Spec.Shaped (d : Data) : Prop where
  isMap : IsMap d
  postings : d.get (str% "postings") = .nil ∨ ∃ ps, d.get (str% "postings") = .vec ps ∧ ∀ p ∈ ps, IsMap p
  onlyTxn : isKw (d.get (str% "dct")) (str% "txn") = false → d.get (str% "postings") = .nil

namespace Clj

theorem marked_assoc {Made : Str → Data → Prop} {s : Str} {d x : Data} (hd : IsMap d) (h : Made s x) :
    Marked Made s d (d.assoc (str% "span-p") x) ∧ (d.assoc (str% "span-p") x).get (str% "postings") = d.get (str% "postings") := by
  refine ⟨⟨?_, fun k h1 _ => ?_⟩, ?_⟩
  · rw [get_assoc hd, if_pos rfl]
    exact h
  · rw [get_assoc hd, if_neg h1]
  · rw [get_assoc hd, if_neg (by decide)]

theorem zipWith_marked {Made : Str → Data → Prop} {f : Data → Str} {ps ss : List Data} (hp : ∀ p ∈ ps, IsMap p)
    (h : List.Forall₂ Made (ps.map f) ss) :
    List.Forall₂ (fun p q => Marked Made (f p) p q ∧ q.get (str% "postings") = p.get (str% "postings")) ps
      (List.zipWith (fun p s => p.assoc (str% "span-p") s) ps ss) := by
  induction ps generalizing ss with
  | nil => simp
  | cons p ps ih =>
    cases h with
    | cons h h' => exact .cons (marked_assoc (hp p (by simp)) h) (ih (fun q hq => hp q (by simp [hq])) h')

theorem elementTexts_length (T : Texts) {d : Data} (h : Shaped d) (hp : (d.get (str% "provenance")).truthy = true) :
    (elementTexts T d).length = nSpans d := by
  unfold elementTexts nSpans
  rw [if_pos hp]
  cases hk : isKw (d.get (str% "dct")) (str% "txn") with
  | true => simp
  | false => simp [h.onlyTxn hk, Data.elems]

theorem mergeSpans_marked (T : Texts) {Made : Str → Data → Prop} {d : Data} (h : Shaped d) {ss : List Data}
    (hs : List.Forall₂ Made (elementTexts T d) ss) : MarkedDirective T Made d (mergeSpans d ss) := by
  unfold elementTexts at hs
  constructor
  · intro hk
    rw [if_neg (by simp [hk])] at hs
    cases hs with
    | cons h1 h2 =>
      cases h2
      exact marked_assoc h.isMap h1
  · intro hk
    rw [if_pos hk] at hs
    cases hs with
    | cons h1 h2 =>
      rename_i x ss
      obtain ⟨m, mp⟩ := marked_assoc h.isMap h1
      have e : mergeSpans d (x :: ss) = if ss.isEmpty then d.assoc (str% "span-p") x
        else (d.assoc (str% "span-p") x).assoc (str% "postings")
          (.vec (List.zipWith (fun p s => p.assoc (str% "span-p") s) (d.get (str% "postings")).elems ss)) := rfl
      rw [e]
      split
      · rename_i hn
        refine ⟨m, fun ps hps => ⟨ps, mp.trans hps, ?_⟩⟩
        rw [hps] at h2
        rw [List.isEmpty_iff] at hn
        subst hn
        have : ps = [] := by
          simp only [Data.elems] at h2
          cases ps with
          | nil => rfl
          | cons => cases h2
        subst this
        exact .nil
      · have hm := isMap_assoc h.isMap (str% "span-p") x
        refine ⟨⟨?_, fun k k1 k2 => ?_⟩, fun ps hps =>
          ⟨List.zipWith (fun p s => p.assoc (str% "span-p") s) ps ss, ?_, ?_⟩⟩
        · rw [get_assoc hm, if_neg (by decide)]
          exact m.span
        · rw [get_assoc hm, if_neg k2]
          exact m.kept k k1 k2
        · rw [get_assoc hm, if_pos rfl, hps]
          rfl
        · rw [hps] at h2
          rcases h.postings with hn | ⟨ps', h3, h4⟩
          · rw [hn] at hps; cases hps
          · rw [h3] at hps
            cases hps
            exact zipWith_marked h4 h2

theorem forall₂_append {α β : Type} {R : α → β → Prop} {a b : List α} {c : List β} (h : List.Forall₂ R (a ++ b) c) :
    List.Forall₂ R a (c.take a.length) ∧ List.Forall₂ R b (c.drop a.length) := by
  induction a generalizing c with
  | nil => exact ⟨by simp, by simpa using h⟩
  | cons x a ih =>
    cases h with
    | cons h1 h2 =>
      obtain ⟨i, j⟩ := ih h2
      exact ⟨.cons h1 i, j⟩

/-- The texts for which spans are requested. -/
def requestTexts (T : Texts) (ds : List Data) : List Str :=
  (ds.filter fun d => (d.get (str% "provenance")).truthy).flatMap (elementTexts T)

theorem mapN_marked (T : Texts) {Made : Str → Data → Prop} {ds : List Data} (hd : ∀ d ∈ ds, Shaped d) {ss : List Data}
    (hs : List.Forall₂ Made (requestTexts T ds) ss) : List.Forall₂ (fun d r =>
      ((d.get (str% "provenance")).truthy = false → r = d) ∧
      ((d.get (str% "provenance")).truthy = true → MarkedDirective T Made d r)) ds (mapN ds ss) := by
  induction ds generalizing ss with
  | nil => exact .nil
  | cons d ds ih =>
    unfold mapN
    cases hp : (d.get (str% "provenance")).truthy with
    | false =>
      have : nSpans d = 0 := by simp [nSpans, hp]
      rw [if_pos this]
      refine .cons ⟨fun _ => rfl, fun h => (by rw [hp] at h; cases h)⟩ (ih (fun x hx => hd x (by simp [hx])) ?_)
      simpa [requestTexts, hp] using hs
    | true =>
      have hn : nSpans d ≠ 0 := by simp [nSpans, hp]
      rw [if_neg hn]
      have he : requestTexts T (d :: ds) = elementTexts T d ++ requestTexts T ds := by simp [requestTexts, hp]
      rw [he] at hs
      obtain ⟨h1, h2⟩ := forall₂_append hs
      rw [elementTexts_length T (hd d (by simp)) hp] at h1 h2
      exact .cons ⟨fun h => (by rw [hp] at h; cases h), fun _ => mergeSpans_marked T (hd d (by simp)) h1⟩
        (ih (fun x hx => hd x (by simp [hx])) h2)

theorem forall₂_of_map_left {α β γ : Type} {R : α → γ → Prop} {f : α → β} {S : β → γ → Prop} {l : List α} {l' : List γ}
    (h : List.Forall₂ R l l') (hs : ∀ a c, R a c → S (f a) c) : List.Forall₂ S (l.map f) l' := by
  induction h with
  | nil => exact .nil
  | cons h _ ih => exact .cons (hs _ _ h) ih

theorem requestTexts_eq (T : Texts) (txt : Data → Str) (ds : List Data) :
    (spanRequests T txt ds).map (·.content) = requestTexts T ds := by
  unfold spanRequests requestTexts
  rw [List.map_flatMap]
  congr 1
  funext d
  rw [List.map_map]
  conv_rhs => rw [← List.map_id (elementTexts T d)]
  rfl

end Clj

/-- C46, if only transactions have postings: when the server answers the requests in order, the directives without provenance are
untouched, and those with provenance, and their postings, have the spans which were made for their own texts. `Made s x` says that the span
`x` was made for the text `s`. Missing: directives of other kinds with postings, for which it is false (`C46_false`). -/
theorem C46_partial (T : Texts) (txt : Data → Str) {Made : Str → Data → Prop} {create : List SyntheticSpan → Option (List Data)}
    {ds : List Data} (hd : ∀ d ∈ ds, Shaped d)
    (hc : ∀ ss, create (spanRequests T txt ds) = some ss → List.Forall₂ (fun q s => Made q.content s) (spanRequests T txt ds) ss)
    {out : List Data} (h : mergeWithProvenance T txt create ds = some out) :
    List.Forall₂ (fun d r => ((d.get (str% "provenance")).truthy = false → r = d) ∧
      ((d.get (str% "provenance")).truthy = true → MarkedDirective T Made d r)) ds out := by
  unfold mergeWithProvenance createWithProvenance at h
  split at h
  · rename_i he
    cases h
    rw [List.isEmpty_iff] at he
    have hnone : ∀ d ∈ ds, (d.get (str% "provenance")).truthy = false := by
      intro d hd
      by_contra hp
      rw [Bool.not_eq_false] at hp
      have := requestTexts_eq T txt ds
      rw [he] at this
      have hmem : ∀ s ∈ elementTexts T d, s ∈ requestTexts T ds := fun s hs =>
        List.mem_flatMap.2 ⟨d, List.mem_filter.2 ⟨hd, hp⟩, hs⟩
      rw [← this] at hmem
      have : elementTexts T d ≠ [] := by
        unfold elementTexts
        split <;> simp
      obtain ⟨s, hs⟩ := List.exists_mem_of_ne_nil _ this
      cases hmem s hs
    clear hd he hc
    simp only [List.isEmpty_nil, if_true]
    induction ds with
    | nil => exact .nil
    | cons d ds ih =>
      have hp := hnone d (by simp)
      exact .cons ⟨fun _ => rfl, fun h => (by rw [hp] at h; cases h)⟩ (ih fun x hx => hnone x (by simp [hx]))
  · rename_i he
    cases hcr : create (spanRequests T txt ds) with
    | none => rw [hcr] at h; cases h
    | some ss =>
      rw [hcr] at h
      have hf := hc _ hcr
      simp only [Option.map_some, Option.some.injEq] at h
      split at h
      · rename_i hn
        rw [List.isEmpty_iff] at hn
        subst hn
        cases hr : spanRequests T txt ds with
        | nil => simp [hr] at he
        | cons => rw [hr] at hf; cases hf
      · subst h
        refine mapN_marked T hd ?_
        rw [← requestTexts_eq T txt]
        exact forall₂_of_map_left hf fun _ _ h => h

theorem forall₂_map_right {α β γ : Type} {R : α → β → Prop} {f : β → γ} {S : α → γ → Prop} {l : List α} {l' : List β}
    (h : List.Forall₂ R l l') (hs : ∀ a c, R a c → S a (f c)) : List.Forall₂ S l (l'.map f) := by
  induction h with
  | nil => exact .nil
  | cons h _ ih => exact .cons (hs _ _ h) ih

/-- C46 with the server's answer: each directive with provenance, and each of its postings, gets a span which the server resolves to
the text of that directive or posting. The same restriction as in `C46_partial`. -/
theorem C46_server_partial {E : Ext} (hE : SpanStore E) (T : Texts) (txt : Data → Str) (src : E.Sources) {ds : List Data}
    (hd : ∀ d ∈ ds, Shaped d) {out : List Data}
    (h : mergeWithProvenance T txt (fun reqs => some ((Server.createSpans src reqs).2.map ofSpan)) ds = some out) :
    List.Forall₂ (fun d r => ((d.get (str% "provenance")).truthy = false → r = d) ∧
      ((d.get (str% "provenance")).truthy = true → MarkedDirective T (fun s x => ∃ sp y, x = ofSpan sp ∧
        E.resolve (Server.createSpans src (spanRequests T txt ds)).1 sp = some y ∧ y.content = s) d r)) ds out := by
  refine C46_partial T txt hd ?_ h
  rintro ss ⟨⟩
  refine forall₂_map_right (hE.createdAll src (spanRequests T txt ds)) ?_
  rintro q sp ⟨y, h1, -, h3⟩
  exact ⟨sp, y, rfl, h1, h3⟩

/-- The texts in the examples. -/
def Ex.texts : Texts where
  header _ := str% "header"
  posting p := match p.get (str% "acc") with | .str s => s | _ => []
  directive _ := str% "directive"

/-- The server in the examples: the span of the n-th request has source n. -/
def Ex.numberSpans (reqs : List SyntheticSpan) : Option (List Data) :=
  some (reqs.zipIdx.map fun p => ofSpan ⟨p.2, 0, p.1.content.length⟩)

/-- A note which a plugin made out of a transaction, and a directive which another plugin made. -/
def Ex.noted : List Data :=
  [.map [(str% "dct", .kw (str% "note")), (str% "provenance", .vec [.str (str% "p")]),
      (str% "postings", .vec [.map [(str% "acc", .str Ex.bank)]])],
   .map [(str% "dct", .kw (str% "close")), (str% "provenance", .vec [.str (str% "q")]), (str% "acc", .str Ex.bank)]]

/-- C46 is false: the second span, made for the second directive, goes to the posting which the note has kept, and the second directive
gets none. -/
theorem C46_false : (spanRequests Ex.texts (fun _ => []) Ex.noted).length = 2 ∧
    (mergeWithProvenance Ex.texts (fun _ => []) Ex.numberSpans Ex.noted).map (fun out => out.map fun d =>
      (d.get (str% "span-p"), (d.get (str% "postings")).elems.map (·.get (str% "span-p")))) =
    some [(ofSpan ⟨0, 0, 9⟩, [ofSpan ⟨1, 0, 9⟩]), (.nil, [])] := ⟨rfl, rfl⟩

/-- A note which kept one posting, and a transaction with two postings, all made by plugins. -/
def Ex.notedPaid : List Data :=
  [.map [(str% "dct", .kw (str% "note")), (str% "provenance", .vec [.str (str% "p")]),
      (str% "postings", .vec [.map [(str% "acc", .str Ex.bank)]])],
   .map [(str% "dct", .kw (str% "txn")), (str% "provenance", .vec [.str (str% "q")]),
      (str% "postings", .vec [.map [(str% "acc", .str Ex.bank)], .map [(str% "acc", .str Ex.food)]])]]

/-- More than spans can get lost: the note takes a span of the transaction, for which too few are left, and the posting for which there
is none is dropped. -/
theorem C46_loses_posting : (Ex.notedPaid.map fun d => (d.get (str% "postings")).elems.map (·.get (str% "acc"))) =
      [[.str Ex.bank], [.str Ex.bank, .str Ex.food]] ∧
    (mergeWithProvenance Ex.texts (fun _ => []) Ex.numberSpans Ex.notedPaid).map (fun out => out.map fun d =>
      (d.get (str% "postings")).elems.map (·.get (str% "acc"))) = some [[.str Ex.bank], [.str Ex.bank]] := ⟨rfl, rfl⟩

/-- A transaction and a close which plugins made, around one directive of the parser. -/
def Ex.plugged : List Data :=
  [.map [(str% "dct", .kw (str% "txn")), (str% "provenance", .vec [.str (str% "p")]),
      (str% "postings", .vec [.map [(str% "acc", .str Ex.bank)], .map [(str% "acc", .str Ex.food)]])],
   .map [(str% "dct", .kw (str% "open")), (str% "acc", .str Ex.bank)],
   .map [(str% "dct", .kw (str% "close")), (str% "provenance", .vec [.str (str% "q")]), (str% "acc", .str Ex.bank)]]

example : (∀ d ∈ Ex.plugged, Shaped d) ∧
    (mergeWithProvenance Ex.texts (fun _ => []) Ex.numberSpans Ex.plugged).map (fun out => out.map fun d =>
      (d.get (str% "span-p"), (d.get (str% "postings")).elems.map (·.get (str% "span-p")))) =
    some [(ofSpan ⟨0, 0, 6⟩, [ofSpan ⟨1, 0, 11⟩, ofSpan ⟨2, 0, 13⟩]), (.nil, []), (ofSpan ⟨3, 0, 9⟩, [])] := by
  refine ⟨?_, rfl⟩
  intro d hd
  simp only [Ex.plugged, List.mem_cons, List.not_mem_nil, or_false] at hd
  rcases hd with rfl | rfl | rfl
  · refine ⟨trivial, Or.inr ⟨_, rfl, ?_⟩, fun h => by cases h⟩
    intro p hp
    simp only [List.mem_cons, List.not_mem_nil, or_false] at hp
    rcases hp with rfl | rfl <;> trivial
  · exact ⟨trivial, Or.inl rfl, fun _ => rfl⟩
  · exact ⟨trivial, Or.inl rfl, fun _ => rfl⟩

end Limabean
