/-
C28: synthetic spans are answered in request order, and resolve to what they were created for.
-/
import Verif.Spec.Server
import Verif.Server.ToyExt
import Verif.Props.C25

namespace Limabean

open Spec

variable {E : Ext} {L : BookLib}

/-- The contract of the parser crate's store of sources: a new span resolves to its name and content, and adding spans
does not change how earlier ones resolve. -/
structure SpanStore (E : Ext) : Prop where
  created : ∀ src n c, ∃ x, E.resolve (E.create src n c).1 (E.create src n c).2 = some x ∧ x.fileName = some n ∧
    x.content = c
  kept : ∀ src n c sp x, E.resolve src sp = some x → E.resolve (E.create src n c).1 sp = some x

theorem SpanStore.keptAll (h : SpanStore E) {src : E.Sources} {items : List SyntheticSpan} {sp : Span} {x : SpannedSource}
    (hx : E.resolve src sp = some x) : E.resolve (Server.createSpans src items).1 sp = some x := by
  induction items generalizing src with
  | nil => exact hx
  | cons i items ih => exact ih (h.kept _ _ _ _ _ hx)

theorem SpanStore.createdAll (h : SpanStore E) (src : E.Sources) (items : List SyntheticSpan) :
    List.Forall₂ (fun (i : SyntheticSpan) sp => ∃ x, E.resolve (Server.createSpans src items).1 sp = some x ∧
      x.fileName = some i.name ∧ x.content = i.content) items (Server.createSpans src items).2 := by
  induction items generalizing src with
  | nil => exact .nil
  | cons i items ih =>
    refine .cons ?_ (ih _)
    obtain ⟨x, h1, h2⟩ := h.created src i.name i.content
    exact ⟨x, h.keptAll (src := (E.create src i.name i.content).1) h1, h2⟩

/-- What a server resolves. -/
def Resolves (s : Server E) (sp : Span) (x : SpannedSource) : Prop :=
  ∃ src parsed, s = .ready src parsed ∧ E.resolve src sp = some x

theorem Resolves.dispatch (hE : SpanStore E) {order : AMap Str (Account L) → AMap Str (Account L)} {s s' : Server E}
    {line : Server.Line} {r : Response} (h : Server.dispatch E L order s line = some (s', r)) {sp : Span}
    {x : SpannedSource} (hx : Resolves s sp x) : Resolves s' sp x := by
  by_cases hc : IsCreate line
  · obtain ⟨req, xs, ⟨j, rfl, hj⟩, hm⟩ := hc
    obtain ⟨src, parsed, rfl, hx⟩ := hx
    simp only [Server.dispatch, hj, Server.answer] at h
    split at h
    · cases h; exact ⟨_, _, rfl, hx⟩
    · rw [hm] at h
      simp only [Server.healthy, Option.map_some, Option.some.injEq, Prod.mk.injEq] at h
      obtain ⟨rfl, -⟩ := h
      exact ⟨_, _, rfl, hE.keptAll hx⟩
  · rw [(dispatch_ledger h).2 hc]; exact hx

theorem Resolves.served (hE : SpanStore E) {orders : Nat → AMap Str (Account L) → AMap Str (Account L)} {n : Nat}
    {s s' : Server E} {lines : List Server.Line} {rs : List Response} (h : Served orders n s lines rs s') {sp : Span}
    {x : SpannedSource} (hx : Resolves s sp x) : Resolves s' sp x := by
  induction h with
  | nil => exact hx
  | cons h t ih => exact ih (hx.dispatch hE h)

theorem all_of_forall₂ {α β : Type} {f : α → Option β} {l : List α} {bs : List β}
    (h : List.Forall₂ (fun a b => f a = some b) l bs) : Json.all f l = some bs := by
  induction h with
  | nil => rfl
  | cons ha _ ih => simp [Json.all, ha, ih]

/-- C28: a request to create synthetic spans is answered by as many spans as items; and a request to resolve these spans,
after any later requests, is answered by the names and contents of the items, in order. -/
theorem C28_spans_in_order (hE : SpanStore E) (orders : Nat → AMap Str (Account L) → AMap Str (Account L))
    (n : Nat) (src : E.Sources) (parsed : Except (List ParserError) Parsed) (line : Server.Line) (req : Request)
    (items : List SyntheticSpan) (hr : IsRequest line req) (hv : req.jsonrpc = str% "2.0")
    (hm : req.method = .createSpans items) :
    ∃ s spans, Server.dispatch E L (orders n) (.ready src parsed) line =
        some (s, { id := req.id, payload := .spans spans }) ∧
      spans.length = items.length ∧
      ∀ lines rs s', Served orders (n + 1) s lines rs s' →
      ∀ line' req', IsRequest line' req' → req'.jsonrpc = str% "2.0" → req'.method = .resolveSpans spans →
      ∀ order : AMap Str (Account L) → AMap Str (Account L),
      ∃ s'' l, Server.dispatch E L order s' line' = some (s'', { id := req'.id, payload := .resolved l }) ∧
        List.Forall₂ (fun (i : SyntheticSpan) x => x.fileName = some i.name ∧ x.content = i.content) items l := by
  obtain ⟨j, rfl, hj⟩ := hr
  refine ⟨.ready (Server.createSpans src items).1 parsed, (Server.createSpans src items).2, ?_, ?_, ?_⟩
  · simp [Server.dispatch, hj, Server.answer, hv, Server.jsonrpcVersion, hm, Server.healthy]
  · exact (hE.createdAll src items).length_eq.symm
  · intro lines rs s' hS line' req' hr' hv' hm' order
    obtain ⟨j', rfl, hj'⟩ := hr'
    have hs : SameLedger (.ready (Server.createSpans src items).1 parsed) s' := (served_ledger hS).1
    cases s' with
    | unreadable m => exact hs.elim
    | ready src' parsed' =>
      have key : ∀ (its : List SyntheticSpan) (sps : List Span),
          List.Forall₂ (fun (i : SyntheticSpan) sp => ∃ x, E.resolve (Server.createSpans src items).1 sp = some x ∧
            x.fileName = some i.name ∧ x.content = i.content) its sps →
          ∃ l, List.Forall₂ (fun sp x => E.resolve src' sp = some x) sps l ∧
            List.Forall₂ (fun (i : SyntheticSpan) x => x.fileName = some i.name ∧ x.content = i.content) its l := by
        intro its sps h
        induction h with
        | nil => exact ⟨[], .nil, .nil⟩
        | cons ha _ ih =>
          obtain ⟨x, h1, h2⟩ := ha
          obtain ⟨l, g1, g2⟩ := ih
          obtain ⟨_, _, e, h3⟩ := Resolves.served hE hS ⟨_, _, rfl, h1⟩
          cases e
          exact ⟨x :: l, .cons h3 g1, .cons h2 g2⟩
      obtain ⟨l, g1, g2⟩ := key _ _ (hE.createdAll src items)
      refine ⟨.ready src' parsed', l, ?_, g2⟩
      simp [Server.dispatch, hj', Server.answer, hv', Server.jsonrpcVersion, hm', Server.healthy, all_of_forall₂ g1]

/-- The toy store keeps the contract. -/
theorem Toy.spanStore : SpanStore Toy.ext where
  created (src : List (Str × Str)) n c := ⟨{ fileName := some n, startLine := 1, endLine := 1, content := c }, by
    show Option.map _ (((src : List (Str × Str)) ++ [(n, c)])[List.length (src : List (Str × Str))]?) = _
    rw [List.getElem?_concat_length]
    simp [Toy.ext], rfl, rfl⟩
  kept (src : List (Str × Str)) n c sp x h := by
    simp only [Toy.ext, Option.map_eq_some_iff] at h ⊢
    obtain ⟨a, h1, h2⟩ := h
    exact ⟨a, by rw [List.getElem?_append_left (List.getElem?_eq_some_iff.1 h1).1]; exact h1, h2⟩

/-- Two requests creating spans, and then one to resolve a span of the first. -/
example : (match Server.serve Toy.ext Toy.lib (fun _ => id) 0 (Toy.server [])
    [Toy.req 1 (str% "parser.create-synthetic-spans") [(str% "params", .arr [Wire.encSynthetic ⟨str% "p", str% "one"⟩,
        Wire.encSynthetic ⟨str% "q", str% "two"⟩])],
     Toy.req 2 (str% "parser.create-synthetic-spans") [(str% "params", .arr [Wire.encSynthetic ⟨str% "r", str% "three"⟩])],
     Toy.req 3 (str% "parser.resolve-spans") [(str% "params", .arr [Wire.encSpan ⟨1, 0, 3⟩])]] with
    | ([⟨_, .spans l⟩, ⟨_, .spans _⟩, ⟨_, .resolved l'⟩], _) => (l, l'.map fun x => (x.fileName, x.content))
    | _ => ([], [])) = ([⟨0, 0, 3⟩, ⟨1, 0, 3⟩], [(some (str% "q"), str% "two")]) := by decide +kernel

end Limabean
