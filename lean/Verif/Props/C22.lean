/-
C22: one response line per request line, in order. False as stated for input which is not text (the server exits with
status 1) and where a request makes the server panic; otherwise true.
-/
import Verif.Spec.Server
import Verif.Server.ToyExt
import Verif.Props.C14
import Verif.Props.Examples

namespace Limabean

open Spec

variable {E : Ext} {L : BookLib}

/-- C22: whatever the lines: the responses answer the first lines, one each and in order, up to where the server ends.
It ends with status 0 exactly if all lines are answered; with status 1 only on a line that is not text; by a panic only on
a line whose processing panics. -/
theorem C22_responses_partial (orders : Nat → AMap Str (Account L) → AMap Str (Account L)) (n : Nat) (s : Server E)
    (lines : List Server.Line) (rs : List Response) (x : Server.Exit) (h : Server.serve E L orders n s lines = (rs, x)) :
    ∃ s', Served orders n s (lines.take rs.length) rs s' ∧
      (x = .status 0 ↔ rs.length = lines.length) ∧
      (x = .status 0 ∨ x = .status 1 ∧ lines[rs.length]? = some .notText ∨
        x = .panicked ∧ ∃ line, lines[rs.length]? = some line ∧ line ≠ .notText ∧
          Server.dispatch E L (orders (n + rs.length)) s' line = none) := by
  induction lines generalizing n s rs x with
  | nil =>
    simp only [Server.serve, Prod.mk.injEq] at h
    obtain ⟨rfl, rfl⟩ := h
    exact ⟨s, .nil _ _, by simp, Or.inl rfl⟩
  | cons line lines ih =>
    have key : ∀ (hl : line ≠ .notText), Server.serve E L orders n s (line :: lines) =
        match Server.dispatch E L (orders n) s line with
        | none => ([], .panicked)
        | some (s', r) => (r :: (Server.serve E L orders (n + 1) s' lines).1, (Server.serve E L orders (n + 1) s' lines).2) := by
      intro hl
      cases line with
      | notText => exact absurd rfl hl
      | garbage e => rfl
      | json j => rfl
    by_cases hl : line = .notText
    · subst hl
      simp only [Server.serve, Prod.mk.injEq] at h
      obtain ⟨rfl, rfl⟩ := h
      exact ⟨s, .nil _ _, by simp, Or.inr (Or.inl ⟨rfl, rfl⟩)⟩
    · rw [key hl] at h
      cases hd : Server.dispatch E L (orders n) s line with
      | none =>
        rw [hd] at h
        simp only [Prod.mk.injEq] at h
        obtain ⟨rfl, rfl⟩ := h
        exact ⟨s, .nil _ _, by simp, Or.inr (Or.inr ⟨rfl, line, rfl, hl, hd⟩)⟩
      | some p =>
        obtain ⟨s1, r⟩ := p
        rw [hd] at h
        simp only [Prod.mk.injEq] at h
        obtain ⟨rfl, rfl⟩ := h
        obtain ⟨s', h1, h2, h3⟩ := ih (n + 1) s1 _ _ rfl
        refine ⟨s', ?_, ?_, ?_⟩
        · simpa using Served.cons hd h1
        · simpa using h2
        · simp only [List.length_cons, List.getElem?_cons_succ]
          rw [show n + ((Server.serve E L orders (n + 1) s1 lines).1.length + 1) =
            n + 1 + (Server.serve E L orders (n + 1) s1 lines).1.length by omega]
          exact h3

theorem resolveElement_some {ds : List Raw.Directive} (hs : AllSpans ds) {e : ElementIdx} (h : LocOk ds e) :
    ∃ x, Server.resolveElement e ds = some x := by
  obtain ⟨h1, h2⟩ := h
  have hd : ds[e.directive]? = some ds[e.directive] := List.getElem?_eq_getElem h1
  generalize ds[e.directive] = d at hd
  obtain ⟨h3, h4⟩ := hs d (List.mem_of_getElem? hd)
  obtain ⟨sp, h3⟩ := Option.isSome_iff_exists.1 h3
  unfold Server.resolveElement
  rw [hd]
  cases hp : e.posting with
  | none =>
    cases hv : d.variant <;> simp [h3]
  | some i =>
    obtain ⟨raw, t, g1, g2, g3⟩ := h2 i hp
    rw [hd] at g1
    cases g1
    have hq : t.postings[i]? = some t.postings[i] := List.getElem?_eq_getElem g3
    obtain ⟨sq, h5⟩ := Option.isSome_iff_exists.1 (h4 t g2 _ (List.mem_of_getElem? hq))
    simp only [g2, hq]
    rw [h5]
    exact ⟨_, rfl⟩

theorem all_some {α β : Type} {f : α → Option β} {l : List α} (h : ∀ a ∈ l, ∃ b, f a = some b) :
    ∃ bs, Json.all f l = some bs := by
  induction l with
  | nil => exact ⟨_, rfl⟩
  | cons a l ih =>
    obtain ⟨b, hb⟩ := h a (by simp)
    obtain ⟨bs, hbs⟩ := ih fun x hx => h x (by simp [hx])
    exact ⟨b :: bs, by simp [Json.all, hb, hbs]⟩

theorem all_none {α β : Type} {f : α → Option β} {l : List α} (h : Json.all f l = none) : ∃ a ∈ l, f a = none := by
  by_contra hc
  obtain ⟨bs, hb⟩ := all_some (f := f) (l := l) fun a ha => by
    cases hf : f a with
    | none => exact absurd ⟨a, ha, hf⟩ hc
    | some b => exact ⟨b, rfl⟩
  rw [h] at hb
  cases hb

theorem resolveReports_some {ds : List Raw.Directive} (hs : AllSpans ds) {es : List IndexedReport}
    (h : ∀ r ∈ es, ReportOk ds r) : ∃ l, Server.resolveReports E ds es = some l := by
  refine all_some fun r hr => ?_
  obtain ⟨h1, h2⟩ := h r hr
  obtain ⟨⟨k, sp⟩, e1⟩ := resolveElement_some hs h1
  have e2 : ∃ c, Server.resolveContexts ds r.idx = some c := by
    unfold Server.resolveContexts
    cases r.idx.posting with
    | none => exact ⟨_, rfl⟩
    | some i =>
      obtain ⟨x, hx⟩ := resolveElement_some hs (e := { directive := r.idx.directive }) ⟨h1.1, by simp⟩
      exact ⟨_, by simp [hx]; rfl⟩
  have e3 : ∃ c, Server.resolveRelated ds r.related = some c := by
    unfold Server.resolveRelated
    cases hr : r.related with
    | none => exact ⟨_, rfl⟩
    | some l =>
      obtain ⟨x, hx⟩ := all_some (f := fun i => Server.resolveElement i ds) (l := l) fun i hi =>
        resolveElement_some hs (h2 i (by simpa [hr] using hi))
      exact ⟨_, by simp [hx]; rfl⟩
  obtain ⟨c, e2⟩ := e2
  obtain ⟨d, e3⟩ := e3
  simp only [Server.resolveReport, e1, e2, e3]
  exact ⟨_, rfl⟩

theorem formatReports_none {src : E.Sources} {isError sep : Bool} {rs : List Report}
    (h : Server.formatReports src isError sep rs = none) : ∃ r ∈ rs, E.writeReport src isError r = none := by
  induction rs generalizing sep with
  | nil => simp [Server.formatReports] at h
  | cons r rs ih =>
    simp only [Server.formatReports] at h
    cases h1 : E.writeReport src isError r with
    | none => exact ⟨r, by simp, h1⟩
    | some t =>
      cases h2 : Server.formatReports src isError true rs with
      | none =>
        obtain ⟨r', hr', e⟩ := ih h2
        exact ⟨r', by simp [hr'], e⟩
      | some t' => simp [Server.formatOne, h1, h2] at h

/-- C22: a request on a parsed ledger makes the server panic only if booking panics (see C13), or the parser crate fails to
resolve a span or to write a report that the client supplied. A server without a parsed ledger panics on no booking. -/
theorem C22_panics_only (order : AMap Str (Account L) → AMap Str (Account L)) (hf : ∀ m, (order m).Perm m)
    (s : Server E) (r : Request) (hs : ∀ src p, s = .ready src (.ok p) → AllSpans p.directives)
    (h : Server.answer E L order s r = none) :
    r.jsonrpc = str% "2.0" ∧ ∃ src parsed, s = .ready src parsed ∧
      ((∃ ds p, r.method = .book ds ∧ parsed = .ok p ∧
          book L order { bookingMethod := p.options.bookingMethod, tolerance := p.options.tolerance }
            (ds.getD p.directives) = .panic) ∨
       (∃ ss, r.method = .resolveSpans ss ∧ ∃ x ∈ ss, E.resolve src x = none) ∨
       (∃ rs, r.method = .formatErrors rs ∧ ∃ x ∈ rs, E.writeReport src true x = none) ∨
       (∃ rs, r.method = .formatWarnings rs ∧ ∃ x ∈ rs, E.writeReport src false x = none)) := by
  unfold Server.answer at h
  by_cases hj : r.jsonrpc = Server.jsonrpcVersion
  swap
  · simp [hj] at h
  refine ⟨hj, ?_⟩
  simp only [hj, ne_eq, not_true_eq_false, if_false] at h
  cases s with
  | unreadable m => simp at h
  | ready src parsed =>
    refine ⟨src, parsed, rfl, ?_⟩
    simp only [Option.map_eq_none_iff] at h
    cases hm : r.method <;> rw [hm] at h <;> simp only [Server.healthy, Option.map_eq_none_iff, reduceCtorEq] at h
    case formatErrors rs => exact Or.inr (Or.inr (Or.inl ⟨rs, rfl, formatReports_none h⟩))
    case formatWarnings rs => exact Or.inr (Or.inr (Or.inr ⟨rs, rfl, formatReports_none h⟩))
    case resolveSpans ss => exact Or.inr (Or.inl ⟨ss, rfl, all_none h⟩)
    case book ds =>
      left
      cases parsed with
      | error es => simp [Server.bookRequest] at h
      | ok p =>
        refine ⟨ds, p, rfl, rfl, ?_⟩
        simp only [Server.bookRequest, Server.bookOptions] at h
        cases hb : book L order { bookingMethod := p.options.bookingMethod, tolerance := p.options.tolerance }
            (ds.getD p.directives) with
        | panic => rfl
        | success out w => rw [hb] at h; simp at h
        | failure es =>
          rw [hb] at h
          simp only at h
          cases ds with
          | some ds => simp at h
          | none =>
            obtain ⟨l, hl⟩ := resolveReports_some (E := E) (hs src p rfl)
              ((C14_locations L order hf _ _).1 es hb)
            simp only [Option.isNone_none, if_true, Option.getD_none, Option.map_eq_none_iff] at h
            rw [h] at hl
            cases hl

/-- C22 as stated is false: a line which is not text is not answered, and the server exits with status 1. -/
theorem C22_not_text : ¬ ∀ (E : Ext) (L : BookLib) (orders : Nat → AMap Str (Account L) → AMap Str (Account L))
    (s : Server E) (lines : List Server.Line),
    (Server.serve E L orders 0 s lines).1.length = lines.length ∧ (Server.serve E L orders 0 s lines).2 = .status 0 := by
  intro h
  have := (h Toy.ext Toy.lib (fun _ => id) Toy.broken [.notText]).2
  simp [Server.serve] at this

/-- C22 as stated is false also of text: a request to book a ledger whose booking panics gets no response. -/
theorem C22_dies : ∃ (ds : List Raw.Directive) (line : Server.Line),
    (Server.serve Toy.ext Toy.lib (fun _ => id) 0 (Toy.server ds) [line]).1.length = 0 ∧
    (Server.serve Toy.ext Toy.lib (fun _ => id) 0 (Toy.server ds) [line]).2 = .panicked :=
  ⟨[Toy.mkOpen 1 Ex.bank, Toy.mkPad 2 Ex.bank Ex.equity, Toy.mkBal 3 Ex.bank ⟨10, 0⟩ Ex.nzd],
    Toy.req 1 (str% "book"), by decide +kernel⟩

/-- Four lines, one of them malformed: four responses. -/
example : ∃ rs, Server.serve Toy.ext Toy.lib (fun _ => id) 0 (Toy.server Ex.ledger)
    [Toy.req 1 (str% "status"), .garbage (str% "expected value"), Toy.req 2 (str% "parser.directives"),
     Toy.req 3 (str% "book")] = (rs, .status 0) ∧ rs.length = 4 := by
  refine ⟨_, Prod.ext rfl ?_, ?_⟩ <;> decide +kernel

end Limabean
