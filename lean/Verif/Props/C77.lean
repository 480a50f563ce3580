/-
C77: a client which refers only to source locations which it has learned from the server, and asks for no booking of a ledger with a pad
from an account which is never opened, is answered line by line to the end.
-/
import Verif.Props.C22
import Verif.Props.C26
import Verif.Props.C13

namespace Limabean

open Spec

variable {E : Ext} {L : BookLib}

/-- The locations of a report. -/
def Spec.reportSpans (r : Report) : List Span :=
  r.span :: ((r.contexts.getD []).map Prod.snd ++ (r.related.getD []).map Prod.snd)

/-- The locations of a directive and of its postings. -/
def Spec.directiveSpans (d : Raw.Directive) : List Span :=
  d.span.toList ++ match d.variant with
    | .transaction t => t.postings.filterMap fun p => p.span
    | _ => []

/-- The locations which a response tells. -/
def Spec.responseSpans (r : Response) : List Span :=
  match r.payload with
  | .directives ds => ds.flatMap directiveSpans
  | .spans l => l
  | .error _ _ (.reports l) => l.flatMap reportSpans
  | _ => []

/-- The locations which a request asks to look up. -/
def Spec.requestSpans (r : Request) : List Span :=
  match r.method with
  | .resolveSpans l => l
  | .formatErrors l => l.flatMap reportSpans
  | .formatWarnings l => l.flatMap reportSpans
  | _ => []

/-- Every pad which an assertion follows is from an account opened before the assertion. -/
def Spec.PadsOpened (ds : List Raw.Directive) : Prop :=
  ∀ pre d post b, ds = pre ++ d :: post → d.variant = .balance b →
    ∀ q ∈ pre, ∀ p, q.variant = .pad p → p.acc = b.acc → ∃ x ∈ pre, ∃ o, x.variant = .opn o ∧ o.acc = p.source

/-- What the parser crate guarantees of locations: those it knows it can look up and write reports about; it knows those it creates,
and forgets none. -/
structure Spec.KnowsSpans (E : Ext) (known : E.Sources → Span → Prop) : Prop where
  resolves : ∀ src sp, known src sp → ∃ x, E.resolve src sp = some x
  writes : ∀ src e r, (∀ sp ∈ reportSpans r, known src sp) → ∃ t, E.writeReport src e r = some t
  creates : ∀ src n c, known (E.create src n c).1 (E.create src n c).2
  keeps : ∀ src n c sp, known src sp → known (E.create src n c).1 sp

/-- The directives which a request asks to book, on a server. -/
def Spec.Books (s : Server E) (r : Request) (ds : List Raw.Directive) : Prop :=
  r.method = .book (some ds) ∨ r.method = .book none ∧ ∃ src p, s = .ready src (.ok p) ∧ ds = p.directives

/-- The client sends text; what it refers to it has learned before (`learned`) or from the responses so far; what it books has no pads
from accounts not opened. -/
def Spec.Honest (orders : Nat → AMap Str (Account L) → AMap Str (Account L)) :
    Nat → Server E → (Span → Prop) → List Server.Line → Prop
  | _, _, _, [] => True
  | n, s, learned, line :: lines =>
    line ≠ .notText ∧
    (∀ r, IsRequest line r → (∀ sp ∈ requestSpans r, learned sp) ∧ ∀ ds, Books s r ds → PadsOpened ds) ∧
    ∀ s' resp, Server.dispatch E L (orders n) s line = some (s', resp) →
      Honest orders (n + 1) s' (fun sp => learned sp ∨ sp ∈ responseSpans resp) lines

/-- The locations which the server holds of its ledger. -/
def Spec.ledgerSpans : Except (List ParserError) Parsed → List Span
  | .ok p => p.directives.flatMap directiveSpans
  | .error es => es.flatMap fun e => e.span :: (e.contexts.map Prod.snd ++ e.related.map Prod.snd)

theorem resolveElement_mem {ds : List Raw.Directive} {e : ElementIdx} {x : Str × Span} (h : Server.resolveElement e ds = some x) :
    x.2 ∈ ds.flatMap directiveSpans := by
  unfold Server.resolveElement at h
  cases hd : ds[e.directive]? with
  | none => simp [hd] at h
  | some d =>
    refine List.mem_flatMap.2 ⟨d, List.mem_of_getElem? hd, ?_⟩
    rw [hd] at h
    unfold directiveSpans
    have plain : ∀ v : Raw.Variant, (match d.span with
        | none => none
        | some s => some (Server.variantName v, s)) = some x → x.2 ∈ d.span.toList := by
      intro v hv
      cases hs : d.span with
      | none => simp [hs] at hv
      | some sp => simp [hs] at hv; subst hv; simp
    simp only [List.mem_append]
    cases hv : d.variant with
    | transaction t =>
      cases hp : e.posting with
      | none => simp only [hv, hp] at h; exact Or.inl (plain (.transaction t) h)
      | some i =>
        simp only [hv, hp] at h
        cases hq : t.postings[i]? with
        | none => simp [hq] at h
        | some q =>
          cases hs : q.span with
          | none => simp [hq, hs] at h
          | some sp =>
            simp [hq, hs] at h
            subst h
            simp only [List.mem_filterMap]
            exact Or.inr ⟨q, List.mem_of_getElem? hq, hs⟩
    | _ => simp only [hv] at h; exact Or.inl (plain _ h)

theorem Json.all_mem {α β : Type} {f : α → Option β} {l : List α} {bs : List β} (h : Json.all f l = some bs) :
    ∀ b ∈ bs, ∃ a ∈ l, f a = some b := by
  have := all_forall₂ h
  clear h
  induction this with
  | nil => simp
  | cons ha _ ih =>
    intro b hb
    rcases List.mem_cons.1 hb with rfl | hb
    · exact ⟨_, by simp, ha⟩
    · obtain ⟨a, h1, h2⟩ := ih b hb
      exact ⟨a, by simp [h1], h2⟩

/-- The reports of booking the parsed ledger tell locations of that ledger. -/
theorem resolveReports_mem {ds : List Raw.Directive} {es : List IndexedReport} {l : List Report}
    (h : Server.resolveReports E ds es = some l) : ∀ sp ∈ l.flatMap reportSpans, sp ∈ ds.flatMap directiveSpans := by
  intro sp hsp
  obtain ⟨r, hr, hsp⟩ := List.mem_flatMap.1 hsp
  obtain ⟨i, -, hi⟩ := Json.all_mem h r hr
  unfold Server.resolveReport at hi
  split at hi
  · rename_i k s c rel h1 h2 h3
    cases hi
    simp only [reportSpans, List.mem_cons, List.mem_append, List.mem_map] at hsp
    rcases hsp with rfl | ⟨x, hx, rfl⟩ | ⟨x, hx, rfl⟩
    · exact resolveElement_mem h1
    · unfold Server.resolveContexts at h2
      split at h2
      · cases h2; simp at hx
      · split at h2
        · rename_i y hy
          cases h2
          simp only [Option.getD_some, List.mem_singleton] at hx
          rw [hx]
          exact resolveElement_mem hy
        · cases h2
    · unfold Server.resolveRelated at h3
      split at h3
      · cases h3; simp at hx
      · simp only [Option.map_eq_some_iff] at h3
        obtain ⟨l', h3, rfl⟩ := h3
        obtain ⟨a, -, ha⟩ := Json.all_mem h3 x hx
        exact resolveElement_mem ha
  · cases hi

theorem parserReports_mem {es : List ParserError} : ∀ sp ∈ (Server.parserReports es).flatMap reportSpans,
    sp ∈ ledgerSpans (.error es) := by
  intro sp hsp
  obtain ⟨r, hr, hsp⟩ := List.mem_flatMap.1 hsp
  obtain ⟨e, he, rfl⟩ := List.mem_map.1 hr
  refine List.mem_flatMap.2 ⟨e, he, ?_⟩
  simp only [reportSpans, Server.parserReport] at hsp
  rcases List.mem_cons.1 hsp with h | h
  · simp [h]
  · rcases List.mem_append.1 h with h | h
    · cases hc : e.contexts <;> simp [hc] at h ⊢
      tauto
    · cases hc : e.related <;> simp [hc] at h ⊢
      tauto

theorem createSpans_known {known : E.Sources → Span → Prop} (hE : KnowsSpans E known) (xs : List SyntheticSpan) (src : E.Sources) :
    (∀ sp, known src sp → known (Server.createSpans src xs).1 sp) ∧
    ∀ sp ∈ (Server.createSpans src xs).2, known (Server.createSpans src xs).1 sp := by
  induction xs generalizing src with
  | nil => simp [Server.createSpans]
  | cons x xs ih =>
    simp only [Server.createSpans]
    obtain ⟨h1, h2⟩ := ih (E.create src x.name x.content).1
    refine ⟨fun sp h => h1 _ (hE.keeps _ _ _ _ h), fun sp h => ?_⟩
    rcases List.mem_cons.1 h with rfl | h
    · exact h1 _ (hE.creates _ _ _)
    · exact h2 _ h

/-- What is known about the server: its locations, and those which the client has learned. -/
def HoldsSpans (known : E.Sources → Span → Prop) (learned : Span → Prop) : Server E → Prop
  | .unreadable _ => True
  | .ready src parsed => (∀ sp ∈ ledgerSpans parsed, known src sp) ∧ (∀ sp, learned sp → known src sp) ∧
      ∀ p, parsed = .ok p → AllSpans p.directives

theorem HoldsSpans.answer {known : E.Sources → Span → Prop} (hE : KnowsSpans E known) {learned : Span → Prop} {s s' : Server E}
    (hs : HoldsSpans known learned s) {order : AMap Str (Account L) → AMap Str (Account L)} {r : Request} {resp : Response}
    (h : Server.answer E L order s r = some (s', resp)) :
    HoldsSpans known (fun sp => learned sp ∨ sp ∈ responseSpans resp) s' := by
  unfold Server.answer at h
  split at h
  · cases h
    cases s with
    | unreadable m => trivial
    | ready src parsed => exact ⟨hs.1, fun sp h => h.elim (hs.2.1 sp) (by simp [responseSpans, Server.otherError]), hs.2.2⟩
  · cases s with
    | unreadable m => cases h; trivial
    | ready src parsed =>
      simp only [Option.map_eq_some_iff, Prod.exists, Prod.mk.injEq] at h
      obtain ⟨src', resp', h, rfl, rfl⟩ := h
      obtain ⟨h1, h2, h3⟩ := hs
      have same : src' = src → (∀ sp ∈ responseSpans resp', sp ∈ ledgerSpans parsed) →
          HoldsSpans known (fun sp => learned sp ∨ sp ∈ responseSpans resp') (.ready src' parsed) := by
        rintro rfl hr
        exact ⟨h1, fun sp h => h.elim (h2 sp) fun h => h1 _ (hr sp h), h3⟩
      cases hm : r.method <;> rw [hm] at h <;>
        simp only [Server.healthy, Option.map_eq_some_iff, Option.some.injEq, Prod.mk.injEq] at h
      case status => obtain ⟨rfl, rfl⟩ := h; exact same rfl (by simp [responseSpans])
      case plugins =>
        obtain ⟨rfl, rfl⟩ := h
        refine same rfl ?_
        cases parsed with
        | ok p => simp [responseSpans, Server.plugins]
        | error es => exact parserReports_mem
      case directives =>
        obtain ⟨rfl, rfl⟩ := h
        refine same rfl ?_
        cases parsed with
        | ok p => exact fun sp h => h
        | error es => exact parserReports_mem
      case options =>
        obtain ⟨rfl, rfl⟩ := h
        refine same rfl ?_
        cases parsed with
        | ok p => simp [responseSpans, Server.options]
        | error es => exact parserReports_mem
      case formatErrors => obtain ⟨t, -, rfl, rfl⟩ := h; exact same rfl (by simp [responseSpans])
      case formatWarnings => obtain ⟨t, -, rfl, rfl⟩ := h; exact same rfl (by simp [responseSpans])
      case resolveSpans => obtain ⟨t, -, rfl, rfl⟩ := h; exact same rfl (by simp [responseSpans])
      case createSpans xs =>
        obtain ⟨rfl, rfl⟩ := h
        obtain ⟨g1, g2⟩ := createSpans_known hE xs src
        exact ⟨fun sp h => g1 _ (h1 sp h), fun sp h => h.elim (fun h => g1 _ (h2 sp h)) (g2 sp), h3⟩
      case book ds =>
        obtain ⟨resp, h, rfl, rfl⟩ := h
        refine same rfl ?_
        cases parsed with
        | error es =>
          simp only [Server.bookRequest, Option.some.injEq] at h
          subst h
          exact parserReports_mem
        | ok p =>
          simp only [Server.bookRequest] at h
          split at h
          · cases h
          · cases h; simp [responseSpans]
          · split at h
            · rename_i hn
              cases ds with
              | some ds => simp at hn
              | none =>
                simp only [Option.getD_none, Option.map_eq_some_iff] at h
                obtain ⟨l, hl, rfl⟩ := h
                exact resolveReports_mem hl
            · cases h; simp [responseSpans, Server.indexedErrorReports]

/-- C77: to an honest client the server answers every line, in order, and ends with status 0. -/
theorem C77_answered {known : E.Sources → Span → Prop} (hE : KnowsSpans E known)
    (orders : Nat → AMap Str (Account L) → AMap Str (Account L)) (hf : ∀ n m, (orders n m).Perm m) (n : Nat) (s : Server E)
    (hs : ∀ src parsed, s = .ready src parsed → (∀ sp ∈ ledgerSpans parsed, known src sp) ∧
      ∀ p, parsed = .ok p → AllSpans p.directives)
    (lines : List Server.Line) (h : Honest orders n s (fun _ => False) lines) :
    ∃ rs s', Server.serve E L orders n s lines = (rs, .status 0) ∧ Served orders n s lines rs s' ∧ rs.length = lines.length := by
  have key : ∀ (n : Nat) (s : Server E) (learned : Span → Prop), HoldsSpans known learned s → Honest orders n s learned lines →
      (Server.serve E L orders n s lines).2 = .status 0 := by
    clear h hs
    induction lines with
    | nil => intros; rfl
    | cons line lines ih =>
      intro n s learned hs h
      obtain ⟨h1, h2, h3⟩ := h
      have hd : ∃ s' resp, Server.dispatch E L (orders n) s line = some (s', resp) ∧
          HoldsSpans known (fun sp => learned sp ∨ sp ∈ responseSpans resp) s' := by
        have plain : ∀ c m, HoldsSpans known (fun sp => learned sp ∨ sp ∈ responseSpans (Server.otherError none c m)) s := by
          intro c m
          cases s with
          | unreadable m => trivial
          | ready src parsed =>
            exact ⟨hs.1, fun sp h => h.elim (hs.2.1 sp) (by simp [responseSpans, Server.otherError]), hs.2.2⟩
        cases line with
        | notText => exact absurd rfl h1
        | garbage e => exact ⟨_, _, rfl, plain _ _⟩
        | json j =>
          simp only [Server.dispatch]
          cases hj : Wire.decRequest j with
          | none => exact ⟨_, _, rfl, plain _ _⟩
          | some r =>
            dsimp only
            obtain ⟨g1, g2⟩ := h2 r ⟨j, rfl, hj⟩
            cases ha : Server.answer E L (orders n) s r with
            | some x => exact ⟨x.1, x.2, rfl, hs.answer hE ha⟩
            | none =>
              exfalso
              obtain ⟨-, src, parsed, rfl, hp⟩ := C22_panics_only (orders n) (hf n) s r
                (fun src p e => by subst e; exact hs.2.2 p rfl) ha
              obtain ⟨k1, k2, k3⟩ := hs
              have known_of : ∀ sp ∈ requestSpans r, known src sp := fun sp h => k2 sp (g1 sp h)
              rcases hp with ⟨ds, p, hm, rfl, hb⟩ | ⟨ss, hm, x, hx, he⟩ | ⟨rs, hm, x, hx, he⟩ | ⟨rs, hm, x, hx, he⟩
              · refine C13_no_panic_partial L (orders n) _ _ (g2 _ ?_) hb
                cases ds with
                | some ds => exact Or.inl hm
                | none => exact Or.inr ⟨hm, src, p, rfl, rfl⟩
              · obtain ⟨y, hy⟩ := hE.resolves src x (known_of x (by simp [requestSpans, hm, hx]))
                rw [he] at hy; cases hy
              · obtain ⟨y, hy⟩ := hE.writes src true x fun sp hsp => known_of sp (by
                  simp only [requestSpans, hm]; exact List.mem_flatMap.2 ⟨x, hx, hsp⟩)
                rw [he] at hy; cases hy
              · obtain ⟨y, hy⟩ := hE.writes src false x fun sp hsp => known_of sp (by
                  simp only [requestSpans, hm]; exact List.mem_flatMap.2 ⟨x, hx, hsp⟩)
                rw [he] at hy; cases hy
      obtain ⟨s', resp, hd, hs'⟩ := hd
      have := ih (n + 1) s' _ hs' (h3 s' resp hd)
      cases line with
      | notText => exact absurd rfl h1
      | garbage e => simp only [Server.serve, hd]; exact this
      | json j => simp only [Server.serve, hd]; exact this
  have h0 : HoldsSpans known (fun _ => False) s := by
    cases s with
    | unreadable m => trivial
    | ready src parsed => exact ⟨(hs src parsed rfl).1, fun _ h => h.elim, (hs src parsed rfl).2⟩
  have hx := key n s _ h0 h
  obtain ⟨s', h1, h2, -⟩ := C22_responses_partial orders n s lines _ _ (Prod.eta (Server.serve E L orders n s lines)).symm
  have hlen := h2.1 hx
  rw [hlen, List.take_length] at h1
  exact ⟨_, s', Prod.ext rfl hx, h1, hlen⟩

/-- The locations which the toy library knows: those in its list of texts. -/
def Toy.Known (src : Toy.ext.Sources) (sp : Span) : Prop := sp.source < List.length (α := Str × Str) src

theorem Toy.knows : KnowsSpans Toy.ext Toy.Known := by
  refine ⟨?_, fun src e r _ => ⟨_, rfl⟩, ?_, ?_⟩
  · intro (src : List (Str × Str)) sp (h : sp.source < src.length)
    refine Option.isSome_iff_exists.1 ?_
    change ((src[sp.source]?).map _).isSome = true
    simp [h]
  · intro (src : List (Str × Str)) n c
    change src.length < (src ++ [(n, c)]).length
    simp
  · intro (src : List (Str × Str)) n c sp (h : sp.source < src.length)
    change sp.source < (src ++ [(n, c)]).length
    simp
    omega

/-- A server on a ledger with one directive, whose location is in a file. -/
def Ex.located : Server Toy.ext :=
  .ready [(str% "a.bean", str% "2024-01-01 open Assets:Bank")]
    (.ok { directives := [{ Toy.mkOpen 1 Ex.bank with span := some ⟨0, 0, 27⟩ }], options := Toy.options, plugins := [] })

/-- The client asks for the directives, looks up the location of the first, and books. -/
def Ex.chat : List Server.Line :=
  [Toy.req 1 (str% "parser.directives"),
   Toy.req 2 (str% "parser.resolve-spans") [(str% "params", .arr [Wire.encSpan ⟨0, 0, 27⟩])],
   Toy.req 3 (str% "book")]

example : Honest (L := Toy.lib) (fun _ => id) 0 Ex.located (fun _ => False) Ex.chat := by
  have r1 : ∀ r, IsRequest (Toy.req 1 (str% "parser.directives")) r → r = ⟨str% "2.0", some (.int 1), .directives⟩ := by
    rintro r ⟨j, h1, h2⟩
    cases h1
    exact Option.some.inj (h2.symm.trans (by decide +kernel))
  have r2 : ∀ r, IsRequest (Toy.req 2 (str% "parser.resolve-spans") [(str% "params", .arr [Wire.encSpan ⟨0, 0, 27⟩])]) r →
      r = ⟨str% "2.0", some (.int 2), .resolveSpans [⟨0, 0, 27⟩]⟩ := by
    rintro r ⟨j, h1, h2⟩
    cases h1
    exact Option.some.inj (h2.symm.trans (by decide +kernel))
  have r3 : ∀ r, IsRequest (Toy.req 3 (str% "book")) r → r = ⟨str% "2.0", some (.int 3), .book none⟩ := by
    rintro r ⟨j, h1, h2⟩
    cases h1
    exact Option.some.inj (h2.symm.trans (by decide +kernel))
  refine ⟨by simp [Toy.req], ?_, ?_⟩
  · intro r hr
    cases r1 r hr
    refine ⟨by simp [requestSpans], ?_⟩
    rintro ds (h | ⟨h, -⟩) <;> cases h
  intro s1 resp1 h1
  cases h1
  refine ⟨by simp [Toy.req], ?_, ?_⟩
  · intro r hr
    cases r2 r hr
    refine ⟨?_, ?_⟩
    · intro sp hsp
      simp only [requestSpans, List.mem_singleton] at hsp
      subst hsp
      exact Or.inr (List.mem_flatMap.2 ⟨_, List.mem_singleton.2 rfl, by simp [directiveSpans]⟩)
    · rintro ds (h | ⟨h, -⟩) <;> cases h
  intro s2 resp2 h2
  cases h2
  refine ⟨by simp [Toy.req], ?_, fun _ _ _ => trivial⟩
  intro r hr
  cases r3 r hr
  refine ⟨by simp [requestSpans], ?_⟩
  rintro ds (h | ⟨-, src, p, h, rfl⟩)
  · cases h
  · cases h
    intro pre d post b h hb
    cases pre with
    | nil => simp at h; rw [← h.1] at hb; simp [Toy.mkOpen] at hb
    | cons x pre => simp at h

example : (Server.serve Toy.ext Toy.lib (fun _ => id) 0 Ex.located Ex.chat).1.length = 3 := by decide +kernel

/-- A location which the client made up may end the server. -/
example : (Server.serve Toy.ext Toy.lib (fun _ => id) 0 Ex.located
    [Toy.req 2 (str% "parser.resolve-spans") [(str% "params", .arr [Wire.encSpan ⟨7, 0, 1⟩])]]).2 = .panicked := by decide +kernel

end Limabean
