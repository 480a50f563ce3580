/-
C68: what passes the front end's check, the server accepts and understands.

This is false of the code: the check lets through directives which the server refuses (`C68_false`). What can be sent is said in
`SendDirective`; such directives the server reads, whoever made them, and it reads what they say.
-/
import Verif.Proofs.UnderstoodLemmas
import Verif.Props.C66

namespace Limabean

open Spec Clj

variable {E : Ext} {L : BookLib} {ordm : List (Str × Json) → List (Str × Json)}

/-- **C68**, in part: of the directives which pass the check, the server reads exactly those which can be sent. Missing: those which
pass the check and cannot be sent; directives with something else than a span as `:span`, at which the check does not look. -/
theorem C68_accepted_partial (ho : IsMapOrder ordm) {x : Data} (hr : RealData x) (hk : SpansKept x) (hv : validDct true x = true) :
    (∃ d, Wire.decDirective (toJson ordm x) = some d) ↔ SendDirective x :=
  ⟨fun ⟨_, hd⟩ => ((reads_directive ho).is hr ⟨hv, hk⟩ hd).2, fun h => (reads_directive ho).ex hr ⟨hv, hk⟩ h⟩

/-- **C68**, in part: what the server reads of a directive which passes the check is what the directive says. -/
theorem C68_understood_partial (ho : IsMapOrder ordm) {x : Data} (hr : RealData x) (hk : SpansKept x) (hv : validDct true x = true)
    {d : Raw.Directive} (hd : Wire.decDirective (toJson ordm x) = some d) : DirectiveIs x d :=
  ((reads_directive ho).is hr ⟨hv, hk⟩ hd).1

/-- **C68**, in part, of a loaded ledger: if there are raw plugins and loading ends without an error, then everything they made could be
sent, and what was booked is what they made. -/
theorem C68_booked_partial (F : Front E L) (hinj : Function.Injective F.hash) (ho : IsMapOrder F.ordm) (hs : IsOrder F.ord) (hE : SpanStore E)
    (hL : DatesExist L) (hvalid : F.valid = validDct) (src : E.Sources) {p : Parsed} (hp : OptionsOk p.options)
    (hd : ∀ d ∈ p.directives, DatesOk d) {m : LoadedBeans E} (h : loadBeanfile F (.ready src (.ok p)) = .ok m) (he : m.error = none)
    (hraw : rawPlugins F p m.options ≠ []) (hx : ∀ xs, m.rawXfDirectives = some xs → ∀ x ∈ xs, RealData x ∧ SpansKept x) :
    ∃ xs ds k out w, m.rawXfDirectives = some xs ∧ (∀ x ∈ xs, SendDirective x) ∧ List.Forall₂ DirectiveIs xs ds ∧
      book L (F.orders k) (Server.bookOptions p.options) ds = .success out w := by
  obtain ⟨src', k, xs, ds, out, w, bs, ys, -, -, h3, h4, -, -, h5, h6, -⟩ := ledger_stages F hinj ho hs hE hL src hp hd h he
  have hv := (h5 hvalid).1 hraw
  rw [if_pos hraw] at h6
  have hx := hx xs h6
  unfold ToBook at h3
  rw [if_neg hraw] at h3
  have hf := all_forall₂ h3
  rw [List.forall₂_map_left_iff] at hf
  have both : List.Forall₂ (fun x d => DirectiveIs x d ∧ SendDirective x) xs ds := by
    clear h3 h4 h5 h6
    induction hf with
    | nil => exact .nil
    | cons g1 g2 ih =>
      have hx0 := hx _ List.mem_cons_self
      exact .cons ((reads_directive ho).is hx0.1 ⟨hv _ List.mem_cons_self, hx0.2⟩ g1)
        (ih (fun x hxm => hv x (by simp [hxm])) fun x hxm => hx x (by simp [hxm]))
  refine ⟨xs, ds, k, out, w, h6, ?_, both.imp fun _ _ g => g.1, h4⟩
  clear h3 h4 h5 h6 hf hv hx
  induction both with
  | nil => simp
  | cons g1 g2 ih =>
    intro x hxm
    rcases List.mem_cons.1 hxm with rfl | hxm
    · exact g1.2
    · exact ih x hxm

namespace Ex

/-- A directive with these entries besides its date. -/
def dated (l : List (Str × Data)) : Data := .map ((str% "date", .date (Toy.day 5)) :: l)

/-- The server accepts it. -/
def accepted (d : Data) : Bool := (Wire.decDirective (toJson id d)).isSome

/-- A transaction without postings. -/
def noPostings : Data := dated [(str% "dct", .kw (str% "txn")), (str% "flag", .str (str% "*"))]

/-- A transaction with a posting without account. -/
def noAccount : Data := dated [(str% "dct", .kw (str% "txn")), (str% "flag", .str (str% "*")), (str% "postings", .vec [.map []])]

/-- A note with the given metadata value. -/
def noteWith (k : Str) (v : Data) : Data :=
  dated [(str% "dct", .kw (str% "note")), (str% "acc", .str current), (str% "comment", .str []), (str% "metadata", .map [(k, v)])]

/-- A directive without kind. -/
def noKind : Data := dated [(str% "dct", .nil)]

/-- A commodity with a quote in its name. -/
def quoted : Data := dated [(str% "dct", .kw (str% "commodity")), (str% "cur", .str (str% "N\"Z"))]

/-- A commodity with something else than a span. -/
def badSpan : Data := dated [(str% "dct", .kw (str% "commodity")), (str% "cur", .str nzd), (str% "span", .str (str% "line 1"))]

end Ex

/-- C68 is false: these directives pass the check, the server refuses them. -/
theorem C68_false : ∀ x ∈ [Ex.noPostings, Ex.noAccount, Ex.noteWith (str% "k") (.map [(str% "units", .num ⟨1, 0⟩)]),
    Ex.noteWith (str% "a\"b") .nil, Ex.noKind, Ex.quoted, Ex.badSpan], validDct true x = true ∧ Ex.accepted x = false := by
  intro x hx
  simp only [List.mem_cons, List.not_mem_nil, or_false] at hx
  rcases hx with rfl | rfl | rfl | rfl | rfl | rfl | rfl <;> exact ⟨by decide +kernel, by decide +kernel⟩

namespace Ex

/-- A transaction which a plugin might make. -/
def madeWell : Data := dated [(str% "dct", .kw (str% "txn")), (str% "flag", .str (str% "*")),
  (str% "tags", .set [.str (str% "auto")]), (str% "metadata", .map [(str% "n", .map [(str% "cur", .str nzd), (str% "units", .num ⟨1, 0⟩)])]),
  (str% "postings", .vec [.map [(str% "acc", .str current), (str% "units", .num ⟨15, 1⟩), (str% "cur", .str nzd),
    (str% "cost-spec", .map [(str% "per-unit", .num ⟨2, 0⟩), (str% "merge", .bool true)]), (str% "span-p", .nil)]])]

mutual
/-- `RealData`, computed. -/
def isReal : Data → Bool
  | .date d => Wire.validDate d
  | .map l => decide (l.map Prod.fst).Nodup && entriesReal l
  | .vec l => allReal l
  | .set l => allReal l
  | _ => true

/-- The elements of a vector or set. -/
def allReal : List Data → Bool
  | [] => true
  | x :: l => isReal x && allReal l

/-- The entries of a map. -/
def entriesReal : List (Str × Data) → Bool
  | [] => true
  | (_, x) :: l => isReal x && entriesReal l
end

mutual
theorem isReal_sound : ∀ {x : Data}, isReal x = true → RealData x
  | .nil, _ => .nil
  | .bool _, _ => .bool _
  | .num _, _ => .num _
  | .str _, _ => .str _
  | .kw _, _ => .kw _
  | .date _, h => .date (Wire.validDate_iff.1 h)
  | .map l, h => by
    simp only [isReal, Bool.and_eq_true, decide_eq_true_eq] at h
    exact .map h.1 (entriesReal_sound h.2)
  | .vec l, h => .vec (allReal_sound h)
  | .set l, h => .set (allReal_sound h)

theorem allReal_sound : ∀ {l : List Data}, allReal l = true → ∀ x ∈ l, RealData x
  | [], _, _, hx => by cases hx
  | y :: l, h, x, hx => by
    simp only [allReal, Bool.and_eq_true] at h
    rcases List.mem_cons.1 hx with e | hx
    · rw [e]
      exact isReal_sound h.1
    · exact allReal_sound h.2 x hx

theorem entriesReal_sound : ∀ {l : List (Str × Data)}, entriesReal l = true → ∀ p ∈ l, RealData p.2
  | [], _, _, hx => by cases hx
  | (k, y) :: l, h, p, hx => by
    simp only [entriesReal, Bool.and_eq_true] at h
    rcases List.mem_cons.1 hx with e | hx
    · rw [e]
      exact isReal_sound h.1
    · exact entriesReal_sound h.2 p hx
end

/-- There are no spans. -/
def noSpans (x : Data) : Bool := isNil (x.get (str% "span")) && (x.get (str% "postings")).elems.all fun p => isNil (p.get (str% "span"))

theorem noSpans_sound {x : Data} (h : noSpans x = true) : SpansKept x := by
  have hn : ∀ {y : Data}, isNil y = true → y = .nil := by
    intro y hy
    cases y <;> first | rfl | cases hy
  simp only [noSpans, Bool.and_eq_true, List.all_eq_true] at h
  exact ⟨.inl (hn h.1), fun p hp => .inl (hn (h.2 p hp))⟩

/-- A plugin which adds a transaction at the end. -/
def adding : Plugin where
  name := []
  step l := [.old (l.length - 1)]
  finish _ := [.new madeWell]

/-- A front end with this plugin, which checks what plugins make. -/
def addingFront : Front Toy.ext Toy.lib := { strictFront with resolve := fun _ _ => (some adding, none, none) }

/-- A ledger with an account, and this plugin. -/
def toAdd : Parsed :=
  { directives := [Toy.mkOpen 1 current, Toy.mkTxn 5 [(current, ⟨1, 0⟩, nzd)]]
    options := Toy.options, plugins := [(str% "adding", none)] }

end Ex

/-- Non-vacuity of `C68_accepted_partial` and `C68_understood_partial`: a transaction with tags, metadata and a posting at cost. An entry
`:payee nil` does not pass the check. -/
example : IsMapOrder (id : List (Str × Json) → List (Str × Json)) ∧ RealData Ex.madeWell ∧ SpansKept Ex.madeWell ∧
    validDct true Ex.madeWell = true ∧ validDct true (Ex.madeWell.assoc (str% "payee") .nil) = false ∧ SendDirective Ex.madeWell ∧
    Wire.decDirective (toJson id Ex.madeWell) = some
      { date := Toy.day 5, tags := some [str% "auto"], metadata := some [(str% "n", .amount ⟨1, 0⟩ Ex.nzd)]
        variant := .transaction { flag := str% "*", postings := [{ acc := Ex.current, units := some ⟨15, 1⟩, cur := some Ex.nzd
                                                                   costSpec := some { perUnit := some ⟨2, 0⟩, merge := true } }] } } := by
  have hreal : RealData Ex.madeWell := Ex.isReal_sound (by decide +kernel)
  have hspans : SpansKept Ex.madeWell := Ex.noSpans_sound (by decide +kernel)
  have hv : validDct true Ex.madeWell = true := by decide +kernel
  have hd : Wire.decDirective (toJson id Ex.madeWell) = some
      { date := Toy.day 5, tags := some [str% "auto"], metadata := some [(str% "n", .amount ⟨1, 0⟩ Ex.nzd)]
        variant := .transaction { flag := str% "*", postings := [{ acc := Ex.current, units := some ⟨15, 1⟩, cur := some Ex.nzd
                                                                   costSpec := some { perUnit := some ⟨2, 0⟩, merge := true } }] } } := by
    decide +kernel
  exact ⟨fun l => .refl l, hreal, hspans, hv, by decide +kernel, (C68_accepted_partial (fun l => .refl l) hreal hspans hv).1 ⟨_, hd⟩, hd⟩

/-- Loading ended without an error; the directives after the raw plugins have `p`. -/
def Ex.loadedRaw (F : Front Toy.ext Toy.lib) (s : Server Toy.ext) (p : Data → Bool) : Bool := match loadBeanfile F s with
  | .ok m => m.error.isNone && (match m.rawXfDirectives with | some xs => xs.all p | none => false)
  | .error _ => false

/-- Non-vacuity of `C68_booked_partial`: a ledger with a plugin which adds a transaction. -/
example : ∃ m, loadBeanfile Ex.addingFront (.ready [] (.ok Ex.toAdd)) = .ok m ∧ m.error = none ∧
    Function.Injective Ex.addingFront.hash ∧ IsMapOrder Ex.addingFront.ordm ∧ IsOrder Ex.addingFront.ord ∧ SpanStore Toy.ext ∧
    DatesExist Toy.lib ∧ Ex.addingFront.valid = validDct ∧ OptionsOk Ex.toAdd.options ∧ (∀ d ∈ Ex.toAdd.directives, DatesOk d) ∧
    rawPlugins Ex.addingFront Ex.toAdd m.options ≠ [] ∧ ∀ xs, m.rawXfDirectives = some xs → ∀ x ∈ xs, RealData x ∧ SpansKept x := by
  have hl : Ex.loadedRaw Ex.addingFront (.ready [] (.ok Ex.toAdd)) (fun x => Ex.isReal x && Ex.noSpans x) = true := by decide +kernel
  unfold Ex.loadedRaw at hl
  split at hl
  · rename_i m hm
    simp only [Bool.and_eq_true, Option.isNone_iff_eq_none] at hl
    refine ⟨m, hm, hl.1, fun _ _ h => h, fun l => .refl l, fun l => .refl l, Toy.spanStore, Toy.lib_dates, rfl,
      by simp [OptionsOk, Ex.toAdd, Toy.options, NoDatesEntries], ?_, List.cons_ne_nil _ _, ?_⟩
    · have hday : ∀ n, n = 1 ∨ n = 5 → CalendarDate (Toy.day n) := by
        rintro n (rfl | rfl) <;> exact Wire.validDate_iff.1 (by decide +kernel)
      intro d hd
      simp only [Ex.toAdd, List.mem_cons, List.not_mem_nil, or_false] at hd
      rcases hd with rfl | rfl
      · exact ⟨hday 1 (by simp), by simp [Toy.mkOpen, MetadataOk], trivial⟩
      · exact ⟨hday 5 (by simp), by simp [Toy.mkTxn, MetadataOk], by simp [Toy.mkTxn, MetadataOk]⟩
    · intro xs hxs x hx
      have hl := hl.2
      rw [hxs] at hl
      have := List.all_eq_true.1 hl x hx
      rw [Bool.and_eq_true] at this
      exact ⟨Ex.isReal_sound this.1, Ex.noSpans_sound this.2⟩
  · cases hl

end Limabean
