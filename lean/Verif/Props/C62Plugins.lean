/-
C62: warnings do not stop loading, also if there are plugins for raw directives.
-/
import Verif.Props.C62
import Verif.Props.C98

namespace Limabean

open Clj Spec

variable {E : Ext} {L : BookLib}

/-- C62 with raw plugins, for ledgers whose numbers satisfy the client's specification: if what the plugins pass on stands for directives
which book, then the beanfile is loaded without an error and nothing is printed, whatever booking warns of; no warning is kept.
Missing: that the user gets to see the warnings, which is false (`C62_false`). -/
theorem C62_plugins_partial (F : Front E L) (hL : Blind L) (hL' : DatesExist L) (hinj : Function.Injective F.hash) (ho : IsMapOrder F.ordm)
    (hs : IsOrder F.ord) (hreg : ∀ l o, F.registry l o ≠ none) (hf : ∀ k m, (F.orders k m).Perm m) (hv : F.valid = validDct) (src : E.Sources)
    {p : Parsed} (hp : OptionsOk p.options) (hd : ∀ d ∈ p.directives, DatesOk d ∧ NumbersFit (withoutLostMeta d))
    {ps : List Plugin} (hq : UsesAllRaw F p ps) {ys : List Data}
    (ht : throughVetted (validDct true) none ps (p.directives.map fun d => ofDirective F.ord (withoutLostMeta d)) = some ys)
    {ds : List Raw.Directive} (hw : List.Forall₂ Writes ys ds) (hds : ∀ d ∈ ds, DatesOk d)
    (order : AMap Str (Account L) → AMap Str (Account L)) (hf' : ∀ m, (order m).Perm m) {out : List Booked.Directive} {w : List IndexedReport}
    (hb : book L order (Server.bookOptions p.options) ds = .success out w) :
    ∃ m l, loadBeanfile F (.ready src (.ok p)) = .ok m ∧ (printErrors F m.pod m.error).2 = ([], true) ∧
      m.directives = some l ∧ l.length = out.length ∧ m.rawWarnings = .nil ∧ m.bookedWarnings = .nil := by
  obtain ⟨m, xs, h1, -, -, h4⟩ := C98_partial F hL hL' hinj ho hs hreg hf hv src hp hd hq ht hw hds order hf'
  rw [hb] at h4
  obtain ⟨he, l, out', hl, h5, h6⟩ := h4
  obtain ⟨h7, h8⟩ := C62_never F ho _ h1
  refine ⟨m, l, h1, by rw [he]; rfl, hl, ?_, h7, h8⟩
  rw [← h6.length_eq, List.length_map, ← h5.length_eq, List.length_map]

namespace Ex

/-- Lunch, paid from an account whose booking method is not supported. -/
def averagedLunch : List Raw.Directive :=
  [Toy.mkOpen 1 bank none (some .average), Toy.mkOpen 1 food, Toy.mkTxn 3 [(bank, ⟨-1250, 2⟩, nzd), (food, ⟨1250, 2⟩, nzd)]]

end Ex

/-- Non-vacuity: three directives which book with warnings, and meet the hypotheses (of the front end and the library they are those of
C98, and shown there; what the plugin makes stands for directives by `narration_run`). They are loaded with the plugin, and nothing is
printed. -/
example : (match book Toy.lib id (Server.bookOptions Toy.options) Ex.averagedLunch with | .success _ w => w.length | _ => 0) = 2 ∧
    (∀ d ∈ Ex.averagedLunch, DirectiveOk d ∧ DatesOk d ∧ NumbersFit (withoutLostMeta d)) ∧
    (match loadBeanfile (Ex.pluginFront (narrationPlugin (str% "Lunch"))) (Ex.withPlugin Ex.averagedLunch) with
      | .ok m => decide (m.directives.map List.length = some 3) &&
          decide ((printErrors (Ex.pluginFront (narrationPlugin (str% "Lunch"))) m.pod m.error).2 = ([], true))
      | .error _ => false) = true := by
  have hday : ∀ n, n = 1 ∨ n = 3 → CalendarDate (Toy.day n) := by
    rintro n (rfl | rfl) <;> exact Wire.validDate_iff.1 (by decide +kernel)
  have hbank : PlainName Ex.bank := Wire.borrowable_iff.1 (by decide +kernel)
  have hfood : PlainName Ex.food := Wire.borrowable_iff.1 (by decide +kernel)
  have hnzd : PlainName Ex.nzd := Wire.borrowable_iff.1 (by decide +kernel)
  refine ⟨by decide +kernel, ?_, by decide +kernel⟩
  intro d hd
  simp only [Ex.averagedLunch, List.mem_cons, List.not_mem_nil, or_false] at hd
  rcases hd with rfl | rfl | rfl
  · refine ⟨⟨hday 1 (by simp), ⟨by simp [Toy.mkOpen], by simp [Toy.mkOpen], by simp [Toy.mkOpen]⟩, ?_⟩,
      ⟨hday 1 (by simp), by simp [Toy.mkOpen, MetadataOk], trivial⟩, ?_⟩
    · exact ⟨hbank, by simp⟩
    · simp [NumbersFit, withoutLostMeta, withoutLost, Toy.mkOpen, metadataNumbers, variantNumbers, toleranceOf, FitsLong]
  · refine ⟨⟨hday 1 (by simp), ⟨by simp [Toy.mkOpen], by simp [Toy.mkOpen], by simp [Toy.mkOpen]⟩, ?_⟩,
      ⟨hday 1 (by simp), by simp [Toy.mkOpen, MetadataOk], trivial⟩, ?_⟩
    · exact ⟨hfood, by simp⟩
    · simp [NumbersFit, withoutLostMeta, withoutLost, Toy.mkOpen, metadataNumbers, variantNumbers, toleranceOf, FitsLong]
  · refine ⟨⟨hday 3 (by simp), ⟨by simp [Toy.mkTxn], by simp [Toy.mkTxn], by simp [Toy.mkTxn]⟩, ?_⟩,
      ⟨hday 3 (by simp), by simp [Toy.mkTxn, MetadataOk], ?_⟩, ?_⟩
    · intro q hq
      simp only [List.map_cons, List.map_nil, List.mem_cons, List.not_mem_nil, or_false] at hq
      rcases hq with rfl | rfl
      · exact ⟨hbank, by simpa using hnzd, by simp, by simp, ⟨by simp, by simp, by simp⟩⟩
      · exact ⟨hfood, by simpa using hnzd, by simp, by simp, ⟨by simp, by simp, by simp⟩⟩
    · intro q hq
      simp only [List.map_cons, List.map_nil, List.mem_cons, List.not_mem_nil, or_false] at hq
      rcases hq with rfl | rfl <;> simp [MetadataOk]
    · simp [NumbersFit, withoutLostMeta, withoutLost, Toy.mkTxn, metadataNumbers, variantNumbers, toleranceOf, FitsLong, postingNumbers]

end Limabean
