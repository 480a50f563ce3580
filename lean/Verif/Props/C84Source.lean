import Verif.Props.C84
import Verif.Clj.Spans

/-! # C84: the source which stands for what plugins have written names all of them

When directives have to be reported which plugins have made or changed, sources are made up for their elements
(clj/src/limabean/adapter/synthetic_spans.clj:7-21). A report then shows the name of that source in place of a file. -/

namespace Limabean
open Clj

/-- What is asked for: for each directive with provenance, in order, for each of its elements, in order, a source. Its name tells every
plugin in the provenance, in order, separated by blanks, and nothing else; its content is the element as it is written. -/
theorem C84_source (T : Texts) (txt : Data → Str) (ds : List Data) :
    spanRequests T txt ds = (ds.filter fun d => (d.get (str% "provenance")).truthy).flatMap fun d =>
      (if d.get (str% "dct") matches .kw ['t', 'x', 'n'] then T.header d :: (d.get (str% "postings")).elems.map T.posting
        else [T.directive d]).map fun text =>
        { name := str% "Synthetic directive from " ++ (str% " ").intercalate ((d.get (str% "provenance")).elems.map (strOf txt)), content := text } := by
  unfold spanRequests
  congr 1
  funext d
  have he : elementTexts T d = if d.get (str% "dct") matches .kw ['t', 'x', 'n'] then T.header d :: (d.get (str% "postings")).elems.map T.posting
      else [T.directive d] := by
    unfold elementTexts
    congr 1
    unfold isKw
    split
    · rename_i s hs
      rw [hs]
      by_cases h : s = ['t', 'x', 'n']
      · subst h; simp
      · have h2 : (s == ['t', 'x', 'n']) = false := by simpa using h
        rw [h2]
        apply propext
        constructor
        · intro h; cases h
        · intro h3
          split at h3
          · rename_i h4; cases h4; exact absurd rfl h
          · cases h3
    · rename_i hs
      apply propext
      constructor
      · intro h; cases h
      · intro h3
        split at h3
        · rename_i h4; exact absurd h4 (hs _)
        · cases h3
  rw [he]
  apply List.map_congr_left
  intro s _
  simp only [spanRequest, joinSpace_eq]

/-- The name contains the name of every plugin the directive went through. -/
theorem C84_source_names (T : Texts) (txt : Data → Str) {ds : List Data} {r : SyntheticSpan} (hr : r ∈ spanRequests T txt ds) :
    ∃ d ∈ ds, ∀ plugin, .str plugin ∈ (d.get (str% "provenance")).elems → plugin <:+: r.name := by
  rw [C84_source] at hr
  obtain ⟨d, hd, hr⟩ := List.mem_flatMap.1 hr
  obtain ⟨s, _, rfl⟩ := List.mem_map.1 hr
  refine ⟨d, (List.mem_filter.1 hd).1, fun plugin hp => ?_⟩
  dsimp only
  have key : ∀ l : List Str, plugin ∈ l → plugin <:+: (str% " ").intercalate l := by
    intro l
    induction l with
    | nil => intro h; cases h
    | cons x l ih =>
      intro h
      cases l with
      | nil => rcases List.mem_singleton.1 h with rfl; simp [List.intercalate]
      | cons y l =>
        rw [intercalate_cons _ x (by simp)]
        rcases List.mem_cons.1 h with rfl | h
        · exact ⟨[], _, by simp; rfl⟩
        · exact (ih h).trans (List.suffix_append _ _).isInfix
  exact (key _ (List.mem_map.2 ⟨_, hp, rfl⟩)).trans (List.suffix_append _ _).isInfix

/-- A directive which went through two plugins: the source made for it names both. -/
example :
    (spanRequests { header := fun _ => [], posting := fun _ => [], directive := fun _ => str% "2020-01-01 open Assets:Bank" } (fun _ => [])
      [.map [(str% "dct", .kw (str% "open")), (str% "provenance", .vec [.str (str% "first"), .str (str% "second")])]]).map
      (fun r => (r.name, r.content)) = [(str% "Synthetic directive from first second", str% "2020-01-01 open Assets:Bank")] := by decide +kernel

end Limabean
