/-
Changing tags, metadata and spans of data which stand for a directive.
-/
import Verif.Proofs.WrittenBase
import Verif.Clj.TestPlugins
import Verif.Spec.Examples
import Verif.Proofs.BeansLemmas

namespace Limabean

open Spec Clj

namespace Clj

/-! ### Entries -/

theorem real_dissoc {m : Data} (hm : RealData m) (k : Str) : RealData (m.dissoc k) := by
  cases m with
  | map l =>
    cases hm with
    | map h1 h2 =>
      refine .map (AMap.WF_del h1 k) fun q hq => ?_
      have : ∀ (l : List (Str × Data)) (q : Str × Data), q ∈ AMap.del l k → q ∈ l := by
        intro l
        induction l with
        | nil => intro q hq; cases hq
        | cons e l ih =>
          obtain ⟨k', v'⟩ := e
          intro q hq
          unfold AMap.del at hq
          split at hq
          · exact List.mem_cons_of_mem _ hq
          · rcases List.mem_cons.1 hq with rfl | hq
            · simp
            · exact List.mem_cons_of_mem _ (ih q hq)
      exact h2 q (this l q hq)
  | _ => exact hm

theorem find_dissoc {m : Data} (hm : RealData m) (k k' : Str) : (m.dissoc k).find k' = if k = k' then none else m.find k' := by
  cases m with
  | map l =>
    cases hm with
    | map h1 h2 =>
      simp only [Data.dissoc, Data.find]
      exact AMap.get_del h1 k k'
  | _ => simp [Data.dissoc, Data.find]

theorem depth_dissoc (m : Data) (k : Str) : levels (m.dissoc k) ≤ levels m := by
  cases m with
  | map l =>
    simp only [Data.dissoc, levels]
    have : ∀ l : List (Str × Data), levelsEntries (AMap.del l k) ≤ levelsEntries l := by
      intro l
      induction l with
      | nil => simp [AMap.del]
      | cons e l ih =>
        obtain ⟨k', v'⟩ := e
        unfold AMap.del
        split
        · simp only [levelsEntries]; omega
        · simp only [levelsEntries]; omega
    have := this l
    omega
  | _ => exact Nat.le_refl _

theorem isMap_dissoc {m : Data} (h : Spec.IsMap m) (k : Str) : Spec.IsMap (m.dissoc k) := by
  cases m <;> try cases h
  trivial

/-- The same but for some entries. -/
def SameBut (ks : List Str) (y x : Data) : Prop := ∀ k, k ∉ ks → x.find k = y.find k

theorem SameBut.get {ks : List Str} {y x : Data} (h : SameBut ks y x) (k : Str) (hk : k ∉ ks) : x.get k = y.get k := by
  rw [get_find, get_find, h k hk]

/-- The entries which are changed here. -/
def touched : List Str := [str% "tags", str% "metadata", str% "span", str% "postings", str% "provenance"]

/-- The specification looks at other entries, and at these. -/
theorem validDct_touched {d r : Data} (hf : SameBut touched d r) (ha : attachedOk r = true)
    (hp : optUn d (str% "postings") (vectorOf isRawPosting) = true → optUn r (str% "postings") (vectorOf isRawPosting) = true)
    (h : validDct true d = true) : validDct true r = true := by
  have hr : ∀ k q, k ∉ touched → reqUn r k q = reqUn d k q := by
    intro k q h1
    simp only [reqUn, hf k h1]
  have ho : ∀ k q, k ∉ touched → optUn r k q = optUn d k q := by
    intro k q h1
    simp only [optUn, hf k h1]
  have hg : ∀ k, k ∉ touched → r.get k = d.get k := hf.get
  simp only [validDct, Bool.and_eq_true] at h ⊢
  obtain ⟨⟨h1, h2⟩, h3⟩ := h
  refine ⟨⟨?_, ha⟩, ?_⟩
  · rw [hr _ _ (by decide)]
    exact h1
  · unfold kindOk at h3 ⊢
    rw [hg _ (by decide)]
    split at h3
    · rename_i kind _
      by_cases c : kind = str% "txn"
      · rw [if_pos c] at h3 ⊢
        simp only [isTxn, Bool.and_eq_true, if_true] at h3 ⊢
        rw [hr _ _ (by decide), ho (str% "payee") _ (by decide), ho (str% "narration") _ (by decide)]
        exact ⟨h3.1, hp h3.2⟩
      · rw [if_neg c] at h3 ⊢
        have hany : ([str% "cur", str% "curs", str% "currency"].any fun k => (r.get k).truthy) =
            ([str% "cur", str% "curs", str% "currency"].any fun k => (d.get k).truthy) := by
          simp only [List.any_cons, List.any_nil]
          rw [hg _ (by decide), hg _ (by decide), hg _ (by decide)]
        have e : ∀ k q, k ∈ [str% "cur", str% "price", str% "acc", str% "units", str% "tolerance", str% "currencies", str% "booking",
            str% "source", str% "path", str% "comment", str% "type", str% "description", str% "name", str% "content", str% "values"] →
            reqUn r k q = reqUn d k q ∧ optUn r k q = optUn d k q := by
          intro k q hk
          have h1 : k ∉ touched := fun h => by
            simp only [touched, List.mem_cons, List.not_mem_nil, or_false] at h
            rcases h with rfl | rfl | rfl | rfl | rfl <;> revert hk <;> decide
          exact ⟨hr k q h1, ho k q h1⟩
        simp only [isBalance, isOpen, hany] at h3 ⊢
        rw [(e (str% "cur") _ (by decide)).1, (e (str% "price") _ (by decide)).1, (e (str% "acc") _ (by decide)).1,
          (e (str% "units") _ (by decide)).1, (e (str% "tolerance") _ (by decide)).2, (e (str% "currencies") _ (by decide)).2,
          (e (str% "booking") _ (by decide)).2, (e (str% "source") _ (by decide)).1, (e (str% "path") _ (by decide)).1,
          (e (str% "comment") _ (by decide)).1, (e (str% "type") _ (by decide)).1, (e (str% "description") _ (by decide)).1,
          (e (str% "name") _ (by decide)).1, (e (str% "content") _ (by decide)).1, (e (str% "values") _ (by decide)).1]
        exact h3
    · rw [has_find, hf _ (by decide), ← has_find]
      exact h3
    · cases h3

theorem variantIs_touched {y x : Data} (hf : SameBut touched y x) {v : Raw.Variant} (hn : ∀ t, v ≠ .transaction t) (h : VariantIs y v) :
    VariantIs x v := by
  have hg := fun k hk => hf.get k hk
  cases v with
  | transaction t => exact absurd rfl (hn t)
  | _ =>
    unfold VariantIs at h ⊢
    simp only [hg (str% "dct") (by decide), hg (str% "cur") (by decide), hg (str% "price") (by decide), hg (str% "acc") (by decide),
      hg (str% "units") (by decide), hg (str% "tolerance") (by decide), hg (str% "currencies") (by decide), hg (str% "booking") (by decide),
      hg (str% "source") (by decide), hg (str% "path") (by decide), hg (str% "comment") (by decide), hg (str% "type") (by decide),
      hg (str% "description") (by decide), hg (str% "name") (by decide), hg (str% "content") (by decide), hg (str% "values") (by decide)]
    exact h

theorem txnIs_touched {y x : Data} (hf : SameBut touched y x) {t : Raw.Transaction} (h : VariantIs y (.transaction t)) {ps : List Raw.PostingSpec}
    (hp : VecIs PostingIs (x.get (str% "postings")) ps) : VariantIs x (.transaction { t with postings := ps }) := by
  obtain ⟨h1, h2, h3, h4, -⟩ := h
  refine ⟨?_, ?_, ?_, ?_, hp⟩
  all_goals rw [hf.get _ (by decide)]; assumption

theorem sendDirective_touched {y x : Data} (hf : SameBut touched y x) (ha : SendAttached x) (h : SendDirective y)
    (hp : x.get (str% "postings") = y.get (str% "postings") ∨
      x.get (str% "postings") ≠ .nil ∧ ((∀ p ∈ (y.get (str% "postings")).elems, SendPosting p) → ∀ p ∈ (x.get (str% "postings")).elems, SendPosting p)) :
    SendDirective x := by
  obtain ⟨-, kind, h2, h3⟩ := h
  refine ⟨ha, kind, by rw [hf.get _ (by decide)]; exact h2, ?_, ?_, ?_, ?_, ?_⟩
  · intro k hk
    have hne : k ∉ touched := fun h => by
      unfold namesOfKind at hk
      simp only [touched, List.mem_cons, List.not_mem_nil, or_false] at h
      rcases h with rfl | rfl | rfl | rfl | rfl <;> (repeat' split at hk) <;> revert hk <;> decide
    rw [hf.get k hne]
    exact h3.names k hk
  · intro hk
    obtain ⟨g1, g2⟩ := h3.txn hk
    rcases hp with hp | ⟨h4, h5⟩
    · rw [hp]
      exact ⟨g1, g2⟩
    · exact ⟨h4, h5 g2⟩
  · intro hk
    rw [hf.get _ (by decide)]
    exact h3.price hk
  · intro hk
    rw [hf.get _ (by decide)]
    exact h3.opn hk
  · intro hk
    rw [hf.get _ (by decide)]
    exact h3.custom hk

/-- What is marked as made by plugins is marked by a vector. -/
def Marked (y : Data) : Prop := y.get (str% "provenance") = .nil ∨ ∃ l, y.get (str% "provenance") = .vec l

/-- Setting tags or metadata of what stands for a directive. -/
theorem writes_attached {y : Data} {d : Raw.Directive} (h : Writes y d) {k : Str} (hk : k = str% "tags" ∨ k = str% "metadata") {v : Data}
    (hv : RealData v) (hl : levels v < 125) {tags : Option (List Str)} {md : Option (List (Str × MetaValue))}
    (ha : attachedOk (y.assoc k v) = true) (hs : SendAttached (y.assoc k v)) (hi : AttachedIs (y.assoc k v) tags d.links (withoutLost md)) :
    Writes (y.assoc k v) { d with tags := tags, metadata := md } := by
  have hm := valid_isMap h.checked
  have hb : SameBut [str% "tags", str% "metadata"] y (y.assoc k v) := by
    intro k' hk'
    rw [find_assoc hm, if_neg]
    rintro rfl
    rcases hk with rfl | rfl <;> simp at hk'
  have hf : SameBut touched y (y.assoc k v) := fun k' hk' => hb k' fun hc => hk' (by
    simp only [List.mem_cons, List.not_mem_nil, or_false] at hc
    rcases hc with rfl | rfl <;> decide)
  have hpo : (y.assoc k v).get (str% "postings") = y.get (str% "postings") := hb.get _ (by decide)
  have hc := h.content
  refine ⟨⟨?_, ?_, ?_, ?_⟩, real_assoc h.real hv k, ?_, ?_, ?_, ?_, shallow_assoc _ h.shallow hl, ?_⟩
  · rw [hb.get _ (by decide)]
    exact hc.span
  · rw [hb.get _ (by decide)]
    exact hc.date
  · exact hi
  · have := hc.variant
    simp only [withoutLostMeta] at this ⊢
    cases hd : d.variant with
    | transaction t =>
      rw [hd] at this
      obtain ⟨-, -, -, -, h5⟩ := id this
      rw [← hpo] at h5
      exact txnIs_touched hf this h5
    | _ =>
      rw [hd] at this
      exact variantIs_touched hf (by simp) this
  · refine validDct_touched hf ha (fun hp => ?_) h.checked
    simpa only [optUn, hb _ (show str% "postings" ∉ _ by decide)] using hp
  · exact sendDirective_touched hf hs h.sendable (.inl hpo)
  · obtain ⟨h1, h2⟩ := h.spans
    unfold SpansKept SpanKept
    rw [hb.get _ (by decide), hpo]
    exact ⟨h1, h2⟩
  · unfold isErr
    rw [hb.get _ (by decide)]
    exact h.noError
  · rw [hb.get _ (by decide), hpo]
    exact h.onlyTxn

/-! ### Tags -/

theorem mem_set_elems {x : Data} {l : List Data} (h : x = .set l) : x.elems = l := by subst h; rfl

/-- Tagging what stands for a directive. -/
theorem writes_tag {y : Data} {d : Raw.Directive} (h : Writes y d) {tag : Str} (ht : PlainName tag) :
    Writes (y.assoc (str% "tags") (conjTag (y.get (str% "tags")) tag)) (tagged tag d) := by
  have hm := valid_isMap h.checked
  have ho : ∀ k, k ≠ str% "tags" → (y.assoc (str% "tags") (conjTag (y.get (str% "tags")) tag)).get k = y.get k := by
    intro k hk
    rw [get_assoc hm, if_neg hk]
  have hn : (y.assoc (str% "tags") (conjTag (y.get (str% "tags")) tag)).get (str% "tags") = conjTag (y.get (str% "tags")) tag := by
    rw [get_assoc hm, if_pos rfl]
  have hset : ∃ xs, (y.get (str% "tags")).elems = xs ∧ SetIs (.set xs) (d.tags.getD []) := by
    have := h.content.attached.tags
    simp only [withoutLostMeta] at this
    cases hd : d.tags with
    | none =>
      rw [hd] at this
      have this : y.get (str% "tags") = .nil := this
      exact ⟨[], by rw [this]; rfl, [], rfl, by simp, by simp⟩
    | some l =>
      rw [hd] at this
      obtain ⟨xs, h1, h2, h3⟩ := this
      exact ⟨xs, by rw [h1]; rfl, xs, rfl, h2, h3⟩
  obtain ⟨xs, hx, xs', hx', hnd, hmem⟩ := hset
  cases hx'
  have hany : (xs.any fun x => x.str? == some tag) = true ↔ tag ∈ d.tags.getD [] := by
    rw [hmem, List.any_eq_true]
    constructor
    · rintro ⟨x, h1, h2⟩
      cases x <;> simp [Data.str?] at h2
      subst h2
      exact h1
    · exact fun h => ⟨_, h, by simp [Data.str?]⟩
  have hall : ∀ x ∈ xs, RealData x ∧ levels x ≤ 123 := by
    intro x hxm
    refine ⟨real_elems (real_find h.real (str% "tags")) x (by rw [hx]; exact hxm), ?_⟩
    have h1 := depth_elems (m := y.get (str% "tags")) (x := x) (by rw [hx]; exact hxm)
    have h2 := depth_get y (str% "tags")
    have := h.shallow
    omega
  have hstr : (xs.all isStr) = true := by
    rw [List.all_eq_true]
    intro x hxm
    have hc := h.checked
    simp only [validDct, attachedOk, Bool.and_eq_true] at hc
    have hc := hc.1.2.1.1
    unfold optUn at hc
    rw [get_find] at hx
    cases hf : y.find (str% "tags") with
    | none =>
      rw [hf] at hx
      subst hx
      cases hxm
    | some v =>
      rw [hf] at hx hc
      cases v <;> try cases hc
      subst hx
      simp only [setOf, List.all_eq_true] at hc
      exact hc x hxm
  have hplain : ∀ x ∈ xs, SendName x := fun x hxm => h.sendable.attached.1 x (by rw [hx]; exact hxm)
  have hconj : conjTag (y.get (str% "tags")) tag = .set (if tag ∈ d.tags.getD [] then xs else xs ++ [.str tag]) := by
    unfold conjTag
    rw [hx]
    by_cases hc : tag ∈ d.tags.getD []
    · rw [if_pos hc, if_pos (hany.2 hc)]
    · rw [if_neg hc, if_neg (fun h => hc (hany.1 h))]
  have hmem' : ∀ x ∈ (if tag ∈ d.tags.getD [] then xs else xs ++ [Data.str tag]), x ∈ xs ∨ x = .str tag := by
    intro x hxm
    split at hxm
    · exact .inl hxm
    · simpa using hxm
  refine writes_attached h (.inl rfl) (md := d.metadata) ?_ ?_ ?_ ?_ ?_
  · rw [hconj]
    refine .set fun x hxm => ?_
    rcases hmem' x hxm with h | rfl
    · exact (hall x h).1
    · exact .str _
  · rw [hconj]
    have := depth_set_le (n := 123) (l := if tag ∈ d.tags.getD [] then xs else xs ++ [Data.str tag]) (by
      intro x hxm
      rcases hmem' x hxm with h | rfl
      · exact (hall x h).2
      · simp [levels])
    omega
  · have hc := h.checked
    simp only [validDct, attachedOk, Bool.and_eq_true] at hc ⊢
    refine ⟨⟨?_, ?_⟩, ?_⟩
    · simp only [optUn, find_assoc hm, if_true, hconj, setOf, List.all_eq_true]
      intro x hxm
      rcases hmem' x hxm with h | rfl
      · exact List.all_eq_true.1 hstr x h
      · rfl
    · simpa only [optUn, find_assoc hm, if_neg (show ¬ (str% "tags" : Str) = str% "links" by decide)] using hc.1.2.1.2
    · simpa only [optUn, find_assoc hm, if_neg (show ¬ (str% "tags" : Str) = str% "metadata" by decide)] using hc.1.2.2
  · obtain ⟨-, h2, h3⟩ := h.sendable.attached
    refine ⟨?_, by rw [ho _ (by decide)]; exact h2, by rw [ho _ (by decide)]; exact h3⟩
    rw [hn, hconj]
    intro x hxm
    rcases hmem' x hxm with h | rfl
    · exact hplain x h
    · intro s hs
      cases hs
      exact ht
  · refine ⟨?_, by rw [ho _ (by decide)]; exact h.content.attached.links, by rw [ho _ (by decide)]; exact h.content.attached.metadata⟩
    rw [hn, hconj]
    refine ⟨_, rfl, ?_, fun t => ?_⟩
    · split
      · exact hnd
      · rename_i hc
        rw [List.nodup_append]
        refine ⟨hnd, by simp, ?_⟩
        rintro a ha b hb rfl
        simp only [List.mem_singleton] at hb
        subst hb
        exact hc ha
    · split
      · exact hmem t
      · simp [hmem t]

/-! ### Metadata -/

/-- Data which stand for metadata, and can be sent. -/
structure Metas (x : Data) (l : List (Str × MetaValue)) : Prop where
  real : RealData x
  checked : isMetadata x = true
  sendable : SendMetadata x
  shallow : levels x < 125
  content : MetadataIs x l

theorem metaIs_ofMeta (v : MetaValue) : MetaIs (ofMeta v) v := by
  cases v <;> simp [MetaIs, ofMeta, NumIs, StrIs, Data.get, AMap.get]

theorem sendMeta_ofMeta {v : MetaValue} (h : MetaOk v) : SendMeta (ofMeta v) := by
  cases v with
  | null => exact ⟨fun k _ s hs => (by cases hs), fun n hn => (by cases hn)⟩
  | amount u c =>
    refine ⟨fun k _ s hs => ?_, fun n hn => (by cases hn)⟩
    simp only [ofMeta, Data.get, AMap.get] at hs
    split at hs
    · cases hs
    · split at hs
      · cases hs
        exact h
      · cases hs
  | string s => exact sendMeta_other (fun _ _ => rfl) (by decide)
  | currency c => exact (sendMeta_str (by decide) (by decide)).2 h
  | account c => exact (sendMeta_str (by decide) (by decide)).2 h
  | tag c => exact (sendMeta_str (by decide) (by decide)).2 h
  | link c => exact (sendMeta_str (by decide) (by decide)).2 h
  | date d => exact sendMeta_other (fun s hs => by cases hs) (by decide)
  | bool d => exact sendMeta_other (fun s hs => by cases hs) (by decide)
  | number d => exact sendMeta_other (fun s hs => by cases hs) (by decide)

theorem nodup_keys_set {V : Type} {l : List (Str × V)} (h : (l.map Prod.fst).Nodup) (k : Str) (v : V) : ((AMap.set l k v).map Prod.fst).Nodup :=
  AMap.WF_set (m := l) h k v

theorem mem_keys_set {V : Type} {l : List (Str × V)} {k k' : Str} {v : V} :
    k' ∈ (AMap.set l k v).map Prod.fst ↔ k' = k ∨ k' ∈ l.map Prod.fst := by
  have := AMap.keys_set l k v
  unfold AMap.keys at this
  rw [this]
  split
  · rename_i h
    constructor
    · exact .inr
    · rintro (rfl | h')
      · exact h
      · exact h'
  · simp [or_comm]

theorem mem_set_cases {V : Type} {l : List (Str × V)} (h : (l.map Prod.fst).Nodup) {k k' : Str} {v v' : V} (hm : (k', v') ∈ AMap.set l k v) :
    (k' = k ∧ v' = v) ∨ (k' ≠ k ∧ (k', v') ∈ l) := by
  have hn := nodup_keys_set h k v
  by_cases hk : k' = k
  · subst hk
    left
    refine ⟨rfl, ?_⟩
    have h1 := AMap.get_of_mem (m := AMap.set l k' v) hn hm
    rw [AMap.get_set_self] at h1
    exact (Option.some.inj h1).symm
  · rcases AMap.mem_set hm with h1 | h1
    · cases h1
      exact absurd rfl hk
    · exact .inr ⟨hk, h1⟩

/-- Setting one entry. -/
theorem Metas.set {x : Data} {l : List (Str × MetaValue)} (h : Metas x l) {k : Str} {v : MetaValue} (hk : PlainName k) (hv : MetaOk v)
    (hn : ∀ n ∈ metaNumbers v, FitsLong n) : Metas (x.assoc k (ofMeta v)) (AMap.set l k v) := by
  obtain ⟨xs, rfl, h1, h2, h3⟩ := h.content
  have hx : (xs.map Prod.fst).Nodup := by
    cases h.real with
    | map h _ => exact h
  refine ⟨real_assoc h.real (real_ofMeta hv) k, ?_, ?_, ?_, _, rfl, nodup_keys_set h1 k v, fun k' => ?_, fun k' v' m' hm hm' => ?_⟩
  · have := h.checked
    simp only [isMetadata, Data.assoc, List.all_eq_true] at this ⊢
    intro q hq
    rcases AMap.mem_set hq with rfl | hq
    · exact (isMetavalue_ofMeta v).2 hn
    · exact this q hq
  · rintro l' hl' q hq
    cases hl'
    rcases AMap.mem_set hq with rfl | hq
    · exact ⟨hk, sendMeta_ofMeta hv⟩
    · exact h.sendable _ rfl q hq
  · have := depth_assoc (.map xs) k (ofMeta v)
    have := depth_ofMeta v
    have := h.shallow
    omega
  · rw [mem_keys_set, mem_keys_set, h2]
  · rcases mem_set_cases hx hm with ⟨rfl, rfl⟩ | ⟨a, b⟩
    · rcases mem_set_cases h1 hm' with ⟨-, rfl⟩ | ⟨a, -⟩
      · exact metaIs_ofMeta m'
      · exact absurd rfl a
    · rcases mem_set_cases h1 hm' with ⟨c, -⟩ | ⟨-, c⟩
      · exact absurd c a
      · exact h3 k' v' m' b c

/-- Setting several entries. -/
theorem Metas.merge {x : Data} {l : List (Str × MetaValue)} (h : Metas x l) {m : List (Str × MetaValue)}
    (hm : ∀ p ∈ m, PlainName p.1 ∧ MetaOk p.2 ∧ ∀ n ∈ metaNumbers p.2, FitsLong n) :
    Metas (x.mergeMap (.map (m.map fun p => (p.1, ofMeta p.2)))) (m.foldr (fun p l => AMap.set l p.1 p.2) l) := by
  unfold Data.mergeMap
  simp only
  induction m with
  | nil => exact h
  | cons p m ih =>
    have hp := hm p (by simp)
    exact (ih fun p hp => hm p (by simp [hp])).set hp.1 hp.2.1 hp.2.2

/-- Metadata which may be missing. -/
theorem metas_of {y : Data} {d : Raw.Directive} (h : Writes y d) :
    Metas ((y.get (str% "metadata")).or (.map [])) ((withoutLost d.metadata).getD []) := by
  have hc := h.content.attached.metadata
  have hsh := depth_get y (str% "metadata")
  have := h.shallow
  simp only [withoutLostMeta] at hc
  cases hd : withoutLost d.metadata with
  | none =>
    rw [hd] at hc
    have hc : y.get (str% "metadata") = .nil := hc
    rw [hc]
    refine ⟨.map (by simp) (by simp), rfl, ?_, by simp [Data.or, Data.truthy, levels, levelsEntries], [], rfl, by simp, by simp, by simp⟩
    intro l hl q hq
    simp [Data.or, Data.truthy] at hl
    subst hl
    cases hq
  | some l =>
    rw [hd] at hc
    obtain ⟨xs, h1, h2⟩ := id hc
    have e : (y.get (str% "metadata")).or (.map []) = y.get (str% "metadata") := by
      rw [h1]
      rfl
    rw [e]
    refine ⟨real_find h.real _, ?_, h.sendable.attached.2.2, by omega, hc⟩
    have hv := h.checked
    simp only [validDct, attachedOk, Bool.and_eq_true] at hv
    have hv := hv.1.2.2
    unfold optUn at hv
    rw [get_find] at h1 ⊢
    cases hf : y.find (str% "metadata") with
    | none => rw [hf] at h1; cases h1
    | some v => rw [hf] at hv; exact hv

theorem withoutLost_set {l : List (Str × MetaValue)} {k : Str} {v : MetaValue} (hk : k ≠ str% "dct") (hk' : k ≠ str% "booking") :
    (AMap.set l k v).map (fun p => if p.1 = str% "dct" ∨ p.1 = str% "booking" then (p.1, MetaValue.null) else p) =
      AMap.set (l.map fun p => if p.1 = str% "dct" ∨ p.1 = str% "booking" then (p.1, MetaValue.null) else p) k v := by
  induction l with
  | nil => simp [AMap.set, hk, hk']
  | cons e l ih =>
    obtain ⟨k', v'⟩ := e
    have hfst : (if k' = str% "dct" ∨ k' = str% "booking" then (k', MetaValue.null) else (k', v')) =
        (k', if k' = str% "dct" ∨ k' = str% "booking" then MetaValue.null else v') := by split <;> rfl
    simp only [AMap.set, List.map_cons, hfst]
    by_cases h : k' = k
    · subst h
      simp [hk, hk']
    · simp only [h, if_false, List.map_cons, ih, hfst]

theorem withoutLost_merge {md : Option (List (Str × MetaValue))} {m : List (Str × MetaValue)}
    (hm : ∀ p ∈ m, p.1 ≠ str% "dct" ∧ p.1 ≠ str% "booking") :
    withoutLost (some (m.foldr (fun p l => AMap.set l p.1 p.2) (md.getD []))) =
      some (m.foldr (fun p l => AMap.set l p.1 p.2) ((withoutLost md).getD [])) := by
  unfold withoutLost
  rw [Option.map_some]
  congr 1
  induction m with
  | nil => cases md <;> rfl
  | cons p m ih =>
    have hp := hm p (by simp)
    rw [List.foldr_cons, withoutLost_set hp.1 hp.2, ih fun p hp => hm p (by simp [hp])]
    rfl

/-- Setting metadata of what stands for a directive. -/
theorem writes_metadata {y : Data} {d : Raw.Directive} (h : Writes y d) {m : List (Str × MetaValue)} (hm : Settable m) :
    Writes (y.assoc (str% "metadata") (((y.get (str% "metadata")).or (.map [])).mergeMap (.map (m.map fun p => (p.1, ofMeta p.2)))))
      (withMetadata m d) := by
  have hmap := valid_isMap h.checked
  have hx := (metas_of h).merge (m := m) fun p hp => ⟨(hm p hp).1, (hm p hp).2.2.2⟩
  have ho : ∀ v k, k ≠ str% "metadata" → (y.assoc (str% "metadata") v).get k = y.get k := by
    intro v k hk
    rw [get_assoc hmap, if_neg hk]
  have hn : ∀ v, (y.assoc (str% "metadata") v).get (str% "metadata") = v := by
    intro v
    rw [get_assoc hmap, if_pos rfl]
  refine writes_attached h (.inr rfl) (tags := d.tags) hx.real hx.shallow ?_ ?_ ?_
  · have hc := h.checked
    simp only [validDct, attachedOk, Bool.and_eq_true] at hc ⊢
    refine ⟨⟨?_, ?_⟩, ?_⟩
    · simpa only [optUn, find_assoc hmap, if_neg (show ¬ (str% "metadata" : Str) = str% "tags" by decide)] using hc.1.2.1.1
    · simpa only [optUn, find_assoc hmap, if_neg (show ¬ (str% "metadata" : Str) = str% "links" by decide)] using hc.1.2.1.2
    · simp only [optUn, find_assoc hmap, if_true]
      exact hx.checked
  · obtain ⟨h1, h2, -⟩ := h.sendable.attached
    exact ⟨by rw [ho _ _ (by decide)]; exact h1, by rw [ho _ _ (by decide)]; exact h2, by rw [hn]; exact hx.sendable⟩
  · refine ⟨by rw [ho _ _ (by decide)]; exact h.content.attached.tags, by rw [ho _ _ (by decide)]; exact h.content.attached.links, ?_⟩
    rw [hn, withoutLost_merge fun p hp => ⟨(hm p hp).2.1, (hm p hp).2.2.1⟩]
    exact hx.content

/-! ### Copies -/

theorem get_dissoc_real {m : Data} (hm : RealData m) (k k' : Str) (hk : k' ≠ k) : (m.dissoc k).get k' = m.get k' := by
  rw [get_find, get_find, find_dissoc hm, if_neg (Ne.symm hk)]

theorem span_dissoc {m : Data} (hm : RealData m) (k : Str) : (m.dissoc k).get k = .nil := by
  rw [get_find, find_dissoc hm, if_pos rfl]
  rfl

theorem postingIs_dissoc {x : Data} (hx : RealData x) {p : Raw.PostingSpec} (h : PostingIs x p) :
    PostingIs (x.dissoc (str% "span")) { p with span := none } := by
  have hg : ∀ k, k ≠ str% "span" → (x.dissoc (str% "span")).get k = x.get k := fun k hk => get_dissoc_real hx _ k hk
  constructor
  · exact span_dissoc hx _
  · rw [hg _ (by decide)]; exact h.flag
  · rw [hg _ (by decide)]; exact h.acc
  · rw [hg _ (by decide)]; exact h.units
  · rw [hg _ (by decide)]; exact h.cur
  · rw [hg _ (by decide)]; exact h.costSpec
  · rw [hg _ (by decide)]; exact h.priceSpec
  · exact attachedIs_get (hg _ (by decide)) (hg _ (by decide)) (hg _ (by decide)) h.attached

theorem sendPosting_dissoc {x : Data} (hx : RealData x) (h : SendPosting x) : SendPosting (x.dissoc (str% "span")) := by
  have hg : ∀ k, k ≠ str% "span" → (x.dissoc (str% "span")).get k = x.get k := fun k hk => get_dissoc_real hx _ k hk
  obtain ⟨h1, h2, h3, h4, h5, h6⟩ := h
  refine ⟨?_, ?_, ?_, ?_, ?_, sendAttached_get (hg _ (by decide)) (hg _ (by decide)) (hg _ (by decide)) h6⟩
  all_goals rw [hg _ (by decide)]; assumption

theorem rawPosting_dissoc {x : Data} (hx : RealData x) (h : isRawPosting x = true) : isRawPosting (x.dissoc (str% "span")) = true := by
  have ho : ∀ k q, k ≠ str% "span" → optUn (x.dissoc (str% "span")) k q = optUn x k q := by
    intro k q hk
    simp only [optUn, find_dissoc hx, if_neg (Ne.symm hk)]
  have hm : isMap (x.dissoc (str% "span")) = isMap x := by cases x <;> rfl
  simp only [isRawPosting, attachedOk, hm] at h ⊢
  rw [ho _ _ (by decide), ho (str% "acc") _ (by decide), ho (str% "units") _ (by decide), ho (str% "cur") _ (by decide),
    ho (str% "cost-spec") _ (by decide), ho (str% "price-spec") _ (by decide), ho (str% "tags") _ (by decide), ho (str% "links") _ (by decide),
    ho (str% "metadata") _ (by decide)]
  exact h

/-- Taking spans from what stands for a transaction. -/
theorem writes_unplaced {y : Data} {d : Raw.Directive} (h : Writes y d) {t : Raw.Transaction} (hd : d.variant = .transaction t) :
    Writes ((y.dissoc (str% "span")).assoc (str% "postings") (.vec ((y.get (str% "postings")).elems.map fun p => p.dissoc (str% "span"))))
      { d with span := none, variant := .transaction { t with postings := t.postings.map fun p => { p with span := none } } } := by
  have hm := valid_isMap h.checked
  have hm' := isMap_dissoc hm (str% "span")
  generalize hz : (y.dissoc (str% "span")).assoc (str% "postings") (.vec ((y.get (str% "postings")).elems.map fun p => p.dissoc (str% "span"))) = z
  have hb : SameBut [str% "span", str% "postings"] y z := by
    intro k hk
    simp only [List.mem_cons, List.not_mem_nil, or_false, not_or] at hk
    rw [← hz, find_assoc hm', if_neg (Ne.symm hk.2), find_dissoc h.real, if_neg (Ne.symm hk.1)]
  have hf : SameBut touched y z := fun k' hk' => hb k' fun hc => hk' (by
    simp only [List.mem_cons, List.not_mem_nil, or_false] at hc
    rcases hc with rfl | rfl <;> decide)
  have hsp : z.get (str% "span") = .nil := by
    rw [← hz, get_assoc hm', if_neg (by decide), span_dissoc h.real]
  have hpo : z.get (str% "postings") = .vec ((y.get (str% "postings")).elems.map fun p => p.dissoc (str% "span")) := by
    rw [← hz, get_assoc hm', if_pos rfl]
  have hre : ∀ p ∈ (y.get (str% "postings")).elems, RealData p := real_elems (real_find h.real _)
  have hc := h.content
  have hv := hc.variant
  simp only [withoutLostMeta, hd] at hv
  refine ⟨⟨hsp, ?_, ?_, ?_⟩, ?_, ?_, ?_, ?_, ?_, ?_, ?_⟩
  · rw [hb.get _ (by decide)]
    exact hc.date
  · exact attachedIs_get (hb.get _ (by decide)) (hb.get _ (by decide)) (hb.get _ (by decide)) hc.attached
  · simp only [withoutLostMeta]
    obtain ⟨-, -, -, -, l, h5, h6⟩ := id hv
    refine txnIs_touched hf hv (ps := ((t.postings.map fun p => { p with span := none }).map fun p => { p with metadata := withoutLost p.metadata })) ?_
    refine ⟨_, hpo, ?_⟩
    rw [h5] at hre ⊢
    change List.Forall₂ _ (l.map _) _
    have hre : ∀ p ∈ l, RealData p := hre
    clear h5 hpo
    generalize t.postings = ps at h6
    induction ps generalizing l with
    | nil => cases h6; exact .nil
    | cons p ps ih =>
      cases h6 with
      | cons h1 h2 =>
        exact .cons (postingIs_dissoc (hre _ (by simp)) h1) (ih _ (fun p hp => hre p (List.mem_cons_of_mem _ hp)) (fun p hp => hre p (List.mem_cons_of_mem _ hp)) h2)
  · rw [← hz]
    refine real_assoc (real_dissoc h.real _) (.vec fun x hx => ?_) _
    obtain ⟨p, hp, rfl⟩ := List.mem_map.1 hx
    exact real_dissoc (hre p hp) _
  · refine validDct_touched hf ?_ (fun hp => ?_) h.checked
    · have := h.checked
      simp only [validDct, Bool.and_eq_true] at this
      simpa only [attachedOk, optUn, hb _ (show str% "tags" ∉ _ by decide), hb _ (show str% "links" ∉ _ by decide),
        hb _ (show str% "metadata" ∉ _ by decide)] using this.1.2
    · rw [← hz]
      simp only [optUn, find_assoc hm', if_true, vectorOf, List.all_eq_true]
      intro x hx
      obtain ⟨p, hp', rfl⟩ := List.mem_map.1 hx
      refine rawPosting_dissoc (hre p hp') ?_
      unfold optUn at hp
      rw [get_find] at hp'
      cases hfp : y.find (str% "postings") with
      | none => rw [hfp] at hp'; cases hp'
      | some v =>
        rw [hfp] at hp hp'
        cases v <;> try cases hp
        exact List.all_eq_true.1 hp p hp'
  · refine sendDirective_touched hf (sendAttached_get (hb.get _ (by decide)) (hb.get _ (by decide)) (hb.get _ (by decide)) h.sendable.attached)
      h.sendable (.inr ⟨by rw [hpo]; exact (fun h => by cases h), fun hs => ?_⟩)
    rw [hpo]
    intro x hx
    obtain ⟨p, hp, rfl⟩ := List.mem_map.1 hx
    exact sendPosting_dissoc (hre p hp) (hs p hp)
  · refine ⟨.inl hsp, ?_⟩
    rw [hpo]
    intro x hx
    obtain ⟨p, hp, rfl⟩ := List.mem_map.1 hx
    exact .inl (span_dissoc (hre p hp) _)
  · unfold isErr
    rw [hb.get _ (by decide)]
    exact h.noError
  · rw [← hz]
    have h1 := depth_dissoc y (str% "span")
    have h2 := h.shallow
    refine shallow_assoc _ (by omega) ?_
    have h3 := depth_get y (str% "postings")
    have := depth_vec_le (n := 123) (l := (y.get (str% "postings")).elems.map fun p => p.dissoc (str% "span")) (by
      intro x hx
      obtain ⟨p, hp, rfl⟩ := List.mem_map.1 hx
      have := depth_dissoc p (str% "span")
      have := depth_elems hp
      omega)
    omega
  · rw [hb.get _ (by decide)]
    exact .inl hv.1

/-- Copying what stands for a transaction. -/
theorem writes_copy {y : Data} {d : Raw.Directive} (h : Writes y d) {t : Raw.Transaction} (hd : d.variant = .transaction t) :
    Writes (copyData y) (copyOf d) := by
  have h1 := writes_unplaced h hd
  have h2 := writes_metadata h1 (m := [(str% "dup", .null)]) (by
    intro p hp
    simp only [List.mem_singleton] at hp
    subst hp
    exact ⟨Wire.borrowable_iff.1 (by decide +kernel), by decide, by decide, trivial, by simp [metaNumbers]⟩)
  have hm' := isMap_dissoc (valid_isMap h.checked) (str% "span")
  have hg : ((y.dissoc (str% "span")).assoc (str% "postings") (.vec ((y.get (str% "postings")).elems.map fun p => p.dissoc (str% "span")))).get
      (str% "metadata") = y.get (str% "metadata") := by
    rw [get_assoc hm', if_neg (by decide), get_dissoc_real h.real _ _ (by decide)]
  rw [hg] at h2
  unfold copyData copyOf
  rw [hd]
  exact h2

end Clj
end Limabean
