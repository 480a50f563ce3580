/-
C61: what the parser has read is what the server works with.
-/
import Verif.Spec.Source
import Verif.Spec.Order
import Verif.Spec.Server
import Verif.Props.C22
import Verif.Props.C59
import Verif.Clj.Registry

namespace Limabean

open Spec
open Lima (Spanned)

namespace Convert

variable {H : Hashes}

theorem flag_inj (h : FairHashes H) {f f' : Lima.Flag} (e : flag H f = flag H f') : f = f' := by
  have hs := h.symbol
  simp only [List.mem_cons, List.not_mem_nil, or_false, not_or] at hs
  cases f with
  | letter c =>
    cases f' with
    | letter c' => rw [h.letter c c' e]
    | _ => simp [flag, hs c] at e
  | _ =>
    cases f' with
    | letter c' =>
      have := hs c'
      simp only [flag] at e
      rw [← e] at this
      simp at this
    | _ => first | rfl | (exfalso; revert e; simp [flag])

theorem value_iff {v v' : Lima.MetaValue} : metaValue v = metaValue v' ↔ SameValue v v' := by
  cases v with
  | amount a =>
    cases v' with
    | amount a' => simp [metaValue, SameValue, SameAmount]
    | simple s => cases s <;> simp [metaValue, SameValue]
  | simple s =>
    cases v' with
    | amount a' => cases s <;> simp [metaValue, SameValue]
    | simple s' => cases s <;> cases s' <;> simp [metaValue, SameValue]

theorem set_perm (h : FairHashes H) {l l' : List (Spanned Str)} :
    (collectSet H l).Perm (collectSet H l') ↔ SameTexts l l' := by
  unfold collectSet
  have e : ((H.set (l.map fun x => x.item).dedup).Perm (H.set (l'.map fun x => x.item).dedup)) ↔
      (l.map fun x => x.item).dedup.Perm (l'.map fun x => x.item).dedup :=
    ⟨fun hp => (h.set _).symm.trans (hp.trans (h.set _)), fun hp => (h.set _).trans (hp.trans (h.set _).symm)⟩
  rw [e, List.perm_ext_iff_of_nodup (List.nodup_dedup _) (List.nodup_dedup _)]
  simp only [List.mem_dedup, List.mem_map]
  rfl

theorem sameSet_nonempty {α : Type} {l l' : List α} :
    SameSet (if l.isEmpty then none else some l) (if l'.isEmpty then none else some l') ↔ l.Perm l' := by
  cases l <;> cases l' <;> simp [SameSet]

theorem labels_iff (h : FairHashes H) {l l' : List (Spanned Str)} :
    SameSet (labels H l) (labels H l') ↔ SameTexts l l' := by
  rw [← set_perm h]
  exact sameSet_nonempty

/-- The map before it gets its iteration order. -/
def plainMap (l : List (Spanned Str × Spanned Lima.MetaValue)) : AMap Str MetaValue :=
  l.foldl (fun m kv => AMap.set m kv.1.item (metaValue kv.2.item)) []

theorem plainMap_snoc (l : List (Spanned Str × Spanned Lima.MetaValue)) (x) :
    plainMap (l ++ [x]) = AMap.set (plainMap l) x.1.item (metaValue x.2.item) := by
  simp [plainMap]

theorem plainMap_WF (l : List (Spanned Str × Spanned Lima.MetaValue)) : (plainMap l).WF := by
  induction l using List.reverseRecOn with
  | nil => exact AMap.WF_nil
  | append_singleton l x ih => rw [plainMap_snoc]; exact AMap.WF_set ih _ _

theorem plainMap_get (l : List (Spanned Str × Spanned Lima.MetaValue)) (k : Str) :
    (plainMap l).get k = (valueOf l k).map metaValue := by
  induction l using List.reverseRecOn with
  | nil => rfl
  | append_singleton l x ih =>
    rw [plainMap_snoc, AMap.get_set]
    unfold valueOf at *
    by_cases hk : x.1.item = k
    · simp [hk]
    · simp [hk, ih]

theorem map_perm {m m' : AMap Str MetaValue} (h : m.WF) (h' : m'.WF) : m.Perm m' ↔ ∀ k, m.get k = m'.get k := by
  constructor
  · intro hp k
    exact (AMap.get_perm h hp k).symm
  · intro hg
    rw [List.perm_ext_iff_of_nodup (List.Nodup.of_map _ h) (List.Nodup.of_map _ h')]
    rintro ⟨k, v⟩
    constructor
    · intro hm
      exact AMap.mem_of_get (by rw [← hg]; exact AMap.get_of_mem h hm)
    · intro hm
      exact AMap.mem_of_get (by rw [hg]; exact AMap.get_of_mem h' hm)

theorem keyValues_iff (h : FairHashes H) {l l' : List (Spanned Str × Spanned Lima.MetaValue)} :
    SameSet (keyValues H l) (keyValues H l') ↔ ∀ k, Option.Rel SameValue (valueOf l k) (valueOf l' k) := by
  have e : SameSet (keyValues H l) (keyValues H l') ↔ (H.map (plainMap l)).Perm (H.map (plainMap l')) := sameSet_nonempty
  have e' : ((H.map (plainMap l)).Perm (H.map (plainMap l'))) ↔ (plainMap l).Perm (plainMap l') :=
    ⟨fun hp => (h.map _).symm.trans (hp.trans (h.map _)), fun hp => (h.map _).trans (hp.trans (h.map _).symm)⟩
  rw [e, e', map_perm (plainMap_WF l) (plainMap_WF l')]
  refine forall_congr' fun k => ?_
  rw [plainMap_get, plainMap_get]
  cases valueOf l k <;> cases valueOf l' k <;> simp [value_iff]

theorem price_iff {s s' : Lima.PriceSpec} : priceSpec s = priceSpec s' ↔ SamePriceSpec s s' := by
  rcases s with _ | c | (e | e) | ⟨e | e, c⟩ <;> rcases s' with _ | c' | (e' | e') | ⟨e' | e', c'⟩ <;>
    simp [priceSpec, SamePriceSpec, SameScoped]

theorem cost_iff {s s' : Lima.CostSpec} : costSpec s = costSpec s' ↔ SameCostSpec s s' := by
  unfold costSpec
  rw [Raw.CostSpec.mk.injEq]
  exact ⟨fun ⟨h1, h2, h3, h4, h5, h6⟩ => ⟨h1, h2, h3, h4, h5, h6⟩, fun ⟨h1, h2, h3, h4, h5, h6⟩ => ⟨h1, h2, h3, h4, h5, h6⟩⟩

theorem flags_iff (h : FairHashes H) {x y : Option (Spanned Lima.Flag)} :
    (x.map fun z => flag H z.item) = (y.map fun z => flag H z.item) ↔ SameItem x y := by
  unfold SameItem
  cases x <;> cases y <;> simp
  exact ⟨flag_inj h, fun e => by rw [e]⟩

theorem rel_iff {α β : Type} {f : α → β} {R : α → α → Prop} (h : ∀ a b, f a = f b ↔ R a b) {x y : Option α} :
    x.map f = y.map f ↔ Option.Rel R x y := by
  cases x <;> cases y <;> simp [h]

theorem posting_iff (h : FairHashes H) {p p' : Spanned Lima.Posting} :
    ReorderedPosting (posting H p) (posting H p') ↔ SameSourcePosting p p' := by
  constructor
  · rintro ⟨h1, h2, h3, h4⟩
    simp only [posting, Raw.PostingSpec.mk.injEq, Option.some.injEq, and_true] at h4
    obtain ⟨a, b, c, d, e, f, g⟩ := h4
    exact ⟨a, (flags_iff h).1 b, c, d, e, (rel_iff fun _ _ => cost_iff).1 f, (rel_iff fun _ _ => price_iff).1 g,
      (labels_iff h).1 h1, (labels_iff h).1 h2, (keyValues_iff h).1 h3⟩
  · rintro ⟨a, b, c, d, e, f, g, h1, h2, h3⟩
    refine ⟨(labels_iff h).2 h1, (labels_iff h).2 h2, (keyValues_iff h).2 h3, ?_⟩
    simp only [posting, Raw.PostingSpec.mk.injEq, Option.some.injEq, and_true]
    exact ⟨a, (flags_iff h).2 b, c, d, e, (rel_iff fun _ _ => cost_iff).2 f, (rel_iff fun _ _ => price_iff).2 g⟩

theorem currencies_eq (h : FairHashes H) (l : List (Spanned Str)) :
    (if l.length > 0 then some (collectSet H l) else none) = labels H l := by
  unfold labels
  cases l with
  | nil =>
    have : collectSet H [] = [] := List.perm_nil.1 (h.set [])
    simp [this]
  | cons x l =>
    have : collectSet H (x :: l) ≠ [] := by
      intro e
      have := (h.set ((x :: l).map fun x => x.item).dedup)
      unfold collectSet at e
      rw [e] at this
      have := List.nil_perm.1 this
      have : x.item ∈ ([] : List Str) := by rw [← this, List.mem_dedup]; simp
      cases this
    simp [this]

theorem currencies_iff (h : FairHashes H) {l l' : List (Spanned Str)} :
    SameSet (if l.length > 0 then some (collectSet H l) else none) (if l'.length > 0 then some (collectSet H l') else none) ↔
      SameTexts l l' := by
  rw [currencies_eq h, currencies_eq h, labels_iff h]

theorem map_iff {α β : Type} {f : α → β} {R : α → α → Prop} (h : ∀ a b, f a = f b ↔ R a b) {l l' : List α} :
    l.map f = l'.map f ↔ List.Forall₂ R l l' := by
  induction l generalizing l' with
  | nil => cases l' <;> simp
  | cons a l ih => cases l' <;> simp [h, ih]

theorem forall_iff {α β : Type} {f : α → β} {R : α → α → Prop} {S : β → β → Prop} (h : ∀ a b, S (f a) (f b) ↔ R a b) {l l' : List α} :
    List.Forall₂ S (l.map f) (l'.map f) ↔ List.Forall₂ R l l' := by
  induction l generalizing l' with
  | nil => cases l' <;> simp
  | cons a l ih => cases l' <;> simp [h, ih]

theorem variant_iff (h : FairHashes H) {v v' : Lima.Variant} :
    ReorderedVariant (variant H v) (variant H v') ↔ SameSourceVariant v v' := by
  cases v with
  | transaction f py na ps =>
    cases v' with
    | transaction f' py' na' ps' =>
      simp only [variant, ReorderedVariant, SameSourceVariant, Raw.Transaction.mk.injEq, and_true]
      rw [forall_iff fun _ _ => posting_iff h]
      constructor
      · rintro ⟨h1, h2, h3, h4⟩
        exact ⟨flag_inj h h2, h3, h4, h1⟩
      · rintro ⟨h1, h2, h3, h4⟩
        exact ⟨h4, by rw [h1], h2, h3⟩
    | _ => simp [variant, ReorderedVariant, SameSourceVariant]
  | opn acc cs b =>
    cases v' with
    | opn acc' cs' b' =>
      simp only [variant, ReorderedVariant, SameSourceVariant, Raw.Open.mk.injEq, currencies_iff h, true_and]
      constructor
      · rintro ⟨h1, h2, h3⟩
        exact ⟨h2, h1, h3⟩
      · rintro ⟨h1, h2, h3⟩
        exact ⟨h2, h1, h3⟩
    | _ => simp [variant, ReorderedVariant, SameSourceVariant]
  | custom t vs =>
    cases v' with
    | custom t' vs' =>
      simp only [variant, ReorderedVariant, SameSourceVariant, Raw.Variant.custom.injEq, Raw.Custom.mk.injEq]
      rw [map_iff fun _ _ => value_iff]
    | _ => simp [variant, ReorderedVariant, SameSourceVariant]
  | _ =>
    cases v' <;>
      simp [variant, ReorderedVariant, SameSourceVariant, SameAmount, SameItem, and_assoc]

/-! ### The fields -/

theorem labels_read (h : FairHashes H) (l : List (Spanned Str)) : TextsRead l (labels H l) := by
  have hm : ∀ t, t ∈ collectSet H l ↔ ∃ x ∈ l, x.item = t := by
    intro t
    unfold collectSet
    rw [(h.set _).mem_iff, List.mem_dedup, List.mem_map]
  have hn : (collectSet H l).Nodup := (h.set _).nodup_iff.2 (List.nodup_dedup _)
  unfold labels
  cases hs : collectSet H l with
  | nil =>
    rw [hs] at hm
    refine ⟨fun t => ?_, by simp, by simp⟩
    rw [← hm t]
    simp
  | cons a s =>
    rw [hs] at hm hn
    refine ⟨fun t => ?_, by simpa using hn, by simp⟩
    rw [← hm t]
    simp

theorem value_read {v : Lima.MetaValue} {w : MetaValue} : ValueRead v w ↔ metaValue v = w := by
  constructor
  · intro h
    cases h <;> rfl
  · rintro rfl
    rcases v with (_ | _ | _ | _ | _ | _ | _ | _ | _) | _ <;> constructor

theorem pairs_read (h : FairHashes H) (l : List (Spanned Str × Spanned Lima.MetaValue)) : PairsRead l (keyValues H l) := by
  have hp : (collectMap H l).Perm (plainMap l) := h.map _
  have hw : ((collectMap H l).map Prod.fst).Nodup := (hp.map Prod.fst).nodup_iff.2 (plainMap_WF l)
  have hm : ∀ k v, (k, v) ∈ collectMap H l ↔ ∃ w ∈ valueOf l k, ValueRead w v := by
    intro k v
    rw [hp.mem_iff]
    have : (k, v) ∈ plainMap l ↔ (plainMap l).get k = some v := ⟨AMap.get_of_mem (plainMap_WF l), AMap.mem_of_get⟩
    rw [this, plainMap_get]
    simp [value_read]
  unfold keyValues
  cases hs : collectMap H l with
  | nil =>
    rw [hs] at hm
    refine ⟨fun k v => ?_, by simp, by simp⟩
    rw [← hm k v]
    simp
  | cons a s =>
    rw [hs] at hm hw
    refine ⟨fun k v => ?_, by simpa using hw, by simp⟩
    rw [← hm k v]
    simp

theorem option_read {α β : Type} {f : α → β} {R : α → β → Prop} (h : ∀ a, R a (f a)) (x : Option α) : Option.Rel R x (x.map f) := by
  cases x with
  | none => exact .none
  | some a => exact .some (h a)

theorem list_read {α β : Type} {f : α → β} {R : α → β → Prop} (h : ∀ a, R a (f a)) (l : List α) : List.Forall₂ R l (l.map f) := by
  induction l with
  | nil => exact .nil
  | cons a l ih => exact .cons (h a) ih

theorem flag_read (f : Lima.Flag) : FlagRead H.letter f (flag H f) := by
  cases f <;> constructor

theorem cost_read (c : Lima.CostSpec) : CostRead c (costSpec c) :=
  ⟨option_read (fun _ => rfl) _, option_read (fun _ => rfl) _, option_read (fun _ => rfl) _, option_read (fun _ => rfl) _,
    option_read (fun _ => rfl) _, rfl⟩

theorem price_read (p : Lima.PriceSpec) : PriceRead p (priceSpec p) := by
  rcases p with _ | c | (e | e) | ⟨e | e, c⟩ <;> simp [PriceRead, ScopedRead, priceSpec]

theorem posting_read (h : FairHashes H) (p : Spanned Lima.Posting) : PostingRead H.letter p (posting H p) where
  span := rfl
  flag := option_read (fun x : Spanned Lima.Flag => flag_read x.item) _
  account := rfl
  amount := option_read (fun _ => rfl) _
  currency := option_read (fun _ => rfl) _
  cost := option_read (fun x : Spanned Lima.CostSpec => cost_read x.item) _
  price := option_read (fun x : Spanned Lima.PriceSpec => price_read x.item) _
  attached := ⟨labels_read h _, labels_read h _, pairs_read h _⟩

theorem variant_read (h : FairHashes H) (v : Lima.Variant) : VariantRead H.letter v (variant H v) := by
  cases v with
  | transaction f py na ps =>
    exact ⟨flag_read _, option_read (fun _ => rfl) _, option_read (fun _ => rfl) _, list_read (posting_read h) _⟩
  | opn acc cs b =>
    refine ⟨rfl, ?_, option_read (fun _ => rfl) _⟩
    change TextsRead cs (if cs.length > 0 then some (collectSet H cs) else none)
    rw [currencies_eq h]
    exact labels_read h cs
  | custom t vs => exact ⟨rfl, list_read (fun _ => value_read.2 rfl) _⟩
  | balance acc a t => exact ⟨rfl, rfl, rfl, option_read (fun _ => rfl) _⟩
  | price c a => exact ⟨rfl, rfl, rfl, rfl⟩
  | close acc => exact rfl
  | commodity c => exact rfl
  | _ => exact ⟨rfl, rfl⟩

/-! ### What the parser guarantees -/

theorem texts_plain {l : List (Spanned Str)} {o : Option (List Str)} (h : TextsRead l o) (hl : ∀ x ∈ l, PlainName x.item) :
    ∀ s ∈ o, NamesOk s := by
  refine fun s hs => ⟨h.once s hs, fun t ht => ?_⟩
  obtain ⟨x, hx, rfl⟩ := (h.texts t).1 ⟨s, hs, ht⟩
  exact hl x hx

theorem value_ok {w : Lima.MetaValue} {v : MetaValue} (h : ValueRead w v) (hw : SourceValue w) : MetaOk v := by
  cases h <;> exact hw

theorem valueOf_mem {l : List (Spanned Str × Spanned Lima.MetaValue)} {k : Str} {w : Lima.MetaValue} (h : w ∈ valueOf l k) :
    ∃ x ∈ l, x.1.item = k ∧ x.2.item = w := by
  simp only [valueOf, Option.mem_def, Option.map_eq_some_iff] at h
  obtain ⟨x, hx, rfl⟩ := h
  have := List.mem_of_getLast? hx
  simp only [List.mem_filter, decide_eq_true_eq] at this
  exact ⟨x, this.1, this.2, rfl⟩

theorem attached_ok {m : Lima.Metadata} {tags links : Option (List Str)} {metadata : Option (List (Str × MetaValue))}
    (h : AttachedRead m tags links metadata) (hm : SourceMetadata m) : AttachedOk tags links metadata ∧ MetadataOk metadata := by
  have hk : ∀ l ∈ metadata, ∀ kv ∈ l, PlainName kv.1 ∧ MetaOk kv.2 := by
    rintro l hl ⟨k, v⟩ hkv
    obtain ⟨w, hw, hv⟩ := (h.metadata.values k v).1 ⟨l, hl, hkv⟩
    obtain ⟨x, hx, rfl, rfl⟩ := valueOf_mem hw
    exact ⟨(hm.keyValues x hx).1, value_ok hv (hm.keyValues x hx).2⟩
  refine ⟨⟨texts_plain h.tags hm.tags, texts_plain h.links hm.links, fun l hl => ⟨h.metadata.once l hl, hk l hl⟩⟩, fun l hl => ⟨h.metadata.once l hl, fun kv hkv d hd => ?_⟩⟩
  have := (hk l hl kv hkv).2
  rw [hd] at this
  exact this

theorem rel_mem {α β : Type} {R : α → β → Prop} {x : Option α} {y : Option β} (h : Option.Rel R x y) {b : β} (hb : b ∈ y) : ∃ a ∈ x, R a b := by
  cases h with
  | none => cases hb
  | some h => cases hb; exact ⟨_, rfl, h⟩

theorem posting_ok {letter : Char → Str} {p : Spanned Lima.Posting} {r : Raw.PostingSpec} (h : PostingRead letter p r)
    (hp : SourcePosting p.item) : PostingOk r ∧ MetadataOk r.metadata := by
  have ha := attached_ok h.attached hp.metadata
  refine ⟨⟨h.account ▸ hp.account, ?_, ?_, ?_, ha.1⟩, ha.2⟩
  · intro c hc
    obtain ⟨x, hx, rfl⟩ := rel_mem h.currency hc
    exact hp.currency x hx
  · intro c hc
    obtain ⟨x, hx, hr⟩ := rel_mem h.cost hc
    constructor
    · intro y hy
      obtain ⟨z, hz, rfl⟩ := rel_mem hr.cur hy
      exact (hp.cost x hx).1 z hz
    · intro y hy
      obtain ⟨z, hz, rfl⟩ := rel_mem hr.date hy
      exact (hp.cost x hx).2 z hz
  · intro c hc y hy
    obtain ⟨x, hx, hr⟩ := rel_mem h.price hc
    have hpr := hp.price x hx
    cases hi : x.item with
    | unspecified =>
      simp only [hi, PriceRead] at hr
      rw [hr.2.2] at hy
      cases hy
    | bareCurrency c' =>
      simp only [hi, PriceRead] at hr
      rw [hr.2.2] at hy
      cases hy
      rw [hi] at hpr
      exact hpr
    | bareAmount a =>
      simp only [hi, PriceRead] at hr
      rw [hr.2] at hy
      cases hy
    | currencyAmount a c' =>
      simp only [hi, PriceRead] at hr
      rw [hr.2] at hy
      cases hy
      rw [hi] at hpr
      exact hpr

theorem variant_ok {letter : Char → Str} {v : Lima.Variant} {w : Raw.Variant} (h : VariantRead letter v w) (hv : SourceVariant v) :
    VariantOk w ∧ match (generalizing := false) w with
      | .transaction t => ∀ p ∈ t.postings, MetadataOk p.metadata ∧ ∀ c ∈ p.costSpec, ∀ x ∈ c.date, CalendarDate x
      | .custom c => ∀ v ∈ c.values, ∀ x, v = .date x → CalendarDate x
      | _ => True := by
  cases v with
  | transaction f py na ps =>
    cases w <;> try (cases h; done)
    rename_i t
    obtain ⟨-, -, -, h⟩ := h
    have hp : ∀ q ∈ t.postings, PostingOk q ∧ MetadataOk q.metadata := by
      intro q hq
      obtain ⟨p, hp, hpq⟩ := forall₂_right h hq
      exact posting_ok hpq (hv p hp)
    exact ⟨fun q hq => (hp q hq).1, fun q hq => ⟨(hp q hq).2, fun c hc => ((hp q hq).1.cost c hc).2⟩⟩
  | price c a =>
    cases w <;> try (cases h; done)
    exact ⟨⟨h.1 ▸ hv.1, h.2.2.2 ▸ hv.2⟩, trivial⟩
  | balance acc a t =>
    cases w <;> try (cases h; done)
    exact ⟨⟨h.1 ▸ hv.1, h.2.2.1 ▸ hv.2⟩, trivial⟩
  | opn acc cs b =>
    cases w <;> try (cases h; done)
    exact ⟨⟨h.1 ▸ hv.1, texts_plain h.2.1 hv.2⟩, trivial⟩
  | close acc =>
    cases w <;> try cases h
    exact ⟨show PlainName _ from (show acc.item = _ from h) ▸ hv, trivial⟩
  | commodity c =>
    cases w <;> try cases h
    exact ⟨show PlainName _ from (show c.item = _ from h) ▸ hv, trivial⟩
  | pad acc s =>
    cases w <;> try (cases h; done)
    exact ⟨⟨h.1 ▸ hv.1, h.2 ▸ hv.2⟩, trivial⟩
  | document acc x =>
    cases w <;> try (cases h; done)
    exact ⟨show PlainName _ from h.1 ▸ hv, trivial⟩
  | note acc x =>
    cases w <;> try (cases h; done)
    exact ⟨show PlainName _ from h.1 ▸ hv, trivial⟩
  | event t x =>
    cases w <;> try (cases h; done)
    exact ⟨trivial, trivial⟩
  | query t x =>
    cases w <;> try (cases h; done)
    exact ⟨trivial, trivial⟩
  | custom t vs =>
    cases w <;> try (cases h; done)
    rename_i c
    have hp : ∀ y ∈ c.values, MetaOk y := by
      intro y hy
      obtain ⟨x, hx, hxy⟩ := forall₂_right h.2 hy
      exact value_ok hxy (hv x hx)
    refine ⟨hp, ?_⟩
    rintro y hy x rfl
    exact hp _ hy

end Convert

/-- C61: two parsed directives are the same to the server, up to the order of sets and maps, exactly when they say the same: so
nothing which was read gets lost, and nothing else matters. -/
theorem C61_directive (H : Convert.Hashes) (h : FairHashes H) (d d' : Spanned Lima.Directive) :
    ReorderedDirective (Convert.directive H d) (Convert.directive H d') ↔ SameSource d d' := by
  constructor
  · rintro ⟨h1, h2, h3, h4, h5, h6⟩
    simp only [Convert.directive, Option.some.injEq] at *
    exact ⟨h1, h2, ⟨(Convert.labels_iff h).1 h3, (Convert.labels_iff h).1 h4, (Convert.keyValues_iff h).1 h5⟩,
      (Convert.variant_iff h).1 h6⟩
  · rintro ⟨h1, h2, ⟨h3, h4, h5⟩, h6⟩
    exact ⟨by simp [Convert.directive, h1], h2, (Convert.labels_iff h).2 h3, (Convert.labels_iff h).2 h4,
      (Convert.keyValues_iff h).2 h5, (Convert.variant_iff h).2 h6⟩

namespace Convert

theorem noDates_entries {l : List (Str × Json)} (h : ∀ x ∈ l, x.1 ≠ str% "date" ∧ NoDates x.2) : NoDatesEntries l := by
  induction l with
  | nil => trivial
  | cons x l ih =>
    obtain ⟨k, j⟩ := x
    have := h (k, j) (by simp)
    exact ⟨fun e => absurd e this.1, this.2, ih fun x hx => h x (by simp [hx])⟩

theorem noDates_texts (l : List Str) : NoDatesAll (l.map .str) := by
  induction l with
  | nil => trivial
  | cons x l ih => exact ⟨trivial, ih⟩

theorem entry_mem {α : Type} {k : Str} {x : Option α} {f : α → Json} {y : Str × Json} (h : y ∈ Json.entry k x f) :
    ∃ a, y = (k, f a) := by
  unfold Json.entry at h
  split at h
  · simp only [List.mem_singleton] at h
    exact ⟨_, h⟩
  · cases h

theorem otherOptions_mem (o : Lima.Options) {x : Str × Json} (h : x ∈ otherOptions H o) : x.1 ∈ Clj.otherOptionNames ∧ NoDates x.2 := by
  simp only [otherOptions, List.mem_append] at h
  rcases h with ((((((((((h | h) | h) | h) | h) | h) | h) | h) | h) | h) | h) | h <;> obtain ⟨a, rfl⟩ := entry_mem h <;>
    refine ⟨by simp [Clj.otherOptionNames], ?_⟩ <;> first | trivial | exact noDates_texts _

end Convert

/-- C61: every field of a converted directive is that of the parsed directive with the same name, also at its postings. -/
theorem C61_reads (H : Convert.Hashes) (h : FairHashes H) (d : Spanned Lima.Directive) :
    DirectiveRead H.letter d (Convert.directive H d) :=
  ⟨rfl, rfl, ⟨Convert.labels_read h _, Convert.labels_read h _, Convert.pairs_read h _⟩, Convert.variant_read h _⟩

/-- C61: with what the parser guarantees of names and dates, the ledger which the server holds satisfies what the other properties assume:
names and dates are those of a beanfile, keys are unique, all elements have source locations; options have the names which the server
gives them and are not mistaken for dates. -/
theorem C61_wellformed (H : Convert.Hashes) (h : FairHashes H) (s : Lima.Success) (hs : ∀ d ∈ s.directives, SourceOk d.item) :
    (∀ d ∈ (Convert.parsed H s).directives, DirectiveOk d ∧ DatesOk d) ∧ AllSpans (Convert.parsed H s).directives ∧
      OptionsOk (Convert.parsed H s).options ∧ Clj.OptionsNamed (Convert.parsed H s).options := by
  refine ⟨?_, ?_, ?_, ?_⟩
  · intro d hd
    obtain ⟨x, hx, rfl⟩ := List.mem_map.1 hd
    have hr := C61_reads H h x
    have ha := Convert.attached_ok hr.attached (hs x hx).metadata
    have hv := Convert.variant_ok hr.variant (hs x hx).variant
    have hdt : CalendarDate (Convert.directive H x).date := (hs x hx).date
    exact ⟨⟨hdt, ha.1, hv.1⟩, hdt, ha.2, hv.2⟩
  · intro d hd
    obtain ⟨x, hx, rfl⟩ := List.mem_map.1 hd
    refine ⟨rfl, ?_⟩
    intro t ht p hp
    have hr := (C61_reads H h x).variant
    rw [ht] at hr
    cases hv : x.item.variant <;> rw [hv] at hr <;> try (cases hr; done)
    obtain ⟨q, -, hq⟩ := forall₂_right hr.2.2.2 hp
    rw [hq.span]
    rfl
  · refine Convert.noDates_entries fun x hx => ?_
    obtain ⟨h1, h2⟩ := Convert.otherOptions_mem _ hx
    exact ⟨fun e => absurd h1 (by rw [e]; decide), h2⟩
  · exact fun x hx => (Convert.otherOptions_mem _ hx).1

open Clj in
/-- C61: so a beanfile without plugins which the parser accepts and which books is loaded: the client gets its booked directives. -/
theorem C61_loaded {E : Ext} {L : BookLib} (H : Convert.Hashes) (h : FairHashes H) (F : Clj.Front E L) (ho : IsMapOrder F.ordm) (hs : IsOrder F.ord)
    (hreg : ∀ l o, F.registry l o ≠ none) (hL : DatesExist L) (src : E.Sources) (s : Lima.Success)
    (hd : ∀ d ∈ s.directives, SourceOk d.item) (hp : s.plugins = []) {out : List Booked.Directive} {w : List IndexedReport}
    (hb : book L (F.orders 4) (Server.bookOptions (Convert.parsed H s).options) (s.directives.map (Convert.directive H)) = .success out w) :
    ∃ m l, Clj.loadBeanfile F (.ready src (.ok (Convert.parsed H s))) = .ok m ∧ m.error = none ∧ m.directives = some l ∧
      List.Forall₂ (LoadedAs F.ord (s.directives.map (Convert.directive H))) (out.map withoutLostBooked) l := by
  obtain ⟨h1, -, h3, -⟩ := C61_wellformed H h s hd
  exact C59_plain F ho hs hreg hL src h3 (fun d hd => (h1 d hd).2) (by simp [Convert.parsed, hp]) hb

namespace Ex

/-- Sets and maps in the order in which they are written; letters as flags are written after an apostrophe. -/
def hashes : Convert.Hashes := ⟨id, id, fun c => ['\'', c]⟩

theorem hashes_fair : FairHashes hashes :=
  ⟨fun l => .refl l, fun l => .refl l, fun c c' h => by simpa [hashes] using h, fun c => by simp [hashes]⟩

/-- Something at a place in the source. -/
def at_ {α : Type} (n : Nat) (x : α) : Spanned α := ⟨x, { source := 0, start := n, stop := n + 1 }⟩

/-- `2010-01-01 open Assets:Current NZD,USD #a #b` with metadata `k`; `swapped` writes currencies, tags and metadata otherwise. -/
def account (swapped : Bool) : Spanned Lima.Directive :=
  at_ 0
    { date := at_ 0 (Toy.day 1)
      metadata :=
        { keyValues := if swapped then [(at_ 30 (str% "k"), at_ 32 (.simple (.bool false))), (at_ 40 (str% "k"), at_ 42 (.simple (.expr ⟨⟨3, 0⟩, str% "1+2"⟩)))]
            else [(at_ 30 (str% "k"), at_ 32 (.simple (.expr ⟨⟨3, 0⟩, str% "3"⟩)))]
          tags := if swapped then [at_ 20 (str% "b"), at_ 22 (str% "a"), at_ 24 (str% "b")] else [at_ 20 (str% "a"), at_ 22 (str% "b")]
          links := [] }
      variant := .opn (at_ 10 current) (if swapped then [at_ 12 usd, at_ 14 nzd] else [at_ 12 nzd, at_ 14 usd]) none }

/-- `2010-01-02 * "Shop" "Food"` with two postings, one of which has a total price. -/
def shopping (total : Bool) : Spanned Lima.Directive :=
  at_ 50
    { date := at_ 50 (Toy.day 2)
      metadata := ⟨[], [], []⟩
      variant := .transaction (at_ 51 .asterisk) (some (at_ 52 (str% "Shop"))) (some (at_ 53 (str% "Food")))
        [at_ 54 { flag := none, account := at_ 54 current, amount := some (at_ 55 ⟨⟨5, 0⟩, str% "5"⟩), currency := some (at_ 56 nzd), costSpec := none,
                  priceAnnotation := some (at_ 57 (.currencyAmount (if total then .total ⟨⟨3, 0⟩, str% "3"⟩ else .perUnit ⟨⟨3, 0⟩, str% "3"⟩) usd)),
                  metadata := ⟨[], [], []⟩ },
         at_ 58 { flag := some (at_ 58 (.letter 'P')), account := at_ 59 current, amount := none, currency := none, costSpec := none,
                  priceAnnotation := none, metadata := ⟨[], [], []⟩ }] }

/-- A parsed ledger of the two. -/
def read : Lima.Success :=
  { directives := [account true, shopping false]
    options := { nameAssets := str% "Assets", nameLiabilities := str% "Liabilities", nameEquity := str% "Equity", nameIncome := str% "Income",
                 nameExpenses := str% "Expenses", title := some (at_ 90 (str% "My ledger")), operatingCurrency := [nzd] }
    plugins := []
    warnings := [] }

theorem read_ok : ∀ d ∈ read.directives, SourceOk d.item := by
  have hday : ∀ n, n = 1 ∨ n = 2 → CalendarDate (Toy.day n) := by
    rintro n (rfl | rfl) <;> exact Wire.validDate_iff.1 (by decide +kernel)
  have name : ∀ {s : Str}, Json.borrowable s = true → PlainName s := fun h => Wire.borrowable_iff.1 h
  intro d hd
  simp only [read, List.mem_cons, List.not_mem_nil, or_false] at hd
  rcases hd with rfl | rfl
  · refine ⟨hday 1 (by simp), ⟨?_, ?_, ?_⟩, ?_, ?_⟩
    · intro x hx
      simp only [account, at_, if_true, List.mem_cons, List.not_mem_nil, or_false] at hx
      rcases hx with rfl | rfl | rfl <;> exact name (by decide +kernel)
    · intro x hx
      cases hx
    · intro x hx
      simp only [account, at_, if_true, List.mem_cons, List.not_mem_nil, or_false] at hx
      rcases hx with rfl | rfl <;> exact ⟨name (by decide +kernel), trivial⟩
    · exact name (by decide +kernel)
    · intro x hx
      simp only [at_, if_true, List.mem_cons, List.not_mem_nil, or_false] at hx
      rcases hx with rfl | rfl <;> exact name (by decide +kernel)
  · refine ⟨hday 2 (by simp), ⟨by simp [shopping, at_], by simp [shopping, at_], by simp [shopping, at_]⟩, ?_⟩
    intro p hp
    simp only [at_, List.mem_cons, List.not_mem_nil, or_false] at hp
    rcases hp with rfl | rfl
    · refine ⟨name (by decide +kernel), ?_, by simp, ?_, ⟨by simp, by simp, by simp⟩⟩
      · intro x hx
        cases hx
        exact name (by decide +kernel)
      · intro x hx
        cases hx
        exact name (s := usd) (by decide +kernel)
    · exact ⟨name (by decide +kernel), by simp, by simp, by simp, ⟨by simp, by simp, by simp⟩⟩

end Ex

/-- Non-vacuity of `C61_directive`: the two ways of writing the account say the same, also to the server; a price per unit and a total
price do not. -/
example : SameSource (Ex.account false) (Ex.account true) ∧ Ex.account false ≠ Ex.account true ∧
    ReorderedDirective (Convert.directive Ex.hashes (Ex.account false)) (Convert.directive Ex.hashes (Ex.account true)) ∧
    ¬ ReorderedDirective (Convert.directive Ex.hashes (Ex.shopping false)) (Convert.directive Ex.hashes (Ex.shopping true)) := by
  have h : SameSource (Ex.account false) (Ex.account true) := by
    refine ⟨rfl, rfl, ⟨?_, ?_, ?_⟩, rfl, ?_, rfl⟩
    · intro t
      simp only [Ex.account, Ex.at_, if_true, Bool.false_eq_true, if_false, List.mem_cons, List.not_mem_nil, or_false, exists_eq_or_imp, exists_eq_left]
      tauto
    · intro t
      rfl
    · intro k
      by_cases hk : str% "k" = k
      · subst hk
        exact .some rfl
      · simp [Ex.account, Ex.at_, valueOf, hk]
    · intro t
      simp only [Ex.at_, if_true, Bool.false_eq_true, if_false, List.mem_cons, List.not_mem_nil, or_false, exists_eq_or_imp, exists_eq_left]
      tauto
  refine ⟨h, ?_, (C61_directive Ex.hashes Ex.hashes_fair _ _).2 h, fun e => ?_⟩
  · intro e
    have := congrArg (fun d => d.item.metadata.tags.length) e
    revert this
    decide
  · have := ((C61_directive Ex.hashes Ex.hashes_fair _ _).1 e).variant
    simp only [Ex.shopping, Ex.at_, SameSourceVariant, Bool.false_eq_true, if_false, if_true] at this
    obtain ⟨-, -, -, h⟩ := this
    cases h with
    | cons h _ =>
      have := h.price
      cases this with
      | some h => exact h.1.elim

/-- Non-vacuity of `C61_loaded`: the parsed ledger meets its hypotheses; two directives are loaded. -/
example : FairHashes Ex.hashes ∧ (∀ d ∈ Ex.read.directives, SourceOk d.item) ∧ Ex.read.plugins = [] ∧ DatesExist Toy.lib ∧
    (∃ out w, book Toy.lib (Ex.strictFront.orders 4) (Server.bookOptions (Convert.parsed Ex.hashes Ex.read).options)
      (Ex.read.directives.map (Convert.directive Ex.hashes)) = .success out w ∧ out.length = 2) ∧
    (Ex.loadedDates Ex.strictFront (.ready [] (.ok (Convert.parsed Ex.hashes Ex.read)))).map List.length = some 2 :=
  ⟨Ex.hashes_fair, Ex.read_ok, rfl, Toy.lib_dates, ⟨_, _, rfl, by decide +kernel⟩, by decide +kernel⟩

end Limabean
