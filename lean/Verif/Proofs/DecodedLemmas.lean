/-
Whatever the server reads has dates of the calendar, and metadata with each key once.
-/
import Verif.Proofs.WireLemmas
import Verif.Props.C27
import Verif.Spec.ClientData

namespace Limabean

open Spec Json

namespace Wire

theorem parseDate_ok {s : Str} {d : Date} (h : parseDate s = some d) : CalendarDate d := by
  unfold parseDate at h
  split at h
  · split at h
    · dsimp only at h
      split at h
      · cases h
        exact validDate_iff.1 ‹_›
      · cases h
    · cases h
  · cases h

theorem decDate_ok {j : Json} {d : Date} (h : decDate j = some d) : CalendarDate d := by
  cases j <;> try cases h
  exact parseDate_ok h

theorem req_dec {α : Type} {l : List (Str × Json)} {k : Str} {dec : Json → Option α} {a : α} (h : req l k dec = some a) :
    ∃ j, dec j = some a := by
  unfold req at h
  split at h
  · exact ⟨_, h⟩
  · cases h

theorem opt_dec {α : Type} {l : List (Str × Json)} {k : Str} {dec : Json → Option α} {a : α} (h : opt l k dec = some (some a)) :
    ∃ j, dec j = some a := by
  unfold opt at h
  split at h <;> try cases h
  exact ⟨_, by simpa [Option.map_eq_some_iff] using h⟩

theorem all_mem {α β : Type} {f : α → Option β} {l : List α} {l' : List β} (h : Json.all f l = some l') :
    ∀ b ∈ l', ∃ a ∈ l, f a = some b := by
  induction l generalizing l' with
  | nil => cases h; simp
  | cons a l ih =>
    rw [Json.all] at h
    split at h
    · rename_i b bs hb hbs
      cases h
      intro c hc
      rcases List.mem_cons.1 hc with rfl | hc
      · exact ⟨a, by simp, hb⟩
      · obtain ⟨x, hx, hx'⟩ := ih hbs c hc
        exact ⟨x, by simp [hx], hx'⟩
    · cases h

theorem toList_mem {β : Type} {f : Json → Option β} {j : Json} {l' : List β} (h : toList f j = some l') :
    ∀ b ∈ l', ∃ a, f a = some b := by
  cases j <;> try cases h
  intro b hb
  obtain ⟨a, -, ha⟩ := all_mem h b hb
  exact ⟨a, ha⟩

theorem decMeta_ok {j : Json} {v : MetaValue} (h : decMeta j = some v) : ∀ d, v = .date d → CalendarDate d := by
  rintro d rfl
  unfold decMeta at h
  split at h
  · cases h
  · repeat' split at h
    all_goals simp only [Option.map_eq_some_iff, reduceCtorEq, and_false, exists_false] at h
    obtain ⟨x, hx, hx'⟩ := h
    cases hx'
    exact parseDate_ok hx
  · repeat' split at h
    all_goals cases h
  · cases h

theorem mem_set {α : Type} {m : List (Str × α)} {k : Str} {v : α} {p : Str × α} (h : p ∈ AMap.set m k v) : p = (k, v) ∨ p ∈ m := by
  induction m with
  | nil => simpa [AMap.set] using h
  | cons q m ih =>
    obtain ⟨a, b⟩ := q
    rw [AMap.set] at h
    split at h
    · rcases List.mem_cons.1 h with h | h
      · exact .inl h
      · exact .inr (by simp [h])
    · rcases List.mem_cons.1 h with h | h
      · exact .inr (by simp [h])
      · rcases ih h with h | h
        · exact .inl h
        · exact .inr (by simp [h])

theorem inserted_ok {α : Type} (l : List (Str × α)) : ((inserted l).map Prod.fst).Nodup ∧ ∀ p ∈ inserted l, p ∈ l := by
  have : ∀ (l m : List (Str × α)), (m.map Prod.fst).Nodup → ((l.foldl (fun m p => AMap.set m p.1 p.2) m).map Prod.fst).Nodup ∧
      ∀ p ∈ l.foldl (fun m p => AMap.set m p.1 p.2) m, p ∈ l ∨ p ∈ m := by
    intro l
    induction l with
    | nil => intro m h; exact ⟨h, fun p hp => .inr hp⟩
    | cons q l ih =>
      intro m h
      obtain ⟨h1, h2⟩ := ih (AMap.set m q.1 q.2) (AMap.WF_set (m := m) h q.1 q.2)
      refine ⟨h1, fun p hp => ?_⟩
      rcases h2 p hp with h | h
      · exact .inl (by simp [h])
      · rcases mem_set h with h | h
        · exact .inl (by simp [h])
        · exact .inr h
  obtain ⟨h1, h2⟩ := this l [] (by simp)
  exact ⟨h1, fun p hp => by simpa using h2 p hp⟩

theorem decMetadata_ok {j : Json} {l : List (Str × MetaValue)} (h : decMetadata j = some l) : MetadataOk (some l) := by
  rintro _ ⟨⟩
  unfold decMetadata at h
  cases j <;> try cases h
  rename_i es
  simp only [toMap, Option.map_eq_some_iff] at h
  obtain ⟨l', h1, rfl⟩ := h
  refine ⟨(inserted_ok l').1, fun kv hkv d hd => ?_⟩
  obtain ⟨e, -, he⟩ := all_mem h1 kv ((inserted_ok l').2 kv hkv)
  split at he
  · rename_i h2
    cases he
    exact decMeta_ok h2 d hd
  · cases he

theorem opt_metadata_ok {l : List (Str × Json)} {k : Str} {m : Option (List (Str × MetaValue))} (h : opt l k decMetadata = some m) :
    MetadataOk m := by
  cases m with
  | none => intro l hl; cases hl
  | some m =>
    obtain ⟨j, hj⟩ := opt_dec h
    exact decMetadata_ok hj

theorem decCostSpec_ok {j : Json} {c : Raw.CostSpec} (h : decCostSpec j = some c) : ∀ x ∈ c.date, CalendarDate x := by
  cases j <;> try cases h
  simp only [decCostSpec, Option.bind_eq_bind, Option.bind_eq_some_iff] at h
  obtain ⟨_, -, _, -, _, -, date, hd, _, -, _, -, h⟩ := h
  cases h
  intro x hx
  cases hx
  obtain ⟨j, hj⟩ := opt_dec hd
  exact decDate_ok hj

theorem decPosting_ok {j : Json} {p : Raw.PostingSpec} (h : decPosting j = some p) :
    MetadataOk p.metadata ∧ ∀ c ∈ p.costSpec, ∀ x ∈ c.date, CalendarDate x := by
  cases j <;> try cases h
  simp only [decPosting, Option.bind_eq_bind, Option.bind_eq_some_iff] at h
  obtain ⟨_, -, _, -, _, -, _, -, _, -, cs, hc, _, -, _, -, _, -, md, hm, h⟩ := h
  cases h
  refine ⟨opt_metadata_ok hm, ?_⟩
  intro c hc'
  cases hc'
  obtain ⟨j, hj⟩ := opt_dec hc
  exact decCostSpec_ok hj

theorem ite_cases {α : Type} {c : Prop} [Decidable c] {a b r : α} (h : (if c then a else b) = r) : (c ∧ a = r) ∨ (¬ c ∧ b = r) := by
  by_cases hc : c
  · exact .inl ⟨hc, by rw [if_pos hc] at h; exact h⟩
  · exact .inr ⟨hc, by rw [if_neg hc] at h; exact h⟩

/-- What the server reads as a directive has dates of the calendar, and metadata with each key once. -/
theorem decDirective_ok {j : Json} {d : Raw.Directive} (h : decDirective j = some d) : DatesOk d := by
  cases j <;> try cases h
  simp only [decDirective, Option.bind_eq_bind, Option.bind_eq_some_iff] at h
  obtain ⟨_, -, date, hd, _, -, _, -, md, hm, v, hv, h⟩ := h
  cases h
  obtain ⟨j, hj⟩ := req_dec hd
  refine ⟨decDate_ok hj, opt_metadata_ok hm, ?_⟩
  dsimp only
  unfold decVariant at hv
  split at hv
  · cases hv
  · rename_i dct _
    rcases ite_cases hv with ⟨-, hv⟩ | ⟨-, hv⟩
    · obtain ⟨_, -, hv⟩ := Option.bind_eq_some_iff.1 hv
      obtain ⟨_, -, hv⟩ := Option.bind_eq_some_iff.1 hv
      obtain ⟨_, -, hv⟩ := Option.bind_eq_some_iff.1 hv
      obtain ⟨ps, hp, h⟩ := Option.bind_eq_some_iff.1 hv
      cases h
      intro p hp'
      obtain ⟨j, hj⟩ := req_dec hp
      obtain ⟨a, ha⟩ := toList_mem hj p hp'
      exact decPosting_ok ha
    have fin : ∀ {α : Type} {x : Option α} {f : α → Raw.Variant}, (x.bind fun a => some (f a)) = some v → ∃ a, f a = v := by
      intro α x f hx
      obtain ⟨a, -, ha⟩ := Option.bind_eq_some_iff.1 hx
      exact ⟨a, Option.some.inj ha⟩
    iterate 10
      rcases ite_cases hv with ⟨-, hv⟩ | ⟨-, hv⟩
      · first
        | (obtain ⟨a, rfl⟩ := fin hv; trivial)
        | (obtain ⟨_, -, hv⟩ := Option.bind_eq_some_iff.1 hv; obtain ⟨a, rfl⟩ := fin hv; trivial)
        | (obtain ⟨_, -, hv⟩ := Option.bind_eq_some_iff.1 hv; obtain ⟨_, -, hv⟩ := Option.bind_eq_some_iff.1 hv; obtain ⟨a, rfl⟩ := fin hv; trivial)
        | (obtain ⟨_, -, hv⟩ := Option.bind_eq_some_iff.1 hv; obtain ⟨_, -, hv⟩ := Option.bind_eq_some_iff.1 hv
           obtain ⟨_, -, hv⟩ := Option.bind_eq_some_iff.1 hv; obtain ⟨a, rfl⟩ := fin hv; trivial)
    rcases ite_cases hv with ⟨-, hv⟩ | ⟨-, hv⟩
    · obtain ⟨_, -, hv⟩ := Option.bind_eq_some_iff.1 hv
      obtain ⟨vs, hp, h⟩ := Option.bind_eq_some_iff.1 hv
      cases h
      intro v hv' x hx
      obtain ⟨j, hj⟩ := req_dec hp
      obtain ⟨a, ha⟩ := toList_mem hj v hv'
      exact decMeta_ok ha x hx
    · cases hv

end Wire
end Limabean
