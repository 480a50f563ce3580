/-
C39: the plugin auto_accounts opens exactly what is missing.
-/
import Verif.Clj.AutoAccounts
import Verif.Props.C30
import Verif.Spec.Ledger
import Verif.Props.Examples

namespace Limabean

open Spec Clj

/-- The directive opens the account. -/
def Spec.Opens (a : Str) (d : Raw.Directive) : Prop := ∃ o, d.variant = .opn o ∧ o.acc = a

/-- The directive is a transaction which posts to the account. -/
def Spec.Uses (a : Str) (d : Raw.Directive) : Prop := ∃ t, d.variant = .transaction t ∧ ∃ p ∈ t.postings, p.acc = a

/-- The accounts which are to be opened before `d`, after the directives `pre`: those which `d` is the first to use, unless they
are opened before; each once, in ascending order. -/
structure Spec.Missing (pre : List Raw.Directive) (d : Raw.Directive) (g : List Str) : Prop where
  ascending : g.Pairwise (· < ·)
  mem : ∀ a, a ∈ g ↔ Uses a d ∧ ∀ e ∈ pre, ¬ Opens a e ∧ ¬ Uses a e

/-- `out` is `ds` with open directives inserted for the missing accounts. -/
inductive Spec.Completed : List Raw.Directive → List Raw.Directive → Prop
  | nil : Completed [] []
  | snoc {ds out d g} : Completed ds out → Missing ds d g → Completed (ds ++ [d]) (out ++ g.map (autoOpen d.date) ++ [d])

namespace Clj

theorem mem_newAccounts {opened : List Str} {t : Raw.Transaction} {a : Str} :
    a ∈ newAccounts opened t ↔ (∃ p ∈ t.postings, p.acc = a) ∧ a ∉ opened := by
  unfold newAccounts
  rw [mem_sortBy, List.mem_filter, List.mem_dedup, List.mem_map]
  simp

theorem newAccounts_sorted (opened : List Str) (t : Raw.Transaction) : (newAccounts opened t).Pairwise (· < ·) :=
  (sortBy_strict cmpStr_total ((List.nodup_dedup _).filter _)).imp fun h => cmpStr_lt.1 h

/-- The set of opened accounts. -/
theorem auto_opened (sink : Sink) (ds : List Raw.Directive) (a : Str) :
    a ∈ (ds.foldl (autoStep sink) ([], [])).1 ↔ ∃ e ∈ ds, Opens a e ∨ Uses a e := by
  induction ds using List.reverseRecOn with
  | nil => simp
  | append_singleton ds d ih =>
    rw [List.foldl_append, List.foldl_cons, List.foldl_nil]
    have split : (∃ e ∈ ds ++ [d], Opens a e ∨ Uses a e) ↔ (∃ e ∈ ds, Opens a e ∨ Uses a e) ∨ (Opens a d ∨ Uses a d) := by
      constructor
      · rintro ⟨e, he, h⟩
        rcases List.mem_append.1 he with he | he
        · exact Or.inl ⟨e, he, h⟩
        · rw [List.mem_singleton] at he
          subst he
          exact Or.inr h
      · rintro (⟨e, he, h⟩ | h)
        · exact ⟨e, List.mem_append_left _ he, h⟩
        · exact ⟨d, by simp, h⟩
    rw [split, ← ih]
    unfold autoStep
    cases hv : d.variant with
    | opn o =>
      have h1 : Opens a d ↔ a = o.acc := by
        constructor
        · rintro ⟨o', h, rfl⟩
          rw [hv] at h
          cases h
          rfl
        · rintro rfl
          exact ⟨o, hv, rfl⟩
      have h2 : ¬ Uses a d := by rintro ⟨t, h, -⟩; rw [hv] at h; cases h
      simp [h1, h2]
    | transaction t =>
      have h1 : ¬ Opens a d := by rintro ⟨o', h, -⟩; rw [hv] at h; cases h
      have h2 : Uses a d ↔ ∃ p ∈ t.postings, p.acc = a := by
        constructor
        · rintro ⟨t', h, h'⟩
          rw [hv] at h
          cases h
          exact h'
        · exact fun h => ⟨t, hv, h⟩
      simp only [h1, h2, false_or, List.mem_append, mem_newAccounts]
      tauto
    | _ =>
      have h1 : ¬ Opens a d := by rintro ⟨o', h, -⟩; rw [hv] at h; cases h
      have h2 : ¬ Uses a d := by rintro ⟨t, h, -⟩; rw [hv] at h; cases h
      simp [h1, h2]

end Clj

/-- C39: the plugin inserts open directives exactly for the accounts which are missing, immediately before the transaction which
first uses them, with its date and in ascending order, and keeps all directives in order. -/
theorem C39_completed (ds : List Raw.Directive) : Completed ds (autoAccounts .inPlace ds) := by
  induction ds using List.reverseRecOn with
  | nil => exact .nil
  | append_singleton ds d ih =>
    have none : ∀ {g : List Str}, (∀ a, ¬ Uses a d) → g = [] → Missing ds d g := by
      rintro g h rfl
      exact ⟨.nil, fun a => ⟨fun h => by simp at h, fun h' => absurd h'.1 (h a)⟩⟩
    have other : (∀ a, ¬ Uses a d) → Completed (ds ++ [d]) (autoAccounts .inPlace ds ++ [d]) := by
      intro h
      have := Completed.snoc ih (none h rfl)
      simpa using this
    have e : autoAccounts .inPlace (ds ++ [d]) = (autoStep .inPlace (ds.foldl (autoStep .inPlace) ([], [])) d).2 := by
      unfold autoAccounts
      rw [List.foldl_append]
      rfl
    rw [e]
    rw [autoStep]
    cases hv : d.variant with
    | transaction t =>
      refine Completed.snoc ih ⟨newAccounts_sorted _ _, fun a => ?_⟩
      rw [mem_newAccounts, auto_opened]
      constructor
      · rintro ⟨h1, h2⟩
        refine ⟨⟨t, hv, h1⟩, fun e he => ⟨fun h => h2 ⟨e, he, Or.inl h⟩, fun h => h2 ⟨e, he, Or.inr h⟩⟩⟩
      · rintro ⟨⟨t', h, h1⟩, h2⟩
        rw [hv] at h
        cases h
        refine ⟨h1, ?_⟩
        rintro ⟨e, he, h | h⟩
        · exact (h2 e he).1 h
        · exact (h2 e he).2 h
    | _ => exact other fun a => by rintro ⟨t, h, -⟩; rw [hv] at h; cases h

/-- The result is determined: the specification leaves no choice. -/
theorem C39_unique (ds out out' : List Raw.Directive) (h : Completed ds out) (h' : Completed ds out') : out = out' := by
  induction h generalizing out' with
  | nil =>
    generalize hx : ([] : List Raw.Directive) = x at h'
    cases h' with
    | nil => rfl
    | snoc _ _ => simp at hx
  | @snoc ds out d g h hg ih =>
    generalize hx : ds ++ [d] = x at h'
    cases h' with
    | nil => simp at hx
    | @snoc ds' out' d' g' h' hg' =>
      obtain ⟨rfl, e⟩ := List.append_inj' hx rfl
      simp only [List.cons.injEq, and_true] at e
      subst e
      rw [ih _ h']
      have : g = g' := strict_unique cmpStr_total (hg.ascending.imp fun h => cmpStr_lt.2 h)
        (hg'.ascending.imp fun h => cmpStr_lt.2 h) fun a => by rw [hg.mem, hg'.mem]
      rw [this]

/-- C39: removing the inserted directives gives back the original ones. -/
theorem C39_original_kept (ds : List Raw.Directive) : ds.Sublist (autoAccounts .inPlace ds) ∧
    ((∀ d ∈ ds, d.metadata ≠ some [(str% "auto", .null)]) →
      (autoAccounts .inPlace ds).filter (fun d => d.metadata ≠ some [(str% "auto", .null)]) = ds) := by
  have h := C39_completed ds
  generalize autoAccounts .inPlace ds = out at h
  induction h with
  | nil => simp
  | @snoc ds out d g h hg ih =>
    constructor
    · rw [List.append_assoc]
      exact ih.1.append (List.sublist_append_right _ _)
    · intro hd
      rw [List.filter_append, List.filter_append, ih.2 fun e he => hd e (by simp [he])]
      have h1 : (g.map (autoOpen d.date)).filter (fun d => d.metadata ≠ some [(str% "auto", .null)]) = [] := by
        rw [List.filter_eq_nil_iff]
        intro x hx
        obtain ⟨a, -, rfl⟩ := List.mem_map.1 hx
        simp [autoOpen]
      have h2 : [d].filter (fun d => d.metadata ≠ some [(str% "auto", .null)]) = [d] := by
        rw [List.filter_cons_of_pos (by simpa using hd d (by simp))]
        rfl
      rw [h1, h2]
      simp

/-- C39: in the result, every account is opened before the first transaction which uses it. -/
theorem C39_opened_first (ds pre post : List Raw.Directive) (d : Raw.Directive) (a : Str)
    (h : autoAccounts .inPlace ds = pre ++ d :: post) (hu : Uses a d) : ∃ e ∈ pre, Opens a e := by
  have hc := C39_completed ds
  rw [h] at hc
  generalize hout : pre ++ d :: post = out at hc
  clear h
  -- every account opened or used in the input is opened in the output, and used only after that
  have key : ∀ {ds out : List Raw.Directive}, Completed ds out →
      (∀ a, (∃ e ∈ ds, Opens a e ∨ Uses a e) → ∃ e ∈ out, Opens a e) ∧
      ∀ pre d post a, out = pre ++ d :: post → Uses a d → ∃ e ∈ pre, Opens a e := by
    intro ds out hc
    induction hc with
    | nil => exact ⟨by simp, by simp⟩
    | @snoc ds out d g hc hg ih =>
      obtain ⟨ih1, ih2⟩ := ih
      have opened : ∀ a, Uses a d → ∃ e ∈ out ++ g.map (autoOpen d.date), Opens a e := by
        intro a hu
        by_cases hb : ∃ e ∈ ds, Opens a e ∨ Uses a e
        · obtain ⟨e, he, ho⟩ := ih1 a hb
          exact ⟨e, List.mem_append_left _ he, ho⟩
        · have : a ∈ g := (hg.mem a).2 ⟨hu, fun e he => ⟨fun h => hb ⟨e, he, Or.inl h⟩, fun h => hb ⟨e, he, Or.inr h⟩⟩⟩
          exact ⟨autoOpen d.date a, List.mem_append_right _ (List.mem_map.2 ⟨a, this, rfl⟩), ⟨_, rfl, rfl⟩⟩
      constructor
      · rintro a ⟨e, he, h⟩
        rcases List.mem_append.1 he with he | he
        · obtain ⟨e', he', ho⟩ := ih1 a ⟨e, he, h⟩
          exact ⟨e', by simp [he'], ho⟩
        · rw [List.mem_singleton] at he
          subst he
          rcases h with h | h
          · exact ⟨e, by simp, h⟩
          · obtain ⟨e', he', ho⟩ := opened a h
            exact ⟨e', List.mem_append_left _ he', ho⟩
      · intro pre x post a he hu
        rw [List.append_assoc] at he
        -- where is `x`?
        rcases List.append_eq_append_iff.1 he with ⟨l, h1, h2⟩ | ⟨l, h1, h2⟩
        · -- x is in the new part
          rcases List.append_eq_append_iff.1 h2 with ⟨l', h3, h4⟩ | ⟨l', h3, h4⟩
          · cases l' with
            | nil =>
              simp only [List.nil_append, List.cons.injEq] at h4
              obtain ⟨h4, -⟩ := h4
              subst h4
              obtain ⟨e', he', ho⟩ := opened a hu
              refine ⟨e', ?_, ho⟩
              rw [h1, h3, List.append_nil]
              exact he'
            | cons y l' => simp at h4
          · cases l' with
            | nil =>
              simp only [List.nil_append, List.cons.injEq] at h4
              obtain ⟨h4, -⟩ := h4
              subst h4
              obtain ⟨e', he', ho⟩ := opened a hu
              refine ⟨e', ?_, ho⟩
              rw [List.append_nil] at h3
              rw [h1, ← h3]
              exact he'
            | cons y l' =>
              simp only [List.cons_append, List.cons.injEq] at h4
              obtain ⟨h4, -⟩ := h4
              subst h4
              have : x ∈ g.map (autoOpen d.date) := by rw [h3]; simp
              obtain ⟨b, -, hb⟩ := List.mem_map.1 this
              obtain ⟨t, ht, -⟩ := hu
              rw [← hb] at ht
              cases ht
        · cases l with
          | nil =>
            -- x is the first of the new part
            simp only [List.nil_append] at h2
            cases hgm : g.map (autoOpen d.date) with
            | nil =>
              rw [hgm] at h2
              simp only [List.nil_append, List.cons.injEq] at h2
              obtain ⟨h2, -⟩ := h2
              subst h2
              obtain ⟨e', he', ho⟩ := opened a hu
              refine ⟨e', ?_, ho⟩
              rw [hgm, List.append_nil, h1, List.append_nil] at he'
              exact he'
            | cons y l' =>
              rw [hgm] at h2
              simp only [List.cons_append, List.cons.injEq] at h2
              obtain ⟨h2, -⟩ := h2
              subst h2
              have : x ∈ g.map (autoOpen d.date) := by rw [hgm]; simp
              obtain ⟨b, -, hb⟩ := List.mem_map.1 this
              obtain ⟨t, ht, -⟩ := hu
              rw [← hb] at ht
              cases ht
          | cons y l =>
            simp only [List.cons_append, List.cons.injEq] at h2
            obtain ⟨h2, -⟩ := h2
            subst h2
            exact ih2 pre x l a h1 hu
  exact (key hc).2 pre d post a hout.symm hu

/-- C39: a second run adds nothing. -/
theorem C39_idempotent (ds : List Raw.Directive) :
    autoAccounts .inPlace (autoAccounts .inPlace ds) = autoAccounts .inPlace ds := by
  refine C39_unique _ _ _ (C39_completed _) ?_
  generalize hout : autoAccounts .inPlace ds = out
  have hall : ∀ pre d post a, out = pre ++ d :: post → Uses a d → ∃ e ∈ pre, Opens a e := by
    intro pre d post a h hu
    exact C39_opened_first ds pre post d a (hout.trans h) hu
  clear hout
  induction out using List.reverseRecOn with
  | nil => exact .nil
  | append_singleton out d ih =>
    have := Completed.snoc (g := []) (ih fun pre e post a h hu => hall pre e (post ++ [d]) a (by rw [h]; simp) hu)
      (d := d) ⟨.nil, fun a => ⟨fun h => by simp at h, fun h => ?_⟩⟩
    · simpa using this
    · obtain ⟨e, he, ho⟩ := hall out d [] a rfl h.1
      exact absurd ho (h.2 e he).1

/-- C39 depends on the way in which plugins are run: with a reducing function which returns a new result, such as that of
`transduce conj`, nothing is inserted. -/
theorem C39_needs_in_place (ds : List Raw.Directive) : autoAccounts .persistent ds = ds := by
  unfold autoAccounts
  induction ds using List.reverseRecOn with
  | nil => rfl
  | append_singleton ds d ih =>
    rw [List.foldl_append, List.foldl_cons, List.foldl_nil]
    rw [autoStep]
    cases hv : d.variant <;> simp only <;> rw [ih]

/-- Two transactions, one account opened: two accounts are opened before the first, none before the second. -/
example : autoAccounts .inPlace [Toy.mkOpen 1 Ex.bank, Ex.sale, Ex.lunch, Ex.sale] =
    [Toy.mkOpen 1 Ex.bank, autoOpen (Toy.day 6) Ex.equity, Ex.sale, autoOpen (Toy.day 5) Ex.current,
      autoOpen (Toy.day 5) Ex.food, Ex.lunch, Ex.sale] := by decide +kernel

end Limabean
