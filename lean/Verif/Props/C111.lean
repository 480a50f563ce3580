/-
C111: a report as of a date is the report of the ledger as it was before that date.
-/
import Verif.Proofs.PrefixLemmas

namespace Limabean

open Clj Spec

variable {E : Ext} {L : BookLib}

namespace Spec

/-- What is posted by the first directives is dated before the day, what is posted by the others is not. -/
def CutAt (D : Date) (before after : List Raw.Directive) : Prop :=
  (∀ x ∈ before, Moves x → DateLt x.date D) ∧ ∀ x ∈ after, Moves x → ¬ DateLt x.date D

end Spec

/-! ### Methods -/

/-- The directive which has opened an account. -/
def openedBy : Life → Option Raw.Open
  | .never => none
  | .opn o | .closed o => some o

theorem life_more (pre post : List Raw.Directive) {a : Str} (h : life pre a ≠ .never) :
    openedBy (life (pre ++ post) a) = openedBy (life pre a) ∧ life (pre ++ post) a ≠ .never := by
  induction post using List.reverseRecOn with
  | nil => simpa using h
  | append_singleton post d ih =>
    obtain ⟨h1, h2⟩ := ih
    rw [← List.append_assoc, life_snoc, ← h1]
    clear h1
    generalize life (pre ++ post) a = l at h2 ⊢
    cases l with
    | never => exact absurd rfl h2
    | opn o =>
      cases d.variant with
      | close c => by_cases hc : c.acc = a <;> simp [Life.next, hc, openedBy]
      | _ => simp [Life.next, openedBy]
    | closed o => cases d.variant <;> simp [Life.next, openedBy]

theorem method_more {order : AMap Str (Account L) → AMap Str (Account L)} {o : BookOptions} {pre post : List Raw.Directive}
    {out out' : List Booked.Directive} {w w' : List IndexedReport} (h : book L order o (pre ++ post) = .success out w)
    (h' : book L order o pre = .success out' w') {a : Str} (ha : life pre a ≠ .never) (order' : AMap Str Nat → AMap Str Nat)
    (options : List (Str × Json)) : (registryBuild order' out options).accBooking a = (registryBuild order' out' options).accBooking a := by
  obtain ⟨r, hl, he, -, rfl, -⟩ := collect_success h
  obtain ⟨r', hl', he', -, rfl, -⟩ := collect_success h'
  have e1 := openings_accepted a _ r hl he
  have e2 := openings_accepted a _ r' hl' he'
  obtain ⟨h1, h2⟩ := life_more pre post ha
  have e : openMethods a r.booked = openMethods a r'.booked := by
    rw [e1, e2]
    revert h1 h2 ha
    generalize life (pre ++ post) a = l
    generalize life pre a = l'
    cases l <;> cases l' <;> simp [openedBy] <;> rintro rfl <;> rfl
  unfold Registry.accBooking registryBuild
  simp only [registryAccs_get, e]

theorem cumulate_agree {f g : Str → Booking} (ps : List Booked.Posting) (h : ∀ p ∈ ps, f p.acc = g p.acc) (m : AMap Str Inv) :
    cumulate f ps m = cumulate g ps m := by
  induction ps generalizing m with
  | nil => rfl
  | cons p ps ih =>
    have e : lookupOrNew f m p.acc = lookupOrNew g m p.acc := by
      unfold lookupOrNew
      rw [h p (by simp)]
    simp only [cumulate, e]
    cases lookupOrNew g m p.acc with
    | none => rfl
    | some inv => exact ih (fun q hq => h q (by simp [hq])) _

/-! ### What is posted before the day -/

theorem image_size {n : Nat} {ds : List Raw.Directive} {out : List Booked.Directive} (h : Image n ds out) :
    out.length = (ds.map fun d => if isPad d then 2 else 1).sum := by
  induction h with
  | nil n => rfl
  | single hp _ _ _ ih => simp [hp, ih]; omega
  | padded hp _ _ _ _ _ ih => simp [hp, ih]; omega

theorem image_append {n : Nat} {pre post : List Raw.Directive} {out : List Booked.Directive} (h : Image n (pre ++ post) out) :
    ∃ out1 out2, out = out1 ++ out2 ∧ Image n pre out1 ∧ Image (n + pre.length) post out2 := by
  induction pre generalizing n out with
  | nil => exact ⟨[], out, rfl, .nil _, by simpa using h⟩
  | cons d pre ih =>
    rw [List.cons_append] at h
    cases h with
    | single hp he hc hr =>
      obtain ⟨o1, o2, rfl, h1, h2⟩ := ih hr
      exact ⟨_ :: o1, o2, rfl, .single hp he hc h1, by rw [List.length_cons, ← Nat.add_assoc, Nat.add_right_comm]; exact h2⟩
    | padded hp he hc he' ht hr =>
      obtain ⟨o1, o2, rfl, h1, h2⟩ := ih hr
      exact ⟨_ :: _ :: o1, o2, rfl, .padded hp he hc he' ht h1, by rw [List.length_cons, ← Nat.add_assoc, Nat.add_right_comm]; exact h2⟩

theorem selection_before {D : Date} {pre post : List Raw.Directive} {out' more : List Booked.Directive} (hc : CutAt D pre post)
    (h : Image 0 (pre ++ post) (out' ++ more)) (h' : Image 0 pre out') (fs : List Filter) :
    selection (out' ++ more) (dateLt D :: fs) = selection out' fs := by
  obtain ⟨o1, o2, e, h1, h2⟩ := image_append h
  obtain ⟨rfl, rfl⟩ := List.append_inj e (by rw [image_size h', image_size h1])
  have hd : ∀ x : Posted, dateLt D x.seen = true ↔ DateLt x.date D := by
    intro x
    rw [(C33_meaning D D x.seen).1]
    simp [Posted.seen]
  have e1 : (allPosted more).filter (fun x => decide (Selected (dateLt D :: fs) x)) = [] := by
    rw [List.filter_eq_nil_iff]
    intro x hx
    simp only [decide_eq_true_eq, Selected, List.mem_cons, forall_eq_or_imp, not_and, hd]
    intro hlt
    obtain ⟨r, hr, hm, hrd⟩ := Image.posted h2 x hx
    rw [← hrd] at hlt
    exact absurd hlt (hc.2 r hr hm)
  unfold selection
  rw [show allPosted (out' ++ more) = allPosted out' ++ allPosted more by simp [allPosted], List.filter_append, e1, List.append_nil]
  refine List.filter_congr fun x hx => ?_
  rw [Bool.eq_iff_iff]
  rw [decide_eq_true_eq, decide_eq_true_eq]
  simp only [Selected, List.mem_cons, forall_eq_or_imp, hd, and_iff_right_iff_imp]
  intro _
  obtain ⟨r, hr, hm, hrd⟩ := Image.posted h' x hx
  rw [← hrd]
  exact hc.1 r hr hm

/-! ### The claim -/

/-- **C111**, the first directives of an accepted ledger: alone they are accepted exactly if no pad among them waits for an assertion which
comes later. -/
theorem C111_accepted (L : BookLib) (hL : L.Lawful) (order : AMap Str (Account L) → AMap Str (Account L)) (hf : ∀ m, (order m).Perm m)
    (o : BookOptions) (pre post : List Raw.Directive) (out : List Booked.Directive) (w : List IndexedReport)
    (h : book L order o (pre ++ post) = .success out w) :
    (∃ out' w', book L order o pre = .success out' w') ↔ ∀ a, padWaits pre a = false := (accepted_first hL hf h).1

/-- **C111**, what is returned: for the first directives alone, exactly what is returned for them in the whole ledger. -/
theorem C111_returned (L : BookLib) (hL : L.Lawful) (order : AMap Str (Account L) → AMap Str (Account L)) (hf : ∀ m, (order m).Perm m)
    (o : BookOptions) (pre post : List Raw.Directive) (out out' : List Booked.Directive) (w w' : List IndexedReport)
    (h : book L order o (pre ++ post) = .success out w) (h' : book L order o pre = .success out' w') :
    out' = out.filter (fun x => x.idx < pre.length) ∧ (∃ more, out = out' ++ more) ∧ ∃ warn, w = w' ++ warn := by
  obtain ⟨more, warn, rfl, rfl, hm⟩ := (accepted_first hL hf h).2 out' w' h'
  refine ⟨?_, ⟨_, rfl⟩, ⟨_, rfl⟩⟩
  have e1 : more.filter (fun x => decide (x.idx < pre.length)) = [] := by
    rw [List.filter_eq_nil_iff]
    intro x hx
    have := hm x hx
    simpa using this
  rw [List.filter_append, e1, List.append_nil, eq_comm, List.filter_eq_self]
  intro x hx
  obtain ⟨-, ho, -⟩ := (C82_returned L hL order hf o _ out' w').1 h'
  rw [ho] at hx
  unfold returned returnedOf at hx
  obtain ⟨y, hy, rfl⟩ := List.mem_map.1 hx
  rw [fillIn_idx]
  simpa using emitted_lt o.bookingMethod o.tolerance pre 0 (Tally.init L) y hy

/-- **C111**, reports: the inventory, the balances, the income statement and the journal of an accepted ledger, of what is dated before a
day and with any other filters, are those of the ledger as it was before that day. -/
theorem C111_reports (L : BookLib) (hL : L.Lawful) (order : AMap Str (Account L) → AMap Str (Account L)) (hf : ∀ m, (order m).Perm m)
    (o : BookOptions) (pre post : List Raw.Directive) (out out' : List Booked.Directive) (w w' : List IndexedReport)
    (h : book L order o (pre ++ post) = .success out w) (h' : book L order o pre = .success out' w') (D : Date) (hc : CutAt D pre post)
    (order' : AMap Str Nat → AMap Str Nat) (lo : LedgerOptions) (fs : List Filter) :
    inventory ⟨out, lo, registryBuild order' out (optionsMap lo)⟩ (dateLt D :: fs) =
      inventory ⟨out', lo, registryBuild order' out' (optionsMap lo)⟩ fs ∧
    balances ⟨out, lo, registryBuild order' out (optionsMap lo)⟩ (dateLt D :: fs) =
      balances ⟨out', lo, registryBuild order' out' (optionsMap lo)⟩ fs ∧
    incomeStatement ⟨out, lo, registryBuild order' out (optionsMap lo)⟩ (dateLt D :: fs) =
      incomeStatement ⟨out', lo, registryBuild order' out' (optionsMap lo)⟩ fs ∧
    journal ⟨out, lo, registryBuild order' out (optionsMap lo)⟩ (dateLt D :: fs) =
      journal ⟨out', lo, registryBuild order' out' (optionsMap lo)⟩ fs := by
  obtain ⟨more, -, rfl, -, -⟩ := (accepted_first hL hf h).2 out' w' h'
  have hs := selection_before hc (C01_image L order o _ _ w h) (C01_image L order o _ _ w' h')
  have hrows : ∀ fs, reportRows (out' ++ more) (dateLt D :: fs) = reportRows out' fs := fun fs => by rw [reportRows_eq, reportRows_eq, hs]
  have hinv : ∀ fs, inventory ⟨out' ++ more, lo, registryBuild order' (out' ++ more) (optionsMap lo)⟩ (dateLt D :: fs) =
      inventory ⟨out', lo, registryBuild order' out' (optionsMap lo)⟩ fs := by
    intro fs
    unfold inventory buildInventory
    simp only [hrows]
    rw [cumulate_agree]
    intro p hp
    refine method_more h h' ?_ order' _
    rw [reportRows_eq, List.map_map] at hp
    obtain ⟨x, hx, rfl⟩ := List.mem_map.1 hp
    have hx := List.mem_of_mem_filter hx
    obtain ⟨d, hd, hxd⟩ := List.mem_flatMap.1 hx
    refine posted_opened hL hf h' d hd x.posting ?_
    unfold postingsOf
    cases hv : d.variant <;> simp only [hv, List.not_mem_nil] at hxd
    obtain ⟨q, hq, rfl⟩ := List.mem_map.1 hxd
    exact hq
  refine ⟨hinv fs, hinv _, hinv _, ?_⟩
  unfold journal
  simp only [hrows]

/-- **C111**, for whole beanfiles without plugins. A beanfile was loaded without an error. The beanfile as it was before a day is loaded without an
error exactly if no pad in it waits; and then its reports are those of the whole beanfile of what is dated before that day. -/
theorem C111_beanfile (hL : L.Lawful) (hL' : DatesExist L) (H : Convert.Hashes) (h : FairHashes H) (F : Front E L)
    (hinj : Function.Injective F.hash) (ho : IsMapOrder F.ordm) (hs : IsOrder F.ord) (hf : ∀ k m, (F.orders k m).Perm m) (hE : SpanStore E)
    (order : AMap Str Nat → AMap Str Nat) (hreg : F.registry = fun ds o => some (registryOf order ds o)) (src src' : E.Sources) (s : Lima.Success)
    (before after : List (Lima.Spanned Lima.Directive)) (hd : s.directives = before ++ after) (hok : ∀ d ∈ s.directives, SourceOk d.item)
    (hp : s.plugins = []) {m : LoadedBeans E} (hm : loadBeanfile F (.ready src (.ok (Convert.parsed H s))) = .ok m) (he : m.error = none) :
    ((∃ m', loadBeanfile F (.ready src' (.ok (Convert.parsed H { s with directives := before }))) = .ok m' ∧ m'.error = none) ↔
      ∀ a, padWaits (before.map (Convert.directive H)) a = false) ∧
    ∀ m', loadBeanfile F (.ready src' (.ok (Convert.parsed H { s with directives := before }))) = .ok m' → m'.error = none →
      ∀ D, CutAt D (before.map (Convert.directive H)) (after.map (Convert.directive H)) → ∀ fs,
        m.inventory (dateLt D :: fs) = m'.inventory fs ∧ m.balances (dateLt D :: fs) = m'.balances fs ∧
        m.incomeStatement (dateLt D :: fs) = m'.incomeStatement fs ∧
        ∃ j l l', m.journal (dateLt D :: fs) = some l ∧ m'.journal fs = some l' ∧ List.Forall₂ ShowsEntry l j ∧ List.Forall₂ ShowsEntry l' j := by
  have hok' : ∀ d ∈ before, SourceOk d.item := fun d hx => hok d (by rw [hd]; simp [hx])
  have ha := (C108_iff hL hL' H h F hinj ho hs hf hE order hreg src s hok hp).1 ⟨m, hm, he⟩
  have hb := (C82_returned L hL (F.orders 4) (hf 4) (readOptions H s) (readLedger H s) _ _).2 ⟨ha, rfl, rfl⟩
  obtain ⟨m1, h1, -, h2⟩ := C70_beanfile H h F hinj ho hs hE hL' order hreg src s hok hp hb
  cases hm.symm.trans h1
  have hl : readLedger H s = before.map (Convert.directive H) ++ after.map (Convert.directive H) := by simp [readLedger, hd]
  have hl' : readLedger H { s with directives := before } = before.map (Convert.directive H) := rfl
  have hiff := C108_iff hL hL' H h F hinj ho hs hf hE order hreg src' { s with directives := before } hok' hp
  rw [hl] at hb h2
  refine ⟨?_, ?_⟩
  · rw [hiff, ← C111_accepted L hL (F.orders 4) (hf 4) (readOptions H s) _ _ _ _ hb, hl']
    constructor
    · intro hz
      exact ⟨_, _, (C82_returned L hL (F.orders 4) (hf 4) (readOptions H s) _ _ _).2 ⟨hz, rfl, rfl⟩⟩
    · rintro ⟨out', w', hz⟩
      exact ((C82_returned L hL (F.orders 4) (hf 4) (readOptions H s) _ _ _).1 hz).1
  · intro m' hm' he' D hc fs
    have ha' := hiff.1 ⟨m', hm', he'⟩
    rw [hl'] at ha'
    have hb' := (C82_returned L hL (F.orders 4) (hf 4) (readOptions H s) _ _ _).2 ⟨ha', rfl, rfl⟩
    obtain ⟨m1, g1, -, g2⟩ := C70_beanfile H h F hinj ho hs hE hL' order hreg src' { s with directives := before } hok' hp hb'
    cases hm'.symm.trans g1
    obtain ⟨r1, r2, r3, r4⟩ := C111_reports L hL (F.orders 4) (hf 4) (readOptions H s) _ _ _ _ _ _ hb hb' D hc order
      (Convert.options H s.options) fs
    obtain ⟨i1, i2, i3, l, i4, i5⟩ := h2 (dateLt D :: fs)
    obtain ⟨j1, j2, j3, l', j4, j5⟩ := g2 fs
    refine ⟨?_, ?_, ?_, _, l, l', i4, j4, i5, ?_⟩
    · rw [i1, j1]; exact r1
    · rw [i2, j2]; exact r2
    · rw [i3, j3]; exact r3
    · exact r4 ▸ j5

/-! ### A case -/

namespace Ex

/-- The ledger of the examples before the 6th, and from then on. -/
def untilSale : List Raw.Directive := ledger.take 8
def fromSale : List Raw.Directive := ledger.drop 8

/-- The inventory of what is returned for some directives. -/
def inventoryAfter (ds : List Raw.Directive) (fs : List Filter) : Option (AMap Str (List Position)) :=
  match Toy.run ds with
  | .success out _ => inventory ⟨out, Toy.options, { defaultBooking := .strict, accs := [], curs := [] }⟩ fs
  | _ => none

end Ex

/-- The example ledger, cut before its sale: the hypotheses hold, and the reports are these. -/
example : CutAt (Toy.day 6) Ex.untilSale Ex.fromSale ∧
    (∃ x ∈ Ex.fromSale, Moves x) ∧
    Ex.inventoryAfter (Ex.untilSale ++ Ex.fromSale) [dateLt (Toy.day 6), curIs Ex.nzd] = Ex.inventoryAfter Ex.untilSale [curIs Ex.nzd] ∧
    Ex.inventoryAfter Ex.untilSale [curIs Ex.nzd] = some [(Ex.bank, [⟨⟨10000, 2⟩, Ex.nzd, none⟩]), (Ex.current, [⟨⟨-1250, 2⟩, Ex.nzd, none⟩]),
        (Ex.equity, [⟨⟨-10000, 2⟩, Ex.nzd, none⟩]), (Ex.food, [⟨⟨1250, 2⟩, Ex.nzd, none⟩])] := by
  refine ⟨⟨?_, ?_⟩, ⟨Ex.sale, by decide +kernel, Or.inl ⟨_, rfl⟩⟩, by decide +kernel, by decide +kernel⟩
  · have : ∀ x ∈ Ex.untilSale, DateLt x.date (Toy.day 6) := by decide +kernel
    exact fun x hx _ => this x hx
  · have : ∀ x ∈ Ex.fromSale, ¬ DateLt x.date (Toy.day 6) := by decide +kernel
    exact fun x hx _ => this x hx

/-- Cut between the pad and its assertion: the pad waits, and the first directives alone are refused. -/
example : padWaits (Ex.ledger.take 6) Ex.bank = true ∧
    (match Toy.run (Ex.ledger.take 6) with | .failure _ => true | _ => false) = true := by decide +kernel

end Limabean
