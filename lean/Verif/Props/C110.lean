/-
C110: an assertion can be added exactly if the report shows the asserted amount.
-/
import Verif.Proofs.InsertedLemmas
import Verif.Props.C06Exact
import Verif.Props.C105
import Verif.Props.C108

namespace Limabean

open Clj Spec

variable {E : Ext} {L : BookLib}

/-! ### Leaving the assertion out again -/

/-- Leave out one directive. -/
def without (n : Nat) : Relaxation := { keep := (· != n) }

theorem without_directive (n k : Nat) (d : Raw.Directive) : (without n).directive k d = d := by
  unfold Relaxation.directive without
  obtain ⟨_, _, _, _, _, v⟩ := d
  cases v <;> rfl

theorem without_all (n k : Nat) (ds : List Raw.Directive) (h : ∀ j < ds.length, k + j ≠ n) : (without n).fromNumber k ds = ds := by
  induction ds generalizing k with
  | nil => rfl
  | cons d ds ih =>
    have h0 := h 0 (by simp)
    simp only [Relaxation.fromNumber, without_directive]
    rw [ih (k + 1) fun j hj => by have := h (j + 1) (by simpa using hj); omega]
    have : (without n).keep k = true := by simpa [without] using h0
    rw [this]
    rfl

theorem without_ledger (pre post : List Raw.Directive) (d : Raw.Directive) : (without pre.length).ledger (pre ++ d :: post) = pre ++ post := by
  have key : ∀ (n k : Nat) (pre : List Raw.Directive), n = k + pre.length → (without n).fromNumber k (pre ++ d :: post) = pre ++ post := by
    intro n k pre
    induction pre generalizing k with
    | nil =>
      rintro rfl
      simp only [List.nil_append, Relaxation.fromNumber]
      rw [without_all _ _ _ (by simp; omega)]
      simp [without]
    | cons x pre ih =>
      intro hn
      simp only [List.length_cons] at hn
      simp only [List.cons_append, Relaxation.fromNumber, without_directive]
      rw [ih (k + 1) (by omega)]
      have : (without n).keep k = true := by simp [without]; omega
      rw [this]
      rfl
  exact key _ 0 pre (by simp)

theorem without_count (n k : Nat) : countChosen (without n).keep k = if k ≤ n then k else k - 1 := by
  induction k with
  | zero => simp [countChosen]
  | succ k ih =>
    rw [countChosen, ih]
    by_cases h : k = n
    · subst h; simp [without]
    · have : (without n).keep k = true := by simpa [without] using h
      rw [this]
      simp only [Bool.toNat_true]
      split <;> split <;> omega

theorem without_relaxes {pre post : List Raw.Directive} {d : Raw.Directive} {b : Raw.Balance} (hv : d.variant = .balance b)
    (hp : padWaits pre b.acc = false) (m : Option Dec) : (without pre.length).Relaxes m (pre ++ d :: post) := by
  intro x e y h
  refine ⟨fun hk => ?_, fun o _ c hc => hc, fun b _ => .inl rfl⟩
  have hl : x.length = pre.length := by simpa [without] using hk
  obtain ⟨rfl, h2⟩ := List.append_inj h hl.symm
  simp only [List.cons.injEq] at h2
  obtain ⟨rfl, -⟩ := h2
  refine ⟨by simp [isCheck, hv], fun b' hb' => ?_⟩
  rw [hv] at hb'
  cases hb'
  exact hp

theorem without_booked (n : Nat) (x : Booked.Directive) : (without n).booked x = { x with idx := if x.idx ≤ n then x.idx else x.idx - 1 } := by
  unfold Relaxation.booked
  rw [without_count]
  obtain ⟨_, _, _, _, _, v⟩ := x
  cases v <;> rfl

/-! ### The assertion in what is returned -/

/-- What is returned for a directive which is not a pad. -/
theorem image_number {n : Nat} {ds : List Raw.Directive} {out : List Booked.Directive} (h : Image n ds out) {l m : List Raw.Directive}
    {d : Raw.Directive} (hd : ds = l ++ d :: m) (hp : isPad d = false) :
    (∃ x ∈ out, x.idx = n + l.length) ∧
    ∀ x ∈ out, x.idx = n + l.length → Envelope (n + l.length) d x ∧ CarriesOver d.variant x.variant := by
  induction h generalizing l with
  | nil n => simp at hd
  | @single n raw b rs bs hq he hc hr ih =>
    cases l with
    | nil =>
      simp only [List.nil_append, List.cons.injEq] at hd
      obtain ⟨rfl, rfl⟩ := hd
      refine ⟨⟨b, by simp, by simpa using he.idx⟩, fun x hx hn => ?_⟩
      rcases List.mem_cons.1 hx with rfl | hx
      · exact ⟨he, hc⟩
      · have := image_idx hr x hx
        simp only [List.length_nil, Nat.add_zero] at hn
        omega
    | cons y l =>
      simp only [List.cons_append, List.cons.injEq] at hd
      obtain ⟨rfl, hd⟩ := hd
      obtain ⟨⟨x, h1, h2⟩, h3⟩ := ih hd
      refine ⟨⟨x, by simp [h1], by simp; omega⟩, fun x hx hn => ?_⟩
      simp only [List.length_cons] at hn ⊢
      rcases List.mem_cons.1 hx with rfl | hx
      · have := he.idx
        omega
      · have := h3 x hx (by omega)
        rw [show n + 1 + l.length = n + (l.length + 1) by omega] at this
        exact this
  | @padded n raw b b' rs bs hq he hc he' ht hr ih =>
    cases l with
    | nil =>
      simp only [List.nil_append, List.cons.injEq] at hd
      obtain ⟨rfl, rfl⟩ := hd
      rw [hp] at hq
      cases hq
    | cons y l =>
      simp only [List.cons_append, List.cons.injEq] at hd
      obtain ⟨rfl, hd⟩ := hd
      obtain ⟨⟨x, h1, h2⟩, h3⟩ := ih hd
      refine ⟨⟨x, by simp [h1], by simp; omega⟩, fun x hx hn => ?_⟩
      simp only [List.length_cons] at hn ⊢
      rcases List.mem_cons.1 hx with rfl | hx
      · have := he.idx
        omega
      rcases List.mem_cons.1 hx with rfl | hx
      · have := he'.idx
        omega
      · have := h3 x hx (by omega)
        rw [show n + 1 + l.length = n + (l.length + 1) by omega] at this
        exact this

/-- Without the assertion the postings are the same. -/
theorem posted_without {pre post : List Raw.Directive} {d : Raw.Directive} {b : Raw.Balance} (hv : d.variant = .balance b)
    {out : List Booked.Directive} (h : Image 0 (pre ++ d :: post) out) :
    allPosted ((out.filter fun x => (without pre.length).keep x.idx).map (without pre.length).booked) = allPosted out := by
  have hb := (image_number h rfl (by simp [isPad, hv])).2
  simp only [Nat.zero_add] at hb
  clear h
  have e : (without pre.length).booked = fun x => { x with idx := if x.idx ≤ pre.length then x.idx else x.idx - 1 } := by
    funext x
    exact without_booked _ x
  rw [e]
  induction out with
  | nil => rfl
  | cons x out ih =>
    have ih := ih fun y hy => hb y (by simp [hy])
    unfold allPosted at ih ⊢
    cases hk : (without pre.length).keep x.idx with
    | true =>
      rw [List.filter_cons, if_pos hk, List.map_cons, List.flatMap_cons, List.flatMap_cons, ih]
    | false =>
      rw [List.filter_cons, if_neg (by simp [hk]), List.flatMap_cons, ih]
      have hx : x.idx = pre.length := by simpa [without] using hk
      have hc := (hb x (by simp) hx).2
      rw [hv] at hc
      generalize x.variant = v at hc ⊢
      cases hc
      rfl

/-! ### What the report shows is what is held -/

theorem accepted_prefix (hL : L.Lawful) {order : AMap Str (Account L) → AMap Str (Account L)} (hf : ∀ m, (order m).Perm m) {o : BookOptions}
    {pre post : List Raw.Directive} {out : List Booked.Directive} {w : List IndexedReport}
    (h : book L order o (pre ++ post) = .success out w) :
    ∃ s, Tally.run o.bookingMethod o.tolerance 0 (Tally.init L) pre = some (s, []) ∧ Led pre s ∧ Waits pre s := by
  obtain ⟨ha, -, -⟩ := (C82_returned L hL order hf o _ out w).1 h
  unfold audit at ha
  rw [Tally.run_append] at ha
  cases hr : Tally.run o.bookingMethod o.tolerance 0 (Tally.init L) pre with
  | none => simp [hr] at ha
  | some q =>
    obtain ⟨s, fs⟩ := q
    rw [hr, Nat.zero_add] at ha
    dsimp only at ha
    cases hr2 : Tally.run o.bookingMethod o.tolerance pre.length s post with
    | none => simp [hr2] at ha
    | some q =>
      simp only [hr2, Option.map_some, Option.some.injEq, Prod.mk.injEq, List.append_eq_nil_iff] at ha
      obtain ⟨⟨rfl, -⟩, -⟩ := ha
      have := (Led.run (pre := []) hL pre [] Led.init ⟨by simp [Tally.init], by simp [Tally.init], by simp, by simp⟩ hr).1
      exact ⟨s, rfl, by simpa using this, by simpa using Waits.init.run pre hr⟩

theorem waits_none {pre : List Raw.Directive} {s : Tally L} (h : Waits pre s) {a : Str} (hp : padWaits pre a = false) : s.pending a = none := by
  have := h a
  rw [hp] at this
  simpa using this

/-- The assertion is accepted if and only if it has no fault. -/
theorem inserted_iff (hL : L.Lawful) {order : AMap Str (Account L) → AMap Str (Account L)} (hf : ∀ m, (order m).Perm m) {o : BookOptions}
    {pre post : List Raw.Directive} {out : List Booked.Directive} {w : List IndexedReport}
    (h : book L order o (pre ++ post) = .success out w) {d : Raw.Directive} {b : Raw.Balance} (hv : d.variant = .balance b)
    (hp : padWaits pre b.acc = false) {s : Tally L} (hs : Tally.run o.bookingMethod o.tolerance 0 (Tally.init L) pre = some (s, [])) :
    (∃ out' w', book L order o (pre ++ d :: post) = .success out' w') ↔
      IsOpen pre b.acc ∧ Permits pre b.acc b.cur ∧ |b.units.val - (s.total b.acc b.cur).val| ≤ tolerance o.tolerance.multiplier b := by
  obtain ⟨s', h1, h2, h3⟩ := accepted_prefix hL hf h
  rw [hs] at h1
  simp only [Option.some.injEq, Prod.mk.injEq, and_true] at h1
  subst h1
  obtain ⟨g1, g2⟩ := assertion_step (option := o.bookingMethod) (tol := o.tolerance) hv h2 (waits_none h3 hp) pre.length
  have ha := ((C82_returned L hL order hf o _ out w).1 h).1
  constructor
  · rintro ⟨out', w', h'⟩
    by_contra hn
    obtain ⟨t, x, ht⟩ := g2 hn
    have hb := ((C82_returned L hL order hf o _ out' w').1 h').1
    unfold audit at hb
    rw [Tally.run_append, hs] at hb
    simp only [Nat.zero_add, Tally.run, ht] at hb
    cases hr : Tally.run o.bookingMethod o.tolerance (pre.length + 1) t post with
    | none => simp [hr] at hb
    | some q => simp [hr] at hb
  · intro hy
    refine ⟨_, _, (C82_returned L hL order hf o _ _ _).2 ⟨?_, rfl, rfl⟩⟩
    rw [inserted_audit hs (g1 hy), ha]
    rfl

/-- The report of what is dated before the assertion would be shows what is held there. -/
theorem shown_held (hL : L.Lawful) {order : AMap Str (Account L) → AMap Str (Account L)} (hf : ∀ m, (order m).Perm m) {o : BookOptions}
    {pre post : List Raw.Directive} {out : List Booked.Directive} {w : List IndexedReport}
    (h : book L order o (pre ++ post) = .success out w) {d : Raw.Directive} {b : Raw.Balance}
    (hp : padWaits pre b.acc = false) (hc : PadsClear pre b) (ht : AtStartOfDay pre d post)
    {lo : LedgerOptions} {reg : Registry} {fs : List Filter} (hfs : fs = [dateLt d.date] ∨ fs = [curIs b.cur, dateLt d.date])
    {inv : AMap Str (List Position)} (hi : inventory ⟨out, lo, reg⟩ fs = some inv) (hopen : IsOpen pre b.acc) (hcur : Permits pre b.acc b.cur)
    {s : Tally L} (hs : Tally.run o.bookingMethod o.tolerance 0 (Tally.init L) pre = some (s, [])) :
    subtotal inv b.cur b.acc = (s.total b.acc b.cur).val := by
  let b0 : Raw.Balance := { b with units := s.total b.acc b.cur, tolerance := some Dec.zero }
  let d0 : Raw.Directive := { d with variant := .balance b0 }
  have ht0 : tolerance o.tolerance.multiplier b0 = 0 := by simp [tolerance, b0, Dec.zero, Dec.val]
  obtain ⟨out0, w0, h0⟩ := (inserted_iff hL hf h (d := d0) (b := b0) rfl hp hs).2 ⟨hopen, hcur, by rw [ht0]; simp [b0]⟩
  have himg := C01_image L order o _ out0 w0 h0
  have hr := C105 L hL order hf o _ out0 w0 h0 (without pre.length) (without_relaxes (b := b0) rfl hp _)
  rw [without_ledger, h] at hr
  simp only [Outcome.success.injEq] at hr
  obtain ⟨hr, -⟩ := hr
  have hpost : allPosted out = allPosted out0 := by rw [hr]; exact posted_without (b := b0) rfl himg
  obtain ⟨⟨x, hx, hxi⟩, hall⟩ := image_number himg (l := pre) (d := d0) (m := post) rfl rfl
  obtain ⟨he, hcar⟩ := hall x hx hxi
  simp only [Nat.zero_add] at hxi
  obtain ⟨y, hy, hyr⟩ : ∃ y, x.variant = .balance y ∧ y.raw = b0 := by
    generalize x.variant = v at hcar
    have hd0 : d0.variant = .balance b0 := rfl
    generalize d0.variant = u at hcar hd0
    cases hcar <;> simp only [Raw.Variant.balance.injEq, reduceCtorEq] at hd0
    exact ⟨_, rfl, hd0⟩
  obtain ⟨l, m, hout⟩ := List.append_of_mem hx
  have hc6 := C06_assertions_hold_partial L hL order hf o _ out0 w0 h0 l x m y hout hy (by rw [hxi, hyr, List.take_left]; exact hc)
  have hdate : x.date = d.date := he.date
  have hbefore := before_eq himg hout hy
    (by
      intro l raw m hl hlen
      obtain ⟨rfl, h2⟩ := List.append_inj hl (by rw [hlen, hxi])
      simp only [List.cons.injEq] at h2
      obtain ⟨rfl, rfl⟩ := h2
      exact ht) fs
    (by
      intro z _ hz
      rw [hyr] at hz
      have h1 := (C33_meaning d.date d.date z.seen).1
      have h2 := ((C32_fields z.seen).2.1 b.cur)
      rw [hdate]
      rcases hfs with rfl | rfl
      · simp only [Selected, List.mem_singleton, forall_eq, h1]
        simp [Posted.seen]
      · simp only [Selected, List.mem_cons, List.not_mem_nil, or_false, forall_eq_or_imp, forall_eq, h1, h2]
        simp only [Posted.seen, Option.some.injEq, b0] at hz ⊢
        simp [hz])
  rw [subtotal_inventory _ _ _ hi]
  unfold selection at hbefore ⊢
  simp only [hyr] at hbefore hc6
  simp only [hpost]
  rw [show b.acc = b0.acc from rfl, show b.cur = b0.cur from rfl, hbefore]
  rw [ht0, abs_nonpos_iff, sub_eq_zero] at hc6
  rcases hc6 with h6 | h6
  · exact h6.symm
  · exact h6

/-- **C110**: an assertion is added to an accepted ledger, at the start of its day, where no pad waits for it (and none interferes). The ledger
is accepted with it exactly if the account is open there, takes the currency, and the report of what is dated before (also if it is restricted
to the currency) shows, at the account with those below it, the asserted amount within the tolerance. -/
theorem C110_assertion (L : BookLib) (hL : L.Lawful) (order : AMap Str (Account L) → AMap Str (Account L)) (hf : ∀ m, (order m).Perm m)
    (o : BookOptions) (pre post : List Raw.Directive) (out : List Booked.Directive) (w : List IndexedReport)
    (h : book L order o (pre ++ post) = .success out w) (d : Raw.Directive) (b : Raw.Balance) (hv : d.variant = .balance b)
    (hp : padWaits pre b.acc = false) (hc : PadsClear pre b) (ht : AtStartOfDay pre d post)
    (lo : LedgerOptions) (reg : Registry) (fs : List Filter) (hfs : fs = [dateLt d.date] ∨ fs = [curIs b.cur, dateLt d.date])
    (inv : AMap Str (List Position)) (hi : inventory ⟨out, lo, reg⟩ fs = some inv) :
    (∃ out' w', book L order o (pre ++ d :: post) = .success out' w') ↔
      IsOpen pre b.acc ∧ Permits pre b.acc b.cur ∧ |b.units.val - subtotal inv b.cur b.acc| ≤ tolerance o.tolerance.multiplier b := by
  obtain ⟨s, hs, -, -⟩ := accepted_prefix hL hf h
  rw [inserted_iff hL hf h hv hp hs]
  constructor
  · rintro ⟨h1, h2, h3⟩
    rw [shown_held hL hf h hp hc ht hfs hi h1 h2 hs]
    exact ⟨h1, h2, h3⟩
  · rintro ⟨h1, h2, h3⟩
    rw [shown_held hL hf h hp hc ht hfs hi h1 h2 hs] at h3
    exact ⟨h1, h2, h3⟩

/-- **C110**: and if it is accepted then nothing else is changed. What is returned has the assertion, and else what was returned without it; the
numbers after it are one higher. -/
theorem C110_unchanged (L : BookLib) (hL : L.Lawful) (order : AMap Str (Account L) → AMap Str (Account L)) (hf : ∀ m, (order m).Perm m)
    (o : BookOptions) (pre post : List Raw.Directive) (out out' : List Booked.Directive) (w w' : List IndexedReport)
    (h : book L order o (pre ++ post) = .success out w) (d : Raw.Directive) (b : Raw.Balance) (hv : d.variant = .balance b)
    (hp : padWaits pre b.acc = false) (h' : book L order o (pre ++ d :: post) = .success out' w') :
    out = (out'.filter fun x => x.idx ≠ pre.length).map (fun x => { x with idx := if x.idx ≤ pre.length then x.idx else x.idx - 1 }) ∧
    ∀ x ∈ out', x.idx = pre.length → Envelope pre.length d x ∧ CarriesOver d.variant x.variant := by
  have hr := C105 L hL order hf o _ out' w' h' (without pre.length) (without_relaxes hv hp _)
  rw [without_ledger, h] at hr
  simp only [Outcome.success.injEq] at hr
  refine ⟨?_, ?_⟩
  · have e : (without pre.length).booked = fun x => { x with idx := if x.idx ≤ pre.length then x.idx else x.idx - 1 } :=
      funext fun x => without_booked _ x
    rw [hr.1, e]
    congr 1
    refine List.filter_congr fun x _ => ?_
    rw [Bool.eq_iff_iff]
    simp [without]
  · have := (image_number (C01_image L order o _ out' w' h') (l := pre) (d := d) (m := post) rfl (by simp [isPad, hv])).2
    simpa using this

/-- **C110**, for whole beanfiles without plugins: the beanfile with another assertion is loaded without an error exactly if the account is open
there, takes the currency, and the inventory of the loaded beanfile, of what is dated before, shows the asserted amount within the
tolerance. -/
theorem C110_beanfile (hL : L.Lawful) (hL' : DatesExist L) (H : Convert.Hashes) (h : FairHashes H) (F : Front E L)
    (hinj : Function.Injective F.hash) (ho : IsMapOrder F.ordm) (hs : IsOrder F.ord) (hf : ∀ k m, (F.orders k m).Perm m) (hE : SpanStore E)
    (order : AMap Str Nat → AMap Str Nat) (hreg : F.registry = fun ds o => some (registryOf order ds o)) (src src' : E.Sources) (s : Lima.Success)
    (before after : List (Lima.Spanned Lima.Directive)) (x : Lima.Spanned Lima.Directive) (hd : s.directives = before ++ after)
    (hok : ∀ d ∈ before ++ x :: after, SourceOk d.item) (hp : s.plugins = [])
    {m : LoadedBeans E} (hm : loadBeanfile F (.ready src (.ok (Convert.parsed H s))) = .ok m) (he : m.error = none)
    {b : Raw.Balance} (hv : (Convert.directive H x).variant = .balance b)
    (hw : padWaits (before.map (Convert.directive H)) b.acc = false) (hc : PadsClear (before.map (Convert.directive H)) b)
    (ht : AtStartOfDay (before.map (Convert.directive H)) (Convert.directive H x) (after.map (Convert.directive H)))
    {fs : List Filter} (hfs : fs = [dateLt (Convert.directive H x).date] ∨ fs = [curIs b.cur, dateLt (Convert.directive H x).date])
    {inv : AMap Str (List Clj.Position)} (hi : m.inventory fs = some inv) :
    (∃ m', loadBeanfile F (.ready src' (.ok (Convert.parsed H { s with directives := before ++ x :: after }))) = .ok m' ∧ m'.error = none) ↔
      IsOpen (before.map (Convert.directive H)) b.acc ∧ Permits (before.map (Convert.directive H)) b.acc b.cur ∧
        |b.units.val - subtotal inv b.cur b.acc| ≤ tolerance (readOptions H s).tolerance.multiplier b := by
  have hok' : ∀ d ∈ s.directives, SourceOk d.item := fun d hx => hok d (by rw [hd] at hx; simp at hx ⊢; tauto)
  have ha := (C108_iff hL hL' H h F hinj ho hs hf hE order hreg src s hok' hp).1 ⟨m, hm, he⟩
  have hb := (C82_returned L hL (F.orders 4) (hf 4) (readOptions H s) (readLedger H s) _ _).2 ⟨ha, rfl, rfl⟩
  obtain ⟨m', h1, -, h2⟩ := C70_beanfile H h F hinj ho hs hE hL' order hreg src s hok' hp hb
  cases hm.symm.trans h1
  rw [(h2 fs).1] at hi
  have hl : readLedger H s = before.map (Convert.directive H) ++ after.map (Convert.directive H) := by simp [readLedger, hd]
  rw [hl] at hb hi
  rw [C108_iff hL hL' H h F hinj ho hs hf hE order hreg src' { s with directives := before ++ x :: after } hok hp,
    ← C110_assertion L hL (F.orders 4) (hf 4) (readOptions H s) _ _ _ _ hb (Convert.directive H x) b hv hw hc ht _ _ fs hfs inv hi]
  have hl' : readLedger H { s with directives := before ++ x :: after } =
      before.map (Convert.directive H) ++ Convert.directive H x :: after.map (Convert.directive H) := by simp [readLedger]
  rw [hl']
  constructor
  · intro hz
    exact ⟨_, _, (C82_returned L hL (F.orders 4) (hf 4) (readOptions H s) _ _ _).2 ⟨hz, rfl, rfl⟩⟩
  · rintro ⟨out', w', hz⟩
    exact ((C82_returned L hL (F.orders 4) (hf 4) (readOptions H s) _ _ _).1 hz).1

/-- **C110**, for ledgers with faults: an assertion for which no pad waits, and which agrees with what is held at its place (after the repairs of
C75), neither adds a fault nor hides one; all others are found as before, at the same directives. -/
theorem C110_faults (L : BookLib) (hL : L.Lawful) (order : AMap Str (Account L) → AMap Str (Account L)) (hf : ∀ m, (order m).Perm m)
    (o : BookOptions) (pre post : List Raw.Directive) (s : Tally L) (fs : List Finding)
    (hs : Tally.run o.bookingMethod o.tolerance 0 (Tally.init L) pre = some (s, fs))
    (d : Raw.Directive) (b : Raw.Balance) (hv : d.variant = .balance b) (hp : s.pending b.acc = none) (hu : s.usage b.acc b.cur = none)
    (hb : |b.units.val - (s.total b.acc b.cur).val| ≤ tolerance o.tolerance.multiplier b) :
    match audit L o.bookingMethod o.tolerance (pre ++ post) with
    | none => book L order o (pre ++ d :: post) = .panic
    | some ([], []) => ∃ out w, book L order o (pre ++ d :: post) = .success out w
    | some (fs, ps) => ∃ xs ys ys', book L order o (pre ++ d :: post) = .failure (xs ++ ys') ∧ ys'.Perm ys ∧
        List.Forall₂ Announces xs (fs.map (Finding.renumber (shiftAt pre.length))) ∧
        List.Forall₂ Announces ys (ps.map (Finding.renumber (shiftAt pre.length))) := by
  have hstep : s.step o.bookingMethod o.tolerance pre.length d = some (s, []) := by
    have hg : (b.units.sub (s.total b.acc b.cur)).abs.gt (toleranceDec o.tolerance.multiplier b) = false := by
      rw [← Bool.not_eq_true, Dec.gt_iff, Dec.val_abs, Dec.val_sub, tolerance_val, gt_iff_lt, not_lt]
      exact hb
    simp only [Tally.step, hv, hu, hg, hp]
  have h1 := inserted_audit (post := post) hs hstep
  have h2 := C75_reports L hL order hf o (pre ++ d :: post)
  rw [h1] at h2
  cases ha : audit L o.bookingMethod o.tolerance (pre ++ post) with
  | none => simpa [ha] using h2
  | some q =>
    obtain ⟨fs, ps⟩ := q
    simp only [ha, Option.map_some] at h2
    cases fs with
    | nil =>
      cases ps with
      | nil => simpa using h2
      | cons p ps => simpa using h2
    | cons f fs => simpa using h2

namespace Ex

/-- The ledger of the examples without its second assertion: before it, and after it. -/
def unassertedPre : List Raw.Directive := ledger.take 9
def unassertedPost : List Raw.Directive := ledger.drop 10

/-- What the bank and the account below it have before day 7, and whether the ledger with an assertion for day 7 is accepted. -/
def shownAndAccepted (units : Dec) : List (List Dec) × Bool :=
  (match Toy.run (unassertedPre ++ unassertedPost) with
    | .success out _ =>
      match inventory ⟨out, Toy.options, { defaultBooking := .strict, accs := [], curs := [] }⟩ [curIs nzd, dateLt (Toy.day 7)] with
      | some inv => [bank, current].map fun a => ((inv.get a).getD []).map (·.units)
      | none => []
    | _ => [],
   match Toy.run (unassertedPre ++ Toy.mkBal 7 bank units nzd :: unassertedPost) with
    | .success _ _ => true
    | _ => false)

end Ex

/-- The report shows 100.00 and -12.50, together 87.50, and that is what can be asserted, to the cent. -/
example : (Ex.shownAndAccepted ⟨8750, 2⟩, Ex.shownAndAccepted ⟨8751, 2⟩, Ex.shownAndAccepted ⟨8752, 2⟩) =
    (([[⟨10000, 2⟩], [⟨-1250, 2⟩]], true), ([[⟨10000, 2⟩], [⟨-1250, 2⟩]], true), ([[⟨10000, 2⟩], [⟨-1250, 2⟩]], false)) := by
  decide +kernel

/-- No pad waits there. The other conditions are shown beside C06 and C60. -/
example : padWaits Ex.unassertedPre Ex.bank = false := by decide +kernel

end Limabean
