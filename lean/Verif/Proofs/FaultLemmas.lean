/-
The accumulator reports exactly what the audit of `Spec.Faults` finds.
-/
import Verif.Spec.Faults
import Verif.Proofs.BalanceStep
import Verif.Props.C13

namespace Limabean

open Spec

variable {L : BookLib}

/-- The maps of opened and closed accounts say how an account stands. -/
inductive Stands : Option ElementIdx → Option ElementIdx → Standing → Prop
  | opn (k) : Stands (some { directive := k }) none (.opn k)
  | closed (k) : Stands none (some { directive := k }) (.closed k)
  | reopened (k j) : Stands (some { directive := k }) (some { directive := j }) (.reopened k j)

/-- A pending pad. -/
inductive PadIs (bk : List Booked.Directive) : Option (Nat × ElementIdx) → Option (Nat × Str) → Prop
  | nothing : PadIs bk none none
  | pending {i k src} : padSource bk i = some src → PadIs bk (some (i, { directive := k })) (some (k, src))

/-- An opened account and what is remembered of it. -/
structure Terms (opt : Option Booking) (x : Account L) (n : Nat) (o : Raw.Open) : Prop where
  opened : x.opened = { directive := n }
  allowed : x.allowed = o.currencies.getD []
  booking : x.booking = Spec.method L opt o

/-- All about one account. -/
inductive AtAcc (opt : Option Booking) (bk : List Booked.Directive) : Option ElementIdx → Option ElementIdx →
    Option (Account L) → Option (Nat × Raw.Open) → Standing → Option L.Pos → Option (Nat × Str) → Prop
  | unknown : AtAcc opt bk none none none none .unknown none none
  | known {e c x n o s p} : Stands e c s → Terms opt x n o → PadIs bk x.pad p →
      AtAcc opt bk e c (some x) (some (n, o)) s (some x.positions) p

/-- The states correspond. -/
structure Tal (opt : Option Booking) (bk : List Booked.Directive) (st : State L) (s : Tally L) : Prop where
  names : AMap.keys st.accounts = s.names
  at_ : ∀ a, AtAcc opt bk (st.opened.get a) (st.closed.get a) (st.accounts.get a) (s.terms a) (s.standing a)
    (s.held a) (s.pending a)

theorem PadIs.mono {bk bk' : List Booked.Directive} (h : ∀ i src, padSource bk i = some src → padSource bk' i = some src)
    {p : Option (Nat × ElementIdx)} {q : Option (Nat × Str)} (hp : PadIs bk p q) : PadIs bk' p q := by
  cases hp with
  | nothing => exact .nothing
  | pending hs => exact .pending (h _ _ hs)

theorem AtAcc.mono {opt : Option Booking} {bk bk' : List Booked.Directive}
    (h : ∀ i src, padSource bk i = some src → padSource bk' i = some src) {e c : Option ElementIdx}
    {x : Option (Account L)} {t : Option (Nat × Raw.Open)} {s : Standing} {p : Option L.Pos} {q : Option (Nat × Str)}
    (ha : AtAcc opt bk e c x t s p q) : AtAcc opt bk' e c x t s p q := by
  cases ha with
  | unknown => exact .unknown
  | known h1 h2 h3 => exact .known h1 h2 (h3.mono h)

theorem padSource_grow (bk x : List Booked.Directive) (i : Nat) (src : Str) (h : padSource bk i = some src) :
    padSource (bk ++ x) i = some src := by
  have : i < bk.length := by
    by_contra hc
    unfold padSource at h
    rw [List.getElem?_eq_none (by omega)] at h
    cases h
  rw [padSource_append this]; exact h

theorem Tal.mono {opt : Option Booking} {bk bk' : List Booked.Directive} {st : State L} {s : Tally L}
    (ht : Tal opt bk st s) (h : ∀ i src, padSource bk i = some src → padSource bk' i = some src) : Tal opt bk' st s :=
  ⟨ht.names, fun a => (ht.at_ a).mono h⟩

theorem Tal.grow {opt : Option Booking} {bk : List Booked.Directive} {st : State L} {s : Tally L}
    (ht : Tal opt bk st s) (x : List Booked.Directive) : Tal opt (bk ++ x) st s := ht.mono (padSource_grow bk x)

theorem Tal.inventory {opt : Option Booking} {bk : List Booked.Directive} {st : State L} {s : Tally L}
    (ht : Tal opt bk st s) : st.inventory = s.held := by
  funext a
  have := ht.at_ a
  unfold State.inventory
  generalize st.accounts.get a = x at this ⊢
  generalize s.held a = p at this ⊢
  generalize st.opened.get a = op at this
  generalize st.closed.get a = cl at this
  generalize s.terms a = t at this
  generalize s.standing a = sd at this
  generalize s.pending a = q at this
  cases this <;> rfl

theorem Tal.total {opt : Option Booking} {bk : List Booked.Directive} {st : State L} {s : Tally L}
    (ht : Tal opt bk st s) (hw : AMap.WF st.accounts) {env : Env L} (hf : env.Fair) (acc cur : Str) :
    st.totalRollupUnits env acc cur = s.total acc cur :=
  total_eq (r := { st := st, booked := bk }) (s := { names := s.names, held := s.held, pending := pendingOf bk st }) hf
    ⟨ht.names, ht.inventory, rfl, rfl⟩ hw acc cur

theorem Tal.margin {opt : Option Booking} {bk : List Booked.Directive} {st : State L} {s : Tally L}
    (ht : Tal opt bk st s) (hw : AMap.WF st.accounts) {env : Env L} (hf : env.Fair) {o : BookOptions}
    (he : env.tolerance = o.tolerance) (b : Raw.Balance) :
    st.marginOf env b = if (b.units.sub (s.total b.acc b.cur)).abs.gt (toleranceDec o.tolerance.multiplier b) then
      some (b.units.sub (s.total b.acc b.cur)) else none := by
  unfold State.marginOf calculateBalanceMargin
  rw [ht.total hw hf, toleranceDec_eq he]

theorem method_key (hd : L.supported L.dflt = true) (o : BookOptions) (op : Raw.Open) :
    (if L.supported (op.booking.getD (defaultBooking L o)) then op.booking.getD (defaultBooking L o) else L.dflt) =
      Spec.method L o.bookingMethod op := by
  unfold Spec.method defaultBooking
  cases op.booking with
  | some b => simp
  | none =>
    cases o.bookingMethod with
    | none => simp [hd]
    | some b => by_cases hb : L.supported b = true <;> simp [hb, hd]

theorem Tal.method {order : AMap Str (Account L) → AMap Str (Account L)} {o : BookOptions}
    {bk : List Booked.Directive} {st : State L} {s : Tally L} (ht : Tal o.bookingMethod bk st s) :
    st.bookingFor (envOf L o order) = s.method o.bookingMethod := by
  funext a
  have := ht.at_ a
  unfold State.bookingFor Tally.method
  generalize st.accounts.get a = x at this ⊢
  generalize s.terms a = p at this ⊢
  generalize s.held a = h at this
  generalize st.opened.get a = op at this
  generalize st.closed.get a = cl at this
  generalize s.standing a = sd at this
  generalize s.pending a = q at this
  cases this with
  | unknown =>
    simp only [Option.map_none, Option.getD_none, Spec.method, envOf, defaultBooking]
    cases o.bookingMethod with
    | none => rfl
    | some b => rfl
  | known h1 h2 h3 => simp [h2.booking]

/-! ### Looking up accounts -/

/-- A lookup fails as the tally says. -/
theorem Tal.getValid {opt : Option Booking} {bk : List Booked.Directive} {st : State L} {s : Tally L}
    (ht : Tal opt bk st s) (a : Str) (e : ElementIdx) :
    (∃ f x, s.account a = some f ∧ st.getValidAccount a e = .err x ∧ x.idx = e ∧ Said f x.reason x.related) ∨
    (∃ x n o, s.account a = none ∧ st.getValidAccount a e = .ok x ∧ s.terms a = some (n, o) ∧ Terms opt x n o ∧
      PadIs bk x.pad (s.pending a) ∧ st.accounts.get a = some x ∧ st.opened.has a = true ∧
      s.held a = some x.positions) := by
  have := ht.at_ a
  unfold State.getValidAccount State.validateAccount Tally.account AMap.has
  generalize st.accounts.get a = x at this ⊢
  generalize st.opened.get a = op at this ⊢
  generalize st.closed.get a = cl at this ⊢
  generalize s.terms a = t at this ⊢
  generalize s.standing a = sd at this ⊢
  generalize s.held a = h at this ⊢
  generalize s.pending a = p at this ⊢
  cases this with
  | unknown => exact Or.inl ⟨_, _, rfl, rfl, rfl, .notOpen⟩
  | known h1 h2 h3 =>
    cases h1 with
    | opn k => exact Or.inr ⟨_, _, _, rfl, rfl, rfl, h2, h3, rfl, rfl, rfl⟩
    | closed k => exact Or.inl ⟨_, _, rfl, rfl, rfl, .closed k⟩
    | reopened k j => exact Or.inr ⟨_, _, _, rfl, rfl, rfl, h2, h3, rfl, rfl, rfl⟩

/-- A lookup with a currency fails as the tally says. -/
theorem Tal.validate {opt : Option Booking} {bk : List Booked.Directive} {st : State L} {s : Tally L}
    (ht : Tal opt bk st s) (a c : Str) (e : ElementIdx) :
    (∃ f x, s.usage a c = some f ∧ st.validateAccountAndCurrency a c e = .err x ∧ x.idx = e ∧
      Said f x.reason x.related) ∨
    (s.usage a c = none ∧ st.validateAccountAndCurrency a c e = .ok ()) := by
  unfold Tally.usage State.validateAccountAndCurrency
  rcases ht.getValid a e with ⟨f, x, h1, h2, h3, h4⟩ | ⟨x, n, o, h1, h2, h3, h4, h5, h6, -⟩
  · rw [h1, h2]
    exact Or.inl ⟨f, x, rfl, rfl, h3, h4⟩
  · rw [h1, h2, h3]
    simp only [Account.validateCurrency, Account.isCurrencyValid, h4.allowed, h4.opened]
    by_cases hc : o.currencies.getD [] = [] ∨ c ∈ o.currencies.getD []
    · right
      rw [if_pos hc]
      rw [if_pos (by rcases hc with h | h <;> simp [h])]
      simp
    · left
      rw [if_neg hc, if_neg (by simpa using hc)]
      exact ⟨_, _, rfl, rfl, rfl, .currency n⟩

theorem Tal.firstPosting {opt : Option Booking} {bk : List Booked.Directive} {st : State L} {s : Tally L}
    (ht : Tal opt bk st s) (e : ElementIdx) (i : Nat) (zs : List (Interpolated × Raw.PostingSpec)) :
    (∃ j f x, s.wrongPosting i zs = some (j, f) ∧ st.firstPostingError e i zs = .err x ∧
      x.idx = { directive := e.directive, posting := some j } ∧ Said f x.reason x.related) ∨
    (s.wrongPosting i zs = none ∧ st.firstPostingError e i zs = .ok () ∧
      ∀ z ∈ zs, ∃ x, st.opened.has z.2.acc = true ∧ st.accounts.get z.2.acc = some x) := by
  induction zs generalizing i with
  | nil => exact Or.inr ⟨rfl, rfl, by simp⟩
  | cons z zs ih =>
    obtain ⟨ip, p⟩ := z
    simp only [Tally.wrongPosting, State.firstPostingError]
    rcases ht.validate p.acc ip.currency { directive := e.directive, posting := some i } with
      ⟨f, x, h1, h2, h3, h4⟩ | ⟨h1, h2⟩
    · rw [h1, h2]
      exact Or.inl ⟨i, f, x, rfl, rfl, h3, h4⟩
    · rw [h1, h2]
      rcases ih (i + 1) with ⟨j, f, x, k1, k2, k3, k4⟩ | ⟨k1, k2, k3⟩
      · exact Or.inl ⟨j, f, x, k1, k2, k3, k4⟩
      · refine Or.inr ⟨k1, k2, ?_⟩
        intro z hz
        rcases List.mem_cons.1 hz with rfl | hz
        · unfold State.validateAccountAndCurrency at h2
          cases hg : st.getValidAccount p.acc { directive := e.directive, posting := some i } with
          | err x => simp [hg] at h2
          | panic => simp [hg] at h2
          | ok x => exact ⟨x, (State.getValidAccount_ok.1 hg).1, (State.getValidAccount_ok.1 hg).2⟩
        · exact k3 z hz

/-! ### Changing accounts -/

theorem AMap.keys_set_self {K V : Type} [DecidableEq K] {m : AMap K V} {k : K} {v : V} (h : m.get k = some v) (w : V) :
    AMap.keys (m.set k w) = AMap.keys m := by
  rw [AMap.keys_set, if_pos ((AMap.mem_keys_iff _ _).2 ⟨v, h⟩)]

/-- Replacing an account which differs in holdings and pad. -/
theorem Tal.set {opt : Option Booking} {bk : List Booked.Directive} {st : State L} {s : Tally L}
    (ht : Tal opt bk st s) {k : Str} {x x' : Account L} (hx : st.accounts.get k = some x)
    (ho : x'.opened = x.opened) (ha : x'.allowed = x.allowed) (hb : x'.booking = x.booking) {p : Option (Nat × Str)}
    (hp : PadIs bk x'.pad p) :
    Tal opt bk (st.setAccount k x')
      { s with held := Function.update s.held k (some x'.positions), pending := Function.update s.pending k p } := by
  refine ⟨?_, ?_⟩
  · rw [← ht.names]; exact AMap.keys_set_self hx _
  · intro a
    have := ht.at_ a
    simp only [State.setAccount, AMap.get_set]
    by_cases hk : k = a
    · subst hk
      simp only [if_true, Function.update_self]
      rw [hx] at this
      generalize st.opened.get k = op at this ⊢
      generalize st.closed.get k = cl at this ⊢
      generalize s.terms k = t at this ⊢
      generalize s.standing k = sd at this ⊢
      generalize s.held k = h at this ⊢
      generalize s.pending k = p' at this ⊢
      cases this with
      | known h1 h2 h3 => exact .known h1 ⟨by rw [ho, h2.opened], by rw [ha, h2.allowed], by rw [hb, h2.booking]⟩ hp
    · have hk' : a ≠ k := fun h => hk h.symm
      simp only [hk, if_false, Function.update_of_ne hk']
      exact this

theorem Tally.ext' {s s' : Tally L} (h1 : s.names = s'.names) (h2 : s.terms = s'.terms) (h3 : s.standing = s'.standing)
    (h4 : s.held = s'.held) (h5 : s.pending = s'.pending) : s = s' := by
  cases s; cases s'; simp_all

theorem Tal.setHeld {opt : Option Booking} {bk : List Booked.Directive} {st : State L} {s : Tally L}
    (ht : Tal opt bk st s) {k : Str} {x : Account L} (hx : st.accounts.get k = some x) (p : L.Pos) :
    Tal opt bk (st.setAccount k { x with positions := p }) { s with held := Function.update s.held k (some p) } := by
  have hp : PadIs bk x.pad (s.pending k) := by
    have := ht.at_ k
    rw [hx] at this
    generalize st.opened.get k = op at this
    generalize st.closed.get k = cl at this
    generalize s.terms k = t at this
    generalize s.standing k = sd at this
    generalize s.held k = h at this
    cases this with
    | known h1 h2 h3 => exact h3
  have := ht.set (x' := { x with positions := p }) hx rfl rfl rfl hp
  simpa using this

theorem Tal.install {opt : Option Booking} {bk : List Booked.Directive} (e : ElementIdx) (us : List (Str × L.Pos))
    {st : State L} {s : Tally L} (ht : Tal opt bk st s)
    (ho : ∀ aq ∈ us, ∃ x, st.opened.has aq.1 = true ∧ st.accounts.get aq.1 = some x) :
    ∃ st', State.installInventory e st us = .ok st' () ∧
      Tal opt bk st' { s with held := us.foldl (fun h aq => Function.update h aq.1 (some aq.2)) s.held } := by
  induction us generalizing st s with
  | nil => exact ⟨st, rfl, ht⟩
  | cons u us ih =>
    obtain ⟨acc, pos⟩ := u
    obtain ⟨x, h1, h2⟩ := ho (acc, pos) (by simp)
    simp only [State.installInventory, (State.getValidAccount_ok (e := e)).2 ⟨h1, h2⟩]
    have := ih (ht.setHeld h2 pos) (by
      intro aq haq
      obtain ⟨y, h3, h4⟩ := ho aq (List.mem_cons_of_mem _ haq)
      by_cases hk : acc = aq.1
      · exact ⟨_, h3, by simp [State.setAccount, AMap.get_set, hk]; rfl⟩
      · exact ⟨y, h3, by simpa [State.setAccount, AMap.get_set, hk] using h4⟩)
    exact this

/-! ### One directive -/

/-- What a step does, given what the audit does. -/
def Audited (opt : Option Booking) (r : Run L) : Option (Run L) → Option (Tally L × List Finding) → Prop
  | none, none => True
  | some r', some (s', fs) => Tal opt r'.booked r'.st s' ∧ ∃ xs, r'.errors = r.errors ++ xs ∧ List.Forall₂ Announces xs fs
  | _, _ => False

theorem Audited.one {opt : Option Booking} {r : Run L} {st : State L} {bk : List Booked.Directive} {x : IndexedReport}
    {s : Tally L} {f : Finding} (ht : Tal opt bk st s) (hx : Announces x f) :
    Audited opt r (some { st := st, booked := bk, errors := r.errors ++ [x] }) (some (s, [f])) :=
  ⟨ht, [x], rfl, .cons hx .nil⟩

theorem Audited.fine {opt : Option Booking} {r : Run L} {st : State L} {bk : List Booked.Directive}
    {s : Tally L} (ht : Tal opt bk st s) :
    Audited opt r (some { st := st, booked := bk, errors := r.errors }) (some (s, [])) :=
  ⟨ht, [], by simp, .nil⟩

theorem Audited.fine' {opt : Option Booking} {r : Run L} {st : State L} {bk : List Booked.Directive}
    {s : Tally L} (ht : Tal opt bk st s) :
    Audited opt r (some { st := st, booked := bk, errors := r.errors ++ [] }) (some (s, [])) :=
  ⟨ht, [], rfl, .nil⟩

theorem audit_transaction (hL : L.Lawful) {order : AMap Str (Account L) → AMap Str (Account L)} {o : BookOptions}
    {n : Nat} {raw : Raw.Directive} {t : Raw.Transaction} {r : Run L} {s : Tally L}
    (ht : Tal o.bookingMethod r.booked r.st s) (hv : raw.variant = .transaction t) :
    Audited o.bookingMethod r (r.step (envOf L o order) n raw) (s.step o.bookingMethod o.tolerance n raw) := by
  unfold Run.step State.directive Tally.step
  simp only [hv, State.transaction, State.book, ht.inventory, ht.method]
  rw [show (envOf L o order).tolerance = o.tolerance from rfl]
  cases hb : L.book raw.date t.postings o.tolerance s.held (s.method o.bookingMethod) with
  | error e =>
    cases e with
    | transaction text => exact .one ht ⟨rfl, .transaction text⟩
    | posting i text => exact .one ht ⟨rfl, .posting i text⟩
  | ok q =>
    simp only
    rcases ht.firstPosting { directive := n } 0 (q.interpolated.zip t.postings) with
      ⟨j, f, x, h1, h2, h3, h4⟩ | ⟨h1, h2, h3⟩
    · rw [h1, h2]
      exact .one ht ⟨h3, h4⟩
    · rw [h1, h2]
      obtain ⟨st', k1, k2⟩ := ht.install { directive := n } q.updated (by
        intro aq haq
        obtain ⟨p, hp, hpa⟩ := hL.book_accounts _ _ _ _ _ _ hb aq.1 aq.2 haq
        have hlen := hL.book_length _ _ _ _ _ _ hb
        obtain ⟨i, hi, hip⟩ := List.getElem_of_mem hp
        have hz : (q.interpolated[i]'(by omega), p) ∈ q.interpolated.zip t.postings := by
          rw [List.mem_iff_getElem]
          exact ⟨i, by simp; omega, by simp [hip]⟩
        have := h3 _ hz
        rw [hpa] at this
        exact this)
      rw [k1]
      simp only [Res.plain, balanceErrors, Option.map_none, Option.toList_none, List.append_nil]
      exact .fine (k2.grow _)

theorem audit_open (hL : L.Lawful) {order : AMap Str (Account L) → AMap Str (Account L)} {o : BookOptions}
    {n : Nat} {raw : Raw.Directive} {op : Raw.Open} {r : Run L} {s : Tally L}
    (ht : Tal o.bookingMethod r.booked r.st s) (hv : raw.variant = .opn op) :
    Audited o.bookingMethod r (r.step (envOf L o order) n raw) (s.step o.bookingMethod o.tolerance n raw) := by
  unfold Run.step State.directive Tally.step
  simp only [hv, State.opn]
  have h := ht.at_ op.acc
  generalize hx : r.st.accounts.get op.acc = x at h
  generalize hop : r.st.opened.get op.acc = eo at h
  generalize hcl : r.st.closed.get op.acc = ec at h
  generalize htm : s.terms op.acc = tm at h
  generalize hsd : s.standing op.acc = sd at h
  generalize hhl : s.held op.acc = hl at h
  generalize hpd : s.pending op.acc = pd at h
  cases h with
  | unknown =>
    simp only [Res.plain, balanceErrors, Option.map_none, Option.toList_none, List.append_nil]
    refine .fine (Tal.grow ⟨?_, ?_⟩ _)
    · have : op.acc ∉ AMap.keys r.st.accounts := (AMap.get_eq_none_iff _ _).1 hx
      simp [AMap.keys_set, this, ← ht.names]
    · intro a
      simp only [AMap.get_set]
      by_cases ha : op.acc = a
      · subst ha
        simp only [if_true, Function.update_self, hcl, hpd]
        exact .known (.opn n) ⟨rfl, rfl, method_key hL.supported_dflt o op⟩ .nothing
      · have ha' : a ≠ op.acc := fun h => ha h.symm
        simp only [ha, if_false, Function.update_of_ne ha']
        exact ht.at_ a
  | known h1 h2 h3 =>
    cases h1 with
    | opn k =>
      simp only [Res.plain]
      exact .one ht ⟨rfl, .alreadyOpen k⟩
    | reopened k j =>
      simp only [Res.plain]
      exact .one ht ⟨rfl, .alreadyOpen k⟩
    | closed k =>
      simp only [Res.plain, hcl]
      refine .one ⟨ht.names, ?_⟩ ⟨rfl, .closed k⟩
      intro a
      simp only [AMap.get_set]
      by_cases ha : op.acc = a
      · subst ha
        simp only [if_true, Function.update_self, hcl, hpd, htm, hhl, hx]
        exact .known (.reopened n k) h2 h3
      · have ha' : a ≠ op.acc := fun h => ha h.symm
        simp only [ha, if_false, Function.update_of_ne ha']
        exact ht.at_ a

theorem audit_close {order : AMap Str (Account L) → AMap Str (Account L)} {o : BookOptions}
    {n m : Nat} {raw : Raw.Directive} {cl : Raw.Close} {r : Run L} {s : Tally L} (hi : StInv m r.booked r.st)
    (ht : Tal o.bookingMethod r.booked r.st s) (hv : raw.variant = .close cl) :
    Audited o.bookingMethod r (r.step (envOf L o order) n raw) (s.step o.bookingMethod o.tolerance n raw) := by
  unfold Run.step State.directive Tally.step
  simp only [hv, State.close]
  have h := ht.at_ cl.acc
  generalize hx : r.st.accounts.get cl.acc = x at h
  generalize hop : r.st.opened.get cl.acc = eo at h
  generalize hcl : r.st.closed.get cl.acc = ec at h
  generalize htm : s.terms cl.acc = tm at h
  generalize hsd : s.standing cl.acc = sd at h
  generalize hhl : s.held cl.acc = hl at h
  generalize hpd : s.pending cl.acc = pd at h
  cases h with
  | unknown => exact .one ht ⟨rfl, .notOpen⟩
  | known h1 h2 h3 =>
    cases h1 with
    | opn k =>
      simp only [Res.plain, balanceErrors, Option.map_none, Option.toList_none, List.append_nil]
      refine .fine (Tal.grow ⟨?_, ?_⟩ _)
      · exact ht.names
      intro a
      simp only [AMap.get_set, AMap.get_del hi.wfO]
      by_cases ha : cl.acc = a
      · subst ha
        simp only [if_true, Function.update_self, hpd, htm, hhl, hx]
        exact .known (.closed n) h2 h3
      · have ha' : a ≠ cl.acc := fun h => ha h.symm
        simp only [ha, if_false, Function.update_of_ne ha']
        exact ht.at_ a
    | reopened k j => exact .one ht ⟨rfl, .alreadyClosed j⟩
    | closed k => exact .one ht ⟨rfl, .notOpen⟩

theorem padSource_new (bk : List Booked.Directive) (n : Nat) (raw : Raw.Directive) (p : Raw.Pad) (v : Booked.Variant) :
    padSource (bk ++ [mkBooked n raw (.pad p)] ++ [mkBooked n raw v]) bk.length = some p.source := by
  unfold padSource
  simp [mkBooked]

theorem audit_pad {order : AMap Str (Account L) → AMap Str (Account L)} {o : BookOptions}
    {n : Nat} {raw : Raw.Directive} {p : Raw.Pad} {r : Run L} {s : Tally L}
    (ht : Tal o.bookingMethod r.booked r.st s) (hv : raw.variant = .pad p) :
    Audited o.bookingMethod r (r.step (envOf L o order) n raw) (s.step o.bookingMethod o.tolerance n raw) := by
  unfold Run.step State.directive Tally.step
  simp only [hv, State.pad]
  rcases ht.getValid p.acc { directive := n } with ⟨f, x, h1, h2, h3, h4⟩ | ⟨x, k, op, h1, h2, h3, h4, h5, h6, h7, h8⟩
  · rw [h1, h2]
    exact .one ht ⟨h3, h4⟩
  · rw [h1, h2]
    simp only
    generalize hp : x.pad = xp at h5
    generalize hq : s.pending p.acc = sp at h5
    cases h5 with
    | nothing =>
      simp only [balanceErrors, Option.map_some, Option.toList_some, List.append_nil]
      refine .fine ?_
      have hg : Tal o.bookingMethod (r.booked ++ [mkBooked n raw (.pad p)] ++
          [mkBooked n raw (.transaction { flag := padFlag, postings := [] })]) r.st s := by
        rw [List.append_assoc]; exact ht.grow _
      have := hg.set (x' := { x with pad := some (r.booked.length, { directive := n }) }) h6 rfl rfl rfl
        (p := some (n, p.source)) (.pending (padSource_new _ _ _ _ _))
      rw [← h8] at this
      simpa using this
    | pending hs =>
      refine .one ?_ ⟨rfl, .padSuperseded n⟩
      have := ht.set (x' := { x with pad := none }) h6 rfl rfl rfl (p := none) .nothing
      rw [← h8] at this
      simpa using this

theorem audit_balance {order : AMap Str (Account L) → AMap Str (Account L)} {o : BookOptions}
    (hf : (envOf L o order).Fair) {n : Nat} {raw : Raw.Directive} {b : Raw.Balance} {r : Run L} {s : Tally L}
    (hi : StInv n r.booked r.st) (ht : Tal o.bookingMethod r.booked r.st s) (hv : raw.variant = .balance b) :
    Audited o.bookingMethod r (r.step (envOf L o order) n raw) (s.step o.bookingMethod o.tolerance n raw) := by
  rcases ht.validate b.acc b.cur { directive := n } with ⟨f, x, h1, h2, h3, h4⟩ | ⟨h1, h2⟩
  · have : r.step (envOf L o order) n raw = some { st := r.st, booked := r.booked, errors := r.errors ++ [x] } := by
      unfold Run.step State.directive
      simp only [hv, State.balance]
      unfold State.validateAccountAndCurrency at h2
      cases hg : r.st.getValidAccount b.acc { directive := n } with
      | panic => simp [hg] at h2
      | err y => simp only [hg, Got.err.injEq] at h2; simp [h2]
      | ok a =>
        simp only [hg] at h2 ⊢
        cases hc : a.validateCurrency b.cur { directive := n } with
        | none => simp [hc] at h2
        | some y => simp only [hc, Got.err.injEq] at h2; simp [h2]
    rw [this]
    unfold Tally.step
    simp only [hv, h1]
    exact .one ht ⟨h3, h4⟩
  · obtain ⟨a, ho, ha, hc⟩ : ∃ a, r.st.opened.has b.acc = true ∧ r.st.accounts.get b.acc = some a ∧
        a.isCurrencyValid b.cur = true := by
      unfold State.validateAccountAndCurrency at h2
      cases hg : r.st.getValidAccount b.acc { directive := n } with
      | panic => simp [hg] at h2
      | err y => simp [hg] at h2
      | ok a =>
        simp only [hg] at h2
        cases hc : a.validateCurrency b.cur { directive := n } with
        | some y => simp [hc] at h2
        | none => exact ⟨a, (State.getValidAccount_ok.1 hg).1, (State.getValidAccount_ok.1 hg).2,
            Account.validateCurrency_none.1 hc⟩
    obtain ⟨k1, k2, k3⟩ := balance_step (env := envOf L o order) hi hv ho ha hc
    rw [ht.margin hi.wfA hf rfl b] at k1 k2 k3
    have hpos : s.held b.acc = some a.positions ∧ PadIs r.booked a.pad (s.pending b.acc) := by
      rcases ht.getValid b.acc { directive := n } with ⟨f, x, -, g2, -⟩ | ⟨x, k, op, -, -, -, -, g5, g6, -, g8⟩
      · rw [(State.getValidAccount_ok (e := { directive := n })).2 ⟨ho, ha⟩] at g2
        cases g2
      · rw [ha] at g6
        cases g6
        exact ⟨g8, g5⟩
    obtain ⟨hheld, hpad⟩ := hpos
    unfold Tally.step
    simp only [hv, h1]
    cases hgt : (b.units.sub (s.total b.acc b.cur)).abs.gt (toleranceDec o.tolerance.multiplier b) with
    | false =>
      rw [k1 (by rw [hgt]; simp)]
      generalize hp : a.pad = xp at hpad
      generalize hq : s.pending b.acc = sp at hpad
      have := ht.set (x' := a.advance r.booked.length) ha rfl rfl rfl (p := none) .nothing
      cases hpad with
      | nothing =>
        simp only [Option.map_none, Option.toList_none]
        refine .fine' ?_
        have := this.grow [mkBooked n raw (.balance { raw := b, unusedPad := none })]
        simp only [Account.advance] at this ⊢
        rw [← hheld, ← hq] at this
        simpa using this
      | pending hs =>
        simp only [Option.map_some, Option.toList_some]
        refine .one ?_ ⟨rfl, .padUnneeded⟩
        have := this.grow [mkBooked n raw (.balance { raw := b, unusedPad := a.pad.map fun p => p.2 })]
        rw [hp] at this
        simp only [Account.advance] at this ⊢
        rw [← hheld] at this
        simpa using this
    | true =>
      rw [hgt] at k2 k3
      simp only [if_true, Option.some.injEq, forall_eq'] at k2 k3
      generalize hp : a.pad = xp at hpad
      generalize hq : s.pending b.acc = sp at hpad
      have hset := ht.set (x' := (a.advance r.booked.length).adjustAdd b.cur (b.units.sub (s.total b.acc b.cur)))
        ha rfl rfl rfl (p := none) .nothing
      cases hpad with
      | nothing =>
        obtain ⟨rep, t, hr1, hr2, hr3, -, hr⟩ := k2 hp
        rw [hr]
        simp only
        refine .one ?_ ⟨hr2, by rw [hr1, hr3]; exact .gap _ _ _⟩
        have := hset.grow [mkBooked n raw (.balance { raw := b, margin := some (b.units.sub (s.total b.acc b.cur)) })]
        rw [← hq] at this
        simpa [State.resetTo, Tally.change, hheld, Account.adjustAdd, Account.advance] using this
      | pending hs =>
        rename_i i k src
        simp only
        obtain ⟨d, p, d2, t, g1, g2, -, -, g5, g6, -⟩ := hi.pad _ _ _ _ ha hp
        have hsrc : p.source = src := by
          unfold padSource at hs
          simpa [g1, g2] using hs
        subst hsrc
        rw [k3 _ i _ rfl hp d p d2 t g1 g2 g5 g6]
        have hkeys : AMap.keys (r.st.resetTo b a (b.units.sub (s.total b.acc b.cur)) r.booked.length).accounts =
            s.names := hset.names
        by_cases hmem : p.source ∈ s.names
        · rw [if_pos hmem]
          obtain ⟨y, hy⟩ := (AMap.mem_keys_iff _ _).1 (hkeys.symm ▸ hmem)
          rw [hy]
          refine .fine ?_
          have h5 := hset.setHeld (k := p.source) hy
            (L.accumulate y.positions (b.units.sub (s.total b.acc b.cur)).neg b.cur L.dflt)
          have h6 := (h5.mono (bk' := r.booked.set (i+1) (d2.withPostings t
            (calculateBalancePadPostings b.cur (b.units.sub (s.total b.acc b.cur)) b.acc p.source)))
            (fun j src hj => by rw [padSource_fill g5 g6]; exact hj)).grow [mkBooked n raw (.balance { raw := b })]
          have hyp : (Function.update s.held b.acc (some (L.accumulate a.positions (b.units.sub (s.total b.acc b.cur))
              b.cur L.dflt))) p.source = some y.positions := by
            have := congrFun hset.inventory p.source
            unfold State.inventory at this
            rw [show ((r.st.setAccount b.acc ((a.advance r.booked.length).adjustAdd b.cur
              (b.units.sub (s.total b.acc b.cur)))).accounts.get p.source) = some y from hy] at this
            exact this.symm
          have hch : ({ s with pending := Function.update s.pending b.acc none }.change b.acc
              (b.units.sub (s.total b.acc b.cur)) b.cur).change p.source (b.units.sub (s.total b.acc b.cur)).neg b.cur =
              { s with
                held := Function.update (Function.update s.held b.acc (some (L.accumulate a.positions
                  (b.units.sub (s.total b.acc b.cur)) b.cur L.dflt))) p.source
                  (some (L.accumulate y.positions (b.units.sub (s.total b.acc b.cur)).neg b.cur L.dflt))
                pending := Function.update s.pending b.acc none } := by
            unfold Tally.change
            simp only [hheld, Option.map_some, hyp]
          rw [hch]
          exact h6
        · rw [if_neg hmem]
          have : (r.st.resetTo b a (b.units.sub (s.total b.acc b.cur)) r.booked.length).accounts.get p.source = none := by
            rw [AMap.get_eq_none_iff, hkeys]; exact hmem
          rw [this]
          trivial

theorem audit_step (hL : L.Lawful) {order : AMap Str (Account L) → AMap Str (Account L)} {o : BookOptions}
    (hf : (envOf L o order).Fair) {n : Nat} (raw : Raw.Directive) {r : Run L} {s : Tally L}
    (hi : StInv n r.booked r.st) (ht : Tal o.bookingMethod r.booked r.st s) :
    Audited o.bookingMethod r (r.step (envOf L o order) n raw) (s.step o.bookingMethod o.tolerance n raw) := by
  have plain : ∀ v, plainVariant raw.variant = some v →
      Audited o.bookingMethod r (r.step (envOf L o order) n raw) (s.step o.bookingMethod o.tolerance n raw) := by
    intro v hv
    unfold Run.step State.directive Tally.step
    cases hr : raw.variant <;> simp only [hr, plainVariant, reduceCtorEq] at hv
    all_goals
      simp only [balanceErrors, Option.map_none, Option.toList_none, List.append_nil]
      exact .fine (ht.grow _)
  cases hv : raw.variant with
  | transaction t => exact audit_transaction hL ht hv
  | opn op => exact audit_open hL ht hv
  | close c => exact audit_close hi ht hv
  | pad p => exact audit_pad ht hv
  | balance b => exact audit_balance hf hi ht hv
  | _ => exact plain _ (by rw [hv]; rfl)

theorem audit_loop (hL : L.Lawful) {order : AMap Str (Account L) → AMap Str (Account L)} {o : BookOptions}
    (hf : (envOf L o order).Fair) (ds : List Raw.Directive) {n : Nat} {r : Run L} {s : Tally L}
    (hi : StInv n r.booked r.st) (ht : Tal o.bookingMethod r.booked r.st s) :
    Audited o.bookingMethod r (Run.loop (envOf L o order) n ds r) (Tally.run o.bookingMethod o.tolerance n s ds) := by
  induction ds generalizing n r s with
  | nil => exact ⟨ht, [], by simp, .nil⟩
  | cons d ds ih =>
    simp only [Run.loop, Tally.run]
    have h1 := audit_step hL hf d hi ht
    cases hr : r.step (envOf L o order) n d with
    | none =>
      cases hs : s.step o.bookingMethod o.tolerance n d with
      | none => trivial
      | some q => rw [hr, hs] at h1; exact h1.elim
    | some r' =>
      cases hs : s.step o.bookingMethod o.tolerance n d with
      | none => rw [hr, hs] at h1; exact h1.elim
      | some q =>
        obtain ⟨s', fs⟩ := q
        rw [hr, hs] at h1
        obtain ⟨ht', xs, hx, hxs⟩ := h1
        have h2 := ih (hi.step hr) ht'
        simp only
        cases hr2 : Run.loop (envOf L o order) (n + 1) ds r' with
        | none =>
          cases hs2 : Tally.run o.bookingMethod o.tolerance (n + 1) s' ds with
          | none => trivial
          | some q => rw [hr2, hs2] at h2; exact h2.elim
        | some r'' =>
          cases hs2 : Tally.run o.bookingMethod o.tolerance (n + 1) s' ds with
          | none => rw [hr2, hs2] at h2; exact h2.elim
          | some q =>
            obtain ⟨s'', fs'⟩ := q
            rw [hr2, hs2] at h2
            obtain ⟨ht'', ys, hy, hys⟩ := h2
            exact ⟨ht'', xs ++ ys, by rw [hy, hx, List.append_assoc], List.rel_append hxs hys⟩

theorem Tal.init (opt : Option Booking) : Tal opt [] ({} : State L) (Tally.init L) :=
  ⟨rfl, fun _ => .unknown⟩

end Limabean
