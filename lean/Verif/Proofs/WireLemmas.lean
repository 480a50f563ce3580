/-
Reading back what was written, for the wire format.
-/
import Verif.Server.Wire

namespace Limabean
namespace Wire

open Json

theorem vals_nil (k : Str) : vals k [] = [] := rfl

theorem vals_append (k : Str) (a b : List (Str × Json)) : vals k (a ++ b) = vals k a ++ vals k b := by
  simp [vals]

theorem vals_cons (k k' : Str) (j : Json) (l : List (Str × Json)) :
    vals k ((k', j) :: l) = (if k' = k then [j] else []) ++ vals k l := by
  unfold vals
  by_cases h : k' = k <;> simp [h]

theorem vals_entry {α : Type} (k k' : Str) (x : Option α) (enc : α → Json) :
    vals k (entry k' x enc) = if k' = k then (x.map enc).toList else [] := by
  cases x <;> by_cases h : k' = k <;> simp [entry, vals, h]

theorem all_map {α β : Type} (enc : β → α) (dec : α → Option β) (l : List β)
    (h : ∀ b ∈ l, dec (enc b) = some b) : all dec (l.map enc) = some l := by
  induction l with
  | nil => rfl
  | cons b l ih =>
    simp only [List.map_cons, all, h b (by simp), ih fun x hx => h x (by simp [hx])]

theorem undigit_digit (n : Nat) : undigit (digit n) = some (n % 10) := by
  have h : n % 10 < 10 := Nat.mod_lt _ (by decide)
  unfold digit
  generalize n % 10 = k at h
  revert k; decide

theorem parseDate_fmtDate {d : Date} (h : validDate d = true) : parseDate (fmtDate d) = some d := by
  have hv := h
  simp only [validDate, decide_eq_true_eq] at h
  obtain ⟨h1, h2, h3, h4, h5⟩ := h
  have h6 : d.d ≤ 31 := by
    refine h5.trans ?_
    unfold monthDays
    split
    · split <;> omega
    · split <;> omega
  have e : (⟨1000 * (d.y / 1000 % 10) + 100 * (d.y / 100 % 10) + 10 * (d.y / 10 % 10) + d.y % 10,
      10 * (d.m / 10 % 10) + d.m % 10, 10 * (d.d / 10 % 10) + d.d % 10⟩ : Date) = d := by
    obtain ⟨y, m, dd⟩ := d
    simp only [Date.mk.injEq]
    simp only at h1 h3 h6
    refine ⟨?_, ?_, ?_⟩ <;> omega
  simp only [fmtDate, parseDate, undigit_digit]
  rw [e, hv]
  simp

theorem decDate_encDate {d : Date} (h : validDate d = true) : decDate (encDate d) = some d := parseDate_fmtDate h

theorem toNat_nat (n : Nat) : toNat (nat n) = some n := by
  simp [toNat, nat]

theorem decSpan_encSpan (s : Span) : decSpan (encSpan s) = some s := by
  simp [decSpan, encSpan, toNat_nat]

theorem digit_plain (n : Nat) : escaped (digit n) = false := by
  have h : n % 10 < 10 := Nat.mod_lt _ (by decide)
  unfold digit
  generalize n % 10 = k at h
  revert k; decide

theorem fmtDate_borrowable (d : Date) : borrowable (fmtDate d) = true := by
  simp only [fmtDate, borrowable, List.all_cons, digit_plain, List.all_nil]
  decide

theorem decBooking_encBooking (b : Booking) : decBooking (encBooking b) = some b := by
  cases b <;> decide

theorem encBooking_ne_null (b : Booking) : encBooking b ≠ .null := by cases b <;> simp [encBooking]

theorem opt_of_vals {α : Type} {l : List (Str × Json)} {k : Str} {dec : Json → Option α} {x : Option α} {enc : α → Json}
    (hv : vals k l = (x.map enc).toList) (hd : ∀ a ∈ x, dec (enc a) = some a) (hn : ∀ a, enc a ≠ .null) :
    opt l k dec = some x := by
  unfold opt field
  rw [hv]
  cases x with
  | none => rfl
  | some a =>
    have := hd a rfl
    cases he : enc a <;> simp_all

theorem req_of_vals {α : Type} {l : List (Str × Json)} {k : Str} {dec : Json → Option α} {a : α} {j : Json}
    (hv : vals k l = [j]) (hd : dec j = some a) : req l k dec = some a := by
  unfold req field
  rw [hv]
  exact hd

end Wire
end Limabean
