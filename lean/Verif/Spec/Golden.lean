/-
Specifications about golden tests.
-/
import Verif.Clj.Golden

namespace Limabean
namespace Spec

open Clj

variable {E : Ext} {L : BookLib}

/-- What is assumed of the libraries which the tests use. -/
structure LawfulTests (H : TestHost E L) : Prop where
  /-- data match themselves -/
  fits_self : ∀ x, H.fits x x = true
  /-- only vectors of the same length match a vector -/
  fits_vec : ∀ l y, H.fits (.vec l) y = true → ∃ l', y = .vec l' ∧ l'.length = l.length
  /-- the expressions are read, and evaluating them in a session shows the report on the ledger of the session -/
  eval : ∀ q : Query, ∃ e rest, H.host.read q.expr = some (e, rest) ∧ ∀ (g : Globals E) m, g.beans = some m →
    H.host.eval e g = H.shown q (m.directives.getD []) m.registry

/-- The text which is written of the data can be read, and gives the data. -/
def Legible (H : TestHost E L) (x : Data) : Prop := H.readEdn (H.write x) = some x

/-- All that is written as data for a ledger is legible. -/
structure LegibleLoad (H : TestHost E L) (m : LoadedBeans E) : Prop where
  directives : Legible H (ofDirectives m.directives)
  rawXf : Legible H (ofDirectives m.rawXfDirectives)
  error : ∀ e, m.error = some e → Legible H (H.errorData e)

/-- The golden directory has nothing left over: no error if the ledger is accepted, nothing but an error if it is not. -/
structure NothingLeft (m : LoadedBeans E) (d : Dir) : Prop where
  accepted : m.error = none → d (str% "error.edn") = none
  rejected : m.error ≠ none → ∀ x ∈ [str% "directives.edn", str% "raw-xf-directives.edn", str% "inventory", str% "rollup", str% "journal"],
    d x = none

/-- Booking has found at most one fault, or there is another error, or none. -/
def OneReport (m : LoadedBeans E) : Prop := ∀ l, m.error = some (.booking (some l)) → l.length ≤ 1

/-- Paths as they come from walking through the files: none twice, and no file is called `.beancount`. -/
structure ProperPaths (D : Disk) : Prop where
  nodup : D.paths.Nodup
  named : ∀ p ∈ D.paths, fileName p ≠ str% ".beancount"

/-- The names of the files which are written. -/
def goldenNames : List Str :=
  [str% "directives.edn", str% "directives.fyi.beancount", str% "raw-xf-directives.edn", str% "raw-xf-directives.fyi.beancount",
    str% "inventory", str% "rollup", str% "journal", str% "error.edn"]

end Spec
end Limabean
