/-
How ledgers are shown in the session and dumped for debugging: clj/src/limabean/adapter/print.clj, clj/src/limabean/adapter/debug.clj.
-/
import Verif.Clj.Format

namespace Limabean
namespace Clj

/-- What is written of `(interpose sep l)`, one string after the other. -/
def interposed (sep : Str) : List Str → Str
  | [] => []
  | [s] => s
  | s :: l => s ++ sep ++ interposed sep l

/-- What `print-method` writes for directives: clj/src/limabean/adapter/print.clj:13-16. The same is dumped for debugging:
clj/src/limabean/adapter/debug.clj:13-18 (`print` of a string writes the string; writing to the file is not modelled). -/
def ledgerText (txt : Data → Str) (ds : List Data) : Str := interposed ['\n'] (ds.map (directiveText txt))

end Clj
end Limabean
