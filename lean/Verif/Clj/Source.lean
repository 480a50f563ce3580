/-
Asking the server for the text at places of the beanfile.
-/
import Verif.Clj.Pod

namespace Limabean
namespace Clj

variable {E : Ext} {L : BookLib}

/-- `resolve-spans`: clj/src/limabean/adapter/pod.clj:111-114. No function of limabean calls it; it is there for the user. -/
def Pod.resolveSpans (F : Front E L) (pod : Pod E) (spans : List Data) : Pod E × Option Data :=
  let r := pod.invoke F (str% "parser.resolve-spans") (.vec spans)
  (r.1, okOrThrow r.2)

end Clj
end Limabean
