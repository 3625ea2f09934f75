import Verif.Model.Queue

/-!
# Specification: the queue

A queue of capacity `numElems - 1` is described by the calls that have returned.
-/

namespace Wdns.Spec

/-- The items inserted by calls that returned true, in order. -/
def inserted : List QEvent → List (List UInt8)
  | [] => []
  | .inserted x true _ :: es => x :: inserted es
  | _ :: es => inserted es

/-- The items removed by calls that returned true, in order. -/
def removed : List QEvent → List (List UInt8)
  | [] => []
  | .removed (some x) _ :: es => x :: removed es
  | _ :: es => removed es

end Wdns.Spec
