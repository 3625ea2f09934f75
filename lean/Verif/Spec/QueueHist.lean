import Verif.Model.Queue

/-!
# Specification: the calls of a bounded queue, one after another
-/

namespace Wdns.Spec

/-- `QHist cap es q`: the calls `es`, made one after another on an empty queue of capacity `cap`, return what a queue returns, and leave `q`
in it (the oldest item first). -/
inductive QHist (cap : Nat) : List QEvent → List (List UInt8) → Prop
  | start : QHist cap [] []
  | insert {es q x} : QHist cap es q → q.length < cap → QHist cap (es ++ [.inserted x true (cap - (q.length + 1))]) (q ++ [x])
  | full {es q x} : QHist cap es q → q.length = cap → QHist cap (es ++ [.inserted x false 0]) q
  | remove {es q x} : QHist cap es (x :: q) → QHist cap (es ++ [.removed (some x) q.length]) q
  | empty {es} : QHist cap es [] → QHist cap (es ++ [.removed none 0]) []

end Wdns.Spec
