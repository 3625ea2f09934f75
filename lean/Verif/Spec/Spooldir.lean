import Verif.Model.Spooldir

/-!
# Specification: the spool directory
-/

namespace Wdns.Spec

/-- The path of a file that has arrived and was not yet handed out. -/
def incomingPath (d n : List UInt8) : List UInt8 := d ++ (ascii "/incoming/" ++ n)

/-- The path under which it is handed out. -/
def activePath (d n : List UInt8) : List UInt8 := d ++ (ascii "/active/" ++ n)

/-- The file system before the first call: different paths are different files, numbered below `next`. -/
def FsOk (fs : SdFs) (next : Nat) : Prop :=
  (∀ p nd, fs p = some nd → nd.id < next) ∧ ∀ p q a b, fs p = some a → fs q = some b → a.id = b.id → p = q

/-- The thread holds the lock. -/
def Inside : SdPc → Bool
  | .idle | .wait | .done _ => false
  | _ => true

/-- The paths that the calls of thread `t` have returned. -/
def returnedTo (st : SdState) (t : Nat) : List (List UInt8) := st.outs.filterMap fun o => if o.1 = t then o.2 else none

/-- The files that thread `t` has taken. -/
def takenBy (st : SdState) (t : Nat) : List (List UInt8 × Nat) := st.moved.filterMap fun m => if m.1 = t then some m.2 else none

/-- Not an entry that `spooldir_next` takes: hidden, or not (known to be) a regular file. -/
def PassedOver (fs : SdFs) (d n : List UInt8) : Prop := n.head? = some 46 ∨ ∀ nd, fs (incomingPath d n) = some nd → nd.reg = false

/-- The events of a call of thread `t` without interference: `skip` are the entries that `readdir` reports first, `n` the one it takes. -/
def callEvents (t : Nat) (skip : List (List UInt8)) (n : List UInt8) (there : Bool) : List SdEv :=
  [.call t, .lock t] ++ (skip.flatMap fun m => .readdir t (some m) :: (if m.head? = some 46 then [] else [.fstatat t true])) ++
  [.readdir t (some n), .fstatat t true, .exist t true] ++ (if there then [.unlink t true] else []) ++ [.rename t true, .unlock t, .ret t]

end Wdns.Spec
