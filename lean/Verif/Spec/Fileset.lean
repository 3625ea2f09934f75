import Verif.Model.Fileset

/-!
# Specification: what a user of a file set relies on

The record of the calls of `load` and `unload` is judged by itself: `fsLive` follows which (name, pointer) pairs are loaded.  It fails as soon as
`unload` is called for something that is not loaded (any more).
-/

namespace Wdns.Spec

/-- The pairs that are loaded after the calls; `none` if something was unloaded that was not loaded. -/
def fsLive : List FsCall → List (List UInt8 × Nat) → Option (List (List UInt8 × Nat))
  | [], l => some l
  | .load n p :: cs, l => fsLive cs (l ++ [(n, p)])
  | .unload n p :: cs, l => if (n, p) ∈ l then fsLive cs (l.erase (n, p)) else none

/-- The name on a line of the set file: what precedes the first NUL and the newline, in the directory of the set file. -/
def fsPath (setdir line : List UInt8) : List UInt8 :=
  let s := line.takeWhile (· ≠ 0)
  setdir ++ [47] ++ (if s.getLast? = some 10 then s.dropLast else s)

/-- The files that are listed and exist. -/
def fsListed (setdir : List UInt8) (lines : List (List UInt8 × Bool)) : List (List UInt8) :=
  (lines.filter (·.2)).map fun l => fsPath setdir l.1

/-- Bytewise order of strings. -/
def StrBefore : List UInt8 → List UInt8 → Prop
  | _, [] => False
  | [], _ :: _ => True
  | a :: as, b :: bs => a.toNat < b.toNat ∨ a = b ∧ StrBefore as bs

/-- The inode number and modification time of the set file at the last of the given moments at which it could be looked up; zeroes if there is none. -/
def fsSeen (ws : List FsWorld) : Nat × Nat := ((ws.filterMap FsWorld.stat).getLast?).getD (0, 0)

end Wdns.Spec
