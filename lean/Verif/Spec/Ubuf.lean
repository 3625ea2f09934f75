import Verif.Model.Ubuf

/-!
# Specification: the growable buffer as a plain sequence of octets
-/

namespace Wdns.Spec

/-- Remove one trailing `c`, if there is one. -/
def stripLast (c : UInt8) (l : List UInt8) : List UInt8 :=
  if l.getLast? = some c then l.dropLast else l

/-- What a caller sees of an operation. -/
inductive Seen where
  | none
  | size (n : Nat)
  | byte (b : UInt8)
  | block (l : List UInt8)
  deriving DecidableEq, Repr

/-- Plain sequences. -/
abbrev Seqs := List (Option (List UInt8))

def getSeq (s : Seqs) (i : Nat) : Option (List UInt8) := (s[i]?).join

/-- The operations on plain sequences.  `none`: the caller broke the contract (no such buffer, index out of
range, more written or advanced than reserved). -/
def seqStep (op : UOp) (s : Seqs) : Option (Seqs × Seen) :=
  let on (i : Nat) (f : List UInt8 → List UInt8) : Option (Seqs × Seen) := do
    let l ← getSeq s i
    some (s.set i (some (f l)), .none)
  match op with
  | .init _ => some (s ++ [some []], .none)
  | .dupCstr t => some (s ++ [some t], .none)
  | .reinit i _ => on i fun _ => []
  | .detach i => do
    let l ← getSeq s i
    some (s.set i (some []), .block l)
  | .destroy i => do
    let _ ← getSeq s i
    some (s.set i none, .none)
  | .reserve i _ => on i id
  | .add i b => on i (· ++ [b])
  | .append i bs => on i (· ++ bs)
  | .extend i j => do
    let m ← getSeq s j
    on i (· ++ m)
  | .reset i => on i fun _ => []
  | .clip i k => on i (·.take k)
  | .size i => do let l ← getSeq s i; some (s, .size l.length)
  | .value i k => do let l ← getSeq s i; let b ← l[k]?; some (s, .byte b)
  | .fill i k bs x => if bs.length ≤ k ∧ x ≤ bs.length then on i (· ++ bs.take x) else none
  | .addCstr i t => on i (stripLast 0 · ++ t)
  | .addFmt i t => on i (stripLast 0 · ++ t)
  | .cterm i => on i fun l => if l.getLast? = some 0 then l else l ++ [0]
  | .rstrip i c => on i (stripLast c)

def seqRun : List UOp → Seqs → Option (Seqs × List Seen)
  | [], s => some (s, [])
  | op :: ops, s => do
    let (s, o) ← seqStep op s
    let (s, os) ← seqRun ops s
    some (s, o :: os)

/-- The vector holds the sequence `l`, inside its storage. -/
def UHolds (u : Ubuf) (l : List UInt8) : Prop :=
  u.v.length = u.nAlloced ∧ u.p = u.n ∧ u.n ≤ u.nAlloced ∧ u.n = l.length ∧ u.v.take u.n = l.map some

/-- What was handed out agrees with what the plain sequence hands out. -/
def SeenAs : UOut → Seen → Prop
  | .none, .none => True
  | .size n, .size m => n = m
  | .byte b, .byte c => b = c
  | .block v n, .block l => n = l.length ∧ v.take n = l.map some
  | _, _ => False

end Wdns.Spec
