/-!
# Basic vocabulary of the model

Outcomes of C functions, memory access, byte helpers.
-/

namespace Wdns

/-- `wdns_res` — wdns/wdns.h.in:185-202 (same order, so `toNat` is the C value). -/
inductive Res where
  | success
  | failure
  | invalidCompressionPointer
  | invalidLengthOctet
  | invalidOpcode
  | invalidRcode
  | len
  | malloc
  | nameLen
  | nameOverflow
  | outOfBounds
  | overflow
  | parseError
  | qdcount
  | unknownOpcode
  | unknownRcode
  deriving DecidableEq, Repr

/-- The C value of a `wdns_res` enumerator (wdns/wdns.h.in:185-202). -/
def Res.toNat : Res → Nat
  | .success => 0
  | .failure => 1
  | .invalidCompressionPointer => 2
  | .invalidLengthOctet => 3
  | .invalidOpcode => 4
  | .invalidRcode => 5
  | .len => 6
  | .malloc => 7
  | .nameLen => 8
  | .nameOverflow => 9
  | .outOfBounds => 10
  | .overflow => 11
  | .parseError => 12
  | .qdcount => 13
  | .unknownOpcode => 14
  | .unknownRcode => 15

/-- What a call of a C function can do.

* `ok a`   : it returns (success) with result `a`;
* `err r`  : it returns the error code `r`;
* `ub`     : undefined behaviour (read/write outside an object, null dereference);
* `hang`   : it never returns;
* `abort`  : it calls `abort()` or fails an `assert`. -/
inductive Outcome (α : Type) where
  | ok (a : α)
  | err (r : Res)
  | ub
  | hang
  | abort
  deriving DecidableEq, Repr

namespace Outcome

/-- Sequencing: only a successful call continues. -/
def bind {α β : Type} (x : Outcome α) (f : α → Outcome β) : Outcome β :=
  match x with
  | ok a => f a
  | err r => err r
  | ub => ub
  | hang => hang
  | abort => abort

instance : Monad Outcome where
  pure := Outcome.ok
  bind := Outcome.bind

@[simp] theorem pure_def {α} (a : α) : (pure a : Outcome α) = ok a := rfl
@[simp] theorem ok_bind {α β} (a : α) (f : α → Outcome β) : (ok a >>= f) = f a := rfl
@[simp] theorem err_bind {α β} (r : Res) (f : α → Outcome β) : (err r >>= f) = err r := rfl
@[simp] theorem ub_bind {α β} (f : α → Outcome β) : ((ub : Outcome α) >>= f) = ub := rfl
@[simp] theorem hang_bind {α β} (f : α → Outcome β) : ((hang : Outcome α) >>= f) = hang := rfl
@[simp] theorem abort_bind {α β} (f : α → Outcome β) : ((abort : Outcome α) >>= f) = abort := rfl

theorem bind_eq_ok {α β} {x : Outcome α} {f : α → Outcome β} {b : β} :
    (x >>= f) = ok b ↔ ∃ a, x = ok a ∧ f a = ok b := by
  cases x <;> simp

/-- The call returns to its caller (no undefined behaviour, no endless loop, no abort). -/
def Returns {α} (o : Outcome α) : Prop := o ≠ ub ∧ o ≠ hang ∧ o ≠ abort

instance {α} [DecidableEq α] (o : Outcome α) : Decidable o.Returns := by
  unfold Returns; infer_instance

@[simp] theorem returns_ok {α} (a : α) : (ok a).Returns := by simp [Returns]
@[simp] theorem returns_err {α} (r : Res) : (err r : Outcome α).Returns := by simp [Returns]
@[simp] theorem not_returns_ub {α} : ¬ (ub : Outcome α).Returns := by simp [Returns]
@[simp] theorem not_returns_hang {α} : ¬ (hang : Outcome α).Returns := by simp [Returns]
@[simp] theorem not_returns_abort {α} : ¬ (abort : Outcome α).Returns := by simp [Returns]

theorem returns_iff {α} (o : Outcome α) : o.Returns ↔ (∃ a, o = ok a) ∨ (∃ r, o = err r) := by
  cases o <;> simp

theorem Returns.bind {α β} {x : Outcome α} {f : α → Outcome β}
    (hx : x.Returns) (hf : ∀ a, x = ok a → (f a).Returns) : (x >>= f).Returns := by
  cases x <;> simp_all

end Outcome

open Outcome

/-- A read of one byte at offset `i` of the object `mem` (C: `*(mem + i)`). -/
def rd (mem : List UInt8) (i : Nat) : Outcome UInt8 :=
  match mem[i]? with
  | some b => ok b
  | none => ub

/-- A read of `n` bytes (C: the source side of `memcpy(.., mem + i, n)`). -/
def rdN (mem : List UInt8) (i n : Nat) : Outcome (List UInt8) :=
  if i + n ≤ mem.length then ok ((mem.drop i).take n) else ub

/-- A write of one byte at the end of what has been written to an object of `cap` bytes. -/
def wr (cap : Nat) (out : List UInt8) (b : UInt8) : Outcome (List UInt8) :=
  if out.length + 1 ≤ cap then ok (out ++ [b]) else ub

/-- A write of several bytes at the end of what has been written to an object of `cap` bytes. -/
def wrN (cap : Nat) (out : List UInt8) (bs : List UInt8) : Outcome (List UInt8) :=
  if out.length + bs.length ≤ cap then ok (out ++ bs) else ub

/-- A read of a NUL-terminated C string: index `length` is the NUL, beyond it is `ub`. -/
def rdS (s : List UInt8) (i : Nat) : Outcome UInt8 :=
  if i < s.length then ok (s.getD i 0) else if i = s.length then ok 0 else ub

theorem rd_ok {mem : List UInt8} {i : Nat} {b : UInt8} : rd mem i = ok b ↔ mem[i]? = some b := by
  unfold rd; split <;> simp_all

theorem rd_of_lt {mem : List UInt8} {i : Nat} (h : i < mem.length) : rd mem i = ok mem[i] := by
  simp [rd, h]

theorem rd_ub {mem : List UInt8} {i : Nat} : rd mem i = ub ↔ mem.length ≤ i := by
  unfold rd; split <;> simp_all <;> grind

theorem rdN_ok {mem : List UInt8} {i n : Nat} (h : i + n ≤ mem.length) :
    rdN mem i n = ok ((mem.drop i).take n) := by simp [rdN, h]

theorem wr_ok {cap : Nat} {out : List UInt8} {b : UInt8} (h : out.length + 1 ≤ cap) :
    wr cap out b = ok (out ++ [b]) := by simp [wr, h]

theorem wrN_ok {cap : Nat} {out bs : List UInt8} (h : out.length + bs.length ≤ cap) :
    wrN cap out bs = ok (out ++ bs) := by simp [wrN, h]

/-- ASCII lower-casing of one octet (spec-level). -/
def lower (b : UInt8) : UInt8 :=
  if 65 ≤ b.toNat ∧ b.toNat ≤ 90 then UInt8.ofNat (b.toNat + 32) else b

/-- Big-endian 16-bit value of two octets (C: `ntohs` after `memcpy`). -/
def be16 (a b : UInt8) : Nat := a.toNat * 256 + b.toNat

/-- Big-endian 32-bit value of four octets (C: `ntohl` after `memcpy`). -/
def be32 (a b c d : UInt8) : Nat :=
  a.toNat * 16777216 + b.toNat * 65536 + c.toNat * 256 + d.toNat

/-- The literal octets of an ASCII string literal. -/
def ascii (s : String) : List UInt8 := s.toList.map (fun c => UInt8.ofNat c.toNat)

end Wdns
