import Verif.Model.Misc

/-!
# C94: reading an exact number of octets from a descriptor
-/

namespace Wdns
open Outcome

namespace Spec

/-- The octets that a descriptor gives before it ends or fails, interruptions left out. -/
def available : List ReadEv → List UInt8
  | [] => []
  | .intr :: evs => available evs
  | .fail :: _ => []
  | .eof :: _ => []
  | .data [] :: _ => []
  | .data (b :: d) :: evs => (b :: d) ++ available evs

/-- Whether the descriptor ends or fails after those octets (otherwise a reader blocks). -/
def ended : List ReadEv → Bool
  | [] => false
  | .intr :: evs => ended evs
  | .fail :: _ => true
  | .eof :: _ => true
  | .data [] :: _ => true
  | .data (_ :: _) :: evs => ended evs

end Spec

theorem readBytes_spec (cap : Nat) : ∀ (evs : List ReadEv) (need : Nat) (buf : List UInt8), buf.length + need ≤ cap →
    (need ≤ (Spec.available evs).length →
      ∃ rest, readBytes cap evs need buf = ok (true, buf ++ (Spec.available evs).take need, rest) ∧
        Spec.available rest = (Spec.available evs).drop need ∧ Spec.ended rest = Spec.ended evs) ∧
    ((Spec.available evs).length < need → Spec.ended evs = true →
      ∃ rest, readBytes cap evs need buf = ok (false, buf ++ Spec.available evs, rest)) ∧
    ((Spec.available evs).length < need → Spec.ended evs = false → readBytes cap evs need buf = hang) := by
  intro evs
  induction evs with
  | nil =>
    intro need buf hc
    cases need with
    | zero => exact ⟨fun _ => ⟨[], by simp [readBytes]⟩, by simp, by simp⟩
    | succ n => exact ⟨by simp [Spec.available], by simp [Spec.ended], fun _ _ => by rw [readBytes]⟩
  | cons ev evs ih =>
    intro need buf hc
    cases need with
    | zero => exact ⟨fun _ => ⟨ev :: evs, by simp [readBytes]⟩, by simp, by simp⟩
    | succ n =>
      cases ev with
      | intr => rw [readBytes]; exact ih (n + 1) buf hc
      | fail =>
        rw [readBytes]
        exact ⟨by simp [Spec.available], fun _ _ => ⟨evs, by simp [Spec.available]⟩, by simp [Spec.ended]⟩
      | eof =>
        rw [readBytes]
        exact ⟨by simp [Spec.available], fun _ _ => ⟨evs, by simp [Spec.available]⟩, by simp [Spec.ended]⟩
      | data d =>
        rw [readBytes]
        cases d with
        | nil => exact ⟨by simp [Spec.available], fun _ _ => ⟨evs, by simp [Spec.available]⟩, by simp [Spec.ended]⟩
        | cons b d =>
          rw [if_neg (by simp), if_neg (by omega)]
          simp only [Spec.available, Spec.ended]
          generalize hd : b :: d = e
          have he : 0 < e.length := by rw [← hd]; simp
          by_cases hle : e.length ≤ n + 1
          · rw [if_pos hle]
            obtain ⟨h1, h2, h3⟩ := ih (n + 1 - e.length) (buf ++ e) (by rw [List.length_append]; omega)
            rw [List.length_append]
            refine ⟨fun h => ?_, fun h he' => ?_, fun h he' => h3 (by omega) he'⟩
            · obtain ⟨rest, r1, r2, r3⟩ := h1 (by omega)
              refine ⟨rest, ?_, ?_, r3⟩
              · rw [r1, List.take_append, List.take_of_length_le hle, List.append_assoc]
              · rw [r2, List.drop_append, List.drop_of_length_le hle, List.nil_append]
            · obtain ⟨rest, r1⟩ := h2 (by omega) he'
              exact ⟨rest, by rw [r1, List.append_assoc]⟩
          · rw [if_neg hle]
            rw [List.length_append]
            refine ⟨fun _ => ⟨_, by rw [List.take_append_of_le_length (by omega)], ?_, ?_⟩, fun h => by omega, fun h => by omega⟩
            · rw [List.drop_append_of_le_length (by omega)]
              cases hdr : e.drop (n + 1) with
              | nil => rw [List.drop_eq_nil_iff] at hdr; omega
              | cons x y => rfl
            · cases hdr : e.drop (n + 1) with
              | nil => rw [List.drop_eq_nil_iff] at hdr; omega
              | cons x y => rfl

/-- For every way in which the octets arrive: if the descriptor gives the number wanted, the call succeeds, the buffer holds exactly these octets
and exactly the octets behind them are left to be read. -/
theorem C94_success (evs : List ReadEv) (need cap : Nat) (hc : need ≤ cap) (h : need ≤ (Spec.available evs).length) :
    ∃ rest, readBytes cap evs need [] = ok (true, (Spec.available evs).take need, rest) ∧
      Spec.available rest = (Spec.available evs).drop need ∧ Spec.ended rest = Spec.ended evs := by
  simpa using (readBytes_spec cap evs need [] (by simpa using hc)).1 h

/-- A case of `C94_success`: five octets that arrive in three pieces. -/
example : ∃ rest, readBytes 5 [.data [1, 2], .intr, .data [3], .data [4, 5, 6, 7], .eof] 5 [] = ok (true, [1, 2, 3, 4, 5], rest) := by
  obtain ⟨r, h, -⟩ := C94_success [.data [1, 2], .intr, .data [3], .data [4, 5, 6, 7], .eof] 5 5 (by decide) (by decide); exact ⟨r, h⟩

/-- If it ends or fails before that, the call fails, with the octets there were in the buffer. -/
theorem C94_failure (evs : List ReadEv) (need cap : Nat) (hc : need ≤ cap) (h : (Spec.available evs).length < need)
    (he : Spec.ended evs = true) : ∃ rest, readBytes cap evs need [] = ok (false, Spec.available evs, rest) := by
  simpa using (readBytes_spec cap evs need [] (by simpa using hc)).2.1 h he

/-- A case of `C94_failure`: the peer closes after two octets. -/
example : ∃ rest, readBytes 5 [.data [1, 2], .intr, .eof] 5 [] = ok (false, [1, 2], rest) :=
  C94_failure [.data [1, 2], .intr, .eof] 5 5 (by decide) (by decide) (by decide)

/-- If neither, it waits. -/
theorem C94_waits (evs : List ReadEv) (need cap : Nat) (hc : need ≤ cap) (h : (Spec.available evs).length < need)
    (he : Spec.ended evs = false) : readBytes cap evs need [] = hang :=
  (readBytes_spec cap evs need [] (by simpa using hc)).2.2 h he

/-- A buffer of the size asked for is never overrun. -/
theorem C94_bounds (evs : List ReadEv) (need : Nat) : readBytes need evs need [] ≠ ub := by
  by_cases h : need ≤ (Spec.available evs).length
  · obtain ⟨_, e, _⟩ := C94_success evs need need (Nat.le_refl _) h
    rw [e]; simp
  · cases he : Spec.ended evs with
    | true => obtain ⟨_, e⟩ := C94_failure evs need need (Nat.le_refl _) (by omega) he; rw [e]; simp
    | false => rw [C94_waits evs need need (Nat.le_refl _) (by omega) he]; simp

/-- Two short reads, an interruption, octets left over. -/
example : readBytes 5 [.data [1, 2], .intr, .data [3], .data [4, 5, 6, 7], .eof] 5 [] =
    ok (true, [1, 2, 3, 4, 5], [.data [6, 7], .eof]) ∧
    Spec.available [.data [1, 2], .intr, .data [3], .data [4, 5, 6, 7], .eof] = [1, 2, 3, 4, 5, 6, 7] ∧
    readBytes 5 [.data [1, 2], .intr, .fail] 5 [] = ok (false, [1, 2], []) := by
  simp [readBytes, Spec.available]

end Wdns
