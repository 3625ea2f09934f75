import Verif.Props.Unpack
import Verif.Spec.Wrapped

/-! Helper lemmas: names that are cut off by the end of the memory. -/

namespace Wdns
open Outcome Spec

theorem rd_end {mem : List UInt8} {i : Nat} (h : mem.length ≤ i) : rd mem i = ub := by
  simp [rd, List.getElem?_eq_none h]

theorem unpackLoop_reaches {cap : Nat} {mem : List UInt8} {p : Nat} (hcap : 255 ≤ cap) {src k : Nat} (h : ReachesEnd mem p src k) :
    ∀ fuel out, out.length = k → k < 255 → unpackLoop cap mem p mem.length fuel src out k = ub ∨ unpackLoop cap mem p mem.length fuel src out k = hang := by
  induction h with
  | stop =>
    intro fuel out _ _
    cases fuel with
    | zero => exact .inr rfl
    | succ fuel => left; rw [unpackLoop, rd_end (Nat.le_refl _), ub_bind]
  | @half o k hi h1 h2 h3 =>
    intro fuel out _ _
    cases fuel with
    | zero => exact .inr rfl
    | succ fuel =>
      left
      have hr : rd mem o = ok hi := by simp [rd, h1]
      rw [unpackLoop, hr, ok_bind]
      dsimp only
      rw [if_neg (by rintro rfl; simp at h2), if_pos (by omega), if_neg (by omega), rd_end (by omega), ub_bind]
  | @ptr o k hi lo h1 h2 h3 h4 _ ih =>
    intro fuel out ho hk
    cases fuel with
    | zero => exact .inr rfl
    | succ fuel =>
      have hr : rd mem o = ok hi := by simp [rd, h1]
      have hr' : rd mem (o + 1) = ok lo := by simp [rd, h3]
      have hl := getElem?_some_lt h1
      rw [unpackLoop, hr, ok_bind]
      dsimp only
      rw [if_neg (by rintro rfl; simp at h2), if_pos (by omega), if_neg (by omega), hr', ok_bind, if_neg (by omega), Nat.add_sub_cancel, hr, ok_bind,
        if_neg (by rintro ⟨h, _⟩; omega), if_neg (by omega)]
      exact ih fuel out ho hk
  | @label o k c h1 h2 h3 h4 h5 _ ih =>
    intro fuel out ho hk
    cases fuel with
    | zero => exact .inr rfl
    | succ fuel =>
      have hr : rd mem o = ok c := by simp [rd, h1]
      rw [unpackLoop, hr, ok_bind]
      dsimp only
      have hbs : ((mem.drop (o + 1)).take c.toNat).length = c.toNat := by rw [List.length_take, List.length_drop]; omega
      rw [if_neg (by rintro rfl; simp at h2), if_neg (by omega), if_pos h3, if_neg (by simp only [maxlenName]; omega), wr_ok (by omega), ok_bind,
        if_neg (by simp only [maxlenName]; omega), if_neg (by omega), rdN_ok (by omega), ok_bind, wrN_ok (by rw [hbs, List.length_append]; simp; omega), ok_bind]
      exact ih fuel _ (by rw [List.length_append, List.length_append, hbs]; simp; omega) (by omega)

theorem unpackLoop_ub {cap : Nat} {mem : List UInt8} {p : Nat} (hcap : 255 ≤ cap) : ∀ fuel src out k, out.length = k → k < 255 → src ≤ mem.length →
    unpackLoop cap mem p mem.length fuel src out k = ub → ReachesEnd mem p src k
  | 0, src, out, k, _, _, _, h => by rw [unpackLoop] at h; cases h
  | fuel + 1, src, out, k, ho, hk, hs, h => by
    by_cases he : src = mem.length
    · subst he; exact .stop
    have hlt : src < mem.length := by omega
    have hg : mem[src]? = some mem[src] := List.getElem?_eq_getElem hlt
    rw [unpackLoop, rd_of_lt hlt, ok_bind] at h
    dsimp only at h
    generalize mem[src] = c at h hg
    by_cases h0 : c = 0
    · rw [if_pos h0, wr_ok (by omega), ok_bind] at h; cases h
    rw [if_neg h0] at h
    have hc0 : 1 ≤ c.toNat := by
      rcases Nat.eq_zero_or_pos c.toNat with h | h
      · exact absurd (UInt8.toNat_inj.mp h) h0
      · exact h
    by_cases hp : c.toNat ≥ 192
    · rw [if_pos hp, if_neg (by omega)] at h
      by_cases he1 : src + 1 = mem.length
      · exact .half hg hp he1
      have hlt1 : src + 1 < mem.length := by omega
      rw [rd_of_lt hlt1, ok_bind] at h
      have hg1 : mem[src + 1]? = some mem[src + 1] := List.getElem?_eq_getElem hlt1
      generalize mem[src + 1] = lo at h hg1
      by_cases hcp : p + (c.toNat % 64 * 256 + lo.toNat) > mem.length
      · rw [if_pos hcp] at h; cases h
      rw [if_neg hcp, Nat.add_sub_cancel] at h
      have hr : rd mem src = ok c := by simp [rd, hg]
      rw [hr, ok_bind, if_neg (by rintro ⟨_, h⟩; exact h0 h)] at h
      by_cases hb : p + (c.toNat % 64 * 256 + lo.toNat) + 2 > src + 1
      · rw [if_pos hb] at h; cases h
      rw [if_neg hb] at h
      exact .ptr hg hp hg1 (by omega) (unpackLoop_ub hcap fuel _ out k ho hk (by omega) h)
    rw [if_neg hp] at h
    by_cases h63 : c.toNat ≤ 63
    · rw [if_pos h63] at h
      by_cases ht : k + 1 ≥ maxlenName
      · rw [if_pos ht] at h; cases h
      rw [if_neg ht, wr_ok (by omega), ok_bind] at h
      by_cases ht2 : k + 1 + c.toNat ≥ maxlenName
      · rw [if_pos ht2] at h; cases h
      rw [if_neg ht2] at h
      by_cases hb : src + 1 + c.toNat > mem.length
      · rw [if_pos hb] at h; cases h
      have hbs : ((mem.drop (src + 1)).take c.toNat).length = c.toNat := by rw [List.length_take, List.length_drop]; omega
      simp only [maxlenName] at ht2
      rw [if_neg hb, rdN_ok (by omega), ok_bind, wrN_ok (by rw [hbs, List.length_append]; simp; omega), ok_bind] at h
      exact .label hg hc0 h63 (by omega) (by omega)
        (unpackLoop_ub hcap fuel _ _ _ (by rw [List.length_append, List.length_append, hbs]; simp; omega) (by omega) (by omega) h)
    · rw [if_neg h63] at h; cases h

/-- When decompression reads behind a message that is followed by nothing readable. -/
theorem unpackName_ub {cap : Nat} {mem : List UInt8} {p src : Nat} (hcap : 255 ≤ cap) (hp : p ≤ src) (hs : src < mem.length) :
    unpackName cap mem p mem.length src = ub ↔ ReachesEnd mem p src 0 := by
  have hh := (C03_unpack_terminates cap mem p mem.length src).1
  unfold unpackName at hh ⊢
  rw [if_neg (by omega)] at hh ⊢
  constructor
  · intro h; exact unpackLoop_ub hcap _ _ _ _ rfl (by omega) (by omega) h
  · intro h
    rcases unpackLoop_reaches hcap h (unpackFuel mem.length) [] rfl (by omega) with h | h
    · exact h
    · exact absurd h hh

end Wdns
