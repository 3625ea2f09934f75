import Verif.Model.Dump
import Verif.Lemmas.Tables
import Verif.Props.TextIdentity

/-!
# C125: version numbers
-/

namespace Wdns
open Outcome Spec

namespace Spec

/-- The earlier of two versions. -/
def Earlier (a b : Version) : Prop :=
  a.major < b.major ∨ a.major = b.major ∧ (a.minor < b.minor ∨ a.minor = b.minor ∧ a.patch < b.patch)

/-- Versions that have a number: at most three digits in the second and third place. -/
def Numbered (v : Version) : Prop := v.major ≤ 4293 ∧ v.minor ≤ 999 ∧ v.patch ≤ 999

end Spec

/-- **C125.**  Versions are in the order of their numbers. -/
theorem C125_order {a b : Version} (ha : Numbered a) (hb : Numbered b) : getVersionNumber a < getVersionNumber b ↔ Earlier a b := by
  obtain ⟨a1, a2, a3⟩ := ha
  obtain ⟨b1, b2, b3⟩ := hb
  unfold getVersionNumber Earlier
  rw [Nat.mod_eq_of_lt (by omega), Nat.mod_eq_of_lt (by omega)]
  omega

/-- **C125.**  The number gives the version. -/
theorem C125_digits {v : Version} (h : Numbered v) : getVersionNumber v / 1000000 = v.major ∧ getVersionNumber v / 1000 % 1000 = v.minor ∧
    getVersionNumber v % 1000 = v.patch := by
  obtain ⟨a1, a2, a3⟩ := h
  unfold getVersionNumber
  rw [Nat.mod_eq_of_lt (by omega)]
  omega

/-- **C125.**  The text gives the version. -/
theorem C125_text {a b : Version} (h : getVersion a = getVersion b) : a = b := by
  unfold getVersion at h
  simp only [fmtU_eq, List.append_assoc] at h
  obtain ⟨h1, h2⟩ := cut_at (c := 46) (digits_not _ _ (by decide)) (digits_not _ _ (by decide)) (by simpa only [List.singleton_append] using h)
  obtain ⟨h3, h4⟩ := cut_at (c := 46) (digits_not _ _ (by decide)) (digits_not _ _ (by decide)) (by simpa only [List.singleton_append] using h2)
  cases a
  cases b
  simp only [Version.mk.injEq]
  exact ⟨decText_inj h1, decText_inj h3, decText_inj h4⟩

/-- **C125 does not hold for the macro in an expression**: divided by a million it is not the major version, for any version but x.0.y. -/
theorem C125_macro_violated {v : Version} (h : Numbered v) (hm : 1 ≤ v.minor) : macroDiv v 1000000 ≠ v.major ∧
    getVersionNumber v / 1000000 = v.major := by
  refine ⟨?_, (C125_digits h).1⟩
  obtain ⟨a1, a2, a3⟩ := h
  unfold macroDiv
  omega

example : Numbered thisVersion ∧ getVersionNumber thisVersion = 12000 ∧ getVersion thisVersion = ascii "0.12.0" ∧
    Earlier thisVersion ⟨0, 12, 1⟩ := by
  refine ⟨by unfold Numbered thisVersion; decide, by decide, by decide, by unfold Earlier thisVersion; decide⟩

end Wdns
