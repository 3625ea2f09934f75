import Verif.Basic

/-! Bounds of big-endian numbers. -/

namespace Wdns

theorem be16_lt (a b : UInt8) : be16 a b < 65536 := by
  have := a.toNat_lt
  have := b.toNat_lt
  unfold be16
  omega

theorem be32_lt (a b c d : UInt8) : be32 a b c d < 2 ^ 32 := by
  have := a.toNat_lt
  have := b.toNat_lt
  have := c.toNat_lt
  have := d.toNat_lt
  unfold be32
  omega

end Wdns
