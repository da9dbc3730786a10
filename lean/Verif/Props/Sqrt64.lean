import Verif.Lemmas.Sqrt64

/-
C40: the square root of soft light, in floating point.
-/

namespace Psd

/-- **C40** The square root that soft light uses, computed in floating point (divide, take the root, multiply, drop what follows the point, with a rounding after each step), is
on both scales the largest integer that is not above the exact value `√(a·b)`: rounding never carries it to a neighbour. -/
theorem C40_square_root (a b : UInt32) (hb : b = 0xff ∨ b = 0xffff) (hab : a ≤ b) :
    sqrt64 a b = sqrtU32 a b ∧ (sqrt64 a b).toNat ^ 2 ≤ a.toNat * b.toNat ∧ a.toNat * b.toNat < ((sqrt64 a b).toNat + 1) ^ 2 := by
  have e := sqrt64_eq hb hab
  refine ⟨e, ?_⟩
  have hab' : a.toNat ≤ b.toNat := hab
  have hb' : b.toNat ≤ 65535 := by rcases hb with rfl | rfl <;> decide
  have hm : a.toNat * b.toNat ≤ 65535 * 65535 := Nat.mul_le_mul (by omega) hb'
  obtain ⟨h1, h2⟩ := isqrt_spec (a.toNat * b.toNat) (by omega)
  have hr : sqrtU32.isqrt (a.toNat * b.toNat) ≤ 65535 := by
    by_contra hc
    have := Nat.mul_le_mul (show 65536 ≤ sqrtU32.isqrt (a.toNat * b.toNat) by omega) (show 65536 ≤ sqrtU32.isqrt (a.toNat * b.toNat) by omega)
    omega
  rw [e]
  unfold sqrtU32
  rw [UInt32.toNat_ofNat', Nat.mod_eq_of_lt (by omega), Nat.pow_two, Nat.pow_two]
  exact ⟨h1, h2⟩

/-- `√(100 / 255) · 255 = 159.68…` -/
example : sqrt64 100 0xff = 159 := by
  rw [(C40_square_root 100 0xff (Or.inl rfl) (by decide)).1]
  decide +kernel

/-- Just below the top: `√(65534 / 65535) · 65535 = 65534.49…` -/
example : sqrt64 65534 0xffff = 65534 := by
  rw [(C40_square_root 65534 0xffff (Or.inr rfl) (by decide)).1]
  decide +kernel

end Psd
