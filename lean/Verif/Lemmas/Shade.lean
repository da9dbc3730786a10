import Verif.Lemmas.BlendLaws
import Verif.Spec.Shade

/-!
Which channel formulas darken and which lighten.
-/

namespace Psd

theorem shrink {K x d : Nat} (hK : 0 < K) (h : x ≤ K) : d * x / K ≤ d :=
  Nat.div_le_of_le_mul (by rw [Nat.mul_comm K]; exact Nat.mul_le_mul_left d h)

theorem stretch {K x d : Nat} (hx : 0 < x) (h : x ≤ K) : d ≤ d * K / x :=
  (Nat.le_div_iff_mul_le hx).2 (Nat.mul_le_mul_left d h)

theorem burn_le {K x d : Nat} (hd : d ≤ K) (hx : 0 < x) (h : x ≤ K) : K - min ((K - d) * K / x) K ≤ d := by
  have := stretch (d := K - d) hx h
  omega

theorem le_dodge {K x d : Nat} (hd : d ≤ K) (hx : 0 < x) (h : x ≤ K) : d ≤ min (d * K / x) K := by
  have := stretch (d := d) hx h
  omega

theorem le_screen {K s d : Nat} (hK : 0 < K) (hd : d ≤ K) : d ≤ s + d - s * d / K := by
  have := shrink (d := s) hK hd
  omega

theorem chanN_darkens {m : Sep} (hm : m.darkening = true) {s d : Nat} (hs : s ≤ 255) (hd : d ≤ 255) : chanN m s d ≤ d := by
  cases m <;> cases hm
  case darken => exact Nat.min_le_right _ _
  case multiply =>
    show s * d / 255 ≤ d
    rw [Nat.mul_comm]
    exact shrink (by decide) hs
  case colorBurn =>
    show (if d = 255 then 255 else if s = 0 then 0 else _) ≤ d
    split
    · omega
    · split
      · omega
      · exact burn_le hd (by omega) hs
  case linearBurn =>
    show d - (255 - s) ≤ d
    omega
  case subtract =>
    show d - s ≤ d
    omega

theorem chanN_lightens {m : Sep} (hm : m.lightening = true) {s d : Nat} (hs : s ≤ 255) (hd : d ≤ 255) : d ≤ chanN m s d := by
  cases m <;> cases hm
  case lighten => exact Nat.le_max_right _ _
  case screen => exact le_screen (by decide) hd
  case colorDodge =>
    show d ≤ (if d = 0 then 0 else if s = 255 then 255 else _)
    split
    · omega
    · split
      · omega
      · exact le_dodge hd (by omega) (by omega)
  case linearDodge =>
    show d ≤ min (s + d) 255
    omega
  case add =>
    show d ≤ s + d
    omega
  case divide =>
    show d ≤ (if d = 0 then 0 else if s = 0 then 255 else _)
    split
    · omega
    · split
      · omega
      · exact le_dodge hd (by omega) hs

theorem chanN_dark {m : Sep} (hm : m.contrast = true) {s d : Nat} (hs : s < 128) (hd : d ≤ 255) : chanN m s d ≤ d := by
  cases m <;> cases hm
  case overlay =>
    show (if d < 128 then s * (2 * d) / 255 else 255 - (511 - 2 * d) * (255 - s) / 255) ≤ d
    split
    · have : s * (2 * d) ≤ 127 * (2 * d) := Nat.mul_le_mul_right _ (by omega)
      omega
    · have : (511 - 2 * d) * 128 ≤ (511 - 2 * d) * (255 - s) := Nat.mul_le_mul_left _ (by omega)
      omega
  case softLight =>
    show (if s < 128 then _ else _) ≤ d
    rw [if_pos hs]
    exact Nat.sub_le _ _
  case hardLight =>
    show (if s < 128 then _ else _) ≤ d
    rw [if_pos hs]
    exact shrink (by decide) (by omega)
  case linearLight =>
    show (if s < 128 then _ else _) ≤ d
    rw [if_pos hs]
    omega
  case vividLight =>
    show (if s < 128 then (if s = 0 then 0 else _) else _) ≤ d
    rw [if_pos hs]
    split
    · omega
    · exact burn_le hd (by omega) (by omega)
  case pinLight =>
    show (if s < 128 then _ else _) ≤ d
    rw [if_pos hs]
    exact Nat.min_le_right _ _

theorem chanN_bright {m : Sep} (hm : m.contrast = true) {s d : Nat} (hs : ¬s < 128) (hs' : s ≤ 255) (hd : d ≤ 255) : d ≤ chanN m s d := by
  cases m <;> cases hm
  case overlay =>
    show d ≤ (if d < 128 then s * (2 * d) / 255 else 255 - (511 - 2 * d) * (255 - s) / 255)
    split
    · have : 128 * (2 * d) ≤ s * (2 * d) := Nat.mul_le_mul_right _ (by omega)
      omega
    · have : (511 - 2 * d) * (255 - s) ≤ (511 - 2 * d) * 127 := Nat.mul_le_mul_left _ (by omega)
      omega
  case softLight =>
    show d ≤ (if s < 128 then _ else _)
    rw [if_neg hs]
    exact Nat.le_add_right _ _
  case hardLight =>
    show d ≤ (if s < 128 then _ else _)
    rw [if_neg hs]
    have := shrink (K := 255) (x := d) (d := 2 * s - 255) (by decide) hd
    rw [Nat.mul_comm] at this
    omega
  case linearLight =>
    show d ≤ (if s < 128 then _ else _)
    rw [if_neg hs]
    omega
  case vividLight =>
    show d ≤ (if s < 128 then _ else if s = 255 then 255 else _)
    rw [if_neg hs]
    split
    · omega
    · exact le_dodge hd (by omega) (by omega)
  case pinLight =>
    show d ≤ (if s < 128 then _ else _)
    rw [if_neg hs]
    exact Nat.le_max_right _ _

theorem chanN16_darkens {m : Sep} (hm : m.darkening = true) {s d : Nat} (hs : s ≤ 65535) (hd : d ≤ 65535) : chanN16 m s d ≤ d := by
  cases m <;> cases hm
  case darken => exact Nat.min_le_right _ _
  case multiply =>
    show s * d / 65535 ≤ d
    rw [Nat.mul_comm]
    exact shrink (by decide) hs
  case colorBurn =>
    show (if d = 65535 then 65535 else if s = 0 then 0 else _) ≤ d
    split
    · omega
    · split
      · omega
      · exact burn_le hd (by omega) hs
  case linearBurn =>
    show d - (65535 - s) ≤ d
    omega
  case subtract =>
    show d - s ≤ d
    omega

theorem chanN16_lightens {m : Sep} (hm : m.lightening = true) {s d : Nat} (hs : s ≤ 65535) (hd : d ≤ 65535) : d ≤ chanN16 m s d := by
  cases m <;> cases hm
  case lighten => exact Nat.le_max_right _ _
  case screen => exact le_screen (by decide) hd
  case colorDodge =>
    show d ≤ (if d = 0 then 0 else if s = 65535 then 65535 else _)
    split
    · omega
    · split
      · omega
      · exact le_dodge hd (by omega) (by omega)
  case linearDodge =>
    show d ≤ min (s + d) 65535
    omega
  case add =>
    show d ≤ s + d
    omega
  case divide =>
    show d ≤ (if d = 0 then 0 else if s = 0 then 65535 else _)
    split
    · omega
    · split
      · omega
      · exact le_dodge hd (by omega) hs

theorem chanN16_dark {m : Sep} (hm : m.contrast = true) {s d : Nat} (hs : s < 32768) (hd : d ≤ 65535) : chanN16 m s d ≤ d := by
  cases m <;> cases hm
  case overlay =>
    show (if d < 32768 then s * d / 32768 else 65535 - (131071 - 2 * d) * (65535 - s) / 65535) ≤ d
    split
    · rw [Nat.mul_comm]
      exact shrink (by decide) (by omega)
    · have : (131071 - 2 * d) * 32768 ≤ (131071 - 2 * d) * (65535 - s) := Nat.mul_le_mul_left _ (by omega)
      omega
  case softLight =>
    show (if s < 32768 then _ else _) ≤ d
    rw [if_pos hs]
    exact Nat.sub_le _ _
  case hardLight =>
    show (if s < 32768 then _ else _) ≤ d
    rw [if_pos hs]
    exact shrink (by decide) (by omega)
  case linearLight =>
    show (if s < 32768 then _ else _) ≤ d
    rw [if_pos hs]
    omega
  case vividLight =>
    show (if s < 32768 then (if s = 0 then 0 else _) else _) ≤ d
    rw [if_pos hs]
    split
    · omega
    · exact burn_le hd (by omega) (by omega)
  case pinLight =>
    show (if s < 32768 then _ else _) ≤ d
    rw [if_pos hs]
    exact Nat.min_le_right _ _

theorem chanN16_bright {m : Sep} (hm : m.contrast = true) {s d : Nat} (hs : ¬s < 32768) (hs' : s ≤ 65535) (hd : d ≤ 65535) : d ≤ chanN16 m s d := by
  cases m <;> cases hm
  case overlay =>
    show d ≤ (if d < 32768 then s * d / 32768 else 65535 - (131071 - 2 * d) * (65535 - s) / 65535)
    split
    · have : 32768 * d ≤ s * d := Nat.mul_le_mul_right _ (by omega)
      omega
    · have : (131071 - 2 * d) * (65535 - s) ≤ (131071 - 2 * d) * 32767 := Nat.mul_le_mul_left _ (by omega)
      omega
  case softLight =>
    show d ≤ (if s < 32768 then _ else _)
    rw [if_neg hs]
    exact Nat.le_add_right _ _
  case hardLight =>
    show d ≤ (if s < 32768 then _ else _)
    rw [if_neg hs]
    have := shrink (K := 65535) (x := d) (d := 2 * s - 65535) (by decide) hd
    rw [Nat.mul_comm] at this
    omega
  case linearLight =>
    show d ≤ (if s < 32768 then _ else _)
    rw [if_neg hs]
    omega
  case vividLight =>
    show d ≤ (if s < 32768 then _ else if s = 65535 then 65535 else _)
    rw [if_neg hs]
    split
    · omega
    · exact le_dodge hd (by omega) (by omega)
  case pinLight =>
    show d ≤ (if s < 32768 then _ else _)
    rw [if_neg hs]
    exact Nat.le_max_right _ _

end Psd
