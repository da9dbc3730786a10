import Verif.Lemmas.Basic
import Verif.Spec.Blend

/-
The 8-bit channel formulas computed exactly (no wrap-around, no division by zero).
-/

namespace Psd

theorem shr_toNat (a : UInt32) (k : UInt32) (hk : k.toNat < 32) : (shr a k).toNat = a.toNat / 2 ^ k.toNat := by
  unfold shr
  rw [UInt32.toNat_shiftRight, Nat.mod_eq_of_lt hk, Nat.shiftRight_eq_div_pow]

theorem shr23 (a : UInt32) : (shr a 23).toNat = a.toNat / 8388608 := shr_toNat a 23 (by decide)
theorem shr22 (a : UInt32) : (shr a 22).toNat = a.toNat / 4194304 := shr_toNat a 22 (by decide)
theorem shr8 (a : UInt32) : (shr a 8).toNat = a.toNat / 256 := shr_toNat a 8 (by decide)

theorem shl1 (a : UInt32) (h : a.toNat < 2147483648) : (shl a 1).toNat = 2 * a.toNat := by
  unfold shl
  rw [UInt32.toNat_shiftLeft, Nat.shiftLeft_eq, show (1 : UInt32).toNat % 32 = 1 from rfl]
  omega

theorem addU (a b : UInt32) (h : a.toNat + b.toNat < 4294967296) : (a + b).toNat = a.toNat + b.toNat := by
  rw [UInt32.toNat_add]; omega

theorem subU (a b : UInt32) (h : b.toNat ≤ a.toNat) : (a - b).toNat = a.toNat - b.toNat := by
  have := a.toNat_lt
  rw [UInt32.toNat_sub]; omega

theorem mulU (a b : UInt32) (h : a.toNat * b.toNat < 4294967296) : (a * b).toNat = a.toNat * b.toNat := by
  rw [UInt32.toNat_mul]; exact Nat.mod_eq_of_lt h

theorem divU32_ok (a b : UInt32) (h : 0 < b.toNat) : divU32 a b = .ok (a / b) ∧ (a / b).toNat = a.toNat / b.toNat := by
  refine ⟨?_, UInt32.toNat_div a b⟩
  unfold divU32
  rw [if_neg]
  intro h0
  subst h0
  exact absurd h (by decide)

theorem clip8_toNat (a : UInt32) : (clip8 a).toNat = min a.toNat 255 := by
  unfold clip8
  split
  · rename_i h
    have : a.toNat < 255 := UInt32.lt_iff_toNat_lt.1 h
    omega
  · rename_i h
    have : ¬ a.toNat < 255 := fun h' => h (UInt32.lt_iff_toNat_lt.2 h')
    show 255 = _
    omega

theorem clip0_toNat (a : UInt32) : (clip0 a).toNat = if a.toNat < 2147483648 then a.toNat else 0 := by
  have hlt := a.toNat_lt
  have hb : (a &&& 0x80000000).toNat.testBit 31 = a.toNat.testBit 31 := by
    rw [UInt32.toNat_and, Nat.testBit_and, show (0x80000000 : UInt32).toNat.testBit 31 = true from rfl, Bool.and_true]
  unfold clip0
  by_cases h : a.toNat < 2147483648
  · rw [if_pos h, if_pos]
    apply UInt32.toNat_inj.1
    rw [UInt32.toNat_and, show (0x80000000 : UInt32).toNat = 2 ^ 31 from rfl]
    refine Nat.eq_of_testBit_eq fun i => ?_
    rw [Nat.testBit_and, Nat.testBit_two_pow]
    by_cases hi : 31 = i
    · subst hi
      rw [Nat.testBit_lt_two_pow h]; rfl
    · simp [hi]
  · rw [if_neg h, if_neg]
    · rfl
    · intro h0
      rw [h0, Nat.testBit_eq_decide_div_mod_eq (x := a.toNat), show a.toNat / 2 ^ 31 % 2 = 1 by omega] at hb
      simp at hb

theorem clip16_toNat (a : UInt32) : (clip16 a).toNat = min a.toNat 65535 := by
  unfold clip16
  split
  · rename_i h
    have : a.toNat < 65535 := UInt32.lt_iff_toNat_lt.1 h
    omega
  · rename_i h
    have : ¬ a.toNat < 65535 := fun h' => h (UInt32.lt_iff_toNat_lt.2 h')
    show 65535 = _
    omega

/-- A product of bytes scaled by multiplication and shift: division by 255. -/
theorem scale_nat (p : Nat) (h : p ≤ 65025) : p * 32897 / 8388608 = p / 255 := by omega

theorem byte_mul {s d : Nat} (hs : s ≤ 255) (hd : d ≤ 255) : s * d ≤ 65025 := Nat.mul_le_mul hs hd

theorem mulB (s d : UInt32) (hs : s.toNat ≤ 255) (hd : d.toNat ≤ 255) : (s * d).toNat = s.toNat * d.toNat :=
  mulU s d (by have := byte_mul hs hd; omega)

theorem scaleU (s d : UInt32) (hs : s.toNat ≤ 255) (hd : d.toNat ≤ 255) :
    (s * d * 32897).toNat = s.toNat * d.toNat * 32897 := by
  have h := byte_mul hs hd
  have h1 := mulB s d hs hd
  rw [mulU _ _ (by rw [h1]; show _ * 32897 < _; omega), h1]
  rfl

theorem mul255 (s d : UInt32) (hs : s.toNat ≤ 255) (hd : d.toNat ≤ 255) :
    (shr (s * d * 32897) 23).toNat = s.toNat * d.toNat / 255 := by
  rw [shr23, scaleU s d hs hd, scale_nat _ (byte_mul hs hd)]

theorem ltU {a b : UInt32} : a < b ↔ a.toNat < b.toNat := UInt32.lt_iff_toNat_lt
theorem leU {a b : UInt32} : a ≤ b ↔ a.toNat ≤ b.toNat := UInt32.le_iff_toNat_le
theorem eqU {a b : UInt32} : a = b ↔ a.toNat = b.toNat := UInt32.toNat_inj.symm
theorem iteU (c : Prop) [Decidable c] (a b : UInt32) : (if c then a else b).toNat = if c then a.toNat else b.toNat := by
  split <;> rfl

@[simp] theorem n255 : (0xff : UInt32).toNat = 255 := rfl
@[simp] theorem n128 : (0x80 : UInt32).toNat = 128 := rfl
@[simp] theorem n64 : (0x40 : UInt32).toNat = 64 := rfl
@[simp] theorem n0 : (0 : UInt32).toNat = 0 := rfl
@[simp] theorem n65535 : (0xffff : UInt32).toNat = 65535 := rfl

/-- The intermediate value of soft light (zblends.go:6405-6410). -/
def softTmp (d : UInt32) : UInt32 :=
  if d < 0x40 then
    let i : Int32 := d.toInt32
    let x : Int32 := ((i <<< 4 - 3060) * 32897) >>> 23
    (((x * i + 1020) * i * 32897) >>> 23).toUInt32
  else sqrtU32 d 0xff

def softTmpN (d : Nat) : Nat := if d < 64 then softN d else sqrtU32.isqrt (d * 255)

theorem softTmp_all : ∀ d : Fin 256, (softTmp (UInt32.ofNat d)).toNat = softTmpN d ∧ d.1 ≤ softTmpN d ∧ softTmpN d ≤ 255 := by
  decide +kernel

theorem softTmp_eq (d : UInt32) (hd : d.toNat ≤ 255) :
    (softTmp d).toNat = softTmpN d.toNat ∧ d.toNat ≤ softTmpN d.toNat ∧ softTmpN d.toNat ≤ 255 := by
  have := softTmp_all ⟨d.toNat, by omega⟩
  simpa using this

theorem sub255 (x : UInt32) (h : x.toNat ≤ 255) : (0xff - x).toNat = 255 - x.toNat := subU _ _ (by simpa using h)

theorem div255_ok (x y : UInt32) (hx : x.toNat ≤ 255) (hy : 0 < y.toNat) :
    divU32 (x * 0xff) y = .ok (x * 0xff / y) ∧ (x * 0xff / y).toNat = x.toNat * 255 / y.toNat := by
  obtain ⟨h1, h2⟩ := divU32_ok (x * 0xff) y hy
  exact ⟨h1, by rw [h2, mulB _ _ hx (by simp)]; rfl⟩

theorem mul_div255_le {s d : Nat} (hs : s ≤ 255) : s * d / 255 ≤ d := by
  have := Nat.mul_le_mul_right d hs
  omega

/-- A channel formula computes its exact value. -/
def Exact8 (m : Sep) : Prop := ∀ s d : UInt32, s.toNat ≤ 255 → d.toNat ≤ 255 →
    ∃ v, chan8 m s d = .ok v ∧ v.toNat = chanN m s.toNat d.toNat

theorem exact_normal : Exact8 .normal := by
  intro s d hs hd
  exact ⟨_, rfl, rfl⟩

theorem exact_darken : Exact8 .darken := by
  intro s d hs hd
  refine ⟨_, rfl, ?_⟩
  simp only [iteU, ltU, chanN]
  split <;> omega

theorem exact_multiply : Exact8 .multiply := by
  intro s d hs hd
  exact ⟨_, rfl, mul255 s d hs hd⟩

theorem exact_colorBurn : Exact8 .colorBurn := by
  intro s d hs hd
  simp only [chan8, chanN, eqU, n255, n0]
  split
  · exact ⟨_, rfl, rfl⟩
  · split
    · exact ⟨_, rfl, rfl⟩
    · obtain ⟨h1, h2⟩ := div255_ok (0xff - d) s (by rw [sub255 d hd]; omega) (by omega)
      rw [h1]
      refine ⟨_, rfl, ?_⟩
      rw [sub255 _ (by rw [clip8_toNat]; omega), clip8_toNat, h2, sub255 d hd]

theorem exact_linearBurn : Exact8 .linearBurn := by
  intro s d hs hd
  refine ⟨_, rfl, ?_⟩
  have ha := addU d s (by omega)
  simp only [gt_iff_lt, iteU, ltU, ha, n255, n0, chanN]
  split
  · rw [subU _ _ (by rw [ha]; simp; omega), ha]; simp; omega
  · omega

theorem exact_lighten : Exact8 .lighten := by
  intro s d hs hd
  refine ⟨_, rfl, ?_⟩
  simp only [gt_iff_lt, iteU, ltU, chanN]
  split <;> omega

theorem exact_screen : Exact8 .screen := by
  intro s d hs hd
  have hsd' := mul_div255_le (d := d.toNat) hs
  refine ⟨_, rfl, ?_⟩
  have ha := addU s d (by omega)
  rw [subU _ _ (by rw [mul255 s d hs hd, ha]; omega), mul255 s d hs hd, ha]
  rfl

theorem exact_colorDodge : Exact8 .colorDodge := by
  intro s d hs hd
  simp only [chan8, chanN, eqU, n255, n0]
  split
  · exact ⟨_, rfl, rfl⟩
  · split
    · exact ⟨_, rfl, rfl⟩
    · obtain ⟨h1, h2⟩ := div255_ok d (0xff - s) hd (by rw [sub255 s hs]; omega)
      rw [h1]
      refine ⟨_, rfl, ?_⟩
      rw [clip8_toNat, h2, sub255 s hs]

theorem exact_linearDodge : Exact8 .linearDodge := by
  intro s d hs hd
  refine ⟨_, rfl, ?_⟩
  rw [clip8_toNat, addU s d (by omega)]
  rfl

theorem exact_add : Exact8 .add := by
  intro s d hs hd
  exact ⟨_, rfl, addU s d (by omega)⟩

theorem exact_overlay : Exact8 .overlay := by
  intro s d hs hd
  simp only [chan8, chanN, ltU, n128]
  split
  · refine ⟨_, rfl, ?_⟩
    rename_i h
    have h2 : s.toNat * (2 * d.toNat) = 2 * (s.toNat * d.toNat) := by rw [Nat.mul_left_comm]
    have h3 : s.toNat * d.toNat ≤ 255 * 127 := Nat.mul_le_mul hs (by omega)
    rw [shr22, scaleU s d hs hd, h2]
    omega
  · refine ⟨_, rfl, ?_⟩
    rename_i h
    have e1 : (d - 0x80).toNat = d.toNat - 128 := subU _ _ (by simpa using h)
    have e2 : (shl (d - 0x80) 1).toNat = 2 * (d.toNat - 128) := by rw [shl1 _ (by omega), e1]
    have e3 : (0xff - shl (d - 0x80) 1).toNat = 255 - 2 * (d.toNat - 128) := by rw [sub255 _ (by omega), e2]
    have e4 := sub255 s hs
    have e5 := mul255 (0xff - shl (d - 0x80) 1) (0xff - s) (by omega) (by omega)
    rw [e3, e4, show 255 - 2 * (d.toNat - 128) = 511 - 2 * d.toNat by omega] at e5
    have e6 : (511 - 2 * d.toNat) * (255 - s.toNat) ≤ 65025 := byte_mul (by omega) (by omega)
    rw [sub255 _ (by rw [e5]; omega), e5]

theorem exact_softLight : Exact8 .softLight := by
  intro s d hs hd
  show ∃ v, (if s < 0x80 then Res.ok _ else Res.ok (d + shr ((shl s 1 - 0xff) * (softTmp d - d) * 32897) 23)) = _ ∧ _
  simp only [chanN, ltU, n128]
  split
  · refine ⟨_, rfl, ?_⟩
    rename_i h
    have e1 : (shl s 1).toNat = 2 * s.toNat := shl1 _ (by omega)
    have e2 : (0xff - shl s 1).toNat = 255 - 2 * s.toNat := by rw [sub255 _ (by omega), e1]
    have e3 := mul255 (0xff - shl s 1) d (by omega) hd
    rw [e2] at e3
    have b1 : (255 - 2 * s.toNat) * d.toNat ≤ 255 * d.toNat := Nat.mul_le_mul_right _ (by omega)
    have e4 := mul255 (shr ((0xff - shl s 1) * d * 32897) 23) (0xff - d) (by rw [e3]; omega) (by rw [sub255 d hd]; omega)
    rw [e3, sub255 d hd] at e4
    have b2 : (255 - 2 * s.toNat) * d.toNat / 255 * (255 - d.toNat) ≤ d.toNat * 255 :=
      Nat.mul_le_mul (by omega) (by omega)
    rw [subU _ _ (by rw [e4]; omega), e4]
  · refine ⟨_, rfl, ?_⟩
    rename_i h
    obtain ⟨t1, t2, t3⟩ := softTmp_eq d hd
    have e1 : (shl s 1).toNat = 2 * s.toNat := shl1 _ (by omega)
    have e2 : (shl s 1 - 0xff).toNat = 2 * s.toNat - 255 := by rw [subU _ _ (by rw [e1]; simp; omega), e1]; simp
    have e3 : (softTmp d - d).toNat = softTmpN d.toNat - d.toNat := by rw [subU _ _ (by omega), t1]
    have e4 := mul255 (shl s 1 - 0xff) (softTmp d - d) (by omega) (by omega)
    rw [e2, e3] at e4
    have b2 : (2 * s.toNat - 255) * (softTmpN d.toNat - d.toNat) ≤ 65025 := byte_mul (by omega) (by omega)
    rw [addU _ _ (by rw [e4]; omega), e4]
    rfl

theorem exact_hardLight : Exact8 .hardLight := by
  intro s d hs hd
  simp only [chan8, chanN, ltU, n128]
  split
  · refine ⟨_, rfl, ?_⟩
    rename_i h
    have h2 : d.toNat * (2 * s.toNat) = 2 * (d.toNat * s.toNat) := by rw [Nat.mul_left_comm]
    have h3 : d.toNat * s.toNat ≤ 255 * 127 := Nat.mul_le_mul hd (by omega)
    rw [shr22, scaleU d s hd hs, h2]
    omega
  · refine ⟨_, rfl, ?_⟩
    rename_i h
    have e1 : (shl s 1).toNat = 2 * s.toNat := shl1 _ (by omega)
    have e2 : (shl s 1 - 0xff).toNat = 2 * s.toNat - 255 := by rw [subU _ _ (by rw [e1]; simp; omega), e1]; simp
    have e3 := mul255 d (shl s 1 - 0xff) hd (by omega)
    have e4 := addU d (shl s 1 - 0xff) (by omega)
    rw [e2] at e3 e4
    have b : d.toNat * (2 * s.toNat - 255) ≤ d.toNat * 255 := Nat.mul_le_mul_left _ (by omega)
    rw [subU _ _ (by rw [e3, e4]; omega), e3, e4]

theorem exact_linearLight : Exact8 .linearLight := by
  intro s d hs hd
  simp only [chan8, chanN, ltU, n128]
  have e1 : (shl s 1).toNat = 2 * s.toNat := shl1 _ (by omega)
  split
  · refine ⟨_, rfl, ?_⟩
    rename_i h
    have ha := addU d (shl s 1) (by omega)
    rw [clip0_toNat]
    by_cases hc : 255 ≤ d.toNat + 2 * s.toNat
    · have hb : (d + shl s 1 - 0xff).toNat = d.toNat + 2 * s.toNat - 255 := by
        rw [subU _ _ (by rw [ha, e1]; simpa using hc), ha, e1]; simp
      rw [hb, if_pos (by omega)]
    · have hb : (d + shl s 1 - 0xff).toNat = 4294967296 - 255 + (d.toNat + 2 * s.toNat) := by
        rw [UInt32.toNat_sub, ha, e1]
        simp only [n255]
        omega
      rw [hb, if_neg (by omega)]
      omega
  · refine ⟨_, rfl, ?_⟩
    rename_i h
    have f1 : (s - 0x80).toNat = s.toNat - 128 := subU _ _ (by simpa using h)
    have f2 : (shl (s - 0x80) 1).toNat = 2 * (s.toNat - 128) := by rw [shl1 _ (by omega), f1]
    rw [clip8_toNat, addU _ _ (by omega), f2]
    omega

theorem exact_vividLight : Exact8 .vividLight := by
  intro s d hs hd
  have e1 : (shl s 1).toNat = 2 * s.toNat := shl1 _ (by omega)
  simp only [chan8, chanN, ltU, n128, eqU, n0, e1]
  split
  · rename_i h
    by_cases h0 : s.toNat = 0
    · rw [if_pos (by omega), if_pos h0]
      exact ⟨_, rfl, rfl⟩
    · rw [if_neg (by omega), if_neg h0]
      obtain ⟨h1, h2⟩ := div255_ok (0xff - d) (shl s 1) (by rw [sub255 d hd]; omega) (by omega)
      rw [h1]
      refine ⟨_, rfl, ?_⟩
      rw [sub255 _ (by rw [clip8_toNat]; omega), clip8_toNat, h2, sub255 d hd, e1]
  · rename_i h
    have e2 : (shl s 1 - 0xff).toNat = 2 * s.toNat - 255 := by rw [subU _ _ (by rw [e1]; simp; omega), e1]; simp
    rw [e2]
    by_cases h0 : s.toNat = 255
    · rw [if_pos (by simp; omega), if_pos h0]
      exact ⟨_, rfl, rfl⟩
    · rw [if_neg (by simp; omega), if_neg h0]
      have e3 : (0xff - (shl s 1 - 0xff)).toNat = 510 - 2 * s.toNat := by rw [sub255 _ (by omega), e2]; omega
      obtain ⟨h1, h2⟩ := div255_ok d (0xff - (shl s 1 - 0xff)) hd (by omega)
      rw [h1]
      refine ⟨_, rfl, ?_⟩
      rw [clip8_toNat, h2, e3]

theorem exact_pinLight : Exact8 .pinLight := by
  intro s d hs hd
  have e1 : (shl s 1).toNat = 2 * s.toNat := shl1 _ (by omega)
  simp only [chan8, chanN, ltU, n128]
  split
  · refine ⟨_, rfl, ?_⟩
    simp only [iteU, e1]
    split <;> omega
  · refine ⟨_, rfl, ?_⟩
    rename_i h
    have f1 : (s - 0x80).toNat = s.toNat - 128 := subU _ _ (by simpa using h)
    have f2 : (shl (s - 0x80) 1).toNat = 2 * (s.toNat - 128) := by rw [shl1 _ (by omega), f1]
    simp only [iteU, f2]
    split <;> omega

theorem exact_hardMix : Exact8 .hardMix := by
  intro s d hs hd
  have e1 : (shl s 1).toNat = 2 * s.toNat := shl1 _ (by omega)
  have key : ∃ t : UInt32, chan8.hardMixTmp8 s d = .ok t ∧ t.toNat =
      (if s.toNat < 128 then (if d.toNat = 255 then 255 else if s.toNat = 0 then 0
        else 255 - min ((255 - d.toNat) * 255 / (2 * s.toNat)) 255)
      else if d.toNat = 0 then 0 else min (d.toNat * 255 / (511 - 2 * s.toNat)) 255) := by
    simp only [chan8.hardMixTmp8, ltU, n128, eqU, n0, e1]
    split
    · rename_i h
      by_cases hd0 : d.toNat = 255
      · rw [if_pos (by simpa using hd0), if_pos hd0]
        exact ⟨_, rfl, rfl⟩
      · rw [if_neg (by simpa using hd0), if_neg hd0]
        by_cases h0 : s.toNat = 0
        · rw [if_pos (by omega), if_pos h0]
          exact ⟨_, rfl, rfl⟩
        · rw [if_neg (by omega), if_neg h0]
          obtain ⟨h1, h2⟩ := div255_ok (0xff - d) (shl s 1) (by rw [sub255 d hd]; omega) (by omega)
          rw [h1]
          refine ⟨_, rfl, ?_⟩
          rw [sub255 _ (by rw [clip8_toNat]; omega), clip8_toNat, h2, sub255 d hd, e1]
    · rename_i h
      have f1 : (s - 0x80).toNat = s.toNat - 128 := subU _ _ (by simpa using h)
      have f2 : (shl (s - 0x80) 1).toNat = 2 * (s.toNat - 128) := by rw [shl1 _ (by omega), f1]
      split
      · exact ⟨_, rfl, rfl⟩
      · rw [f2, if_neg (by simp; omega)]
        have e3 : (0xff - shl (s - 0x80) 1).toNat = 511 - 2 * s.toNat := by rw [sub255 _ (by omega), f2]; omega
        obtain ⟨h1, h2⟩ := div255_ok d (0xff - shl (s - 0x80) 1) hd (by omega)
        rw [h1]
        refine ⟨_, rfl, ?_⟩
        rw [clip8_toNat, h2, e3]
  obtain ⟨t, ht, htn⟩ := key
  refine ⟨if t ≤ 0x80 then 0 else 0xff, ?_, ?_⟩
  · simp only [chan8, ht]
    rfl
  · simp only [iteU, leU, n128, n0, n255, htn, chanN]

theorem exact_difference : Exact8 .difference := by
  intro s d hs hd
  refine ⟨_, rfl, ?_⟩
  simp only [iteU, ltU, chanN]
  split
  · exact subU _ _ (by omega)
  · exact subU _ _ (by omega)

theorem exact_exclusion : Exact8 .exclusion := by
  intro s d hs hd
  refine ⟨_, rfl, ?_⟩
  have e3 : (shr (d * s * 32897) 22).toNat = d.toNat * s.toNat * 32897 / 4194304 := by rw [shr22, scaleU d s hd hs]
  have ha := addU d s (by omega)
  have b : d.toNat * s.toNat * 32897 / 4194304 ≤ d.toNat + s.toNat := by
    have h1 : d.toNat * s.toNat ≤ d.toNat * 255 := Nat.mul_le_mul_left _ hs
    have h2 : d.toNat * s.toNat ≤ 255 * s.toNat := Nat.mul_le_mul_right _ hd
    omega
  rw [subU _ _ (by rw [e3, ha]; omega), e3, ha]
  rfl

theorem exact_subtract : Exact8 .subtract := by
  intro s d hs hd
  refine ⟨_, rfl, ?_⟩
  simp only [iteU, ltU, chanN, n0]
  split
  · omega
  · exact subU _ _ (by omega)

theorem exact_divide : Exact8 .divide := by
  intro s d hs hd
  simp only [chan8, chanN, eqU, n0]
  split
  · exact ⟨_, rfl, rfl⟩
  · split
    · exact ⟨_, rfl, rfl⟩
    · obtain ⟨h1, h2⟩ := div255_ok d s hd (by omega)
      rw [h1]
      refine ⟨_, rfl, ?_⟩
      rw [clip8_toNat, h2]

/-- Every 8-bit channel formula computes its exact value. -/
theorem chan8_exact (m : Sep) : Exact8 m := by
  cases m
  · exact exact_normal
  · exact exact_darken
  · exact exact_multiply
  · exact exact_colorBurn
  · exact exact_linearBurn
  · exact exact_lighten
  · exact exact_screen
  · exact exact_colorDodge
  · exact exact_linearDodge
  · exact exact_add
  · exact exact_overlay
  · exact exact_softLight
  · exact exact_hardLight
  · exact exact_linearLight
  · exact exact_vividLight
  · exact exact_pinLight
  · exact exact_hardMix
  · exact exact_difference
  · exact exact_exclusion
  · exact exact_subtract
  · exact exact_divide

end Psd
