import Verif.Spec.Blend16
import Verif.Props.Color
import Mathlib.Tactic.Ring

/-
The 16-bit channel formulas computed exactly (no wrap-around, no division by zero).
-/

namespace Psd

@[simp] theorem n32768 : (0x8000 : UInt32).toNat = 32768 := rfl
@[simp] theorem n16384 : (0x4000 : UInt32).toNat = 16384 := rfl

theorem mulM (s d : UInt32) (hs : s.toNat ≤ 65535) (hd : d.toNat ≤ 65535) :
    (s * d / 0xffff).toNat = s.toNat * d.toNat / 65535 := scaleU16 s d hs hd

theorem mulW (s d : UInt32) (hs : s.toNat ≤ 65535) (hd : d.toNat ≤ 65535) : (s * d).toNat = s.toNat * d.toNat :=
  mulU s d (by have := mul16 hs hd; omega)

theorem mulH (s d : UInt32) (hs : s.toNat ≤ 65535) (hd : d.toNat ≤ 65535) :
    (s * d / 0x8000).toNat = s.toNat * d.toNat / 32768 := by
  rw [UInt32.toNat_div, mulW s d hs hd]; rfl

/-! ### The integer square root -/

theorem isqrt_step (n r b : Nat) (h : r * r ≤ n ∧ n < (r + 2 * b) * (r + 2 * b)) (r' : Nat)
    (hr : r' = if (r + b) * (r + b) ≤ n then r + b else r) : r' * r' ≤ n ∧ n < (r' + b) * (r' + b) := by
  subst hr
  split
  · rename_i h1
    refine ⟨h1, ?_⟩
    rw [Nat.add_assoc, ← Nat.two_mul]
    exact h.2
  · rename_i h1
    exact ⟨h.1, by omega⟩

theorem isqrt_fold (n : Nat) (hn : n < 4294967296) (j : Nat) (hj : j ≤ 16) (r : Nat)
    (hr : r = (List.range j).foldl (fun r k => if (r + 2 ^ (15 - k)) * (r + 2 ^ (15 - k)) ≤ n then r + 2 ^ (15 - k) else r) 0) :
    r * r ≤ n ∧ n < (r + 2 ^ (16 - j)) * (r + 2 ^ (16 - j)) := by
  induction j generalizing r with
  | zero =>
    subst hr
    exact ⟨Nat.zero_le _, by simpa using hn⟩
  | succ j ih =>
    rw [List.range_succ, List.foldl_append] at hr
    have h := ih (by omega) _ rfl
    have e : 16 - j = (15 - j) + 1 := by omega
    rw [e, Nat.pow_succ, Nat.mul_comm (2 ^ (15 - j)) 2] at h
    rw [show 16 - (j + 1) = 15 - j by omega]
    exact isqrt_step n _ _ h _ hr

/-- The bisection computes the integer square root. -/
theorem isqrt_spec (n : Nat) (hn : n < 4294967296) : IsSqrt n (sqrtU32.isqrt n) :=
  isqrt_fold n hn 16 (Nat.le_refl _) _ rfl

/-! ### Soft light -/

theorem soft16_arith (d q w : Nat) (hd : d < 16384) (hq : q = (786420 - 16 * d) / 65535) (hw : w = 262140 - q * d) :
    q ≤ 12 ∧ q * d ≤ 196596 ∧ 65535 * d ≤ w * d ∧ w * d < 2147483648 := by
  have h1 : 8 ≤ q := by omega
  have h2 : q ≤ 12 := by omega
  have h3 : q * d ≤ 12 * d := Nat.mul_le_mul_right _ h2
  have h3' : 8 * d ≤ q * d := Nat.mul_le_mul_right _ h1
  have h4 : 65535 ≤ w := by omega
  obtain ⟨e, he⟩ : ∃ e, d + e = 16383 := ⟨16383 - d, by omega⟩
  have h5 : w ≤ 131076 + 8 * e := by omega
  have h6 : w * d ≤ (131076 + 8 * e) * d := Nat.mul_le_mul_right _ h5
  have h7 : (131076 + 8 * e) * d < 2147483648 := by
    have : d = 16383 - e := by omega
    have h8 : (131076 + 8 * e) * (d + e) = (131076 + 8 * e) * d + (131076 + 8 * e) * e := Nat.mul_add ..
    have h9 : (131076 + 8 * e) * e = 131076 * e + 8 * (e * e) := by ring
    rw [he] at h8
    omega
  exact ⟨h2, by omega, Nat.mul_le_mul_right _ h4, Nat.lt_of_le_of_lt h6 h7⟩

theorem soft16_low (d : UInt32) (hd : d.toNat < 16384) :
    (chan16.softTmp16 d).toNat = softN16 d.toNat ∧ d.toNat ≤ softN16 d.toNat ∧ softN16 d.toNat ≤ 65535 := by
  obtain ⟨q, hq⟩ : ∃ q, q = (786420 - 16 * d.toNat) / 65535 := ⟨_, rfl⟩
  obtain ⟨w, hw⟩ : ∃ w, w = 262140 - q * d.toNat := ⟨_, rfl⟩
  obtain ⟨h1, h2, h3, h4⟩ := soft16_arith d.toNat q w hd hq hw
  have hs : softN16 d.toNat = w * d.toNat / 65535 := by rw [hw, hq]; rfl
  refine ⟨?_, by omega, by omega⟩
  unfold chan16.softTmp16
  rw [if_pos (ltU.2 hd)]
  have i0 : d.toInt32.toInt = d.toNat := toInt32_toInt d (by omega)
  generalize d.toInt32 = i at i0
  have c1 : (16 : Int32).toInt = 16 := rfl
  have c2 : (786420 : Int32).toInt = 786420 := rfl
  have c3 : (0xffff : Int32).toInt = 65535 := rfl
  have c4 : (262140 : Int32).toInt = 262140 := rfl
  have i1 : (i * 16).toInt = 16 * d.toNat := by
    rw [mulS _ _ (by rw [i0, c1]; omega), i0, c1]; omega
  have i2 : (i * 16 - 786420).toInt = -((786420 - 16 * d.toNat : Nat) : Int) := by
    rw [subS _ _ (by rw [i1, c2]; omega), i1, c2]; omega
  have i3 : ((i * 16 - 786420) / 0xffff).toInt = -(q : Int) := by
    rw [(divS _ _ (by rw [c3]; decide) (by rw [i2]; omega)).2, i2, c3, Int.neg_tdiv, Int.tdiv_eq_ediv_of_nonneg (by omega), hq]
    rfl
  have i4 : ((i * 16 - 786420) / 0xffff * i).toInt = -((q * d.toNat : Nat) : Int) := by
    have e : -(q : Int) * (d.toNat : Int) = -((q * d.toNat : Nat) : Int) := by rw [Int.neg_mul]; rfl
    rw [mulS _ _ (by rw [i3, i0, e]; omega), i3, i0, e]
  have i5 : ((i * 16 - 786420) / 0xffff * i + 262140).toInt = (w : Int) := by
    rw [addS _ _ (by rw [i4, c4]; omega), i4, c4]; omega
  have i6 : (((i * 16 - 786420) / 0xffff * i + 262140) * i).toInt = ((w * d.toNat : Nat) : Int) := by
    have e : (w : Int) * (d.toNat : Int) = ((w * d.toNat : Nat) : Int) := rfl
    rw [mulS _ _ (by rw [i5, i0, e]; omega), i5, i0, e]
  have i7 : ((((i * 16 - 786420) / 0xffff * i + 262140) * i) / 0xffff).toInt = ((w * d.toNat / 65535 : Nat) : Int) := by
    rw [(divS _ _ (by rw [c3]; decide) (by rw [i6]; omega)).2, i6, c3]
    rfl
  rw [hs]
  dsimp only
  generalize ((((i * 16 - 786420) / 0xffff * i + 262140) * i) / 0xffff) = z at i7
  have hz : z.toUInt32.toNat = z.toInt.toNat := by
    have := Int32.toNat_toBitVec_of_le (x := z) (by rw [Int32.le_iff_toInt_le, i7]; exact Int.natCast_nonneg _)
    exact this
  rw [hz, i7]
  rfl

theorem soft16_high (d : UInt32) (hd : d.toNat ≤ 65535) (h : ¬ d.toNat < 16384) :
    (chan16.softTmp16 d).toNat = sqrtU32.isqrt (d.toNat * 65535) ∧ d.toNat ≤ sqrtU32.isqrt (d.toNat * 65535) ∧
    sqrtU32.isqrt (d.toNat * 65535) ≤ 65535 := by
  have hm : d.toNat * 65535 ≤ 65535 * 65535 := Nat.mul_le_mul_right _ hd
  obtain ⟨h1, h2⟩ := isqrt_spec (d.toNat * 65535) (by omega)
  have b1 : sqrtU32.isqrt (d.toNat * 65535) ≤ 65535 := by
    by_contra hc
    have := Nat.mul_le_mul (show 65536 ≤ sqrtU32.isqrt (d.toNat * 65535) by omega) (show 65536 ≤ sqrtU32.isqrt (d.toNat * 65535) by omega)
    omega
  have b2 : d.toNat ≤ sqrtU32.isqrt (d.toNat * 65535) := by
    by_contra hc
    have h3 : sqrtU32.isqrt (d.toNat * 65535) + 1 ≤ d.toNat := by omega
    have h4 := Nat.mul_le_mul h3 (Nat.le_trans h3 hd)
    omega
  refine ⟨?_, b2, b1⟩
  unfold chan16.softTmp16
  rw [if_neg (fun h' => h (ltU.1 h'))]
  unfold sqrtU32
  rw [n65535, UInt32.toNat_ofNat_of_lt' (by show _ < 4294967296; omega)]

theorem softTmp16_eq (d : UInt32) (hd : d.toNat ≤ 65535) :
    (chan16.softTmp16 d).toNat = (if d.toNat < 16384 then softN16 d.toNat else sqrtU32.isqrt (d.toNat * 65535)) ∧
    d.toNat ≤ (chan16.softTmp16 d).toNat ∧ (chan16.softTmp16 d).toNat ≤ 65535 := by
  by_cases h : d.toNat < 16384
  · obtain ⟨h1, h2, h3⟩ := soft16_low d h
    rw [if_pos h, h1]
    exact ⟨rfl, h2, h3⟩
  · obtain ⟨h1, h2, h3⟩ := soft16_high d hd h
    rw [if_neg h, h1]
    exact ⟨rfl, h2, h3⟩

theorem sub65535 (x : UInt32) (h : x.toNat ≤ 65535) : (0xffff - x).toNat = 65535 - x.toNat := subU _ _ (by simpa using h)

theorem div65535_ok (x y : UInt32) (hx : x.toNat ≤ 65535) (hy : 0 < y.toNat) :
    divU32 (x * 0xffff) y = .ok (x * 0xffff / y) ∧ (x * 0xffff / y).toNat = x.toNat * 65535 / y.toNat := by
  obtain ⟨h1, h2⟩ := divU32_ok (x * 0xffff) y hy
  exact ⟨h1, by rw [h2, mulW _ _ hx (by simp)]; rfl⟩

theorem mul_div16_le {s d : Nat} (hs : s ≤ 65535) : s * d / 65535 ≤ d := by
  have := Nat.mul_le_mul_right d hs
  omega

/-- A channel formula computes its exact value. -/
def Exact16 (m : Sep) : Prop := ∀ s d : UInt32, s.toNat ≤ 65535 → d.toNat ≤ 65535 →
    ∃ v, chan16 m s d = .ok v ∧ v.toNat = chanN16 m s.toNat d.toNat

theorem exact16_normal : Exact16 .normal := by
  intro s d hs hd
  exact ⟨_, rfl, rfl⟩

theorem exact16_darken : Exact16 .darken := by
  intro s d hs hd
  refine ⟨_, rfl, ?_⟩
  simp only [iteU, ltU, chanN16]
  split <;> omega

theorem exact16_multiply : Exact16 .multiply := by
  intro s d hs hd
  exact ⟨_, rfl, mulM s d hs hd⟩

theorem exact16_colorBurn : Exact16 .colorBurn := by
  intro s d hs hd
  simp only [chan16, chanN16, eqU, n65535, n0]
  split
  · exact ⟨_, rfl, rfl⟩
  · split
    · exact ⟨_, rfl, rfl⟩
    · obtain ⟨h1, h2⟩ := div65535_ok (0xffff - d) s (by rw [sub65535 d hd]; omega) (by omega)
      rw [h1]
      refine ⟨_, rfl, ?_⟩
      rw [sub65535 _ (by rw [clip16_toNat]; omega), clip16_toNat, h2, sub65535 d hd]

theorem exact16_linearBurn : Exact16 .linearBurn := by
  intro s d hs hd
  refine ⟨_, rfl, ?_⟩
  have ha := addU d s (by omega)
  simp only [gt_iff_lt, iteU, ltU, ha, n65535, n0, chanN16]
  split
  · rw [subU _ _ (by rw [ha]; simp; omega), ha]; simp; omega
  · omega

theorem exact16_lighten : Exact16 .lighten := by
  intro s d hs hd
  refine ⟨_, rfl, ?_⟩
  simp only [gt_iff_lt, iteU, ltU, chanN16]
  split <;> omega

theorem exact16_screen : Exact16 .screen := by
  intro s d hs hd
  have hsd' := mul_div16_le (d := d.toNat) hs
  refine ⟨_, rfl, ?_⟩
  have ha := addU s d (by omega)
  rw [subU _ _ (by rw [mulM s d hs hd, ha]; omega), mulM s d hs hd, ha]
  rfl

theorem exact16_colorDodge : Exact16 .colorDodge := by
  intro s d hs hd
  simp only [chan16, chanN16, eqU, n65535, n0]
  split
  · exact ⟨_, rfl, rfl⟩
  · split
    · exact ⟨_, rfl, rfl⟩
    · obtain ⟨h1, h2⟩ := div65535_ok d (0xffff - s) hd (by rw [sub65535 s hs]; omega)
      rw [h1]
      refine ⟨_, rfl, ?_⟩
      rw [clip16_toNat, h2, sub65535 s hs]

theorem exact16_linearDodge : Exact16 .linearDodge := by
  intro s d hs hd
  refine ⟨_, rfl, ?_⟩
  rw [clip16_toNat, addU s d (by omega)]
  rfl

theorem exact16_add : Exact16 .add := by
  intro s d hs hd
  exact ⟨_, rfl, addU s d (by omega)⟩

theorem exact16_overlay : Exact16 .overlay := by
  intro s d hs hd
  simp only [chan16, chanN16, ltU, n32768]
  split
  · refine ⟨_, rfl, ?_⟩
    rename_i h
    exact mulH s d hs hd
  · refine ⟨_, rfl, ?_⟩
    rename_i h
    have e1 : (d - 0x8000).toNat = d.toNat - 32768 := subU _ _ (by simpa using h)
    have e2 : (shl (d - 0x8000) 1).toNat = 2 * (d.toNat - 32768) := by rw [shl1 _ (by omega), e1]
    have e3 : (0xffff - shl (d - 0x8000) 1).toNat = 65535 - 2 * (d.toNat - 32768) := by rw [sub65535 _ (by omega), e2]
    have e4 := sub65535 s hs
    have e5 := mulM (0xffff - shl (d - 0x8000) 1) (0xffff - s) (by omega) (by omega)
    rw [e3, e4, show 65535 - 2 * (d.toNat - 32768) = 131071 - 2 * d.toNat by omega] at e5
    have e6 : (131071 - 2 * d.toNat) * (65535 - s.toNat) ≤ 4294836225 := mul16 (by omega) (by omega)
    rw [sub65535 _ (by rw [e5]; omega), e5]

theorem exact16_softLight : Exact16 .softLight := by
  intro s d hs hd
  obtain ⟨t1, t2, t3⟩ := softTmp16_eq d hd
  simp only [chan16, chanN16, ltU, n32768]
  rw [← t1]
  generalize chan16.softTmp16 d = T at *
  split
  · refine ⟨_, rfl, ?_⟩
    rename_i h
    have e1 : (shl s 1).toNat = 2 * s.toNat := shl1 _ (by omega)
    have e2 : (0xffff - shl s 1).toNat = 65535 - 2 * s.toNat := by rw [sub65535 _ (by omega), e1]
    have e3 := mulM (0xffff - shl s 1) d (by omega) hd
    rw [e2] at e3
    have b1 := mul_div16_le (s := 65535 - 2 * s.toNat) (d := d.toNat) (by omega)
    have e4 := mulM ((0xffff - shl s 1) * d / 0xffff) (0xffff - d) (by rw [e3]; omega) (by rw [sub65535 d hd]; omega)
    rw [e3, sub65535 d hd] at e4
    have b2 := mul_div16_le (s := 65535 - d.toNat) (d := (65535 - 2 * s.toNat) * d.toNat / 65535) (by omega)
    rw [Nat.mul_comm] at b2
    rw [subU _ _ (by rw [e4]; omega), e4]
  · refine ⟨_, rfl, ?_⟩
    rename_i h
    have e1 : (shl s 1).toNat = 2 * s.toNat := shl1 _ (by omega)
    have e2 : (shl s 1 - 0xffff).toNat = 2 * s.toNat - 65535 := by rw [subU _ _ (by rw [e1]; simp; omega), e1]; simp
    have e3 : (T - d).toNat = T.toNat - d.toNat := by rw [subU _ _ (by omega)]
    have e4 := mulM (shl s 1 - 0xffff) (T - d) (by omega) (by omega)
    rw [e2, e3] at e4
    have b2 := mul_div16_le (s := 2 * s.toNat - 65535) (d := T.toNat - d.toNat) (by omega)
    rw [addU _ _ (by rw [e4]; omega), e4]

theorem exact16_hardLight : Exact16 .hardLight := by
  intro s d hs hd
  simp only [chan16, chanN16, ltU, n32768]
  split
  · refine ⟨_, rfl, ?_⟩
    rename_i h
    exact mulH d s hd hs
  · refine ⟨_, rfl, ?_⟩
    rename_i h
    have e1 : (shl s 1).toNat = 2 * s.toNat := shl1 _ (by omega)
    have e2 : (shl s 1 - 0xffff).toNat = 2 * s.toNat - 65535 := by rw [subU _ _ (by rw [e1]; simp; omega), e1]; simp
    have e3 := mulM d (shl s 1 - 0xffff) hd (by omega)
    have e4 := addU d (shl s 1 - 0xffff) (by omega)
    rw [e2] at e3 e4
    have b : d.toNat * (2 * s.toNat - 65535) ≤ d.toNat * 65535 := Nat.mul_le_mul_left _ (by omega)
    rw [subU _ _ (by rw [e3, e4]; omega), e3, e4]

theorem exact16_linearLight : Exact16 .linearLight := by
  intro s d hs hd
  simp only [chan16, chanN16, ltU, n32768]
  have e1 : (shl s 1).toNat = 2 * s.toNat := shl1 _ (by omega)
  split
  · refine ⟨_, rfl, ?_⟩
    rename_i h
    have ha := addU d (shl s 1) (by omega)
    rw [clip0_toNat]
    by_cases hc : 65535 ≤ d.toNat + 2 * s.toNat
    · have hb : (d + shl s 1 - 0xffff).toNat = d.toNat + 2 * s.toNat - 65535 := by
        rw [subU _ _ (by rw [ha, e1]; simpa using hc), ha, e1]; simp
      rw [hb, if_pos (by omega)]
    · have hb : (d + shl s 1 - 0xffff).toNat = 4294967296 - 65535 + (d.toNat + 2 * s.toNat) := by
        rw [UInt32.toNat_sub, ha, e1]
        simp only [n65535]
        omega
      rw [hb, if_neg (by omega)]
      omega
  · refine ⟨_, rfl, ?_⟩
    rename_i h
    have f1 : (s - 0x8000).toNat = s.toNat - 32768 := subU _ _ (by simpa using h)
    have f2 : (shl (s - 0x8000) 1).toNat = 2 * (s.toNat - 32768) := by rw [shl1 _ (by omega), f1]
    rw [clip16_toNat, addU _ _ (by omega), f2]
    omega

theorem exact16_vividLight : Exact16 .vividLight := by
  intro s d hs hd
  have e1 : (shl s 1).toNat = 2 * s.toNat := shl1 _ (by omega)
  simp only [chan16, chanN16, ltU, n32768, eqU, n0, e1]
  split
  · rename_i h
    by_cases h0 : s.toNat = 0
    · rw [if_pos (by omega), if_pos h0]
      exact ⟨_, rfl, rfl⟩
    · rw [if_neg (by omega), if_neg h0]
      obtain ⟨h1, h2⟩ := div65535_ok (0xffff - d) (shl s 1) (by rw [sub65535 d hd]; omega) (by omega)
      rw [h1]
      refine ⟨_, rfl, ?_⟩
      rw [sub65535 _ (by rw [clip16_toNat]; omega), clip16_toNat, h2, sub65535 d hd, e1]
  · rename_i h
    have e2 : (shl s 1 - 0xffff).toNat = 2 * s.toNat - 65535 := by rw [subU _ _ (by rw [e1]; simp; omega), e1]; simp
    rw [e2]
    by_cases h0 : s.toNat = 65535
    · rw [if_pos (by simp; omega), if_pos h0]
      exact ⟨_, rfl, rfl⟩
    · rw [if_neg (by simp; omega), if_neg h0]
      have e3 : (0xffff - (shl s 1 - 0xffff)).toNat = 131070 - 2 * s.toNat := by rw [sub65535 _ (by omega), e2]; omega
      obtain ⟨h1, h2⟩ := div65535_ok d (0xffff - (shl s 1 - 0xffff)) hd (by omega)
      rw [h1]
      refine ⟨_, rfl, ?_⟩
      rw [clip16_toNat, h2, e3]

theorem exact16_pinLight : Exact16 .pinLight := by
  intro s d hs hd
  have e1 : (shl s 1).toNat = 2 * s.toNat := shl1 _ (by omega)
  simp only [chan16, chanN16, ltU, n32768]
  split
  · refine ⟨_, rfl, ?_⟩
    simp only [iteU, e1]
    split <;> omega
  · refine ⟨_, rfl, ?_⟩
    rename_i h
    have f1 : (s - 0x8000).toNat = s.toNat - 32768 := subU _ _ (by simpa using h)
    have f2 : (shl (s - 0x8000) 1).toNat = 2 * (s.toNat - 32768) := by rw [shl1 _ (by omega), f1]
    simp only [iteU, f2]
    split <;> omega

theorem exact16_hardMix : Exact16 .hardMix := by
  intro s d hs hd
  have e1 : (shl s 1).toNat = 2 * s.toNat := shl1 _ (by omega)
  have key : ∃ t : UInt32, chan16.hardMixTmp16 s d = .ok t ∧ t.toNat =
      (if s.toNat < 32768 then (if d.toNat = 65535 then 65535 else if s.toNat = 0 then 0
        else 65535 - min ((65535 - d.toNat) * 65535 / (2 * s.toNat)) 65535)
      else if d.toNat = 0 then 0 else min (d.toNat * 65535 / (131071 - 2 * s.toNat)) 65535) := by
    simp only [chan16.hardMixTmp16, ltU, n32768, eqU, n0, e1]
    split
    · rename_i h
      by_cases hd0 : d.toNat = 65535
      · rw [if_pos (by simpa using hd0), if_pos hd0]
        exact ⟨_, rfl, rfl⟩
      · rw [if_neg (by simpa using hd0), if_neg hd0]
        by_cases h0 : s.toNat = 0
        · rw [if_pos (by omega), if_pos h0]
          exact ⟨_, rfl, rfl⟩
        · rw [if_neg (by omega), if_neg h0]
          obtain ⟨h1, h2⟩ := div65535_ok (0xffff - d) (shl s 1) (by rw [sub65535 d hd]; omega) (by omega)
          rw [h1]
          refine ⟨_, rfl, ?_⟩
          rw [sub65535 _ (by rw [clip16_toNat]; omega), clip16_toNat, h2, sub65535 d hd, e1]
    · rename_i h
      have f1 : (s - 0x8000).toNat = s.toNat - 32768 := subU _ _ (by simpa using h)
      have f2 : (shl (s - 0x8000) 1).toNat = 2 * (s.toNat - 32768) := by rw [shl1 _ (by omega), f1]
      split
      · exact ⟨_, rfl, rfl⟩
      · rw [f2, if_neg (by simp; omega)]
        have e3 : (0xffff - shl (s - 0x8000) 1).toNat = 131071 - 2 * s.toNat := by rw [sub65535 _ (by omega), f2]; omega
        obtain ⟨h1, h2⟩ := div65535_ok d (0xffff - shl (s - 0x8000) 1) hd (by omega)
        rw [h1]
        refine ⟨_, rfl, ?_⟩
        rw [clip16_toNat, h2, e3]
  obtain ⟨t, ht, htn⟩ := key
  refine ⟨if t ≤ 0x8000 then 0 else 0xffff, ?_, ?_⟩
  · simp only [chan16, ht]
    rfl
  · simp only [iteU, leU, n32768, n0, n65535, htn, chanN16]

theorem exact16_difference : Exact16 .difference := by
  intro s d hs hd
  refine ⟨_, rfl, ?_⟩
  simp only [iteU, ltU, chanN16]
  split
  · exact subU _ _ (by omega)
  · exact subU _ _ (by omega)

theorem exact16_exclusion : Exact16 .exclusion := by
  intro s d hs hd
  refine ⟨_, rfl, ?_⟩
  have e3 : (d * s / 0x8000).toNat = d.toNat * s.toNat / 32768 := mulH d s hd hs
  have ha := addU d s (by omega)
  have b : d.toNat * s.toNat / 32768 ≤ d.toNat + s.toNat := by
    have h1 : d.toNat * s.toNat ≤ d.toNat * 65535 := Nat.mul_le_mul_left _ hs
    have h2 : d.toNat * s.toNat ≤ 65535 * s.toNat := Nat.mul_le_mul_right _ hd
    omega
  rw [subU _ _ (by rw [e3, ha]; omega), e3, ha]
  rfl

theorem exact16_subtract : Exact16 .subtract := by
  intro s d hs hd
  refine ⟨_, rfl, ?_⟩
  simp only [iteU, ltU, chanN16, n0]
  split
  · omega
  · exact subU _ _ (by omega)

theorem exact16_divide : Exact16 .divide := by
  intro s d hs hd
  simp only [chan16, chanN16, eqU, n0]
  split
  · exact ⟨_, rfl, rfl⟩
  · split
    · exact ⟨_, rfl, rfl⟩
    · obtain ⟨h1, h2⟩ := div65535_ok d s hd (by omega)
      rw [h1]
      refine ⟨_, rfl, ?_⟩
      rw [clip16_toNat, h2]

/-- Every 8-bit channel formula computes its exact value. -/
theorem chan16_exact (m : Sep) : Exact16 m := by
  cases m
  · exact exact16_normal
  · exact exact16_darken
  · exact exact16_multiply
  · exact exact16_colorBurn
  · exact exact16_linearBurn
  · exact exact16_lighten
  · exact exact16_screen
  · exact exact16_colorDodge
  · exact exact16_linearDodge
  · exact exact16_add
  · exact exact16_overlay
  · exact exact16_softLight
  · exact exact16_hardLight
  · exact exact16_linearLight
  · exact exact16_vividLight
  · exact exact16_pinLight
  · exact exact16_hardMix
  · exact exact16_difference
  · exact exact16_exclusion
  · exact exact16_subtract
  · exact exact16_divide

end Psd
