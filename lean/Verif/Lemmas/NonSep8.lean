import Verif.Lemmas.Blend8
import Mathlib.Tactic.Linarith

/-
Luminosity and saturation on the 8-bit scale, computed exactly.
-/

namespace Psd

theorem bmod32 {x : Int} (h : -2147483648 ≤ x ∧ x < 2147483648) : x.bmod (2 ^ 32) = x := by
  rw [Int.bmod_def]
  split <;> omega

theorem addS (a b : Int32) (h : -2147483648 ≤ a.toInt + b.toInt ∧ a.toInt + b.toInt < 2147483648) :
    (a + b).toInt = a.toInt + b.toInt := by rw [Int32.toInt_add, bmod32 h]

theorem subS (a b : Int32) (h : -2147483648 ≤ a.toInt - b.toInt ∧ a.toInt - b.toInt < 2147483648) :
    (a - b).toInt = a.toInt - b.toInt := by rw [Int32.toInt_sub, bmod32 h]

theorem mulS (a b : Int32) (h : -2147483648 ≤ a.toInt * b.toInt ∧ a.toInt * b.toInt < 2147483648) :
    (a * b).toInt = a.toInt * b.toInt := by rw [Int32.toInt_mul, bmod32 h]

theorem shr8S (a : Int32) : (a >>> 8).toInt = a.toInt / 256 := by
  show (a >>> 8).toBitVec.toInt = _
  rw [Int32.toBitVec_shiftRight]
  show (a.toBitVec.sshiftRight' _).toInt = _
  rw [BitVec.toInt_sshiftRight', Int.shiftRight_eq_div_pow]
  rfl

theorem toInt32_toInt (x : UInt32) (h : x.toNat < 2147483648) : x.toInt32.toInt = x.toNat := by
  show x.toInt32.toBitVec.toInt = _
  rw [UInt32.toBitVec_toInt32, BitVec.toInt_eq_toNat_of_lt]
  · rfl
  · show 2 * x.toNat < 2 ^ 32; omega

theorem divS (a b : Int32) (hb : 0 < b.toInt) (ha : -2147483648 < a.toInt) :
    divI32 a b = .ok (a / b) ∧ (a / b).toInt = a.toInt.tdiv b.toInt := by
  constructor
  · unfold divI32
    rw [if_neg]
    intro h
    subst h
    exact absurd hb (by decide)
  · apply Int32.toInt_div_of_ne_left
    intro h
    subst h
    exact absurd ha (by decide)

theorem ltS {a b : Int32} : a < b ↔ a.toInt < b.toInt := Int32.lt_iff_toInt_lt

theorem minS_toInt (a b : Int32) : (minS a b).toInt = min a.toInt b.toInt := by
  unfold minS
  split
  · rename_i h; have := ltS.1 h; omega
  · rename_i h; have : ¬ a.toInt < b.toInt := fun h' => h (ltS.2 h'); omega

theorem maxS_toInt (a b : Int32) : (maxS a b).toInt = max a.toInt b.toInt := by
  unfold maxS
  split
  · rename_i h; have := ltS.1 h; omega
  · rename_i h; have : ¬ b.toInt < a.toInt := fun h' => h (ltS.2 h'); omega

theorem clamp8s_toNat (a : Int32) : (clamp8s a).toNat = (max 0 (min a.toInt 255)).toNat := by
  unfold clamp8s
  split
  · rename_i h
    have : a.toInt < 0 := ltS.1 h
    simp only [n0]; omega
  · rename_i h0
    have h0 : ¬ a.toInt < 0 := fun h => h0 (ltS.2 h)
    split
    · rename_i h
      have : 255 < a.toInt := ltS.1 h
      simp only [n255]; omega
    · rename_i h
      have : ¬ 255 < a.toInt := fun h' => h (ltS.2 h')
      rw [Int32.toNat_toUInt32_of_le (Int32.le_iff_toInt_le.2 (by show 0 ≤ a.toInt; omega))]
      show a.toInt.toNat = _
      omega

theorem lum8s_eq (r g b : Int32) (hr : -1000 ≤ r.toInt ∧ r.toInt ≤ 1000) (hg : -1000 ≤ g.toInt ∧ g.toInt ≤ 1000)
    (hb : -1000 ≤ b.toInt ∧ b.toInt ≤ 1000) : (lum8s r g b).toInt = lumZ r.toInt g.toInt b.toInt := by
  have e1 : (r * 77).toInt = r.toInt * 77 := mulS r 77 (by show _ ≤ _ * 77 ∧ _ * 77 < _; omega)
  have e2 : (g * 151).toInt = g.toInt * 151 := mulS g 151 (by show _ ≤ _ * 151 ∧ _ * 151 < _; omega)
  have e3 : (b * 28).toInt = b.toInt * 28 := mulS b 28 (by show _ ≤ _ * 28 ∧ _ * 28 < _; omega)
  have e4 := addS (r * 77) (g * 151) (by omega)
  have e5 := addS (r * 77 + g * 151) (b * 28) (by omega)
  unfold lum8s lumZ
  rw [shr8S, e5, e4, e1, e2, e3]
  omega

theorem lum8_eq (c : RGB UInt32) (hr : c.r.toNat ≤ 255) (hg : c.g.toNat ≤ 255) (hb : c.b.toNat ≤ 255) :
    (lum8 c).toInt = lumZ c.r.toNat c.g.toNat c.b.toNat := by
  have e1 : (c.r * 77).toNat = c.r.toNat * 77 := mulU c.r 77 (by show _ * 77 < _; omega)
  have e2 : (c.g * 151).toNat = c.g.toNat * 151 := mulU c.g 151 (by show _ * 151 < _; omega)
  have e3 : (c.b * 28).toNat = c.b.toNat * 28 := mulU c.b 28 (by show _ * 28 < _; omega)
  have e4 := addU (c.r * 77) (c.g * 151) (by omega)
  have e5 := addU (c.r * 77 + c.g * 151) (c.b * 28) (by omega)
  have e6 : ((c.r * 77 + c.g * 151 + c.b * 28) >>> 8).toNat = (c.r * 77 + c.g * 151 + c.b * 28).toNat / 256 := shr8 _
  unfold lum8 lumZ
  rw [toInt32_toInt _ (by omega), e6, e5, e4, e1, e2, e3]
  omega

theorem lumZ_bounds {r g b lo hi : Int} (hr : lo ≤ r ∧ r ≤ hi) (hg : lo ≤ g ∧ g ≤ hi) (hb : lo ≤ b ∧ b ≤ hi) :
    lo ≤ lumZ r g b ∧ lumZ r g b ≤ hi := by unfold lumZ; omega

theorem lumZ_shift (r g b l : Int) : lumZ (r + l) (g + l) (b + l) = lumZ r g b + l := by unfold lumZ; omega

theorem mul_bounds {x y a b : Int} (hx : -a ≤ x ∧ x ≤ a) (hy : 0 ≤ y ∧ y ≤ b) (_ : 0 ≤ a) :
    -(a * b) ≤ x * y ∧ x * y ≤ a * b := by
  constructor <;> nlinarith

theorem tdiv_bounds {x y a : Int} (hx : -a ≤ x ∧ x ≤ a) (hy : 0 < y) : -a ≤ x.tdiv y ∧ x.tdiv y ≤ a := by
  rcases Int.le_total 0 x with h | h
  · have h1 : x.tdiv y = x / y := Int.tdiv_eq_ediv_of_nonneg h
    have h2 : 0 ≤ x / y := Int.ediv_nonneg h (by omega)
    have h3 : x / y ≤ x := Int.ediv_le_self y h
    omega
  · have h1 : x.tdiv y = -((-x) / y) := by
      rw [← Int.tdiv_eq_ediv_of_nonneg (by omega), Int.neg_tdiv]; omega
    have h2 : 0 ≤ (-x) / y := Int.ediv_nonneg (by omega) (by omega)
    have h3 : (-x) / y ≤ -x := Int.ediv_le_self y (by omega)
    omega

/-- One step of `clipColor8`. -/
theorem clipStep (c l k t : Int32) (a : Int) (hc : -a ≤ c.toInt - l.toInt ∧ c.toInt - l.toInt ≤ a) (ha : 0 ≤ a ∧ a ≤ 1000000)
    (hl : 0 ≤ l.toInt ∧ l.toInt ≤ 255) (hk : 0 ≤ k.toInt ∧ k.toInt ≤ 255) (ht : 0 < t.toInt) :
    ∃ q, divI32 ((c - l) * k) t = .ok q ∧ (l + q).toInt = l.toInt + ((c.toInt - l.toInt) * k.toInt).tdiv t.toInt ∧
      -(a * 255) ≤ (l + q).toInt - l.toInt ∧ (l + q).toInt - l.toInt ≤ a * 255 := by
  have e1 := subS c l (by omega)
  obtain ⟨b1, b2⟩ := mul_bounds hc hk ha.1
  have e2 := mulS (c - l) k (by rw [e1]; omega)
  rw [e1] at e2
  obtain ⟨d1, d2⟩ := divS ((c - l) * k) t ht (by rw [e2]; omega)
  rw [e2] at d2
  obtain ⟨b3, b4⟩ := tdiv_bounds (a := a * 255) ⟨b1, b2⟩ ht
  have e3 := addS l ((c - l) * k / t) (by rw [d2]; omega)
  rw [d2] at e3
  exact ⟨_, d1, e3, by omega, by omega⟩

theorem clipColor8_eq (r g b : Int32) (hr : -255 ≤ r.toInt ∧ r.toInt ≤ 510) (hg : -255 ≤ g.toInt ∧ g.toInt ≤ 510)
    (hb : -255 ≤ b.toInt ∧ b.toInt ≤ 510)
    (hl : 0 ≤ lumZ r.toInt g.toInt b.toInt ∧ lumZ r.toInt g.toInt b.toInt ≤ 255) :
    ∃ c, clipColor8 r g b = .ok c ∧ c.r.toNat = (clipZ r.toInt g.toInt b.toInt).r ∧
      c.g.toNat = (clipZ r.toInt g.toInt b.toInt).g ∧ c.b.toNat = (clipZ r.toInt g.toInt b.toInt).b := by
  have el := lum8s_eq r g b (by omega) (by omega) (by omega)
  have en : (minS r (minS g b)).toInt = min r.toInt (min g.toInt b.toInt) := by rw [minS_toInt, minS_toInt]
  have ex : (maxS r (maxS g b)).toInt = max r.toInt (max g.toInt b.toInt) := by rw [maxS_toInt, maxS_toInt]
  -- first step
  have step1 : ∃ r1 g1 b1 : Int32, (if minS r (minS g b) < 0 then (do
        let tmp := lum8s r g b - minS r (minS g b)
        let qr ← divI32 ((r - lum8s r g b) * lum8s r g b) tmp
        let qg ← divI32 ((g - lum8s r g b) * lum8s r g b) tmp
        let qb ← divI32 ((b - lum8s r g b) * lum8s r g b) tmp
        Res.ok (lum8s r g b + qr, lum8s r g b + qg, lum8s r g b + qb)) else Res.ok (r, g, b)) = .ok (r1, g1, b1) ∧
      (∀ c c1 : Int32, (c = r ∧ c1 = r1) ∨ (c = g ∧ c1 = g1) ∨ (c = b ∧ c1 = b1) →
        c1.toInt = (if min r.toInt (min g.toInt b.toInt) < 0 then lumZ r.toInt g.toInt b.toInt +
          ((c.toInt - lumZ r.toInt g.toInt b.toInt) * lumZ r.toInt g.toInt b.toInt).tdiv
            (lumZ r.toInt g.toInt b.toInt - min r.toInt (min g.toInt b.toInt)) else c.toInt) ∧
        -(765 * 255) ≤ c1.toInt - lumZ r.toInt g.toInt b.toInt ∧
          c1.toInt - lumZ r.toInt g.toInt b.toInt ≤ 765 * 255) := by
    by_cases hn : minS r (minS g b) < 0
    · have hn' : min r.toInt (min g.toInt b.toInt) < 0 := by rw [← en]; exact ltS.1 hn
      have et := subS (lum8s r g b) (minS r (minS g b)) (by omega)
      obtain ⟨q1, a1, a2, a3⟩ := clipStep r (lum8s r g b) (lum8s r g b) (lum8s r g b - minS r (minS g b)) 765 (by omega)
        (by omega) (by omega) (by omega) (by omega)
      obtain ⟨q2, g1', b2, b3⟩ := clipStep g (lum8s r g b) (lum8s r g b) (lum8s r g b - minS r (minS g b)) 765 (by omega)
        (by omega) (by omega) (by omega) (by omega)
      obtain ⟨q3, c1', c2, c3⟩ := clipStep b (lum8s r g b) (lum8s r g b) (lum8s r g b - minS r (minS g b)) 765 (by omega)
        (by omega) (by omega) (by omega) (by omega)
      refine ⟨_, _, _, by rw [if_pos hn]; simp only [a1, g1', c1']; rfl, ?_⟩
      rw [et, el, en] at a2 b2 c2
      rw [el] at a3 b3 c3
      rintro c c' (⟨rfl, rfl⟩ | ⟨rfl, rfl⟩ | ⟨rfl, rfl⟩) <;> rw [if_pos hn']
      · exact ⟨a2, a3⟩
      · exact ⟨b2, b3⟩
      · exact ⟨c2, c3⟩
    · have hn' : ¬ min r.toInt (min g.toInt b.toInt) < 0 := by rw [← en]; exact fun h => hn (ltS.2 h)
      refine ⟨r, g, b, by rw [if_neg hn], ?_⟩
      rintro c c' (⟨rfl, rfl⟩ | ⟨rfl, rfl⟩ | ⟨rfl, rfl⟩) <;> rw [if_neg hn'] <;> exact ⟨rfl, by omega, by omega⟩
  obtain ⟨r1, g1, b1, s1, v1⟩ := step1
  obtain ⟨vr, vr1, vr2⟩ := v1 r r1 (.inl ⟨rfl, rfl⟩)
  obtain ⟨vg, vg1, vg2⟩ := v1 g g1 (.inr (.inl ⟨rfl, rfl⟩))
  obtain ⟨vb, vb1, vb2⟩ := v1 b b1 (.inr (.inr ⟨rfl, rfl⟩))
  have step2 : ∃ r2 g2 b2 : Int32, (if maxS r (maxS g b) > 0xff then (do
        let tmp := 0xff - lum8s r g b
        let tmp2 := maxS r (maxS g b) - lum8s r g b
        let qr ← divI32 ((r1 - lum8s r g b) * tmp) tmp2
        let qg ← divI32 ((g1 - lum8s r g b) * tmp) tmp2
        let qb ← divI32 ((b1 - lum8s r g b) * tmp) tmp2
        Res.ok (lum8s r g b + qr, lum8s r g b + qg, lum8s r g b + qb)) else Res.ok (r1, g1, b1)) = .ok (r2, g2, b2) ∧
      (∀ c c1 : Int32, (c = r1 ∧ c1 = r2) ∨ (c = g1 ∧ c1 = g2) ∨ (c = b1 ∧ c1 = b2) →
        c1.toInt = (if 255 < max r.toInt (max g.toInt b.toInt) then lumZ r.toInt g.toInt b.toInt +
          ((c.toInt - lumZ r.toInt g.toInt b.toInt) * (255 - lumZ r.toInt g.toInt b.toInt)).tdiv
            (max r.toInt (max g.toInt b.toInt) - lumZ r.toInt g.toInt b.toInt) else c.toInt)) := by
    by_cases hn : maxS r (maxS g b) > 0xff
    · have hn' : 255 < max r.toInt (max g.toInt b.toInt) := by rw [← ex]; exact ltS.1 hn
      have et : (0xff - lum8s r g b).toInt = 255 - (lum8s r g b).toInt := subS 0xff _ (by
        show _ ≤ 255 - _ ∧ 255 - _ < _; omega)
      have et2 := subS (maxS r (maxS g b)) (lum8s r g b) (by omega)
      obtain ⟨q1, a1, a2, a3⟩ := clipStep r1 (lum8s r g b) (0xff - lum8s r g b) (maxS r (maxS g b) - lum8s r g b) (765 * 255)
        (by omega) (by omega) (by omega) (by omega) (by omega)
      obtain ⟨q2, g1', b2, b3⟩ := clipStep g1 (lum8s r g b) (0xff - lum8s r g b) (maxS r (maxS g b) - lum8s r g b) (765 * 255)
        (by omega) (by omega) (by omega) (by omega) (by omega)
      obtain ⟨q3, c1', c2, c3⟩ := clipStep b1 (lum8s r g b) (0xff - lum8s r g b) (maxS r (maxS g b) - lum8s r g b) (765 * 255)
        (by omega) (by omega) (by omega) (by omega) (by omega)
      refine ⟨_, _, _, by rw [if_pos hn]; simp only [a1, g1', c1']; rfl, ?_⟩
      rw [et, et2, el, ex] at a2 b2 c2
      rintro c c' (⟨rfl, rfl⟩ | ⟨rfl, rfl⟩ | ⟨rfl, rfl⟩) <;> rw [if_pos hn']
      · exact a2
      · exact b2
      · exact c2
    · have hn' : ¬ 255 < max r.toInt (max g.toInt b.toInt) := by rw [← ex]; exact fun h => hn (ltS.2 h)
      refine ⟨r1, g1, b1, by rw [if_neg hn], ?_⟩
      rintro c c' (⟨rfl, rfl⟩ | ⟨rfl, rfl⟩ | ⟨rfl, rfl⟩) <;> rw [if_neg hn']
  obtain ⟨r2, g2, b2, s2, v2⟩ := step2
  refine ⟨⟨clamp8s r2, clamp8s g2, clamp8s b2⟩, ?_, ?_, ?_, ?_⟩
  · unfold clipColor8
    simp only [s1, Res.ok_bind, s2]
  · rw [clamp8s_toNat, v2 r1 r2 (.inl ⟨rfl, rfl⟩), vr]; rfl
  · rw [clamp8s_toNat, v2 g1 g2 (.inr (.inl ⟨rfl, rfl⟩)), vg]; rfl
  · rw [clamp8s_toNat, v2 b1 b2 (.inr (.inr ⟨rfl, rfl⟩)), vb]; rfl

/-- All channels of a colour are bytes. -/
def RGB.Byte (c : RGB UInt32) : Prop := c.r.toNat ≤ 255 ∧ c.g.toNat ≤ 255 ∧ c.b.toNat ≤ 255

def RGB.nat (c : RGB UInt32) : RGB Nat := ⟨c.r.toNat, c.g.toNat, c.b.toNat⟩

theorem setLum8_eq (c : RGB UInt32) (hc : c.Byte) (lm : Int32) (hlm : 0 ≤ lm.toInt ∧ lm.toInt ≤ 255) :
    ∃ v, setLum8 c lm = .ok v ∧ v.nat = setLumZ c.nat lm.toInt := by
  obtain ⟨hr, hg, hb⟩ := hc
  have el := lum8_eq c hr hg hb
  have hl := lumZ_bounds (r := c.r.toNat) (g := c.g.toNat) (b := c.b.toNat) (lo := 0) (hi := 255) (by omega) (by omega) (by omega)
  have ek := subS lm (lum8 c) (by omega)
  rw [el] at ek
  have er := toInt32_toInt c.r (by omega)
  have eg := toInt32_toInt c.g (by omega)
  have eb := toInt32_toInt c.b (by omega)
  have ar := addS c.r.toInt32 (lm - lum8 c) (by omega)
  have ag := addS c.g.toInt32 (lm - lum8 c) (by omega)
  have ab := addS c.b.toInt32 (lm - lum8 c) (by omega)
  rw [er, ek] at ar
  rw [eg, ek] at ag
  rw [eb, ek] at ab
  have esh := lumZ_shift c.r.toNat c.g.toNat c.b.toNat (lm.toInt - lumZ c.r.toNat c.g.toNat c.b.toNat)
  obtain ⟨v, h1, h2, h3, h4⟩ := clipColor8_eq _ _ _ (by rw [ar]; omega) (by rw [ag]; omega) (by rw [ab]; omega)
    (by rw [ar, ag, ab, esh]; omega)
  refine ⟨v, h1, ?_⟩
  rw [ar, ag, ab] at h2 h3 h4
  unfold RGB.nat setLumZ
  rw [h2, h3, h4]

theorem setLumZ_le (c : RGB Nat) (l : Int) : (setLumZ c l).r ≤ 255 ∧ (setLumZ c l).g ≤ 255 ∧ (setLumZ c l).b ≤ 255 := by
  unfold setLumZ clipZ
  refine ⟨?_, ?_, ?_⟩ <;> dsimp only <;> omega

theorem maxU_toNat (a b : UInt32) : (maxU a b).toNat = max a.toNat b.toNat := by
  unfold maxU
  split
  · rename_i h; have := ltU.1 h; omega
  · rename_i h; have : ¬ b.toNat < a.toNat := fun h' => h (ltU.2 h'); omega

theorem minU_toNat (a b : UInt32) : (minU a b).toNat = min a.toNat b.toNat := by
  unfold minU
  split
  · rename_i h; have := ltU.1 h; omega
  · rename_i h; have : ¬ a.toNat < b.toNat := fun h' => h (ltU.2 h'); omega

theorem sat_eq (c : RGB UInt32) : (sat c).toNat = c.nat.hi - c.nat.lo := by
  unfold sat
  rw [subU _ _ (by simp only [maxU_toNat, minU_toNat]; omega)]
  simp only [maxU_toNat, minU_toNat]
  rfl

theorem setSatMMM (mn mid mx s : UInt32) (h1 : mn.toNat ≤ mid.toNat) (h2 : mid.toNat ≤ mx.toNat) (h3 : mx.toNat ≤ 255)
    (hs : s.toNat ≤ 255) :
    ∃ x y z, setSatMinMidMax mn mid mx s = .ok (x, y, z) ∧
      x.toNat = (if mn.toNat < mx.toNat then (mn.toNat - mn.toNat) * s.toNat / (mx.toNat - mn.toNat) else 0) ∧
      y.toNat = (if mn.toNat < mx.toNat then (mid.toNat - mn.toNat) * s.toNat / (mx.toNat - mn.toNat) else 0) ∧
      z.toNat = (if mn.toNat < mx.toNat then (mx.toNat - mn.toNat) * s.toNat / (mx.toNat - mn.toNat) else 0) := by
  unfold setSatMinMidMax
  by_cases h : mx > mn
  · have h' : mn.toNat < mx.toNat := ltU.1 h
    rw [if_pos h, if_pos h', if_pos h', if_pos h']
    have e1 := subU mid mn h1
    have e2 := subU mx mn (by omega)
    obtain ⟨d1, d2⟩ := divU32_ok ((mid - mn) * s) (mx - mn) (by omega)
    rw [d1]
    refine ⟨_, _, _, rfl, ?_, ?_, ?_⟩
    · rw [Nat.sub_self, Nat.zero_mul, Nat.zero_div]; rfl
    · rw [d2, mulB _ _ (by omega) hs, e1, e2]
    · rw [Nat.mul_div_cancel_left _ (by omega)]
  · have h' : ¬ mn.toNat < mx.toNat := fun h' => h (ltU.2 h')
    rw [if_neg h, if_neg h', if_neg h', if_neg h']
    exact ⟨_, _, _, rfl, rfl, rfl, rfl⟩

theorem setSat_eq (c : RGB UInt32) (hc : c.Byte) (s : UInt32) (hs : s.toNat ≤ 255) :
    ∃ v, setSat c s = .ok v ∧ v.nat = setSatN c.nat s.toNat := by
  obtain ⟨hr, hg, hb⟩ := hc
  have key : ∀ lo hi : Nat, c.nat.lo = lo → c.nat.hi = hi → setSatN c.nat s.toNat =
      ⟨if lo < hi then (c.r.toNat - lo) * s.toNat / (hi - lo) else 0,
       if lo < hi then (c.g.toNat - lo) * s.toNat / (hi - lo) else 0,
       if lo < hi then (c.b.toNat - lo) * s.toNat / (hi - lo) else 0⟩ := by
    rintro lo hi rfl rfl; rfl
  unfold setSat
  simp only [leU]
  unfold RGB.lo RGB.hi RGB.nat at key
  dsimp only at key
  repeat' split
  · obtain ⟨x, y, z, e, e1, e2, e3⟩ := setSatMMM c.r c.g c.b s (by omega) (by omega) (by omega) hs
    refine ⟨⟨x, y, z⟩, by rw [e]; rfl, Eq.trans ?_ (key c.r.toNat c.b.toNat (by omega) (by omega)).symm⟩
    rw [← e1, ← e2, ← e3]
    rfl
  · obtain ⟨x, y, z, e, e1, e2, e3⟩ := setSatMMM c.r c.b c.g s (by omega) (by omega) (by omega) hs
    refine ⟨⟨x, z, y⟩, by rw [e]; rfl, Eq.trans ?_ (key c.r.toNat c.g.toNat (by omega) (by omega)).symm⟩
    rw [← e1, ← e2, ← e3]
    rfl
  · obtain ⟨x, y, z, e, e1, e2, e3⟩ := setSatMMM c.b c.r c.g s (by omega) (by omega) (by omega) hs
    refine ⟨⟨y, z, x⟩, by rw [e]; rfl, Eq.trans ?_ (key c.b.toNat c.g.toNat (by omega) (by omega)).symm⟩
    rw [← e1, ← e2, ← e3]
    rfl
  · obtain ⟨x, y, z, e, e1, e2, e3⟩ := setSatMMM c.g c.r c.b s (by omega) (by omega) (by omega) hs
    refine ⟨⟨y, x, z⟩, by rw [e]; rfl, Eq.trans ?_ (key c.g.toNat c.b.toNat (by omega) (by omega)).symm⟩
    rw [← e1, ← e2, ← e3]
    rfl
  · obtain ⟨x, y, z, e, e1, e2, e3⟩ := setSatMMM c.g c.b c.r s (by omega) (by omega) (by omega) hs
    refine ⟨⟨z, x, y⟩, by rw [e]; rfl, Eq.trans ?_ (key c.g.toNat c.r.toNat (by omega) (by omega)).symm⟩
    rw [← e1, ← e2, ← e3]
    rfl
  · obtain ⟨x, y, z, e, e1, e2, e3⟩ := setSatMMM c.b c.g c.r s (by omega) (by omega) (by omega) hs
    refine ⟨⟨z, y, x⟩, by rw [e]; rfl, Eq.trans ?_ (key c.b.toNat c.r.toNat (by omega) (by omega)).symm⟩
    rw [← e1, ← e2, ← e3]
    rfl

end Psd
