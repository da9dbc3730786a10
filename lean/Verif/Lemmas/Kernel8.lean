import Verif.Lemmas.NonSep8

/-
The NRGBA kernel computed exactly.
-/

namespace Psd

theorem lumZ_byte {c : RGB Nat} (h : c.Le 255) : 0 ≤ lumZ c.r c.g c.b ∧ lumZ c.r c.g c.b ≤ 255 :=
  lumZ_bounds (lo := 0) (hi := 255) (by have := h.1; omega) (by have := h.2.1; omega) (by have := h.2.2; omega)

theorem setSatN_le {c : RGB Nat} {s : Nat} (hs : s ≤ 255) : (setSatN c s).Le 255 := by
  have key : ∀ v, v ≤ c.hi → (if c.lo < c.hi then (v - c.lo) * s / (c.hi - c.lo) else 0) ≤ 255 := by
    intro v hv
    split
    · have h1 : (v - c.lo) * s ≤ (c.hi - c.lo) * s := Nat.mul_le_mul_right s (by omega)
      have h2 := Nat.div_le_div_right (c := c.hi - c.lo) h1
      rw [Nat.mul_div_cancel_left s (by omega)] at h2
      omega
    · omega
  unfold RGB.hi at key
  exact ⟨key c.r (by omega), key c.g (by omega), key c.b (by omega)⟩

theorem setSatN_bytes {c : RGB UInt32} {v : RGB UInt32} {s : Nat} (hs : s ≤ 255) (h : v.nat = setSatN c.nat s) : v.Byte := by
  have := setSatN_le (c := c.nat) hs
  rw [← h] at this
  exact this

theorem lt_lum (a b : RGB UInt32) (ha : a.Byte) (hb : b.Byte) :
    (lum8 a < lum8 b) ↔ lumZ a.nat.r a.nat.g a.nat.b < lumZ b.nat.r b.nat.g b.nat.b := by
  rw [ltS, lum8_eq a ha.1 ha.2.1 ha.2.2, lum8_eq b hb.1 hb.2.1 hb.2.2]
  rfl

theorem blend8_exact (m : Mode) (s d : RGB UInt32) (hs : s.Byte) (hd : d.Byte) :
    ∃ c, blend8 m s d = .ok c ∧ c.nat = blendN m s.nat d.nat := by
  have ls := lum8_eq s hs.1 hs.2.1 hs.2.2
  have ld := lum8_eq d hd.1 hd.2.1 hd.2.2
  have bs := lumZ_byte (c := s.nat) hs
  have bd := lumZ_byte (c := d.nat) hd
  have hi255 : ∀ c : RGB UInt32, c.Byte → (sat c).toNat ≤ 255 := by
    intro c hc
    rw [sat_eq]
    have := hc.1; have := hc.2.1; have := hc.2.2
    unfold RGB.hi RGB.nat
    dsimp only
    omega
  cases m with
  | sep m =>
    obtain ⟨r, hr, er⟩ := chan8_exact m s.r d.r hs.1 hd.1
    obtain ⟨g, hg, eg⟩ := chan8_exact m s.g d.g hs.2.1 hd.2.1
    obtain ⟨b, hb, eb⟩ := chan8_exact m s.b d.b hs.2.2 hd.2.2
    refine ⟨⟨r, g, b⟩, by simp only [blend8, hr, hg, hb, Res.ok_bind], ?_⟩
    unfold RGB.nat blendN
    dsimp only
    rw [er, eg, eb]
  | darkerColor =>
    refine ⟨_, rfl, ?_⟩
    unfold blendN
    simp only [lt_lum s d hs hd]
    split <;> rfl
  | lighterColor =>
    refine ⟨_, rfl, ?_⟩
    unfold blendN
    simp only [gt_iff_lt, lt_lum d s hd hs]
    split <;> rfl
  | nonSep m =>
    cases m with
    | hue =>
      obtain ⟨c, h1, e1⟩ := setSat_eq s hs (sat d) (hi255 d hd)
      obtain ⟨v, h2, e2⟩ := setLum8_eq c (setSatN_bytes (hi255 d hd) e1) (lum8 d) (by rw [ld]; exact bd)
      refine ⟨v, by simp only [blend8, h1, Res.ok_bind, h2], ?_⟩
      rw [e2, e1, ld, sat_eq]
      rfl
    | saturation =>
      obtain ⟨c, h1, e1⟩ := setSat_eq d hd (sat s) (hi255 s hs)
      obtain ⟨v, h2, e2⟩ := setLum8_eq c (setSatN_bytes (hi255 s hs) e1) (lum8 d) (by rw [ld]; exact bd)
      refine ⟨v, by simp only [blend8, h1, Res.ok_bind, h2], ?_⟩
      rw [e2, e1, ld, sat_eq]
      rfl
    | color =>
      obtain ⟨v, h2, e2⟩ := setLum8_eq s hs (lum8 d) (by rw [ld]; exact bd)
      exact ⟨v, h2, by rw [e2, ld]; rfl⟩
    | luminosity =>
      obtain ⟨v, h2, e2⟩ := setLum8_eq d hd (lum8 s) (by rw [ls]; exact bs)
      exact ⟨v, h2, by rw [e2, ls]; rfl⟩

theorem mul_div_le255 {a b : Nat} (ha : a ≤ 255) (hb : b ≤ 255) : a * b / 255 ≤ 255 := by
  have := mul_div255_le (d := b) ha
  omega

theorem mul_co (x y : Nat) (hx : x ≤ 255) (hy : y ≤ 255) : (255 - x) * (255 - y) + 255 * x + 255 * y = 65025 + x * y := by
  obtain ⟨x', hx'⟩ := Nat.exists_eq_add_of_le hx
  obtain ⟨y', hy'⟩ := Nat.exists_eq_add_of_le hy
  have h1 : 255 - x = x' := by omega
  have h2 : 255 - y = y' := by omega
  rw [h1, h2]
  have e1 : x' * y' + x' * y = x' * 255 := by rw [← Nat.mul_add]; congr 1; omega
  have e2 : x' * y + x * y = 255 * y := by rw [← Nat.add_mul]; congr 1; omega
  omega

theorem add_le_mul255 {x y : Nat} (hx : x ≤ 255) (hy : y ≤ 255) : x + y ≤ 255 + x * y / 255 := by
  have := mul_co x y hx hy
  omega

theorem softN_le : ∀ d : Fin 64, softN d.1 ≤ 255 := by decide +kernel
theorem isqrt_le : ∀ d : Fin 256, sqrtU32.isqrt (d.1 * 255) ≤ 255 := by decide +kernel

/-- The 8-bit formulas stay in range, except `Add`. -/
theorem chanN_le (m : Sep) (hm : m ≠ .add) {s d : Nat} (hs : s ≤ 255) (hd : d ≤ 255) : chanN m s d ≤ 255 := by
  cases m
  case normal => exact hs
  case darken => simp only [chanN]; omega
  case multiply => have h1 := mul_div255_le (d := d) hs; simp only [chanN]; omega
  case colorBurn =>
    simp only [chanN]
    split
    · omega
    · split
      · omega
      · exact Nat.sub_le _ _
  case linearBurn => simp only [chanN]; omega
  case lighten => simp only [chanN]; omega
  case screen => have := add_le_mul255 hs hd; simp only [chanN]; omega
  case colorDodge => simp only [chanN]; split; omega; split <;> omega
  case linearDodge => simp only [chanN]; omega
  case add => exact absurd rfl hm
  case overlay =>
    simp only [chanN]
    split
    · have := mul_div255_le (d := 2 * d) hs; omega
    · omega
  case softLight =>
    simp only [chanN]
    split
    · omega
    · generalize hx : (if d < 64 then softN d else sqrtU32.isqrt (d * 255)) = x
      have hx : x ≤ 255 := by
        rw [← hx]; split
        · exact softN_le ⟨d, by omega⟩
        · exact isqrt_le ⟨d, by omega⟩
      have := mul_div255_le (s := 2 * s - 255) (d := x - d) (by omega)
      omega
  case hardLight =>
    simp only [chanN]
    split
    · have := mul_div255_le (s := d) (d := 2 * s) hd; omega
    · have := add_le_mul255 (x := d) (y := 2 * s - 255) hd (by omega); omega
  case linearLight => simp only [chanN]; split <;> omega
  case vividLight =>
    simp only [chanN]
    split
    · split
      · omega
      · exact Nat.sub_le _ _
    · split <;> omega
  case pinLight => simp only [chanN]; split <;> omega
  case hardMix =>
    simp only [chanN]
    generalize (if s < 128 then _ else _ : Nat) = x
    split <;> omega
  case difference => simp only [chanN]; split <;> omega
  case exclusion =>
    simp only [chanN]
    have := mul_co d s hd hs
    omega
  case subtract => simp only [chanN]; omega
  case divide => simp only [chanN]; split; omega; split <;> omega

theorem blendN_le (m : Mode) (hm : m ≠ .sep .add) {s d : RGB Nat} (hs : s.Le 255) (hd : d.Le 255) : (blendN m s d).Le 255 := by
  cases m with
  | sep m =>
    have hm : m ≠ .add := fun h => hm (by rw [h])
    exact ⟨chanN_le m hm hs.1 hd.1, chanN_le m hm hs.2.1 hd.2.1, chanN_le m hm hs.2.2 hd.2.2⟩
  | darkerColor => unfold blendN; dsimp only; split <;> assumption
  | lighterColor => unfold blendN; dsimp only; split <;> assumption
  | nonSep m => cases m <;> exact setLumZ_le _ _

theorem blendN_le510 (m : Mode) {s d : RGB Nat} (hs : s.Le 255) (hd : d.Le 255) : (blendN m s d).Le 510 := by
  by_cases hm : m = .sep .add
  · subst hm
    have := hs.1; have := hs.2.1; have := hs.2.2
    have := hd.1; have := hd.2.1; have := hd.2.2
    unfold blendN RGB.Le
    simp only [chanN]
    omega
  · have := blendN_le m hm hs hd
    exact ⟨by have := this.1; omega, by have := this.2.1; omega, by have := this.2.2; omega⟩

/-- The weights never exceed the scale. -/
theorem weights_le {t da : Nat} (ht : t ≤ 255) (hda : da ≤ 255) :
    t * da / 255 + t * (255 - da) / 255 + (255 - t) * da / 255 ≤ 255 := by
  have h1 : t * da + t * (255 - da) = t * 255 := by rw [← Nat.mul_add]; congr 1; omega
  have h2 : (255 - t) * da ≤ (255 - t) * 255 := Nat.mul_le_mul_left _ hda
  omega

theorem mean_le {c s d a1 a2 a3 k : Nat} (hc : c ≤ k) (hs : s ≤ k) (hd : d ≤ k) :
    c * a1 + s * a2 + d * a3 ≤ k * (a1 + a2 + a3) := by
  have := Nat.mul_le_mul_right a1 hc
  have := Nat.mul_le_mul_right a2 hs
  have := Nat.mul_le_mul_right a3 hd
  rw [Nat.mul_add, Nat.mul_add]
  omega

theorem mean_eq (m : Mode) (c s d a1 a2 a3 : UInt32) (hc : c.toNat ≤ 510) (hm : m ≠ .sep .add → c.toNat ≤ 255)
    (hs : s.toNat ≤ 255) (hd : d.toNat ≤ 255) (h1 : a1.toNat + a2.toNat + a3.toNat ≤ 255) (h0 : (a1 + a2 + a3).toNat ≠ 0) :
    ∃ v, divU32 (c * a1 + s * a2 + d * a3) (a1 + a2 + a3) = .ok v ∧
      (if m.overMax then (clip8 v).toUInt8 else v.toUInt8).toNat =
        min 255 ((c.toNat * a1.toNat + s.toNat * a2.toNat + d.toNat * a3.toNat) / (a1.toNat + a2.toNat + a3.toNat)) := by
  have ea1 := addU a1 a2 (by omega)
  have ea := addU (a1 + a2) a3 (by omega)
  obtain ⟨d1, d2⟩ := divU32_ok (c * a1 + s * a2 + d * a3) (a1 + a2 + a3) (by omega)
  have b := mean_le (a1 := a1.toNat) (a2 := a2.toNat) (a3 := a3.toNat) hc (show s.toNat ≤ 510 by omega) (show d.toNat ≤ 510 by omega)
  have p1 : (c * a1).toNat = c.toNat * a1.toNat := mulU _ _ (by omega)
  have p2 : (s * a2).toNat = s.toNat * a2.toNat := mulU _ _ (by omega)
  have p3 : (d * a3).toNat = d.toNat * a3.toNat := mulU _ _ (by omega)
  have q1 := addU (c * a1) (s * a2) (by omega)
  have q2 := addU (c * a1 + s * a2) (d * a3) (by omega)
  refine ⟨_, d1, ?_⟩
  rw [← p1, ← p2, ← p3, ← q1, ← q2, ← ea1, ← ea, ← d2]
  generalize hv : (c * a1 + s * a2 + d * a3) / (a1 + a2 + a3) = v at d2 ⊢
  by_cases ho : m = .sep .add
  · have : m.overMax = true := by unfold Mode.overMax; exact decide_eq_true ho
    rw [if_pos this, UInt32.toNat_toUInt8, clip8_toNat]
    omega
  · have : ¬ m.overMax = true := by unfold Mode.overMax; simpa using ho
    rw [if_neg this, UInt32.toNat_toUInt8]
    have b := mean_le (a1 := a1.toNat) (a2 := a2.toNat) (a3 := a3.toNat) (hm ho) hs hd
    have hle : v.toNat ≤ 255 := by
      rw [d2, q2, q1, p1, p2, p3, ea, ea1]
      exact Nat.div_le_of_le_mul (by rw [Nat.mul_comm _ 255]; exact b)
    omega

theorem bind_of_ok {α β : Type} {x : Res α} {v : α} (h : x = .ok v) (f : α → Res β) : (x >>= f) = f v := by
  rw [h]; rfl

theorem drawNN_exact (m : Mode) (op : UInt32) (hop : op.toNat ≤ 255) (s d : Px) :
    ∃ p, drawNN m op s d = .ok p ∧ Composite m op.toNat s d p := by
  have b8 : ∀ x : UInt8, x.toUInt32.toNat ≤ 255 := by
    intro x; rw [UInt8.toNat_toUInt32]; have := x.toNat_lt; omega
  have e8 : ∀ x : UInt8, x.toUInt32.toNat = x.toNat := fun x => UInt8.toNat_toUInt32 x
  have hsa := b8 s.a
  have hda := b8 d.a
  have K : (32897 : UInt32).toNat = 32897 := rfl
  have K2 : (8388735 : UInt32).toNat = 8388735 := rfl
  have hm := byte_mul hsa hop
  -- the effective alpha
  have eo : (op * 32897).toNat = op.toNat * 32897 := mulU _ _ (by rw [K]; omega)
  have e1 : (s.a.toUInt32 * (op * 32897)).toNat = s.a.toUInt32.toNat * op.toNat * 32897 := by
    rw [mulU _ _ (by rw [eo, ← Nat.mul_assoc]; omega), eo, Nat.mul_assoc]
  have et : (shr (s.a.toUInt32 * (op * 32897)) 23).toNat = s.a.toUInt32.toNat * op.toNat / 255 := by
    rw [shr23, e1, scale_nat _ hm]
  generalize hT : shr (s.a.toUInt32 * (op * 32897)) 23 = T at et
  have hT255 : T.toNat ≤ 255 := by rw [et]; exact mul_div_le255 hsa hop
  have etm : (T * 32897).toNat = T.toNat * 32897 := mulU _ _ (by rw [K]; omega)
  have e255 : (255 - d.a.toUInt32).toNat = 255 - d.a.toUInt32.toNat := sub255 _ hda
  have ew : ∀ x y : UInt32, x.toNat = T.toNat * 32897 ∨ x.toNat = (255 - T.toNat) * 32897 → y.toNat ≤ 255 →
      (shr (x * y) 23).toNat = x.toNat / 32897 * y.toNat / 255 := by
    intro x y hx hy
    have : ∃ k, k ≤ 255 ∧ x.toNat = k * 32897 := by
      rcases hx with h | h
      · exact ⟨_, hT255, h⟩
      · exact ⟨_, by omega, h⟩
    obtain ⟨k, hk, hx⟩ := this
    have hm := byte_mul hk hy
    have hm' : x.toNat * y.toNat = k * y.toNat * 32897 := by rw [hx, Nat.mul_right_comm]
    rw [shr23, mulU _ _ (by omega), hm', scale_nat _ hm, hx, Nat.mul_div_cancel _ (by omega)]
  have esub : (8388735 - T * 32897).toNat = (255 - T.toNat) * 32897 := by
    rw [subU _ _ (by rw [K2, etm]; omega), K2, etm]
    omega
  have w1 := ew (T * 32897) d.a.toUInt32 (.inl etm) hda
  have w2 := ew (T * 32897) (255 - d.a.toUInt32) (.inl etm) (by omega)
  have w3 := ew (8388735 - T * 32897) d.a.toUInt32 (.inr esub) hda
  rw [etm, Nat.mul_div_cancel _ (by omega)] at w1 w2
  rw [esub, Nat.mul_div_cancel _ (by omega)] at w3
  rw [e255] at w2
  have wl := weights_le hT255 hda
  rw [← w1, ← w2, ← w3] at wl
  have ea1 := addU (shr (T * 32897 * d.a.toUInt32) 23) (shr (T * 32897 * (255 - d.a.toUInt32)) 23) (by omega)
  have ea := addU (shr (T * 32897 * d.a.toUInt32) 23 + shr (T * 32897 * (255 - d.a.toUInt32)) 23)
    (shr ((8388735 - T * 32897) * d.a.toUInt32) 23) (by omega)
  unfold drawNN Composite
  simp only [hT]
  rw [← e8 s.a, ← e8 d.a, ← et, ← w1, ← w2, ← w3]
  generalize shr (T * 32897 * d.a.toUInt32) 23 = a1 at *
  generalize shr (T * 32897 * (255 - d.a.toUInt32)) 23 = a2 at *
  generalize shr ((8388735 - T * 32897) * d.a.toUInt32) 23 = a3 at *
  by_cases ht : T.toNat = 0
  · have : T * 32897 = 0 := UInt32.toNat_inj.1 (by rw [etm, ht]; rfl)
    rw [if_pos this]
    exact ⟨d, rfl, by rw [if_pos (.inl ht)]⟩
  · have : ¬ T * 32897 = 0 := fun h => by rw [h] at etm; simp only [n0] at etm; omega
    rw [if_neg this]
    by_cases h0 : a1 + a2 + a3 = 0
    · rw [if_pos h0]
      exact ⟨d, rfl, by rw [if_pos (.inr (by rw [← ea1, ← ea, h0]; rfl))]⟩
    · have hn0 : (a1 + a2 + a3).toNat ≠ 0 := fun h => h0 (UInt32.toNat_inj.1 h)
      rw [if_neg h0]
      have hs : (⟨s.r.toUInt32, s.g.toUInt32, s.b.toUInt32⟩ : RGB UInt32).Byte := ⟨b8 _, b8 _, b8 _⟩
      have hd : (⟨d.r.toUInt32, d.g.toUInt32, d.b.toUInt32⟩ : RGB UInt32).Byte := ⟨b8 _, b8 _, b8 _⟩
      obtain ⟨c, hc, ec⟩ := blend8_exact m _ _ hs hd
      have c510 := blendN_le510 m 
        (s := RGB.nat ⟨s.r.toUInt32, s.g.toUInt32, s.b.toUInt32⟩) (d := RGB.nat ⟨d.r.toUInt32, d.g.toUInt32, d.b.toUInt32⟩) hs hd
      have c255 := fun hm => blendN_le m hm 
        (s := RGB.nat ⟨s.r.toUInt32, s.g.toUInt32, s.b.toUInt32⟩) (d := RGB.nat ⟨d.r.toUInt32, d.g.toUInt32, d.b.toUInt32⟩) hs hd
      rw [← ec] at c510 c255
      obtain ⟨vr, r1, r2⟩ := mean_eq m c.r s.r.toUInt32 d.r.toUInt32 a1 a2 a3 c510.1 (fun h => (c255 h).1) hs.1 hd.1 wl hn0
      obtain ⟨vg, g1, g2⟩ := mean_eq m c.g s.g.toUInt32 d.g.toUInt32 a1 a2 a3 c510.2.1 (fun h => (c255 h).2.1) hs.2.1 hd.2.1 wl hn0
      obtain ⟨vb, b1, b2⟩ := mean_eq m c.b s.b.toUInt32 d.b.toUInt32 a1 a2 a3 c510.2.2 (fun h => (c255 h).2.2) hs.2.2 hd.2.2 wl hn0
      have ecn : blendN m ⟨s.r.toNat, s.g.toNat, s.b.toNat⟩ ⟨d.r.toNat, d.g.toNat, d.b.toNat⟩ = c.nat := by
        rw [ec]
        unfold RGB.nat
        simp only [e8]
      rw [ecn]
      refine ⟨_, (bind_of_ok hc _).trans ((bind_of_ok b1 _).trans ((bind_of_ok g1 _).trans (bind_of_ok r1 _))), ?_⟩
      rw [if_neg (fun h => h.elim ht fun h => hn0 (by rw [ea, ea1]; exact h))]
      simp only [e8] at r2 g2 b2
      refine ⟨?_, r2, g2, b2⟩
      show (a1 + a2 + a3).toUInt8.toNat = _
      rw [UInt32.toNat_toUInt8, ea, ea1]
      exact Nat.mod_eq_of_lt (Nat.lt_of_le_of_lt wl (by decide))

end Psd
