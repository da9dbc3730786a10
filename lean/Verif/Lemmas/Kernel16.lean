import Verif.Lemmas.Chan16
import Verif.Props.PorterDuff

/-
The 16-bit kernels computed exactly.
-/

namespace Psd

def RGB.Word (c : RGB UInt32) : Prop := c.r.toNat ≤ 65535 ∧ c.g.toNat ≤ 65535 ∧ c.b.toNat ≤ 65535

theorem RGB.u32_ints (c : RGB UInt32) : c.ints.u32 = c := by
  unfold RGB.u32 RGB.ints
  dsimp only
  rw [UInt32.ofNat_toNat, UInt32.ofNat_toNat, UInt32.ofNat_toNat]

/-! ### Ranges -/

theorem add_le_mul16 {x y : Nat} (hx : x ≤ 65535) (hy : y ≤ 65535) : x + y ≤ 65535 + x * y / 65535 := by
  obtain ⟨x', hx'⟩ := Nat.exists_eq_add_of_le hx
  have h1 : x' * y ≤ x' * 65535 := Nat.mul_le_mul_left _ hy
  have e : x * y + x' * y = 65535 * y := by rw [← Nat.add_mul, ← hx']
  omega

theorem excl_le {d s : Nat} (hd : d ≤ 65535) (hs : s ≤ 65535) : d + s - d * s / 32768 ≤ 65535 := by
  by_cases h : 32768 ≤ d
  · have := Nat.mul_le_mul_right s h
    omega
  · obtain ⟨d', hd'⟩ := Nat.exists_eq_add_of_le (show d ≤ 32768 by omega)
    have h1 : d' * s ≤ d' * 65535 := Nat.mul_le_mul_left _ hs
    have e : d * s + d' * s = 32768 * s := by rw [← Nat.add_mul, ← hd']
    omega

theorem soft_le {d : Nat} (hd : d ≤ 65535) : (if d < 16384 then softN16 d else sqrtU32.isqrt (d * 65535)) ≤ 65535 := by
  have h := softTmp16_eq (UInt32.ofNat d) (by rw [UInt32.toNat_ofNat_of_lt' (by show _ < 4294967296; omega)]; exact hd)
  rw [UInt32.toNat_ofNat_of_lt' (by show _ < 4294967296; omega)] at h
  rw [← h.1]
  exact h.2.2

/-- The 16-bit formulas stay in range, except `Add`. -/
theorem chanN16_le (m : Sep) (hm : m ≠ .add) {s d : Nat} (hs : s ≤ 65535) (hd : d ≤ 65535) : chanN16 m s d ≤ 65535 := by
  cases m
  case normal => exact hs
  case darken => simp only [chanN16]; omega
  case multiply => have h1 := mul_div16_le (d := d) hs; simp only [chanN16]; omega
  case colorBurn =>
    simp only [chanN16]
    split
    · omega
    · split
      · omega
      · exact Nat.sub_le _ _
  case linearBurn => simp only [chanN16]; omega
  case lighten => simp only [chanN16]; omega
  case screen => have := add_le_mul16 hs hd; simp only [chanN16]; omega
  case colorDodge => simp only [chanN16]; split; omega; split <;> omega
  case linearDodge => simp only [chanN16]; omega
  case add => exact absurd rfl hm
  case overlay =>
    simp only [chanN16]
    split
    · have : s * d ≤ 65535 * 32767 := Nat.mul_le_mul hs (by omega)
      omega
    · omega
  case softLight =>
    simp only [chanN16]
    split
    · omega
    · have hx := soft_le hd
      generalize (if d < 16384 then softN16 d else sqrtU32.isqrt (d * 65535)) = x at hx
      have := mul_div16_le (s := 2 * s - 65535) (d := x - d) (by omega)
      omega
  case hardLight =>
    simp only [chanN16]
    split
    · have : d * s ≤ 65535 * 32767 := Nat.mul_le_mul hd (by omega)
      omega
    · have := add_le_mul16 (x := d) (y := 2 * s - 65535) hd (by omega); omega
  case linearLight => simp only [chanN16]; split <;> omega
  case vividLight =>
    simp only [chanN16]
    split
    · split
      · omega
      · exact Nat.sub_le _ _
    · split <;> omega
  case pinLight => simp only [chanN16]; split <;> omega
  case hardMix =>
    simp only [chanN16]
    generalize (if s < 32768 then _ else _ : Nat) = x
    split <;> omega
  case difference => simp only [chanN16]; split <;> omega
  case exclusion => exact excl_le hd hs
  case subtract => simp only [chanN16]; omega
  case divide => simp only [chanN16]; split; omega; split <;> omega

theorem ints_le (F : FloatLum) (c l : RGB UInt32) : (F.setLum c l).ints.Le 65535 := F.le c l

theorem blendN16_le (F : FloatLum) (m : Mode) (hm : m ≠ .sep .add) {s d : RGB Nat} (hs : s.Le 65535) (hd : d.Le 65535) :
    (blendN16 F m s d).Le 65535 := by
  cases m with
  | sep m =>
    have hm : m ≠ .add := fun h => hm (by rw [h])
    exact ⟨chanN16_le m hm hs.1 hd.1, chanN16_le m hm hs.2.1 hd.2.1, chanN16_le m hm hs.2.2 hd.2.2⟩
  | darkerColor => unfold blendN16; dsimp only; split <;> assumption
  | lighterColor => unfold blendN16; dsimp only; split <;> assumption
  | nonSep m => cases m <;> exact ints_le F _ _

/-! ### Saturation -/

theorem setSat16MMM (mn mid mx s : UInt32) (h1 : mn.toNat ≤ mid.toNat) (h2 : mid.toNat ≤ mx.toNat) (h3 : mx.toNat ≤ 65535)
    (hs : s.toNat ≤ 65535) :
    ∃ x y z, setSatMinMidMax mn mid mx s = .ok (x, y, z) ∧
      x.toNat = (if mn.toNat < mx.toNat then (mn.toNat - mn.toNat) * s.toNat / (mx.toNat - mn.toNat) else 0) ∧
      y.toNat = (if mn.toNat < mx.toNat then (mid.toNat - mn.toNat) * s.toNat / (mx.toNat - mn.toNat) else 0) ∧
      z.toNat = (if mn.toNat < mx.toNat then (mx.toNat - mn.toNat) * s.toNat / (mx.toNat - mn.toNat) else 0) := by
  unfold setSatMinMidMax
  by_cases h : mx > mn
  · have h' : mn.toNat < mx.toNat := ltU.1 h
    rw [if_pos h, if_pos h', if_pos h', if_pos h']
    have e1 := subU mid mn h1
    have e2 := subU mx mn (by omega)
    obtain ⟨d1, d2⟩ := divU32_ok ((mid - mn) * s) (mx - mn) (by omega)
    rw [d1]
    refine ⟨_, _, _, rfl, ?_, ?_, ?_⟩
    · rw [Nat.sub_self, Nat.zero_mul, Nat.zero_div]; rfl
    · rw [d2, mulW _ _ (by omega) hs, e1, e2]
    · rw [Nat.mul_div_cancel_left _ (by omega)]
  · have h' : ¬ mn.toNat < mx.toNat := fun h' => h (ltU.2 h')
    rw [if_neg h, if_neg h', if_neg h', if_neg h']
    exact ⟨_, _, _, rfl, rfl, rfl, rfl⟩

theorem setSat16_eq (c : RGB UInt32) (hc : c.Word) (s : UInt32) (hs : s.toNat ≤ 65535) :
    ∃ v, setSat c s = .ok v ∧ v.ints = setSatN c.ints s.toNat := by
  obtain ⟨hr, hg, hb⟩ := hc
  have key : ∀ lo hi : Nat, c.ints.lo = lo → c.ints.hi = hi → setSatN c.ints s.toNat =
      ⟨if lo < hi then (c.r.toNat - lo) * s.toNat / (hi - lo) else 0,
       if lo < hi then (c.g.toNat - lo) * s.toNat / (hi - lo) else 0,
       if lo < hi then (c.b.toNat - lo) * s.toNat / (hi - lo) else 0⟩ := by
    rintro lo hi rfl rfl; rfl
  unfold setSat
  simp only [leU]
  unfold RGB.lo RGB.hi RGB.ints at key
  dsimp only at key
  repeat' split
  · obtain ⟨x, y, z, e, e1, e2, e3⟩ := setSat16MMM c.r c.g c.b s (by omega) (by omega) (by omega) hs
    refine ⟨⟨x, y, z⟩, by rw [e]; rfl, Eq.trans ?_ (key c.r.toNat c.b.toNat (by omega) (by omega)).symm⟩
    rw [← e1, ← e2, ← e3]
    rfl
  · obtain ⟨x, y, z, e, e1, e2, e3⟩ := setSat16MMM c.r c.b c.g s (by omega) (by omega) (by omega) hs
    refine ⟨⟨x, z, y⟩, by rw [e]; rfl, Eq.trans ?_ (key c.r.toNat c.g.toNat (by omega) (by omega)).symm⟩
    rw [← e1, ← e2, ← e3]
    rfl
  · obtain ⟨x, y, z, e, e1, e2, e3⟩ := setSat16MMM c.b c.r c.g s (by omega) (by omega) (by omega) hs
    refine ⟨⟨y, z, x⟩, by rw [e]; rfl, Eq.trans ?_ (key c.b.toNat c.g.toNat (by omega) (by omega)).symm⟩
    rw [← e1, ← e2, ← e3]
    rfl
  · obtain ⟨x, y, z, e, e1, e2, e3⟩ := setSat16MMM c.g c.r c.b s (by omega) (by omega) (by omega) hs
    refine ⟨⟨y, x, z⟩, by rw [e]; rfl, Eq.trans ?_ (key c.g.toNat c.b.toNat (by omega) (by omega)).symm⟩
    rw [← e1, ← e2, ← e3]
    rfl
  · obtain ⟨x, y, z, e, e1, e2, e3⟩ := setSat16MMM c.g c.b c.r s (by omega) (by omega) (by omega) hs
    refine ⟨⟨z, x, y⟩, by rw [e]; rfl, Eq.trans ?_ (key c.g.toNat c.r.toNat (by omega) (by omega)).symm⟩
    rw [← e1, ← e2, ← e3]
    rfl
  · obtain ⟨x, y, z, e, e1, e2, e3⟩ := setSat16MMM c.b c.g c.r s (by omega) (by omega) (by omega) hs
    refine ⟨⟨z, y, x⟩, by rw [e]; rfl, Eq.trans ?_ (key c.b.toNat c.r.toNat (by omega) (by omega)).symm⟩
    rw [← e1, ← e2, ← e3]
    rfl

theorem sat16_le (c : RGB UInt32) (hc : c.Word) : (sat c).toNat ≤ 65535 ∧ (sat c).toNat = c.ints.hi - c.ints.lo := by
  have h := sat_eq c
  refine ⟨?_, h⟩
  rw [h]
  have := hc.1; have := hc.2.1; have := hc.2.2
  unfold RGB.hi RGB.nat
  dsimp only
  omega

theorem lt_lum16 (a b : RGB UInt32) : (lum16 a < lum16 b) ↔ lumN16 a.ints < lumN16 b.ints := by
  unfold lum16 lumN16 RGB.ints
  dsimp only
  omega

theorem blend16_exact (F : FloatLum) (m : Mode) (s d : RGB UInt32) (hs : s.Word) (hd : d.Word) :
    ∃ c, blend16 F m s d = .ok c ∧ c.ints = blendN16 F m s.ints d.ints := by
  cases m with
  | sep m =>
    obtain ⟨r, hr, er⟩ := chan16_exact m s.r d.r hs.1 hd.1
    obtain ⟨g, hg, eg⟩ := chan16_exact m s.g d.g hs.2.1 hd.2.1
    obtain ⟨b, hb, eb⟩ := chan16_exact m s.b d.b hs.2.2 hd.2.2
    refine ⟨⟨r, g, b⟩, (bind_of_ok hr _).trans ((bind_of_ok hg _).trans (bind_of_ok hb _)), ?_⟩
    unfold RGB.ints blendN16
    dsimp only
    rw [er, eg, eb]
  | darkerColor =>
    refine ⟨_, rfl, ?_⟩
    unfold blendN16
    simp only [lt_lum16 s d]
    split <;> rfl
  | lighterColor =>
    refine ⟨_, rfl, ?_⟩
    unfold blendN16
    simp only [gt_iff_lt, lt_lum16 d s]
    split <;> rfl
  | nonSep m =>
    cases m with
    | hue =>
      obtain ⟨b1, b2⟩ := sat16_le d hd
      obtain ⟨c, h1, e1⟩ := setSat16_eq s hs (sat d) b1
      refine ⟨_, bind_of_ok h1 _, ?_⟩
      unfold blendN16
      dsimp only
      rw [← b2, ← e1, RGB.u32_ints, RGB.u32_ints]
    | saturation =>
      obtain ⟨b1, b2⟩ := sat16_le s hs
      obtain ⟨c, h1, e1⟩ := setSat16_eq d hd (sat s) b1
      refine ⟨_, bind_of_ok h1 _, ?_⟩
      unfold blendN16
      dsimp only
      rw [← b2, ← e1, RGB.u32_ints, RGB.u32_ints]
    | color =>
      refine ⟨_, rfl, ?_⟩
      unfold blendN16
      dsimp only
      rw [RGB.u32_ints, RGB.u32_ints]
    | luminosity =>
      refine ⟨_, rfl, ?_⟩
      unfold blendN16
      dsimp only
      rw [RGB.u32_ints, RGB.u32_ints]

/-! ### One pixel -/

theorem straight16_exact (v : RGBA32) (hv : Premultiplied v) :
    ∃ c, straight16 v = .ok c ∧ c.Word ∧
      c.ints = ⟨straight v.r.toNat v.a.toNat, straight v.g.toNat v.a.toNat, straight v.b.toNat v.a.toNat⟩ := by
  obtain ⟨ha, hr, hg, hb⟩ := hv
  unfold straight16
  split
  · rename_i h
    have e : v.a.toNat = 0 := by rw [h]; rfl
    refine ⟨_, rfl, ⟨Nat.zero_le _, Nat.zero_le _, Nat.zero_le _⟩, ?_⟩
    unfold straight
    rw [e, Nat.div_zero, Nat.div_zero, Nat.div_zero]
    rfl
  · rename_i h
    have h0 : 0 < v.a.toNat := Nat.pos_of_ne_zero fun e => h (UInt32.toNat_inj.1 e)
    split
    · obtain ⟨b, e1, q1, l1⟩ := unpremul v.b v.a h0 ha hb
      obtain ⟨g, e2, q2, l2⟩ := unpremul v.g v.a h0 ha hg
      obtain ⟨r, e3, q3, l3⟩ := unpremul v.r v.a h0 ha hr
      refine ⟨⟨r, g, b⟩, (bind_of_ok e3 _).trans ((bind_of_ok e2 _).trans (bind_of_ok e1 _)), ⟨l3, l2, l1⟩, ?_⟩
      unfold straight RGB.ints
      dsimp only
      rw [q1, q2, q3]
    · rename_i h'
      have e : v.a.toNat = 65535 := by
        have : ¬ v.a.toNat < 65535 := fun h'' => h' (UInt32.lt_iff_toNat_lt.2 h'')
        omega
      rw [e] at hr hg hb
      refine ⟨_, rfl, ⟨hr, hg, hb⟩, ?_⟩
      unfold straight
      rw [e, Nat.mul_div_cancel _ (by decide), Nat.mul_div_cancel _ (by decide), Nat.mul_div_cancel _ (by decide)]
      rfl

theorem widen_premul (p : Px) (h : p.Valid .rgba) : Premultiplied (widen p) := (readPx_means .rgba p h).2

theorem colour16_exact (k : PixKind) (p : Px) (hp : p.Valid k) :
    ∃ c, colour16 k (widen p) = .ok c ∧ c.Word ∧ c.ints = p.colour k := by
  have wr : (widen p).r.toNat = p.r.toNat * 257 := wide8 _
  have wg : (widen p).g.toNat = p.g.toNat * 257 := wide8 _
  have wb : (widen p).b.toNat = p.b.toNat * 257 := wide8 _
  have wa : (widen p).a.toNat = p.a.toNat * 257 := wide8 _
  cases k with
  | rgba =>
    obtain ⟨c, h1, h2, h3⟩ := straight16_exact _ (widen_premul p hp)
    rw [wr, wg, wb, wa] at h3
    exact ⟨c, h1, h2, h3⟩
  | nrgba =>
    refine ⟨_, rfl, ⟨widen_bound _, widen_bound _, widen_bound _⟩, ?_⟩
    unfold RGB.ints Px.colour
    dsimp only
    rw [wr, wg, wb]

theorem scale16_le' {x a : Nat} (ha : a ≤ 65535) : scale16 x a ≤ x := by
  unfold scale16
  have := Nat.mul_le_mul_left x ha
  omega

/-- The weights never exceed the scale. -/
theorem alpha16_le {t da : Nat} (ht : t ≤ 65535) (hda : da ≤ 65535) : alpha16 t da ≤ 65535 := by
  unfold alpha16 weight1 weight2 weight3 scale16
  have h1 : t * da + t * (65535 - da) = t * 65535 := by rw [← Nat.mul_add]; congr 1; omega
  have h2 : (65535 - t) * da ≤ (65535 - t) * 65535 := Nat.mul_le_mul_left _ hda
  omega

/-- The weighted sum of a channel as the code computes it. -/
theorem sum16 (c s d a1 a2 a3 : UInt32)
    (h : c.toNat * a1.toNat + s.toNat * a2.toNat + d.toNat * a3.toNat < 4294967296) :
    (c * a1 + s * a2 + d * a3).toNat = c.toNat * a1.toNat + s.toNat * a2.toNat + d.toNat * a3.toNat := by
  have p1 : (c * a1).toNat = c.toNat * a1.toNat := mulU _ _ (by omega)
  have p2 : (s * a2).toNat = s.toNat * a2.toNat := mulU _ _ (by omega)
  have p3 : (d * a3).toNat = d.toNat * a3.toNat := mulU _ _ (by omega)
  have q1 := addU (c * a1) (s * a2) (by omega)
  have q2 := addU (c * a1 + s * a2) (d * a3) (by omega)
  omega

/-- One stored channel. -/
theorem store16 (m : Mode) (c s d a1 a2 a3 k : UInt32) (hc : m ≠ .sep .add → c.toNat ≤ 65535) (hs : s.toNat ≤ 65535)
    (hd : d.toNat ≤ 65535) (hk : a1.toNat + a2.toNat + a3.toNat ≤ k.toNat)
    (k0 : 0 < k.toNat) (hsum : c.toNat * a1.toNat + s.toNat * a2.toNat + d.toNat * a3.toNat < 4294967296) :
    ∃ v, divU32 (c * a1 + s * a2 + d * a3) k = .ok v ∧
      (if m.overMax then hi8 (clip16 v) else hi8 v).toNat =
        min 65535 ((c.toNat * a1.toNat + s.toNat * a2.toNat + d.toNat * a3.toNat) / k.toNat) / 256 := by
  obtain ⟨d1, d2⟩ := divU32_ok (c * a1 + s * a2 + d * a3) k k0
  refine ⟨_, d1, ?_⟩
  rw [sum16 c s d a1 a2 a3 hsum] at d2
  rw [← d2]
  generalize (c * a1 + s * a2 + d * a3) / k = v at d2 ⊢
  by_cases ho : m = .sep .add
  · have : m.overMax = true := by unfold Mode.overMax; exact decide_eq_true ho
    rw [if_pos this, hi8_toNat _ (by rw [clip16_toNat]; omega), clip16_toNat, Nat.min_comm]
  · have : ¬ m.overMax = true := by unfold Mode.overMax; simpa using ho
    have b := mean_le (a1 := a1.toNat) (a2 := a2.toNat) (a3 := a3.toNat) (hc ho) hs hd
    have hle : v.toNat ≤ 65535 := by
      rw [d2]
      refine Nat.div_le_of_le_mul (Nat.le_trans b ?_)
      rw [Nat.mul_comm]
      exact Nat.mul_le_mul_right _ hk
    rw [if_neg this, hi8_toNat _ hle, Nat.min_eq_right hle]

/-- The weighted sums fit in 32 bits, except in `Add`. -/
theorem mixed_lt {c s d a1 a2 a3 : Nat} (hc : c ≤ 65535) (hs : s ≤ 65535) (hd : d ≤ 65535) (h1 : a1 + a2 + a3 ≤ 65535) :
    c * a1 + s * a2 + d * a3 < 4294967296 := by
  have b := mean_le (a1 := a1) (a2 := a2) (a3 := a3) hc hs hd
  have := Nat.mul_le_mul_left 65535 h1
  omega

theorem colour_le (k : PixKind) (p : Px) (hp : p.Valid k) : (p.colour k).Le 65535 := by
  obtain ⟨c, _, h2, h3⟩ := colour16_exact k p hp
  rw [← h3]
  exact h2

/-- The three weights as the code computes them. -/
theorem weights16 (T D : UInt32) (ht : T.toNat ≤ 65535) (hd : D.toNat ≤ 65535) :
    (T * D / 0xffff).toNat = weight1 T.toNat D.toNat ∧ (T * (0xffff - D) / 0xffff).toNat = weight2 T.toNat D.toNat ∧
    ((0xffff - T) * D / 0xffff).toNat = weight3 T.toNat D.toNat ∧
    (T * D / 0xffff + T * (0xffff - D) / 0xffff + (0xffff - T) * D / 0xffff).toNat = alpha16 T.toNat D.toNat := by
  have cd := compl16 D hd
  have ct := compl16 T ht
  have h1 := scaleU16 T D ht hd
  have h2 := scaleU16 T (0xffff - D) ht (by omega)
  have h3 := scaleU16 (0xffff - T) D (by omega) hd
  rw [cd] at h2
  rw [ct] at h3
  have hl := alpha16_le ht hd
  refine ⟨h1, h2, h3, ?_⟩
  unfold alpha16 weight1 weight2 weight3 at hl ⊢
  rw [addU _ _ (by rw [addU _ _ (by omega)]; omega), addU _ _ (by omega), h1, h2, h3]

theorem draw16_exact (F : FloatLum) (m : Mode) (sk dk : PixKind) (op : UInt32) (hop : op.toNat ≤ 255) (s d : Px)
    (hs : s.Valid sk) (hd : d.Valid dk)
    (hadd : m = .sep .add → (sums16 F m sk dk op.toNat s d).Le 4294967295) :
    ∃ p, draw16 F m sk dk op s d = .ok p ∧ Composite16 F m sk dk op.toNat s d p := by
  have wsa : (widen s).a.toNat = s.a.toNat * 257 := wide8 _
  have wda : (widen d).a.toNat = d.a.toNat * 257 := wide8 _
  have bsa : (widen s).a.toNat ≤ 65535 := widen_bound _
  have bda : (widen d).a.toNat ≤ 65535 := widen_bound _
  have eo : (op * 0x0101).toNat = op.toNat * 257 := mulU _ _ (by rw [show (0x0101 : UInt32).toNat = 257 from rfl]; omega)
  have et : ((widen s).a * (op * 0x0101) / 0xffff).toNat = effective s op.toNat := by
    rw [scaleU16 _ _ bsa (by rw [eo]; omega), wsa, eo]
    rfl
  have bt : effective s op.toNat ≤ 65535 := by
    unfold effective
    exact Nat.le_trans (scale16_le (by omega)) (by omega)
  unfold draw16 Composite16
  simp only
  generalize (widen s).a * (op * 0x0101) / 0xffff = T at et
  unfold sums16 at hadd ⊢
  rw [← wda, ← et] at hadd ⊢
  rw [← et] at bt
  generalize (widen d).a = D at *
  obtain ⟨w1, w2, w3, wa⟩ := weights16 T D bt bda
  have wl := alpha16_le bt bda
  by_cases ht : T = 0
  · rw [if_pos ht]
    exact ⟨d, rfl, by rw [if_pos (.inl (by rw [ht]; rfl))]⟩
  · have ht' : T.toNat ≠ 0 := fun h => ht (UInt32.toNat_inj.1 h)
    rw [if_neg ht]
    by_cases h0 : T * D / 0xffff + T * (0xffff - D) / 0xffff + (0xffff - T) * D / 0xffff = 0
    · rw [if_pos h0]
      refine ⟨d, rfl, by rw [if_pos (.inr (by rw [← wa, h0]; rfl))]⟩
    · have h0' : alpha16 T.toNat D.toNat ≠ 0 := fun h => h0 (UInt32.toNat_inj.1 (by rw [wa, h]; rfl))
      rw [if_neg h0]
      simp only [if_neg (show ¬ (T.toNat = 0 ∨ alpha16 T.toNat D.toNat = 0) from fun h => h.elim ht' h0')]
      obtain ⟨S, hS, bS, eS⟩ := colour16_exact sk s hs
      obtain ⟨Q, hQ, bQ, eQ⟩ := colour16_exact dk d hd
      obtain ⟨c, hc, ec⟩ := blend16_exact F m S Q bS bQ
      have hle : m ≠ .sep .add → c.ints.Le 65535 := fun hm => by rw [ec]; exact blendN16_le F m hm bS bQ
      rw [← eS, ← eQ, ← ec] at hadd ⊢
      unfold alpha16 at wl wa h0' ⊢
      rw [← w1, ← w2, ← w3] at wl wa h0'
      have hm : ∀ x y z : UInt32, mixed T.toNat D.toNat x.toNat y.toNat z.toNat =
          x.toNat * (T * D / 0xffff).toNat + y.toNat * (T * (0xffff - D) / 0xffff).toNat +
            z.toNat * ((0xffff - T) * D / 0xffff).toNat := fun x y z => by
        rw [w1, w2, w3]; rfl
      have hM : mixedRGB T.toNat D.toNat c.ints S.ints Q.ints =
          ⟨mixed T.toNat D.toNat c.r.toNat S.r.toNat Q.r.toNat, mixed T.toNat D.toNat c.g.toNat S.g.toNat Q.g.toNat,
           mixed T.toNat D.toNat c.b.toNat S.b.toNat Q.b.toNat⟩ := rfl
      rw [hM, hm, hm, hm] at hadd ⊢
      rw [← w1, ← w2, ← w3]
      generalize T * D / 0xffff = a1 at *
      generalize T * (0xffff - D) / 0xffff = a2 at *
      generalize (0xffff - T) * D / 0xffff = a3 at *
      have lim : ∀ x y z : UInt32, (m ≠ .sep .add → x.toNat ≤ 65535) → y.toNat ≤ 65535 → z.toNat ≤ 65535 →
          (m = .sep .add → x.toNat * a1.toNat + y.toNat * a2.toNat + z.toNat * a3.toNat ≤ 4294967295) →
          x.toNat * a1.toNat + y.toNat * a2.toNat + z.toNat * a3.toNat < 4294967296 := by
        intro x y z hx hy hz ha
        by_cases hm : m = .sep .add
        · have := ha hm; omega
        · exact mixed_lt (hx hm) hy hz wl
      obtain ⟨hk2, hk3⟩ : a1.toNat + a2.toNat + a3.toNat ≤ (divisor16 dk (a1 + a2 + a3)).toNat ∧
          divN16 dk (a1.toNat + a2.toNat + a3.toNat) = (divisor16 dk (a1 + a2 + a3)).toNat := by
        cases dk with
        | rgba => exact ⟨wl, rfl⟩
        | nrgba => exact ⟨Nat.le_of_eq wa.symm, wa.symm⟩
      rw [hk3]
      generalize divisor16 dk (a1 + a2 + a3) = k at *
      have k0 : 0 < k.toNat := by omega
      obtain ⟨vr, r1, r2⟩ := store16 m c.r S.r Q.r a1 a2 a3 k (fun h => (hle h).1) bS.1 bQ.1 hk2 k0
        (lim _ _ _ (fun h => (hle h).1) bS.1 bQ.1 (fun h => (hadd h).1))
      obtain ⟨vg, g1, g2⟩ := store16 m c.g S.g Q.g a1 a2 a3 k (fun h => (hle h).2.1) bS.2.1 bQ.2.1 hk2 k0
        (lim _ _ _ (fun h => (hle h).2.1) bS.2.1 bQ.2.1 (fun h => (hadd h).2.1))
      obtain ⟨vb, b1, b2⟩ := store16 m c.b S.b Q.b a1 a2 a3 k (fun h => (hle h).2.2) bS.2.2 bQ.2.2 hk2 k0
        (lim _ _ _ (fun h => (hle h).2.2) bS.2.2 bQ.2.2 (fun h => (hadd h).2.2))
      refine ⟨_, (bind_of_ok hS _).trans ((bind_of_ok hQ _).trans ((bind_of_ok hc _).trans ((bind_of_ok b1 _).trans
        ((bind_of_ok g1 _).trans (bind_of_ok r1 _))))), ?_, r2, g2, b2⟩
      show (hi8 (a1 + a2 + a3)).toNat = _
      rw [hi8_toNat _ (by omega), wa]

end Psd
