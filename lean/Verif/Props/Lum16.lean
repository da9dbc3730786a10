import Verif.Lemmas.Lum16
import Verif.Props.Luminosity

/-
C114 on the 16-bit scale, where the luminosity is set in floating point: RGBA images, and images of other types.
-/

namespace Psd

/-- The luminosity of a pixel on the 8-bit scale, times 65536. -/
def Px.luminosity16 (p : Px) : Nat := 19661 * p.r.toNat + 38666 * p.g.toNat + 7209 * p.b.toNat

theorem setSatN_le16 {c : RGB Nat} {s : Nat} (hs : s ≤ 65535) : (setSatN c s).Le 65535 := by
  have key : ∀ v, v ≤ c.hi → (if c.lo < c.hi then (v - c.lo) * s / (c.hi - c.lo) else 0) ≤ 65535 := by
    intro v hv
    split
    · rename_i h
      apply Nat.div_le_of_le_mul
      exact Nat.mul_le_mul (by omega) hs
    · omega
  exact ⟨key _ (by unfold RGB.hi; omega), key _ (by unfold RGB.hi; omega), key _ (by unfold RGB.hi; omega)⟩

theorem base_le16 (m : NonSep) {s d : RGB Nat} (hs : s.Le 65535) (hd : d.Le 65535) : (m.base s d).Le 65535 := by
  cases m with
  | hue => exact setSatN_le16 (by have := hd.1; have := hd.2.1; have := hd.2.2; unfold RGB.hi; omega)
  | saturation => exact setSatN_le16 (by have := hs.1; have := hs.2.1; have := hs.2.2; unfold RGB.hi; omega)
  | color => exact hs
  | luminosity => exact hd

theorem ints_u32 {c : RGB Nat} (h : c.Le 65535) : c.u32.ints = c := by
  obtain ⟨h1, h2, h3⟩ := h
  have k : ∀ n : Nat, n ≤ 65535 → (UInt32.ofNat n).toNat = n := fun n hn => by
    rw [UInt32.toNat_ofNat']
    omega
  unfold RGB.u32 RGB.ints
  simp only [k _ h1, k _ h2, k _ h3]

theorem wide_le (p : Px) : (⟨p.r.toNat * 257, p.g.toNat * 257, p.b.toNat * 257⟩ : RGB Nat).Le 65535 := by
  have h1 := p.r.toNat_lt
  have h2 := p.g.toNat_lt
  have h3 := p.b.toNat_lt
  refine ⟨?_, ?_, ?_⟩ <;> simp only <;> omega

/-- The colour whose luminosity a mode keeps. -/
def NonSep.kept (m : NonSep) (s d : RGB Nat) : RGB Nat :=
  match m with
  | .luminosity => s
  | _ => d

/-- The blended colour of a non-separable mode has the luminosity the mode keeps, rounded down by at most one level of 65535. -/
theorem nonSep16_lum (m : NonSep) {s d : RGB Nat} (hs : s.Le 65535) (hd : d.Le 65535) :
    lumN16 (blendN16 float64Lum (.nonSep m) s d) ≤ lumN16 (m.kept s d) ∧ lumN16 (m.kept s d) ≤ lumN16 (blendN16 float64Lum (.nonSep m) s d) + 65536 := by
  have hb := base_le16 m hs hd
  have hk : (m.kept s d).Le 65535 := by cases m <;> assumption
  have e : blendN16 float64Lum (.nonSep m) s d = (setLum16 (m.base s d).u32 (m.kept s d).u32).ints := by cases m <;> rfl
  have := setLum16_lum (m.base s d).u32 (m.kept s d).u32 (by rw [ints_u32 hb]; exact hb) (by rw [ints_u32 hk]; exact hk)
  rw [ints_u32 hk] at this
  rw [e]
  exact this

/-- **C114** on RGBA images: hue, saturation and colour keep the luminosity of the backdrop, luminosity takes that of the source, up to one
level. -/
theorem C114_luminosity_kept_rgba (m : NonSep) (sk dk : PixKind) (s d p : Px) (hs : s.a = 255) (hd : d.a = 255)
    (h : draw16 float64Lum (.nonSep m) sk dk (255 : UInt8).toUInt32 s d = .ok p) :
    p.luminosity16 ≤ (m.keeps s d).luminosity16 + 65536 ∧ (m.keeps s d).luminosity16 ≤ p.luminosity16 + 65536 := by
  obtain ⟨q, hq, _, hr, hg, hb⟩ := full16 float64Lum (.nonSep m) (by simp) sk dk s d hs hd
  rw [h] at hq
  cases hq
  have ls : (⟨s.r.toNat * 257, s.g.toNat * 257, s.b.toNat * 257⟩ : RGB Nat).Le 65535 := wide_le s
  have ld : (⟨d.r.toNat * 257, d.g.toNat * 257, d.b.toNat * 257⟩ : RGB Nat).Le 65535 := wide_le d
  have hl := nonSep16_lum m ls ld
  have hle := blendN16_le float64Lum (.nonSep m) (by simp) ls ld
  have ek : lumN16 (m.kept ⟨s.r.toNat * 257, s.g.toNat * 257, s.b.toNat * 257⟩ ⟨d.r.toNat * 257, d.g.toNat * 257, d.b.toNat * 257⟩) = (m.keeps s d).luminosity16 * 257 := by
    unfold lumN16 Px.luminosity16
    cases m <;> simp only [NonSep.kept, NonSep.keeps] <;> omega
  rw [ek] at hl
  have bk : (m.keeps s d).luminosity16 ≤ 255 * 65536 := by
    have h1 := (m.keeps s d).r.toNat_lt
    have h2 := (m.keeps s d).g.toNat_lt
    have h3 := (m.keeps s d).b.toNat_lt
    unfold Px.luminosity16
    omega
  generalize blendN16 float64Lum (.nonSep m) ⟨s.r.toNat * 257, s.g.toNat * 257, s.b.toNat * 257⟩ ⟨d.r.toNat * 257, d.g.toNat * 257, d.b.toNat * 257⟩ = c at *
  obtain ⟨l1, l2, l3⟩ := hle
  generalize (m.keeps s d).luminosity16 = k at *
  unfold lumN16 at hl
  unfold Px.luminosity16
  omega

/-- **C114** on RGBA images, with any source and any opacity over an opaque backdrop: hue, saturation and colour keep the luminosity, up to 257 / 256 levels. -/
theorem C114_luminosity_kept_any_opacity (m : NonSep) (hm : m ≠ .luminosity) (sk dk : PixKind) (op : UInt8) (s d p : Px) (hs : s.Valid sk) (hd : d.a = 255)
    (h : draw16 float64Lum (.nonSep m) sk dk op.toUInt32 s d = .ok p) :
    p.luminosity16 ≤ d.luminosity16 + 65536 ∧ d.luminosity16 ≤ p.luminosity16 + 257 * 256 := by
  obtain ⟨ht, q, hq, _, hr, hg, hb⟩ := over_opaque16 float64Lum (.nonSep m) sk dk op s d hs hd (by simp)
  rw [h] at hq
  cases hq
  have ls := colour_le sk s hs
  have ld : (⟨d.r.toNat * 257, d.g.toNat * 257, d.b.toNat * 257⟩ : RGB Nat).Le 65535 := wide_le d
  have hl := nonSep16_lum m ls ld
  have hle := blendN16_le float64Lum (.nonSep m) (by simp) ls ld
  have ek : lumN16 (m.kept (s.colour sk) ⟨d.r.toNat * 257, d.g.toNat * 257, d.b.toNat * 257⟩) = d.luminosity16 * 257 := by
    unfold lumN16 Px.luminosity16
    cases m <;> first | exact absurd rfl hm | (simp only [NonSep.kept]; omega)
  rw [ek] at hl
  have bk : d.luminosity16 ≤ 255 * 65536 := by
    have h1 := d.r.toNat_lt
    have h2 := d.g.toNat_lt
    have h3 := d.b.toNat_lt
    unfold Px.luminosity16
    omega
  generalize effective s op.toNat = t at *
  generalize blendN16 float64Lum (.nonSep m) (s.colour sk) ⟨d.r.toNat * 257, d.g.toNat * 257, d.b.toNat * 257⟩ = c at *
  obtain ⟨l1, l2, l3⟩ := hle
  obtain ⟨d1, d2, d3⟩ := ld
  simp only at d1 d2 d3
  -- the mixed channels, without the division
  have mix : ∀ a b : Nat, a ≤ 65535 → b ≤ 65535 → mixOpaque 65535 t a b * 65535 ≤ a * t + b * (65535 - t) ∧
      a * t + b * (65535 - t) < mixOpaque 65535 t a b * 65535 + 65535 := by
    intro a b ha hb
    unfold mixOpaque
    have : a * t + b * (65535 - t) ≤ 65535 * 65535 := by
      have h1 : a * t ≤ 65535 * t := Nat.mul_le_mul_right _ ha
      have h2 : b * (65535 - t) ≤ 65535 * (65535 - t) := Nat.mul_le_mul_right _ hb
      have h3 : 65535 * t + 65535 * (65535 - t) = 65535 * 65535 := by rw [← Nat.mul_add]; congr 1; omega
      omega
    generalize a * t + b * (65535 - t) = v at *
    omega
  obtain ⟨r1, r2⟩ := mix c.r (d.r.toNat * 257) l1 d1
  obtain ⟨g1, g2⟩ := mix c.g (d.g.toNat * 257) l2 d2
  obtain ⟨b1, b2⟩ := mix c.b (d.b.toNat * 257) l3 d3
  generalize mixOpaque 65535 t c.r (d.r.toNat * 257) = xr at *
  generalize mixOpaque 65535 t c.g (d.g.toNat * 257) = xg at *
  generalize mixOpaque 65535 t c.b (d.b.toNat * 257) = xb at *
  obtain ⟨u, hu⟩ : ∃ u, u = 65535 - t := ⟨_, rfl⟩
  rw [← hu] at r1 r2 g1 g2 b1 b2
  have e1 : 19661 * (c.r * t + d.r.toNat * 257 * u) + 38666 * (c.g * t + d.g.toNat * 257 * u) + 7209 * (c.b * t + d.b.toNat * 257 * u) =
      lumN16 c * t + d.luminosity16 * 257 * u := by
    unfold lumN16 Px.luminosity16
    ring
  have t1 : lumN16 c * t ≤ d.luminosity16 * 257 * t := Nat.mul_le_mul_right _ hl.1
  have t2 : d.luminosity16 * 257 * t ≤ lumN16 c * t + 65536 * t := by
    rw [← Nat.add_mul]
    exact Nat.mul_le_mul_right _ hl.2
  have e2 : d.luminosity16 * 257 * t + d.luminosity16 * 257 * u = d.luminosity16 * 257 * 65535 := by
    rw [← Nat.mul_add]
    congr 1
    omega
  generalize c.r * t + d.r.toNat * 257 * u = vr at *
  generalize c.g * t + d.g.toNat * 257 * u = vg at *
  generalize c.b * t + d.b.toNat * 257 * u = vb at *
  generalize lumN16 c * t = z at *
  generalize d.luminosity16 = k at *
  generalize k * 257 * t = y1 at *
  generalize k * 257 * u = y2 at *
  unfold Px.luminosity16
  omega

/-- What a non-separable mode makes of a grey base. -/
theorem nonSep16_grey (m : NonSep) {s d : RGB Nat} (hs : s.Le 65535) (hd : d.Le 65535) {v : Nat} (hv : m.base s d = ⟨v, v, v⟩) :
    blendN16 float64Lum (.nonSep m) s d = ⟨lumN16 (m.kept s d) / 65536, lumN16 (m.kept s d) / 65536, lumN16 (m.kept s d) / 65536⟩ := by
  have hb := base_le16 m hs hd
  rw [hv] at hb
  have hk : (m.kept s d).Le 65535 := by cases m <;> assumption
  have e : blendN16 float64Lum (.nonSep m) s d = (setLum16 (m.base s d).u32 (m.kept s d).u32).ints := by cases m <;> rfl
  have ev : (UInt32.ofNat v).toNat ≤ 65535 := by
    have := hb.1
    simp only at this
    rw [UInt32.toNat_ofNat']
    omega
  rw [e, hv]
  unfold RGB.u32 at *
  rw [setLum16_grey _ ev _ (by have := hk; rw [← ints_u32 hk] at this; exact this)]
  rw [show RGB.ints ⟨UInt32.ofNat (m.kept s d).r, UInt32.ofNat (m.kept s d).g, UInt32.ofNat (m.kept s d).b⟩ = m.kept s d from ints_u32 hk]
  have := lumN16_le hk
  have en : (UInt32.ofNat (lumN16 (m.kept s d) / 65536)).toNat = lumN16 (m.kept s d) / 65536 := by
    rw [UInt32.toNat_ofNat']
    omega
  unfold RGB.ints
  rw [en]

/-- The grey of the luminosity of a pixel: it is the pixel's own if it is grey. -/
def Px.grey16 (p : Px) : UInt8 := UInt8.ofNat (p.luminosity16 * 257 / 16777216)

theorem grey16_of_grey (p : Px) (h : p.Grey) : p.grey16 = p.r := by
  obtain ⟨h1, h2⟩ := h
  have h3 := p.r.toNat_lt
  unfold Px.grey16 Px.luminosity16
  rw [← h2, ← h1]
  apply UInt8.toNat_inj.1
  rw [UInt8.toNat_ofNat', Nat.mod_eq_of_lt (by omega)]
  omega

theorem grey_kept (m : NonSep) (sk dk : PixKind) (s d : Px) (hs : s.a = 255) (hd : d.a = 255) {v : Nat}
    (hv : m.base ⟨s.r.toNat * 257, s.g.toNat * 257, s.b.toNat * 257⟩ ⟨d.r.toNat * 257, d.g.toNat * 257, d.b.toNat * 257⟩ = ⟨v, v, v⟩) :
    draw16 float64Lum (.nonSep m) sk dk (255 : UInt8).toUInt32 s d = .ok ⟨(m.keeps s d).grey16, (m.keeps s d).grey16, (m.keeps s d).grey16, 255⟩ := by
  obtain ⟨p, hp, ha, hr, hg, hb⟩ := full16 float64Lum (.nonSep m) (by simp) sk dk s d hs hd
  rw [nonSep16_grey m (wide_le s) (wide_le d) hv] at hr hg hb
  have ek : lumN16 (m.kept ⟨s.r.toNat * 257, s.g.toNat * 257, s.b.toNat * 257⟩ ⟨d.r.toNat * 257, d.g.toNat * 257, d.b.toNat * 257⟩) = (m.keeps s d).luminosity16 * 257 := by
    unfold lumN16 Px.luminosity16
    cases m <;> simp only [NonSep.kept, NonSep.keeps] <;> omega
  have bk : (m.keeps s d).luminosity16 ≤ 255 * 65536 := by
    have h1 := (m.keeps s d).r.toNat_lt
    have h2 := (m.keeps s d).g.toNat_lt
    have h3 := (m.keeps s d).b.toNat_lt
    unfold Px.luminosity16
    omega
  rw [ek] at hr hg hb
  simp only at hr hg hb
  have en : (m.keeps s d).grey16.toNat = min 65535 ((m.keeps s d).luminosity16 * 257 / 65536) / 256 := by
    unfold Px.grey16
    rw [UInt8.toNat_ofNat', Nat.mod_eq_of_lt (by omega)]
    omega
  rw [hp]
  congr 1
  apply px_ext
  · rw [hr, en]
  · rw [hg, en]
  · rw [hb, en]
  · rw [ha]

/-- **C114** on RGBA images: painting with grey in hue, saturation or colour gives the grey of the backdrop's luminosity. -/
theorem C114_grey_paint_rgba (m : NonSep) (hm : m ≠ .luminosity) (sk dk : PixKind) (s d : Px) (hs : s.a = 255) (hd : d.a = 255) (hg : s.Grey) :
    draw16 float64Lum (.nonSep m) sk dk (255 : UInt8).toUInt32 s d = .ok ⟨d.grey16, d.grey16, d.grey16, 255⟩ := by
  obtain ⟨g1, g2⟩ := hg
  have eb : ∃ v, m.base ⟨s.r.toNat * 257, s.g.toNat * 257, s.b.toNat * 257⟩ ⟨d.r.toNat * 257, d.g.toNat * 257, d.b.toNat * 257⟩ = ⟨v, v, v⟩ := by
    rw [← g2, ← g1]
    cases m with
    | luminosity => exact absurd rfl hm
    | color => exact ⟨_, rfl⟩
    | hue => exact ⟨_, rfl⟩
    | saturation =>
      refine ⟨0, ?_⟩
      have e : ∀ c : RGB Nat, setSatN c 0 = ⟨0, 0, 0⟩ := fun c => by unfold setSatN; simp
      have z : ∀ n : Nat, (⟨n, n, n⟩ : RGB Nat).hi - (⟨n, n, n⟩ : RGB Nat).lo = 0 := fun n => by
        unfold RGB.hi RGB.lo; dsimp only; omega
      show setSatN _ (_ - _) = _
      rw [z, e]
  obtain ⟨v, hv⟩ := eb
  rw [grey_kept m sk dk s d hs hd hv]
  cases m <;> first | exact absurd rfl hm | rfl

/-- **C114** on RGBA images: over a grey backdrop, luminosity gives the grey of the source's luminosity. -/
theorem C114_grey_backdrop_rgba (sk dk : PixKind) (s d : Px) (hs : s.a = 255) (hd : d.a = 255) (hg : d.Grey) :
    draw16 float64Lum (.nonSep .luminosity) sk dk (255 : UInt8).toUInt32 s d = .ok ⟨s.grey16, s.grey16, s.grey16, 255⟩ :=
  grey_kept .luminosity sk dk s d hs hd (v := d.r.toNat * 257) (by
    show (⟨_, _, _⟩ : RGB Nat) = _
    rw [← hg.2, ← hg.1])

/-- **C114** for images of any other type: on the 16-bit scale the luminosity is that of the backdrop or the source, rounded down by at most one level of 65535. -/
theorem C114_luminosity_kept_fallback (m : NonSep) (s d : RGBA32) (hs : Premultiplied s) (hd : Premultiplied d) (ha : s.a.toNat = 65535) (hb : d.a.toNat = 65535) :
    ∃ p, drawFB float64Lum (.nonSep m) 0xffff s d = .ok (some p) ∧ p.a.toNat = 65535 ∧
      lumN16 ⟨p.r.toNat, p.g.toNat, p.b.toNat⟩ ≤ lumN16 (m.kept ⟨s.r.toNat, s.g.toNat, s.b.toNat⟩ ⟨d.r.toNat, d.g.toNat, d.b.toNat⟩) ∧
      lumN16 (m.kept ⟨s.r.toNat, s.g.toNat, s.b.toNat⟩ ⟨d.r.toNat, d.g.toNat, d.b.toNat⟩) ≤ lumN16 ⟨p.r.toNat, p.g.toNat, p.b.toNat⟩ + 65536 := by
  obtain ⟨out, e, hc, -⟩ := C45_fallback_partial float64Lum (.nonSep m) (by simp) 0xffff (by decide) s d hs hd
  have hcol : ∀ v : RGBA32, Premultiplied v → v.a.toNat = 65535 → v.colour = ⟨v.r.toNat, v.g.toNat, v.b.toNat⟩ := fun v hv ha => by
    unfold RGBA32.colour straight
    rw [ha, Nat.mul_div_cancel _ (by decide), Nat.mul_div_cancel _ (by decide), Nat.mul_div_cancel _ (by decide)]
  have ls : (⟨s.r.toNat, s.g.toNat, s.b.toNat⟩ : RGB Nat).Le 65535 := by
    obtain ⟨_, h1, h2, h3⟩ := hs
    refine ⟨?_, ?_, ?_⟩ <;> simp only <;> omega
  have ld : (⟨d.r.toNat, d.g.toNat, d.b.toNat⟩ : RGB Nat).Le 65535 := by
    obtain ⟨_, h1, h2, h3⟩ := hd
    refine ⟨?_, ?_, ?_⟩ <;> simp only <;> omega
  unfold CompositeFB at hc
  simp only at hc
  rw [hcol s hs ha, hcol d hd hb, ha, hb, show (0xffff : UInt32).toNat = 65535 from rfl, show scale16 65535 65535 = 65535 from rfl,
    show alpha16 65535 65535 = 65535 from rfl, if_neg (by decide)] at hc
  obtain ⟨p, rfl, pa, pr, pg, pb⟩ := hc
  have hl := nonSep16_lum m ls ld
  have hm : ∀ x y z, mixed 65535 65535 x y z / 65535 = x := fun x y z => by
    unfold mixed
    rw [show weight1 65535 65535 = 65535 from rfl, show weight2 65535 65535 = 0 from rfl, show weight3 65535 65535 = 0 from rfl]
    omega
  simp only [mixedRGB, hm] at pr pg pb
  refine ⟨p, e, pa, ?_⟩
  rw [pr, pg, pb]
  exact hl

/-- Teal painted in colour mode on brown: the picture comes out less than one level darker. -/
example : draw16 float64Lum (.nonSep .color) .rgba .rgba (255 : UInt8).toUInt32 ⟨3, 125, 98, 255⟩ ⟨137, 60, 30, 255⟩ = .ok ⟨0, 118, 92, 255⟩ ∧
    (⟨137, 60, 30, 255⟩ : Px).luminosity16 = 5229787 ∧ (⟨0, 118, 92, 255⟩ : Px).luminosity16 = 5225816 := by decide +kernel

example : draw16 float64Lum (.nonSep .saturation) .nrgba .rgba (255 : UInt8).toUInt32 ⟨9, 9, 9, 255⟩ ⟨180, 200, 250, 255⟩ = .ok ⟨200, 200, 200, 255⟩ :=
  C114_grey_paint_rgba .saturation (by decide) .nrgba .rgba ⟨9, 9, 9, 255⟩ ⟨180, 200, 250, 255⟩ rfl rfl ⟨rfl, rfl⟩

/-- Half of it. -/
example : (⟨3, 100, 98, 128⟩ : Px).Valid .rgba ∧ draw16 float64Lum (.nonSep .hue) .rgba .rgba (100 : UInt8).toUInt32 ⟨3, 100, 98, 128⟩ ⟨137, 60, 30, 255⟩ = .ok ⟨111, 70, 45, 255⟩ :=
  ⟨fun _ => by decide, by decide +kernel⟩

end Psd
