import Verif.Lemmas.Shade
import Verif.Props.BlendLaws

/-!
# C119: darkening modes never brighten, lightening modes never darken; C120: normal mode mixes
-/

namespace Psd

theorem over_opaque_le {op : UInt8} {m : Sep} {s d p : Px} (hd : d.a = 255) (hp : drawNN (.sep m) op.toUInt32 s d = .ok p) :
    p.a = 255 ∧ (chanN m s.r.toNat d.r.toNat ≤ d.r.toNat → p.r ≤ d.r) ∧ (chanN m s.g.toNat d.g.toNat ≤ d.g.toNat → p.g ≤ d.g) ∧
      (chanN m s.b.toNat d.b.toNat ≤ d.b.toNat → p.b ≤ d.b) ∧ (d.r.toNat ≤ chanN m s.r.toNat d.r.toNat → d.r ≤ p.r) ∧
      (d.g.toNat ≤ chanN m s.g.toNat d.g.toNat → d.g ≤ p.g) ∧ (d.b.toNat ≤ chanN m s.b.toNat d.b.toNat → d.b ≤ p.b) := by
  obtain ⟨ht, p', hp', ha, hr, hg, hb⟩ := over_opaque (.sep m) op s d hd
  rw [hp] at hp'
  injection hp' with hp'
  subst hp'
  refine ⟨ha, fun h => ?_, fun h => ?_, fun h => ?_, fun h => ?_, fun h => ?_, fun h => ?_⟩ <;> refine UInt8.le_iff_toNat_le.2 ?_
  · rw [hr]; exact mixOpaque_le ht h (Nat.le_refl _)
  · rw [hg]; exact mixOpaque_le ht h (Nat.le_refl _)
  · rw [hb]; exact mixOpaque_le ht h (Nat.le_refl _)
  · rw [hr]; exact le_mixOpaque (by decide) ht (le255 _) h (Nat.le_refl _)
  · rw [hg]; exact le_mixOpaque (by decide) ht (le255 _) h (Nat.le_refl _)
  · rw [hb]; exact le_mixOpaque (by decide) ht (le255 _) h (Nat.le_refl _)

/-- **C119** Over an opaque backdrop the modes that darken never brighten a channel, at whatever alpha and opacity. -/
theorem C119_darkening (m : Sep) (hm : m.darkening = true) (op : UInt8) (s d p : Px) (hd : d.a = 255)
    (hp : drawNN (.sep m) op.toUInt32 s d = .ok p) : p.Darker d := by
  obtain ⟨h0, h1, h2, h3, -⟩ := over_opaque_le hd hp
  exact ⟨h1 (chanN_darkens hm (le255 _) (le255 _)), h2 (chanN_darkens hm (le255 _) (le255 _)), h3 (chanN_darkens hm (le255 _) (le255 _)), h0.trans hd.symm⟩

/-- **C119** Over an opaque backdrop the modes that lighten never darken a channel. -/
theorem C119_lightening (m : Sep) (hm : m.lightening = true) (op : UInt8) (s d p : Px) (hd : d.a = 255)
    (hp : drawNN (.sep m) op.toUInt32 s d = .ok p) : d.Darker p := by
  obtain ⟨h0, -, -, -, h1, h2, h3⟩ := over_opaque_le hd hp
  exact ⟨h1 (chanN_lightens hm (le255 _) (le255 _)), h2 (chanN_lightens hm (le255 _) (le255 _)), h3 (chanN_lightens hm (le255 _) (le255 _)), hd.trans h0.symm⟩

theorem below_grey {x : UInt8} (h : x < 128) : x.toNat < 128 := UInt8.lt_iff_toNat_lt.1 h

theorem above_grey {x : UInt8} (h : 128 ≤ x) : ¬x.toNat < 128 := by
  have : (128 : UInt8).toNat ≤ x.toNat := UInt8.le_iff_toNat_le.1 h
  have e : (128 : UInt8).toNat = 128 := rfl
  omega

/-- **C119** Over an opaque backdrop the contrast modes never brighten a channel in which the source is darker than 50% grey, and never darken one in which it is not. -/
theorem C119_contrast (m : Sep) (hm : m.contrast = true) (op : UInt8) (s d p : Px) (hd : d.a = 255)
    (hp : drawNN (.sep m) op.toUInt32 s d = .ok p) :
    p.a = 255 ∧ (s.r < 128 → p.r ≤ d.r) ∧ (s.g < 128 → p.g ≤ d.g) ∧ (s.b < 128 → p.b ≤ d.b) ∧
      (128 ≤ s.r → d.r ≤ p.r) ∧ (128 ≤ s.g → d.g ≤ p.g) ∧ (128 ≤ s.b → d.b ≤ p.b) := by
  obtain ⟨h0, h1, h2, h3, h4, h5, h6⟩ := over_opaque_le hd hp
  exact ⟨h0, fun h => h1 (chanN_dark hm (below_grey h) (le255 _)), fun h => h2 (chanN_dark hm (below_grey h) (le255 _)),
    fun h => h3 (chanN_dark hm (below_grey h) (le255 _)), fun h => h4 (chanN_bright hm (above_grey h) (le255 _) (le255 _)),
    fun h => h5 (chanN_bright hm (above_grey h) (le255 _) (le255 _)), fun h => h6 (chanN_bright hm (above_grey h) (le255 _) (le255 _))⟩

/-! ### RGBA images -/

theorem over_opaque16_le (F : FloatLum) {op : UInt8} {m : Sep} (hadd : m ≠ .add) {sk dk : PixKind} {s d p : Px} (hs : s.Valid sk) (hd : d.a = 255)
    (hp : draw16 F (.sep m) sk dk op.toUInt32 s d = .ok p) :
    p.a = 255 ∧ (chanN16 m (s.colour sk).r (d.r.toNat * 257) ≤ d.r.toNat * 257 → p.r ≤ d.r) ∧ (chanN16 m (s.colour sk).g (d.g.toNat * 257) ≤ d.g.toNat * 257 → p.g ≤ d.g) ∧
      (chanN16 m (s.colour sk).b (d.b.toNat * 257) ≤ d.b.toNat * 257 → p.b ≤ d.b) ∧ (d.r.toNat * 257 ≤ chanN16 m (s.colour sk).r (d.r.toNat * 257) → d.r ≤ p.r) ∧
      (d.g.toNat * 257 ≤ chanN16 m (s.colour sk).g (d.g.toNat * 257) → d.g ≤ p.g) ∧ (d.b.toNat * 257 ≤ chanN16 m (s.colour sk).b (d.b.toNat * 257) → d.b ≤ p.b) := by
  obtain ⟨ht, p', hp', ha, hr, hg, hb⟩ := over_opaque16 F (.sep m) sk dk op s d hs hd (fun e => absurd (by injection e) hadd)
  rw [hp] at hp'
  injection hp' with hp'
  subst hp'
  have lo : ∀ {c : Nat} {x : UInt8}, c ≤ x.toNat * 257 → mixOpaque 65535 (effective s op.toNat) c (x.toNat * 257) / 256 ≤ x.toNat := fun {c x} h => by
    have h1 := mixOpaque_le ht h (Nat.le_refl _)
    have := le255 x
    omega
  have hi : ∀ {c : Nat} {x : UInt8}, x.toNat * 257 ≤ c → x.toNat ≤ mixOpaque 65535 (effective s op.toNat) c (x.toNat * 257) / 256 := fun {c x} h => by
    have := le255 x
    have h1 := le_mixOpaque (K := 65535) (b := x.toNat * 257) (by decide) ht (by omega) h (Nat.le_refl _)
    omega
  refine ⟨ha, fun h => ?_, fun h => ?_, fun h => ?_, fun h => ?_, fun h => ?_, fun h => ?_⟩ <;> refine UInt8.le_iff_toNat_le.2 ?_
  · rw [hr]; exact lo h
  · rw [hg]; exact lo h
  · rw [hb]; exact lo h
  · rw [hr]; exact hi h
  · rw [hg]; exact hi h
  · rw [hb]; exact hi h

theorem le257 (x : UInt8) : x.toNat * 257 ≤ 65535 := by have := le255 x; omega

/-- **C119** The same for the kernels of the 16-bit scale. -/
theorem C119_darkening_rgba (F : FloatLum) (m : Sep) (hm : m.darkening = true) (sk dk : PixKind) (op : UInt8) (s d p : Px) (hs : s.Valid sk) (hd : d.a = 255)
    (hp : draw16 F (.sep m) sk dk op.toUInt32 s d = .ok p) : p.Darker d := by
  obtain ⟨h0, h1, h2, h3, -⟩ := over_opaque16_le F (by rintro rfl; cases hm) hs hd hp
  obtain ⟨c1, c2, c3⟩ := colour_le sk s hs
  exact ⟨h1 (chanN16_darkens hm c1 (le257 _)), h2 (chanN16_darkens hm c2 (le257 _)), h3 (chanN16_darkens hm c3 (le257 _)), h0.trans hd.symm⟩

/-- **C119 (partial)** The same for the kernels of the 16-bit scale. Missing: `Add`, which wraps around (`C119_add_darkens`). -/
theorem C119_lightening_rgba_partial (F : FloatLum) (m : Sep) (hm : m.lightening = true) (hadd : m ≠ .add) (sk dk : PixKind) (op : UInt8) (s d p : Px) (hs : s.Valid sk)
    (hd : d.a = 255) (hp : draw16 F (.sep m) sk dk op.toUInt32 s d = .ok p) : d.Darker p := by
  obtain ⟨h0, -, -, -, h1, h2, h3⟩ := over_opaque16_le F hadd hs hd hp
  obtain ⟨c1, c2, c3⟩ := colour_le sk s hs
  exact ⟨h1 (chanN16_lightens hm c1 (le257 _)), h2 (chanN16_lightens hm c2 (le257 _)), h3 (chanN16_lightens hm c3 (le257 _)), hd.trans h0.symm⟩

/-- **C119** The same for the kernels of the 16-bit scale, on which 50% grey is 32768. -/
theorem C119_contrast_rgba (F : FloatLum) (m : Sep) (hm : m.contrast = true) (sk dk : PixKind) (op : UInt8) (s d p : Px) (hs : s.Valid sk) (hd : d.a = 255)
    (hp : draw16 F (.sep m) sk dk op.toUInt32 s d = .ok p) :
    p.a = 255 ∧ ((s.colour sk).r < 32768 → p.r ≤ d.r) ∧ ((s.colour sk).g < 32768 → p.g ≤ d.g) ∧ ((s.colour sk).b < 32768 → p.b ≤ d.b) ∧
      (32768 ≤ (s.colour sk).r → d.r ≤ p.r) ∧ (32768 ≤ (s.colour sk).g → d.g ≤ p.g) ∧ (32768 ≤ (s.colour sk).b → d.b ≤ p.b) := by
  obtain ⟨h0, h1, h2, h3, h4, h5, h6⟩ := over_opaque16_le F (by rintro rfl; cases hm) hs hd hp
  obtain ⟨c1, c2, c3⟩ := colour_le sk s hs
  exact ⟨h0, fun h => h1 (chanN16_dark hm h (le257 _)), fun h => h2 (chanN16_dark hm h (le257 _)), fun h => h3 (chanN16_dark hm h (le257 _)),
    fun h => h4 (chanN16_bright hm (Nat.not_lt.2 h) c1 (le257 _)), fun h => h5 (chanN16_bright hm (Nat.not_lt.2 h) c2 (le257 _)),
    fun h => h6 (chanN16_bright hm (Nat.not_lt.2 h) c3 (le257 _))⟩

/-- **C119, negated** In RGBA images `Add` turns mid-grey into black by adding mid-grey to it. -/
theorem C119_add_darkens (F : FloatLum) : ∃ s d p : Px, s.a = 255 ∧ d.a = 255 ∧ draw16 F (.sep .add) .nrgba .rgba (255 : UInt8).toUInt32 s d = .ok p ∧
    p.r < d.r ∧ p.g < d.g ∧ p.b < d.b :=
  ⟨⟨128, 128, 128, 255⟩, ⟨128, 128, 128, 255⟩, ⟨0, 0, 0, 255⟩, rfl, rfl, (C45_add_wraps F).1, by decide, by decide, by decide⟩

/-! ### Normal mode -/

/-- `x` is `a`, `b` or between them. -/
def InBetween (a b x : UInt8) : Prop := a ≤ x ∧ x ≤ b ∨ b ≤ x ∧ x ≤ a

theorem mean_between {s d w v : Nat} (h : 0 < w + v) : min s d ≤ (s * w + d * v) / (w + v) ∧ (s * w + d * v) / (w + v) ≤ max s d := by
  constructor
  · refine (Nat.le_div_iff_mul_le h).2 ?_
    have h1 := Nat.mul_le_mul_right w (Nat.min_le_left s d)
    have h2 := Nat.mul_le_mul_right v (Nat.min_le_right s d)
    rw [Nat.mul_add]
    omega
  · refine Nat.div_le_of_le_mul ?_
    have h1 := Nat.mul_le_mul_right w (Nat.le_max_left s d)
    have h2 := Nat.mul_le_mul_right v (Nat.le_max_right s d)
    rw [Nat.add_mul, Nat.mul_comm w, Nat.mul_comm v]
    omega

theorem between_toNat {a b x : UInt8} : InBetween a b x ↔ min a.toNat b.toNat ≤ x.toNat ∧ x.toNat ≤ max a.toNat b.toNat := by
  unfold InBetween
  simp only [UInt8.le_iff_toNat_le]
  omega

/-- **C120** Normal mode mixes: whatever the alphas and the opacity, each channel of the result is between that of the source and that of the backdrop. -/
theorem C120_normal_mixes (op : UInt8) (s d p : Px) (hp : drawNN (.sep .normal) op.toUInt32 s d = .ok p) :
    InBetween s.r d.r p.r ∧ InBetween s.g d.g p.g ∧ InBetween s.b d.b p.b := by
  have c := draw_composite hp
  unfold Composite at c
  dsimp only at c
  split at c
  · subst c
    simp only [between_toNat]
    omega
  · rename_i h
    obtain ⟨-, hr, hg, hb⟩ := c
    simp only [not_or] at h
    have key : ∀ {x y z : UInt8} {w1 w2 w3 : Nat}, 0 < w1 + w2 + w3 → z.toNat = min 255 ((x.toNat * w1 + x.toNat * w2 + y.toNat * w3) / (w1 + w2 + w3)) → InBetween x y z := by
      intro x y z w1 w2 w3 hw e
      have := mean_between (s := x.toNat) (d := y.toNat) hw
      have h1 := le255 x
      have h2 := le255 y
      rw [← Nat.mul_add] at e
      rw [between_toNat, e]
      omega
    exact ⟨key (Nat.pos_of_ne_zero h.2) hr, key (Nat.pos_of_ne_zero h.2) hg, key (Nat.pos_of_ne_zero h.2) hb⟩

/-- **C120** So painting a colour over itself leaves the colour as it is. -/
theorem C120_same_colour (op : UInt8) (s d p : Px) (hp : drawNN (.sep .normal) op.toUInt32 s d = .ok p) (hr : s.r = d.r) (hg : s.g = d.g) (hb : s.b = d.b) :
    p.r = d.r ∧ p.g = d.g ∧ p.b = d.b := by
  obtain ⟨h1, h2, h3⟩ := C120_normal_mixes op s d p hp
  rw [between_toNat] at h1 h2 h3
  rw [hr] at h1
  rw [hg] at h2
  rw [hb] at h3
  exact ⟨UInt8.toNat_inj.1 (by omega), UInt8.toNat_inj.1 (by omega), UInt8.toNat_inj.1 (by omega)⟩

/-- **C120** On the 16-bit scale, over an opaque backdrop: each channel is between that of the backdrop and the source's, which is rounded down to 8 bits. -/
theorem C120_normal_mixes_rgba (F : FloatLum) (sk dk : PixKind) (op : UInt8) (s d p : Px) (hs : s.Valid sk) (hd : d.a = 255)
    (hp : draw16 F (.sep .normal) sk dk op.toUInt32 s d = .ok p) :
    p.a = 255 ∧ (min ((s.colour sk).r / 256) d.r.toNat ≤ p.r.toNat ∧ p.r.toNat ≤ max ((s.colour sk).r / 256) d.r.toNat) ∧
      (min ((s.colour sk).g / 256) d.g.toNat ≤ p.g.toNat ∧ p.g.toNat ≤ max ((s.colour sk).g / 256) d.g.toNat) ∧
      (min ((s.colour sk).b / 256) d.b.toNat ≤ p.b.toNat ∧ p.b.toNat ≤ max ((s.colour sk).b / 256) d.b.toNat) := by
  obtain ⟨ht, p', hp', ha, hr, hg, hb⟩ := over_opaque16 F (.sep .normal) sk dk op s d hs hd (fun e => by injection e; contradiction)
  rw [hp] at hp'
  injection hp' with hp'
  subst hp'
  obtain ⟨c1, c2, c3⟩ := colour_le sk s hs
  have key : ∀ {c : Nat} {x : UInt8}, c ≤ 65535 → min (c / 256) x.toNat ≤ mixOpaque 65535 (effective s op.toNat) c (x.toNat * 257) / 256 ∧
      mixOpaque 65535 (effective s op.toNat) c (x.toNat * 257) / 256 ≤ max (c / 256) x.toNat := fun {c x} h => by
    have := le255 x
    have h1 := mixOpaque_le ht (Nat.le_max_left c (x.toNat * 257)) (Nat.le_max_right c (x.toNat * 257))
    have h2 := le_mixOpaque (K := 65535) (by decide) ht (by omega) (Nat.min_le_left c (x.toNat * 257)) (Nat.min_le_right c (x.toNat * 257))
    omega
  exact ⟨ha, hr ▸ key c1, hg ▸ key c2, hb ▸ key c3⟩

/-! ### Non-vacuity -/

/-- A translucent source at an opacity of 90, in a mode of each group. -/
example : drawNN (.sep .colorBurn) (90 : UInt8).toUInt32 ⟨100, 200, 3, 180⟩ ⟨200, 180, 60, 255⟩ = .ok ⟨179, 175, 45, 255⟩ ∧
    Sep.colorBurn.darkening = true ∧ Sep.screen.lightening = true ∧
    drawNN (.sep .screen) (90 : UInt8).toUInt32 ⟨100, 200, 3, 180⟩ ⟨200, 180, 60, 255⟩ = .ok ⟨205, 194, 60, 255⟩ ∧ Sep.overlay.contrast = true ∧
    drawNN (.sep .overlay) (90 : UInt8).toUInt32 ⟨100, 200, 3, 180⟩ ⟨200, 180, 60, 255⟩ = .ok ⟨197, 190, 45, 255⟩ ∧
    drawNN (.sep .normal) (90 : UInt8).toUInt32 ⟨100, 200, 3, 180⟩ ⟨200, 180, 60, 155⟩ = .ok ⟨165, 186, 40, 178⟩ := by
  decide +kernel

end Psd
