import Verif.Props.BlendLaws

/-
What the non-separable blend modes keep of the pictures (C114).
-/

namespace Psd

/-- The luminosity of a pixel: `(77 r + 151 g + 28 b) / 256`, rounded down. -/
def Px.luminosity (p : Px) : Nat := (77 * p.r.toNat + 151 * p.g.toNat + 28 * p.b.toNat) / 256

/-- A grey pixel. -/
def Px.Grey (p : Px) : Prop := p.r = p.g ∧ p.g = p.b

/-- Truncated division is off by less than one. -/
theorem tdiv_off (x y : Int) (hy : 0 < y) : x.tdiv y * y - x < y ∧ x - x.tdiv y * y < y ∧
    (0 ≤ x → 0 ≤ x.tdiv y ∧ x.tdiv y * y ≤ x) ∧ (x ≤ 0 → x.tdiv y ≤ 0 ∧ x ≤ x.tdiv y * y) := by
  have e := Int.mul_tdiv_add_tmod x y
  rw [Int.mul_comm] at e
  have h1 : 0 ≤ x → 0 ≤ x.tmod y := fun h => Int.tmod_nonneg _ h
  have h2 := Int.tmod_lt_of_pos x hy
  have h3 : x ≤ 0 → x.tmod y ≤ 0 := fun h => by
    have := Int.tmod_nonneg y (show 0 ≤ -x by omega)
    rw [Int.neg_tmod] at this
    omega
  have h4 : - y < x.tmod y := by
    have := Int.tmod_lt_of_pos (-x) hy
    rw [Int.neg_tmod] at this
    omega
  have h5 : 0 ≤ x → 0 ≤ x.tdiv y := fun h => Int.tdiv_nonneg h (by omega)
  have h6 : x ≤ 0 → x.tdiv y ≤ 0 := fun h => by
    have := Int.tdiv_nonneg (show 0 ≤ -x by omega) (show 0 ≤ y by omega)
    rw [Int.neg_tdiv] at this
    omega
  exact ⟨by omega, by omega, fun h => ⟨h5 h, by have := h1 h; omega⟩, fun h => ⟨h6 h, by have := h3 h; omega⟩⟩

/-- Moving a channel towards `l` by the factor `f / D`. -/
theorem towards {c l f D : Int} (hD : 0 < D) (hf : 0 ≤ f ∧ f ≤ D) :
    (l ≤ c → l ≤ l + ((c - l) * f).tdiv D ∧ l + ((c - l) * f).tdiv D ≤ c) ∧
    (c ≤ l → c ≤ l + ((c - l) * f).tdiv D ∧ l + ((c - l) * f).tdiv D ≤ l) := by
  obtain ⟨_, _, h3, h4⟩ := tdiv_off ((c - l) * f) D hD
  constructor
  · intro h
    have a1 : 0 ≤ (c - l) * f := Int.mul_nonneg (by omega) hf.1
    obtain ⟨b1, b2⟩ := h3 a1
    have a2 : (c - l) * f ≤ (c - l) * D := Int.mul_le_mul_of_nonneg_left hf.2 (by omega)
    have := Int.le_of_mul_le_mul_right (Int.le_trans b2 a2) hD
    omega
  · intro h
    have a1 : (c - l) * f ≤ 0 := Int.mul_nonpos_of_nonpos_of_nonneg (by omega) hf.1
    obtain ⟨b1, b2⟩ := h4 a1
    have a2 : (c - l) * D ≤ (c - l) * f := Int.mul_le_mul_of_nonpos_left (by omega) hf.2
    have := Int.le_of_mul_le_mul_right (Int.le_trans a2 b2) hD
    omega

/-- Scaling the distances of the channels from their luminosity changes the luminosity by at most one. -/
theorem scaled_lum {r g b l f D : Int} (hl : l = lumZ r g b) (hD : 0 < D) (hf : 0 ≤ f ∧ f ≤ D) :
    l - 1 ≤ lumZ (l + ((r - l) * f).tdiv D) (l + ((g - l) * f).tdiv D) (l + ((b - l) * f).tdiv D) ∧
    lumZ (l + ((r - l) * f).tdiv D) (l + ((g - l) * f).tdiv D) (l + ((b - l) * f).tdiv D) ≤ l + 1 := by
  obtain ⟨r1, r2, _, _⟩ := tdiv_off ((r - l) * f) D hD
  obtain ⟨g1, g2, _, _⟩ := tdiv_off ((g - l) * f) D hD
  obtain ⟨b1, b2, _, _⟩ := tdiv_off ((b - l) * f) D hD
  generalize ((r - l) * f).tdiv D = x at *
  generalize ((g - l) * f).tdiv D = y at *
  generalize ((b - l) * f).tdiv D = z at *
  have hrho : 0 ≤ 77 * (r - l) + 151 * (g - l) + 28 * (b - l) ∧ 77 * (r - l) + 151 * (g - l) + 28 * (b - l) ≤ 255 := by
    unfold lumZ at hl; omega
  obtain ⟨ρ, hρ⟩ : ∃ ρ, ρ = 77 * (r - l) + 151 * (g - l) + 28 * (b - l) := ⟨_, rfl⟩
  rw [← hρ] at hrho
  have e1 : 77 * ((r - l) * f) + 151 * ((g - l) * f) + 28 * ((b - l) * f) = ρ * f := by rw [hρ]; ring
  have p1 : 0 ≤ ρ * f := Int.mul_nonneg hrho.1 hf.1
  have p2 : ρ * f ≤ 255 * D := Int.mul_le_mul hrho.2 hf.2 hf.1 (by omega)
  have e2 : 77 * (x * D) + 151 * (y * D) + 28 * (z * D) = (77 * x + 151 * y + 28 * z) * D := by ring
  have lo : -256 < 77 * x + 151 * y + 28 * z := by
    apply Int.lt_of_mul_lt_mul_right (a := D) _ (by omega)
    omega
  have hi : 77 * x + 151 * y + 28 * z < 511 := by
    apply Int.lt_of_mul_lt_mul_right (a := D) _ (by omega)
    omega
  unfold lumZ
  omega

/-- Moving a colour to a luminosity of 0..255 gives it, up to one level. -/
theorem setLumZ_lum (c : RGB Nat) (hc : c.Le 255) (l : Int) (hl : 0 ≤ l ∧ l ≤ 255) :
    l - 1 ≤ lumZ (setLumZ c l).r (setLumZ c l).g (setLumZ c l).b ∧ lumZ (setLumZ c l).r (setLumZ c l).g (setLumZ c l).b ≤ l + 1 := by
  obtain ⟨h1, h2, h3⟩ := hc
  unfold setLumZ
  dsimp only
  obtain ⟨k, hk⟩ : ∃ k, k = l - lumZ c.r c.g c.b := ⟨_, rfl⟩
  rw [← hk]
  have el : l = lumZ (c.r + k) (c.g + k) (c.b + k) := by rw [lumZ_shift]; omega
  obtain ⟨r, hr⟩ : ∃ r : Int, r = c.r + k := ⟨_, rfl⟩
  obtain ⟨g, hg⟩ : ∃ r : Int, r = c.g + k := ⟨_, rfl⟩
  obtain ⟨b, hb⟩ : ∃ r : Int, r = c.b + k := ⟨_, rfl⟩
  rw [← hr, ← hg, ← hb] at el ⊢
  unfold clipZ
  dsimp only
  rw [← el]
  have bl : min r (min g b) ≤ l ∧ l ≤ max r (max g b) := by
    have := lumZ_bounds (lo := min r (min g b)) (hi := max r (max g b)) (r := r) (g := g) (b := b) (by omega) (by omega) (by omega)
    rw [el]
    exact this
  have sp : max r (max g b) ≤ min r (min g b) + 255 := by omega
  by_cases hn : min r (min g b) < 0
  · have hx : ¬ 255 < max r (max g b) := by omega
    simp only [if_pos hn, if_neg hx]
    have hD : 0 < l - min r (min g b) := by omega
    have hf : 0 ≤ l ∧ l ≤ l - min r (min g b) := by omega
    have s := scaled_lum el hD hf
    have low : ∀ c : Int, min r (min g b) ≤ c → 0 ≤ l + ((c - l) * l).tdiv (l - min r (min g b)) := by
      intro c hc
      obtain ⟨t1, _, _, _⟩ := tdiv_off ((c - l) * l) _ hD
      by_cases hcl : l ≤ c
      · have := ((towards hD hf).1 hcl).1
        omega
      · obtain ⟨_, _, _, t4⟩ := tdiv_off ((c - l) * l) _ hD
        obtain ⟨_, t5⟩ := t4 (Int.mul_nonpos_of_nonpos_of_nonneg (by omega) hl.1)
        have a : (-l) * (l - min r (min g b)) ≤ (c - l) * l := by
          have := Int.mul_le_mul_of_nonneg_right (show -(l - min r (min g b)) ≤ c - l by omega) hl.1
          calc (-l) * (l - min r (min g b)) = -(l - min r (min g b)) * l := by ring
            _ ≤ _ := this
        have := Int.le_of_mul_le_mul_right (Int.le_trans a t5) hD
        omega
    have high : ∀ c : Int, c ≤ max r (max g b) → l + ((c - l) * l).tdiv (l - min r (min g b)) ≤ 255 := by
      intro c hc
      by_cases hcl : l ≤ c
      · have := ((towards hD hf).1 hcl).2
        omega
      · have := ((towards hD hf).2 (show c ≤ l by omega)).2
        omega
    have fin : ∀ v : Int, 0 ≤ v → v ≤ 255 → (((max 0 (min v 255)).toNat : Nat) : Int) = v := fun v h1 h2 => by omega
    rw [fin _ (low r (by omega)) (high r (by omega)), fin _ (low g (by omega)) (high g (by omega)),
      fin _ (low b (by omega)) (high b (by omega))]
    exact s
  · simp only [if_neg hn]
    by_cases hx : 255 < max r (max g b)
    · simp only [if_pos hx]
      have hD : 0 < max r (max g b) - l := by omega
      have hf : 0 ≤ 255 - l ∧ 255 - l ≤ max r (max g b) - l := by omega
      have s := scaled_lum el hD hf
      have low : ∀ c : Int, min r (min g b) ≤ c → 0 ≤ l + ((c - l) * (255 - l)).tdiv (max r (max g b) - l) := by
        intro c hc
        by_cases hcl : l ≤ c
        · have := ((towards hD hf).1 hcl).1
          omega
        · have := ((towards hD hf).2 (show c ≤ l by omega)).1
          omega
      have high : ∀ c : Int, c ≤ max r (max g b) → l + ((c - l) * (255 - l)).tdiv (max r (max g b) - l) ≤ 255 := by
        intro c hc
        by_cases hcl : l ≤ c
        · obtain ⟨_, _, t4, _⟩ := tdiv_off ((c - l) * (255 - l)) _ hD
          obtain ⟨_, t5⟩ := t4 (Int.mul_nonneg (by omega) hf.1)
          have a : (c - l) * (255 - l) ≤ (255 - l) * (max r (max g b) - l) := by
            rw [Int.mul_comm]
            exact Int.mul_le_mul_of_nonneg_left (by omega) hf.1
          have := Int.le_of_mul_le_mul_right (Int.le_trans t5 a) hD
          omega
        · have := ((towards hD hf).2 (show c ≤ l by omega)).2
          omega
      have fin : ∀ v : Int, 0 ≤ v → v ≤ 255 → (((max 0 (min v 255)).toNat : Nat) : Int) = v := fun v h1 h2 => by omega
      rw [fin _ (low r (by omega)) (high r (by omega)), fin _ (low g (by omega)) (high g (by omega)),
        fin _ (low b (by omega)) (high b (by omega))]
      exact s
    · simp only [if_neg hx]
      have fin : ∀ v : Int, 0 ≤ v → v ≤ 255 → (((max 0 (min v 255)).toNat : Nat) : Int) = v := fun v h1 h2 => by omega
      rw [fin _ (by omega) (by omega), fin _ (by omega) (by omega), fin _ (by omega) (by omega), ← el]
      omega

theorem lum_px (p : Px) : (p.luminosity : Int) = lumZ p.r.toNat p.g.toNat p.b.toNat := by
  unfold Px.luminosity lumZ
  omega

theorem base_le (m : NonSep) {s d : RGB Nat} (hs : s.Le 255) (hd : d.Le 255) : (m.base s d).Le 255 := by
  cases m with
  | hue => exact setSatN_le (by have := hd.1; have := hd.2.1; have := hd.2.2; unfold RGB.hi; omega)
  | saturation => exact setSatN_le (by have := hs.1; have := hs.2.1; have := hs.2.2; unfold RGB.hi; omega)
  | color => exact hs
  | luminosity => exact hd

/-- What a non-separable mode stores for opaque pixels. -/
theorem nonSep_full (m : NonSep) (s d : Px) (hs : s.a = 255) (hd : d.a = 255) :
    let sc : RGB Nat := ⟨s.r.toNat, s.g.toNat, s.b.toNat⟩
    let dc : RGB Nat := ⟨d.r.toNat, d.g.toNat, d.b.toNat⟩
    let c := setLumZ (m.base sc dc) (m.target sc dc)
    ∃ p, drawNN (.nonSep m) (255 : UInt8).toUInt32 s d = .ok p ∧ p.a = 255 ∧ p.r.toNat = c.r ∧ p.g.toNat = c.g ∧ p.b.toNat = c.b := by
  obtain ⟨p, hp, ha, hr, hg, hb⟩ := full8 (.nonSep m) s d hs hd
  have e : blendN (.nonSep m) ⟨s.r.toNat, s.g.toNat, s.b.toNat⟩ ⟨d.r.toNat, d.g.toNat, d.b.toNat⟩ =
      setLumZ (m.base ⟨s.r.toNat, s.g.toNat, s.b.toNat⟩ ⟨d.r.toNat, d.g.toNat, d.b.toNat⟩)
        (m.target ⟨s.r.toNat, s.g.toNat, s.b.toNat⟩ ⟨d.r.toNat, d.g.toNat, d.b.toNat⟩) := by cases m <;> rfl
  rw [e] at hr hg hb
  have hle := setLumZ_le (m.base ⟨s.r.toNat, s.g.toNat, s.b.toNat⟩ ⟨d.r.toNat, d.g.toNat, d.b.toNat⟩)
    (m.target ⟨s.r.toNat, s.g.toNat, s.b.toNat⟩ ⟨d.r.toNat, d.g.toNat, d.b.toNat⟩)
  exact ⟨p, hp, ha, by omega, by omega, by omega⟩

/-- The pixel whose luminosity a mode keeps: that of the source in luminosity mode, else that of the backdrop. -/
def NonSep.keeps (m : NonSep) (s d : Px) : Px :=
  match m with
  | .luminosity => s
  | _ => d

/-- **C114** Hue, saturation and colour keep the luminosity of the backdrop, luminosity takes that of the source, up to one
level. -/
theorem C114_luminosity_kept (m : NonSep) (s d p : Px) (hs : s.a = 255) (hd : d.a = 255)
    (h : drawNN (.nonSep m) (255 : UInt8).toUInt32 s d = .ok p) :
    p.luminosity ≤ (m.keeps s d).luminosity + 1 ∧ (m.keeps s d).luminosity ≤ p.luminosity + 1 := by
  obtain ⟨q, hq, _, hr, hg, hb⟩ := nonSep_full m s d hs hd
  rw [h] at hq
  cases hq
  have bs : (⟨s.r.toNat, s.g.toNat, s.b.toNat⟩ : RGB Nat).Le 255 := ⟨le255 _, le255 _, le255 _⟩
  have bd : (⟨d.r.toNat, d.g.toNat, d.b.toNat⟩ : RGB Nat).Le 255 := ⟨le255 _, le255 _, le255 _⟩
  have et : m.target ⟨s.r.toNat, s.g.toNat, s.b.toNat⟩ ⟨d.r.toNat, d.g.toNat, d.b.toNat⟩ = ((m.keeps s d).luminosity : Int) := by
    cases m <;> exact (lum_px _).symm
  have bt : ((m.keeps s d).luminosity : Int) ≤ 255 := by
    rw [lum_px]
    exact (lumZ_byte (c := ⟨(m.keeps s d).r.toNat, (m.keeps s d).g.toNat, (m.keeps s d).b.toNat⟩) ⟨le255 _, le255 _, le255 _⟩).2
  have := setLumZ_lum _ (base_le m bs bd) ((m.keeps s d).luminosity : Int) ⟨by omega, bt⟩
  rw [et] at hr hg hb
  rw [← hr, ← hg, ← hb, ← lum_px] at this
  omega

theorem setLumZ_grey (v : Nat) (l : Int) (hl : 0 ≤ l ∧ l ≤ 255) : setLumZ ⟨v, v, v⟩ l = ⟨l.toNat, l.toNat, l.toNat⟩ := by
  have e : lumZ v v v = v := by unfold lumZ; omega
  unfold setLumZ clipZ
  dsimp only
  rw [e, show (v : Int) + (l - v) = l by omega]
  have n1 : ¬ min l (min l l) < 0 := by omega
  have n2 : ¬ 255 < max l (max l l) := by omega
  simp only [if_neg n1, if_neg n2]
  rw [show max 0 (min l 255) = l by omega]

/-- **C114** Painting with grey in hue, saturation or colour gives exactly the grey of the backdrop's luminosity. -/
theorem C114_grey_paint (m : NonSep) (hm : m ≠ .luminosity) (s d : Px) (hs : s.a = 255) (hd : d.a = 255) (hg : s.Grey) :
    drawNN (.nonSep m) (255 : UInt8).toUInt32 s d =
      .ok ⟨UInt8.ofNat d.luminosity, UInt8.ofNat d.luminosity, UInt8.ofNat d.luminosity, 255⟩ := by
  obtain ⟨p, hp, ha, h1, h2, h3⟩ := nonSep_full m s d hs hd
  obtain ⟨g1, g2⟩ := hg
  rw [← g2, ← g1] at h1 h2 h3
  have eb : ∃ v, m.base ⟨s.r.toNat, s.r.toNat, s.r.toNat⟩ ⟨d.r.toNat, d.g.toNat, d.b.toNat⟩ = ⟨v, v, v⟩ := by
    cases m with
    | luminosity => exact absurd rfl hm
    | color => exact ⟨_, rfl⟩
    | hue => exact ⟨_, rfl⟩
    | saturation =>
      refine ⟨0, ?_⟩
      have e : ∀ c : RGB Nat, setSatN c 0 = ⟨0, 0, 0⟩ := fun c => by unfold setSatN; simp
      have z : (⟨s.r.toNat, s.r.toNat, s.r.toNat⟩ : RGB Nat).hi - (⟨s.r.toNat, s.r.toNat, s.r.toNat⟩ : RGB Nat).lo = 0 := by
        unfold RGB.hi RGB.lo; dsimp only; omega
      show setSatN _ (_ - _) = _
      rw [z, e]
  obtain ⟨v, eb⟩ := eb
  have et : m.target ⟨s.r.toNat, s.r.toNat, s.r.toNat⟩ ⟨d.r.toNat, d.g.toNat, d.b.toNat⟩ = (d.luminosity : Int) := by
    cases m <;> first | exact absurd rfl hm | exact (lum_px _).symm
  have bt : (d.luminosity : Int) ≤ 255 := by
    rw [lum_px]
    exact (lumZ_byte (c := ⟨d.r.toNat, d.g.toNat, d.b.toNat⟩) ⟨le255 _, le255 _, le255 _⟩).2
  rw [eb, et, setLumZ_grey v _ ⟨by omega, bt⟩] at h1 h2 h3
  have en : (UInt8.ofNat d.luminosity).toNat = d.luminosity := by
    rw [UInt8.toNat_ofNat']
    omega
  rw [hp]
  congr 1
  apply px_ext
  · rw [h1, en]; rfl
  · rw [h2, en]; rfl
  · rw [h3, en]; rfl
  · rw [ha]

/-- **C114** Over a grey backdrop, luminosity gives exactly the grey of the source's luminosity. -/
theorem C114_grey_backdrop (s d : Px) (hs : s.a = 255) (hd : d.a = 255) (hg : d.Grey) :
    drawNN (.nonSep .luminosity) (255 : UInt8).toUInt32 s d =
      .ok ⟨UInt8.ofNat s.luminosity, UInt8.ofNat s.luminosity, UInt8.ofNat s.luminosity, 255⟩ := by
  obtain ⟨p, hp, ha, h1, h2, h3⟩ := nonSep_full .luminosity s d hs hd
  obtain ⟨g1, g2⟩ := hg
  rw [← g2, ← g1] at h1 h2 h3
  have et : NonSep.target .luminosity ⟨s.r.toNat, s.g.toNat, s.b.toNat⟩ ⟨d.r.toNat, d.r.toNat, d.r.toNat⟩ = (s.luminosity : Int) :=
    (lum_px _).symm
  have bt : (s.luminosity : Int) ≤ 255 := by
    rw [lum_px]
    exact (lumZ_byte (c := ⟨s.r.toNat, s.g.toNat, s.b.toNat⟩) ⟨le255 _, le255 _, le255 _⟩).2
  rw [et, show NonSep.base .luminosity ⟨s.r.toNat, s.g.toNat, s.b.toNat⟩ ⟨d.r.toNat, d.r.toNat, d.r.toNat⟩ =
    ⟨d.r.toNat, d.r.toNat, d.r.toNat⟩ from rfl, setLumZ_grey _ _ ⟨by omega, bt⟩] at h1 h2 h3
  have en : (UInt8.ofNat s.luminosity).toNat = s.luminosity := by
    rw [UInt8.toNat_ofNat']
    omega
  rw [hp]
  congr 1
  apply px_ext
  · rw [h1, en]; rfl
  · rw [h2, en]; rfl
  · rw [h3, en]; rfl
  · rw [ha]

/-- A teal painted in colour mode on a brown: the picture comes out one level darker, so "up to one
level" cannot be dropped. -/
example : drawNN (.nonSep .color) (255 : UInt8).toUInt32 ⟨3, 125, 98, 255⟩ ⟨137, 60, 30, 255⟩ = .ok ⟨0, 117, 91, 255⟩ ∧
    (⟨137, 60, 30, 255⟩ : Px).luminosity = 79 ∧ (⟨0, 117, 91, 255⟩ : Px).luminosity = 78 := by decide +kernel

example : drawNN (.nonSep .saturation) (255 : UInt8).toUInt32 ⟨9, 9, 9, 255⟩ ⟨180, 200, 250, 255⟩ = .ok ⟨199, 199, 199, 255⟩ :=
  C114_grey_paint .saturation (by decide) ⟨9, 9, 9, 255⟩ ⟨180, 200, 250, 255⟩ rfl rfl ⟨rfl, rfl⟩

end Psd
