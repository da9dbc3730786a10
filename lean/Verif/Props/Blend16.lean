import Verif.Lemmas.Kernel16

/-
Blending on the 16-bit scale: RGBA images and the fallback for all other images (C45, and C41 to C43 for those images).
-/

namespace Psd

theorem op255 (op : UInt8) : op.toUInt32.toNat ≤ 255 := by rw [UInt8.toNat_toUInt32]; have := op.toNat_lt; omega

/-! ## C45: no wrap-around -/

/-- **C45 (partial)** For every blend mode, opacity and pair of pixels, drawing from or onto an RGBA image succeeds and
gives the result computed in unbounded integers. In `Add` this needs the weighted sums to be below 2 ^ 32: they can be
larger, and then the result is wrong (`C45_add_wraps`). -/
theorem C45_no_wrap_partial (F : FloatLum) (m : Mode) (sk dk : PixKind) (op : UInt8) (s d : Px)
    (hs : s.Valid sk) (hd : d.Valid dk)
    (hadd : m = .sep .add → (sums16 F m sk dk op.toNat s d).Le 4294967295) :
    ∃ p, draw16 F m sk dk op.toUInt32 s d = .ok p ∧ Composite16 F m sk dk op.toNat s d p := by
  have h := draw16_exact F m sk dk op.toUInt32 (op255 op) s d hs hd
  rw [UInt8.toNat_toUInt32] at h
  exact h hadd

/-- Two half transparent pixels, colour burn, RGBA onto NRGBA. -/
example (F : FloatLum) : (⟨100, 50, 25, 180⟩ : Px).Valid .rgba ∧ (⟨10, 250, 128, 90⟩ : Px).Valid .nrgba ∧
    draw16 F (.sep .colorBurn) .rgba .nrgba (200 : UInt8).toUInt32 ⟨100, 50, 25, 180⟩ ⟨10, 250, 128, 90⟩ =
      .ok ⟨73, 156, 46, 182⟩ := by
  refine ⟨fun _ => by decide, fun h => (by cases h), ?_⟩
  rfl

/-- **C45 (negation)** `Add` wraps around: two opaque mid-grey pixels, whose sum is just above white, give black instead
of white. -/
theorem C45_add_wraps (F : FloatLum) :
    draw16 F (.sep .add) .nrgba .rgba (255 : UInt8).toUInt32 ⟨128, 128, 128, 255⟩ ⟨128, 128, 128, 255⟩ = .ok ⟨0, 0, 0, 255⟩ ∧
    ¬ Composite16 F (.sep .add) .nrgba .rgba 255 ⟨128, 128, 128, 255⟩ ⟨128, 128, 128, 255⟩ ⟨0, 0, 0, 255⟩ ∧
    Composite16 F (.sep .add) .nrgba .rgba 255 ⟨128, 128, 128, 255⟩ ⟨128, 128, 128, 255⟩ ⟨255, 255, 255, 255⟩ := by
  have e1 : effective ⟨128, 128, 128, 255⟩ 255 = 65535 := by decide +kernel
  have e2 : alpha16 65535 ((255 : UInt8).toNat * 257) = 65535 := by decide +kernel
  have e3 : sums16 F (.sep .add) .nrgba .rgba 255 ⟨128, 128, 128, 255⟩ ⟨128, 128, 128, 255⟩ =
      ⟨4311678720, 4311678720, 4311678720⟩ := by
    unfold sums16 blendN16
    dsimp only
    decide +kernel
  have key : ∀ p : Px, Composite16 F (.sep .add) .nrgba .rgba 255 ⟨128, 128, 128, 255⟩ ⟨128, 128, 128, 255⟩ p ↔
      p.a.toNat = 255 ∧ p.r.toNat = 255 ∧ p.g.toNat = 255 ∧ p.b.toNat = 255 := by
    intro p
    unfold Composite16
    dsimp only
    rw [e1, e2, e3, if_neg (by decide)]
    have f : min 65535 (4311678720 / divN16 .rgba 65535) / 256 = 255 := by decide +kernel
    rw [f]
  refine ⟨rfl, ?_, ?_⟩
  · rw [key]; decide
  · rw [key]; decide

/-- **C45** `Add` is exact where no channel exceeds the scale. -/
theorem C45_add_in_range (F : FloatLum) (sk dk : PixKind) (op : UInt8) (s d : Px) (hs : s.Valid sk) (hd : d.Valid dk)
    (hr : (s.colour sk).r + (d.colour dk).r ≤ 65535) (hg : (s.colour sk).g + (d.colour dk).g ≤ 65535)
    (hb : (s.colour sk).b + (d.colour dk).b ≤ 65535) :
    ∃ p, draw16 F (.sep .add) sk dk op.toUInt32 s d = .ok p ∧ Composite16 F (.sep .add) sk dk op.toNat s d p := by
  apply C45_no_wrap_partial F _ _ _ _ _ _ hs hd
  intro _
  have bt : effective s op.toNat ≤ 65535 := by
    unfold effective
    have := s.a.toNat_lt
    have := op.toNat_lt
    exact Nat.le_trans (scale16_le (by omega)) (by omega)
  have bd : d.a.toNat * 257 ≤ 65535 := by have := d.a.toNat_lt; omega
  have wl := alpha16_le bt bd
  have cs := colour_le sk s hs
  have cd := colour_le dk d hd
  refine ⟨?_, ?_, ?_⟩
  · exact Nat.le_of_lt_succ (mixed_lt hr cs.1 cd.1 wl)
  · exact Nat.le_of_lt_succ (mixed_lt hg cs.2.1 cd.2.1 wl)
  · exact Nat.le_of_lt_succ (mixed_lt hb cs.2.2 cd.2.2 wl)

example (F : FloatLum) :
    draw16 F (.sep .add) .nrgba .rgba (255 : UInt8).toUInt32 ⟨100, 60, 30, 255⟩ ⟨100, 60, 30, 255⟩ = .ok ⟨200, 120, 60, 255⟩ := by rfl

theorem draw16_composite {F : FloatLum} {m : Mode} {sk dk : PixKind} {op : UInt8} {s d p : Px}
    (hs : s.Valid sk) (hd : d.Valid dk) (hadd : m = .sep .add → (sums16 F m sk dk op.toNat s d).Le 4294967295)
    (h : draw16 F m sk dk op.toUInt32 s d = .ok p) : Composite16 F m sk dk op.toNat s d p := by
  obtain ⟨q, hq, hc⟩ := C45_no_wrap_partial F m sk dk op s d hs hd hadd
  rw [hq] at h
  cases h
  exact hc

theorem composite16_unique {F : FloatLum} {m : Mode} {sk dk : PixKind} {op : Nat} {s d p q : Px}
    (h1 : Composite16 F m sk dk op s d p) (h2 : Composite16 F m sk dk op s d q) : p = q := by
  unfold Composite16 at h1 h2
  dsimp only at h1 h2
  split at h1
  · rename_i h
    rw [if_pos h] at h2
    rw [h1, h2]
  · rename_i h
    rw [if_neg h] at h2
    obtain ⟨a1, r1, g1, b1⟩ := h1
    obtain ⟨a2, r2, g2, b2⟩ := h2
    exact px_ext (r1.trans r2.symm) (g1.trans g2.symm) (b1.trans b2.symm) (a1.trans a2.symm)

theorem draw16_of_composite {F : FloatLum} {m : Mode} {sk dk : PixKind} {op : UInt8} {s d p : Px}
    (hs : s.Valid sk) (hd : d.Valid dk) (hadd : m = .sep .add → (sums16 F m sk dk op.toNat s d).Le 4294967295)
    (h : Composite16 F m sk dk op.toNat s d p) : draw16 F m sk dk op.toUInt32 s d = .ok p := by
  obtain ⟨q, hq, hc⟩ := C45_no_wrap_partial F m sk dk op s d hs hd hadd
  rw [hq, composite16_unique hc h]

/-- **C45 (partial)** An RGBA image stays premultiplied, in every mode but `Add`. -/
theorem C45_stays_premultiplied_partial (F : FloatLum) (m : Mode) (hm : m ≠ .sep .add) (sk dk : PixKind) (op : UInt8)
    (s d p : Px) (hs : s.Valid sk) (hd : d.Valid dk) (h : draw16 F m sk dk op.toUInt32 s d = .ok p) : p.Valid dk := by
  have hc := draw16_composite hs hd (fun h => absurd h hm) h
  intro hk
  subst hk
  have cs := colour_le sk s hs
  have cd := colour_le .rgba d hd
  have cb := blendN16_le F m hm cs cd
  unfold Composite16 at hc
  dsimp only at hc
  split at hc
  · subst hc
    exact hd rfl
  · obtain ⟨ha, hr, hg, hb⟩ := hc
    have key : ∀ x y z, x ≤ 65535 → y ≤ 65535 → z ≤ 65535 →
        min 65535 (mixed (effective s op.toNat) (d.a.toNat * 257) x y z / 65535) / 256 ≤
          alpha16 (effective s op.toNat) (d.a.toNat * 257) / 256 := by
      intro x y z hx hy hz
      have b := mean_le (a1 := weight1 (effective s op.toNat) (d.a.toNat * 257))
        (a2 := weight2 (effective s op.toNat) (d.a.toNat * 257)) (a3 := weight3 (effective s op.toNat) (d.a.toNat * 257)) hx hy hz
      apply Nat.div_le_div_right
      exact Nat.le_trans (Nat.min_le_right _ _) (Nat.div_le_of_le_mul b)
    refine ⟨UInt8.le_iff_toNat_le.2 ?_, UInt8.le_iff_toNat_le.2 ?_, UInt8.le_iff_toNat_le.2 ?_⟩
    · rw [ha, hr]; exact key _ _ _ cb.1 cs.1 cd.1
    · rw [ha, hg]; exact key _ _ _ cb.2.1 cs.2.1 cd.2.1
    · rw [ha, hb]; exact key _ _ _ cb.2.2 cs.2.2 cd.2.2

/-- `Add` breaks the contract: it can leave a colour above its alpha. -/
example (F : FloatLum) : draw16 F (.sep .add) .nrgba .rgba (255 : UInt8).toUInt32 ⟨250, 0, 0, 130⟩ ⟨125, 0, 0, 130⟩ =
    .ok ⟨253, 0, 0, 194⟩ := by rfl

/-! ## C41: transparent sources -/

/-- **C41** A fully transparent source pixel, or opacity 0, leaves the destination as it is: RGBA images. -/
theorem C41_transparent_rgba (F : FloatLum) (m : Mode) (sk dk : PixKind) (op : UInt8) (s d : Px) (h : s.a = 0 ∨ op = 0) :
    draw16 F m sk dk op.toUInt32 s d = .ok d := by
  have e : (widen s).a * (op.toUInt32 * 0x0101) / 0xffff = 0 := by
    apply UInt32.toNat_inj.1
    have wsa : (widen s).a.toNat = s.a.toNat * 257 := wide8 _
    have eo : (op.toUInt32 * 0x0101).toNat = op.toNat * 257 := wide8 op
    rw [UInt32.toNat_div, UInt32.toNat_mul, wsa, eo]
    rcases h with h | h
    · rw [h]; simp
    · rw [h]; simp
  unfold draw16
  dsimp only
  rw [if_pos e]

example : (⟨0, 0, 0, 0⟩ : Px).a = 0 ∨ (255 : UInt8) = 0 := .inl rfl

/-! ## C42: alpha -/

/-- **C42 (partial)** The 16-bit alpha `a` of the result, whose high byte is stored, is the union alpha
`t + da - t*da/65535` rounded down, or up to two below that (`t` is the effective source alpha, `da` the backdrop's). The
stored alpha never decreases, and is 255 if the backdrop or the effective source is opaque. The converse of the last
part does not hold (`C42_rounds_up_to_opaque`). -/
theorem C42_alpha16_partial (F : FloatLum) (m : Mode) (sk dk : PixKind) (op : UInt8) (s d p : Px)
    (hs : s.Valid sk) (hd : d.Valid dk) (hadd : m = .sep .add → (sums16 F m sk dk op.toNat s d).Le 4294967295)
    (h : draw16 F m sk dk op.toUInt32 s d = .ok p) :
    let t := effective s op.toNat
    let da := d.a.toNat * 257
    (∃ a, p.a.toNat = a / 256 ∧ 65535 * a + t * da ≤ 65535 * t + 65535 * da ∧
      65535 * t + 65535 * da < 65535 * (a + 3) + t * da) ∧
    d.a ≤ p.a ∧
    (t = 65535 ∨ d.a = 255 → p.a = 255) := by
  have hc := draw16_composite hs hd hadd h
  have bt : effective s op.toNat ≤ 65535 := by
    unfold effective
    have := s.a.toNat_lt
    have := op.toNat_lt
    exact Nat.le_trans (scale16_le (by omega)) (by omega)
  have hdl := d.a.toNat_lt
  unfold Composite16 at hc
  dsimp only at hc ⊢
  generalize effective s op.toNat = t at *
  generalize hD : d.a.toNat * 257 = da at *
  have m1 : t * da + t * (65535 - da) = t * 65535 := by rw [← Nat.mul_add]; congr 1; omega
  have m2 : t * da + (65535 - t) * da = 65535 * da := by rw [← Nat.add_mul]; congr 1; omega
  obtain ⟨A, hA⟩ : ∃ A, A = alpha16 t da := ⟨_, rfl⟩
  have hA' : A = t * da / 65535 + t * (65535 - da) / 65535 + (65535 - t) * da / 65535 := hA
  rw [← hA] at hc
  clear hA
  have e255 : ∀ x : UInt8, x = 255 ↔ x.toNat = 255 := fun x => UInt8.toNat_inj.symm
  rw [e255, e255, UInt8.le_iff_toNat_le]
  have r : 65535 * A + t * da ≤ 65535 * t + 65535 * da ∧ 65535 * t + 65535 * da < 65535 * (A + 3) + t * da ∧
      da ≤ A + 1 := by omega
  have full : t = 65535 ∨ d.a.toNat = 255 → A = 65535 := by
    rintro (h | h)
    · subst h; omega
    · have e : da = 65535 := by rw [← hD, h]
      subst e; omega
  by_cases h0 : t = 0
  · rw [if_pos (.inl h0)] at hc
    subst hc
    subst h0
    exact ⟨⟨da, by omega, by omega, by omega⟩, Nat.le_refl _, by omega⟩
  · have hA0 : A ≠ 0 := by
      intro h
      subst h
      by_cases hz : da = 0
      · subst hz; omega
      · have : (65535 - t) * 257 ≤ (65535 - t) * da := Nat.mul_le_mul_left _ (by omega)
        omega
    rw [if_neg (by rintro (h | h) <;> omega)] at hc
    refine ⟨⟨A, hc.1, r.1, r.2.1⟩, by rw [hc.1]; omega, fun hf => ?_⟩
    rw [hc.1, full hf]

example (F : FloatLum) : draw16 F (.sep .screen) .nrgba .rgba (255 : UInt8).toUInt32 ⟨200, 100, 50, 128⟩ ⟨10, 20, 30, 255⟩ =
    .ok ⟨106, 66, 52, 255⟩ := by rfl

/-- **C42 (negation)** On RGBA images alpha 255 is stored although neither the backdrop nor the source is opaque. -/
theorem C42_rounds_up_to_opaque (F : FloatLum) :
    draw16 F (.sep .normal) .nrgba .rgba (255 : UInt8).toUInt32 ⟨0, 0, 0, 254⟩ ⟨0, 0, 0, 254⟩ = .ok ⟨0, 0, 0, 255⟩ := by rfl

/-! ## C43: replacing -/

/-- What an image of kind `dk` holds for an opaque colour is the colour itself. -/
theorem opaque_colour (k : PixKind) (p : Px) (h : p.a = 255) :
    p.colour k = ⟨p.r.toNat * 257, p.g.toNat * 257, p.b.toNat * 257⟩ := by
  unfold Px.colour
  cases k with
  | nrgba => rfl
  | rgba =>
    unfold straight
    rw [h, show (255 : UInt8).toNat * 257 = 65535 from rfl]
    dsimp only
    rw [Nat.mul_div_cancel _ (by decide), Nat.mul_div_cancel _ (by decide), Nat.mul_div_cancel _ (by decide)]

/-- **C43** Normal mode at full opacity with an opaque source stores the source pixel: RGBA images. -/
theorem C43_opaque_normal_rgba (F : FloatLum) (sk dk : PixKind) (s d : Px) (hd : d.Valid dk) (h : s.a = 255) :
    draw16 F (.sep .normal) sk dk (255 : UInt8).toUInt32 s d = .ok s := by
  have hs : s.Valid sk := fun _ => by
    rw [h]
    have f : ∀ x : UInt8, x ≤ 255 := fun x => UInt8.le_iff_toNat_le.2 (by have := x.toNat_lt; simp; omega)
    exact ⟨f _, f _, f _⟩
  apply draw16_of_composite hs hd (fun h => by cases h)
  have et : effective s (255 : UInt8).toNat = 65535 := by unfold effective; rw [h]; rfl
  have hdl := d.a.toNat_lt
  unfold Composite16 sums16
  dsimp only
  obtain ⟨da, hD⟩ : ∃ da, d.a.toNat * 257 = da := ⟨_, rfl⟩
  rw [et, opaque_colour sk s h, hD]
  have w1 : weight1 65535 da = da := by unfold weight1 scale16; rw [Nat.mul_div_cancel_left _ (by decide)]
  have w2 : weight2 65535 da = 65535 - da := by unfold weight2 scale16; rw [Nat.mul_div_cancel_left _ (by decide)]
  have w3 : weight3 65535 da = 0 := by unfold weight3 scale16; rw [Nat.sub_self, Nat.zero_mul]
  have ea : alpha16 65535 da = 65535 := by unfold alpha16; rw [w1, w2, w3]; omega
  rw [ea, if_neg (by decide)]
  have ek : divN16 dk 65535 = 65535 := by cases dk <;> rfl
  rw [ek]
  have key : ∀ (x : UInt8) (y : Nat), x.toNat = min 65535 (mixed 65535 da (x.toNat * 257) (x.toNat * 257) y / 65535) / 256 := by
    intro x y
    have hx := x.toNat_lt
    unfold mixed
    rw [w1, w2, w3, ← Nat.mul_add, show da + (65535 - da) = 65535 by omega, Nat.mul_zero, Nat.add_zero,
      Nat.mul_div_cancel _ (by decide)]
    omega
  exact ⟨by rw [h]; rfl, key _ _, key _ _, key _ _⟩

example (F : FloatLum) : draw16 F (.sep .normal) .rgba .nrgba (255 : UInt8).toUInt32 ⟨1, 2, 3, 255⟩ ⟨9, 200, 9, 100⟩ =
    .ok ⟨1, 2, 3, 255⟩ := by rfl

/-- **C43** Onto a fully transparent pixel every blend mode stores the source colour with the effective alpha: in an
NRGBA image the colour itself, in an RGBA image multiplied by the effective alpha. -/
theorem C43_onto_transparent_rgba (F : FloatLum) (m : Mode) (sk dk : PixKind) (op : UInt8) (s d p : Px)
    (hs : s.Valid sk) (hd : d.Valid dk) (h0 : d.a = 0) (ht : effective s op.toNat ≠ 0)
    (h : draw16 F m sk dk op.toUInt32 s d = .ok p) :
    let t := effective s op.toNat
    let f (x : Nat) : Nat := match dk with | .nrgba => x / 256 | .rgba => scale16 x t / 256
    p.a.toNat = t / 256 ∧ p.r.toNat = f (s.colour sk).r ∧ p.g.toNat = f (s.colour sk).g ∧ p.b.toNat = f (s.colour sk).b := by
  have bt : effective s op.toNat ≤ 65535 := by
    unfold effective
    have := s.a.toNat_lt
    have := op.toNat_lt
    exact Nat.le_trans (scale16_le (by omega)) (by omega)
  have hz : d.a.toNat * 257 = 0 := by rw [h0]; rfl
  have w1 : ∀ t, weight1 t 0 = 0 := fun t => by unfold weight1 scale16; rw [Nat.mul_zero]
  have w2 : ∀ t, weight2 t 0 = t := fun t => by unfold weight2 scale16; rw [Nat.sub_zero, Nat.mul_div_cancel _ (by decide)]
  have w3 : ∀ t, weight3 t 0 = 0 := fun t => by unfold weight3 scale16; rw [Nat.mul_zero]
  have em : ∀ t x y z, mixed t 0 x y z = y * t := fun t x y z => by unfold mixed; rw [w1, w2, w3]; omega
  have ea : ∀ t, alpha16 t 0 = t := fun t => by unfold alpha16; rw [w1, w2, w3]; omega
  have cs := colour_le sk s hs
  have hc := draw16_composite hs hd (fun _ => by
    unfold sums16
    rw [hz]
    refine ⟨?_, ?_, ?_⟩
    · show mixed _ _ _ _ _ ≤ _
      rw [em]; exact Nat.le_trans (mul16 cs.1 bt) (by decide)
    · show mixed _ _ _ _ _ ≤ _
      rw [em]; exact Nat.le_trans (mul16 cs.2.1 bt) (by decide)
    · show mixed _ _ _ _ _ ≤ _
      rw [em]; exact Nat.le_trans (mul16 cs.2.2 bt) (by decide)) h
  unfold Composite16 sums16 mixedRGB at hc
  dsimp only at hc ⊢
  rw [hz] at hc
  generalize effective s op.toNat = t at *
  rw [ea, if_neg (by omega), em, em, em] at hc
  obtain ⟨c1, c2, c3, c4⟩ := hc
  refine ⟨c1, ?_⟩
  cases dk with
  | nrgba =>
    have f : ∀ x, x ≤ 65535 → min 65535 (x * t / t) / 256 = x / 256 := fun x hx => by
      rw [Nat.mul_div_cancel _ (by omega)]; omega
    unfold divN16 at c2 c3 c4
    dsimp only at c2 c3 c4
    rw [f _ cs.1] at c2
    rw [f _ cs.2.1] at c3
    rw [f _ cs.2.2] at c4
    exact ⟨c2, c3, c4⟩
  | rgba =>
    have f : ∀ x, x ≤ 65535 → min 65535 (x * t / 65535) / 256 = scale16 x t / 256 := fun x hx => by
      have : scale16 x t ≤ t := scale16_le hx
      unfold scale16 at this ⊢
      omega
    unfold divN16 at c2 c3 c4
    dsimp only at c2 c3 c4
    rw [f _ cs.1] at c2
    rw [f _ cs.2.1] at c3
    rw [f _ cs.2.2] at c4
    exact ⟨c2, c3, c4⟩

example : (⟨9, 8, 7, 100⟩ : Px).Valid .rgba ∧ effective ⟨9, 8, 7, 100⟩ (200 : UInt8).toNat ≠ 0 := ⟨fun _ => by decide, by decide⟩

/-! ## The fallback for all other images -/

theorem low16 (v : UInt32) (h : v.toNat ≤ 65535) : v &&& 0xffff = v := by
  apply UInt32.toNat_inj.1
  rw [UInt32.toNat_and, n65535, show 65535 = 2 ^ 16 - 1 from rfl, Nat.and_two_pow_sub_one_eq_mod]
  exact Nat.mod_eq_of_lt (by omega)

theorem out16 (c s d a1 a2 a3 a : UInt32) (hc : c.toNat ≤ 65535) (hs : s.toNat ≤ 65535) (hd : d.toNat ≤ 65535)
    (hl : a1.toNat + a2.toNat + a3.toNat ≤ 65535) :
    ∃ v, fallbackOut false c s d a1 a2 a3 a = .ok v ∧
      v.toNat = (c.toNat * a1.toNat + s.toNat * a2.toNat + d.toNat * a3.toNat) / 65535 ∧
      v.toNat ≤ a1.toNat + a2.toNat + a3.toNat := by
  have hsum := sum16 c s d a1 a2 a3 (mixed_lt hc hs hd hl)
  have b := mean_le (a1 := a1.toNat) (a2 := a2.toNat) (a3 := a3.toNat) hc hs hd
  have e : ((c * a1 + s * a2 + d * a3) / 0xffff).toNat =
      (c.toNat * a1.toNat + s.toNat * a2.toNat + d.toNat * a3.toNat) / 65535 := by
    rw [UInt32.toNat_div, hsum]; rfl
  have hle : ((c * a1 + s * a2 + d * a3) / 0xffff).toNat ≤ a1.toNat + a2.toNat + a3.toNat := by
    rw [e]; exact Nat.div_le_of_le_mul b
  refine ⟨_, rfl, ?_⟩
  rw [low16 _ (Nat.le_trans hle hl)]
  exact ⟨e, hle⟩

/-- **C45 (partial)** For images of any other type, every mode except `Add` passes the exact result to `Set`, which is
again a premultiplied colour. Missing: `Add` (`C45_fallback_add_is_off`). -/
theorem C45_fallback_partial (F : FloatLum) (m : Mode) (hm : m ≠ .sep .add) (ma : UInt32) (hma : ma.toNat ≤ 65535)
    (s d : RGBA32) (hs : Premultiplied s) (hd : Premultiplied d) :
    ∃ out, drawFB F m ma s d = .ok out ∧ CompositeFB F m ma.toNat s d out ∧ ∀ p, out = some p → Premultiplied p := by
  have et : (s.a * ma / 0xffff).toNat = scale16 s.a.toNat ma.toNat := scaleU16 _ _ hs.1 hma
  have bt : scale16 s.a.toNat ma.toNat ≤ 65535 := Nat.le_trans (scale16_le hs.1) hma
  unfold drawFB CompositeFB
  simp only
  rw [← et] at bt ⊢
  generalize s.a * ma / 0xffff = T at *
  obtain ⟨w1, w2, w3, wa⟩ := weights16 T d.a bt hd.1
  have wl := alpha16_le bt hd.1
  by_cases h0 : ma = 0
  · rw [if_pos h0]
    exact ⟨none, rfl, by rw [if_pos (.inl (by rw [h0]; rfl))], fun p h => by cases h⟩
  · have h0' : ma.toNat ≠ 0 := fun h => h0 (UInt32.toNat_inj.1 h)
    rw [if_neg h0]
    by_cases ha : T * d.a / 0xffff + T * (0xffff - d.a) / 0xffff + (0xffff - T) * d.a / 0xffff = 0
    · rw [if_pos ha]
      exact ⟨none, rfl, by rw [if_pos (.inr (by rw [← wa, ha]; rfl))], fun p h => by cases h⟩
    · have ha' : alpha16 T.toNat d.a.toNat ≠ 0 := fun h => ha (UInt32.toNat_inj.1 (by rw [wa, h]; rfl))
      rw [if_neg ha]
      simp only [if_neg (show ¬ (ma.toNat = 0 ∨ alpha16 T.toNat d.a.toNat = 0) from fun h => h.elim h0' ha')]
      obtain ⟨S, hS, bS, eS⟩ := straight16_exact s hs
      obtain ⟨Q, hQ, bQ, eQ⟩ := straight16_exact d hd
      obtain ⟨c, hc, ec⟩ := blend16_exact F m S Q bS bQ
      have hle : c.ints.Le 65535 := by rw [ec]; exact blendN16_le F m hm bS bQ
      have eS' : s.colour = S.ints := eS.symm
      have eQ' : d.colour = Q.ints := eQ.symm
      rw [eS', eQ', ← ec]
      have hM : ∀ x y z, mixed T.toNat d.a.toNat x y z = x * weight1 T.toNat d.a.toNat + y * weight2 T.toNat d.a.toNat +
          z * weight3 T.toNat d.a.toNat := fun _ _ _ => rfl
      have hR : ∀ x y z : RGB Nat, mixedRGB T.toNat d.a.toNat x y z = ⟨mixed T.toNat d.a.toNat x.r y.r z.r,
          mixed T.toNat d.a.toNat x.g y.g z.g, mixed T.toNat d.a.toNat x.b y.b z.b⟩ := fun _ _ _ => rfl
      have ea : alpha16 T.toNat d.a.toNat = weight1 T.toNat d.a.toNat + weight2 T.toNat d.a.toNat + weight3 T.toNat d.a.toNat := rfl
      rw [hR, hM, hM, hM]
      rw [ea] at wl wa ⊢
      rw [← w1, ← w2, ← w3] at *
      generalize T * d.a / 0xffff = a1 at *
      generalize T * (0xffff - d.a) / 0xffff = a2 at *
      generalize (0xffff - T) * d.a / 0xffff = a3 at *
      have hov : m.overMax = false := by unfold Mode.overMax; exact decide_eq_false hm
      rw [hov]
      obtain ⟨r, r1, r2, r3⟩ := out16 c.r S.r Q.r a1 a2 a3 (a1 + a2 + a3) hle.1 bS.1 bQ.1 wl
      obtain ⟨g, g1, g2, g3⟩ := out16 c.g S.g Q.g a1 a2 a3 (a1 + a2 + a3) hle.2.1 bS.2.1 bQ.2.1 wl
      obtain ⟨b, b1, b2, b3⟩ := out16 c.b S.b Q.b a1 a2 a3 (a1 + a2 + a3) hle.2.2 bS.2.2 bQ.2.2 wl
      refine ⟨_, (bind_of_ok hS _).trans ((bind_of_ok hQ _).trans ((bind_of_ok hc _).trans ((bind_of_ok r1 _).trans
        ((bind_of_ok g1 _).trans (bind_of_ok b1 _))))), ⟨_, rfl, ?_, r2, g2, b2⟩, ?_⟩
      · show ((a1 + a2 + a3) &&& 0xffff).toNat = _
        rw [low16 _ (by omega), wa]
      · intro p hp
        cases hp
        unfold Premultiplied
        dsimp only
        rw [low16 _ (by omega), wa]
        exact ⟨wl, r3, g3, b3⟩

/-- A half transparent source through a half transparent mask over a translucent backdrop. -/
example (F : FloatLum) : Premultiplied ⟨20000, 10000, 0, 40000⟩ ∧ Premultiplied ⟨0, 10000, 20000, 30000⟩ ∧
    drawFB F (.sep .multiply) 0x8000 ⟨20000, 10000, 0, 40000⟩ ⟨0, 10000, 20000, 30000⟩ = .ok (some ⟨5421, 10421, 13896, 40843⟩) := by
  exact ⟨by unfold Premultiplied; decide, by unfold Premultiplied; decide, rfl⟩

/-- **C45 (negation)** `Add` through the fallback multiplies by the alpha twice: a half transparent white pixel drawn
onto nothing becomes grey, where the exact result is white at half alpha. -/
theorem C45_fallback_add_is_off (F : FloatLum) :
    drawFB F (.sep .add) 0xffff ⟨0x8080, 0x8080, 0x8080, 0x8080⟩ ⟨0, 0, 0, 0⟩ =
      .ok (some ⟨16512, 16512, 16512, 0x8080⟩) ∧
    ¬ CompositeFB F (.sep .add) 0xffff ⟨0x8080, 0x8080, 0x8080, 0x8080⟩ ⟨0, 0, 0, 0⟩ (some ⟨16512, 16512, 16512, 0x8080⟩) := by
  refine ⟨rfl, ?_⟩
  intro h
  unfold CompositeFB blendN16 at h
  dsimp only at h
  rw [if_neg (by decide +kernel)] at h
  obtain ⟨p, hp, _, hr, _⟩ := h
  cases hp
  revert hr
  decide +kernel

/-- **C41 (partial)** Through the fallback, a fully transparent mask leaves the pixel alone. A fully transparent source
stores the destination's own alpha and colour, each channel the same or one 16-bit level lower (`C41_fallback_requantises`);
over an opaque pixel it is the same. -/
theorem C41_fallback_partial (F : FloatLum) (m : Mode) (hm : m ≠ .sep .add) (ma : UInt32) (hma : ma.toNat ≤ 65535)
    (s d : RGBA32) (hs : Premultiplied s) (hd : Premultiplied d) :
    drawFB F m 0 s d = .ok none ∧
    (s.a = 0 → drawFB F m ma s d = .ok none ∨ ∃ p, drawFB F m ma s d = .ok (some p) ∧ p.a = d.a ∧
      (d.a = 0xffff → p = d) ∧
      p.r.toNat ≤ d.r.toNat ∧ d.r.toNat ≤ p.r.toNat + 1 ∧ p.g.toNat ≤ d.g.toNat ∧ d.g.toNat ≤ p.g.toNat + 1 ∧
      p.b.toNat ≤ d.b.toNat ∧ d.b.toNat ≤ p.b.toNat + 1) := by
  refine ⟨rfl, fun h0 => ?_⟩
  obtain ⟨out, h1, h2, _⟩ := C45_fallback_partial F m hm ma hma s d hs hd
  rw [h1]
  have et : scale16 s.a.toNat ma.toNat = 0 := by
    rw [h0]; unfold scale16; rw [show (0 : UInt32).toNat = 0 from rfl, Nat.zero_mul]
  unfold CompositeFB at h2
  dsimp only at h2
  rw [et] at h2
  have w1 : ∀ t, weight1 0 t = 0 := fun t => by unfold weight1 scale16; rw [Nat.zero_mul]
  have w2 : ∀ t, weight2 0 t = 0 := fun t => by unfold weight2 scale16; rw [Nat.zero_mul]
  have w3 : ∀ t, weight3 0 t = t := fun t => by unfold weight3 scale16; rw [Nat.sub_zero, Nat.mul_div_cancel_left _ (by decide)]
  have ea : ∀ t, alpha16 0 t = t := fun t => by unfold alpha16; rw [w1, w2, w3]; omega
  have em : ∀ t x y z, mixed 0 t x y z = z * t := fun t x y z => by unfold mixed; rw [w1, w2, w3]; omega
  unfold mixedRGB at h2
  dsimp only at h2
  rw [ea, em, em, em] at h2
  split at h2
  · left; rw [h2]
  · right
    obtain ⟨p, hp, pa, pr, pg, pb⟩ := h2
    have hpos : 0 < d.a.toNat := by omega
    have key : ∀ x : Nat, straight x d.a.toNat * d.a.toNat / 65535 ≤ x ∧ x ≤ straight x d.a.toNat * d.a.toNat / 65535 + 1 ∧
        (d.a.toNat = 65535 → straight x d.a.toNat * d.a.toNat / 65535 = x) := by
      intro x
      have ha := hd.1
      have e1 : straight x d.a.toNat * d.a.toNat ≤ x * 65535 := Nat.div_mul_le_self _ _
      have e2 : x * 65535 < straight x d.a.toNat * d.a.toNat + d.a.toNat := by
        have := Nat.lt_div_mul_add (a := x * 65535) hpos
        exact this
      refine ⟨by omega, by omega, fun h => ?_⟩
      rw [h]
      unfold straight
      rw [Nat.mul_div_cancel _ (by decide), Nat.mul_div_cancel _ (by decide)]
    have kr := key d.r.toNat
    have kg := key d.g.toNat
    have kb := key d.b.toNat
    have pr' : p.r.toNat = straight d.r.toNat d.a.toNat * d.a.toNat / 65535 := pr
    have pg' : p.g.toNat = straight d.g.toNat d.a.toNat * d.a.toNat / 65535 := pg
    have pb' : p.b.toNat = straight d.b.toNat d.a.toNat * d.a.toNat / 65535 := pb
    rw [← pr'] at kr
    rw [← pg'] at kg
    rw [← pb'] at kb
    refine ⟨p, by rw [hp], UInt32.toNat_inj.1 pa, fun h => ?_, kr.1, kr.2.1, kg.1, kg.2.1, kb.1, kb.2.1⟩
    have h' : d.a.toNat = 65535 := by rw [h]; rfl
    obtain ⟨a, b, c, e⟩ := p
    have q1 := UInt32.toNat_inj.1 (kr.2.2 h')
    have q2 := UInt32.toNat_inj.1 (kg.2.2 h')
    have q3 := UInt32.toNat_inj.1 (kb.2.2 h')
    have q4 := UInt32.toNat_inj.1 pa
    dsimp only at q1 q2 q3 q4
    rw [q1, q2, q3, q4]

/-- **C41 (negation)** Through the fallback, a fully transparent source pixel does not leave the destination alone: its
colour is divided by its alpha and multiplied back, losing a level. -/
theorem C41_fallback_requantises (F : FloatLum) :
    drawFB F (.sep .normal) 0xffff ⟨0, 0, 0, 0⟩ ⟨10001, 0, 0, 30000⟩ = .ok (some ⟨10000, 0, 0, 30000⟩) := by rfl

/-- **C43** Through the fallback, normal mode with an opaque source and no mask stores the source colour. -/
theorem C43_fallback_opaque_normal (F : FloatLum) (s d : RGBA32) (hs : Premultiplied s) (hd : Premultiplied d) (h : s.a = 0xffff) :
    drawFB F (.sep .normal) 0xffff s d = .ok (some s) := by
  obtain ⟨out, h1, h2, _⟩ := C45_fallback_partial F (.sep .normal) (by decide) 0xffff (by decide) s d hs hd
  rw [h1]
  have ea' : s.a.toNat = 65535 := by rw [h]; rfl
  have hda := hd.1
  unfold CompositeFB at h2
  dsimp only at h2
  have et : scale16 s.a.toNat (0xffff : UInt32).toNat = 65535 := by
    rw [ea', n65535]; unfold scale16; rw [Nat.mul_div_cancel _ (by decide)]
  have ec : s.colour = ⟨s.r.toNat, s.g.toNat, s.b.toNat⟩ := by
    unfold RGBA32.colour straight
    rw [ea', Nat.mul_div_cancel _ (by decide), Nat.mul_div_cancel _ (by decide), Nat.mul_div_cancel _ (by decide)]
  have w1 : ∀ t, weight1 65535 t = t := fun t => by unfold weight1 scale16; rw [Nat.mul_div_cancel_left _ (by decide)]
  have w2 : ∀ t, weight2 65535 t = 65535 - t := fun t => by unfold weight2 scale16; rw [Nat.mul_div_cancel_left _ (by decide)]
  have w3 : ∀ t, weight3 65535 t = 0 := fun t => by unfold weight3 scale16; rw [Nat.sub_self, Nat.zero_mul]
  have em : ∀ t x z, t ≤ 65535 → mixed 65535 t x x z / 65535 = x := fun t x z ht => by
    unfold mixed
    rw [w1, w2, w3, ← Nat.mul_add, Nat.add_sub_cancel' ht, Nat.mul_zero, Nat.add_zero, Nat.mul_div_cancel _ (by decide)]
  have ea : alpha16 65535 d.a.toNat = 65535 := by unfold alpha16; rw [w1, w2, w3]; omega
  rw [et, ea, ec, if_neg (by decide)] at h2
  obtain ⟨p, hp, pa, pr, pg, pb⟩ := h2
  have pr' : p.r.toNat = s.r.toNat := pr.trans (em _ _ _ hda)
  have pg' : p.g.toNat = s.g.toNat := pg.trans (em _ _ _ hda)
  have pb' : p.b.toNat = s.b.toNat := pb.trans (em _ _ _ hda)
  rw [hp]
  obtain ⟨a, b, c, e⟩ := p
  have q1 := UInt32.toNat_inj.1 pr'
  have q2 := UInt32.toNat_inj.1 pg'
  have q3 := UInt32.toNat_inj.1 pb'
  have q4 := UInt32.toNat_inj.1 (pa.trans ea'.symm)
  dsimp only at q1 q2 q3 q4
  rw [q1, q2, q3, q4]

example (F : FloatLum) : drawFB F (.sep .normal) 0xffff ⟨1, 2, 60000, 0xffff⟩ ⟨10001, 0, 0, 30000⟩ = .ok (some ⟨1, 2, 60000, 0xffff⟩) := by rfl

end Psd
