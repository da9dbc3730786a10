import Verif.Lemmas.BlendLaws

/-
Laws of the blend modes, for the kernels that draw pixels: neutral colours (C110), exchanging the layers (C111), brighter
layers give brighter pictures (C112), negatives (C113).
-/

namespace Psd

/-! ## C110: neutral colours -/

theorem byteFin (d : UInt8) : ∃ i : Fin 256, i.1 = d.toNat := ⟨⟨d.toNat, d.toNat_lt⟩, rfl⟩

theorem le255 (x : UInt8) : x.toNat ≤ 255 := by have := x.toNat_lt; omega

theorem full8 (m : Mode) (s d : Px) (hs : s.a = 255) (hd : d.a = 255) :
    let c := blendN m ⟨s.r.toNat, s.g.toNat, s.b.toNat⟩ ⟨d.r.toNat, d.g.toNat, d.b.toNat⟩
    ∃ p, drawNN m (255 : UInt8).toUInt32 s d = .ok p ∧ p.a = 255 ∧ p.r.toNat = min 255 c.r ∧ p.g.toNat = min 255 c.g ∧
      p.b.toNat = min 255 c.b := by
  obtain ⟨_, p, hp, ha, hr, hg, hb⟩ := over_opaque m 255 s d hd
  rw [hs, show (255 : UInt8).toNat * (255 : UInt8).toNat / 255 = 255 from rfl, mixOpaque_full (by decide)] at hr hg hb
  exact ⟨p, hp, ha, hr, hg, hb⟩

theorem full16 (F : FloatLum) (m : Mode) (hm : m ≠ .sep .add) (sk dk : PixKind) (s d : Px) (hs : s.a = 255) (hd : d.a = 255) :
    let c := blendN16 F m ⟨s.r.toNat * 257, s.g.toNat * 257, s.b.toNat * 257⟩ ⟨d.r.toNat * 257, d.g.toNat * 257, d.b.toNat * 257⟩
    ∃ p, draw16 F m sk dk (255 : UInt8).toUInt32 s d = .ok p ∧ p.a = 255 ∧ p.r.toNat = min 65535 c.r / 256 ∧
      p.g.toNat = min 65535 c.g / 256 ∧ p.b.toNat = min 65535 c.b / 256 := by
  obtain ⟨_, p, hp, ha, hr, hg, hb⟩ := over_opaque16 F m sk dk 255 s d (opaque_valid sk s hs) hd (fun e => absurd e hm)
  have et : effective s (255 : UInt8).toNat = 65535 := by unfold effective; rw [hs]; rfl
  rw [et, opaque_colour sk s hs, mixOpaque_full (by decide)] at hr hg hb
  exact ⟨p, hp, ha, hr, hg, hb⟩

theorem neutral_table (m : Sep) (g : UInt8) (hg : m.neutral = some g) (h1 : m ≠ .hardLight) (h2 : m ≠ .vividLight) :
    ∀ d : Fin 256, chanN m g.toNat d.1 = d.1 := by
  cases m <;> first | exact absurd rfl h1 | exact absurd rfl h2 | (cases hg; done) | (cases hg; decide +kernel)

theorem near_table (m : Sep) (h : m = .hardLight ∨ m = .vividLight) :
    ∀ d : Fin 256, chanN m 128 d.1 ≤ d.1 + 1 ∧ d.1 ≤ chanN m 128 d.1 + 1 ∧ chanN m 128 d.1 ≤ 255 := by
  rcases h with h | h <;> subst h <;> decide +kernel

/-- **C110 (partial)** A layer painted in its mode's neutral colour, whatever its alpha and opacity, leaves an opaque
backdrop as it is. Missing: hard light and vivid light (`C110_hard_light_is_off`, `C110_vivid_light_is_off`), which are at
most one level off (`C110_within_one_partial`). -/
theorem C110_neutral_partial (m : Sep) (g : UInt8) (hg : m.neutral = some g) (h1 : m ≠ .hardLight) (h2 : m ≠ .vividLight)
    (op a : UInt8) (d : Px) (hd : d.a = 255) : drawNN (.sep m) op.toUInt32 ⟨g, g, g, a⟩ d = .ok d := by
  obtain ⟨ht, p, hp, ha, hr, hg', hb⟩ := over_opaque (.sep m) op ⟨g, g, g, a⟩ d hd
  have key : ∀ x : UInt8, mixOpaque 255 (a.toNat * op.toNat / 255) (chanN m g.toNat x.toNat) x.toNat = x.toNat := by
    intro x
    have := x.toNat_lt
    have e := neutral_table m g hg h1 h2 ⟨x.toNat, x.toNat_lt⟩
    dsimp only at e
    rw [e]
    exact mixOpaque_same (by decide) ht (by omega)
  rw [hp]
  simp only [blendN] at hr hg' hb
  rw [key] at hr hg' hb
  rw [px_ext hr hg' hb (by rw [ha, hd])]

/-- **C110 (partial)** In hard light and vivid light 50% grey changes an opaque backdrop by at most one level. -/
theorem C110_within_one_partial (m : Sep) (h : m = .hardLight ∨ m = .vividLight) (op a : UInt8) (d : Px) (hd : d.a = 255) :
    ∃ p, drawNN (.sep m) op.toUInt32 ⟨128, 128, 128, a⟩ d = .ok p ∧ p.Near d := by
  obtain ⟨ht, p, hp, ha, hr, hg', hb⟩ := over_opaque (.sep m) op ⟨128, 128, 128, a⟩ d hd
  have key : ∀ x : UInt8, mixOpaque 255 (a.toNat * op.toNat / 255) (chanN m 128 x.toNat) x.toNat ≤ x.toNat + 1 ∧
      x.toNat ≤ mixOpaque 255 (a.toNat * op.toNat / 255) (chanN m 128 x.toNat) x.toNat + 1 := by
    intro x
    have := x.toNat_lt
    obtain ⟨e1, e2, e3⟩ := near_table m h ⟨x.toNat, x.toNat_lt⟩
    dsimp only at e1 e2 e3
    refine ⟨mixOpaque_le ht e1 (by omega), ?_⟩
    have := le_mixOpaque (K := 255) (t := a.toNat * op.toNat / 255) (c := chanN m 128 x.toNat) (d := x.toNat) (b := x.toNat - 1)
      (by decide) ht (by omega) (by omega) (by omega)
    omega
  refine ⟨p, hp, ?_, ?_, ?_, by rw [ha, hd]⟩
  · rw [hr]; exact key _
  · rw [hg']; exact key _
  · rw [hb]; exact key _

/-- **C110, negated** 50% grey in hard light darkens or brightens. -/
theorem C110_hard_light_is_off : ∃ d : Px, d.a = 255 ∧
    ∃ p, drawNN (.sep .hardLight) (255 : UInt8).toUInt32 ⟨128, 128, 128, 255⟩ d = .ok p ∧ p ≠ d :=
  ⟨⟨0, 0, 0, 255⟩, rfl, _, rfl, by decide⟩

/-- **C110, negated** 50% grey in vivid light brightens. -/
theorem C110_vivid_light_is_off : ∃ d : Px, d.a = 255 ∧
    ∃ p, drawNN (.sep .vividLight) (255 : UInt8).toUInt32 ⟨128, 128, 128, 255⟩ d = .ok p ∧ p ≠ d :=
  ⟨⟨254, 254, 254, 255⟩, rfl, _, rfl, by decide⟩

theorem neutral16_table (m : Sep) (g : UInt8) (hg : m.neutral = some g) (h : g ≠ 128 ∨ m = .softLight) :
    ∀ d : Fin 256, chanN16 m (g.toNat * 257) (d.1 * 257) = d.1 * 257 ∨
      chanN16 m (g.toNat * 257) (d.1 * 257) / 256 = d.1 ∧ m = .softLight := by
  cases m <;> first
    | (cases hg; done)
    | (cases hg; rcases h with h | h; (exact absurd rfl h); cases h; done)
    | (cases hg; decide +kernel)

theorem near16_table (m : Sep) (hg : m.neutral = some 128) :
    ∀ d : Fin 256, chanN16 m (128 * 257) (d.1 * 257) / 256 ≤ d.1 + 1 ∧ d.1 ≤ chanN16 m (128 * 257) (d.1 * 257) / 256 + 1 := by
  cases m <;> first | (cases hg; done) | decide +kernel

theorem neutral_add_fits (F : FloatLum) (sk dk : PixKind) (op : UInt8) (s d : Px) (hd : d.a = 255)
    (hc : s.colour sk = ⟨0, 0, 0⟩) : (sums16 F (.sep .add) sk dk op.toNat s d).Le 4294967295 := by
  have ht : effective s op.toNat ≤ 65535 := by
    unfold effective
    have := s.a.toNat_lt
    have := op.toNat_lt
    exact Nat.le_trans (scale16_le (by omega)) (by omega)
  unfold sums16
  rw [hc, opaque_colour dk d hd, hd, show (255 : UInt8).toNat * 257 = 65535 from rfl]
  have w1 : weight1 (effective s op.toNat) 65535 = effective s op.toNat := by
    unfold weight1 scale16; rw [Nat.mul_div_cancel _ (by decide)]
  have w3 : weight3 (effective s op.toNat) 65535 = 65535 - effective s op.toNat := by
    unfold weight3 scale16; rw [Nat.mul_div_cancel _ (by decide)]
  have key : ∀ x : UInt8, mixed (effective s op.toNat) 65535 (chanN16 .add 0 (x.toNat * 257)) 0 (x.toNat * 257) ≤ 4294967295 := by
    intro x
    have := x.toNat_lt
    unfold mixed
    rw [w1, w3, Nat.zero_mul, Nat.add_zero, show chanN16 .add 0 (x.toNat * 257) = x.toNat * 257 from Nat.zero_add _, ← Nat.mul_add,
      Nat.add_sub_cancel' ht]
    omega
  exact ⟨key _, key _, key _⟩

/-- **C110** The same for the kernels of the 16-bit scale, drawing RGBA or NRGBA pixels into RGBA or NRGBA images: a source
whose colour is its mode's neutral black or white, or 50% grey in soft light, leaves an opaque backdrop as it is. -/
theorem C110_neutral_rgba_partial (F : FloatLum) (m : Sep) (g : UInt8) (hg : m.neutral = some g) (h : g ≠ 128 ∨ m = .softLight)
    (sk dk : PixKind) (op : UInt8) (s d : Px) (hs : s.Valid sk) (hc : s.colour sk = ⟨g.toNat * 257, g.toNat * 257, g.toNat * 257⟩)
    (hd : d.a = 255) : draw16 F (.sep m) sk dk op.toUInt32 s d = .ok d := by
  have hadd : (Mode.sep m) = .sep .add → (sums16 F (.sep m) sk dk op.toNat s d).Le 4294967295 := by
    intro e
    cases e
    cases hg
    exact neutral_add_fits F sk dk op s d hd hc
  obtain ⟨ht, p, hp, ha, hr, hg', hb⟩ := over_opaque16 F (.sep m) sk dk op s d hs hd hadd
  simp only [blendN16, hc] at hr hg' hb
  have key : ∀ x : UInt8, mixOpaque 65535 (effective s op.toNat) (chanN16 m (g.toNat * 257) (x.toNat * 257)) (x.toNat * 257) / 256 =
      x.toNat := by
    intro x
    have := x.toNat_lt
    rcases neutral16_table m g hg h ⟨x.toNat, x.toNat_lt⟩ with e | ⟨e, _⟩ <;> dsimp only at e
    · rw [e, mixOpaque_same (by decide) ht (by omega)]
      omega
    · have h1 := mixOpaque_le (K := 65535) (b := x.toNat * 256 + 255) ht
        (show chanN16 m (g.toNat * 257) (x.toNat * 257) ≤ x.toNat * 256 + 255 by omega) (show x.toNat * 257 ≤ _ by omega)
      have h2 := le_mixOpaque (K := 65535) (b := x.toNat * 256) (by decide) ht (by omega)
        (show x.toNat * 256 ≤ chanN16 m (g.toNat * 257) (x.toNat * 257) by omega) (show _ ≤ x.toNat * 257 by omega)
      omega
  rw [key] at hr hg' hb
  rw [hp, px_ext hr hg' hb (by rw [ha, hd])]

/-- **C110 (partial)** On the 16-bit scale 50% grey changes an opaque backdrop by at most one level in the contrast modes. -/
theorem C110_grey_rgba_partial (F : FloatLum) (m : Sep) (hg : m.neutral = some 128) (sk dk : PixKind) (op : UInt8) (s d : Px)
    (hs : s.Valid sk) (hc : s.colour sk = ⟨128 * 257, 128 * 257, 128 * 257⟩) (hd : d.a = 255) :
    ∃ p, draw16 F (.sep m) sk dk op.toUInt32 s d = .ok p ∧ p.Near d := by
  obtain ⟨ht, p, hp, ha, hr, hg', hb⟩ := over_opaque16 F (.sep m) sk dk op s d hs hd (fun e => by cases e; cases hg)
  simp only [blendN16, hc] at hr hg' hb
  have key : ∀ x : UInt8,
      mixOpaque 65535 (effective s op.toNat) (chanN16 m (128 * 257) (x.toNat * 257)) (x.toNat * 257) / 256 ≤ x.toNat + 1 ∧
      x.toNat ≤ mixOpaque 65535 (effective s op.toNat) (chanN16 m (128 * 257) (x.toNat * 257)) (x.toNat * 257) / 256 + 1 := by
    intro x
    have := x.toNat_lt
    obtain ⟨e1, e2⟩ := near16_table m hg ⟨x.toNat, x.toNat_lt⟩
    dsimp only at e1 e2
    have h1 := mixOpaque_le (K := 65535) (b := x.toNat * 256 + 511) ht
      (show chanN16 m (128 * 257) (x.toNat * 257) ≤ x.toNat * 256 + 511 by omega) (show x.toNat * 257 ≤ _ by omega)
    have h2 := le_mixOpaque (K := 65535) (b := (x.toNat - 1) * 256) (by decide) ht (by omega)
      (show (x.toNat - 1) * 256 ≤ chanN16 m (128 * 257) (x.toNat * 257) by omega) (show _ ≤ x.toNat * 257 by omega)
    omega
  refine ⟨p, hp, ?_, ?_, ?_, by rw [ha, hd]⟩
  · rw [hr]; exact key _
  · rw [hg']; exact key _
  · rw [hb]; exact key _

/-- **C110, negated** On the 16-bit scale 50% grey changes some opaque backdrop in each contrast mode but soft light. -/
theorem C110_grey_rgba_is_off (F : FloatLum) (m : Sep) (hg : m.neutral = some 128) (h : m ≠ .softLight) (sk dk : PixKind) :
    ∃ d : Px, d.a = 255 ∧ ∃ p, draw16 F (.sep m) sk dk (255 : UInt8).toUInt32 ⟨128, 128, 128, 255⟩ d = .ok p ∧ p ≠ d := by
  have key : ∀ x : UInt8, min 65535 (chanN16 m (128 * 257) (x.toNat * 257)) / 256 ≠ x.toNat →
      ∃ d : Px, d.a = 255 ∧ ∃ p, draw16 F (.sep m) sk dk (255 : UInt8).toUInt32 ⟨128, 128, 128, 255⟩ d = .ok p ∧ p ≠ d := by
    intro x hx
    obtain ⟨p, hp, _, hr, _⟩ := full16 F (.sep m) (fun e => by cases e; cases hg) sk dk ⟨128, 128, 128, 255⟩ ⟨x, x, x, 255⟩ rfl rfl
    refine ⟨⟨x, x, x, 255⟩, rfl, p, hp, fun e => hx ?_⟩
    subst e
    exact hr.symm
  cases m <;> first
    | (cases hg; done)
    | exact absurd rfl h
    | exact key 0 (by decide +kernel)
    | exact key 130 (by decide +kernel)

example : drawNN (.sep .multiply) (200 : UInt8).toUInt32 ⟨255, 255, 255, 77⟩ ⟨3, 200, 101, 255⟩ = .ok ⟨3, 200, 101, 255⟩ :=
  C110_neutral_partial .multiply 255 rfl (by decide) (by decide) 200 77 _ rfl

example (F : FloatLum) : draw16 F (.sep .screen) .rgba .rgba (200 : UInt8).toUInt32 ⟨0, 0, 0, 77⟩ ⟨3, 200, 101, 255⟩ =
    .ok ⟨3, 200, 101, 255⟩ :=
  C110_neutral_rgba_partial F .screen 0 rfl (.inl (by decide)) .rgba .rgba 200 _ _ (fun _ => by decide) (by decide) rfl

/-! ## C111: exchanging the layers -/

theorem chanN_comm (m : Sep) (hm : m.commutative = true) (s d : Nat) (hs : s ≤ 255) (hd : d ≤ 255) : chanN m s d = chanN m d s := by
  cases m <;> first
    | (cases hm; done)
    | (simp only [chanN]; first | omega | (rw [Nat.mul_comm s d]; done) | (rw [Nat.mul_comm s d, Nat.add_comm s d]) |
        (rw [Nat.mul_comm s d, Nat.add_comm d s]) | (split_ifs <;> omega))

theorem chanN16_comm (m : Sep) (hm : m.commutative = true) (s d : Nat) (hs : s ≤ 65535) (hd : d ≤ 65535) :
    chanN16 m s d = chanN16 m d s := by
  cases m <;> first
    | (cases hm; done)
    | (simp only [chanN16]; first | omega | (rw [Nat.mul_comm s d]; done) | (rw [Nat.mul_comm s d, Nat.add_comm s d]) |
        (rw [Nat.mul_comm s d, Nat.add_comm d s]) | (split_ifs <;> omega))

/-- **C111** In a commutative mode it does not matter which of two opaque pixels is the source and which the backdrop. -/
theorem C111_commutative (m : Sep) (hm : m.commutative = true) (s d : Px) (hs : s.a = 255) (hd : d.a = 255) :
    drawNN (.sep m) (255 : UInt8).toUInt32 s d = drawNN (.sep m) (255 : UInt8).toUInt32 d s := by
  obtain ⟨p, hp, ha, hr, hg, hb⟩ := full8 (.sep m) s d hs hd
  obtain ⟨q, hq, ha', hr', hg', hb'⟩ := full8 (.sep m) d s hd hs
  simp only [blendN] at hr hg hb hr' hg' hb'
  rw [chanN_comm m hm _ _ (le255 _) (le255 _)] at hr hg hb
  rw [hp, hq, px_ext (hr.trans hr'.symm) (hg.trans hg'.symm) (hb.trans hb'.symm) (by rw [ha, ha'])]

theorem C111_commutative_rgba (F : FloatLum) (m : Sep) (hm : m.commutative = true) (h : m ≠ .add) (sk dk : PixKind) (s d : Px)
    (hs : s.a = 255) (hd : d.a = 255) :
    draw16 F (.sep m) sk dk (255 : UInt8).toUInt32 s d = draw16 F (.sep m) sk dk (255 : UInt8).toUInt32 d s := by
  obtain ⟨p, hp, ha, hr, hg, hb⟩ := full16 F (.sep m) (fun e => by cases e; exact h rfl) sk dk s d hs hd
  obtain ⟨q, hq, ha', hr', hg', hb'⟩ := full16 F (.sep m) (fun e => by cases e; exact h rfl) sk dk d s hd hs
  have b : ∀ x : UInt8, x.toNat * 257 ≤ 65535 := fun x => by have := x.toNat_lt; omega
  simp only [blendN16] at hr hg hb hr' hg' hb'
  rw [chanN16_comm m hm _ _ (b _) (b _)] at hr hg hb
  rw [hp, hq, px_ext (hr.trans hr'.symm) (hg.trans hg'.symm) (hb.trans hb'.symm) (by rw [ha, ha'])]

/-- Overlay and hard light with the channels exchanged differ by rounding only. -/
theorem overlay_hardLight (s d : Nat) (hs : s ≤ 255) (hd : d ≤ 255) :
    chanN .overlay s d ≤ chanN .hardLight d s ∧ chanN .hardLight d s ≤ chanN .overlay s d + 1 := by
  simp only [chanN]
  split_ifs with c
  · omega
  · obtain ⟨x, hx⟩ := Nat.exists_eq_add_of_le (show 255 ≤ 2 * d by omega)
    obtain ⟨y, hy⟩ := Nat.exists_eq_add_of_le hs
    obtain ⟨z, hz⟩ := Nat.exists_eq_add_of_le (show x ≤ 255 by omega)
    have e1 : 511 - 2 * d = z + 1 := by omega
    have e2 : 255 - s = y := by omega
    have e3 : 2 * d - 255 = x := by omega
    rw [e1, e2, e3]
    have e4 : s * x + 255 * y + 255 * z = z * y + 65025 := by
      have a : s = 255 - y := by omega
      have b : x = 255 - z := by omega
      zify [show y ≤ 255 by omega, show z ≤ 255 by omega] at a b ⊢
      rw [a, b]
      ring
    rw [Nat.add_mul, Nat.one_mul]
    omega

theorem overlay_hardLight16 (s d : Nat) (hs : s ≤ 65535) (hd : d ≤ 65535) :
    chanN16 .overlay s d ≤ chanN16 .hardLight d s ∧ chanN16 .hardLight d s ≤ chanN16 .overlay s d + 1 := by
  simp only [chanN16]
  split_ifs with c
  · omega
  · obtain ⟨x, hx⟩ := Nat.exists_eq_add_of_le (show 65535 ≤ 2 * d by omega)
    obtain ⟨y, hy⟩ := Nat.exists_eq_add_of_le hs
    obtain ⟨z, hz⟩ := Nat.exists_eq_add_of_le (show x ≤ 65535 by omega)
    have e1 : 131071 - 2 * d = z + 1 := by omega
    have e2 : 65535 - s = y := by omega
    have e3 : 2 * d - 65535 = x := by omega
    rw [e1, e2, e3]
    have e4 : s * x + 65535 * y + 65535 * z = z * y + 4294836225 := by
      have a : s = 65535 - y := by omega
      have b : x = 65535 - z := by omega
      zify [show y ≤ 65535 by omega, show z ≤ 65535 by omega] at a b ⊢
      rw [a, b]
      ring
    rw [Nat.add_mul, Nat.one_mul]
    omega

/-- **C111 (partial)** Overlay is hard light with the two layers exchanged, up to one level. Missing: equality, which fails
(`C111_overlay_is_off`). -/
theorem C111_overlay_partial (s d : Px) (hs : s.a = 255) (hd : d.a = 255) :
    ∃ p q, drawNN (.sep .overlay) (255 : UInt8).toUInt32 s d = .ok p ∧ drawNN (.sep .hardLight) (255 : UInt8).toUInt32 d s = .ok q ∧
      p.Near q ∧ p.Darker q := by
  obtain ⟨p, hp, ha, hr, hg, hb⟩ := full8 (.sep .overlay) s d hs hd
  obtain ⟨q, hq, ha', hr', hg', hb'⟩ := full8 (.sep .hardLight) d s hd hs
  simp only [blendN] at hr hg hb hr' hg' hb'
  have k1 := overlay_hardLight _ _ (le255 s.r) (le255 d.r)
  have k2 := overlay_hardLight _ _ (le255 s.g) (le255 d.g)
  have k3 := overlay_hardLight _ _ (le255 s.b) (le255 d.b)
  have f : ∀ {a b x y : Nat}, x = min 255 a → y = min 255 b → a ≤ b ∧ b ≤ a + 1 → (x ≤ y + 1 ∧ y ≤ x + 1) ∧ x ≤ y := by omega
  have f1 := f hr hr' k1
  have f2 := f hg hg' k2
  have f3 := f hb hb' k3
  exact ⟨p, q, hp, hq, ⟨f1.1, f2.1, f3.1, ha.trans ha'.symm⟩,
    ⟨UInt8.le_iff_toNat_le.2 f1.2, UInt8.le_iff_toNat_le.2 f2.2, UInt8.le_iff_toNat_le.2 f3.2, ha.trans ha'.symm⟩⟩

theorem C111_overlay_rgba_partial (F : FloatLum) (sk dk : PixKind) (s d : Px) (hs : s.a = 255) (hd : d.a = 255) :
    ∃ p q, draw16 F (.sep .overlay) sk dk (255 : UInt8).toUInt32 s d = .ok p ∧
      draw16 F (.sep .hardLight) sk dk (255 : UInt8).toUInt32 d s = .ok q ∧ p.Near q ∧ p.Darker q := by
  obtain ⟨p, hp, ha, hr, hg, hb⟩ := full16 F (.sep .overlay) (by intro e; cases e) sk dk s d hs hd
  obtain ⟨q, hq, ha', hr', hg', hb'⟩ := full16 F (.sep .hardLight) (by intro e; cases e) sk dk d s hd hs
  have b : ∀ x : UInt8, x.toNat * 257 ≤ 65535 := fun x => by have := x.toNat_lt; omega
  simp only [blendN16] at hr hg hb hr' hg' hb'
  have k1 := overlay_hardLight16 _ _ (b s.r) (b d.r)
  have k2 := overlay_hardLight16 _ _ (b s.g) (b d.g)
  have k3 := overlay_hardLight16 _ _ (b s.b) (b d.b)
  have f : ∀ {a b x y : Nat}, x = min 65535 a / 256 → y = min 65535 b / 256 → a ≤ b ∧ b ≤ a + 1 →
      (x ≤ y + 1 ∧ y ≤ x + 1) ∧ x ≤ y := by omega
  have f1 := f hr hr' k1
  have f2 := f hg hg' k2
  have f3 := f hb hb' k3
  exact ⟨p, q, hp, hq, ⟨f1.1, f2.1, f3.1, ha.trans ha'.symm⟩,
    ⟨UInt8.le_iff_toNat_le.2 f1.2, UInt8.le_iff_toNat_le.2 f2.2, UInt8.le_iff_toNat_le.2 f3.2, ha.trans ha'.symm⟩⟩

/-- **C111, negated** Overlay is not hard light with the layers exchanged. -/
theorem C111_overlay_is_off : ∃ s d : Px, s.a = 255 ∧ d.a = 255 ∧
    drawNN (.sep .overlay) (255 : UInt8).toUInt32 s d ≠ drawNN (.sep .hardLight) (255 : UInt8).toUInt32 d s :=
  ⟨⟨1, 1, 1, 255⟩, ⟨200, 200, 200, 255⟩, rfl, rfl, by decide +kernel⟩

/-! ## C112: brighter layers give brighter pictures -/

/-- **C112 (partial)** In every mode whose formula grows with the backdrop, except soft light, a brighter backdrop never
gives a darker result, whatever the alphas. Missing: soft light (`C112_soft_light_is_off`). -/
theorem C112_brighter_backdrop_partial (m : Sep) (hm : m.increasing = true) (hsoft : m ≠ .softLight) (op : UInt8)
    (s d d' p p' : Px) (h : d.Darker d') (hp : drawNN (.sep m) op.toUInt32 s d = .ok p)
    (hp' : drawNN (.sep m) op.toUInt32 s d' = .ok p') : p.Darker p' := by
  have c := draw_composite hp
  have c' := draw_composite hp'
  obtain ⟨h1, h2, h3, h4⟩ := h
  unfold Composite at c c'
  dsimp only at c c'
  rw [← h4] at c'
  split at c
  · rename_i h0
    rw [if_pos h0] at c'
    subst c c'
    exact ⟨h1, h2, h3, h4⟩
  · rename_i h0
    rw [if_neg h0] at c'
    obtain ⟨a1, r1, g1, b1⟩ := c
    obtain ⟨a2, r2, g2, b2⟩ := c'
    have key : ∀ (x y y' : UInt8) (w1 w2 w3 w : Nat), y ≤ y' →
        min 255 ((chanN m x.toNat y.toNat * w1 + x.toNat * w2 + y.toNat * w3) / w) ≤
        min 255 ((chanN m x.toNat y'.toNat * w1 + x.toNat * w2 + y'.toNat * w3) / w) := by
      intro x y y' w1 w2 w3 w hy
      have hy := UInt8.le_iff_toNat_le.1 hy
      have e1 := Nat.mul_le_mul_right w1 (chanN_mono m hm hsoft (le255 x) (le255 y') hy)
      have e2 := Nat.mul_le_mul_right w3 hy
      have e3 := Nat.div_le_div_right (c := w) (show chanN m x.toNat y.toNat * w1 + x.toNat * w2 + y.toNat * w3 ≤
        chanN m x.toNat y'.toNat * w1 + x.toNat * w2 + y'.toNat * w3 by omega)
      exact min_le_min_left _ e3
    refine ⟨UInt8.le_iff_toNat_le.2 ?_, UInt8.le_iff_toNat_le.2 ?_, UInt8.le_iff_toNat_le.2 ?_, UInt8.toNat_inj.1 (a1.trans a2.symm)⟩
    · rw [r1, r2]; exact key _ _ _ _ _ _ _ h1
    · rw [g1, g2]; exact key _ _ _ _ _ _ _ h2
    · rw [b1, b2]; exact key _ _ _ _ _ _ _ h3

/-- **C112** In every mode whose formula grows with the source, a brighter source never gives a darker result. -/
theorem C112_brighter_source (m : Sep) (hm : m.increasingInSource = true) (op : UInt8) (s s' d p p' : Px) (h : s.Darker s')
    (hp : drawNN (.sep m) op.toUInt32 s d = .ok p) (hp' : drawNN (.sep m) op.toUInt32 s' d = .ok p') : p.Darker p' := by
  have c := draw_composite hp
  have c' := draw_composite hp'
  obtain ⟨h1, h2, h3, h4⟩ := h
  unfold Composite at c c'
  dsimp only at c c'
  rw [← h4] at c'
  split at c
  · rename_i h0
    rw [if_pos h0] at c'
    subst c c'
    exact ⟨UInt8.le_refl _, UInt8.le_refl _, UInt8.le_refl _, rfl⟩
  · rename_i h0
    rw [if_neg h0] at c'
    obtain ⟨a1, r1, g1, b1⟩ := c
    obtain ⟨a2, r2, g2, b2⟩ := c'
    have key : ∀ (x x' y : UInt8) (w1 w2 w3 w : Nat), x ≤ x' →
        min 255 ((chanN m x.toNat y.toNat * w1 + x.toNat * w2 + y.toNat * w3) / w) ≤
        min 255 ((chanN m x'.toNat y.toNat * w1 + x'.toNat * w2 + y.toNat * w3) / w) := by
      intro x x' y w1 w2 w3 w hx
      have hx := UInt8.le_iff_toNat_le.1 hx
      have e1 := Nat.mul_le_mul_right w1 (chanN_mono_src m hm (le255 x') (le255 y) hx)
      have e2 := Nat.mul_le_mul_right w2 hx
      have e3 := Nat.div_le_div_right (c := w) (show chanN m x.toNat y.toNat * w1 + x.toNat * w2 + y.toNat * w3 ≤
        chanN m x'.toNat y.toNat * w1 + x'.toNat * w2 + y.toNat * w3 by omega)
      exact min_le_min_left _ e3
    refine ⟨UInt8.le_iff_toNat_le.2 ?_, UInt8.le_iff_toNat_le.2 ?_, UInt8.le_iff_toNat_le.2 ?_, UInt8.toNat_inj.1 (a1.trans a2.symm)⟩
    · rw [r1, r2]; exact key _ _ _ _ _ _ _ h1
    · rw [g1, g2]; exact key _ _ _ _ _ _ _ h2
    · rw [b1, b2]; exact key _ _ _ _ _ _ _ h3

/-- **C112, negated** White in soft light over a brighter backdrop gives a darker result. -/
theorem C112_soft_light_is_off : ∃ s d d' p p' : Px, d.Darker d' ∧ s.a = 255 ∧ d.a = 255 ∧
    drawNN (.sep .softLight) (255 : UInt8).toUInt32 s d = .ok p ∧ drawNN (.sep .softLight) (255 : UInt8).toUInt32 s d' = .ok p' ∧
    p'.r < p.r ∧ p'.g < p.g ∧ p'.b < p.b :=
  ⟨⟨255, 255, 255, 255⟩, ⟨59, 59, 59, 255⟩, ⟨63, 63, 63, 255⟩, ⟨113, 113, 113, 255⟩, ⟨111, 111, 111, 255⟩,
    ⟨by decide, by decide, by decide, rfl⟩, rfl, rfl, by decide +kernel, by decide +kernel, by decide, by decide, by decide⟩

theorem colour_mono (k : PixKind) {p q : Px} (h : p.Darker q) :
    (p.colour k).r ≤ (q.colour k).r ∧ (p.colour k).g ≤ (q.colour k).g ∧ (p.colour k).b ≤ (q.colour k).b := by
  obtain ⟨h1, h2, h3, h4⟩ := h
  have h1 := UInt8.le_iff_toNat_le.1 h1
  have h2 := UInt8.le_iff_toNat_le.1 h2
  have h3 := UInt8.le_iff_toNat_le.1 h3
  unfold Px.colour straight
  cases k with
  | nrgba => dsimp only; omega
  | rgba =>
    dsimp only
    rw [h4]
    exact ⟨Nat.div_le_div_right (by omega), Nat.div_le_div_right (by omega), Nat.div_le_div_right (by omega)⟩

/-- **C112** On the 16-bit scale a brighter backdrop never gives a darker result in any mode whose formula grows with the
backdrop, soft light included; `Add` wraps around (`C45_add_wraps`). -/
theorem C112_brighter_backdrop_rgba_partial (F : FloatLum) (m : Sep) (hm : m.increasing = true) (hadd : m ≠ .add) (sk dk : PixKind)
    (op : UInt8) (s d d' p p' : Px) (hs : s.Valid sk) (hd : d.Valid dk) (hd' : d'.Valid dk) (h : d.Darker d')
    (hp : draw16 F (.sep m) sk dk op.toUInt32 s d = .ok p) (hp' : draw16 F (.sep m) sk dk op.toUInt32 s d' = .ok p') :
    p.Darker p' := by
  have c := draw16_composite hs hd (fun e => by cases e; exact absurd rfl hadd) hp
  have c' := draw16_composite hs hd' (fun e => by cases e; exact absurd rfl hadd) hp'
  have hk := colour_mono dk h
  have bs := colour_le sk s hs
  have bd := colour_le dk d' hd'
  obtain ⟨h1, h2, h3, h4⟩ := h
  unfold Composite16 sums16 at c c'
  dsimp only at c c'
  rw [← h4] at c'
  split at c
  · rename_i h0
    rw [if_pos h0] at c'
    subst c c'
    exact ⟨h1, h2, h3, h4⟩
  · rename_i h0
    rw [if_neg h0] at c'
    obtain ⟨a1, r1, g1, b1⟩ := c
    obtain ⟨a2, r2, g2, b2⟩ := c'
    have key : ∀ (x y y' t da w : Nat), y ≤ y' → x ≤ 65535 → y' ≤ 65535 →
        min 65535 (mixed t da (chanN16 m x y) x y / w) / 256 ≤ min 65535 (mixed t da (chanN16 m x y') x y' / w) / 256 := by
      intro x y y' t da w hy bx by'
      apply Nat.div_le_div_right
      apply min_le_min_left
      apply Nat.div_le_div_right
      have e1 := Nat.mul_le_mul_right (weight1 t da) (chanN16_mono m hm bx by' hy)
      have e2 := Nat.mul_le_mul_right (weight3 t da) hy
      unfold mixed
      omega
    refine ⟨UInt8.le_iff_toNat_le.2 ?_, UInt8.le_iff_toNat_le.2 ?_, UInt8.le_iff_toNat_le.2 ?_, UInt8.toNat_inj.1 (a1.trans a2.symm)⟩
    · rw [r1, r2]; exact key _ _ _ _ _ _ hk.1 bs.1 bd.1
    · rw [g1, g2]; exact key _ _ _ _ _ _ hk.2.1 bs.2.1 bd.2.1
    · rw [b1, b2]; exact key _ _ _ _ _ _ hk.2.2 bs.2.2 bd.2.2

/-- **C112** On the 16-bit scale a brighter source never gives a darker result in any mode whose formula grows with the source,
but `Add`, which wraps around. -/
theorem C112_brighter_source_rgba_partial (F : FloatLum) (m : Sep) (hm : m.increasingInSource = true) (hadd : m ≠ .add)
    (sk dk : PixKind) (op : UInt8) (s s' d p p' : Px) (hs : s.Valid sk) (hs' : s'.Valid sk) (hd : d.Valid dk) (h : s.Darker s')
    (hp : draw16 F (.sep m) sk dk op.toUInt32 s d = .ok p) (hp' : draw16 F (.sep m) sk dk op.toUInt32 s' d = .ok p') :
    p.Darker p' := by
  have c := draw16_composite hs hd (fun e => by cases e; exact absurd rfl hadd) hp
  have c' := draw16_composite hs' hd (fun e => by cases e; exact absurd rfl hadd) hp'
  have hk := colour_mono sk h
  have bs := colour_le sk s' hs'
  have bd := colour_le dk d hd
  obtain ⟨h1, h2, h3, h4⟩ := h
  unfold Composite16 sums16 at c c'
  dsimp only at c c'
  rw [show effective s' op.toNat = effective s op.toNat by unfold effective; rw [h4]] at c'
  split at c
  · rename_i h0
    rw [if_pos h0] at c'
    subst c c'
    exact ⟨UInt8.le_refl _, UInt8.le_refl _, UInt8.le_refl _, rfl⟩
  · rename_i h0
    rw [if_neg h0] at c'
    obtain ⟨a1, r1, g1, b1⟩ := c
    obtain ⟨a2, r2, g2, b2⟩ := c'
    have key : ∀ (x x' y t da w : Nat), x ≤ x' → x' ≤ 65535 → y ≤ 65535 →
        min 65535 (mixed t da (chanN16 m x y) x y / w) / 256 ≤ min 65535 (mixed t da (chanN16 m x' y) x' y / w) / 256 := by
      intro x x' y t da w hx bx by'
      apply Nat.div_le_div_right
      apply min_le_min_left
      apply Nat.div_le_div_right
      have e1 := Nat.mul_le_mul_right (weight1 t da) (chanN16_mono_src m hm bx by' hx)
      have e2 := Nat.mul_le_mul_right (weight2 t da) hx
      unfold mixed
      omega
    refine ⟨UInt8.le_iff_toNat_le.2 ?_, UInt8.le_iff_toNat_le.2 ?_, UInt8.le_iff_toNat_le.2 ?_, UInt8.toNat_inj.1 (a1.trans a2.symm)⟩
    · rw [r1, r2]; exact key _ _ _ _ _ _ hk.1 bs.1 bd.1
    · rw [g1, g2]; exact key _ _ _ _ _ _ hk.2.1 bs.2.1 bd.2.1
    · rw [b1, b2]; exact key _ _ _ _ _ _ hk.2.2 bs.2.2 bd.2.2

example : ∃ p p', drawNN (.sep .overlay) (200 : UInt8).toUInt32 ⟨10, 200, 90, 100⟩ ⟨3, 200, 101, 60⟩ = .ok p ∧
    drawNN (.sep .overlay) (200 : UInt8).toUInt32 ⟨10, 200, 90, 100⟩ ⟨30, 201, 101, 60⟩ = .ok p' ∧ p.Darker p' ∧ p ≠ p' :=
  ⟨_, _, rfl, rfl, C112_brighter_backdrop_partial .overlay rfl (by decide) 200 ⟨10, 200, 90, 100⟩ ⟨3, 200, 101, 60⟩ ⟨30, 201, 101, 60⟩ _ _
    ⟨by decide, by decide, by decide, rfl⟩ rfl rfl, by decide⟩

/-! ## C113: negatives -/

theorem screen_dual {K s d : Nat} (hK : 0 < K) (hs : s ≤ K) (hd : d ≤ K) :
    K - s * d / K = (K - s) + (K - d) - (K - s) * (K - d) / K := by
  obtain ⟨y, rfl⟩ := Nat.exists_eq_add_of_le hs
  obtain ⟨z, hz⟩ := Nat.exists_eq_add_of_le hd
  have e1 : s + y - s = y := by omega
  have e2 : s + y - d = z := by omega
  rw [e1, e2]
  have e4 : y * z + (s + y) * (s + y) = s * d + (s + y) * (y + z) := by
    have b : d = s + y - z := by omega
    zify [show z ≤ s + y by omega] at b ⊢
    rw [b]
    ring
  have e5 : (y * z + (s + y) * (s + y)) / (s + y) = y * z / (s + y) + (s + y) := Nat.add_mul_div_left _ _ hK
  have e6 : (s * d + (s + y) * (y + z)) / (s + y) = s * d / (s + y) + (y + z) := Nat.add_mul_div_left _ _ hK
  rw [e4, e6] at e5
  have e7 : s * d / (s + y) ≤ s + y := Nat.div_le_of_le_mul (Nat.mul_le_mul (by omega) hd)
  omega

theorem chanN_dual (m n : Sep) (h : m.dual = some n) {s d : Nat} (hs : s ≤ 255) (hd : d ≤ 255) :
    chanN n (255 - s) (255 - d) = 255 - chanN m s d := by
  cases m <;> cases h <;> simp only [chanN]
  case darken => omega
  case lighten => omega
  case multiply => exact (screen_dual (by decide) hs hd).symm
  case screen =>
    have := screen_dual (K := 255) (s := 255 - s) (d := 255 - d) (by decide) (by omega) (by omega)
    rw [show 255 - (255 - s) = s by omega, show 255 - (255 - d) = d by omega] at this
    have : (255 - s) * (255 - d) / 255 ≤ 255 := Nat.div_le_of_le_mul (Nat.mul_le_mul (by omega) (by omega))
    omega
  case linearBurn => omega
  case linearDodge => omega
  case colorBurn =>
    rw [show 255 - (255 - s) = s by omega]
    generalize (255 - d) * 255 / s = x
    split_ifs <;> omega
  case colorDodge =>
    rw [show 255 - (255 - d) = d by omega]
    split_ifs <;> omega

theorem chanN16_dual (m n : Sep) (h : m.dual = some n) {s d : Nat} (hs : s ≤ 65535) (hd : d ≤ 65535) :
    chanN16 n (65535 - s) (65535 - d) = 65535 - chanN16 m s d := by
  cases m <;> cases h <;> simp only [chanN16]
  case darken => omega
  case lighten => omega
  case multiply => exact (screen_dual (by decide) hs hd).symm
  case screen =>
    have := screen_dual (K := 65535) (s := 65535 - s) (d := 65535 - d) (by decide) (by omega) (by omega)
    rw [show 65535 - (65535 - s) = s by omega, show 65535 - (65535 - d) = d by omega] at this
    have : (65535 - s) * (65535 - d) / 65535 ≤ 65535 := Nat.div_le_of_le_mul (Nat.mul_le_mul (by omega) (by omega))
    omega
  case linearBurn => omega
  case linearDodge => omega
  case colorBurn =>
    rw [show 65535 - (65535 - s) = s by omega]
    generalize (65535 - d) * 65535 / s = x
    split_ifs <;> omega
  case colorDodge =>
    rw [show 65535 - (65535 - d) = d by omega]
    split_ifs <;> omega

theorem negative_toNat (x : UInt8) : (255 - x).toNat = 255 - x.toNat := by
  have := x.toNat_lt
  rw [UInt8.toNat_sub_of_le _ _ (UInt8.le_iff_toNat_le.2 (by simp; omega))]
  rfl

/-- **C113** Drawing the negative of an opaque pixel over the negative of another, in the mode that `m` is paired with, gives
the negative of drawing the pixels themselves: darken and lighten, multiply and screen, colour burn and colour dodge, linear
burn and linear dodge. -/
theorem C113_negatives (m n : Sep) (h : m.dual = some n) (s d p : Px) (hs : s.a = 255) (hd : d.a = 255)
    (hp : drawNN (.sep m) (255 : UInt8).toUInt32 s d = .ok p) :
    drawNN (.sep n) (255 : UInt8).toUInt32 s.negative d.negative = .ok p.negative := by
  obtain ⟨q, hq, ha, hr, hg, hb⟩ := full8 (.sep m) s d hs hd
  rw [hp] at hq
  cases hq
  obtain ⟨q, hq, ha', hr', hg', hb'⟩ := full8 (.sep n) s.negative d.negative hs hd
  simp only [blendN, Px.negative, negative_toNat] at hr hg hb hr' hg' hb'
  rw [chanN_dual m n h (le255 _) (le255 _)] at hr' hg' hb'
  rw [hq]
  congr 1
  apply px_ext <;> simp only [Px.negative, negative_toNat]
  · rw [hr', hr]; omega
  · rw [hg', hg]; omega
  · rw [hb', hb]; omega
  · rw [ha', ha]

/-- **C113** The same on the 16-bit scale. -/
theorem C113_negatives_rgba (F : FloatLum) (m n : Sep) (h : m.dual = some n) (sk dk : PixKind) (s d p : Px) (hs : s.a = 255)
    (hd : d.a = 255) (hp : draw16 F (.sep m) sk dk (255 : UInt8).toUInt32 s d = .ok p) :
    draw16 F (.sep n) sk dk (255 : UInt8).toUInt32 s.negative d.negative = .ok p.negative := by
  obtain ⟨q, hq, ha, hr, hg, hb⟩ := full16 F (.sep m) (fun e => by cases e; cases h) sk dk s d hs hd
  rw [hp] at hq
  cases hq
  obtain ⟨q, hq, ha', hr', hg', hb'⟩ := full16 F (.sep n) (fun e => by cases e; cases m <;> cases h) sk dk s.negative d.negative hs hd
  have b : ∀ x : UInt8, x.toNat * 257 ≤ 65535 := fun x => by have := x.toNat_lt; omega
  have e : ∀ x : UInt8, (255 - x.toNat) * 257 = 65535 - x.toNat * 257 := fun x => by have := x.toNat_lt; omega
  simp only [blendN16, Px.negative, negative_toNat, e] at hr hg hb hr' hg' hb'
  rw [chanN16_dual m n h (b _) (b _)] at hr' hg' hb'
  have l : ∀ x y : UInt8, chanN16 m (x.toNat * 257) (y.toNat * 257) ≤ 65535 := fun x y =>
    (blendN16_le F (.sep m) (fun e => by cases e; cases h) (s := ⟨_, _, _⟩) (d := ⟨_, _, _⟩) ⟨b x, b x, b x⟩ ⟨b y, b y, b y⟩).1
  have l1 := l s.r d.r
  have l2 := l s.g d.g
  have l3 := l s.b d.b
  rw [hq]
  congr 1
  apply px_ext <;> simp only [Px.negative, negative_toNat]
  · rw [hr', hr]; omega
  · rw [hg', hg]; omega
  · rw [hb', hb]; omega
  · rw [ha', ha]

example : drawNN (.sep .screen) (255 : UInt8).toUInt32 ⟨55, 155, 254, 255⟩ ⟨250, 55, 100, 255⟩ =
    .ok (Px.negative ⟨3, 78, 0, 255⟩) :=
  C113_negatives .multiply .screen rfl ⟨200, 100, 1, 255⟩ ⟨5, 200, 155, 255⟩ ⟨3, 78, 0, 255⟩ rfl rfl rfl

end Psd
