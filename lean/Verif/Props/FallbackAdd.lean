import Verif.Props.Blend16

/-!
# Theorem C45 for `Add` through the fallback
-/

namespace Psd

theorem clip6416_nat (v : UInt64) : (clip6416 v).toNat = min v.toNat 65535 := by
  unfold clip6416
  have h6 : (0xffff : UInt64).toNat = 65535 := rfl
  split
  · rename_i h
    rw [UInt64.lt_iff_toNat_lt, h6] at h
    rw [UInt64.toNat_toUInt32]
    omega
  · rename_i h
    rw [UInt64.lt_iff_toNat_lt, h6] at h
    have : (0xffff : UInt32).toNat = 65535 := rfl
    omega

/-- One channel of `Add` in the fallback. -/
theorem out16_add (c s d a1 a2 a3 a : UInt32) (hc : c.toNat ≤ 131070) (hs : s.toNat ≤ 65535) (hd : d.toNat ≤ 65535) (hl : a1.toNat + a2.toNat + a3.toNat ≤ 65535)
    (ha : a.toNat ≠ 0) (ha' : a.toNat ≤ 65535) :
    ∃ v, fallbackOut true c s d a1 a2 a3 a = .ok v ∧
      v.toNat = min ((s.toNat * a2.toNat + d.toNat * a3.toNat) / 65535 + c.toNat * a1.toNat / a.toNat) 65535 * a.toNat / 65535 ∧ v.toNat ≤ a.toNat := by
  have h0 : a ≠ 0 := fun h => ha (by rw [h]; rfl)
  have b2 : s.toNat * a2.toNat ≤ 65535 * a2.toNat := Nat.mul_le_mul_right _ hs
  have b3 : d.toNat * a3.toNat ≤ 65535 * a3.toNat := Nat.mul_le_mul_right _ hd
  have b1 : c.toNat * a1.toNat ≤ 131070 * a1.toNat := Nat.mul_le_mul_right _ hc
  have e1 : (s * a2 + d * a3).toNat = s.toNat * a2.toNat + d.toNat * a3.toNat := by
    rw [UInt32.toNat_add, UInt32.toNat_mul, UInt32.toNat_mul, Nat.mod_eq_of_lt (a := s.toNat * a2.toNat) (by omega), Nat.mod_eq_of_lt (a := d.toNat * a3.toNat) (by omega), Nat.mod_eq_of_lt (by omega)]
  have q1 : c.toNat * a1.toNat / a.toNat ≤ c.toNat * a1.toNat := Nat.div_le_self _ _
  have e2 : ((s * a2 + d * a3).toUInt64 / 0xffff + c.toUInt64 * a1.toUInt64 / a.toUInt64).toNat = (s.toNat * a2.toNat + d.toNat * a3.toNat) / 65535 + c.toNat * a1.toNat / a.toNat := by
    rw [UInt64.toNat_add, UInt64.toNat_div, UInt64.toNat_div, UInt64.toNat_mul, UInt32.toNat_toUInt64, UInt32.toNat_toUInt64, UInt32.toNat_toUInt64, UInt32.toNat_toUInt64, e1,
      Nat.mod_eq_of_lt (a := c.toNat * a1.toNat) (by omega), show (0xffff : UInt64).toNat = 65535 from rfl, Nat.mod_eq_of_lt (by omega)]
  have e3 := clip6416_nat ((s * a2 + d * a3).toUInt64 / 0xffff + c.toUInt64 * a1.toUInt64 / a.toUInt64)
  rw [e2] at e3
  generalize (s.toNat * a2.toNat + d.toNat * a3.toNat) / 65535 + c.toNat * a1.toNat / a.toNat = w at e3 ⊢
  have b4 : min w 65535 * a.toNat ≤ 65535 * a.toNat := Nat.mul_le_mul_right _ (Nat.min_le_right _ _)
  have e4 : (clip6416 ((s * a2 + d * a3).toUInt64 / 0xffff + c.toUInt64 * a1.toUInt64 / a.toUInt64) * a / 0xffff).toNat = min w 65535 * a.toNat / 65535 := by
    rw [UInt32.toNat_div, UInt32.toNat_mul, e3, Nat.mod_eq_of_lt (by omega)]
    rfl
  refine ⟨_, ?_, e4, ?_⟩
  · unfold fallbackOut
    rw [if_pos rfl, if_neg h0, low16 _ (by omega)]
  · omega

/-- The pixel that `Add` passes to `Set`. -/
theorem fallback_add (F : FloatLum) (ma : UInt32) (hma : ma.toNat ≤ 65535) (s d : RGBA32) (hs : Premultiplied s) (hd : Premultiplied d) :
    let t := scale16 s.a.toNat ma.toNat
    let a := alpha16 t d.a.toNat
    let v := fun s' d' : Nat => min ((s' * weight2 t d.a.toNat + d' * weight3 t d.a.toNat) / 65535 + (s' + d') * weight1 t d.a.toNat / a) 65535 * a / 65535
    ∃ out, drawFB F (.sep .add) ma s d = .ok out ∧
      (if ma.toNat = 0 ∨ a = 0 then out = none
      else ∃ p, out = some p ∧ p.a.toNat = a ∧ p.r.toNat = v s.colour.r d.colour.r ∧ p.g.toNat = v s.colour.g d.colour.g ∧ p.b.toNat = v s.colour.b d.colour.b) ∧
      ∀ p, out = some p → Premultiplied p := by
  have et : (s.a * ma / 0xffff).toNat = scale16 s.a.toNat ma.toNat := scaleU16 _ _ hs.1 hma
  have bt : scale16 s.a.toNat ma.toNat ≤ 65535 := Nat.le_trans (scale16_le hs.1) hma
  unfold drawFB
  simp only
  rw [← et] at bt ⊢
  generalize s.a * ma / 0xffff = T at *
  obtain ⟨w1, w2, w3, wa⟩ := weights16 T d.a bt hd.1
  have wl := alpha16_le bt hd.1
  by_cases h0 : ma = 0
  · rw [if_pos h0]
    exact ⟨none, rfl, by rw [if_pos (.inl (by rw [h0]; rfl))], fun p h => by cases h⟩
  · have h0' : ma.toNat ≠ 0 := fun h => h0 (UInt32.toNat_inj.1 h)
    rw [if_neg h0]
    by_cases ha : T * d.a / 0xffff + T * (0xffff - d.a) / 0xffff + (0xffff - T) * d.a / 0xffff = 0
    · rw [if_pos ha]
      exact ⟨none, rfl, by rw [if_pos (.inr (by rw [← wa, ha]; rfl))], fun p h => by cases h⟩
    · have ha' : alpha16 T.toNat d.a.toNat ≠ 0 := fun h => ha (UInt32.toNat_inj.1 (by rw [wa, h]; rfl))
      rw [if_neg ha]
      simp only [if_neg (show ¬ (ma.toNat = 0 ∨ alpha16 T.toNat d.a.toNat = 0) from fun h => h.elim h0' ha')]
      obtain ⟨S, hS, bS, eS⟩ := straight16_exact s hs
      obtain ⟨Q, hQ, bQ, eQ⟩ := straight16_exact d hd
      obtain ⟨c, hc, ec⟩ := blend16_exact F (.sep .add) S Q bS bQ
      have eS' : s.colour = S.ints := eS.symm
      have eQ' : d.colour = Q.ints := eQ.symm
      have cr : c.r.toNat = S.r.toNat + Q.r.toNat := congrArg RGB.r ec
      have cg : c.g.toNat = S.g.toNat + Q.g.toNat := congrArg RGB.g ec
      have cb : c.b.toNat = S.b.toNat + Q.b.toNat := congrArg RGB.b ec
      obtain ⟨bS1, bS2, bS3⟩ := bS
      obtain ⟨bQ1, bQ2, bQ3⟩ := bQ
      rw [eS', eQ']
      have ea : alpha16 T.toNat d.a.toNat = weight1 T.toNat d.a.toNat + weight2 T.toNat d.a.toNat + weight3 T.toNat d.a.toNat := rfl
      rw [← wa] at ha' wl ⊢
      rw [← w1, ← w2, ← w3] at ea ⊢
      rw [← wa] at ea
      have hl := ea ▸ wl
      generalize T * d.a / 0xffff + T * (0xffff - d.a) / 0xffff + (0xffff - T) * d.a / 0xffff = A at *
      obtain ⟨r, r1, r2, r3⟩ := out16_add c.r S.r Q.r _ _ _ A (by omega) bS1 bQ1 hl ha' wl
      obtain ⟨g, g1, g2, g3⟩ := out16_add c.g S.g Q.g _ _ _ A (by omega) bS2 bQ2 hl ha' wl
      obtain ⟨b, b1, b2, b3⟩ := out16_add c.b S.b Q.b _ _ _ A (by omega) bS3 bQ3 hl ha' wl
      rw [cr] at r2
      rw [cg] at g2
      rw [cb] at b2
      refine ⟨_, (bind_of_ok hS _).trans ((bind_of_ok hQ _).trans ((bind_of_ok hc _).trans ((bind_of_ok r1 _).trans ((bind_of_ok g1 _).trans (bind_of_ok b1 _))))), ⟨_, rfl, ?_, r2, g2, b2⟩, ?_⟩
      · show (A &&& 0xffff).toNat = _
        rw [low16 _ wl]
      · intro p hp
        cases hp
        unfold Premultiplied
        dsimp only
        rw [low16 _ wl]
        exact ⟨wl, r3, g3, b3⟩

/-- **C45 (partial)** `Add` through the fallback always passes a premultiplied colour to `Set`, and over an opaque pixel it passes the sum, cut off at white, mixed with the pixel by the alpha `t` of the source through the mask:
exactly if the source is opaque, and otherwise each channel exactly or one 16-bit level lower. Missing: other pixels, over which the colours are too dark (`C45_fallback_add_is_off`). -/
theorem C45_fallback_add_partial (F : FloatLum) (ma : UInt32) (hma : ma.toNat ≤ 65535) (s d : RGBA32) (hs : Premultiplied s) (hd : Premultiplied d) :
    (∃ out, drawFB F (.sep .add) ma s d = .ok out ∧ ∀ p, out = some p → Premultiplied p) ∧
    (ma ≠ 0 → d.a = 0xffff → ∃ p, drawFB F (.sep .add) ma s d = .ok (some p) ∧ p.a = 0xffff ∧
      ∀ t, t = s.a.toNat * ma.toNat / 65535 → ∀ s' d' v : Nat, (s', d', v) ∈ [(s.colour.r, d.r.toNat, p.r.toNat), (s.colour.g, d.g.toNat, p.g.toNat), (s.colour.b, d.b.toNat, p.b.toNat)] →
        ∃ e, e = min (((s' + d') * t + d' * (65535 - t)) / 65535) 65535 ∧ v ≤ e ∧ e ≤ v + 1 ∧ (t = 65535 → v = min (s' + d') 65535)) := by
  obtain ⟨out, h1, h2, h3⟩ := fallback_add F ma hma s d hs hd
  refine ⟨⟨out, h1, h3⟩, fun hm ha => ?_⟩
  have hda : d.a.toNat = 65535 := by rw [ha]; rfl
  have bt : scale16 s.a.toNat ma.toNat ≤ 65535 := Nat.le_trans (scale16_le hs.1) hma
  have ht : scale16 s.a.toNat ma.toNat = s.a.toNat * ma.toNat / 65535 := rfl
  rw [ht] at h2 bt
  generalize hT : s.a.toNat * ma.toNat / 65535 = t at h2 bt
  rw [hda] at h2
  have k1 : weight1 t 65535 = t := Nat.mul_div_cancel _ (by decide)
  have k2 : weight2 t 65535 = 0 := by
    show t * (65535 - 65535) / 65535 = 0
    rw [Nat.sub_self, Nat.mul_zero, Nat.zero_div]
  have k3 : weight3 t 65535 = 65535 - t := Nat.mul_div_cancel _ (by decide)
  have ka : alpha16 t 65535 = 65535 := by
    show weight1 t 65535 + weight2 t 65535 + weight3 t 65535 = 65535
    omega
  have hm' : ma.toNat ≠ 0 := fun h => hm (UInt32.toNat_inj.1 h)
  rw [ka, k1, k2, k3, if_neg (by omega)] at h2
  obtain ⟨p, rfl, e1, e2, e3, e4⟩ := h2
  refine ⟨p, h1, UInt32.toNat_inj.1 e1, ?_⟩
  intro t' ht' s' d' v hv
  subst ht'
  have opq : d.colour = ⟨d.r.toNat, d.g.toNat, d.b.toNat⟩ := by
    unfold RGBA32.colour straight
    rw [hda, Nat.mul_div_cancel _ (by decide), Nat.mul_div_cancel _ (by decide), Nat.mul_div_cancel _ (by decide)]
  rw [opq] at e2 e3 e4
  have main : ∀ s' d' v : Nat, v = min ((s' * 0 + d' * (65535 - t')) / 65535 + (s' + d') * t' / 65535) 65535 * 65535 / 65535 → ∃ e, e = min (((s' + d') * t' + d' * (65535 - t')) / 65535) 65535 ∧ v ≤ e ∧ e ≤ v + 1 ∧ (t' = 65535 → v = min (s' + d') 65535) := by
    intro s' d' v h
    refine ⟨_, rfl, ?_⟩
    rw [Nat.mul_div_cancel _ (by decide), Nat.mul_zero, Nat.zero_add] at h
    refine ⟨?_, ?_, ?_⟩
    · omega
    · omega
    · rintro rfl
      rw [Nat.sub_self, Nat.mul_zero, Nat.zero_div, Nat.zero_add, Nat.mul_div_cancel _ (by decide)] at h
      exact h
  simp only [List.mem_cons, List.not_mem_nil, or_false, Prod.mk.injEq] at hv
  rcases hv with ⟨rfl, rfl, rfl⟩ | ⟨rfl, rfl, rfl⟩ | ⟨rfl, rfl, rfl⟩
  · exact main _ _ _ e2
  · exact main _ _ _ e3
  · exact main _ _ _ e4


/-- An opaque source over an opaque pixel, of which the red is cut off; and a translucent one. -/
example (F : FloatLum) : Premultiplied ⟨40000, 10000, 0, 65535⟩ ∧ Premultiplied ⟨30000, 20000, 5, 65535⟩ ∧ Premultiplied ⟨30000, 10000, 0, 40000⟩ ∧
    drawFB F (.sep .add) 0xffff ⟨40000, 10000, 0, 65535⟩ ⟨30000, 20000, 5, 65535⟩ = .ok (some ⟨65535, 30000, 5, 65535⟩) ∧
    drawFB F (.sep .add) 0x8000 ⟨30000, 10000, 0, 40000⟩ ⟨30000, 20000, 5, 65535⟩ = .ok (some ⟨44999, 24999, 4, 65535⟩) := by
  exact ⟨by unfold Premultiplied; decide, by unfold Premultiplied; decide, by unfold Premultiplied; decide, rfl, rfl⟩

end Psd
