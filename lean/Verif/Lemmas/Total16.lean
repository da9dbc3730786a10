import Verif.Lemmas.Kernel8
import Verif.Model.Blend16

/-!
The kernels of the blend modes have a result for every pixel, also for colours brighter than their alpha and any opacity: no division is by zero.
-/

namespace Psd

theorem divU32_total {a b : UInt32} (h : b ≠ 0) : divU32 a b = .ok (a / b) := by
  unfold divU32; rw [if_neg h]

theorem sub_ne_zero32 {a b : UInt32} (h : b ≠ a) : a - b ≠ 0 := by
  intro e; exact h (by rw [← UInt32.sub_add_cancel a b, e, UInt32.zero_add])

theorem hardMixTmp16_total (s d : UInt32) : ∃ v, chan16.hardMixTmp16 s d = .ok v := by
  unfold chan16.hardMixTmp16
  split
  · split
    · exact ⟨_, rfl⟩
    · split
      · exact ⟨_, rfl⟩
      · rename_i h; rw [divU32_total h]; exact ⟨_, rfl⟩
  · split
    · exact ⟨_, rfl⟩
    · split
      · exact ⟨_, rfl⟩
      · rename_i h; rw [divU32_total (sub_ne_zero32 h)]; exact ⟨_, rfl⟩

theorem chan16_total (m : Sep) (s d : UInt32) : ∃ v, chan16 m s d = .ok v := by
  cases m <;> try exact ⟨_, rfl⟩
  case colorBurn =>
    simp only [chan16]
    split
    · exact ⟨_, rfl⟩
    · split
      · exact ⟨_, rfl⟩
      · rename_i h; rw [divU32_total h]; exact ⟨_, rfl⟩
  case colorDodge =>
    simp only [chan16]
    split
    · exact ⟨_, rfl⟩
    · split
      · exact ⟨_, rfl⟩
      · rename_i h; rw [divU32_total (sub_ne_zero32 h)]; exact ⟨_, rfl⟩
  case divide =>
    simp only [chan16]
    split
    · exact ⟨_, rfl⟩
    · split
      · exact ⟨_, rfl⟩
      · rename_i h; rw [divU32_total h]; exact ⟨_, rfl⟩
  case vividLight =>
    simp only [chan16]
    split
    · split
      · exact ⟨_, rfl⟩
      · rename_i h; rw [divU32_total h]; exact ⟨_, rfl⟩
    · split
      · exact ⟨_, rfl⟩
      · rename_i h; rw [divU32_total (sub_ne_zero32 h)]; exact ⟨_, rfl⟩
  case hardMix =>
    simp only [chan16]
    obtain ⟨v, h⟩ := hardMixTmp16_total s d
    rw [h]; exact ⟨_, rfl⟩
  all_goals
    simp only [chan16]
    split <;> exact ⟨_, rfl⟩

theorem setSatMinMidMax_total (a b c s : UInt32) : ∃ v, setSatMinMidMax a b c s = .ok v := by
  unfold setSatMinMidMax
  split
  · rename_i h
    have : c ≠ a := by rintro rfl; exact absurd h (by simp)
    rw [divU32_total (sub_ne_zero32 this.symm)]
    exact ⟨_, rfl⟩
  · exact ⟨_, rfl⟩

theorem setSat_total (c : RGB UInt32) (s : UInt32) : ∃ v, setSat c s = .ok v := by
  unfold setSat
  split_ifs
  all_goals
    obtain ⟨v, h⟩ := setSatMinMidMax_total _ _ _ s
    rw [h]; exact ⟨_, rfl⟩

/-- No blend mode divides by zero, whatever the channels. -/
theorem blend16_total (F : FloatLum) (m : Mode) (s d : RGB UInt32) : ∃ c, blend16 F m s d = .ok c := by
  cases m with
  | sep m =>
    obtain ⟨r, hr⟩ := chan16_total m s.r d.r
    obtain ⟨g, hg⟩ := chan16_total m s.g d.g
    obtain ⟨b, hb⟩ := chan16_total m s.b d.b
    simp only [blend16]
    rw [hr, hg, hb]; exact ⟨_, rfl⟩
  | darkerColor => exact ⟨_, rfl⟩
  | lighterColor => exact ⟨_, rfl⟩
  | nonSep n =>
    cases n
    · obtain ⟨c, h⟩ := setSat_total s (sat d)
      simp only [blend16]; rw [h]; exact ⟨_, rfl⟩
    · obtain ⟨c, h⟩ := setSat_total d (sat s)
      simp only [blend16]; rw [h]; exact ⟨_, rfl⟩
    · exact ⟨_, rfl⟩
    · exact ⟨_, rfl⟩

theorem straight16_total (v : RGBA32) : ∃ c, straight16 v = .ok c := by
  unfold straight16
  split
  · exact ⟨_, rfl⟩
  · rename_i h
    split
    · rw [divU32_total h, divU32_total h, divU32_total h]; exact ⟨_, rfl⟩
    · exact ⟨_, rfl⟩

theorem colour16_total (k : PixKind) (v : RGBA32) : ∃ c, colour16 k v = .ok c := by
  cases k
  · exact straight16_total v
  · exact ⟨_, rfl⟩

theorem draw16_total (F : FloatLum) (m : Mode) (sk dk : PixKind) (alpha : UInt32) (s d : Px) : ∃ p, draw16 F m sk dk alpha s d = .ok p := by
  unfold draw16
  dsimp only
  split
  · exact ⟨_, rfl⟩
  · split
    · exact ⟨_, rfl⟩
    · rename_i ha
      obtain ⟨sc, hs⟩ := colour16_total sk (widen s)
      obtain ⟨dc, hd⟩ := colour16_total dk (widen d)
      obtain ⟨c, hc⟩ := blend16_total F m sc dc
      have hk : ∀ a : UInt32, a ≠ 0 → divisor16 dk a ≠ 0 := by
        intro a h; cases dk
        · show (0xffff : UInt32) ≠ 0; decide
        · exact h
      rw [hs]
      simp only [Res.ok_bind]
      rw [hd]
      simp only [Res.ok_bind]
      rw [hc]
      simp only [Res.ok_bind]
      simp only [divU32_total (hk _ ha), Res.ok_bind]
      exact ⟨_, rfl⟩

theorem fallbackOut_total (over : Bool) (c s d a1 a2 a3 : UInt32) {a : UInt32} (h : a ≠ 0) : ∃ v, fallbackOut over c s d a1 a2 a3 a = .ok v := by
  unfold fallbackOut
  rw [if_neg h]
  split <;> exact ⟨_, rfl⟩

theorem drawFB_total (F : FloatLum) (m : Mode) (ma : UInt32) (s d : RGBA32) : ∃ p, drawFB F m ma s d = .ok p := by
  unfold drawFB
  split
  · exact ⟨_, rfl⟩
  · dsimp only
    split
    · exact ⟨_, rfl⟩
    · rename_i ha
      obtain ⟨sc, hs⟩ := straight16_total s
      obtain ⟨dc, hd⟩ := straight16_total d
      obtain ⟨c, hc⟩ := blend16_total F m sc dc
      rw [hs, Res.ok_bind, hd, Res.ok_bind, hc, Res.ok_bind]
      obtain ⟨r, hr⟩ := fallbackOut_total m.overMax c.r sc.r dc.r _ _ _ ha
      obtain ⟨g, hg⟩ := fallbackOut_total m.overMax c.g sc.g dc.g _ _ _ ha
      obtain ⟨b, hb⟩ := fallbackOut_total m.overMax c.b sc.b dc.b _ _ _ ha
      rw [hr, Res.ok_bind, hg, Res.ok_bind, hb]
      exact ⟨_, rfl⟩

theorem drawNN_total (m : Mode) (alpha : UInt32) (s d : Px) : ∃ p, drawNN m alpha s d = .ok p := by
  have b8 : ∀ x : UInt8, x.toUInt32.toNat ≤ 255 := by
    intro x; rw [UInt8.toNat_toUInt32]; have := x.toNat_lt; omega
  unfold drawNN
  dsimp only
  split
  · exact ⟨_, rfl⟩
  · split
    · exact ⟨_, rfl⟩
    · rename_i ha
      obtain ⟨c, hc, _⟩ := blend8_exact m ⟨s.r.toUInt32, s.g.toUInt32, s.b.toUInt32⟩ ⟨d.r.toUInt32, d.g.toUInt32, d.b.toUInt32⟩ ⟨b8 _, b8 _, b8 _⟩ ⟨b8 _, b8 _, b8 _⟩
      rw [hc, Res.ok_bind]
      simp only [divU32_total ha, Res.ok_bind]
      exact ⟨_, rfl⟩

end Psd
