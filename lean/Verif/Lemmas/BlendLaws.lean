import Verif.Spec.BlendLaws
import Verif.Props.Blend16

/-
Helpers for the laws of the blend modes (C110 to C113).
-/

namespace Psd

/-! ## Channels grow with the backdrop -/

theorem screen_mono {K s d e : Nat} (hK : 0 < K) (hs : s ≤ K) : s + d - s * d / K ≤ s + (d + e) - s * (d + e) / K := by
  have h1 : s * (d + e) / K ≤ s * d / K + e := by
    rw [← Nat.add_mul_div_right _ _ hK]
    apply Nat.div_le_div_right
    have : s * e ≤ K * e := Nat.mul_le_mul_right _ hs
    rw [Nat.mul_add, Nat.mul_comm e K]
    omega
  have h2 : s * d / K ≤ d := Nat.div_le_of_le_mul (Nat.mul_le_mul_right _ hs)
  omega

theorem chanN_mono (m : Sep) (hm : m.increasing = true) (hs : m ≠ .softLight) {s d d' : Nat} (bs : s ≤ 255) (bd : d' ≤ 255)
    (h : d ≤ d') : chanN m s d ≤ chanN m s d' := by
  obtain ⟨e, rfl⟩ := Nat.exists_eq_add_of_le h
  have hdiv : ∀ k, (255 - (d + e)) * 255 / k ≤ (255 - d) * 255 / k := fun k =>
    Nat.div_le_div_right (Nat.mul_le_mul_right _ (by omega))
  have hdi2 : ∀ k, d * 255 / k ≤ (d + e) * 255 / k := fun k => Nat.div_le_div_right (Nat.mul_le_mul_right _ (by omega))
  cases m with
  | softLight => exact absurd rfl hs
  | difference => cases hm
  | exclusion => cases hm
  | normal => exact Nat.le_refl _
  | darken => simp only [chanN]; omega
  | multiply => exact Nat.div_le_div_right (Nat.mul_le_mul_left _ h)
  | colorBurn =>
    simp only [chanN]
    have := hdiv s
    clear hdiv hdi2
    obtain ⟨x, hx⟩ : ∃ x, (255 - (d + e)) * 255 / s = x := ⟨_, rfl⟩
    obtain ⟨y, hy⟩ : ∃ y, (255 - d) * 255 / s = y := ⟨_, rfl⟩
    rw [hx, hy] at this ⊢
    clear hx hy
    split_ifs <;> omega
  | linearBurn => simp only [chanN]; omega
  | lighten => simp only [chanN]; omega
  | screen => exact screen_mono (by decide) bs
  | colorDodge =>
    simp only [chanN]
    have := hdi2 (255 - s)
    clear hdiv hdi2
    obtain ⟨x, hx⟩ : ∃ x, d * 255 / (255 - s) = x := ⟨_, rfl⟩
    obtain ⟨y, hy⟩ : ∃ y, (d + e) * 255 / (255 - s) = y := ⟨_, rfl⟩
    rw [hx, hy] at this ⊢
    clear hx hy
    split_ifs <;> omega
  | linearDodge => simp only [chanN]; omega
  | add => simp only [chanN]; omega
  | overlay =>
    simp only [chanN]
    have h1 : s * (2 * d) / 255 ≤ s * (2 * (d + e)) / 255 := Nat.div_le_div_right (Nat.mul_le_mul_left _ (by omega))
    have h2 : (511 - 2 * (d + e)) * (255 - s) / 255 ≤ (511 - 2 * d) * (255 - s) / 255 :=
      Nat.div_le_div_right (Nat.mul_le_mul_right _ (by omega))
    split_ifs with c1 c2
    · exact h1
    · have h3 : s * (2 * d) / 255 ≤ s :=
        Nat.div_le_of_le_mul (by rw [Nat.mul_comm 255]; exact Nat.mul_le_mul_left _ (by omega))
      have h4 : (511 - 2 * (d + e)) * (255 - s) / 255 ≤ 255 - s :=
        Nat.div_le_of_le_mul (Nat.mul_le_mul_right _ (by omega))
      omega
    · omega
    · omega
  | hardLight =>
    simp only [chanN]
    split_ifs with c
    · exact Nat.div_le_div_right (Nat.mul_le_mul_right _ h)
    · have := screen_mono (d := d) (e := e) (s := 2 * s - 255) (K := 255) (by decide) (by omega)
      rw [Nat.mul_comm d, Nat.mul_comm (d + e)]
      omega
  | linearLight => simp only [chanN]; split_ifs <;> omega
  | vividLight =>
    simp only [chanN]
    have h1 := hdiv (2 * s)
    have h2 := hdi2 (510 - 2 * s)
    split_ifs <;> omega
  | pinLight => simp only [chanN]; split_ifs <;> omega
  | hardMix =>
    simp only [chanN]
    have h1 := hdiv (2 * s)
    have h2 := hdi2 (511 - 2 * s)
    split_ifs <;> omega
  | subtract => simp only [chanN]; omega
  | divide =>
    simp only [chanN]
    have := hdi2 s
    clear hdiv hdi2
    obtain ⟨x, hx⟩ : ∃ x, d * 255 / s = x := ⟨_, rfl⟩
    obtain ⟨y, hy⟩ : ∃ y, (d + e) * 255 / s = y := ⟨_, rfl⟩
    rw [hx, hy] at this ⊢
    clear hx hy
    split_ifs <;> omega

theorem soft16_step {s d : Nat} : d - (65535 - 2 * s) * d / 65535 * (65535 - d) / 65535 ≤
    (d + 1) - (65535 - 2 * s) * (d + 1) / 65535 * (65535 - (d + 1)) / 65535 := by
  have h1 : (65535 - 2 * s) * (d + 1) / 65535 ≤ (65535 - 2 * s) * d / 65535 + 1 := by
    rw [Nat.mul_add, Nat.mul_one, ← Nat.add_div_right _ (by decide : 0 < 65535)]
    exact Nat.div_le_div_right (by omega)
  have h2 : (65535 - 2 * s) * (d + 1) / 65535 * (65535 - (d + 1)) / 65535 ≤
      (65535 - 2 * s) * d / 65535 * (65535 - d) / 65535 + 1 := by
    rw [← Nat.add_div_right _ (by decide : 0 < 65535)]
    apply Nat.div_le_div_right
    refine Nat.le_trans (Nat.mul_le_mul_right _ h1) ?_
    rw [Nat.add_mul, Nat.one_mul]
    have := Nat.mul_le_mul_left ((65535 - 2 * s) * d / 65535) (show 65535 - (d + 1) ≤ 65535 - d by omega)
    omega
  omega

theorem step_mono {f : Nat → Nat} {K : Nat} (h : ∀ d, d + 1 ≤ K → f d ≤ f (d + 1)) (d e : Nat) (hb : d + e ≤ K) :
    f d ≤ f (d + e) := by
  induction e with
  | zero => exact Nat.le_refl _
  | succ e ih => exact Nat.le_trans (ih (by omega)) (h (d + e) (by omega))

theorem softN16_step {d : Nat} (h : d + 1 < 16384) : softN16 d ≤ softN16 (d + 1) := by
  unfold softN16
  apply Nat.div_le_div_right
  obtain ⟨k, hk⟩ : ∃ k, (786420 - 16 * d) / 65535 = k := ⟨_, rfl⟩
  obtain ⟨k', hk'⟩ : ∃ k, (786420 - 16 * (d + 1)) / 65535 = k := ⟨_, rfl⟩
  rw [hk, hk']
  have h1 : k' ≤ k := by omega
  have h2 : (262140 - k * d) * d ≤ (262140 - k * (d + 1)) * (d + 1) := by
    have : k ≤ 12 := by omega
    have : 8 ≤ k := by omega
    have e : ∀ k : Nat, k * (2 * d + 1) ≤ 262140 → (262140 - k * d) * d ≤ (262140 - k * (d + 1)) * (d + 1) := by
      intro k hk
      have e1 : k * (d + 1) + k * d ≤ 262140 := by rw [← Nat.mul_add]; convert hk using 2; omega
      obtain ⟨r, hr⟩ := Nat.exists_eq_add_of_le e1
      have a1 : 262140 - k * d = k * (d + 1) + r := by omega
      have a2 : 262140 - k * (d + 1) = k * d + r := by omega
      rw [a1, a2]
      nlinarith
    apply e
    have : k = 8 ∨ k = 9 ∨ k = 10 ∨ k = 11 ∨ k = 12 := by omega
    rcases this with r | r | r | r | r <;> subst r <;> omega
  refine Nat.le_trans h2 (Nat.mul_le_mul_right _ ?_)
  have := Nat.mul_le_mul_right (d + 1) h1
  omega

/-- What soft light moves a light backdrop towards. -/
def softTarget16 (d : Nat) : Nat := if d < 16384 then softN16 d else sqrtU32.isqrt (d * 65535)

theorem isqrt_mono {a b : Nat} (hb : b < 4294967296) (h : a ≤ b) : sqrtU32.isqrt a ≤ sqrtU32.isqrt b := by
  obtain ⟨h1, _⟩ := isqrt_spec a (by omega)
  obtain ⟨_, h4⟩ := isqrt_spec b hb
  by_contra hn
  have := Nat.mul_le_mul (show sqrtU32.isqrt b + 1 ≤ sqrtU32.isqrt a by omega) (show sqrtU32.isqrt b + 1 ≤ sqrtU32.isqrt a by omega)
  omega

theorem soft_join : softN16 16383 ≤ sqrtU32.isqrt ((16383 + 1) * 65535) := by decide +kernel

theorem softTarget16_step {d : Nat} (hd : d + 1 ≤ 65535) : softTarget16 d ≤ softTarget16 (d + 1) := by
  unfold softTarget16
  split_ifs with h1 h2
  · exact softN16_step h2
  · have e : d = 16383 := by omega
    subst e
    exact soft_join
  · omega
  · exact isqrt_mono (by omega) (by omega)

theorem softHigh16_step {s d : Nat} (bs : s ≤ 65535) (hd : d + 1 ≤ 65535) :
    d + (2 * s - 65535) * (softTarget16 d - d) / 65535 ≤
      d + 1 + (2 * s - 65535) * (softTarget16 (d + 1) - (d + 1)) / 65535 := by
  have h := softTarget16_step hd
  have h1 : softTarget16 d - d ≤ softTarget16 (d + 1) - (d + 1) + 1 := by omega
  have h2 : (2 * s - 65535) * (softTarget16 d - d) / 65535 ≤ (2 * s - 65535) * (softTarget16 (d + 1) - (d + 1)) / 65535 + 1 := by
    rw [← Nat.add_div_right _ (by decide : 0 < 65535)]
    apply Nat.div_le_div_right
    refine Nat.le_trans (Nat.mul_le_mul_left _ h1) ?_
    rw [Nat.mul_add, Nat.mul_one]
    omega
  omega

theorem chanN16_mono (m : Sep) (hm : m.increasing = true) {s d d' : Nat} (bs : s ≤ 65535) (bd : d' ≤ 65535)
    (h : d ≤ d') : chanN16 m s d ≤ chanN16 m s d' := by
  obtain ⟨e, rfl⟩ := Nat.exists_eq_add_of_le h
  have hdiv : ∀ k, (65535 - (d + e)) * 65535 / k ≤ (65535 - d) * 65535 / k := fun k =>
    Nat.div_le_div_right (Nat.mul_le_mul_right _ (by omega))
  have hdi2 : ∀ k, d * 65535 / k ≤ (d + e) * 65535 / k := fun k => Nat.div_le_div_right (Nat.mul_le_mul_right _ (by omega))
  cases m with
  | softLight =>
    refine step_mono (f := chanN16 .softLight s) (K := 65535) (fun d hd => ?_) d e bd
    simp only [chanN16]
    by_cases c : s < 32768
    · rw [if_pos c, if_pos c]
      exact soft16_step
    · rw [if_neg c, if_neg c]
      exact softHigh16_step bs hd
  | difference => cases hm
  | exclusion => cases hm
  | normal => exact Nat.le_refl _
  | darken => simp only [chanN16]; omega
  | multiply => exact Nat.div_le_div_right (Nat.mul_le_mul_left _ h)
  | colorBurn =>
    simp only [chanN16]
    have := hdiv s
    clear hdiv hdi2
    obtain ⟨x, hx⟩ : ∃ x, (65535 - (d + e)) * 65535 / s = x := ⟨_, rfl⟩
    obtain ⟨y, hy⟩ : ∃ y, (65535 - d) * 65535 / s = y := ⟨_, rfl⟩
    rw [hx, hy] at this ⊢
    clear hx hy
    split_ifs <;> omega
  | linearBurn => simp only [chanN16]; omega
  | lighten => simp only [chanN16]; omega
  | screen => exact screen_mono (by decide) bs
  | colorDodge =>
    simp only [chanN16]
    have := hdi2 (65535 - s)
    clear hdiv hdi2
    obtain ⟨x, hx⟩ : ∃ x, d * 65535 / (65535 - s) = x := ⟨_, rfl⟩
    obtain ⟨y, hy⟩ : ∃ y, (d + e) * 65535 / (65535 - s) = y := ⟨_, rfl⟩
    rw [hx, hy] at this ⊢
    clear hx hy
    split_ifs <;> omega
  | linearDodge => simp only [chanN16]; omega
  | add => simp only [chanN16]; omega
  | overlay =>
    simp only [chanN16]
    have h1 : s * d / 32768 ≤ s * (d + e) / 32768 := Nat.div_le_div_right (Nat.mul_le_mul_left _ (by omega))
    have h2 : (131071 - 2 * (d + e)) * (65535 - s) / 65535 ≤ (131071 - 2 * d) * (65535 - s) / 65535 :=
      Nat.div_le_div_right (Nat.mul_le_mul_right _ (by omega))
    split_ifs with c1 c2
    · exact h1
    · have h3 : s * d / 32768 ≤ s :=
        Nat.div_le_of_le_mul (by rw [Nat.mul_comm 32768]; exact Nat.mul_le_mul_left _ (by omega))
      have h4 : (131071 - 2 * (d + e)) * (65535 - s) / 65535 ≤ 65535 - s :=
        Nat.div_le_of_le_mul (Nat.mul_le_mul_right _ (by omega))
      omega
    · omega
    · omega
  | hardLight =>
    simp only [chanN16]
    split_ifs with c
    · exact Nat.div_le_div_right (Nat.mul_le_mul_right _ h)
    · have := screen_mono (d := d) (e := e) (s := 2 * s - 65535) (K := 65535) (by decide) (by omega)
      rw [Nat.mul_comm d, Nat.mul_comm (d + e)]
      omega
  | linearLight => simp only [chanN16]; split_ifs <;> omega
  | vividLight =>
    simp only [chanN16]
    have h1 := hdiv (2 * s)
    have h2 := hdi2 (131070 - 2 * s)
    split_ifs <;> omega
  | pinLight => simp only [chanN16]; split_ifs <;> omega
  | hardMix =>
    simp only [chanN16]
    have h1 := hdiv (2 * s)
    have h2 := hdi2 (131071 - 2 * s)
    split_ifs <;> omega
  | subtract => simp only [chanN16]; omega
  | divide =>
    simp only [chanN16]
    have := hdi2 s
    clear hdiv hdi2
    obtain ⟨x, hx⟩ : ∃ x, d * 65535 / s = x := ⟨_, rfl⟩
    obtain ⟨y, hy⟩ : ∃ y, (d + e) * 65535 / s = y := ⟨_, rfl⟩
    rw [hx, hy] at this ⊢
    clear hx hy
    split_ifs <;> omega

/-! ## Channels grow with the source -/

theorem low_mono {K a b : Nat} (h : a ≤ b) : K - min b K ≤ K - min a K := by omega

theorem high_mono {K a b : Nat} (h : a ≤ b) : min a K ≤ min b K := by omega

theorem chanN_mono_src (m : Sep) (hm : m.increasingInSource = true) {s s' d : Nat} (bs : s' ≤ 255) (bd : d ≤ 255)
    (h : s ≤ s') : chanN m s d ≤ chanN m s' d := by
  obtain ⟨e, rfl⟩ := Nat.exists_eq_add_of_le h
  have hlow : ∀ {k k' : Nat}, 0 < k → k ≤ k' → (255 - d) * 255 / k' ≤ (255 - d) * 255 / k := fun h1 h2 =>
    Nat.div_le_div_left h2 h1
  have hhigh : ∀ {k k' : Nat}, 0 < k → k ≤ k' → d * 255 / k' ≤ d * 255 / k := fun h1 h2 => Nat.div_le_div_left h2 h1
  have hl1 : ∀ {k : Nat}, 0 < k → k ≤ 255 → 255 - d ≤ (255 - d) * 255 / k := fun h1 h2 =>
    (Nat.le_div_iff_mul_le h1).2 (Nat.mul_le_mul_left _ h2)
  have hh1 : ∀ {k : Nat}, 0 < k → k ≤ 255 → d ≤ d * 255 / k := fun h1 h2 =>
    (Nat.le_div_iff_mul_le h1).2 (Nat.mul_le_mul_left _ h2)
  cases m with
  | difference => cases hm
  | exclusion => cases hm
  | subtract => cases hm
  | divide => cases hm
  | normal => exact h
  | darken => simp only [chanN]; omega
  | multiply => exact Nat.div_le_div_right (Nat.mul_le_mul_right _ h)
  | colorBurn =>
    simp only [chanN]
    split_ifs with c1 c2 c3 c3
    · exact Nat.le_refl _
    · exact Nat.zero_le _
    · exact Nat.zero_le _
    · omega
    · exact low_mono (hlow (by omega) h)
  | linearBurn => simp only [chanN]; omega
  | lighten => simp only [chanN]; omega
  | screen =>
    have := screen_mono (d := s) (e := e) (s := d) (K := 255) (by decide) bd
    simp only [chanN]
    rw [Nat.mul_comm s, Nat.mul_comm (s + e)]
    omega
  | colorDodge =>
    simp only [chanN]
    split_ifs with c1 c2 c3 c3
    · exact Nat.le_refl _
    · exact Nat.le_refl _
    · omega
    · exact Nat.min_le_right _ _
    · exact high_mono (hhigh (by omega) (by omega))
  | linearDodge => simp only [chanN]; omega
  | add => simp only [chanN]; omega
  | overlay =>
    simp only [chanN]
    have h1 : s * (2 * d) / 255 ≤ (s + e) * (2 * d) / 255 := Nat.div_le_div_right (Nat.mul_le_mul_right _ h)
    have h2 : (511 - 2 * d) * (255 - (s + e)) / 255 ≤ (511 - 2 * d) * (255 - s) / 255 :=
      Nat.div_le_div_right (Nat.mul_le_mul_left _ (by omega))
    split_ifs <;> omega
  | softLight =>
    simp only [chanN]
    generalize (if d < 64 then softN d else sqrtU32.isqrt (d * 255)) - d = x
    have h1 : (255 - 2 * (s + e)) * d / 255 * (255 - d) / 255 ≤ (255 - 2 * s) * d / 255 * (255 - d) / 255 :=
      Nat.div_le_div_right (Nat.mul_le_mul_right _ (Nat.div_le_div_right (Nat.mul_le_mul_right _ (by omega))))
    have h2 : (2 * s - 255) * x / 255 ≤ (2 * (s + e) - 255) * x / 255 :=
      Nat.div_le_div_right (Nat.mul_le_mul_right _ (by omega))
    split_ifs <;> omega
  | hardLight =>
    simp only [chanN]
    split_ifs with c1 c2
    · exact Nat.div_le_div_right (Nat.mul_le_mul_left _ (by omega))
    · have h1 : d * (2 * s) / 255 ≤ d := Nat.div_le_of_le_mul (by rw [Nat.mul_comm 255]; exact Nat.mul_le_mul_left _ (by omega))
      have h2 : d * (2 * (s + e) - 255) / 255 ≤ 2 * (s + e) - 255 := Nat.div_le_of_le_mul (Nat.mul_le_mul_right _ bd)
      omega
    · omega
    · have := screen_mono (d := 2 * s - 255) (e := 2 * e) (s := d) (K := 255) (by decide) bd
      rwa [show 2 * s - 255 + 2 * e = 2 * (s + e) - 255 by omega] at this
  | linearLight => simp only [chanN]; split_ifs <;> omega
  | vividLight =>
    simp only [chanN]
    by_cases z : s = 0
    · rw [if_pos (show s < 128 by omega), if_pos z]; exact Nat.zero_le _
    rw [if_neg z]
    by_cases w : s + e = 255
    · rw [if_neg (show ¬ s + e < 128 by omega), if_pos w]
      split_ifs
      · exact Nat.sub_le _ _
      · exact Nat.le_refl _
      · exact Nat.min_le_right _ _
    rw [if_neg w, if_neg (show ¬ s + e = 0 by omega)]
    by_cases w' : s = 255
    · omega
    rw [if_neg w']
    split_ifs with c1 c2 c2
    · have := hlow (show 0 < 2 * s by omega) (show 2 * s ≤ 2 * (s + e) by omega); omega
    · have h1 := hl1 (show 0 < 2 * s by omega) (by omega)
      have h2 := hh1 (show 0 < 510 - 2 * (s + e) by omega) (by omega)
      omega
    all_goals first
      | omega
      | (have := hhigh (show 0 < 510 - 2 * (s + e) by omega) (show 510 - 2 * (s + e) ≤ 510 - 2 * s by omega); omega)
  | pinLight => simp only [chanN]; split_ifs <;> omega
  | hardMix =>
    have key : (if s < 128 then (if d = 255 then 255 else if s = 0 then 0 else 255 - min ((255 - d) * 255 / (2 * s)) 255)
        else if d = 0 then 0 else min (d * 255 / (511 - 2 * s)) 255) ≤
      (if s + e < 128 then (if d = 255 then 255 else if s + e = 0 then 0 else 255 - min ((255 - d) * 255 / (2 * (s + e))) 255)
        else if d = 0 then 0 else min (d * 255 / (511 - 2 * (s + e))) 255) := by
      have g2 := hh1 (show 0 < 511 - 2 * (s + e) by omega)
      have g3 := hhigh (show 0 < 511 - 2 * (s + e) by omega) (show 511 - 2 * (s + e) ≤ 511 - 2 * s by omega)
      rcases Nat.eq_zero_or_pos s with z | z
      · rw [if_pos (show s < 128 by omega), if_pos z]
        by_cases c : s + e < 128
        · rw [if_pos c]; split_ifs <;> omega
        · rw [if_neg c]; have := g2 (by omega); split_ifs <;> omega
      · have g4 := hlow (show 0 < 2 * s by omega) (show 2 * s ≤ 2 * (s + e) by omega)
        by_cases c1 : s < 128
        · have g1 := hl1 (show 0 < 2 * s by omega) (by omega)
          by_cases c2 : s + e < 128
          · rw [if_pos c1, if_pos c2]; split_ifs <;> omega
          · have := g2 (by omega)
            rw [if_pos c1, if_neg c2]; split_ifs <;> omega
        · rw [if_neg c1, if_neg (show ¬ s + e < 128 by omega)]; split_ifs <;> omega
    simp only [chanN]
    revert key
    generalize (if s < 128 then (if d = 255 then 255 else if s = 0 then 0 else 255 - min ((255 - d) * 255 / (2 * s)) 255)
        else if d = 0 then 0 else min (d * 255 / (511 - 2 * s)) 255) = x
    generalize (if s + e < 128 then (if d = 255 then 255 else if s + e = 0 then 0 else 255 - min ((255 - d) * 255 / (2 * (s + e))) 255)
        else if d = 0 then 0 else min (d * 255 / (511 - 2 * (s + e))) 255) = y
    intro key
    split_ifs <;> omega

theorem chanN16_mono_src (m : Sep) (hm : m.increasingInSource = true) {s s' d : Nat} (bs : s' ≤ 65535) (bd : d ≤ 65535)
    (h : s ≤ s') : chanN16 m s d ≤ chanN16 m s' d := by
  obtain ⟨e, rfl⟩ := Nat.exists_eq_add_of_le h
  have hlow : ∀ {k k' : Nat}, 0 < k → k ≤ k' → (65535 - d) * 65535 / k' ≤ (65535 - d) * 65535 / k := fun h1 h2 =>
    Nat.div_le_div_left h2 h1
  have hhigh : ∀ {k k' : Nat}, 0 < k → k ≤ k' → d * 65535 / k' ≤ d * 65535 / k := fun h1 h2 => Nat.div_le_div_left h2 h1
  have hl1 : ∀ {k : Nat}, 0 < k → k ≤ 65535 → 65535 - d ≤ (65535 - d) * 65535 / k := fun h1 h2 =>
    (Nat.le_div_iff_mul_le h1).2 (Nat.mul_le_mul_left _ h2)
  have hh1 : ∀ {k : Nat}, 0 < k → k ≤ 65535 → d ≤ d * 65535 / k := fun h1 h2 =>
    (Nat.le_div_iff_mul_le h1).2 (Nat.mul_le_mul_left _ h2)
  cases m with
  | difference => cases hm
  | exclusion => cases hm
  | subtract => cases hm
  | divide => cases hm
  | normal => exact h
  | darken => simp only [chanN16]; omega
  | multiply => exact Nat.div_le_div_right (Nat.mul_le_mul_right _ h)
  | colorBurn =>
    simp only [chanN16]
    split_ifs with c1 c2 c3 c3
    · exact Nat.le_refl _
    · exact Nat.zero_le _
    · exact Nat.zero_le _
    · omega
    · exact low_mono (hlow (by omega) h)
  | linearBurn => simp only [chanN16]; omega
  | lighten => simp only [chanN16]; omega
  | screen =>
    have := screen_mono (d := s) (e := e) (s := d) (K := 65535) (by decide) bd
    simp only [chanN16]
    rw [Nat.mul_comm s, Nat.mul_comm (s + e)]
    omega
  | colorDodge =>
    simp only [chanN16]
    split_ifs with c1 c2 c3 c3
    · exact Nat.le_refl _
    · exact Nat.le_refl _
    · omega
    · exact Nat.min_le_right _ _
    · exact high_mono (hhigh (by omega) (by omega))
  | linearDodge => simp only [chanN16]; omega
  | add => simp only [chanN16]; omega
  | overlay =>
    simp only [chanN16]
    have h1 : s * d / 32768 ≤ (s + e) * d / 32768 := Nat.div_le_div_right (Nat.mul_le_mul_right _ h)
    have h2 : (131071 - 2 * d) * (65535 - (s + e)) / 65535 ≤ (131071 - 2 * d) * (65535 - s) / 65535 :=
      Nat.div_le_div_right (Nat.mul_le_mul_left _ (by omega))
    split_ifs <;> omega
  | softLight =>
    simp only [chanN16]
    generalize (if d < 16384 then softN16 d else sqrtU32.isqrt (d * 65535)) - d = x
    have h1 : (65535 - 2 * (s + e)) * d / 65535 * (65535 - d) / 65535 ≤ (65535 - 2 * s) * d / 65535 * (65535 - d) / 65535 :=
      Nat.div_le_div_right (Nat.mul_le_mul_right _ (Nat.div_le_div_right (Nat.mul_le_mul_right _ (by omega))))
    have h2 : (2 * s - 65535) * x / 65535 ≤ (2 * (s + e) - 65535) * x / 65535 :=
      Nat.div_le_div_right (Nat.mul_le_mul_right _ (by omega))
    split_ifs <;> omega
  | hardLight =>
    simp only [chanN16]
    split_ifs with c1 c2
    · exact Nat.div_le_div_right (Nat.mul_le_mul_left _ (by omega))
    · have h1 : d * s / 32768 ≤ d := Nat.div_le_of_le_mul (by rw [Nat.mul_comm 32768]; exact Nat.mul_le_mul_left _ (by omega))
      have h2 : d * (2 * (s + e) - 65535) / 65535 ≤ 2 * (s + e) - 65535 := Nat.div_le_of_le_mul (Nat.mul_le_mul_right _ bd)
      omega
    · omega
    · have := screen_mono (d := 2 * s - 65535) (e := 2 * e) (s := d) (K := 65535) (by decide) bd
      rwa [show 2 * s - 65535 + 2 * e = 2 * (s + e) - 65535 by omega] at this
  | linearLight => simp only [chanN16]; split_ifs <;> omega
  | vividLight =>
    simp only [chanN16]
    by_cases z : s = 0
    · rw [if_pos (show s < 32768 by omega), if_pos z]; exact Nat.zero_le _
    rw [if_neg z]
    by_cases w : s + e = 65535
    · rw [if_neg (show ¬ s + e < 32768 by omega), if_pos w]
      split_ifs
      · exact Nat.sub_le _ _
      · exact Nat.le_refl _
      · exact Nat.min_le_right _ _
    rw [if_neg w, if_neg (show ¬ s + e = 0 by omega)]
    by_cases w' : s = 65535
    · omega
    rw [if_neg w']
    split_ifs with c1 c2 c2
    · have := hlow (show 0 < 2 * s by omega) (show 2 * s ≤ 2 * (s + e) by omega); omega
    · have h1 := hl1 (show 0 < 2 * s by omega) (by omega)
      have h2 := hh1 (show 0 < 131070 - 2 * (s + e) by omega) (by omega)
      omega
    all_goals first
      | omega
      | (have := hhigh (show 0 < 131070 - 2 * (s + e) by omega) (show 131070 - 2 * (s + e) ≤ 131070 - 2 * s by omega); omega)
  | pinLight => simp only [chanN16]; split_ifs <;> omega
  | hardMix =>
    have key : (if s < 32768 then (if d = 65535 then 65535 else if s = 0 then 0 else 65535 - min ((65535 - d) * 65535 / (2 * s)) 65535)
        else if d = 0 then 0 else min (d * 65535 / (131071 - 2 * s)) 65535) ≤
      (if s + e < 32768 then (if d = 65535 then 65535 else if s + e = 0 then 0 else 65535 - min ((65535 - d) * 65535 / (2 * (s + e))) 65535)
        else if d = 0 then 0 else min (d * 65535 / (131071 - 2 * (s + e))) 65535) := by
      have g2 := hh1 (show 0 < 131071 - 2 * (s + e) by omega)
      have g3 := hhigh (show 0 < 131071 - 2 * (s + e) by omega) (show 131071 - 2 * (s + e) ≤ 131071 - 2 * s by omega)
      rcases Nat.eq_zero_or_pos s with z | z
      · rw [if_pos (show s < 32768 by omega), if_pos z]
        by_cases c : s + e < 32768
        · rw [if_pos c]; split_ifs <;> omega
        · rw [if_neg c]; have := g2 (by omega); split_ifs <;> omega
      · have g4 := hlow (show 0 < 2 * s by omega) (show 2 * s ≤ 2 * (s + e) by omega)
        by_cases c1 : s < 32768
        · have g1 := hl1 (show 0 < 2 * s by omega) (by omega)
          by_cases c2 : s + e < 32768
          · rw [if_pos c1, if_pos c2]; split_ifs <;> omega
          · have := g2 (by omega)
            rw [if_pos c1, if_neg c2]; split_ifs <;> omega
        · rw [if_neg c1, if_neg (show ¬ s + e < 32768 by omega)]; split_ifs <;> omega
    simp only [chanN16]
    revert key
    generalize (if s < 32768 then (if d = 65535 then 65535 else if s = 0 then 0 else 65535 - min ((65535 - d) * 65535 / (2 * s)) 65535)
        else if d = 0 then 0 else min (d * 65535 / (131071 - 2 * s)) 65535) = x
    generalize (if s + e < 32768 then (if d = 65535 then 65535 else if s + e = 0 then 0 else 65535 - min ((65535 - d) * 65535 / (2 * (s + e))) 65535)
        else if d = 0 then 0 else min (d * 65535 / (131071 - 2 * (s + e))) 65535) = y
    intro key
    split_ifs <;> omega

/-! ## Opaque backdrops -/

/-- A channel mixed into an opaque backdrop: `c` is the blended channel, `t` the effective alpha. -/
def mixOpaque (K t c d : Nat) : Nat := min K ((c * t + d * (K - t)) / K)

theorem opaque_valid (k : PixKind) (p : Px) (h : p.a = 255) : p.Valid k := fun _ => by
  rw [h]
  have f : ∀ x : UInt8, x ≤ 255 := fun x => UInt8.le_iff_toNat_le.2 (by have := x.toNat_lt; simp; omega)
  exact ⟨f _, f _, f _⟩

theorem mixOpaque_same {K t d : Nat} (hK : 0 < K) (ht : t ≤ K) (hd : d ≤ K) : mixOpaque K t d d = d := by
  unfold mixOpaque
  rw [← Nat.mul_add, Nat.add_sub_cancel' ht, Nat.mul_div_cancel _ hK]
  omega

theorem mixOpaque_full {K c d : Nat} (hK : 0 < K) : mixOpaque K K c d = min K c := by
  unfold mixOpaque
  rw [Nat.sub_self, Nat.mul_zero, Nat.add_zero, Nat.mul_div_cancel _ hK]

/-- Mixing stays between the two channels. -/
theorem mixOpaque_le {K t c d b : Nat} (ht : t ≤ K) (hc : c ≤ b) (hd : d ≤ b) : mixOpaque K t c d ≤ b := by
  unfold mixOpaque
  refine Nat.le_trans (Nat.min_le_right _ _) (Nat.div_le_of_le_mul ?_)
  have h1 := Nat.mul_le_mul_right t hc
  have h2 := Nat.mul_le_mul_right (K - t) hd
  have h3 : b * t + b * (K - t) = K * b := by rw [← Nat.mul_add, Nat.add_sub_cancel' ht, Nat.mul_comm]
  omega

theorem le_mixOpaque {K t c d b : Nat} (hK : 0 < K) (ht : t ≤ K) (hb : b ≤ K) (hc : b ≤ c) (hd : b ≤ d) : b ≤ mixOpaque K t c d := by
  unfold mixOpaque
  refine Nat.le_min.2 ⟨hb, (Nat.le_div_iff_mul_le hK).2 ?_⟩
  have h1 := Nat.mul_le_mul_right t hc
  have h2 := Nat.mul_le_mul_right (K - t) hd
  have h3 : b * t + b * (K - t) = b * K := by rw [← Nat.mul_add, Nat.add_sub_cancel' ht]
  omega

theorem over_opaque (m : Mode) (op : UInt8) (s d : Px) (hd : d.a = 255) :
    let t := s.a.toNat * op.toNat / 255
    let c := blendN m ⟨s.r.toNat, s.g.toNat, s.b.toNat⟩ ⟨d.r.toNat, d.g.toNat, d.b.toNat⟩
    t ≤ 255 ∧ ∃ p, drawNN m op.toUInt32 s d = .ok p ∧ p.a = 255 ∧ p.r.toNat = mixOpaque 255 t c.r d.r.toNat ∧
      p.g.toNat = mixOpaque 255 t c.g d.g.toNat ∧ p.b.toNat = mixOpaque 255 t c.b d.b.toNat := by
  obtain ⟨p, hp, hc⟩ := C38_no_wrap m op s d
  have hs := s.a.toNat_lt
  have ho := op.toNat_lt
  have ht : s.a.toNat * op.toNat / 255 ≤ 255 :=
    Nat.div_le_of_le_mul (Nat.mul_le_mul (by omega) (by omega))
  dsimp only
  refine ⟨ht, p, hp, ?_⟩
  unfold Composite at hc
  dsimp only at hc
  rw [hd, show (255 : UInt8).toNat = 255 from rfl] at hc
  generalize s.a.toNat * op.toNat / 255 = t at hc ht ⊢
  rw [Nat.mul_div_cancel _ (by decide), Nat.sub_self, Nat.mul_zero, Nat.zero_div, Nat.mul_div_cancel _ (by decide), Nat.add_zero,
    Nat.add_sub_cancel' ht] at hc
  split at hc
  · rename_i h0
    have h0 : t = 0 := by omega
    subst hc h0
    have f : ∀ (c : Nat) (x : UInt8), x.toNat = mixOpaque 255 0 c x.toNat := fun c x => by
      have := x.toNat_lt
      unfold mixOpaque
      rw [Nat.mul_zero, Nat.zero_add, Nat.sub_zero, Nat.mul_div_cancel _ (by decide)]
      omega
    exact ⟨hd, f _ _, f _ _, f _ _⟩
  · obtain ⟨h1, h2, h3, h4⟩ := hc
    simp only [Nat.mul_zero, Nat.add_zero] at h2 h3 h4
    exact ⟨UInt8.toNat_inj.1 h1, h2, h3, h4⟩

theorem over_opaque16 (F : FloatLum) (m : Mode) (sk dk : PixKind) (op : UInt8) (s d : Px) (hs : s.Valid sk) (hd : d.a = 255)
    (hadd : m = .sep .add → (sums16 F m sk dk op.toNat s d).Le 4294967295) :
    let t := effective s op.toNat
    let c := blendN16 F m (s.colour sk) ⟨d.r.toNat * 257, d.g.toNat * 257, d.b.toNat * 257⟩
    t ≤ 65535 ∧ ∃ p, draw16 F m sk dk op.toUInt32 s d = .ok p ∧ p.a = 255 ∧
      p.r.toNat = mixOpaque 65535 t c.r (d.r.toNat * 257) / 256 ∧
      p.g.toNat = mixOpaque 65535 t c.g (d.g.toNat * 257) / 256 ∧
      p.b.toNat = mixOpaque 65535 t c.b (d.b.toNat * 257) / 256 := by
  obtain ⟨p, hp, hc⟩ := C45_no_wrap_partial F m sk dk op s d hs (opaque_valid dk d hd) hadd
  have ht : effective s op.toNat ≤ 65535 := by
    unfold effective
    have := s.a.toNat_lt
    have := op.toNat_lt
    exact Nat.le_trans (scale16_le (by omega)) (by omega)
  dsimp only
  refine ⟨ht, p, hp, ?_⟩
  unfold Composite16 sums16 at hc
  dsimp only at hc
  rw [opaque_colour dk d hd, hd, show (255 : UInt8).toNat * 257 = 65535 from rfl] at hc
  generalize blendN16 F m (s.colour sk) ⟨d.r.toNat * 257, d.g.toNat * 257, d.b.toNat * 257⟩ = c at hc ⊢
  generalize effective s op.toNat = t at hc ht ⊢
  have w1 : weight1 t 65535 = t := by unfold weight1 scale16; rw [Nat.mul_div_cancel _ (by decide)]
  have w2 : weight2 t 65535 = 0 := by unfold weight2 scale16; rw [Nat.sub_self, Nat.mul_zero]
  have w3 : weight3 t 65535 = 65535 - t := by unfold weight3 scale16; rw [Nat.mul_div_cancel _ (by decide)]
  have ea : alpha16 t 65535 = 65535 := by unfold alpha16; rw [w1, w2, w3]; omega
  have ek : divN16 dk 65535 = 65535 := by cases dk <;> rfl
  have em : ∀ x y z, mixed t 65535 x y z = x * t + z * (65535 - t) := fun x y z => by
    unfold mixed; rw [w1, w2, w3, Nat.mul_zero, Nat.add_zero]
  rw [ea, ek] at hc
  split at hc
  · rename_i h0
    have h0 : t = 0 := by omega
    subst hc h0
    have f : ∀ (c : Nat) (x : UInt8), x.toNat = mixOpaque 65535 0 c (x.toNat * 257) / 256 := fun c x => by
      have := x.toNat_lt
      unfold mixOpaque
      rw [Nat.mul_zero, Nat.zero_add, Nat.sub_zero, Nat.mul_div_cancel _ (by decide)]
      omega
    exact ⟨hd, f _ _, f _ _, f _ _⟩
  · obtain ⟨h1, h2, h3, h4⟩ := hc
    simp only [mixedRGB, em] at h2 h3 h4
    exact ⟨UInt8.toNat_inj.1 h1, h2, h3, h4⟩

end Psd
