import Verif.Spec.BlendFormula
import Verif.Lemmas.Kernel8
import Mathlib.Tactic.Linarith
import Mathlib.Tactic.FieldSimp
import Mathlib.Tactic.Ring
import Mathlib.Tactic.Positivity

/-
The integer formulas of the 8-bit scale compared with the documented formulas.
-/

namespace Psd

/-- The integer formula is within one level of the documented one. -/
def Near (m : Sep) : Prop :=
  ∀ s d : Nat, s ≤ 255 → d ≤ 255 → |(chanN m s d : ℝ) - 255 * formula m ((s : ℝ) / 255) ((d : ℝ) / 255)| ≤ 1

theorem fdiv (n k : Nat) (hk : 0 < k) : ∃ e : ℝ, 0 ≤ e ∧ e < 1 ∧ ((n / k : Nat) : ℝ) = (n : ℝ) / k - e := by
  have hk' : (0 : ℝ) < k := by exact_mod_cast hk
  have h1 : k * (n / k) ≤ n := Nat.mul_div_le n k
  have h2 : n < k * (n / k + 1) := Nat.lt_mul_div_succ n hk
  have h1' : (k : ℝ) * (n / k : Nat) ≤ n := by exact_mod_cast h1
  have h2' : (n : ℝ) < k * ((n / k : Nat) + 1) := by exact_mod_cast h2
  refine ⟨(n : ℝ) / k - (n / k : Nat), ?_, ?_, by ring⟩
  · have : ((n / k : Nat) : ℝ) ≤ (n : ℝ) / k := by rw [le_div_iff₀ hk']; linarith
    linarith
  · have : (n : ℝ) / k < (n / k : Nat) + 1 := by rw [div_lt_iff₀ hk']; linarith
    linarith

theorem near_exact {m : Sep} (h : ∀ s d : Nat, s ≤ 255 → d ≤ 255 →
    (chanN m s d : ℝ) = 255 * formula m ((s : ℝ) / 255) ((d : ℝ) / 255)) : Near m := by
  intro s d hs hd
  rw [h s d hs hd, sub_self, abs_zero]
  exact zero_le_one

theorem scale_max (a b : ℝ) : 255 * max a b = max (255 * a) (255 * b) := mul_max_of_nonneg _ _ (by norm_num)
theorem scale_min (a b : ℝ) : 255 * min a b = min (255 * a) (255 * b) := mul_min_of_nonneg _ _ (by norm_num)
theorem scale_id (x : ℝ) : 255 * (x / 255) = x := by ring

theorem near_normal : Near .normal := near_exact fun s d _ _ => by simp only [chanN, formula, scale_id]

theorem near_darken : Near .darken := near_exact fun s d _ _ => by
  simp only [chanN, formula, scale_min, scale_id, Nat.cast_min]

theorem near_lighten : Near .lighten := near_exact fun s d _ _ => by
  simp only [chanN, formula, scale_max, scale_id, Nat.cast_max]

theorem cast_sub_max (a b : Nat) : ((a - b : Nat) : ℝ) = max 0 ((a : ℝ) - b) := by
  by_cases h : b ≤ a
  · rw [Nat.cast_sub h, max_eq_right]
    have : (b : ℝ) ≤ a := by exact_mod_cast h
    linarith
  · rw [Nat.sub_eq_zero_of_le (by omega), max_eq_left]
    · exact Nat.cast_zero
    · have : (a : ℝ) < b := by exact_mod_cast (by omega : a < b)
      linarith

theorem near_linearBurn : Near .linearBurn := near_exact fun s d hs hd => by
  simp only [chanN, formula, scale_max]
  rw [cast_sub_max, Nat.cast_sub hs]
  congr 1
  · ring
  · push_cast; ring

theorem near_linearDodge : Near .linearDodge := near_exact fun s d _ _ => by
  simp only [chanN, formula, scale_min, Nat.cast_min]
  rw [min_comm]
  push_cast
  congr 1
  · ring
  · ring

theorem near_add : Near .add := near_exact fun s d _ _ => by
  simp only [chanN, formula]; push_cast; ring

theorem near_difference : Near .difference := near_exact fun s d _ _ => by
  simp only [chanN, formula]
  have : (255 : ℝ) * |(s : ℝ) / 255 - (d : ℝ) / 255| = |(s : ℝ) - d| := by
    rw [← sub_div, abs_div, abs_of_pos (show (0 : ℝ) < 255 by norm_num)]; ring
  rw [this]
  split
  · rename_i h
    rw [Nat.cast_sub (by omega), abs_of_nonneg]
    have : (d : ℝ) < s := by exact_mod_cast h
    linarith
  · rename_i h
    rw [Nat.cast_sub (by omega), abs_of_nonpos]
    · ring
    · have : (s : ℝ) ≤ d := by exact_mod_cast (by omega : s ≤ d)
      linarith

theorem near_subtract : Near .subtract := near_exact fun s d hs hd => by
  simp only [chanN, formula, scale_max]
  rw [cast_sub_max]
  congr 1
  · ring
  · ring

theorem near_multiply : Near .multiply := by
  intro s d hs hd
  simp only [chanN, formula]
  obtain ⟨e, h0, h1, he⟩ := fdiv (s * d) 255 (by norm_num)
  rw [he]
  push_cast
  rw [abs_le]
  constructor <;> nlinarith

theorem near_screen : Near .screen := by
  intro s d hs hd
  simp only [chanN, formula]
  obtain ⟨e, h0, h1, he⟩ := fdiv (s * d) 255 (by norm_num)
  have h2 := mul_div255_le (d := d) hs
  rw [Nat.cast_sub (by omega), he]
  push_cast
  rw [abs_le]
  constructor <;> nlinarith

theorem near_colorBurn : Near .colorBurn := by
  intro s d hs hd
  simp only [chanN, formula]
  have e1 : ((d : ℝ) / 255 = 1) ↔ d = 255 := by
    rw [div_eq_one_iff_eq (by norm_num)]; exact_mod_cast Iff.rfl
  have e2 : ((s : ℝ) / 255 = 0) ↔ s = 0 := by
    rw [div_eq_zero_iff]; simp
  simp only [e1, e2]
  split
  · norm_num
  split
  · norm_num
  rename_i hd' hs'
  have hs0 : (0 : ℝ) < s := by exact_mod_cast (by omega : 0 < s)
  obtain ⟨e, h0, h1, he⟩ := fdiv ((255 - d) * 255) s (by omega)
  rw [Nat.cast_sub (Nat.min_le_right _ _), Nat.cast_min, he, Nat.cast_mul, Nat.cast_sub hd]
  have : (1 - (d : ℝ) / 255) / ((s : ℝ) / 255) = ((255 : ℝ) - d) * 255 / s / 255 := by
    field_simp
  rw [this]
  push_cast
  generalize ((255 : ℝ) - d) * 255 / s = x
  rw [abs_le]
  rcases le_total x 255 with h | h
  · rw [min_eq_left (by linarith), min_eq_right (by linarith)]
    constructor <;> linarith
  · rw [min_eq_left (show (1 : ℝ) ≤ x / 255 by linarith)]
    rcases le_total (x - e) 255 with h' | h'
    · rw [min_eq_left h']; constructor <;> linarith
    · rw [min_eq_right h']; constructor <;> linarith

/-- A quotient cut at 255 stays within one level. -/
theorem near_min (x e : ℝ) (h0 : 0 ≤ e) (h1 : e < 1) : |min (x - e) 255 - 255 * min 1 (x / 255)| ≤ 1 := by
  rw [abs_le]
  rcases le_total x 255 with h | h
  · rw [min_eq_left (by linarith), min_eq_right (by linarith)]
    constructor <;> linarith
  · rw [min_eq_left (show (1 : ℝ) ≤ x / 255 by linarith)]
    rcases le_total (x - e) 255 with h' | h'
    · rw [min_eq_left h']; constructor <;> linarith
    · rw [min_eq_right h']; constructor <;> linarith

theorem eq_one_iff (d : Nat) : ((d : ℝ) / 255 = 1) ↔ d = 255 := by
  rw [div_eq_one_iff_eq (by norm_num)]; exact_mod_cast Iff.rfl

theorem eq_zero_iff (s : Nat) : ((s : ℝ) / 255 = 0) ↔ s = 0 := by
  rw [div_eq_zero_iff]; simp

theorem le_half_iff (s : Nat) : ((s : ℝ) / 255 ≤ 1 / 2) ↔ s < 128 := by
  rw [div_le_iff₀ (by norm_num)]
  constructor
  · intro h
    by_contra hc
    have : (128 : ℝ) ≤ s := by exact_mod_cast (by omega : 128 ≤ s)
    linarith
  · intro h
    have : (s : ℝ) ≤ 127 := by exact_mod_cast (by omega : s ≤ 127)
    linarith

theorem near_colorDodge : Near .colorDodge := by
  intro s d hs hd
  simp only [chanN, formula, eq_one_iff, eq_zero_iff]
  split
  · norm_num
  split
  · norm_num
  rename_i hd' hs'
  have hs0 : (0 : ℝ) < 255 - s := by
    have : (s : ℝ) < 255 := by exact_mod_cast (by omega : s < 255)
    linarith
  obtain ⟨e, h0, h1, he⟩ := fdiv (d * 255) (255 - s) (by omega)
  rw [Nat.cast_min, he, Nat.cast_mul, Nat.cast_sub hs]
  have : (d : ℝ) / 255 / (1 - (s : ℝ) / 255) = (d : ℝ) * 255 / (255 - s) / 255 := by
    have : (1 - (s : ℝ) / 255) ≠ 0 := by
      intro h; apply hs0.ne'; linarith
    have := hs0.ne'
    field_simp
  rw [this]
  exact near_min _ e h0 h1

theorem near_divide : Near .divide := by
  intro s d hs hd
  simp only [chanN, formula, eq_zero_iff]
  split
  · norm_num
  split
  · norm_num
  rename_i hd' hs'
  have hs0 : (0 : ℝ) < s := by exact_mod_cast (by omega : 0 < s)
  obtain ⟨e, h0, h1, he⟩ := fdiv (d * 255) s (by omega)
  rw [Nat.cast_min, he, Nat.cast_mul]
  have : (d : ℝ) / 255 / ((s : ℝ) / 255) = (d : ℝ) * 255 / s / 255 := by
    field_simp
  rw [this]
  exact near_min _ e h0 h1

theorem near_overlay : Near .overlay := by
  intro s d hs hd
  simp only [chanN, formula, le_half_iff]
  have hs' : (s : ℝ) ≤ 255 := by exact_mod_cast hs
  have hs0 : (0 : ℝ) ≤ s := by positivity
  split
  · obtain ⟨e, h0, h1, he⟩ := fdiv (s * (2 * d)) 255 (by norm_num)
    rw [he]
    push_cast
    rw [abs_le]
    constructor <;> nlinarith
  · obtain ⟨e, h0, h1, he⟩ := fdiv ((511 - 2 * d) * (255 - s)) 255 (by norm_num)
    have hle : (511 - 2 * d) * (255 - s) / 255 ≤ 255 := by
      have := mul_div255_le (s := 255 - s) (d := 511 - 2 * d) (by omega)
      rw [Nat.mul_comm]
      omega
    rw [Nat.cast_sub hle, he, Nat.cast_mul, Nat.cast_sub hs, Nat.cast_sub (by omega)]
    push_cast
    have : (255 : ℝ) - ((511 - 2 * d) * (255 - s) / 255 - e) - 255 * (1 - 2 * (1 - s / 255) * (1 - d / 255)) =
        e - (255 - s) / 255 := by ring
    rw [this, abs_le]
    constructor <;> linarith

theorem near_hardLight : Near .hardLight := by
  intro s d hs hd
  simp only [chanN, formula, le_half_iff]
  split
  · obtain ⟨e, h0, h1, he⟩ := fdiv (d * (2 * s)) 255 (by norm_num)
    rw [he]
    push_cast
    rw [abs_le]
    constructor <;> nlinarith
  · obtain ⟨e, h0, h1, he⟩ := fdiv (d * (2 * s - 255)) 255 (by norm_num)
    have hle : d * (2 * s - 255) / 255 ≤ d + (2 * s - 255) := by
      have := mul_div255_le (s := d) (d := 2 * s - 255) hd
      omega
    rw [Nat.cast_sub hle, he, Nat.cast_add, Nat.cast_mul, Nat.cast_sub (by omega)]
    push_cast
    have : (d : ℝ) + (2 * s - 255) - (d * (2 * s - 255) / 255 - e) - 255 * (1 - 2 * (1 - s / 255) * (1 - d / 255)) = e := by
      ring
    rw [this, abs_le]
    constructor <;> linarith

theorem near_linearLight : Near .linearLight := by
  intro s d hs hd
  simp only [chanN, formula, scale_max, scale_min]
  have e1 : (255 : ℝ) * ((d : ℝ) / 255 + 2 * (s / 255) - 1) = d + 2 * s - 255 := by ring
  rw [e1, mul_zero, mul_one]
  have hd' : (d : ℝ) ≤ 255 := by exact_mod_cast hd
  have hd0 : (0 : ℝ) ≤ d := by positivity
  split
  · rename_i h
    have h' : (s : ℝ) ≤ 127 := by exact_mod_cast (by omega : s ≤ 127)
    rw [cast_sub_max, min_eq_right (by linarith)]
    push_cast
    simp
  · rename_i h
    have h' : (128 : ℝ) ≤ s := by exact_mod_cast (by omega : 128 ≤ s)
    rw [Nat.cast_min, Nat.cast_add, Nat.cast_sub (by omega)]
    push_cast
    rw [abs_le]
    rcases le_total ((d : ℝ) + 2 * s - 255) 255 with h1 | h1
    · rw [min_eq_left (by linarith), min_eq_right h1, max_eq_right (by linarith)]
      constructor <;> linarith
    · rw [min_eq_left h1, max_eq_right (by norm_num)]
      rcases le_total ((d : ℝ) + (2 * s - 256)) 255 with h2 | h2
      · rw [min_eq_left h2]; constructor <;> linarith
      · rw [min_eq_right h2]; constructor <;> linarith

theorem near_vividLight : Near .vividLight := by
  intro s d hs hd
  simp only [chanN, formula, le_half_iff, eq_zero_iff, eq_one_iff]
  split
  · split
    · norm_num
    rename_i hs'
    have hs0 : (0 : ℝ) < s := by exact_mod_cast (by omega : 0 < s)
    obtain ⟨e, h0, h1, he⟩ := fdiv ((255 - d) * 255) (2 * s) (by omega)
    rw [Nat.cast_sub (Nat.min_le_right _ _), Nat.cast_min, he, Nat.cast_mul, Nat.cast_sub hd]
    have : (1 - (d : ℝ) / 255) / (2 * ((s : ℝ) / 255)) = ((255 : ℝ) - d) * 255 / (2 * s) / 255 := by
      field_simp
    rw [this]
    have := near_min (((255 : ℝ) - d) * 255 / (2 * s)) e h0 h1
    rw [abs_le] at this ⊢
    push_cast
    constructor <;> linarith [this.1, this.2]
  · split
    · norm_num
    rename_i hs'
    have hs0 : (0 : ℝ) < 255 - s := by
      have : (s : ℝ) < 255 := by exact_mod_cast (by omega : s < 255)
      linarith
    obtain ⟨e, h0, h1, he⟩ := fdiv (d * 255) (510 - 2 * s) (by omega)
    rw [Nat.cast_min, he, Nat.cast_mul, Nat.cast_sub (by omega)]
    have : (d : ℝ) / 255 / (2 * (1 - (s : ℝ) / 255)) = (d : ℝ) * 255 / (510 - 2 * s) / 255 := by
      have h3 : (510 - 2 * (s : ℝ)) = 2 * (255 - s) := by ring
      have h4 : (1 - (s : ℝ) / 255) = (255 - s) / 255 := by ring
      rw [h3, h4]
      have := hs0.ne'
      field_simp
    rw [this]
    push_cast
    exact near_min _ e h0 h1

theorem near_pinLight : Near .pinLight := by
  intro s d hs hd
  simp only [chanN, formula, le_half_iff]
  split
  · rw [scale_min, Nat.cast_min, min_comm]
    push_cast
    have : (255 : ℝ) * (2 * (s / 255)) = 2 * s := by ring
    rw [scale_id, this]
    simp
  · rename_i h
    rw [scale_max, Nat.cast_max, max_comm, Nat.cast_sub (by omega)]
    push_cast
    have : (255 : ℝ) * (2 * (s / 255) - 1) = 2 * s - 255 := by ring
    rw [scale_id, this, abs_le]
    rcases le_total (d : ℝ) (2 * s - 256) with h1 | h1
    · rw [max_eq_right h1, max_eq_right (by linarith)]; constructor <;> linarith
    · rw [max_eq_left h1]
      rcases le_total (d : ℝ) (2 * s - 255) with h2 | h2
      · rw [max_eq_right h2]; constructor <;> linarith
      · rw [max_eq_left h2]; constructor <;> linarith

theorem near_exclusion : Near .exclusion := by
  intro s d hs hd
  simp only [chanN, formula]
  obtain ⟨e, h0, h1, he⟩ := fdiv (d * s * 32897) 4194304 (by norm_num)
  have hds : d * s ≤ 65025 := byte_mul hd hs
  have hle : d * s * 32897 / 4194304 ≤ d + s := by
    have h1 : d * s ≤ d * 255 := Nat.mul_le_mul_left d hs
    have h2 : d * s ≤ 255 * s := Nat.mul_le_mul_right s hd
    omega
  rw [Nat.cast_sub hle, he]
  push_cast
  have hds' : (d : ℝ) * s ≤ 65025 := by exact_mod_cast hds
  have hds0 : (0 : ℝ) ≤ (d : ℝ) * s := by positivity
  have : (d : ℝ) + s - (d * s * 32897 / 4194304 - e) - 255 * (s / 255 + d / 255 - 2 * (s / 255) * (d / 255)) =
      e - d * s * (32897 / 4194304 - 2 / 255) := by ring
  rw [this, abs_le]
  constructor <;> nlinarith

end Psd
