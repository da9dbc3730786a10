import Verif.Lemmas.Float64
import Verif.Spec.Blend16

/-
What `setLum16` gives, in exact arithmetic.
-/

namespace Psd

/-- A number with 16 binary places, of at most 2 ^ 17. -/
def Fix (x : ℚ) : Prop := ∃ m : Int, |m| ≤ 2 ^ 33 ∧ x = m / 2 ^ 16

theorem Fix.bound {x : ℚ} (h : Fix x) : |x| ≤ 2 ^ 17 := by
  obtain ⟨m, hm, rfl⟩ := h
  rw [abs_div, abs_of_pos (by norm_num : (0 : ℚ) < 2 ^ 16), div_le_iff₀ (by norm_num)]
  have : |(m : ℚ)| ≤ 2 ^ 33 := by exact_mod_cast hm
  linarith

theorem Fix.sub_exact {x y : ℚ} (hx : Fix x) (hy : Fix y) : f64 (x - y) = x - y := by
  obtain ⟨m, hm, rfl⟩ := hx
  obtain ⟨n, hn, rfl⟩ := hy
  rw [abs_le] at hm hn
  refine f64_exact (m - n) 16 (abs_lt.mpr ⟨by omega, by omega⟩) ?_
  push_cast
  ring

/-- The luminosity of a colour. -/
def lumQ (r g b : ℚ) : ℚ := (19661 * r + 38666 * g + 7209 * b) / 65536

theorem lum16f_exact {r g b : ℚ} (hr : Fix r) (hg : Fix g) (hb : Fix b) : lum16f r g b = lumQ r g b := by
  obtain ⟨m, hm, rfl⟩ := hr
  obtain ⟨n, hn, rfl⟩ := hg
  obtain ⟨o, ho, rfl⟩ := hb
  rw [abs_le] at hm hn ho
  unfold lum16f lumQ
  rw [f64_exact (x := (m : ℚ) / 2 ^ 16 * 19661) (m * 19661) 16 (abs_lt.mpr ⟨by omega, by omega⟩) (by push_cast; ring),
    f64_exact (x := (n : ℚ) / 2 ^ 16 * 38666) (n * 38666) 16 (abs_lt.mpr ⟨by omega, by omega⟩) (by push_cast; ring),
    f64_exact (x := (o : ℚ) / 2 ^ 16 * 7209) (o * 7209) 16 (abs_lt.mpr ⟨by omega, by omega⟩) (by push_cast; ring),
    f64_exact (x := (m : ℚ) / 2 ^ 16 * 19661 + (n : ℚ) / 2 ^ 16 * 38666) (m * 19661 + n * 38666) 16 (abs_lt.mpr ⟨by omega, by omega⟩) (by push_cast; ring),
    f64_exact (x := (m : ℚ) / 2 ^ 16 * 19661 + (n : ℚ) / 2 ^ 16 * 38666 + (o : ℚ) / 2 ^ 16 * 7209) (m * 19661 + n * 38666 + o * 7209) 16
      (abs_lt.mpr ⟨by omega, by omega⟩) (by push_cast; ring),
    f64_exact (m * 19661 + n * 38666 + o * 7209) 32 (abs_lt.mpr ⟨by omega, by omega⟩) (by push_cast; ring)]
  ring

/-- Rounding hardly matters in `pull16`. -/
theorem pull16_near {lm f t c : ℚ} (hl : 0 ≤ lm ∧ lm ≤ 65535) (hf : 0 ≤ f ∧ f ≤ t) (ht : 0 < t) (hc : |c - lm| ≤ 2 ^ 18) (he : f64 (c - lm) = c - lm) :
    |pull16 lm f t c - (lm + (c - lm) * f / t)| ≤ 1 / 2 ^ 30 := by
  unfold pull16
  rw [he]
  have h1 := f64_near ((c - lm) * f)
  obtain ⟨p, hp⟩ : ∃ p, p = (c - lm) * f := ⟨_, rfl⟩
  rw [← hp] at h1 ⊢
  have hpt : |p / t| ≤ 2 ^ 18 := by
    rw [hp, abs_div, abs_mul, abs_of_nonneg hf.1, abs_of_pos ht, div_le_iff₀ ht]
    calc |c - lm| * f ≤ 2 ^ 18 * f := mul_le_mul_of_nonneg_right hc hf.1
      _ ≤ _ := mul_le_mul_of_nonneg_left hf.2 (by norm_num)
  have h2 : |f64 p / t - p / t| ≤ 2 ^ 18 / 2 ^ 53 := by
    rw [← sub_div, abs_div, abs_of_pos ht]
    calc |f64 p - p| / t ≤ |p| / 2 ^ 53 / t := div_le_div_of_nonneg_right h1 ht.le
      _ = |p / t| / 2 ^ 53 := by rw [abs_div, abs_of_pos ht]; ring
      _ ≤ _ := div_le_div_of_nonneg_right hpt (by norm_num)
  obtain ⟨q, hq⟩ : ∃ q, q = f64 p / t := ⟨_, rfl⟩
  rw [← hq] at h2 ⊢
  generalize p / t = e at *
  have b1 := abs_le.mp hpt
  have b2 := abs_le.mp h2
  norm_num at b1 b2
  have h3 := f64_within (x := q) (B := 2 ^ 19) (by rw [abs_le]; norm_num; constructor <;> linarith)
  generalize f64 q = q' at *
  have b3 := abs_le.mp h3
  norm_num at b3
  have h4 := f64_within (x := lm + q') (B := 2 ^ 20) (by rw [abs_le]; norm_num; constructor <;> linarith)
  have b4 := abs_le.mp h4
  norm_num at b4
  rw [abs_le]
  norm_num
  constructor <;> linarith

/-- What is stored for a channel that is nearly `y`. -/
theorem clamp16f_near {a y : ℚ} (h : |a - y| ≤ 1 / 2 ^ 30) (hy : 0 ≤ y ∧ y ≤ 65535) :
    y - 1 - 1 / 2 ^ 30 < ((clamp16f a).toNat : ℚ) ∧ ((clamp16f a).toNat : ℚ) ≤ y + 1 / 2 ^ 30 := by
  have b := abs_le.mp h
  norm_num at b
  unfold clamp16f
  split
  · rename_i h0
    norm_num
    constructor <;> linarith
  · rename_i h0
    push Not at h0
    split
    · rename_i h1
      rw [show ((0xffff : UInt32).toNat : ℚ) = 65535 from rfl]
      norm_num at h1 ⊢
      constructor <;> linarith
    · rename_i h1
      push Not at h1
      have f0 : 0 ≤ ⌊a⌋ := Int.floor_nonneg.mpr h0
      have f1 : ⌊a⌋ ≤ 65535 := Int.floor_le_iff.mpr (lt_of_le_of_lt h1 (by norm_num))
      have e : (((UInt32.ofNat ⌊a⌋.toNat).toNat : Int) : ℚ) = ⌊a⌋ := by
        rw [UInt32.toNat_ofNat']
        congr 1
        omega
      have e' : ((UInt32.ofNat ⌊a⌋.toNat).toNat : ℚ) = ⌊a⌋ := by
        rw [← e]
        norm_cast
      rw [e']
      have g1 := Int.floor_le a
      have g2 := Int.lt_floor_add_one a
      norm_num
      constructor <;> linarith

/-- A stored channel is the exact one, rounded down, up to very little. -/
def Stores (n : UInt32) (y : ℚ) : Prop := y - 1 - 1 / 2 ^ 30 < (n.toNat : ℚ) ∧ (n.toNat : ℚ) ≤ y + 1 / 2 ^ 30

/-- `clipColor16` stores a colour of the same luminosity. -/
theorem clipColor16_stores {x : RGB ℚ} (hr : Fix x.r) (hg : Fix x.g) (hb : Fix x.b) (hL : 0 ≤ lumQ x.r x.g x.b ∧ lumQ x.r x.g x.b ≤ 65535)
    (hF : Fix (lumQ x.r x.g x.b)) (hs : max x.r (max x.g x.b) ≤ min x.r (min x.g x.b) + 65535) :
    ∃ y : RGB ℚ, lumQ y.r y.g y.b = lumQ x.r x.g x.b ∧ (x.r = x.g → x.g = x.b → y = x) ∧
      Stores (clipColor16 x).r y.r ∧ Stores (clipColor16 x).g y.g ∧ Stores (clipColor16 x).b y.b := by
  obtain ⟨r, g, b⟩ := x
  simp only at *
  unfold clipColor16
  simp only [lum16f_exact hr hg hb]
  obtain ⟨L, eL⟩ : ∃ L, L = lumQ r g b := ⟨_, rfl⟩
  rw [← eL] at hL hF ⊢
  obtain ⟨mn, hmn⟩ : ∃ mn, mn = min r (min g b) := ⟨_, rfl⟩
  obtain ⟨mx, hmx⟩ : ∃ mx, mx = max r (max g b) := ⟨_, rfl⟩
  rw [← hmn, ← hmx] at hs ⊢
  have n1 : mn ≤ r := by rw [hmn]; exact min_le_left _ _
  have n2 : mn ≤ g := by rw [hmn]; exact le_trans (min_le_right _ _) (min_le_left _ _)
  have n3 : mn ≤ b := by rw [hmn]; exact le_trans (min_le_right _ _) (min_le_right _ _)
  have x1 : r ≤ mx := by rw [hmx]; exact le_max_left _ _
  have x2 : g ≤ mx := by rw [hmx]; exact le_trans (le_max_left _ _) (le_max_right _ _)
  have x3 : b ≤ mx := by rw [hmx]; exact le_trans (le_max_right _ _) (le_max_right _ _)
  have Fn : Fix mn := by
    rw [hmn]
    rcases min_choice r (min g b) with h | h <;> rw [h]
    · exact hr
    · rcases min_choice g b with h | h <;> rw [h] <;> assumption
  have Fx : Fix mx := by
    rw [hmx]
    rcases max_choice r (max g b) with h | h <;> rw [h]
    · exact hr
    · rcases max_choice g b with h | h <;> rw [h] <;> assumption
  have far : ∀ {c : ℚ}, Fix c → |c - L| ≤ 2 ^ 18 := fun {c} hc => by
    have h1 := abs_le.mp hc.bound
    have h2 := abs_le.mp hF.bound
    norm_num at h1 h2
    rw [abs_le]
    norm_num
    constructor <;> linarith
  have flat : r = g → g = b → L = r := fun h1 h2 => by
    subst h1 h2
    rw [eL]
    unfold lumQ
    ring
  have keep : ∀ k : ℚ, lumQ (L + (r - L) * k) (L + (g - L) * k) (L + (b - L) * k) = L := fun k => by
    have : lumQ (L + (r - L) * k) (L + (g - L) * k) (L + (b - L) * k) = L + (lumQ r g b - L) * k := by unfold lumQ; ring
    rw [this, ← eL]
    ring
  by_cases h1 : mn < 0
  · have h2 : ¬ mx > 0xffff := by norm_num; linarith
    simp only [if_pos h1, if_neg h2, Fix.sub_exact hF Fn]
    have ht : 0 < L - mn := by linarith
    have hf : L / (L - mn) ≤ 1 := by rw [div_le_one ht]; linarith
    have hf0 : 0 ≤ L / (L - mn) := div_nonneg hL.1 ht.le
    have key : ∀ c, Fix c → mn ≤ c → c ≤ mx → Stores (clamp16f (pull16 L L (L - mn) c)) (L + (c - L) * (L / (L - mn))) := by
      intro c hc c1 c2
      have := pull16_near hL ⟨hL.1, by linarith⟩ ht (far hc) (Fix.sub_exact hc hF)
      rw [mul_div_assoc] at this
      refine clamp16f_near this ⟨?_, ?_⟩
      · have : (mn - L) * (L / (L - mn)) ≤ (c - L) * (L / (L - mn)) := mul_le_mul_of_nonneg_right (by linarith) hf0
        have e : (mn - L) * (L / (L - mn)) = -L := by field_simp; ring
        linarith
      · rcases le_total c L with h | h
        · have : (c - L) * (L / (L - mn)) ≤ 0 := mul_nonpos_of_nonpos_of_nonneg (by linarith) hf0
          linarith
        · have : (c - L) * (L / (L - mn)) ≤ (c - L) * 1 := mul_le_mul_of_nonneg_left hf (by linarith)
          linarith
    refine ⟨⟨_, _, _⟩, keep (L / (L - mn)), fun e1 e2 => ?_, key r hr n1 x1, key g hg n2 x2, key b hb n3 x3⟩
    have e := flat e1 e2
    rw [← e2, ← e1, e]
    simp
  · by_cases h2 : mx > 0xffff
    · norm_num at h2
      have h2' : mx > 0xffff := by norm_num; exact h2
      simp only [if_neg h1, if_pos h2', Fix.sub_exact Fx hF]
      have F5 : Fix 0xffff := ⟨65535 * 65536, by norm_num, by norm_num⟩
      rw [Fix.sub_exact F5 hF]
      have ht : 0 < mx - L := by linarith
      have hf : (65535 - L) / (mx - L) ≤ 1 := by rw [div_le_one ht]; linarith
      have hf0 : 0 ≤ (65535 - L) / (mx - L) := div_nonneg (by linarith) ht.le
      have key : ∀ c, Fix c → mn ≤ c → c ≤ mx → Stores (clamp16f (pull16 L (0xffff - L) (mx - L) c)) (L + (c - L) * ((65535 - L) / (mx - L))) := by
        intro c hc c1 c2
        have := pull16_near (f := 0xffff - L) hL ⟨by norm_num; linarith, by norm_num; linarith⟩ ht (far hc) (Fix.sub_exact hc hF)
        rw [mul_div_assoc] at this
        refine clamp16f_near this ⟨?_, ?_⟩
        · rcases le_total c L with h | h
          · have : (c - L) * 1 ≤ (c - L) * ((65535 - L) / (mx - L)) := mul_le_mul_of_nonpos_left hf (by linarith)
            linarith
          · have : 0 ≤ (c - L) * ((65535 - L) / (mx - L)) := mul_nonneg (by linarith) hf0
            linarith
        · have : (c - L) * ((65535 - L) / (mx - L)) ≤ (mx - L) * ((65535 - L) / (mx - L)) := mul_le_mul_of_nonneg_right (by linarith) hf0
          have e : (mx - L) * ((65535 - L) / (mx - L)) = 65535 - L := by field_simp
          linarith
      refine ⟨⟨_, _, _⟩, keep ((65535 - L) / (mx - L)), fun e1 e2 => ?_, key r hr n1 x1, key g hg n2 x2, key b hb n3 x3⟩
      have e := flat e1 e2
      rw [← e2, ← e1, e]
      simp
    · simp only [if_neg h1, if_neg h2]
      norm_num at h1 h2
      have key : ∀ c : ℚ, mn ≤ c → c ≤ mx → Stores (clamp16f c) c := fun c c1 c2 =>
        clamp16f_near (by norm_num) ⟨by linarith, by linarith⟩
      exact ⟨⟨r, g, b⟩, eL.symm, fun _ _ => rfl, key r n1 x1, key g n2 x2, key b n3 x3⟩

theorem fix_int {n : Nat} (h : n ≤ 65535) : Fix n := ⟨n * 65536, abs_le.mpr ⟨by omega, by omega⟩, by push_cast; ring⟩

theorem lumQ_int (c : RGB UInt32) : lumQ c.r.toNat c.g.toNat c.b.toNat = (lumN16 c.ints : ℚ) / 2 ^ 16 := by
  unfold lumQ lumN16 RGB.ints
  push_cast
  ring

/-- Up to the luminosity, everything in `setLum16` is exact. -/
theorem setLum16_moved (c l : RGB UInt32) (hc : c.ints.Le 65535) (hl : l.ints.Le 65535) :
    ∃ k : ℚ, k = (lumN16 l.ints : ℚ) / 2 ^ 16 - (lumN16 c.ints : ℚ) / 2 ^ 16 ∧
      setLum16 c l = clipColor16 ⟨c.r.toNat + k, c.g.toNat + k, c.b.toNat + k⟩ ∧
      Fix (c.r.toNat + k) ∧ Fix (c.g.toNat + k) ∧ Fix (c.b.toNat + k) ∧
      lumQ (c.r.toNat + k) (c.g.toNat + k) (c.b.toNat + k) = (lumN16 l.ints : ℚ) / 2 ^ 16 := by
  have hN : ∀ v : RGB UInt32, v.ints.Le 65535 → lumN16 v.ints ≤ 65535 * 65536 := fun v hv => by
    obtain ⟨h1, h2, h3⟩ := hv
    unfold lumN16
    omega
  have bl := hN l hl
  have bc := hN c hc
  have ec := lum16f_exact (fix_int hc.1) (fix_int hc.2.1) (fix_int hc.2.2)
  have el := lum16f_exact (fix_int hl.1) (fix_int hl.2.1) (fix_int hl.2.2)
  simp only [RGB.ints] at ec el
  rw [lumQ_int] at ec el
  refine ⟨_, rfl, ?_, ?_⟩
  · unfold setLum16
    simp only
    rw [ec, el, f64_exact (x := (lumN16 l.ints : ℚ) / 2 ^ 16 - (lumN16 c.ints : ℚ) / 2 ^ 16) (lumN16 l.ints - lumN16 c.ints) 16
      (abs_lt.mpr ⟨by omega, by omega⟩) (by push_cast; ring)]
    have key : ∀ n : Nat, n ≤ 65535 → f64 (n + ((lumN16 l.ints : ℚ) / 2 ^ 16 - (lumN16 c.ints : ℚ) / 2 ^ 16)) =
        n + ((lumN16 l.ints : ℚ) / 2 ^ 16 - (lumN16 c.ints : ℚ) / 2 ^ 16) := fun n hn =>
      f64_exact (n * 65536 + (lumN16 l.ints - lumN16 c.ints)) 16 (abs_lt.mpr ⟨by omega, by omega⟩) (by push_cast; ring)
    rw [key c.r.toNat hc.1, key c.g.toNat hc.2.1, key c.b.toNat hc.2.2]
  · have key : ∀ n : Nat, n ≤ 65535 → Fix (n + ((lumN16 l.ints : ℚ) / 2 ^ 16 - (lumN16 c.ints : ℚ) / 2 ^ 16)) := fun n hn =>
      ⟨n * 65536 + (lumN16 l.ints - lumN16 c.ints), abs_le.mpr ⟨by omega, by omega⟩, by push_cast; ring⟩
    refine ⟨key _ hc.1, key _ hc.2.1, key _ hc.2.2, ?_⟩
    have := lumQ_int c
    unfold lumQ at this ⊢
    linarith

theorem lumN16_le {v : RGB Nat} (hv : v.Le 65535) : lumN16 v ≤ 65535 * 65536 := by
  obtain ⟨h1, h2, h3⟩ := hv
  unfold lumN16
  omega

/-- `setLum16` gives the luminosity that is asked for, rounded down by at most one level of 65535. -/
theorem setLum16_lum (c l : RGB UInt32) (hc : c.ints.Le 65535) (hl : l.ints.Le 65535) :
    lumN16 (setLum16 c l).ints ≤ lumN16 l.ints ∧ lumN16 l.ints ≤ lumN16 (setLum16 c l).ints + 65536 := by
  obtain ⟨k, hk, e, f1, f2, f3, hL⟩ := setLum16_moved c l hc hl
  have b := lumN16_le hl
  have b' : ((lumN16 l.ints : Nat) : ℚ) ≤ 65535 * 65536 := by exact_mod_cast b
  have b0 : (0 : ℚ) ≤ (lumN16 l.ints : Nat) := by positivity
  obtain ⟨y, hy, -, s1, s2, s3⟩ := clipColor16_stores (x := ⟨c.r.toNat + k, c.g.toNat + k, c.b.toNat + k⟩) f1 f2 f3
    (by
      simp only
      rw [hL]
      constructor
      · positivity
      · rw [div_le_iff₀ (by norm_num)]
        norm_num at b' ⊢
        exact b')
    (by
      simp only
      rw [hL]
      exact ⟨lumN16 l.ints, abs_le.mpr ⟨by omega, by omega⟩, by push_cast; ring⟩)
    (by
      have q : ∀ n : Nat, n ≤ 65535 → (0 : ℚ) ≤ n ∧ (n : ℚ) ≤ 65535 := fun n hn => ⟨by positivity, by exact_mod_cast hn⟩
      have q1 := q _ hc.1
      have q2 := q _ hc.2.1
      have q3 := q _ hc.2.2
      simp only [RGB.ints] at q1 q2 q3
      simp only
      rw [← min_add_add_right, ← min_add_add_right]
      simp only [max_le_iff, le_min_iff]
      refine ⟨⟨?_, ?_, ?_⟩, ⟨?_, ?_, ?_⟩, ?_, ?_, ?_⟩ <;> linarith)
  rw [← e] at s1 s2 s3
  simp only at hy
  rw [hL] at hy
  obtain ⟨a1, a2⟩ := s1
  obtain ⟨a3, a4⟩ := s2
  obtain ⟨a5, a6⟩ := s3
  norm_num at a1 a2 a3 a4 a5 a6
  unfold lumQ at hy
  have hy' : 19661 * y.r + 38666 * y.g + 7209 * y.b = (lumN16 l.ints : ℚ) := by
    have := congrArg (· * 65536) hy
    norm_num at this
    linarith
  have en : (lumN16 (setLum16 c l).ints : ℚ) = 19661 * (setLum16 c l).r.toNat + 38666 * (setLum16 c l).g.toNat + 7209 * (setLum16 c l).b.toNat := by
    unfold lumN16 RGB.ints
    push_cast
    rfl
  have u1 : (lumN16 (setLum16 c l).ints : ℚ) < (lumN16 l.ints : ℚ) + 1 := by rw [en]; linarith
  have u2 : (lumN16 l.ints : ℚ) < (lumN16 (setLum16 c l).ints : ℚ) + 65537 := by rw [en]; linarith
  have u1' : lumN16 (setLum16 c l).ints < lumN16 l.ints + 1 := by exact_mod_cast u1
  have u2' : lumN16 l.ints < lumN16 (setLum16 c l).ints + 65537 := by exact_mod_cast u2
  omega

/-- A grey is given the luminosity exactly, rounded down. -/
theorem setLum16_grey (v : UInt32) (hv : v.toNat ≤ 65535) (l : RGB UInt32) (hl : l.ints.Le 65535) :
    setLum16 ⟨v, v, v⟩ l = ⟨UInt32.ofNat (lumN16 l.ints / 65536), UInt32.ofNat (lumN16 l.ints / 65536), UInt32.ofNat (lumN16 l.ints / 65536)⟩ := by
  obtain ⟨k, hk, e, f1, f2, f3, hL⟩ := setLum16_moved ⟨v, v, v⟩ l ⟨hv, hv, hv⟩ hl
  rw [e]
  simp only at f1 hL ⊢
  have b := lumN16_le hl
  have b' : ((lumN16 l.ints : Nat) : ℚ) ≤ 65535 * 65536 := by exact_mod_cast b
  have b0 : (0 : ℚ) ≤ (lumN16 l.ints : Nat) := by positivity
  have hv' : (v.toNat : ℚ) + k = (lumN16 l.ints : ℚ) / 2 ^ 16 := by
    rw [← hL]
    unfold lumQ
    ring
  unfold clipColor16
  simp only [lum16f_exact f1 f1 f1, min_self, max_self]
  rw [hv']
  norm_num at b'
  have h1 : ¬ (lumN16 l.ints : ℚ) / 2 ^ 16 < 0 := by push Not; positivity
  have h2 : ¬ (lumN16 l.ints : ℚ) / 2 ^ 16 > 0xffff := by
    push Not
    rw [div_le_iff₀ (by norm_num)]
    norm_num
    exact b'
  simp only [if_neg h1, if_neg h2]
  have hf : clamp16f ((lumN16 l.ints : ℚ) / 2 ^ 16) = UInt32.ofNat (lumN16 l.ints / 65536) := by
    unfold clamp16f
    rw [if_neg h1, if_neg h2]
    congr 1
    have := Rat.floor_natCast_div_natCast (lumN16 l.ints) 65536
    norm_num at this ⊢
    rw [this]
    norm_cast
  rw [hf]

end Psd
