import Verif.Lemmas.Channels
import Verif.Lemmas.Shade
import Verif.Lemmas.Stacked
import Verif.Spec.Brightest

/-!
# What no operation makes brighter
-/

namespace Psd

/-- Dividing the alpha out. -/
theorem straight_le {c a N : Nat} (hN : N ≤ 255) (h : c * 65535 ≤ N * 257 * a) : c * 65535 / a / 256 ≤ N := by
  have h1 : c * 65535 / a ≤ N * 257 := by
    rcases Nat.eq_zero_or_pos a with rfl | ha
    · simp
    · exact Nat.div_le_of_le_mul (by rw [Nat.mul_comm a]; exact h)
  calc c * 65535 / a / 256 ≤ N * 257 / 256 := Nat.div_le_div_right h1
    _ ≤ N := by
      clear h h1
      omega

theorem scale16_mul (x a : Nat) : scale16 x a * 65535 ≤ x * a := Nat.div_mul_le_self _ _

theorem pdC_copy {sa da s d N : Nat} (hN : N ≤ 255) (hs : s ≤ N) : pdC .copy sa da s d ≤ N := by
  unfold pdC
  have e : ∀ x y, PD.mix .copy (sa * 257) (da * 257) x y = x := fun x y => by
    simp only [PD.mix, PD.factors]
    omega
  rw [e, e]
  refine straight_le hN (Nat.le_trans (scale16_mul _ _) ?_)
  exact Nat.mul_le_mul_right _ (Nat.mul_le_mul_right _ hs)

/-- The alpha of the destination is changed, but not where both it and the factor are neither 0 nor 255. -/
theorem pdC_destIn {sa da s d N : Nat} (hN : N ≤ 255) (hd : d ≤ N) (h : da = 255 ∨ sa = 255) : pdC .destIn sa da s d ≤ N := by
  unfold pdC
  simp only [PD.mix, PD.factors]
  rcases h with rfl | rfl
  · rw [show scale16 (d * 257) (255 * 257) = d * 257 by unfold scale16; omega, show (0 * (sa * 257) + sa * 257 * (255 * 257)) / 65535 = sa * 257 by omega]
    refine straight_le hN ?_
    refine Nat.le_trans (Nat.div_mul_le_self _ _) ?_
    have := Nat.mul_le_mul_left (sa * 257 * 257) hd
    nlinarith
  · rw [show ∀ x y : Nat, (0 * x + 255 * 257 * y) / 65535 = y by omega, show ∀ x y : Nat, (0 * x + 255 * 257 * y) / 65535 = y by omega]
    refine straight_le hN (Nat.le_trans (scale16_mul _ _) ?_)
    exact Nat.mul_le_mul_right _ (Nat.mul_le_mul_right _ hd)

theorem pdC_destOut {sa da s d N : Nat} (hN : N ≤ 255) (hd : d ≤ N) (hsa : sa ≤ 255) (h : da = 255 ∨ sa = 0) : pdC .destOut sa da s d ≤ N := by
  have e : pdC .destOut sa da s d = pdC .destIn (255 - sa) da s d := by
    have : 65535 - sa * 257 = (255 - sa) * 257 := by omega
    simp only [pdC, PD.mix, PD.factors, this, Nat.zero_mul, Nat.zero_add]
  rw [e]
  exact pdC_destIn hN hd (h.imp id (by omega))

/-! ### Drawing below -/

/-- Where rounding is not obviously too small to matter. -/
def overCheck (N : Nat) : Bool :=
  (List.range (N / (256 - N) + 1)).all fun D => (List.range (N / (256 - N) + 1)).all fun A =>
    ((65535 - D * 257) * (N * 257 * (A * 257) / 65535) + 65535 * (N * 257 * (D * 257) / 65535)) / 65535 * 65535 /
      (((65535 - D * 257) * (A * 257) + 65535 * (D * 257)) / 65535) / 256 ≤ N

theorem over_checked : (List.range 255).all overCheck = true := by decide +kernel

theorem over_core {N D A E K p q c a r : Nat} (hE : D + E = 255) (hK : N + K = 256) (hA : A ≤ 255) (hp : p * 255 ≤ 257 * (N * D)) (hq : q * 255 ≤ 257 * (N * A))
    (hc : c * 255 ≤ E * q + 255 * p) (ha : 255 * a + r = 257 * (E * A + 255 * D)) (hr : r < 255) (hx : N < D * K ∨ N < A * K) : c * 65535 < 256 * (N + 1) * a := by
  have hX : 255 * D ≤ E * A + 255 * D ∧ 255 * A ≤ E * A + 255 * D := by
    refine ⟨Nat.le_add_left _ _, ?_⟩
    obtain ⟨B, hB⟩ : ∃ B, A + B = 255 := ⟨255 - A, by omega⟩
    calc 255 * A = E * A + D * A := by rw [← hE]; ring
      _ ≤ E * A + 255 * D := by
        have := Nat.mul_le_mul_left D hA
        omega
  have h1 : c * 255 * 255 ≤ 257 * N * (E * A + 255 * D) := by
    calc c * 255 * 255 ≤ (E * q + 255 * p) * 255 := Nat.mul_le_mul_right _ hc
      _ = E * (q * 255) + 255 * (p * 255) := by ring
      _ ≤ E * (257 * (N * A)) + 255 * (257 * (N * D)) := Nat.add_le_add (Nat.mul_le_mul_left _ hq) (Nat.mul_le_mul_left _ hp)
      _ = 257 * N * (E * A + 255 * D) := by ring
  have h2 : c * 255 * 255 ≤ N * (255 * a + r) := by
    rw [ha]
    calc _ ≤ _ := h1
      _ = _ := by ring
  have h3 : 257 * (255 * N) < 257 * ((E * A + 255 * D) * K) := by
    refine Nat.mul_lt_mul_of_pos_left ?_ (by omega)
    rcases hx with hx | hx
    · calc 255 * N < 255 * (D * K) := by omega
        _ = 255 * D * K := by ring
        _ ≤ _ := Nat.mul_le_mul_right _ hX.1
    · calc 255 * N < 255 * (A * K) := by omega
        _ = 255 * A * K := by ring
        _ ≤ _ := Nat.mul_le_mul_right _ hX.2
  have h4 : 257 * (255 * N) < (255 * a + r) * K := by
    rw [ha]
    calc _ < _ := h3
      _ = _ := by ring
  have h5 : 257 ≤ a := by
    have : 1 ≤ D ∨ 1 ≤ A := by
      rcases hx with hx | hx
      · exact .inl (Nat.pos_of_ne_zero fun e => by rw [e] at hx; omega)
      · exact .inr (Nat.pos_of_ne_zero fun e => by rw [e] at hx; omega)
    generalize E * A + 255 * D = X at *
    omega
  have h6 : 257 * (N * r) < 255 * (a * K) := by
    have h7 : N * r ≤ N * 254 := Nat.mul_le_mul_left _ (by omega)
    have h8 : 257 * K ≤ a * K := Nat.mul_le_mul_right _ h5
    have h9 : r * K ≤ 254 * K := Nat.mul_le_mul_right _ (by omega)
    have h10 : (255 * a + r) * K = 255 * (a * K) + r * K := by ring
    rw [h10] at h4
    generalize a * K = u at *
    generalize r * K = v at *
    generalize N * r = w at *
    clear h1 h2 h3 hX ha hc hp hq hx
    omega
  have h11 : 255 * (c * 65535) < 255 * (256 * (N + 1) * a) := by
    calc 255 * (c * 65535) = 257 * (c * 255 * 255) := by ring
      _ ≤ 257 * (N * (255 * a + r)) := Nat.mul_le_mul_left _ h2
      _ = 257 * 255 * (N * a) + 257 * (N * r) := by ring
      _ < 257 * 255 * (N * a) + 255 * (a * K) := by omega
      _ = 255 * (256 * (N * a) + a * (N + K)) := by ring
      _ = 255 * (256 * (N + 1) * a) := by rw [hK]; ring
  omega

theorem over_big {N D A : Nat} (hD : D ≤ 255) (hA : A ≤ 255) (hN : N ≤ 254) :
    ((65535 - D * 257) * (N * 257 * (A * 257) / 65535) + 65535 * (N * 257 * (D * 257) / 65535)) / 65535 * 65535 /
      (((65535 - D * 257) * (A * 257) + 65535 * (D * 257)) / 65535) / 256 ≤ N := by
  obtain ⟨E, hE⟩ : ∃ E, D + E = 255 := ⟨255 - D, by omega⟩
  obtain ⟨K, hK⟩ : ∃ K, N + K = 256 := ⟨256 - N, by omega⟩
  by_cases hs : D ≤ N / (256 - N) ∧ A ≤ N / (256 - N)
  · have h := List.all_eq_true.1 over_checked N (List.mem_range.2 (by omega))
    have h := List.all_eq_true.1 h D (List.mem_range.2 (by omega))
    have h := List.all_eq_true.1 h A (List.mem_range.2 (by omega))
    exact of_decide_eq_true h
  · have hx : N < D * K ∨ N < A * K := by
      have hk : 0 < K := by omega
      rw [show 256 - N = K by omega, Nat.le_div_iff_mul_le hk, Nat.le_div_iff_mul_le hk] at hs
      omega
    have d0 : ∀ x, 257 * x / 65535 = x / 255 := fun x => by
      rw [show 65535 = 257 * 255 from rfl, Nat.mul_div_mul_left _ _ (by decide)]
    have e1 : ∀ x, N * 257 * (x * 257) / 65535 = 257 * (N * x) / 255 := fun x => by
      rw [show N * 257 * (x * 257) = 257 * (257 * (N * x)) by ring, d0]
    have hT : 65535 - D * 257 = 257 * E := by omega
    rw [hT, e1, e1, show ∀ p q, 257 * E * q + 65535 * p = 257 * (E * q + 255 * p) from fun p q => by ring, d0,
      show 257 * E * (A * 257) + 65535 * (D * 257) = 257 * (257 * (E * A + 255 * D)) by ring, d0]
    have key := over_core hE hK hA (Nat.div_mul_le_self (257 * (N * D)) 255) (Nat.div_mul_le_self (257 * (N * A)) 255) (Nat.div_mul_le_self _ 255)
      (Nat.div_add_mod (257 * (E * A + 255 * D)) 255) (Nat.mod_lt _ (by decide)) hx
    refine Nat.le_of_lt_succ (Nat.div_lt_of_lt_mul (Nat.div_lt_of_lt_mul ?_))
    calc _ < _ := key
      _ = _ := by
        rw [Nat.succ_eq_add_one]
        ring

theorem pdC_destOver {sa da s d N : Nat} (hN : N ≤ 254) (hsa : sa ≤ 255) (hda : da ≤ 255) (hs : sa = 0 ∨ s ≤ N) (hd : da = 0 ∨ d ≤ N) : pdC .destOver sa da s d ≤ N := by
  have h0 : ∀ x y, scale16 (x * 257) (0 * 257) = scale16 (y * 257) (0 * 257) := fun x y => by simp [scale16]
  have h1 : pdC .destOver sa da s d = pdC .destOver sa da (min s N) (min d N) := by
    have e1 : scale16 (s * 257) (sa * 257) = scale16 (min s N * 257) (sa * 257) := by
      rcases hs with rfl | hs
      · exact h0 _ _
      · rw [Nat.min_eq_left hs]
    have e2 : scale16 (d * 257) (da * 257) = scale16 (min d N * 257) (da * 257) := by
      rcases hd with rfl | hd
      · exact h0 _ _
      · rw [Nat.min_eq_left hd]
    unfold pdC
    rw [e1, e2]
  rw [h1]
  refine Nat.le_trans (pdC_mono _ _ _ (Nat.min_le_right _ _) (Nat.min_le_right _ _)) ?_
  exact over_big hda hsa hN

/-! ### Pixels -/

/-- Nothing is there, or channel `c` is at most `N`. -/
def Px.Dim (c : Primary) (N : Nat) (p : Px) : Prop := p.a = 0 ∨ (p.chan c).toNat ≤ N

section
variable {c : Primary} {N i : Nat}

theorem Px.Dim.full (hN : ¬N ≤ 254) (p : Px) : p.Dim c N := .inr (by have := le255 (p.chan c); omega)

theorem alpha_zero {p : Px} : p.a.toNat = 0 ↔ p.a = 0 := ⟨fun h => UInt8.toNat_inj.1 h, fun h => by rw [h]; rfl⟩

theorem copy_dim {p : Tile} (h : (p i).Dim c N) : ((tileOps.copy p i).chan c).toNat ≤ N := by
  by_cases hN : N ≤ 254
  swap
  · have := le255 ((tileOps.copy p i).chan c)
    omega
  rw [show tileOps.copy p i = pxOr (p i) (drawPD .copy .nrgba (.px .nrgba (p i)) ⟨0, 0, 0, 0⟩) from rfl, pd_chan]
  rcases h with h | h
  · rw [h]
    simp [pdC, PD.mix, PD.factors, scale16]
  · exact pdC_copy (by omega) h

theorem destOver_dim {p q : Tile} (hp : (p i).Dim c N) (hq : (q i).Dim c N) : (tileOps.destOver p q i).Dim c N := by
  by_cases hN : N ≤ 254
  swap
  · exact .full hN _
  right
  rw [show tileOps.destOver p q i = pxOr (p i) (drawPD .destOver .nrgba (.px .nrgba (q i)) (p i)) from rfl, pd_chan]
  exact pdC_destOver hN (le255 _) (le255 _) (hq.imp alpha_zero.2 id) (hp.imp alpha_zero.2 id)

theorem destIn_dim {p q : Tile} (hp : (p i).Dim c N) (ha : (p i).a = 255) : (tileOps.destIn p q i).Dim c N := by
  by_cases hN : N ≤ 254
  swap
  · exact .full hN _
  right
  rw [show tileOps.destIn p q i = pxOr (p i) (drawPD .destIn .nrgba (.px .nrgba (q i)) (p i)) from rfl, pd_chan]
  rcases hp with hp | hp
  · rw [ha] at hp
    cases hp
  · exact pdC_destIn (by omega) hp (.inl (by rw [ha]; rfl))

/-- A mask that is black or white, or on a pixel that is opaque or fully transparent. -/
theorem mask_dim {p : Tile} {m : Nat → UInt8} (hp : (p i).Dim c N) (h : m i = 0 ∨ m i = 255 ∨ (p i).a = 0 ∨ (p i).a = 255) : (tileOps.maskIn p m i).Dim c N ∧ (tileOps.maskOut p m i).Dim c N := by
  by_cases hN : N ≤ 254
  swap
  · exact ⟨.full hN _, .full hN _⟩
  by_cases hz : (p i).a = 0
  · rw [maskIn_zero hz, maskOut_zero hz]
    exact ⟨.inl rfl, .inl rfl⟩
  have hp := hp.resolve_left hz
  have e1 : tileOps.maskIn p m i = pxOr (p i) (drawPD .destIn .nrgba (.alpha (m i)) (p i)) := rfl
  have e2 : tileOps.maskOut p m i = pxOr (p i) (drawPD .destOut .nrgba (.alpha (m i)) (p i)) := rfl
  rcases h with h | h | h | h
  · constructor
    · right
      rw [e1, pd_chan_mask, h]
      simp [pdC, PD.mix, PD.factors]
    · right
      rw [e2, pd_chan_mask, h]
      exact pdC_destOut (by omega) hp (by decide) (.inr rfl)
  · constructor
    · right
      rw [e1, pd_chan_mask, h]
      exact pdC_destIn (by omega) hp (.inr rfl)
    · right
      rw [e2, pd_chan_mask, h]
      simp [pdC, PD.mix, PD.factors]
  · exact absurd h hz
  · constructor
    · right
      rw [e1, pd_chan_mask, h]
      exact pdC_destIn (by omega) hp (.inl rfl)
    · right
      rw [e2, pd_chan_mask, h]
      exact pdC_destOut (by omega) hp (le255 _) (.inl rfl)

theorem blendN_dim {m : Mode} (hm : m.Dimming) {s d : RGB Nat} (hs : s.Le 255) (hd : d.Le 255) : (blendN m s d).r ≤ max s.r d.r ∧ (blendN m s d).g ≤ max s.g d.g ∧ (blendN m s d).b ≤ max s.b d.b := by
  have sep : ∀ {k : Sep}, k.dimming = true → ∀ {x y : Nat}, x ≤ 255 → y ≤ 255 → chanN k x y ≤ max x y := by
    intro k hk x y hx hy
    cases k <;> first | cases hk | skip
    case darken | multiply | colorBurn | linearBurn | subtract => exact Nat.le_trans (chanN_darkens rfl hx hy) (Nat.le_max_right _ _)
    all_goals
      simp only [chanN]
      first | omega | (split <;> omega)
  cases m with
  | sep k => exact ⟨sep hm hs.1 hd.1, sep hm hs.2.1 hd.2.1, sep hm hs.2.2 hd.2.2⟩
  | darkerColor =>
    unfold blendN
    dsimp only
    split
    · exact ⟨Nat.le_max_left _ _, Nat.le_max_left _ _, Nat.le_max_left _ _⟩
    · exact ⟨Nat.le_max_right _ _, Nat.le_max_right _ _, Nat.le_max_right _ _⟩
  | lighterColor =>
    unfold blendN
    dsimp only
    split
    · exact ⟨Nat.le_max_left _ _, Nat.le_max_left _ _, Nat.le_max_left _ _⟩
    · exact ⟨Nat.le_max_right _ _, Nat.le_max_right _ _, Nat.le_max_right _ _⟩
  | nonSep k => exact absurd hm id

theorem mean_dim {x y z w1 w2 w3 N : Nat} (h1 : w1 = 0 ∨ x ≤ N) (h2 : w2 = 0 ∨ y ≤ N) (h3 : w3 = 0 ∨ z ≤ N) : (x * w1 + y * w2 + z * w3) / (w1 + w2 + w3) ≤ N := by
  have le : ∀ {x w : Nat}, w = 0 ∨ x ≤ N → x * w ≤ N * w := by
    rintro x w (rfl | h)
    · simp
    · exact Nat.mul_le_mul_right _ h
  refine Nat.div_le_of_le_mul ?_
  calc x * w1 + y * w2 + z * w3 ≤ N * w1 + N * w2 + N * w3 := Nat.add_le_add (Nat.add_le_add (le h1) (le h2)) (le h3)
    _ = (w1 + w2 + w3) * N := by ring

theorem drawNN_dim {m : Mode} (hm : m.Dimming) {op : UInt8} {s d p : Px} (hs : s.Dim c N) (hd : d.Dim c N) (h : drawNN m op.toUInt32 s d = .ok p) : p.Dim c N := by
  have k := draw_composite h
  unfold Composite at k
  dsimp only at k
  split at k
  · rw [k]
    exact hd
  · rename_i h0
    simp only [not_or] at h0
    have hsa : s.a ≠ 0 := fun e => h0.1 (by rw [e]; simp)
    have hs := hs.resolve_left hsa
    obtain ⟨b1, b2, b3⟩ := blendN_dim hm (s := ⟨s.r.toNat, s.g.toNat, s.b.toNat⟩) (d := ⟨d.r.toNat, d.g.toNat, d.b.toNat⟩) ⟨le255 _, le255 _, le255 _⟩ ⟨le255 _, le255 _, le255 _⟩
    obtain ⟨-, k1, k2, k3⟩ := k
    right
    by_cases hz : d.a = 0
    · have z1 : ∀ t, t * d.a.toNat / 255 = 0 := fun t => by rw [hz]; simp
      cases c <;> simp only [Px.chan] at hs ⊢
      · rw [k1]
        exact Nat.le_trans (Nat.min_le_right _ _) (mean_dim (.inl (z1 _)) (.inr hs) (.inl (z1 _)))
      · rw [k2]
        exact Nat.le_trans (Nat.min_le_right _ _) (mean_dim (.inl (z1 _)) (.inr hs) (.inl (z1 _)))
      · rw [k3]
        exact Nat.le_trans (Nat.min_le_right _ _) (mean_dim (.inl (z1 _)) (.inr hs) (.inl (z1 _)))
    · have hd := hd.resolve_left hz
      cases c <;> simp only [Px.chan] at hs hd ⊢
      · rw [k1]
        exact Nat.le_trans (Nat.min_le_right _ _) (mean_dim (.inr (Nat.le_trans b1 (Nat.max_le.2 ⟨hs, hd⟩))) (.inr hs) (.inr hd))
      · rw [k2]
        exact Nat.le_trans (Nat.min_le_right _ _) (mean_dim (.inr (Nat.le_trans b2 (Nat.max_le.2 ⟨hs, hd⟩))) (.inr hs) (.inr hd))
      · rw [k3]
        exact Nat.le_trans (Nat.min_le_right _ _) (mean_dim (.inr (Nat.le_trans b3 (Nat.max_le.2 ⟨hs, hd⟩))) (.inr hs) (.inr hd))

/-! ### Painting -/

/-- No layer is brighter at pixel `i`, masks are black or white there or on opaque pixels, and all modes are dimming. -/
def Stk.dim (c : Primary) (N i : Nat) : Stk Tile (Nat → UInt8) → Prop
  | .nil => True
  | .layer a p m k cl r => (∀ x, p = some x → (x i).Dim c N) ∧
    (a.maskEnabled = true → ∀ v, m = some v → v i = 0 ∨ v i = 255 ∨ k.isNil = true ∧ ∀ x, p = some x → (x i).a = 0 ∨ (x i).a = 255) ∧
    (∀ md, blendMode a.blendMode = some md → md.Dimming) ∧ k.dim c N i ∧ cl.dim c N i ∧ r.dim c N i

theorem applyMask_dim {a : CAttr} {m : Option (Nat → UInt8)} {mode : List UInt8} {b buf : Tile} (hb : (b i).Dim c N) (hbuf : (buf i).Dim c N)
    (hm : a.maskEnabled = true → ∀ v, m = some v → v i = 0 ∨ v i = 255 ∨ (buf i).a = 0 ∨ (buf i).a = 255) : (applyMask tileOps a m mode b buf i).Dim c N := by
  have clear : (tileOps.clear buf i).Dim c N := by
    rw [clear_px]
    exact .inl rfl
  unfold applyMask
  split
  · rename_i he
    cases m with
    | none =>
      dsimp only
      split <;> split
      · exact destOver_dim clear hb
      · exact destOver_dim hbuf hb
      · exact clear
      · exact hbuf
    | some v =>
      have := mask_dim hbuf (hm he v rfl)
      dsimp only
      split <;> split
      · exact destOver_dim this.1 hb
      · exact destOver_dim this.2 hb
      · exact this.1
      · exact this.2
  · exact hbuf

theorem paint_dim : ∀ (t : Stk Tile (Nat → UInt8)), t.bare → t.dim c N i → ∀ (forced : Bool) (scale : Nat → Nat) (b : Tile) (r : Bool × Tile), (b i).Dim c N →
    paint tileOps t forced scale b = .ok r → (r.2 i).Dim c N := by
  intro t
  induction t with
  | nil =>
    intro _ _ forced scale b r hb e
    injection e with e
    rw [← e]
    exact hb
  | layer a p m kids clips rest ihk ihc ihr =>
    intro hba hdim forced scale b r hb e
    obtain ⟨h1, h2, h3, h4⟩ := hba
    obtain ⟨g1, g2, g3, g4, g5, g6⟩ := hdim
    rw [paint_layer] at e
    obtain ⟨r1, e1, e2⟩ := Res.bind_eq_ok.1 e
    obtain ⟨r2, e3, e4⟩ := Res.bind_eq_ok.1 e2
    injection e4 with e4
    subst e4
    refine ihr h4 g6 _ _ _ r2 ?_ e3
    unfold paintLayer at e1
    split at e1
    swap
    · injection e1 with e1
      subst e1
      exact hb
    obtain ⟨o, e5, e6⟩ := Res.bind_eq_ok.1 e1
    obtain ⟨w, e7, e8⟩ := Res.bind_eq_ok.1 e5
    have hw : ∀ x, w = some x → (x i).Dim c N := by
      rintro x rfl
      unfold ownPic at e7
      split at e7
      · rename_i hl
        injection e7 with e7
        cases p with
        | none => cases e7
        | some q =>
          injection e7 with e7
          rw [← e7]
          refine applyMask_dim hb (.inr (copy_dim (g1 q rfl))) fun he v hv => ?_
          rw [copy_alpha]
          rcases g2 he v hv with h | h | h
          · exact .inl h
          · exact .inr (.inl h)
          · exact .inr (.inr (h.2 q rfl))
      · rename_i hl
        obtain ⟨k, ek, e7⟩ := Res.bind_eq_ok.1 e7
        injection e7 with e7
        unfold folderPic at e7
        split at e7
        · injection e7 with e7
          rw [← e7]
          refine applyMask_dim hb (ihk h2 g4 _ _ _ k ?_ ek) fun he v hv => ?_
          · unfold kidStart
            split
            · exact .inr (copy_dim hb)
            · exact .inl rfl
          · rcases g2 he v hv with h | h | h
            · exact .inl h
            · exact .inr (.inl h)
            · exact absurd h.1 hl
        · cases e7
    cases w with
    | none =>
      injection e8 with e8
      subst e8
      injection e6 with e6
      subst e6
      exact hb
    | some buf =>
      have hbuf := hw buf rfl
      cases o with
      | none =>
        injection e6 with e6
        subst e6
        exact hb
      | some img =>
        have himg : (img i).Dim c N := by
          simp only [clipPic] at e8
          split at e8
          · injection e8 with e8
            injection e8 with e8
            rw [← e8]
            exact hbuf
          · obtain ⟨q, ec, e8⟩ := Res.bind_eq_ok.1 e8
            injection e8 with e8
            injection e8 with e8
            rw [← e8]
            refine destIn_dim (ihc h3 g5 _ _ _ q ?_ ec) (paint_opaque clips h3 _ _ _ q rfl ec)
            right
            have := copy_dim hbuf
            cases c <;> exact this
        obtain ⟨y, e9, e10⟩ := Res.bind_eq_ok.1 e6
        injection e10 with e10
        subst e10
        unfold place at e9
        split at e9
        · injection e9 with e9
          subst e9
          exact .inr (copy_dim himg)
        · obtain ⟨md, e11, e12⟩ := draw_px e9 i
          exact drawNN_dim (g3 md e11) himg hb e12

end

end Psd
