import Verif.Lemmas.Gaps
import Verif.Lemmas.Alpha
import Verif.Lemmas.Cover

/-!
# Pixels of which invisible ones may be missing
-/

namespace Psd

theorem px_copy_alpha (p : Px) : (pxOps.copy p).a = p.a := copy_alpha (fun _ => p) 0
theorem gap_copy_zero {p : Px} (h : p.a = 0) : pxOps.copy p = ⟨0, 0, 0, 0⟩ := copy_zero (p := fun _ => p) (i := 0) h
theorem px_copy_same {p q : Px} (h : p.Same q) : pxOps.copy p = pxOps.copy q := copy_same (p := fun _ => p) (q := fun _ => q) (i := 0) h
theorem px_clear (p : Px) : pxOps.clear p = ⟨0, 0, 0, 0⟩ := clear_px (fun _ => p) 0

theorem gap_draw {k : Nat} {m : List UInt8} {b x y : Px} (h : pxOps.draw k m b x = .ok y) : tileOps.draw k m (fun _ => b) (fun _ => x) = .ok fun _ => y := by
  simp only [pxOps] at h
  cases hm : blendMode m with
  | none => rw [hm] at h; cases h
  | some M =>
    rw [hm] at h
    injection h with h
    simp only [tileOps, hm, ← h]

theorem gap_draw_zero {k : Nat} {m : List UInt8} {b x y : Px} (h : pxOps.draw k m b x = .ok y) (hx : x.a = 0) : y = b := draw_zero (gap_draw h) (i := 0) hx

theorem pdA_out_zero (d : UInt8) : pdA .destOut 0 d = d := by
  have h : ∀ n : Fin 256, pdA .destOut 0 (UInt8.ofNat n) = UInt8.ofNat n := by decide +kernel
  have := h ⟨d.toNat, d.toNat_lt⟩
  simpa using this

theorem pdA_in_zero (d : UInt8) : pdA .destIn 0 d = 0 := by
  have h : ∀ n : Fin 256, pdA .destIn 0 (UInt8.ofNat n) = 0 := by decide +kernel
  have := h ⟨d.toNat, d.toNat_lt⟩
  simpa using this

/-- The alpha of pixels. -/
theorem alpha_gap (i : Nat) : RelOps pxOps (fun p q => p.a = q.a) (fun _ => True) (fun _ => True) Eq →
    GapOps pxOps (fun p q => p.a = q.a) (fun _ => True) (fun _ => True) Eq (fun p => p.a = 0) (fun _ m => m = 0) True False := fun h => by
  have s := tile_alpha i
  exact { h with
    symm := Eq.symm
    trans := Eq.trans
    zof := fun e e' => e.trans e'
    zblank := rfl
    zdraw := fun _ hb hx e => by rw [gap_draw_zero e hx]; exact hb
    zdestIn := fun {b x} hx => by rw [show pxOps.destIn b x = ⟨0, 0, 0, 0⟩ from destIn_zero (p := fun _ => b) (q := fun _ => x) (i := 0) hx]
    zmaskIn := fun {b m} _ hb => by rw [show pxOps.maskIn b m = ⟨0, 0, 0, 0⟩ from maskIn_zero (p := fun _ => b) (m := fun _ => m) (i := 0) hb]
    zmaskOut := fun {b m} _ hb => by rw [show pxOps.maskOut b m = ⟨0, 0, 0, 0⟩ from maskOut_zero (p := fun _ => b) (m := fun _ => m) (i := 0) hb]
    zclear := fun {b} _ => by rw [px_clear]
    gapIn := fun {_ b b' m} _ hm _ => by
      subst hm
      rw [px_clear, show (pxOps.maskIn b 0).a = pdA .destIn 0 b.a from s.maskIn (fun _ => b) (fun _ => 0)]
      exact pdA_in_zero _
    gapOut := fun {b b' m} hm hb => by
      subst hm
      rw [show (pxOps.maskOut b 0).a = pdA .destOut 0 b.a from s.maskOut (fun _ => b) (fun _ => 0), pdA_out_zero]
      exact hb
    pass := fun _ {b b'} hb => (px_copy_alpha b).trans hb
    passMask := fun h => h.elim }

/-- Pixels that look the same, where no folder is pass-through. Masks may be missing that hide by default. -/
theorem same_gap : GapOps pxOps Px.Same (fun _ => True) (fun _ => True) Eq (fun p => p.a = 0) (fun c m => c ≠ 255 ∧ m = 0) False False where
  blank := .refl _
  copy h := by rw [px_copy_same h]; exact .refl _
  draw {k m m' b b' x x' y y'} _ hm hb hx e e' := by
    subst hm
    exact draw_same (gap_draw e) (gap_draw e') (i := 0) hb hx
  no_pass {k b x y} e := by simp only [pxOps, show blendMode passThrough = none by decide, reduceCtorEq] at e
  clip {p q} h := by
    left
    rw [px_copy_same h]
    exact .refl _
  destIn {b b' x x'} hb hx := by
    rw [show pxOps.destIn b x = pxOps.destIn b' x' from destIn_same (p := fun _ => b) (q := fun _ => x) (p' := fun _ => b') (q' := fun _ => x') (i := 0) hb hx]
    exact .refl _
  destOver {b b' x x'} hb hx := by
    rw [show pxOps.destOver b x = pxOps.destOver b' x' from destOver_same (p := fun _ => b) (q := fun _ => x) (p' := fun _ => b') (q' := fun _ => x') (i := 0) hb hx]
    exact .refl _
  maskIn {b b' m} _ hb := by
    rw [show pxOps.maskIn b m = pxOps.maskIn b' m from maskIn_same (p := fun _ => b) (p' := fun _ => b') (m := fun _ => m) (m' := fun _ => m) (i := 0) hb rfl]
    exact .refl _
  maskOut {b b' m} _ hb := by
    rw [show pxOps.maskOut b m = pxOps.maskOut b' m from maskOut_same (p := fun _ => b) (p' := fun _ => b') (m := fun _ => m) (m' := fun _ => m) (i := 0) hb rfl]
    exact .refl _
  clear {b b'} _ := by rw [px_clear, px_clear]; exact .refl _
  full := trivial
  scale _ _ := trivial
  symm h := h.symm
  trans {p q r} h h' := by
    rcases h with rfl | ⟨h1, h2⟩
    · exact h'
    · exact .inr ⟨h1, h'.of_alpha h2⟩
  zof h hz := h.alpha.trans hz
  zblank := rfl
  zdraw _ hb hx e := by rw [gap_draw_zero e hx]; exact hb
  zdestIn {b x} hx := by rw [show pxOps.destIn b x = ⟨0, 0, 0, 0⟩ from destIn_zero (p := fun _ => b) (q := fun _ => x) (i := 0) hx]
  zmaskIn {b m} _ hb := by rw [show pxOps.maskIn b m = ⟨0, 0, 0, 0⟩ from maskIn_zero (p := fun _ => b) (m := fun _ => m) (i := 0) hb]
  zmaskOut {b m} _ hb := by rw [show pxOps.maskOut b m = ⟨0, 0, 0, 0⟩ from maskOut_zero (p := fun _ => b) (m := fun _ => m) (i := 0) hb]
  zclear _ := by rw [px_clear]
  gapIn {_ b b' m} _ hm _ := by
    obtain ⟨-, rfl⟩ := hm
    rw [px_clear]
    refine .inr ⟨?_, rfl⟩
    rw [show (pxOps.maskIn b 0).a = pdA .destIn 0 b.a from (tile_alpha 0).maskIn (fun _ => b) (fun _ => 0)]
    exact pdA_in_zero _
  gapOut h := absurd rfl h.1
  pass h := h.elim
  passMask h := h.elim

/-! ### Hard edges -/

theorem read_opaque (r g b : UInt8) : readPx .nrgba ⟨r, g, b, 255⟩ = ⟨r.toUInt32 * 0x0101, g.toUInt32 * 0x0101, b.toUInt32 * 0x0101, 0xffff⟩ := by
  unfold readPx toPremul widen
  rw [show (255 : UInt8).toUInt32 * 0x0101 = 0xffff by decide]
  simp

theorem src_opaque (r g b : UInt8) : (PDSrc.px .nrgba ⟨r, g, b, 255⟩).read = ⟨r.toUInt32 * 0x0101, g.toUInt32 * 0x0101, b.toUInt32 * 0x0101, 0xffff⟩ := by
  have full : ∀ x y z a : UInt32, a = 0xffff → toPremul ⟨x, y, z, a⟩ = ⟨x, y, z, 0xffff⟩ := by
    intro x y z a h
    subst h
    unfold toPremul
    simp
  exact full _ _ _ _ (show (255 : UInt8).toUInt32 * 0x0101 * 0xffff / 0xffff = 0xffff by decide +kernel)

/-- An opaque pixel covers what is below, and a transparent one nothing. -/
theorem destOver_crisp {k b : Px} (hk : k.Crisp) (hb : b.Crisp) (h : k = b ∨ k = ⟨0, 0, 0, 0⟩) : pxOps.destOver k b = b := by
  have keep : ∀ c : UInt8, hi8 (pdChan .destOver 0xffff 0xffff (c.toUInt32 * 0x0101) (c.toUInt32 * 0x0101)) = c := by
    intro c
    have : ∀ x : Fin 256, hi8 (pdChan .destOver 0xffff 0xffff ((UInt8.ofNat x.val).toUInt32 * 0x0101) ((UInt8.ofNat x.val).toUInt32 * 0x0101)) = UInt8.ofNat x.val := by decide +kernel
    have := this ⟨c.toNat, c.toNat_lt⟩
    simpa using this
  have fill : ∀ c : UInt8, hi8 (pdChan .destOver 0xffff 0 (c.toUInt32 * 0x0101) 0) = c := by
    intro c
    have : ∀ x : Fin 256, hi8 (pdChan .destOver 0xffff 0 ((UInt8.ofNat x.val).toUInt32 * 0x0101) 0) = UInt8.ofNat x.val := by decide +kernel
    have := this ⟨c.toNat, c.toNat_lt⟩
    simpa using this
  rcases hb with hb | rfl
  · obtain ⟨r, g, b, a⟩ := b
    obtain rfl : a = 255 := hb
    rcases h with rfl | rfl
    · show pxOr _ (drawPD .destOver .nrgba (.px .nrgba ⟨r, g, b, 255⟩) ⟨r, g, b, 255⟩) = _
      unfold drawPD storePx
      rw [src_opaque, read_opaque]
      simp only [pdOp, show pdAlpha .destOver 0xffff 0xffff = 0xffff by decide +kernel, if_true, pxOr, keep]
      rfl
    · show pxOr _ (drawPD .destOver .nrgba (.px .nrgba ⟨r, g, b, 255⟩) ⟨0, 0, 0, 0⟩) = _
      unfold drawPD storePx
      rw [src_opaque, show readPx .nrgba ⟨0, 0, 0, 0⟩ = ⟨0, 0, 0, 0⟩ by decide +kernel]
      simp only [pdOp, show pdAlpha .destOver 0xffff 0 = 0xffff by decide +kernel, if_true, pxOr, fill]
      rfl
  · rcases h with rfl | rfl <;> decide +kernel

/-- A mask keeps a hard-edged pixel or removes it. -/
theorem mask_crisp {b : Px} {m : UInt8} (hb : b.Crisp) (hm : m = 0 ∨ m = 255) :
    (pxOps.maskIn b m = if m = 0 then ⟨0, 0, 0, 0⟩ else b) ∧ (pxOps.maskOut b m = if m = 0 then b else ⟨0, 0, 0, 0⟩) := by
  have h0 : (PDSrc.alpha 0).read.a = 0 := by decide +kernel
  have h1 : (PDSrc.alpha 255).read.a = 0xffff := by decide +kernel
  rcases hb with hb | rfl
  · have hr : (readPx .nrgba b).a = 0xffff := by
      obtain ⟨r, g, b, a⟩ := b
      obtain rfl : a = 255 := hb
      rw [read_opaque]
    rcases hm with rfl | rfl
    · simp only [if_true]
      exact ⟨pd_zero (by rw [h0, hr]; decide +kernel) _, pd_full (.inr ⟨rfl, h0⟩) hb _⟩
    · simp only [show ¬(255 : UInt8) = 0 by decide, if_false]
      exact ⟨pd_full (.inl ⟨rfl, h1⟩) hb _, pd_zero (by rw [h1, hr]; decide +kernel) _⟩
  · rcases hm with rfl | rfl <;> decide +kernel

/-- The same hard-edged pixel. -/
theorem crisp_gap : GapOps pxOps (fun p q => p = q ∧ p.Crisp) (fun k => k = 0 ∨ k = 255) (fun m => m = 0 ∨ m = 255) Eq (· = ⟨0, 0, 0, 0⟩) (fun _ m => m = 0) True True where
  blank := ⟨rfl, .inr rfl⟩
  copy {p q} h := ⟨by rw [h.1], by rw [h.2.copy]; exact h.2⟩
  draw {k m m' b b' x x' y y'} hk hm hb hx e e' := by
    obtain ⟨rfl, hb⟩ := hb
    obtain ⟨rfl, hx⟩ := hx
    subst hm
    rw [e] at e'
    injection e' with e'
    refine ⟨e', ?_⟩
    by_cases h0 : k = 0
    · subst h0
      obtain ⟨md, -, e⟩ := draw_px (gap_draw e) 0
      have e' := C41_transparent_nrgba md 0 x b (.inr rfl)
      have := e.symm.trans (show drawNN md (UInt8.ofNat 0).toUInt32 x b = .ok b from e')
      injection this with this
      rw [this]
      exact hb
    · exact crispPic_draw hk h0 hb hx e
  no_pass {k b x y} e := by simp only [pxOps, show blendMode passThrough = none by decide, reduceCtorEq] at e
  clip {p q} h := by
    left
    rw [h.1]
    exact ⟨rfl, .inl rfl⟩
  destIn {b b' x x'} hb hx := by
    obtain ⟨rfl, hb⟩ := hb
    obtain ⟨rfl, hx⟩ := hx
    exact ⟨rfl, pd_crisp .destIn _ _ _ (read_hard hx.alpha) hb.alpha⟩
  destOver {b b' x x'} hb hx := by
    obtain ⟨rfl, hb⟩ := hb
    obtain ⟨rfl, hx⟩ := hx
    exact ⟨rfl, pd_crisp .destOver _ _ _ (read_hard hx.alpha) hb.alpha⟩
  maskIn {b b' m} hm hb := by
    obtain ⟨rfl, hb⟩ := hb
    exact ⟨rfl, pd_crisp .destIn _ _ _ (readAlpha_hard hm) hb.alpha⟩
  maskOut {b b' m} hm hb := by
    obtain ⟨rfl, hb⟩ := hb
    exact ⟨rfl, pd_crisp .destOut _ _ _ (readAlpha_hard hm) hb.alpha⟩
  clear {b b'} _ := by
    rw [px_clear, px_clear]
    exact ⟨rfl, .inr rfl⟩
  full := .inr rfl
  scale h h' := by rcases h with rfl | rfl <;> rcases h' with rfl | rfl <;> decide
  symm h := ⟨h.1.symm, h.1 ▸ h.2⟩
  trans h h' := ⟨h.1.trans h'.1, h.2⟩
  zof h hz := h.1.trans hz
  zblank := rfl
  zdraw {k m b b' x y} _ hb hx e := by
    rw [gap_draw_zero e (by rw [hx])]
    exact hb
  zdestIn {b x} hx := destIn_zero (p := fun _ => b) (q := fun _ => x) (i := 0) (by rw [hx])
  zmaskIn {b m} _ hb := maskIn_zero (p := fun _ => b) (m := fun _ => m) (i := 0) (by rw [hb])
  zmaskOut {b m} _ hb := maskOut_zero (p := fun _ => b) (m := fun _ => m) (i := 0) (by rw [hb])
  zclear {b} _ := px_clear b
  gapIn {_ b b' m} _ hm hb := by
    subst hm
    rw [px_clear, (mask_crisp hb.2 (.inl rfl)).1, if_pos rfl]
    exact ⟨rfl, .inr rfl⟩
  gapOut {b b' m} hm hb := by
    subst hm
    rw [(mask_crisp hb.2 (.inl rfl)).2, if_pos rfl]
    exact hb
  pass _ {b b'} hb := by
    rw [hb.2.copy]
    exact hb
  passMask _ {k b b'} hk hb := by
    obtain ⟨rfl, hk⟩ := hk
    refine ⟨?_, ?_, fun m hm => ?_⟩
    · rw [destOver_crisp hk hk (.inl rfl)]
      exact hb
    · rw [px_clear, destOver_crisp (.inr rfl) hk (.inr rfl)]
      exact hb
    · rw [(mask_crisp hk hm).1, (mask_crisp hk hm).2]
      split
      · rw [destOver_crisp (.inr rfl) hk (.inr rfl), destOver_crisp hk hk (.inl rfl)]
        exact ⟨hb, hb⟩
      · rw [destOver_crisp (.inr rfl) hk (.inr rfl), destOver_crisp hk hk (.inl rfl)]
        exact ⟨hb, hb⟩

end Psd
