import Verif.Spec.PorterDuff
import Verif.Props.Color
import Verif.Props.Blend

/-
The Porter-Duff operators (C46, C47).
-/

namespace Psd

theorem n16 : (0xffff : UInt32).toNat = 65535 := rfl

theorem compl16 (a : UInt32) (h : a.toNat ≤ 65535) : (0xffff - a).toNat = 65535 - a.toNat := by
  rw [subU _ _ (by rw [n16]; exact h), n16]

theorem over16 (s t d : UInt32) (hs : s.toNat ≤ 65535) (ht : t.toNat ≤ 65535) (hd : d.toNat ≤ 65535) :
    (s + t * d / 0xffff).toNat = (65535 * s.toNat + t.toNat * d.toNat) / 65535 := by
  have h1 := scaleU16 t d ht hd
  have h2 : scale16 t.toNat d.toNat ≤ d.toNat := scale16_le ht
  rw [addU _ _ (by rw [h1]; omega), h1, Nat.add_comm (65535 * _), Nat.add_mul_div_left _ _ (by decide), Nat.add_comm]
  rfl

theorem mix16 (s x d y : UInt32)
    (h : s.toNat * x.toNat + d.toNat * y.toNat ≤ 4294836225) :
    ((s * x + d * y) / 0xffff).toNat = (x.toNat * s.toNat + y.toNat * d.toNat) / 65535 := by
  have h1 := mulU s x (by omega)
  have h2 := mulU d y (by omega)
  rw [UInt32.toNat_div, addU _ _ (by rw [h1, h2]; omega), h1, h2, Nat.mul_comm s.toNat, Nat.mul_comm d.toNat]
  rfl

/-- Two coverage factors that share the whole: `x * p + y * (1 - p) ≤ max x y`. -/
theorem split_le {x y p m : Nat} (hx : x ≤ m) (hy : y ≤ m) (hp : p ≤ 65535) : x * p + y * (65535 - p) ≤ m * 65535 := by
  have h1 : x * p ≤ m * p := Nat.mul_le_mul_right p hx
  have h2 : y * (65535 - p) ≤ m * (65535 - p) := Nat.mul_le_mul_right _ hy
  have h3 : m * p + m * (65535 - p) = m * 65535 := by rw [← Nat.mul_add]; congr 1; omega
  omega

theorem xor_le {s d : Nat} (hs : s ≤ 65535) (hd : d ≤ 65535) : s * (65535 - d) + d * (65535 - s) ≤ 4294836225 := by
  -- for fixed `d` the sum is linear in `s`: it lies between `65535 * d` and `65535 * (65535 - d)`
  have h1 : s * (65535 - d) ≤ s * 65535 := Nat.mul_le_mul_left s (by omega)
  have h2 : d * (65535 - s) ≤ 65535 * (65535 - s) := Nat.mul_le_mul_right _ hd
  omega

theorem pdChan_exact (op : PD) (sa da s d : UInt32) (hsa : sa.toNat ≤ 65535) (hda : da.toNat ≤ 65535)
    (hs : s.toNat ≤ sa.toNat) (hd : d.toNat ≤ da.toNat) :
    (pdChan op sa da s d).toNat = op.mix sa.toNat da.toNat s.toNat d.toNat := by
  have cs := compl16 sa hsa
  have cd := compl16 da hda
  have bs : s.toNat ≤ 65535 := Nat.le_trans hs hsa
  have bd : d.toNat ≤ 65535 := Nat.le_trans hd hda
  cases op <;> unfold pdChan PD.mix PD.factors <;> dsimp only
  case clear => rw [Nat.zero_mul, Nat.zero_mul]; rfl
  case copy => rw [Nat.zero_mul, Nat.add_zero, Nat.mul_div_cancel_left _ (by decide)]
  case dest => rw [Nat.zero_mul, Nat.zero_add, Nat.mul_div_cancel_left _ (by decide)]
  case srcOver => rw [over16 _ _ _ bs (by omega) bd, cs]
  case destOver => rw [over16 _ _ _ bd (by omega) bs, cd, Nat.add_comm]
  case srcIn => rw [scaleU16 _ _ hda bs, Nat.zero_mul]; rfl
  case destIn => rw [scaleU16 _ _ hsa bd, Nat.zero_mul, Nat.zero_add]; rfl
  case srcOut => rw [scaleU16 _ _ (by omega) bs, cd, Nat.zero_mul]; rfl
  case destOut => rw [scaleU16 _ _ (by omega) bd, cs, Nat.zero_mul, Nat.zero_add]; rfl
  case srcAtop =>
    rw [mix16 s da d _, cs]
    rw [cs]
    have h1 : s.toNat * da.toNat ≤ sa.toNat * da.toNat := Nat.mul_le_mul_right _ hs
    have h2 : d.toNat * (65535 - sa.toNat) ≤ da.toNat * (65535 - sa.toNat) := Nat.mul_le_mul_right _ hd
    have h3 := split_le (Nat.le_refl da.toNat) (Nat.le_refl da.toNat) hsa
    rw [Nat.mul_comm sa.toNat] at h1
    omega
  case destAtop =>
    rw [mix16 s _ d sa, cd]
    rw [cd]
    have h1 : s.toNat * (65535 - da.toNat) ≤ sa.toNat * (65535 - da.toNat) := Nat.mul_le_mul_right _ hs
    have h2 : d.toNat * sa.toNat ≤ da.toNat * sa.toNat := Nat.mul_le_mul_right _ hd
    have h3 := split_le (Nat.le_refl sa.toNat) (Nat.le_refl sa.toNat) hda
    rw [Nat.mul_comm da.toNat] at h2
    omega
  case xor =>
    rw [mix16 s _ d _, cd, cs]
    rw [cd, cs]
    have h1 : s.toNat * (65535 - da.toNat) ≤ sa.toNat * (65535 - da.toNat) := Nat.mul_le_mul_right _ hs
    have h2 : d.toNat * (65535 - sa.toNat) ≤ da.toNat * (65535 - sa.toNat) := Nat.mul_le_mul_right _ hd
    have h3 := xor_le hsa hda
    omega

theorem pdAlpha_exact (op : PD) (sa da : UInt32) (hsa : sa.toNat ≤ 65535) (hda : da.toNat ≤ 65535) :
    (pdAlpha op sa da).toNat = op.mix sa.toNat da.toNat sa.toNat da.toNat := by
  rw [← pdChan_exact op sa da sa da hsa hda (Nat.le_refl _) (Nat.le_refl _)]
  have e : ∀ (a b : Nat), b ≤ 65535 → (a * b + a * (65535 - b)) / 65535 = a := fun a b hb => by
    rw [← Nat.mul_add, show b + (65535 - b) = 65535 from by omega, Nat.mul_div_cancel _ (by decide)]
  cases op <;> try rfl
  case destIn => exact congrArg (fun v : UInt32 => (v / 0xffff).toNat) (UInt32.mul_comm da sa)
  case srcAtop =>
    rw [pdChan_exact .srcAtop sa da sa da hsa hda (Nat.le_refl _) (Nat.le_refl _)]
    unfold PD.mix PD.factors pdAlpha
    dsimp only
    rw [Nat.mul_comm (65535 - _)]
    exact (e _ _ hsa).symm
  case destAtop =>
    rw [pdChan_exact .destAtop sa da sa da hsa hda (Nat.le_refl _) (Nat.le_refl _)]
    unfold PD.mix PD.factors pdAlpha
    dsimp only
    rw [Nat.mul_comm (65535 - _), Nat.add_comm]
    exact (e _ _ hda).symm

theorem mix_mono (op : PD) (as ad : Nat) {s s' d d' : Nat} (h1 : s ≤ s') (h2 : d ≤ d') :
    op.mix as ad s d ≤ op.mix as ad s' d' :=
  Nat.div_le_div_right (Nat.add_le_add (Nat.mul_le_mul_left _ h1) (Nat.mul_le_mul_left _ h2))

theorem mix_le (op : PD) {as ad : Nat} (h1 : as ≤ 65535) (h2 : ad ≤ 65535) : op.mix as ad as ad ≤ 65535 := by
  apply Nat.div_le_of_le_mul
  have p1 : ad * as ≤ ad * 65535 := Nat.mul_le_mul_left _ h1
  have p2 : as * ad ≤ as * 65535 := Nat.mul_le_mul_left _ h2
  have c : ∀ a b : Nat, b ≤ 65535 → (65535 - b) * a + a * b = a * 65535 := fun a b hb => by
    rw [Nat.mul_comm (65535 - b), ← Nat.mul_add]; congr 1; omega
  have c1 := c ad as h1
  have c2 := c as ad h2
  have x := xor_le h1 h2
  have e1 := Nat.mul_comm as (65535 - ad)
  have e2 := Nat.mul_comm ad (65535 - as)
  have e3 := Nat.mul_comm as ad
  have e4 : (65535 - ad) * as ≤ 65535 * as := Nat.mul_le_mul_right _ (by omega)
  have e5 : (65535 - as) * ad ≤ 65535 * ad := Nat.mul_le_mul_right _ (by omega)
  have q1 : (65535 - as) * ad ≤ (65535 - as) * 65535 := Nat.mul_le_mul_left _ h2
  have q2 : (65535 - ad) * as ≤ (65535 - ad) * 65535 := Nat.mul_le_mul_left _ h1
  cases op <;> unfold PD.factors <;> dsimp only <;> omega

/-- **C47** Each operator gives exactly `Fs * S + Fd * D` (rounded down) in all four components, for every pair of
premultiplied colours: nothing wraps, and the result is again premultiplied and within 16 bits. -/
theorem C47_operators (op : PD) (s d : RGBA32) (hs : Premultiplied s) (hd : Premultiplied d) :
    PorterDuff op s d (pdOp op s d) ∧ Premultiplied (pdOp op s d) := by
  have ha := pdAlpha_exact op s.a d.a hs.1 hd.1
  have hr := pdChan_exact op s.a d.a s.r d.r hs.1 hd.1 hs.2.1 hd.2.1
  have hg := pdChan_exact op s.a d.a s.g d.g hs.1 hd.1 hs.2.2.1 hd.2.2.1
  have hb := pdChan_exact op s.a d.a s.b d.b hs.1 hd.1 hs.2.2.2 hd.2.2.2
  refine ⟨⟨ha, hr, hg, hb⟩, ?_⟩
  unfold Premultiplied pdOp
  dsimp only
  rw [ha, hr, hg, hb]
  exact ⟨mix_le op hs.1 hd.1, mix_mono op _ _ hs.2.1 hd.2.1, mix_mono op _ _ hs.2.2.1 hd.2.2.1,
    mix_mono op _ _ hs.2.2.2 hd.2.2.2⟩

theorem widen_bound (x : UInt8) : (x.toUInt32 * 0x0101).toNat ≤ 65535 := by
  rw [wide8]; have := x.toNat_lt; omega

theorem toPremul_exact (v : RGBA32) (hr : v.r.toNat ≤ 65535) (hg : v.g.toNat ≤ 65535) (hb : v.b.toNat ≤ 65535)
    (ha : v.a.toNat ≤ 65535) :
    (toPremul v).a = v.a ∧ (toPremul v).r.toNat = scale16 v.r.toNat v.a.toNat ∧
    (toPremul v).g.toNat = scale16 v.g.toNat v.a.toNat ∧ (toPremul v).b.toNat = scale16 v.b.toNat v.a.toNat := by
  unfold toPremul
  split
  · rename_i h
    have f : ∀ x : Nat, (0 : UInt32).toNat = scale16 x v.a.toNat := fun x => by
      rw [h]; unfold scale16; rw [show (0 : UInt32).toNat = 0 from rfl, Nat.mul_zero]
    exact ⟨rfl, f _, f _, f _⟩
  · split
    · exact ⟨rfl, scaleU16 _ _ hr ha, scaleU16 _ _ hg ha, scaleU16 _ _ hb ha⟩
    · rename_i h
      have h' : v.a.toNat = 65535 := by
        have : ¬ v.a.toNat < 65535 := fun h' => h (UInt32.lt_iff_toNat_lt.2 h')
        omega
      have f : ∀ x : Nat, x = scale16 x v.a.toNat := fun x => by
        rw [h']; unfold scale16; rw [Nat.mul_div_cancel _ (by decide)]
      exact ⟨rfl, f _, f _, f _⟩

theorem readPx_means (k : PixKind) (p : Px) (hp : p.Valid k) : p.Means k (readPx k p) ∧ Premultiplied (readPx k p) := by
  have br := widen_bound p.r
  have bg := widen_bound p.g
  have bb := widen_bound p.b
  have ba := widen_bound p.a
  cases k with
  | rgba =>
    refine ⟨⟨wide8 _, wide8 _, wide8 _, wide8 _⟩, ba, ?_⟩
    obtain ⟨h1, h2, h3⟩ := hp rfl
    unfold readPx widen
    dsimp only
    rw [wide8, wide8, wide8, wide8]
    exact ⟨Nat.mul_le_mul_right _ h1, Nat.mul_le_mul_right _ h2, Nat.mul_le_mul_right _ h3⟩
  | nrgba =>
    obtain ⟨ea, er, eg, eb⟩ := toPremul_exact (widen p) br bg bb ba
    have wr : (widen p).r.toNat = p.r.toNat * 257 := wide8 _
    have wg : (widen p).g.toNat = p.g.toNat * 257 := wide8 _
    have wb : (widen p).b.toNat = p.b.toNat * 257 := wide8 _
    have wa : (widen p).a.toNat = p.a.toNat * 257 := wide8 _
    refine ⟨⟨?_, ?_, ?_, ?_⟩, ?_⟩
    · show (toPremul (widen p)).a.toNat = _; rw [ea, wa]
    · show (toPremul (widen p)).r.toNat = _; rw [er, wr, wa]
    · show (toPremul (widen p)).g.toNat = _; rw [eg, wg, wa]
    · show (toPremul (widen p)).b.toNat = _; rw [eb, wb, wa]
    · show Premultiplied (toPremul (widen p))
      unfold Premultiplied
      rw [ea, er, eg, eb]
      exact ⟨ba, scale16_le br, scale16_le bg, scale16_le bb⟩

theorem full_mask (a : UInt8) : a.toUInt32 * 0x0101 * 0xffff / 0xffff = a.toUInt32 * 0x0101 := by
  apply UInt32.toNat_inj.1
  have := widen_bound a
  rw [UInt32.toNat_div, mulU _ _ (by rw [n16]; omega), n16, Nat.mul_div_cancel _ (by decide)]

theorem widenSrc_full (p : Px) : widenSrc 0xffff p = widen p := by
  unfold widenSrc
  rw [full_mask]
  rfl

theorem read_means (s : PDSrc) (hs : s.Valid) : s.Means s.read ∧ Premultiplied s.read := by
  cases s with
  | px k p =>
    have e : (PDSrc.px k p).read = readPx k p := by cases k <;> unfold PDSrc.read <;> dsimp only <;> rw [widenSrc_full] <;> rfl
    rw [e]
    exact readPx_means k p hs
  | alpha a =>
    have e : (PDSrc.alpha a).read = ⟨0, 0, 0, a.toUInt32 * 0x0101⟩ := by unfold PDSrc.read; dsimp only; rw [full_mask]
    rw [e]
    refine ⟨?_, widen_bound a, Nat.zero_le _, Nat.zero_le _, Nat.zero_le _⟩
    show RGBA32.mk 0 0 0 _ = RGBA32.mk 0 0 0 _
    congr 1
  | uniform c => exact ⟨rfl, hs⟩

theorem hi8_toNat (v : UInt32) (h : v.toNat ≤ 65535) : (hi8 v).toNat = v.toNat / 256 := by
  unfold hi8
  have := shr8 v
  rw [UInt32.toNat_toUInt8, this]
  omega

theorem unpremul (x a : UInt32) (h0 : 0 < a.toNat) (ha : a.toNat ≤ 65535) (hx : x.toNat ≤ a.toNat) :
    ∃ q, divU32 (x * 0xffff) a = .ok q ∧ q.toNat = x.toNat * 65535 / a.toNat ∧ q.toNat ≤ 65535 := by
  obtain ⟨h1, h2⟩ := divU32_ok (x * 0xffff) a h0
  rw [mulU _ _ (by rw [n16]; omega), n16] at h2
  refine ⟨_, h1, h2, ?_⟩
  rw [h2]
  exact Nat.div_le_of_le_mul (Nat.mul_le_mul_right _ hx)

theorem store_stores (k : PixKind) (v : RGBA32) (hv : Premultiplied v) : ∃ p, storePx k v = .ok p ∧ p.Stores k v := by
  obtain ⟨ha, hr, hg, hb⟩ := hv
  cases k with
  | rgba =>
    exact ⟨_, rfl, hi8_toNat _ ha, hi8_toNat _ (by omega), hi8_toNat _ (by omega), hi8_toNat _ (by omega)⟩
  | nrgba =>
    unfold storePx
    dsimp only
    split
    · rename_i h
      refine ⟨_, rfl, hi8_toNat _ ha, ?_⟩
      have e : v.a.toNat = 65535 := by rw [h]; rfl
      dsimp only
      rw [e] at hr hg hb ⊢
      rw [hi8_toNat _ hr, hi8_toNat _ hg, hi8_toNat _ hb, Nat.mul_div_cancel _ (by decide),
        Nat.mul_div_cancel _ (by decide), Nat.mul_div_cancel _ (by decide)]
      exact ⟨rfl, rfl, rfl⟩
    · split
      · rename_i h
        refine ⟨_, rfl, hi8_toNat _ ha, ?_⟩
        have e : v.a.toNat = 0 := by rw [h]; rfl
        dsimp only
        rw [e, Nat.div_zero, Nat.div_zero, Nat.div_zero]
        exact ⟨rfl, rfl, rfl⟩
      · rename_i h
        have h0 : 0 < v.a.toNat := Nat.pos_of_ne_zero fun e => h (UInt32.toNat_inj.1 e)
        obtain ⟨b, e1, q1, l1⟩ := unpremul v.b v.a h0 ha hb
        obtain ⟨g, e2, q2, l2⟩ := unpremul v.g v.a h0 ha hg
        obtain ⟨r, e3, q3, l3⟩ := unpremul v.r v.a h0 ha hr
        refine ⟨_, (bind_of_ok e1 _).trans ((bind_of_ok e2 _).trans (bind_of_ok e3 _)), hi8_toNat _ ha, ?_, ?_, ?_⟩
        · dsimp only; rw [hi8_toNat _ l3, q3]
        · dsimp only; rw [hi8_toNat _ l2, q2]
        · dsimp only; rw [hi8_toNat _ l1, q1]

/-- **C47** Drawing with any operator, from any kind of source pixel onto either kind of image, succeeds and stores the
operator's result on the premultiplied colours of the two pixels. -/
theorem C47_drawing (op : PD) (k : PixKind) (s : PDSrc) (d : Px) (hs : s.Valid) (hd : d.Valid k) :
    ∃ S D V p, s.Means S ∧ d.Means k D ∧ PorterDuff op S D V ∧ Premultiplied V ∧
      drawPD op k s d = .ok p ∧ p.Stores k V := by
  obtain ⟨m1, p1⟩ := read_means s hs
  obtain ⟨m2, p2⟩ := readPx_means k d hd
  obtain ⟨h1, h2⟩ := C47_operators op _ _ p1 p2
  obtain ⟨p, e, st⟩ := store_stores k _ h2
  exact ⟨_, _, _, p, m1, m2, h1, h2, e, st⟩

/-- Half transparent red over translucent green, onto an NRGBA image. -/
example : (PDSrc.px .nrgba ⟨255, 0, 0, 128⟩).Valid ∧ (⟨0, 255, 0, 64⟩ : Px).Valid .nrgba ∧
    drawPD .srcOver .nrgba (.px .nrgba ⟨255, 0, 0, 128⟩) ⟨0, 255, 0, 64⟩ = .ok ⟨204, 51, 0, 160⟩ :=
  by
  refine ⟨?_, ?_, rfl⟩
  · intro h; cases h
  · intro h; cases h

/-- The contract on `image.RGBA` is needed: a colour with alpha 0 over opaque white wraps around. -/
example : drawPD .srcOver .rgba (.px .rgba ⟨255, 255, 255, 0⟩) ⟨255, 255, 255, 255⟩ = .ok ⟨255, 255, 255, 255⟩ ∧
    drawPD .srcOver .rgba (.px .rgba ⟨2, 255, 255, 0⟩) ⟨255, 255, 255, 255⟩ = .ok ⟨2, 255, 255, 255⟩ := ⟨by rfl, by rfl⟩

/-! ## C46: Copy -/

/-- **C46 (negation)** Copying a nearly transparent NRGBA pixel loses one level. -/
theorem C46_copy_is_lossy : drawPD .copy .nrgba (.px .nrgba ⟨100, 0, 0, 1⟩) ⟨0, 0, 0, 0⟩ = .ok ⟨99, 0, 0, 1⟩ := by rfl

theorem copy_back (x a q w : Nat) (hx255 : x ≤ 255) (ha : a ≤ 255) (h0 : 0 < a) (hq : q = x * a * 257 / 255)
    (hw : q * 255 / a = w) :
    w / 256 ≤ x ∧ x ≤ w / 256 + 1 ∧ (x = 0 ∨ 255 ≤ x * a → w / 256 = x) := by
  have u : q * 255 ≤ x * a * 257 := by rw [hq]; exact Nat.div_mul_le_self _ _
  have l : x * a * 257 < q * 255 + 255 := by omega
  have u2 : w < 257 * x + 1 := by
    rw [← hw]
    have e : (257 * x + 1) * a = x * a * 257 + a := by ring
    exact (Nat.div_lt_iff_lt_mul h0).2 (Nat.lt_of_lt_of_eq (Nat.lt_of_le_of_lt u (Nat.lt_add_of_pos_right h0)) e.symm)
  have l2 : ∀ z, z * a ≤ q * 255 → z ≤ w := fun z hz => by rw [← hw]; exact (Nat.le_div_iff_mul_le h0).2 hz
  have hx : 256 * x * a = x * a * 256 := by rw [Nat.mul_assoc, Nat.mul_comm]
  refine ⟨by omega, ?_, ?_⟩
  · by_cases hx0 : x = 0
    · omega
    · have := l2 (256 * (x - 1)) (by
        have : 256 * (x - 1) * a + 256 * a = x * a * 256 := by
          rw [← Nat.add_mul, show 256 * (x - 1) + 256 = 256 * x from by omega]
          exact hx
        omega)
      omega
  · rintro (h | h)
    · omega
    · have := l2 (256 * x) (by omega)
      omega

theorem copy_chan (x a : Nat) (hx : x ≤ 255) (ha : a ≤ 255) (h0 : 0 < a) :
    scale16 (x * 257) (a * 257) * 65535 / (a * 257) / 256 ≤ x ∧
    x ≤ scale16 (x * 257) (a * 257) * 65535 / (a * 257) / 256 + 1 ∧
    (x = 0 ∨ 255 ≤ x * a → scale16 (x * 257) (a * 257) * 65535 / (a * 257) / 256 = x) := by
  have e1 : scale16 (x * 257) (a * 257) = x * a * 257 / 255 := by
    have k := Nat.mul_div_mul_right (x * a * 257) 255 (show 0 < 257 by decide)
    have e : x * 257 * (a * 257) = x * a * 257 * 257 := by rw [Nat.mul_mul_mul_comm]; omega
    unfold scale16
    rw [e]
    exact k
  have e2 : ∀ q, q * 255 / a = q * 65535 / (a * 257) := fun q => by
    have k := Nat.mul_div_mul_right (q * 255) a (show 0 < 257 by decide)
    have e : q * 65535 = q * 255 * 257 := by omega
    rw [e]
    exact k.symm
  exact copy_back x a _ _ hx ha h0 e1 (e2 _)

/-- **C46 (partial)** Copying an NRGBA pixel onto an NRGBA image keeps the alpha exactly and each channel within one
level below; a channel is kept exactly if it is 0 or its product with the alpha is at least 255. A fully transparent
pixel becomes black. Copying RGBA onto RGBA is exact. Missing: exactness at low alpha (`C46_copy_is_lossy`). -/
theorem C46_copy_partial (s d : Px) :
    (∃ p, drawPD .copy .nrgba (.px .nrgba s) d = .ok p ∧ p.a = s.a ∧
      (s.a = 0 → p = ⟨0, 0, 0, 0⟩) ∧
      (s.a ≠ 0 → ∀ x y, (x, y) ∈ [(s.r, p.r), (s.g, p.g), (s.b, p.b)] →
        y.toNat ≤ x.toNat ∧ x.toNat ≤ y.toNat + 1 ∧ (x = 0 ∨ 255 ≤ x.toNat * s.a.toNat → y = x))) ∧
    (s.Valid .rgba → drawPD .copy .rgba (.px .rgba s) d = .ok s) := by
  refine ⟨?_, ?_⟩
  · have hv : (PDSrc.px .nrgba s).Valid := fun h => by cases h
    obtain ⟨m1, p1⟩ := read_means (.px .nrgba s) hv
    have e0 : pdOp .copy (PDSrc.px .nrgba s).read (readPx .nrgba d) = (PDSrc.px .nrgba s).read := rfl
    obtain ⟨p, e, sa, sr, sg, sb⟩ := store_stores .nrgba _ p1
    obtain ⟨ma, mr, mg, mb⟩ := m1
    dsimp only at mr mg mb sr sg sb
    rw [ma] at sa sr sg sb
    rw [mr] at sr
    rw [mg] at sg
    rw [mb] at sb
    have ha := s.a.toNat_lt
    refine ⟨p, by unfold drawPD; rw [e0]; exact e, ?_, ?_, ?_⟩
    · apply UInt8.toNat_inj.1
      omega
    · intro h
      have h0 : s.a.toNat = 0 := by rw [h]; rfl
      rw [h0, Nat.zero_mul] at sa sr sg sb
      rw [Nat.div_zero] at sr sg sb
      exact px_ext sr sg sb sa
    · intro h x y hxy
      have h0 : 0 < s.a.toNat := Nat.pos_of_ne_zero fun e => h (UInt8.toNat_inj.1 e)
      have key : ∀ x y : UInt8, y.toNat = scale16 (x.toNat * 257) (s.a.toNat * 257) * 65535 / (s.a.toNat * 257) / 256 →
          y.toNat ≤ x.toNat ∧ x.toNat ≤ y.toNat + 1 ∧ (x = 0 ∨ 255 ≤ x.toNat * s.a.toNat → y = x) := by
        intro x y h
        have hx : x.toNat ≤ 255 := by have := x.toNat_lt; omega
        have := copy_chan x.toNat s.a.toNat hx (by omega) h0
        rw [← h] at this
        refine ⟨this.1, this.2.1, fun hh => UInt8.toNat_inj.1 (this.2.2 ?_)⟩
        rcases hh with rfl | hh
        · exact .inl rfl
        · exact .inr hh
      simp only [List.mem_cons, Prod.mk.injEq, List.not_mem_nil, or_false] at hxy
      rcases hxy with ⟨rfl, rfl⟩ | ⟨rfl, rfl⟩ | ⟨rfl, rfl⟩
      · exact key _ _ sr
      · exact key _ _ sg
      · exact key _ _ sb
  · intro hv
    obtain ⟨m1, p1⟩ := read_means (.px .rgba s) hv
    obtain ⟨p, e, sa, sr, sg, sb⟩ := store_stores .rgba _ p1
    obtain ⟨ma, mr, mg, mb⟩ := m1
    dsimp only at mr mg mb sr sg sb
    have ha := s.a.toNat_lt
    have hr := s.r.toNat_lt
    have hg := s.g.toNat_lt
    have hb := s.b.toNat_lt
    have : p = s := px_ext (by omega) (by omega) (by omega) (by omega)
    subst this
    exact e

example : drawPD .copy .nrgba (.px .nrgba ⟨100, 50, 20, 13⟩) ⟨1, 2, 3, 4⟩ = .ok ⟨100, 50, 20, 13⟩ := by rfl

end Psd
