import Verif.Spec.DrawnPixels
import Verif.Props.Draw
import Verif.Props.PdFallback

/-!
# What the Porter-Duff operators leave in memory (C47), and that types do not matter (C137)
-/

namespace Psd

theorem AllRuns.mono {A V : Type} [DecidableEq A] {m : Mem A V} {ps : List (Prog A V)} {post post' : Mem A V → Prop} (h : AllRuns m ps post) (hp : ∀ m', post m' → post' m') : AllRuns m ps post' := by
  obtain ⟨N, h⟩ := h
  refine ⟨N, fun n c r => ?_⟩
  obtain ⟨h1, h2, h3, h4⟩ := h n c r
  exact ⟨h1, h2, h3, fun hd => hp _ (h4 hd)⟩

theorem four_bytes {k : PixKind} {im : Raw} {x y : Int} (h : im.rect.Mem x y) (m : Mem Addr UInt8) :
    ((DImg.four k im).cells x y).map m = [(im.fourAt m x y).r, (im.fourAt m x y).g, (im.fourAt m x y).b, (im.fourAt m x y).a] := by
  simp only [DImg.cells, if_pos h, show List.range 4 = [0, 1, 2, 3] from rfl, List.map_cons, List.map_nil, Sl.addr, Raw.pixOffset, Raw.fourAt]
  rfl

theorem one_byte {im : Raw} {x y : Int} (h : im.rect.Mem x y) (m : Mem Addr UInt8) : ((DImg.alpha im).cells x y).map m = [im.oneAt m x y] := by
  simp only [DImg.cells, if_pos h, List.map_cons, List.map_nil, Sl.addr, Raw.pixOffset, Raw.oneAt]
  simp

theorem px_read (k : PixKind) (p : Px) : (PDSrc.px k p).read = readPx k p := by
  cases k <;> unfold PDSrc.read <;> dsimp only <;> rw [widenSrc_full] <;> rfl

/-- One pixel through a special kernel. -/
theorem special_px {c : DrawCall} {m m' : Mem Addr UInt8} {k : PixKind} {dst : Raw} (hc : c.dst = .four k dst) {x y : Int} (hx : dst.rect.Mem x y) {px : UInt32 → Px → Res Px} {al : UInt32} (ha : al ≠ 0) {p : Px}
    (e : px al (dst.fourAt m x y) = .ok p) (h : c.special px al m x y = .ok (c.dBytes m' x y)) : dst.fourAt m' x y = p := by
  unfold DrawCall.special DrawCall.dBytes at h
  rw [if_neg ha, hc, four_bytes hx, four_bytes hx, show Px.ofBytes _ = dst.fourAt m x y from rfl, e] at h
  simp only [Px.bytes, Res.ok.injEq, List.cons.injEq, and_true] at h
  obtain ⟨h1, h2, h3, h4⟩ := h
  cases p
  dsimp only at h1 h2 h3 h4
  rw [h1, h2, h3, h4]

/-- The special kernels work on the pixels that are there. -/
theorem pixel_px {op : PD} {k : PixKind} {dst : Raw} {src : DImg} {r : Rect} {spX spY : Int} {m m' : Mem Addr UInt8} {x y : Int} (hc : DrawCall.Covers ⟨.four k dst, r, src, spX, spY, none, 0, 0⟩ x y)
    (h : DrawCall.pixel ⟨.four k dst, r, src, spX, spY, none, 0, 0⟩ (pdDrawer op) m x y = .ok (DrawCall.dBytes ⟨.four k dst, r, src, spX, spY, none, 0, 0⟩ m' x y)) {s : PDSrc}
    (hs : src.holds m (x - r.minX + spX) (y - r.minY + spY) = some s) : drawPD op k s (dst.fourAt m x y) = .ok (dst.fourAt m' x y) := by
  obtain ⟨-, hd, hsm, -⟩ := hc
  have hd : dst.rect.Mem x y := hd
  have key : ∀ (px : UInt32 → Px → Res Px), px 0xffff (dst.fourAt m x y) = drawPD op k s (dst.fourAt m x y) →
      DrawCall.special ⟨.four k dst, r, src, spX, spY, none, 0, 0⟩ px 0xffff m x y = .ok (DrawCall.dBytes ⟨.four k dst, r, src, spX, spY, none, 0, 0⟩ m' x y) →
      drawPD op k s (dst.fourAt m x y) = .ok (dst.fourAt m' x y) := by
    intro px e h
    obtain ⟨p, hp⟩ := storePx_ok k (pdOp op s.read (readPx k (dst.fourAt m x y)))
    have hp : drawPD op k s (dst.fourAt m x y) = .ok p := hp
    rw [special_px (c := ⟨.four k dst, r, src, spX, spY, none, 0, 0⟩) rfl hd (by decide) (e.trans hp) h, hp]
  cases src with
  | four sk im =>
    injection hs with hs
    subst hs
    have e : ((DImg.four sk im).cells (x - r.minX + spX) (y - r.minY + spY)).map m = _ := four_bytes hsm m
    refine key (fun al d => (pdDrawer op).pix sk k al (Px.ofBytes (((DImg.four sk im).cells (x - r.minX + spX) (y - r.minY + spY)).map m)) d) ?_ h
    rw [e]
    rfl
  | alpha im =>
    injection hs with hs
    subst hs
    have e : ((DImg.alpha im).cells (x - r.minX + spX) (y - r.minY + spY)).map m = _ := one_byte hsm m
    refine key (fun _ d => drawPD op k (.alpha (firstByte (((DImg.alpha im).cells (x - r.minX + spX) (y - r.minY + spY)).map m))) d) ?_ h
    rw [e]
    rfl
  | uniform u =>
    injection hs with hs
    subst hs
    exact key (fun _ d => drawPD op k (.uniform u) d) rfl h
  | other o => cases hs

/-- **C47** Drawing with an operator onto an RGBA or NRGBA image leaves in memory, at every point drawn, the pixel that stores `Fs * S + Fd * D`, where `S` and `D` are the colours of the source pixel at the same offset and of
the pixel that was there: four bytes, red first. The source is an RGBA, NRGBA, Alpha or Uniform image, and the goroutines may be scheduled in any way. -/
theorem C47_drawn_pictures (op : PD) (k : PixKind) (dst : Raw) (src : DImg) (r : Rect) (spX spY : Int) (procs : Nat) (hp : 1 ≤ procs) (same : Bool) (m : Mem Addr UInt8) (hdst : dst.Ok 4) (hsrc : src.Ok)
    (hs : Apart (.four k dst) src) :
    AllRuns m (DrawCall.threads ⟨.four k dst, r, src, spX, spY, none, 0, 0⟩ (pdDrawer op) procs same) fun m' =>
      ∀ x y, DrawCall.Covers ⟨.four k dst, r, src, spX, spY, none, 0, 0⟩ x y → ∀ s, src.holds m (x - r.minX + spX) (y - r.minY + spY) = some s → s.Valid → (dst.fourAt m x y).Valid k →
        ∃ S D V, s.Means S ∧ (dst.fourAt m x y).Means k D ∧ PorterDuff op S D V ∧ (dst.fourAt m' x y).Stores k V := by
  refine (C48_porter_duff op (.four k dst) src r spX spY procs hp same m hdst hsrc hs).mono fun m' h x y hc s hs hv hd => ?_
  have e := pixel_px hc (h.1 x y hc) hs
  obtain ⟨S, D, V, p, h1, h2, h3, -, h4, h5⟩ := C47_drawing op k s (dst.fourAt m x y) hv hd
  rw [h4] at e
  injection e with e
  exact ⟨S, D, V, h1, h2, h3, e ▸ h5⟩

/-- The opacity a pixel is read with. -/
theorem dec_alpha {src : DImg} {m : Mem Addr UInt8} {x y : Int} (hx : src.bounds.Mem x y) {s : PDSrc} (hs : src.holds m x y = some s) (hv : s.Valid) :
    (src.dec ((src.cells x y).map m)).a.toNat = s.opaqueness ∧ s.opaqueness ≤ 65535 := by
  cases src with
  | four k im =>
    injection hs with hs
    subst hs
    rw [four_bytes hx]
    obtain ⟨h1, h2⟩ := readPx_means k (im.fourAt m x y) hv
    exact ⟨h1.1, Nat.le_trans (Nat.le_of_eq h1.1.symm) h2.1⟩
  | alpha im =>
    injection hs with hs
    subst hs
    rw [one_byte hx]
    have e : ((im.oneAt m x y).toUInt32 * 0x0101).toNat = (im.oneAt m x y).toNat * 257 := wide8 _
    exact ⟨e, Nat.le_trans (Nat.le_of_eq e.symm) (widen_bound _)⟩
  | uniform c =>
    injection hs with hs
    subst hs
    exact ⟨rfl, hv.1⟩
  | other o => cases hs

/-- **C47** Drawing with an operator onto an alpha image leaves in memory, at every point drawn, the high byte of `Fs * As + Fd * Ad`. -/
theorem C47_drawn_alpha (op : PD) (dst : Raw) (src : DImg) (r : Rect) (spX spY : Int) (procs : Nat) (hp : 1 ≤ procs) (same : Bool) (m : Mem Addr UInt8) (hdst : dst.Ok 1) (hsrc : src.Ok) (hs : Apart (.alpha dst) src) :
    AllRuns m (DrawCall.threads ⟨.alpha dst, r, src, spX, spY, none, 0, 0⟩ (pdDrawer op) procs same) fun m' =>
      ∀ x y, DrawCall.Covers ⟨.alpha dst, r, src, spX, spY, none, 0, 0⟩ x y → ∀ s, src.holds m (x - r.minX + spX) (y - r.minY + spY) = some s → s.Valid →
        (dst.oneAt m' x y).toNat = op.mix s.opaqueness ((dst.oneAt m x y).toNat * 257) s.opaqueness ((dst.oneAt m x y).toNat * 257) / 256 := by
  refine (C48_porter_duff op (.alpha dst) src r spX spY procs hp same m hdst hsrc hs).mono fun m' h x y hc s hs hv => ?_
  have e : DrawCall.general ⟨.alpha dst, r, src, spX, spY, none, 0, 0⟩ (pdDrawer op) m x y = .ok (DrawCall.dBytes ⟨.alpha dst, r, src, spX, spY, none, 0, 0⟩ m' x y) := by
    have := h.1 x y hc
    cases src <;> exact this
  obtain ⟨-, hd, hsm, -⟩ := hc
  have hd : dst.rect.Mem x y := hd
  have hsm : src.bounds.Mem (x - r.minX + spX) (y - r.minY + spY) := hsm
  obtain ⟨a1, a2⟩ := dec_alpha hsm hs hv
  obtain ⟨b1, b2⟩ := dec_alpha (src := .alpha dst) (m := m) hd (s := .alpha (dst.oneAt m x y)) rfl trivial
  have e : [hi8 (pdAlpha op (src.dec ((src.cells (x - r.minX + spX) (y - r.minY + spY)).map m)).a ((DImg.alpha dst).dec (((DImg.alpha dst).cells x y).map m)).a &&& 0xffff)] = ((DImg.alpha dst).cells x y).map m' := by
    injection e
  rw [one_byte hd (m := m')] at e
  injection e with e
  have k := pdAlpha_exact op _ _ (a1.trans_le a2) (b1.trans_le b2)
  have kl := mix_le op (a1.trans_le a2) (b1.trans_le b2)
  rw [← e, low16 _ (k.trans_le kl), hi8_toNat _ (k.trans_le kl), k, a1, b1]
  rfl

/-- An alpha image drawn onto by a uniform colour meets the hypotheses of `C47_drawn_alpha`. -/
example : (Raw.mk ⟨1, 3, 1⟩ 1 ⟨0, 0, 1, 1⟩).Ok 1 ∧ Apart (.alpha ⟨⟨1, 3, 1⟩, 1, ⟨0, 0, 1, 1⟩⟩) (.uniform ⟨10, 20, 30, 40000⟩) ∧ (PDSrc.uniform ⟨10, 20, 30, 40000⟩).Valid ∧
    DrawCall.Covers ⟨.alpha ⟨⟨1, 3, 1⟩, 1, ⟨0, 0, 1, 1⟩⟩, ⟨0, 0, 1, 1⟩, .uniform ⟨10, 20, 30, 40000⟩, 7, 7, none, 0, 0⟩ 0 0 ∧ PD.mix .srcOver 40000 (200 * 257) 40000 (200 * 257) / 256 = 234 := by
  refine ⟨(fun _ => by decide), (fun _ _ _ _ _ _ c _ h => by cases h), ?_, ⟨by decide, by decide, by decide, fun _ h => by cases h⟩, by decide⟩
  unfold PDSrc.Valid Premultiplied
  decide

/-- **C38** Drawing one NRGBA image onto another in a blend mode, without a mask or through a uniform one, leaves in memory, at every point drawn, the composite of the source pixel at the same offset over the pixel that was
there: four bytes, red first. The opacity is 255 without a mask and the high byte of the mask's alpha with one. -/
theorem C38_drawn_pictures (F : FloatLum) (mode : Mode) (dst src : Raw) (r : Rect) (spX spY : Int) (mask : Option DImg) (mpX mpY : Int) (op : Nat)
    (hop : mask = none ∧ op = 255 ∨ ∃ u, mask = some (.uniform u) ∧ u.a.toNat ≤ 65535 ∧ op = u.a.toNat / 256) (procs : Nat) (hp : 1 ≤ procs) (same : Bool) (m : Mem Addr UInt8) (hdst : dst.Ok 4) (hsrc : src.Ok 4)
    (hs : Apart (.four .nrgba dst) (.four .nrgba src)) :
    AllRuns m (DrawCall.threads ⟨.four .nrgba dst, r, .four .nrgba src, spX, spY, mask, mpX, mpY⟩ (blendDrawer F mode) procs same) fun m' =>
      ∀ x y, DrawCall.Covers ⟨.four .nrgba dst, r, .four .nrgba src, spX, spY, mask, mpX, mpY⟩ x y →
        Composite mode op (src.fourAt m (x - r.minX + spX) (y - r.minY + spY)) (dst.fourAt m x y) (dst.fourAt m' x y) := by
  refine (C48_blend_modes F mode ⟨.four .nrgba dst, r, .four .nrgba src, spX, spY, mask, mpX, mpY⟩ procs hp same m hdst hsrc hs (fun mi e => ?_)).mono fun m' h x y hc => ?_
  · rcases hop with ⟨rfl, -⟩ | ⟨u, rfl, -, -⟩
    · cases e
    · injection e with e
      subst e
      exact fun _ _ _ _ _ _ _ _ h => by cases h
  · have hx := h.1 x y hc
    obtain ⟨-, hd, hsm, -⟩ := hc
    have hd : dst.rect.Mem x y := hd
    have hsm : src.rect.Mem (x - r.minX + spX) (y - r.minY + spY) := hsm
    have key : ∀ al : UInt32, al.toNat = op → op ≤ 255 → DrawCall.special ⟨.four .nrgba dst, r, .four .nrgba src, spX, spY, mask, mpX, mpY⟩
        (fun al d => (blendDrawer F mode).pix .nrgba .nrgba al (Px.ofBytes (((DImg.four .nrgba src).cells (x - r.minX + spX) (y - r.minY + spY)).map m)) d) al m x y =
          .ok (DrawCall.dBytes ⟨.four .nrgba dst, r, .four .nrgba src, spX, spY, mask, mpX, mpY⟩ m' x y) →
        Composite mode op (src.fourAt m (x - r.minX + spX) (y - r.minY + spY)) (dst.fourAt m x y) (dst.fourAt m' x y) := by
      intro al ha hle h
      by_cases h0 : al = 0
      · unfold DrawCall.special DrawCall.dBytes at h
        rw [if_pos h0, four_bytes hd, four_bytes hd] at h
        simp only [Res.ok.injEq, List.cons.injEq, and_true] at h
        obtain ⟨h1, h2, h3, h4⟩ := h
        have e : dst.fourAt m' x y = dst.fourAt m x y := by
          cases g : dst.fourAt m x y
          cases g' : dst.fourAt m' x y
          rw [g, g'] at h1 h2 h3 h4
          dsimp only at h1 h2 h3 h4
          rw [h1, h2, h3, h4]
        have ho : op = 0 := by rw [← ha, h0]; rfl
        unfold Composite
        dsimp only
        rw [ho, Nat.mul_zero, Nat.zero_div, if_pos (.inl rfl), e]
      · rw [four_bytes hsm] at h
        have ea : al = (UInt8.ofNat op).toUInt32 := by
          apply UInt32.toNat_inj.1
          rw [UInt8.toNat_toUInt32, UInt8.toNat_ofNat', ha]
          omega
        obtain ⟨p, hp⟩ := drawNN_total mode al (src.fourAt m (x - r.minX + spX) (y - r.minY + spY)) (dst.fourAt m x y)
        have e := special_px (c := ⟨.four .nrgba dst, r, .four .nrgba src, spX, spY, mask, mpX, mpY⟩) rfl hd h0 (p := p) (by
          simp only [blendDrawer, and_self, if_true]
          exact hp) h
        rw [e]
        rw [ea] at hp
        have := draw_composite hp
        rw [UInt8.toNat_ofNat', Nat.mod_eq_of_lt (by omega)] at this
        exact this
    rcases hop with ⟨rfl, rfl⟩ | ⟨u, rfl, hu, rfl⟩
    · exact key (shr 0xffff 8) rfl (by omega) hx
    · exact key (shr u.a 8) (shr8 u.a) (by omega) hx

/-- With pixels that obey the contract of their types, and a source that is no alpha image, the kernels do what the general one does. -/
theorem pixel_general {op : PD} {dst src : DImg} {r : Rect} {spX spY : Int} {m : Mem Addr UInt8} {x y : Int} (hc : DrawCall.Covers ⟨dst, r, src, spX, spY, none, 0, 0⟩ x y) (ha : ∀ im, src ≠ .alpha im)
    (hs : ∀ s, src.holds m (x - r.minX + spX) (y - r.minY + spY) = some s → s.Valid) (hd : ∀ d, dst.holds m x y = some d → d.Valid) :
    DrawCall.pixel ⟨dst, r, src, spX, spY, none, 0, 0⟩ (pdDrawer op) m x y = DrawCall.general ⟨dst, r, src, spX, spY, none, 0, 0⟩ (pdDrawer op) m x y := by
  obtain ⟨-, hdm, hsm, -⟩ := hc
  cases dst with
  | alpha im => cases src <;> rfl
  | uniform c => cases src <;> rfl
  | other o => cases src <;> rfl
  | four k im =>
    have hdm : im.rect.Mem x y := hdm
    have vd : (im.fourAt m x y).Valid k := hd _ rfl
    obtain ⟨-, p2⟩ := readPx_means k _ vd
    have key : ∀ (s : PDSrc), s.Valid → ∀ (px : UInt32 → Px → Res Px), (∀ d, px 0xffff d = drawPD op k s d) → src.dec ((src.cells (x - r.minX + spX) (y - r.minY + spY)).map m) = s.read →
        DrawCall.special ⟨.four k im, r, src, spX, spY, none, 0, 0⟩ px 0xffff m x y = DrawCall.general ⟨.four k im, r, src, spX, spY, none, 0, 0⟩ (pdDrawer op) m x y := by
      intro s hv px e hr
      obtain ⟨-, p1⟩ := read_means s hv
      obtain ⟨V, g1, -, -⟩ := C47_any_image op _ _ p1 p2
      obtain ⟨-, q1, q2, q3, q4⟩ := C47_operators op _ _ p1 p2
      have g : (pdDrawer op).fallback 0xffff s.read (readPx k (im.fourAt m x y)) = .ok (some (pdOp op s.read (readPx k (im.fourAt m x y)))) := by
        simp only [pdDrawer, trunc16]
        rw [if_neg (by decide), low16 _ (by omega), low16 _ (by omega), low16 _ (by omega), low16 _ (by omega)]
      unfold DrawCall.special DrawCall.general
      rw [if_neg (by decide), if_neg (show ¬ DrawCall.maskAlpha ⟨.four k im, r, src, spX, spY, none, 0, 0⟩ m x y = 0 from (by decide : ¬ (0xffff : UInt32) = 0)), e]
      show (_ : Res (List UInt8)) = match (pdDrawer op).fallback 0xffff (src.dec ((src.cells (x - r.minX + spX) (y - r.minY + spY)).map m)) ((DImg.four k im).dec (((DImg.four k im).cells x y).map m)) with
        | .ok none => .ok (DrawCall.dBytes ⟨.four k im, r, src, spX, spY, none, 0, 0⟩ m x y)
        | .ok (some v) => .ok ((DImg.four k im).enc v)
        | .err e => .err e
        | .panic p => .panic p
        | .fuel => .fuel
      rw [hr, four_bytes hdm, show (DImg.four k im).dec [(im.fourAt m x y).r, (im.fourAt m x y).g, (im.fourAt m x y).b, (im.fourAt m x y).a] = readPx k (im.fourAt m x y) from rfl, g]
      unfold DrawCall.dBytes
      rw [four_bytes hdm, show Px.ofBytes [(im.fourAt m x y).r, (im.fourAt m x y).g, (im.fourAt m x y).b, (im.fourAt m x y).a] = im.fourAt m x y from rfl]
      obtain ⟨p, hp⟩ := storePx_ok k (pdOp op s.read (readPx k (im.fourAt m x y)))
      show (match storePx k (pdOp op s.read (readPx k (im.fourAt m x y))) with
        | .ok p => Res.ok p.bytes
        | .err e => .err e
        | .panic p => .panic p
        | .fuel => .fuel) = .ok (match storePx k (pdOp op s.read (readPx k (im.fourAt m x y))) with | .ok p => p.bytes | _ => [])
      rw [hp]
    cases src with
    | four sk s =>
      have hsm : s.rect.Mem (x - r.minX + spX) (y - r.minY + spY) := hsm
      refine key _ (hs _ rfl) (fun al d => (pdDrawer op).pix sk k al (Px.ofBytes (((DImg.four sk s).cells (x - r.minX + spX) (y - r.minY + spY)).map m)) d) (fun d => ?_) ?_
      · rw [four_bytes hsm]
        rfl
      · rw [four_bytes hsm, px_read]
        rfl
    | alpha s => exact absurd rfl (ha s)
    | uniform u => exact key (.uniform u) (hs _ rfl) (fun _ d => drawPD op k (.uniform u) d) (fun _ => rfl) rfl
    | other o => rfl

theorem hidden_ok {im : DImg} (h : im.Ok) : im.hidden.Ok :=
  fun _ _ hm => ⟨h.nodup hm, fun c => h.encLength hm c, fun _ _ hm' hne => h.disjoint hm hm' hne⟩

/-- **C137 (partial)** Types make no difference to what the Porter-Duff operators draw: replace the destination, the source or both by images of other types, with the same bounds and pixels, and every complete execution leaves
the same memory. Missing: sources that are alpha images (`C137_alpha_images_change_colour`), and pixels of RGBA and uniform images with a colour above their alpha, which break the contract of these types. -/
theorem C137_types_do_not_matter_partial (op : PD) (dst src dst' src' : DImg) (hd : dst' = dst ∨ dst' = dst.hidden) (hs : src' = src ∨ src' = src.hidden) (ha : ∀ im, src ≠ .alpha im) (r : Rect) (spX spY : Int)
    (procs procs' : Nat) (hp : 1 ≤ procs) (hp' : 1 ≤ procs') (same same' : Bool) (m : Mem Addr UInt8) (hdst : dst.Ok) (hsrc : src.Ok) (hap : Apart dst src)
    (hvs : ∀ x y s, src.bounds.Mem x y → src.holds m x y = some s → s.Valid) (hvd : ∀ x y d, dst.bounds.Mem x y → dst.holds m x y = some d → d.Valid)
    (n n' : Nat) (e e' : Mem Addr UInt8 × List DProg)
    (h1 : Steps n (m, DrawCall.threads ⟨dst, r, src, spX, spY, none, 0, 0⟩ (pdDrawer op) procs same) e)
    (h2 : Steps n' (m, DrawCall.threads ⟨dst', r, src', spX, spY, none, 0, 0⟩ (pdDrawer op) procs' same') e')
    (d1 : ∀ p ∈ e.2, p = .done) (d2 : ∀ p ∈ e'.2, p = .done) : e.1 = e'.1 := by
  have o1 : dst'.Ok := by
    rcases hd with rfl | rfl
    · exact hdst
    · exact hidden_ok hdst
  have o2 : src'.Ok := by
    rcases hs with rfl | rfl
    · exact hsrc
    · exact hidden_ok hsrc
  have o3 : Apart dst' src' := by
    rcases hd with rfl | rfl <;> rcases hs with rfl | rfl <;> exact hap
  obtain ⟨_, hN⟩ := C48_porter_duff op dst src r spX spY procs hp same m hdst hsrc hap
  obtain ⟨_, hN'⟩ := C48_porter_duff op dst' src' r spX spY procs' hp' same' m o1 o2 o3
  have g1 := (hN _ _ h1).2.2.2 d1
  have g2 := (hN' _ _ h2).2.2.2 d2
  refine drawn_unique g1 ?_
  have cov : ∀ x y, DrawCall.Covers ⟨dst', r, src', spX, spY, none, 0, 0⟩ x y ↔ DrawCall.Covers ⟨dst, r, src, spX, spY, none, 0, 0⟩ x y := by
    intro x y
    rcases hd with rfl | rfl <;> rcases hs with rfl | rfl <;> exact Iff.rfl
  refine ⟨fun x y hc => ?_, fun a hna => g2.2 a fun x y hc => ?_⟩
  · have k1 := g2.1 x y ((cov x y).2 hc)
    rw [pixel_general hc ha (fun s hh => hvs _ _ s hc.2.2.1 hh) (fun d hh => hvd _ _ d hc.2.1 hh)]
    have k2 := pixel_general (op := op) (m := m) ((cov x y).2 hc) (by
        rcases hs with rfl | rfl
        · exact ha
        · intro im hh
          cases hh)
      (by
        rcases hs with rfl | rfl
        · exact fun s hh => hvs _ _ s hc.2.2.1 hh
        · intro s hh
          cases hh)
      (by
        rcases hd with rfl | rfl
        · exact fun d hh => hvd _ _ d hc.2.1 hh
        · intro s hh
          cases hh)
    rw [k2] at k1
    rcases hd with rfl | rfl <;> rcases hs with rfl | rfl <;> exact k1
  · have := hna x y ((cov x y).1 hc)
    rcases hd with rfl | rfl <;> exact this

/-- A red, half transparent NRGBA pixel onto a translucent RGBA pixel, and both hidden: they meet the hypotheses of `C137_types_do_not_matter_partial`. -/
def dotD : DImg := .four .rgba ⟨⟨0, 0, 4⟩, 4, ⟨0, 0, 1, 1⟩⟩
def dotS : DImg := .four .nrgba ⟨⟨1, 0, 4⟩, 4, ⟨0, 0, 1, 1⟩⟩
def dotA : DImg := .alpha ⟨⟨1, 3, 1⟩, 1, ⟨0, 0, 1, 1⟩⟩
def dotMem : Mem Addr UInt8 := fun a => match a with
  | (0, i) => if i = 3 then 100 else 50
  | (1, i) => if i = 0 ∨ i = 3 then 200 else 0
  | _ => 0

theorem dot_apart : Apart dotD dotS ∧ Apart dotD dotA ∧ Apart dotD.hidden dotA := by
  have key : ∀ x y x' y', dotD.bounds.Mem x y → (∀ c ∈ dotD.cells x y, c.1 = 0) ∧ (∀ c ∈ dotS.cells x' y', c.1 = 1) ∧ ∀ c ∈ dotA.cells x' y', c.1 = 1 := by
    intro x y x' y' _
    refine ⟨fun c hc => ?_, fun c hc => ?_, fun c hc => ?_⟩
    · unfold dotD DImg.cells at hc
      dsimp only at hc
      split at hc
      · obtain ⟨_, _, rfl⟩ := List.mem_map.1 hc
        rfl
      · cases hc
    · unfold dotS DImg.cells at hc
      dsimp only at hc
      split at hc
      · obtain ⟨_, _, rfl⟩ := List.mem_map.1 hc
        rfl
      · cases hc
    · unfold dotA DImg.cells at hc
      dsimp only at hc
      split at hc
      · rw [List.mem_singleton.1 hc]
        rfl
      · cases hc
  refine ⟨fun x y x' y' h _ c hc hc' => ?_, fun x y x' y' h _ c hc hc' => ?_, fun x y x' y' h _ c hc hc' => ?_⟩
  · have := (key x y x' y' h).1 c hc
    rw [(key x y x' y' h).2.1 c hc'] at this
    cases this
  · have := (key x y x' y' h).1 c hc
    rw [(key x y x' y' h).2.2 c hc'] at this
    cases this
  · have := (key x y x' y' h).1 c hc
    rw [(key x y x' y' h).2.2 c hc'] at this
    cases this

theorem dot_only {x y : Int} (h : dotD.bounds.Mem x y) : x = 0 ∧ y = 0 := by
  obtain ⟨h1, h2, h3, h4⟩ := h
  change (0 : Int) ≤ x at h1
  change x < 1 at h2
  change (0 : Int) ≤ y at h3
  change y < 1 at h4
  exact ⟨by omega, by omega⟩

theorem dot_ok : dotD.Ok ∧ dotS.Ok ∧ dotA.Ok := by
  refine ⟨fun _ => ?_, fun _ => ?_, fun _ => ?_⟩ <;> decide

example : dotD.Ok ∧ dotS.Ok ∧ Apart dotD dotS ∧ (∀ im, dotS ≠ .alpha im) ∧ (∀ x y s, dotS.bounds.Mem x y → dotS.holds dotMem x y = some s → s.Valid) ∧
    (∀ x y d, dotD.bounds.Mem x y → dotD.holds dotMem x y = some d → d.Valid) ∧ DrawCall.Covers ⟨dotD, ⟨0, 0, 1, 1⟩, dotS, 0, 0, none, 0, 0⟩ 0 0 ∧
    DrawCall.pixel ⟨dotD, ⟨0, 0, 1, 1⟩, dotS, 0, 0, none, 0, 0⟩ (pdDrawer .srcOver) dotMem 0 0 = .ok [168, 10, 10, 222] := by
  refine ⟨dot_ok.1, dot_ok.2.1, dot_apart.1, (fun im h => by cases h), fun x y s h e => ?_, fun x y s h e => ?_, ⟨by decide, by decide, by decide, fun _ h => by cases h⟩, by decide +kernel⟩
  · injection e with e
    subst e
    intro hk
    cases hk
  · obtain ⟨rfl, rfl⟩ := dot_only h
    injection e with e
    subst e
    intro _
    decide +kernel

/-- **C137, negated** An alpha image copied onto an RGBA image gives black pixels. Copied onto the same image hidden behind another type it gives white ones. -/
theorem C137_alpha_images_change_colour (procs : Nat) (hp : 1 ≤ procs) (same : Bool) :
    AllRuns dotMem (DrawCall.threads ⟨dotD, ⟨0, 0, 1, 1⟩, dotA, 0, 0, none, 0, 0⟩ (pdDrawer .copy) procs same) (fun m => [m (0, 0), m (0, 1), m (0, 2), m (0, 3)] = [0, 0, 0, 200]) ∧
    AllRuns dotMem (DrawCall.threads ⟨dotD.hidden, ⟨0, 0, 1, 1⟩, dotA, 0, 0, none, 0, 0⟩ (pdDrawer .copy) procs same) (fun m => [m (0, 0), m (0, 1), m (0, 2), m (0, 3)] = [200, 200, 200, 200]) := by
  constructor
  · refine (C48_porter_duff .copy dotD dotA _ _ _ procs hp same dotMem dot_ok.1 dot_ok.2.2 dot_apart.2.1).mono fun m h => ?_
    have := h.1 0 0 ⟨by decide, by decide, by decide, fun _ h => by cases h⟩
    have e : DrawCall.pixel ⟨dotD, ⟨0, 0, 1, 1⟩, dotA, 0, 0, none, 0, 0⟩ (pdDrawer .copy) dotMem 0 0 = .ok [0, 0, 0, 200] := by decide +kernel
    rw [e] at this
    injection this with this
    exact this.symm
  · refine (C48_porter_duff .copy dotD.hidden dotA _ _ _ procs hp same dotMem (hidden_ok dot_ok.1) dot_ok.2.2 dot_apart.2.2).mono fun m h => ?_
    have := h.1 0 0 ⟨by decide, by decide, by decide, fun _ h => by cases h⟩
    have e : DrawCall.pixel ⟨dotD.hidden, ⟨0, 0, 1, 1⟩, dotA, 0, 0, none, 0, 0⟩ (pdDrawer .copy) dotMem 0 0 = .ok [200, 200, 200, 200] := by decide +kernel
    rw [e] at this
    injection this with this
    exact this.symm

end Psd
