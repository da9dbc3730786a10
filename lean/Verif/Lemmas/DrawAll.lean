import Verif.Lemmas.DrawMain

namespace Psd

namespace DrawCall

/-- What `clip` leaves. -/
def clipped (c : DrawCall) : Clipped :=
  clip c.dst.bounds c.r c.src.bounds c.spX c.spY (c.mask.map DImg.bounds) c.mpX c.mpY

theorem clipped_mem (c : DrawCall) (x y : Int) : c.clipped.r.Mem x y ↔ c.Covers x y := by
  unfold clipped Covers srcX srcY maskX maskY
  rw [clip_mem]
  constructor
  · rintro ⟨h1, h2, h3, h4⟩
    refine ⟨h1, h2, h3, fun mi e => h4 _ (by rw [e]; rfl)⟩
  · rintro ⟨h1, h2, h3, h4⟩
    refine ⟨h1, h2, h3, ?_⟩
    intro b hb
    cases hm : c.mask with
    | none => rw [hm] at hb; cases hb
    | some mi => rw [hm] at hb; cases hb; exact h4 mi hm

theorem clipped_src (c : DrawCall) (x y : Int) :
    x - c.clipped.r.minX + c.clipped.spX = c.srcX x ∧ y - c.clipped.r.minY + c.clipped.spY = c.srcY y ∧
    x - c.clipped.r.minX + c.clipped.mpX = c.maskX x ∧ y - c.clipped.r.minY + c.clipped.mpY = c.maskY y := by
  obtain ⟨h1, h2, h3, h4⟩ := clip_shift c.dst.bounds c.r c.src.bounds c.spX c.spY (c.mask.map DImg.bounds) c.mpX c.mpY
  unfold clipped srcX srcY maskX maskY
  rw [h1, h2, h3, h4]
  omega

/-- Points visited earlier write nothing that later ones read. -/
def InOrder (c : DrawCall) (b : Bool) : Prop :=
  ∀ p q : Int × Int, c.Covers p.1 p.2 → c.Covers q.1 q.2 → Before b p q → ∀ a ∈ c.dst.cells p.1 p.2, ¬ c.Reads q.1 q.2 a

/-- No row reads what another one writes. -/
def RowsApart (c : DrawCall) : Prop :=
  ∀ p q : Int × Int, c.Covers p.1 p.2 → c.Covers q.1 q.2 → p.2 ≠ q.2 → ∀ a ∈ c.dst.cells p.1 p.2, ¬ c.Reads q.1 q.2 a

end DrawCall

theorem rect_pos {r : Rect} (h : r.empty = false) : 0 < r.dx ∧ 0 < r.dy := by
  rw [Rect.nonempty_iff] at h
  unfold Rect.dx Rect.dy
  omega

theorem split_length (procs y : Nat) (hp : 1 ≤ procs) (h : procs = 1 ∨ y < 4) : (split procs y).length ≤ 1 := by
  rw [split_one procs y hp h]
  simp

theorem direct_runs (c : DrawCall) (D : Drawer) (m : Mem Addr UInt8) (procs : Nat) (hp : 1 ≤ procs) (hdst : c.dst.Ok)
    (hcomp : c.Computes D m) (hne : c.clipped.r.empty = false)
    (hin : c.InOrder (backward c.clipped.r c.clipped.spX c.clipped.spY))
    (hac : (procs = 1 ∨ c.clipped.r.dy < 4) ∨ c.RowsApart)
    (dk : PixKind) (d : Raw) (hd : c.dst = .four dk d) (n : Nat) (hn : 1 ≤ n) (s : Raw) (hs : s.Ok n)
    (hsb : c.src.bounds = s.rect) (hsc : ∀ x y, s.rect.Mem x y → c.src.cells x y = s.cells n x y)
    (px : List UInt8 → Px → Res Px)
    (hpx : ∀ x y bs, c.Covers x y → c.pixel D m x y = .ok bs →
      ∃ q, px (c.sBytes m x y) (Px.ofBytes (c.dBytes m x y)) = .ok q ∧ q.bytes = bs) :
    AllRuns m (parallel procs (fun d0 s0 y => drawFunc n px d.pix s.pix (prepare n d s c.clipped.r c.clipped.spX c.clipped.spY) d0 s0 y.toNat)
      (prepare n d s c.clipped.r c.clipped.spX c.clipped.spY) c.clipped.r.dy) (c.Drawn D m) := by
  obtain ⟨hdx, hdy⟩ := rect_pos hne
  obtain ⟨Y, hY⟩ : ∃ Y : Nat, c.clipped.r.dy = Y := ⟨c.clipped.r.dy.toNat, by omega⟩
  have hYn : c.clipped.r.dy.toNat = Y := by omega
  have hdok : d.Ok 4 := by have := hdst; rw [hd] at this; exact this
  have hsub : ∀ x y, c.clipped.r.Mem x y → d.rect.Mem x y ∧
      s.rect.Mem (x - c.clipped.r.minX + c.clipped.spX) (y - c.clipped.r.minY + c.clipped.spY) := by
    intro x y h
    have hc := (c.clipped_mem x y).1 h
    obtain ⟨e1, e2, _, _⟩ := c.clipped_src x y
    rw [e1, e2, ← hsb]
    refine ⟨?_, hc.2.2.1⟩
    have := hc.2.1
    rw [hd] at this
    exact this
  rw [hY, parallel_eq procs hp]
  have hthreads : ((split procs Y).map fun ch => drawFunc n px d.pix s.pix (prepare n d s c.clipped.r c.clipped.spX c.clipped.spY)
        ((prepare n d s c.clipped.r c.clipped.spX c.clipped.spY).d0 + (prepare n d s c.clipped.r c.clipped.spX c.clipped.spY).dyDelta * ch.1)
        ((prepare n d s c.clipped.r c.clipped.spX c.clipped.spY).s0 + (prepare n d s c.clipped.r c.clipped.spX c.clipped.spY).syDelta * ch.1)
        ((ch.2 : Nat) : Int).toNat) =
      (split procs Y).map fun ch => (chunk (backward c.clipped.r c.clipped.spX c.clipped.spY) c.clipped.r ch.1 ch.2).foldr
          (directOp px (fun p => s.cells n (p.1 - c.clipped.r.minX + c.clipped.spX) (p.2 - c.clipped.r.minY + c.clipped.spY))
            (fun p => d.cells 4 p.1 p.2)) .done := by
    apply List.map_congr_left
    intro ch hch
    rw [Int.toNat_natCast]
    exact drawFunc_eq n hn px d s hdok hs c.clipped.r hdx c.clipped.spX c.clipped.spY hsub ch.2 ch.1
      (by have := split_mem procs Y ch hch; omega)
  rw [hthreads]
  have hsc' : ∀ p : Int × Int, c.Covers p.1 p.2 →
      s.cells n (p.1 - c.clipped.r.minX + c.clipped.spX) (p.2 - c.clipped.r.minY + c.clipped.spY) = c.src.cells (c.srcX p.1) (c.srcY p.2) := by
    intro p hc
    obtain ⟨e1, e2, _, _⟩ := c.clipped_src p.1 p.2
    rw [e1, e2, hsc]
    have := hc.2.2.1
    rw [hsb] at this
    exact this
  have hdc' : ∀ p : Int × Int, c.Covers p.1 p.2 → d.cells 4 p.1 p.2 = c.dst.cells p.1 p.2 := by
    intro p hc
    have := hc.2.1
    rw [hd] at this ⊢
    rw [four_cells this]
  apply runs_of_ops c D m hdst hcomp (pixel_length c D hdst m) c.clipped.r c.clipped_mem _
    (fun p a => a ∈ s.cells n (p.1 - c.clipped.r.minX + c.clipped.spX) (p.2 - c.clipped.r.minY + c.clipped.spY))
    _ _ (by rw [hYn]; exact split_mem procs Y) (by rw [hYn]; exact split_cover procs Y) (split_pairwise procs Y)
  · intro p bs t hc hb ht
    obtain ⟨q, hq, hqb⟩ := hpx p.1 p.2 bs hc hb
    have := acts_direct m px (fun p => s.cells n (p.1 - c.clipped.r.minX + c.clipped.spX) (p.2 - c.clipped.r.minY + c.clipped.spY))
      (fun p => d.cells 4 p.1 p.2) p t q (by simp only [hsc' p hc, hdc' p hc]; exact hq) (by simp only [hdc' p hc]; rw [ht, hqb])
    simp only [hdc' p hc] at this
    exact this
  · intro p q hcp hcq hb a ha h
    simp only [hsc' q hcq] at h
    exact hin p q hcp hcq hb a ha (Or.inl h)
  · rcases hac with h | h
    · left
      exact split_length procs Y hp (by omega)
    · right
      intro p q hcp hcq hpq a ha h'
      simp only [hsc' q hcq] at h'
      exact h p q hcp hcq hpq a ha (Or.inl h')

theorem uniform_runs (c : DrawCall) (D : Drawer) (m : Mem Addr UInt8) (procs : Nat) (hp : 1 ≤ procs) (hdst : c.dst.Ok)
    (hcomp : c.Computes D m) (hne : c.clipped.r.empty = false) (alpha : UInt32) (ha : alpha ≠ 0)
    (dk : PixKind) (d : Raw) (hd : c.dst = .four dk d) (px : Px → Res Px)
    (hpx : ∀ x y bs, c.Covers x y → c.pixel D m x y = .ok bs → ∃ q, px (Px.ofBytes (c.dBytes m x y)) = .ok q ∧ q.bytes = bs) :
    AllRuns m (drawUniform procs px d c.clipped.r alpha) (c.Drawn D m) := by
  obtain ⟨hdx, hdy⟩ := rect_pos hne
  obtain ⟨Y, hY⟩ : ∃ Y : Nat, c.clipped.r.dy = Y := ⟨c.clipped.r.dy.toNat, by omega⟩
  have hYn : c.clipped.r.dy.toNat = Y := by omega
  have hdok : d.Ok 4 := by have := hdst; rw [hd] at this; exact this
  have hsub : ∀ x y, c.clipped.r.Mem x y → d.rect.Mem x y := by
    intro x y h
    have := ((c.clipped_mem x y).1 h).2.1
    rw [hd] at this
    exact this
  have hm0 : d.rect.Mem c.clipped.r.minX c.clipped.r.minY := hsub _ _ (by
    rw [Rect.nonempty_iff] at hne
    unfold Rect.Mem; omega)
  have hml : d.rect.Mem c.clipped.r.minX (c.clipped.r.minY + (Y - 1)) := hsub _ _ (by
    rw [Rect.nonempty_iff] at hne
    unfold Rect.dy at hY
    unfold Rect.Mem; omega)
  obtain ⟨hst, _, _, _⟩ := pixOffset_bounds hdok hm0
  have ho := row_nonneg hdok hm0
  have hol := row_nonneg hdok hml
  unfold drawUniform
  rw [if_neg ha]
  simp only
  rw [if_pos ho, hY]
  rw [parallelUniform_eq procs hp _ _ _ _ _ Y hst (by
    have e : d.pixOffset 4 c.clipped.r.minX (c.clipped.r.minY + (Y - 1)) =
        d.pixOffset 4 c.clipped.r.minX c.clipped.r.minY + d.stride * ((Y - 1 : Nat) : Int) := by
      have : ((Y - 1 : Nat) : Int) = (Y : Int) - 1 := by omega
      rw [this]
      unfold Raw.pixOffset
      ring
    omega)]
  have hthreads : ((split procs Y).map fun ch => drawUniformFunc px
        ⟨d.pix.buf, d.pix.base + d.pixOffset 4 c.clipped.r.minX c.clipped.r.minY + d.stride * ch.1,
          d.pix.len - d.pixOffset 4 c.clipped.r.minX c.clipped.r.minY - d.stride * ch.1⟩
        (c.clipped.r.dx * 4) d.stride 0 ((ch.2 : Nat) : Int).toNat) =
      (split procs Y).map fun ch => (chunk false c.clipped.r ch.1 ch.2).foldr
          (directOp (fun _ => px) (fun _ => []) (fun p => d.cells 4 p.1 p.2)) .done := by
    apply List.map_congr_left
    intro ch hch
    rw [Int.toNat_natCast]
    have := drawUniformFunc_eq px d hdok c.clipped.r hdx hsub _ rfl ch.1 ch.2 0 (by have := split_mem procs Y ch hch; omega)
    rw [Nat.add_zero] at this
    rw [← this]
    have e1 : d.pix.base + d.pixOffset 4 c.clipped.r.minX c.clipped.r.minY + d.stride * ch.1 =
      d.pix.base + (d.pixOffset 4 c.clipped.r.minX c.clipped.r.minY + d.stride * ch.1) := by ring
    have e2 : d.pix.len - d.pixOffset 4 c.clipped.r.minX c.clipped.r.minY - d.stride * ch.1 =
      d.pix.len - (d.pixOffset 4 c.clipped.r.minX c.clipped.r.minY + d.stride * ch.1) := by ring
    rw [e1, e2]
    simp
  rw [hthreads]
  have hdc' : ∀ p : Int × Int, c.Covers p.1 p.2 → d.cells 4 p.1 p.2 = c.dst.cells p.1 p.2 := by
    intro p hc
    have := hc.2.1
    rw [hd] at this ⊢
    rw [four_cells this]
  apply runs_of_ops c D m hdst hcomp (pixel_length c D hdst m) c.clipped.r c.clipped_mem _ (fun p a => a ∈ ([] : List Addr))
    _ _ (by rw [hYn]; exact split_mem procs Y) (by rw [hYn]; exact split_cover procs Y) (split_pairwise procs Y)
  · intro p bs t hc hb ht
    obtain ⟨q, hq, hqb⟩ := hpx p.1 p.2 bs hc hb
    have := acts_direct m (fun _ => px) (fun _ => []) (fun p => d.cells 4 p.1 p.2) p t q (by simp only [hdc' p hc]; exact hq)
      (by simp only [hdc' p hc]; rw [ht, hqb])
    simp only [hdc' p hc] at this
    exact this
  · intro p q _ _ _ a _ h
    simp at h
  · right
    intro p q _ _ _ a _ h
    simp at h

theorem fallback_runs (c : DrawCall) (D : Drawer) (m : Mem Addr UInt8) (procs : Nat) (hp : 1 ≤ procs) (same : Bool) (hdst : c.dst.Ok)
    (hcomp : c.Computes D m) (hne : c.clipped.r.empty = false)
    (hin : c.InOrder (processBackward same c.clipped.r c.clipped.spX c.clipped.spY))
    (hac : D.parFallback = true → (procs = 1 ∨ c.clipped.r.dy < 4) ∨ c.RowsApart)
    (hpx : ∀ x y, c.pixel D m x y = c.general D m x y) :
    AllRuns m (drawFallback D procs same c.dst c.clipped.r c.src c.clipped.spX c.clipped.spY c.mask c.clipped.mpX c.clipped.mpY)
      (c.Drawn D m) := by
  obtain ⟨hdx, hdy⟩ := rect_pos hne
  obtain ⟨Y, hY⟩ : ∃ Y : Nat, c.clipped.r.dy = Y := ⟨c.clipped.r.dy.toNat, by omega⟩
  have hYn : c.clipped.r.dy.toNat = Y := by omega
  unfold drawFallback
  simp only
  generalize hb : processBackward same c.clipped.r c.clipped.spX c.clipped.spY = b at hin ⊢
  -- the offsets from a destination point to the source and mask points
  have hop : ∀ chs : List (Nat × Nat), (∀ ch ∈ chs, ch.1 + ch.2 ≤ Y) → (∀ t, t < Y → ∃ ch ∈ chs, ch.1 ≤ t ∧ t < ch.1 + ch.2) →
      (chs.Pairwise fun ch ch' => ch.1 + ch.2 ≤ ch'.1) → (chs.length ≤ 1 ∨ c.RowsApart) →
      AllRuns m (chs.map fun ch => (chunk b c.clipped.r ch.1 ch.2).foldr
        (fallbackOp D c.dst c.src c.mask (c.clipped.spX - c.clipped.r.minX) (c.clipped.spY - c.clipped.r.minY)
          (c.clipped.mpX - c.clipped.r.minX) (c.clipped.mpY - c.clipped.r.minY)) .done) (c.Drawn D m) := by
    intro chs h1 h2 h3 h4
    apply runs_of_ops c D m hdst hcomp (pixel_length c D hdst m) c.clipped.r c.clipped_mem _ (fun p a => c.Reads p.1 p.2 a)
      _ _ (by rw [hYn]; exact h1) (by rw [hYn]; exact h2) h3
    · intro p bs t hc hbs ht
      rw [hpx] at hbs
      obtain ⟨e1, e2, e3, e4⟩ := c.clipped_src p.1 p.2
      exact acts_fallback c D m _ _ _ _ p t (by omega) (by omega) (by omega) (by omega) bs hbs ht
    · exact hin
    · exact h4
  have hfun : ∀ y lo : Nat, fallbackFunc D c.dst c.src c.mask (if b = true then c.clipped.r.maxX - 1 else c.clipped.r.minX)
      (c.clipped.spX + ((if b = true then c.clipped.r.maxX - 1 else c.clipped.r.minX) - c.clipped.r.minX))
      (c.clipped.mpX + ((if b = true then c.clipped.r.maxX - 1 else c.clipped.r.minX) - c.clipped.r.minX))
      (if b = true then c.clipped.r.minX - 1 else c.clipped.r.maxX) (if b = true then -1 else 1)
      ((if b = true then c.clipped.r.maxY - 1 else c.clipped.r.minY) + (if b = true then -1 else 1) * (lo : Int))
      (c.clipped.spY + ((if b = true then c.clipped.r.maxY - 1 else c.clipped.r.minY) - c.clipped.r.minY) + (if b = true then -1 else 1) * (lo : Int))
      (c.clipped.mpY + ((if b = true then c.clipped.r.maxY - 1 else c.clipped.r.minY) - c.clipped.r.minY) + (if b = true then -1 else 1) * (lo : Int))
      ((if b = true then c.clipped.r.maxY - 1 else c.clipped.r.minY) + (if b = true then -1 else 1) * ((lo + y : Nat) : Int)) =
      (chunk b c.clipped.r lo y).foldr (fallbackOp D c.dst c.src c.mask (c.clipped.spX - c.clipped.r.minX) (c.clipped.spY - c.clipped.r.minY)
          (c.clipped.mpX - c.clipped.r.minX) (c.clipped.mpY - c.clipped.r.minY)) .done := by
    intro y lo
    rw [← fallbackFunc_eq D c.dst c.src c.mask b c.clipped.r hdx _ _ _ _ y lo]
    congr 1 <;> ring
  have hend : (if b = true then c.clipped.r.minY - 1 else c.clipped.r.maxY) =
      (if b = true then c.clipped.r.maxY - 1 else c.clipped.r.minY) + (if b = true then -1 else 1) * (Y : Int) := by
    unfold Rect.dy at hY
    cases b
    · simp only [Bool.false_eq_true, if_false]; omega
    · simp only [if_true]; omega
  rw [hend]
  cases hpf : D.parFallback with
  | true =>
    simp only [if_true]
    rw [parallelFallback_eq procs hp _ _ _ _ _ (by cases b <;> simp) Y]
    have hth := hop (split procs Y) (split_mem procs Y) (split_cover procs Y) (split_pairwise procs Y)
      ((hac hpf).imp (fun h => split_length procs Y hp (by omega)) id)
    refine Eq.mp ?_ hth
    congr 1
    apply List.map_congr_left
    intro ch _
    exact (hfun ch.2 ch.1).symm
  | false =>
    simp only [Bool.false_eq_true, if_false]
    have hth := hop [(0, Y)] (by simp) (fun t ht => ⟨(0, Y), by simp, by simp, by simpa using ht⟩) (by simp) (Or.inl (by simp))
    refine Eq.mp ?_ hth
    congr 1
    have := hfun Y 0
    simp only [Nat.cast_zero, mul_zero, add_zero, zero_add] at this
    simp only [List.map_cons, List.map_nil]
    rw [← this]

/-- Every draw whose steps do not get in each other's way. -/
theorem draw_runs (c : DrawCall) (D : Drawer) (m : Mem Addr UInt8) (procs : Nat) (hp : 1 ≤ procs) (same : Bool) (hdst : c.dst.Ok)
    (hsrc : c.src.Ok) (hcomp : c.Computes D m)
    (hin1 : c.clipped.r.empty = false → c.InOrder (backward c.clipped.r c.clipped.spX c.clipped.spY))
    (hin2 : c.clipped.r.empty = false → c.InOrder (processBackward same c.clipped.r c.clipped.spX c.clipped.spY))
    (hac1 : ∀ k im, c.dst = .four k im → (procs = 1 ∨ c.clipped.r.dy < 4) ∨ c.RowsApart)
    (hac2 : D.parFallback = true → (procs = 1 ∨ c.clipped.r.dy < 4) ∨ c.RowsApart) : AllRuns m (c.threads D procs same) (c.Drawn D m) := by
  unfold DrawCall.threads drawMask
  have hcl : clip c.dst.bounds c.r c.src.bounds c.spX c.spY (c.mask.map DImg.bounds) c.mpX c.mpY = c.clipped := rfl
  simp only [hcl]
  cases hne : c.clipped.r.empty with
  | true =>
    simp only [if_true]
    apply allRuns_nil
    refine ⟨fun x y hc => absurd ((c.clipped_mem x y).2 hc) (Rect.not_mem_of_empty hne x y), fun a _ => rfl⟩
  | false =>
    simp only [Bool.false_eq_true, if_false]
    have hop : maskOpacity D c.mask = c.uniformOpacity D := by
      unfold maskOpacity DrawCall.uniformOpacity
      cases c.mask with
      | none => rfl
      | some mi => cases mi <;> rfl
    rw [hop]
    have hfb : (∀ x y, c.pixel D m x y = c.general D m x y) → _ :=
      fun h => fallback_runs c D m procs hp same hdst hcomp hne (hin2 hne) hac2 h
    have nil : ∀ px : Int → Int → UInt32 → Px → Res Px, (∀ x y, c.Covers x y → c.pixel D m x y = c.special (px x y) 0 m x y) → AllRuns m [] (c.Drawn D m) := by
      intro px h
      apply allRuns_nil
      refine ⟨fun x y hc => ?_, fun a _ => rfl⟩
      rw [h x y hc]
      rfl
    have spec : ∀ (px : UInt32 → Px → Res Px) (alpha : UInt32) (x y : Int) (bs : List UInt8), alpha ≠ 0 →
        c.special px alpha m x y = .ok bs → ∃ q, px alpha (Px.ofBytes (c.dBytes m x y)) = .ok q ∧ q.bytes = bs := by
      intro px alpha x y bs ha h
      unfold DrawCall.special at h
      rw [if_neg ha] at h
      split at h
      · rename_i p hp'; cases h; exact ⟨p, hp', rfl⟩
      all_goals cases h
    cases ho : c.uniformOpacity D with
    | none =>
      apply hfb
      intro x y
      unfold DrawCall.pixel
      rw [ho]
    | some alpha =>
      cases hd : c.dst with
      | alpha d => simp only; rw [← hd]; apply hfb; intro x y; unfold DrawCall.pixel; rw [ho, hd]
      | uniform d => simp only; rw [← hd]; apply hfb; intro x y; unfold DrawCall.pixel; rw [ho, hd]
      | other d => simp only; rw [← hd]; apply hfb; intro x y; unfold DrawCall.pixel; rw [ho, hd]
      | four dk d =>
        simp only
        cases hs : c.src with
        | other s => simp only; rw [← hd, ← hs]; apply hfb; intro x y; unfold DrawCall.pixel; rw [ho, hd, hs]
        | four sk s =>
          have hpix : ∀ x y, c.pixel D m x y = c.special (fun al d => D.pix sk dk al (Px.ofBytes (c.sBytes m x y)) d) alpha m x y := by
            intro x y; unfold DrawCall.pixel; rw [ho, hd, hs]
          simp only [drawFour]
          split
          · rename_i h0
            subst h0
            exact nil (fun x y => _) fun x y _ => hpix x y
          · rename_i h0
            have hsok : s.Ok 4 := by have := hsrc; rw [hs] at this; exact this
            exact direct_runs c D m procs hp hdst hcomp hne (hin1 hne) (hac1 dk d hd) dk d hd 4 (by omega) s hsok (by rw [hs]; rfl)
              (fun x y h => by rw [hs]; exact four_cells h) _
              (fun x y bs _ hb => spec (fun al d => D.pix sk dk al (Px.ofBytes (c.sBytes m x y)) d) alpha x y bs h0 (by rw [← hpix]; exact hb))
        | alpha s =>
          simp only
          cases hax : D.alphaPix with
          | none =>
            simp only
            rw [← hd, ← hs]
            apply hfb
            intro x y
            unfold DrawCall.pixel
            rw [ho, hd, hs]
            simp only [hax]
          | some px =>
            have hpix : ∀ x y, c.pixel D m x y = c.special (fun al d => px dk al (firstByte (c.sBytes m x y)) d) alpha m x y := by
              intro x y; unfold DrawCall.pixel; rw [ho, hd, hs]; simp only [hax]
            simp only [drawAlpha]
            split
            · rename_i h0
              subst h0
              exact nil (fun x y => _) fun x y _ => hpix x y
            · rename_i h0
              have hsok : s.Ok 1 := by have := hsrc; rw [hs] at this; exact this
              exact direct_runs c D m procs hp hdst hcomp hne (hin1 hne) (hac1 dk d hd) dk d hd 1 (by omega) s hsok (by rw [hs]; rfl)
                (fun x y h => by rw [hs]; exact alpha_cells h) _
                (fun x y bs _ hb => spec (fun al d => px dk al (firstByte (c.sBytes m x y)) d) alpha x y bs h0 (by rw [← hpix]; exact hb))
        | uniform u =>
          simp only
          cases hux : D.uniPix with
          | none =>
            simp only
            rw [← hd, ← hs]
            apply hfb
            intro x y
            unfold DrawCall.pixel
            rw [ho, hd, hs]
            simp only [hux]
          | some px =>
            have hpix : ∀ x y, c.pixel D m x y = c.special (fun al d => px dk al u d) alpha m x y := by
              intro x y; unfold DrawCall.pixel; rw [ho, hd, hs]; simp only [hux]
            by_cases h0 : alpha = 0
            · subst h0
              simp only [drawUniform, if_true]
              exact nil (fun _ _ => fun al d => px dk al u d) fun x y _ => hpix x y
            · exact uniform_runs c D m procs hp hdst hcomp hne alpha h0 dk d hd _
                (fun x y bs _ hb => spec (fun al d => px dk al u d) alpha x y bs h0 (by rw [← hpix]; exact hb))

end Psd
