import Verif.Lemmas.DrawAll
import Verif.Lemmas.Total16

/-!
# Theorems C48, C49 and C50: drawing

Which pixels a draw changes, from which pixels, and that the goroutines it is split over do not matter. The statements
use `Spec/Draw.lean`: `DrawCall.Covers` (the points drawn), `DrawCall.pixel` (the kernel applied to the pixels that meet
at a point), `DrawCall.Drawn` and `AllRuns` (every interleaving).
-/

namespace Psd

/-! ## C48, C49: separate images -/

theorem apart_in_order {c : DrawCall} (hs : Apart c.dst c.src) (hm : ∀ mi, c.mask = some mi → Apart c.dst mi)
    {p q : Int × Int} (hp : c.Covers p.1 p.2) (hq : c.Covers q.1 q.2) : ∀ a ∈ c.dst.cells p.1 p.2, ¬ c.Reads q.1 q.2 a := by
  rintro a ha (h | ⟨mi, e, h⟩)
  · exact hs _ _ _ _ hp.2.1 hq.2.2.1 a ha h
  · exact hm mi e _ _ _ _ hp.2.1 (hq.2.2.2 mi e) a ha h

/-- **C48, C49** Whatever the rectangle, the bounds of the images, the offsets, the number of processors and the schedule:
a draw between images that share no memory never panics, always finishes, replaces every covered pixel by the kernel's
result for the source and mask pixels at the same offset, and changes no other byte. -/
theorem C48_draws_the_clipped_rectangle (D : Drawer) (c : DrawCall) (procs : Nat) (hp : 1 ≤ procs) (same : Bool) (m : Mem Addr UInt8)
    (hdst : c.dst.Ok) (hsrc : c.src.Ok) (hs : Apart c.dst c.src) (hm : ∀ mi, c.mask = some mi → Apart c.dst mi)
    (hk : c.Computes D m) : AllRuns m (c.threads D procs same) (c.Drawn D m) :=
  draw_runs c D m procs hp same hdst hsrc hk (fun _ _ _ h1 h2 _ => apart_in_order hs hm h1 h2)
    (fun _ _ _ h1 h2 _ => apart_in_order hs hm h1 h2)
    (fun _ _ _ => Or.inr fun _ _ h1 h2 _ => apart_in_order hs hm h1 h2)
    (fun _ => Or.inr fun _ _ h1 h2 _ => apart_in_order hs hm h1 h2)

/-- The outcome of a draw is determined. -/
theorem drawn_unique {D : Drawer} {c : DrawCall} {m m1 m2 : Mem Addr UInt8} (h1 : c.Drawn D m m1) (h2 : c.Drawn D m m2) : m1 = m2 := by
  classical
  funext a
  by_cases h : ∃ x y, c.Covers x y ∧ a ∈ c.dst.cells x y
  · obtain ⟨x, y, hc, ha⟩ := h
    have e : c.dBytes m1 x y = c.dBytes m2 x y := by
      have := (h1.1 x y hc).symm.trans (h2.1 x y hc)
      simpa using this
    exact List.map_inj_left.1 e a ha
  · push Not at h
    rw [h1.2 a h, h2.2 a h]

/-- **C49** The number of processors and the interleaving make no difference: any two complete executions of the same
draw, on any number of processors, leave the same memory. -/
theorem C49_schedule_makes_no_difference (D : Drawer) (c : DrawCall) (procs procs' : Nat) (hp : 1 ≤ procs) (hp' : 1 ≤ procs')
    (same : Bool) (m : Mem Addr UInt8) (hdst : c.dst.Ok) (hsrc : c.src.Ok) (hs : Apart c.dst c.src)
    (hm : ∀ mi, c.mask = some mi → Apart c.dst mi) (hk : c.Computes D m)
    (n n' : Nat) (e e' : Mem Addr UInt8 × List DProg)
    (h1 : Steps n (m, c.threads D procs same) e) (h2 : Steps n' (m, c.threads D procs' same) e')
    (d1 : ∀ p ∈ e.2, p = .done) (d2 : ∀ p ∈ e'.2, p = .done) : e.1 = e'.1 := by
  obtain ⟨_, hN⟩ := C48_draws_the_clipped_rectangle D c procs hp same m hdst hsrc hs hm hk
  obtain ⟨_, hN'⟩ := C48_draws_the_clipped_rectangle D c procs' hp' same m hdst hsrc hs hm hk
  exact drawn_unique ((hN _ _ h1).2.2.2 d1) ((hN' _ _ h2).2.2.2 d2)

/-- The kernels of the Porter-Duff operators have a result for every pixel. -/
theorem pd_computes (op : PD) (c : DrawCall) (m : Mem Addr UInt8) : c.Computes (pdDrawer op) m := by
  have spec : ∀ (px : UInt32 → Px → Res Px) (alpha : UInt32) (x y : Int), (∀ d, ∃ p, px alpha d = .ok p) →
      ∃ bs, c.special px alpha m x y = .ok bs := by
    intro px alpha x y h
    unfold DrawCall.special
    split
    · exact ⟨_, rfl⟩
    · obtain ⟨p, hp⟩ := h (Px.ofBytes (c.dBytes m x y))
      rw [hp]
      exact ⟨_, rfl⟩
  have gen : ∀ x y, ∃ bs, c.general (pdDrawer op) m x y = .ok bs := by
    intro x y
    unfold DrawCall.general
    split
    · exact ⟨_, rfl⟩
    · rename_i h
      simp only [pdDrawer, if_neg h]
      exact ⟨_, rfl⟩
  have hpd : ∀ k s d, ∃ p, drawPD op k s d = .ok p := fun k s d => storePx_ok k _
  intro x y _
  unfold DrawCall.pixel
  split
  · exact spec _ _ _ _ fun d => hpd _ _ d
  · simp only [pdDrawer]
    exact spec _ _ _ _ fun d => hpd _ _ d
  · simp only [pdDrawer]
    exact spec _ _ _ _ fun d => hpd _ _ d
  · exact gen x y

/-- **C48, C49** For the Porter-Duff operators (`Draw`; they take no mask) no condition on the pixels is needed. -/
theorem C48_porter_duff (op : PD) (dst src : DImg) (r : Rect) (spX spY : Int) (procs : Nat) (hp : 1 ≤ procs) (same : Bool)
    (m : Mem Addr UInt8) (hdst : dst.Ok) (hsrc : src.Ok) (hs : Apart dst src) :
    AllRuns m (DrawCall.threads ⟨dst, r, src, spX, spY, none, 0, 0⟩ (pdDrawer op) procs same)
      (DrawCall.Drawn ⟨dst, r, src, spX, spY, none, 0, 0⟩ (pdDrawer op) m) :=
  C48_draws_the_clipped_rectangle _ _ procs hp same m hdst hsrc hs (fun _ h => by cases h) (pd_computes op _ m)

/-- The kernels of the blend modes have a result for every pixel. -/
theorem blend_computes (F : FloatLum) (mode : Mode) (c : DrawCall) (m : Mem Addr UInt8) : c.Computes (blendDrawer F mode) m := by
  have spec : ∀ (px : UInt32 → Px → Res Px) (alpha : UInt32) (x y : Int), (∀ d, ∃ p, px alpha d = .ok p) →
      ∃ bs, c.special px alpha m x y = .ok bs := by
    intro px alpha x y h
    unfold DrawCall.special
    split
    · exact ⟨_, rfl⟩
    · obtain ⟨p, hp⟩ := h (Px.ofBytes (c.dBytes m x y))
      rw [hp]
      exact ⟨_, rfl⟩
  have gen : ∀ x y, ∃ bs, c.general (blendDrawer F mode) m x y = .ok bs := by
    intro x y
    unfold DrawCall.general
    split
    · exact ⟨_, rfl⟩
    · obtain ⟨p, hp⟩ := drawFB_total F mode (c.maskAlpha m x y) (c.src.dec (c.sBytes m x y)) (c.dst.dec (c.dBytes m x y))
      show ∃ bs, (match drawFB F mode _ _ _ with
        | .ok none => .ok (c.dBytes m x y)
        | .ok (some v) => .ok (c.dst.enc v)
        | .err e => .err e
        | .panic p => .panic p
        | .fuel => .fuel) = Res.ok bs
      rw [hp]
      cases p <;> exact ⟨_, rfl⟩
  have pix : ∀ sk dk al s d, ∃ p, (blendDrawer F mode).pix sk dk al s d = .ok p := by
    intro sk dk al s d
    simp only [blendDrawer]
    split
    · exact drawNN_total mode al s d
    · exact draw16_total F mode sk dk al s d
  intro x y _
  unfold DrawCall.pixel
  split
  · exact spec _ _ _ _ fun d => pix _ _ _ _ d
  · exact gen x y
  · exact gen x y
  · exact gen x y

/-- **C48, C49** Nor is any condition on the pixels needed for the blend modes, whatever the types of the images and of the mask: a draw in any mode never
panics, even if the images hold colours brighter than their alpha. -/
theorem C48_blend_modes (F : FloatLum) (mode : Mode) (c : DrawCall) (procs : Nat) (hp : 1 ≤ procs) (same : Bool) (m : Mem Addr UInt8)
    (hdst : c.dst.Ok) (hsrc : c.src.Ok) (hs : Apart c.dst c.src) (hm : ∀ mi, c.mask = some mi → Apart c.dst mi) :
    AllRuns m (c.threads (blendDrawer F mode) procs same) (c.Drawn (blendDrawer F mode) m) :=
  C48_draws_the_clipped_rectangle _ c procs hp same m hdst hsrc hs hm (blend_computes F mode c m)

/-- A 5 by 4 image onto a sub-image of another, half off its edge, with a half transparent uniform mask. -/
example : (Raw.mk ⟨0, 8, 44⟩ 12 ⟨1, 1, 3, 5⟩).Ok 4 ∧ (Raw.mk ⟨1, 0, 80⟩ 20 ⟨-2, 0, 3, 4⟩).Ok 4 ∧
    Apart (.four .nrgba (Raw.mk ⟨0, 8, 44⟩ 12 ⟨1, 1, 3, 5⟩)) (.four .nrgba (Raw.mk ⟨1, 0, 80⟩ 20 ⟨-2, 0, 3, 4⟩)) ∧
    DrawCall.Covers ⟨.four .nrgba (Raw.mk ⟨0, 8, 44⟩ 12 ⟨1, 1, 3, 5⟩), ⟨-3, 2, 9, 9⟩, .four .nrgba (Raw.mk ⟨1, 0, 80⟩ 20 ⟨-2, 0, 3, 4⟩),
      -4, 1, some (.uniform ⟨0, 0, 0, 0x8080⟩), 0, 0⟩ 1 2 := by
  refine ⟨?_, ?_, ?_, ?_⟩
  · intro _; decide
  · intro _; decide
  · intro x y x' y' h h' a ha hb
    rw [four_cells h] at ha
    rw [four_cells h'] at hb
    simp only [Raw.cells, Sl.addr, List.mem_map] at ha hb
    obtain ⟨_, _, rfl⟩ := ha
    obtain ⟨_, _, h⟩ := hb
    simp at h
  · refine ⟨by decide, by decide, by decide, ?_⟩
    intro mi h
    cases h
    decide

/-! ## C50: an image onto itself -/

/-- Where the source pixel of a point lies. -/
theorem src_shift (c : DrawCall) (x y : Int) : c.srcX x = x + (c.clipped.spX - c.clipped.r.minX) ∧
    c.srcY y = y + (c.clipped.spY - c.clipped.r.minY) := by
  obtain ⟨h1, h2, _, _⟩ := c.clipped_src x y
  omega

theorem self_reads {c : DrawCall} (hok : c.dst.Ok) (hself : c.src = c.dst) (hm : ∀ mi, c.mask = some mi → Apart c.dst mi)
    {p q : Int × Int} (hp : c.Covers p.1 p.2) (hq : c.Covers q.1 q.2) (hne : (p.1, p.2) ≠ (c.srcX q.1, c.srcY q.2)) :
    ∀ a ∈ c.dst.cells p.1 p.2, ¬ c.Reads q.1 q.2 a := by
  rintro a ha (h | ⟨mi, e, h⟩)
  · rw [hself] at h
    have hb := hq.2.2.1
    rw [hself] at hb
    exact hok.disjoint hp.2.1 hb hne a ha h
  · exact hm mi e _ _ _ _ hp.2.1 (hq.2.2.2 mi e) a ha h

/-- **C50** (in part) Drawing an image onto itself gives, under every schedule, what it would give had the source been
copied first (`DrawCall.Drawn` takes the source pixels from the memory before the draw), if
* there is one processor, or
* fewer than four rows are drawn, or
* the shift is horizontal, or
* no drawn pixel is also a source pixel, or
* the drawer is a Porter-Duff operator (whose fallback is not split) and the image is neither RGBA nor NRGBA.

Missing: a vertical shift of four or more rows on several processors, where the claim is false (`C50_race`). -/
theorem C50_self_overlap_partial (D : Drawer) (c : DrawCall) (procs : Nat) (hp : 1 ≤ procs) (m : Mem Addr UInt8)
    (hok : c.dst.Ok) (hself : c.src = c.dst) (hm : ∀ mi, c.mask = some mi → Apart c.dst mi) (hk : c.Computes D m)
    (h : procs = 1 ∨ (∀ x y, c.Covers x y → ¬ c.Covers x (y + 3)) ∨ c.spY = c.r.minY ∨
      (∀ x y, c.Covers x y → ¬ c.Covers (c.srcX x) (c.srcY y)) ∨
      (D.parFallback = false ∧ ∀ k im, c.dst ≠ .four k im)) :
    AllRuns m (c.threads D procs true) (c.Drawn D m) := by
  have hrows : (∀ x y, c.Covers x y → ¬ c.Covers x (y + 3)) → c.clipped.r.dy < 4 := by
    intro hc
    by_contra hge
    unfold Rect.dy at hge
    cases hne : c.clipped.r.empty with
    | true =>
      -- an empty clip is the zero rectangle: it has no rows
      have : c.clipped.r = Rect.zero := by
        have key : ∀ a b : Rect, (a.intersect b).empty = true → a.intersect b = Rect.zero := by
          intro a b hab
          unfold Rect.intersect at hab ⊢
          simp only at hab ⊢
          split
          · rfl
          · rename_i h'
            rw [if_neg h'] at hab
            exact absurd hab h'
        have er : c.clipped.r = (match c.mask.map DImg.bounds with
            | none => (c.r.intersect c.dst.bounds).intersect (c.src.bounds.add (c.r.minX - c.spX) (c.r.minY - c.spY))
            | some b => ((c.r.intersect c.dst.bounds).intersect (c.src.bounds.add (c.r.minX - c.spX) (c.r.minY - c.spY))).intersect
                (b.add (c.r.minX - c.mpX) (c.r.minY - c.mpY))) := by
          unfold DrawCall.clipped clip
          simp only
          cases c.mask.map DImg.bounds <;> (simp only; split <;> rfl)
        rw [er] at hne ⊢
        cases hmb : c.mask.map DImg.bounds with
        | none => rw [hmb] at hne; exact key _ _ hne
        | some b => rw [hmb] at hne; exact key _ _ hne
      rw [this] at hge
      simp [Rect.zero] at hge
    | false =>
      rw [Rect.nonempty_iff] at hne
      exact hc c.clipped.r.minX c.clipped.r.minY ((c.clipped_mem _ _).1 (by unfold Rect.Mem; omega))
        ((c.clipped_mem _ _).1 (by unfold Rect.Mem; omega))
  have hrest : ((∀ x y, c.Covers x y → ¬ c.Covers (c.srcX x) (c.srcY y)) ∨ c.spY = c.r.minY) → c.RowsApart := by
    intro h p q h1 h2 hpq
    apply self_reads hok hself hm h1 h2
    intro e
    simp only [Prod.mk.injEq] at e
    rcases h with h | h
    · apply h q.1 q.2 h2
      rw [← e.1, ← e.2]
      exact h1
    · apply hpq
      rw [e.2]
      unfold DrawCall.srcY
      omega
  have hac : ¬ (D.parFallback = false ∧ ∀ k im, c.dst ≠ .four k im) → (procs = 1 ∨ c.clipped.r.dy < 4) ∨ c.RowsApart := by
    intro hn
    rcases h with h | h | h | h | h
    · exact Or.inl (Or.inl h)
    · exact Or.inl (Or.inr (hrows h))
    · exact Or.inr (hrest (Or.inr h))
    · exact Or.inr (hrest (Or.inl h))
    · exact absurd h hn
  apply draw_runs c D m procs hp true hok (by rw [hself]; exact hok) hk
  · intro _ p q h1 h2 hb
    apply self_reads hok hself hm h1 h2
    obtain ⟨e1, e2⟩ := src_shift c q.1 q.2
    rw [e1, e2]
    intro e
    simp only [Prod.mk.injEq] at e
    unfold Before backward at hb
    by_cases hf : c.clipped.r.minY < c.clipped.spY ∨ c.clipped.r.minY = c.clipped.spY ∧ c.clipped.r.minX ≤ c.clipped.spX
    · simp only [decide_eq_true hf, Bool.not_true, Bool.false_eq_true, if_false] at hb
      omega
    · simp only [decide_eq_false hf, Bool.not_false, if_true] at hb
      omega
  · intro hne p q h1 h2 hb
    apply self_reads hok hself hm h1 h2
    obtain ⟨e1, e2⟩ := src_shift c q.1 q.2
    rw [e1, e2]
    intro e
    simp only [Prod.mk.injEq] at e
    have m1 := (c.clipped_mem _ _).2 h1
    have m2 := (c.clipped_mem _ _).2 h2
    rw [Rect.nonempty_iff] at hne
    unfold Rect.Mem at m1 m2
    unfold Before at hb
    cases hpb : processBackward true c.clipped.r c.clipped.spX c.clipped.spY with
    | true =>
      rw [hpb] at hb
      unfold processBackward at hpb
      simp only [Bool.and_eq_true, Bool.or_eq_true, decide_eq_true_eq] at hpb
      simp only [if_true] at hb
      omega
    | false =>
      rw [hpb] at hb
      simp only [Bool.false_eq_true, if_false] at hb
      unfold processBackward at hpb
      simp [Rect.add, Rect.empty] at hpb
      omega
  · intro k im e
    exact hac fun hn => hn.2 k im e
  · intro e
    exact hac fun hn => by rw [hn.1] at e; cases e

/-- Runs a goroutine alone. -/
def runAlone : DProg → Mem Addr UInt8 → Option (Mem Addr UInt8)
  | .done, m => some m
  | .panic, _ => none
  | .read a k, m => runAlone (k (m a)) m
  | .write a v k, m => runAlone k (m.set a v)

theorem Steps.trans {A V : Type} [DecidableEq A] {n n' : Nat} {c c' c'' : Mem A V × List (Prog A V)} (h : Steps n c c') (h' : Steps n' c' c'') :
    Steps (n + n') c c'' := by
  induction h' with
  | refl => exact h
  | tail _ s ih => exact .tail (ih h) s

theorem runAlone_steps : ∀ (p : DProg) (m o : Mem Addr UInt8) (ps : List DProg) (i : Nat), ps[i]? = some p → runAlone p m = some o →
    ∃ n, Steps n (m, ps) (o, ps.set i .done) := by
  intro p
  induction p with
  | done =>
    intro m o ps i hi h
    have : ps.set i .done = ps := by
      apply List.ext_getElem?
      intro j
      by_cases e : i = j
      · subst e
        rw [List.getElem?_set_self (List.getElem?_eq_some_iff.1 hi).1, hi]
      · rw [List.getElem?_set_ne e]
    cases h
    rw [this]
    exact ⟨0, .refl _⟩
  | panic => intro m o ps i _ h; cases h
  | read a k ih =>
    intro m o ps i hi h
    have hil := (List.getElem?_eq_some_iff.1 hi).1
    obtain ⟨n, hn⟩ := ih (m a) m o (ps.set i (k (m a))) i (List.getElem?_set_self hil) h
    rw [List.set_set] at hn
    exact ⟨_, Steps.trans (.tail (.refl _) (.read m ps i a k hi)) hn⟩
  | write a v k ih =>
    intro m o ps i hi h
    have hil := (List.getElem?_eq_some_iff.1 hi).1
    obtain ⟨n, hn⟩ := ih (m.set a v) o (ps.set i k) i (List.getElem?_set_self hil) h
    rw [List.set_set] at hn
    exact ⟨_, Steps.trans (.tail (.refl _) (.write m ps i a v k hi)) hn⟩

/-- An NRGBA image of one column and five rows. -/
def column : DImg := .four .nrgba ⟨⟨0, 0, 20⟩, 4, ⟨0, 0, 1, 5⟩⟩

/-- Its bytes: an opaque grey per row. -/
def columnMem : Mem Addr UInt8 := fun a => if a.2 % 4 = 3 then 255 else UInt8.ofNat (a.2.toNat / 4 * 10)

/-- Scrolling it up by one row. -/
def scroll : DrawCall := ⟨column, ⟨0, 0, 1, 4⟩, column, 0, 1, none, 0, 0⟩

/-- **C50** is false for a vertical shift on two processors: scrolling an image up by one row in place, the goroutine
that does the lower half may overwrite the row the other one still has to read. -/
theorem C50_race : column.Ok ∧ scroll.Computes (pdDrawer .copy) columnMem ∧
    AllRuns columnMem (scroll.threads (pdDrawer .copy) 1 true) (scroll.Drawn (pdDrawer .copy) columnMem) ∧
    ¬ AllRuns columnMem (scroll.threads (pdDrawer .copy) 2 true) (scroll.Drawn (pdDrawer .copy) columnMem) := by
  have hok : column.Ok := by intro _; decide
  refine ⟨hok, pd_computes _ _ _, C50_self_overlap_partial _ _ 1 (Nat.le_refl _) _ hok rfl (fun _ h => by cases h) (pd_computes _ _ _) (Or.inl rfl), ?_⟩
  rintro ⟨N, hN⟩
  obtain ⟨p1, p2, hps⟩ : ∃ p1 p2, scroll.threads (pdDrawer .copy) 2 true = [p1, p2] := ⟨_, _, rfl⟩
  have h2 : ((runAlone ((scroll.threads (pdDrawer .copy) 2 true)[1]?.getD .panic) columnMem).bind fun m1 =>
      (runAlone ((scroll.threads (pdDrawer .copy) 2 true)[0]?.getD .panic) m1).map fun m2 => m2 (0, 4)) = some 30 := by decide +kernel
  rw [hps] at h2 hN
  simp only [List.getElem?_cons_zero, List.getElem?_cons_succ, Option.getD_some] at h2
  cases hm1 : runAlone p2 columnMem with
  | none => rw [hm1] at h2; cases h2
  | some m1 =>
    rw [hm1] at h2
    simp only [Option.bind_some] at h2
    cases hm2 : runAlone p1 m1 with
    | none => rw [hm2] at h2; cases h2
    | some m2 =>
      rw [hm2] at h2
      simp only [Option.map_some, Option.some.injEq] at h2
      obtain ⟨n1, s1⟩ := runAlone_steps p2 columnMem m1 [p1, p2] 1 rfl hm1
      obtain ⟨n2, s2⟩ := runAlone_steps p1 m1 m2 [p1, .done] 0 rfl hm2
      obtain ⟨_, _, _, hpost⟩ := hN _ _ (Steps.trans s1 s2)
      have hd := hpost (by simp)
      have hc := hd.1 0 1 ⟨by decide, by decide, by decide, fun _ h => by cases h⟩
      have e1 : scroll.pixel (pdDrawer .copy) columnMem 0 1 = .ok [20, 20, 20, 255] := by decide +kernel
      rw [e1] at hc
      have e2 : scroll.dBytes m2 0 1 = [m2 (0, 4), m2 (0, 5), m2 (0, 6), m2 (0, 7)] := by rfl
      rw [e2, h2] at hc
      simp at hc

end Psd
