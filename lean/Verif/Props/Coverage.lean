import Verif.Spec.Coverage
import Verif.Props.Negative

/-!
# Theorem C132

Layers that cover more make a picture that covers more.
-/

namespace Psd

/-- **C132 (partial)** Drawing a pixel over another, in whatever mode and at whatever opacity, makes it less opaque by at most one level. Missing: that it does not at all, which is not so
(`C132_more_opaque_is_less`). -/
theorem C132_one_level_partial (m : Mode) (op : UInt8) (s d p : Px) (hp : drawNN m op.toUInt32 s d = .ok p) : d.a.toNat ≤ p.a.toNat + 1 ∧ s.a.toNat * op.toNat / 255 ≤ p.a.toNat + 1 := by
  have k := draw_composite hp
  unfold Composite at k
  dsimp only at k
  have h1 := le255 d.a
  have h2 : s.a.toNat * op.toNat / 255 ≤ 255 := by
    have := Nat.mul_le_mul (le255 s.a) (le255 op)
    omega
  generalize s.a.toNat * op.toNat / 255 = t at k h2 ⊢
  generalize hu : d.a.toNat = u at k h1 ⊢
  have e1 : (255 - t) * u = 255 * u - t * u := Nat.sub_mul ..
  have e2 : t * (255 - u) = 255 * t - t * u := by rw [Nat.mul_sub, Nat.mul_comm t 255]
  have b1 : t * u ≤ 255 * u := Nat.mul_le_mul_right _ h2
  have b2 : t * u ≤ 255 * t := by rw [Nat.mul_comm 255 t]; exact Nat.mul_le_mul_left _ h1
  rw [e1, e2] at k
  generalize t * u = w at k b1 b2
  split at k
  · rename_i h0
    rw [k, hu]
    omega
  · omega

theorem Cover.draw {m m' : Mode} {op : UInt8} (ho : op = 0 ∨ op = 255) {s s' d d' p p' : Px} (hs : (s.a = 0 ∨ s.a = 255) ∧ (s'.a = 0 ∨ s'.a = 255) ∧ s.a ≤ s'.a)
    (hd : (d.a = 0 ∨ d.a = 255) ∧ (d'.a = 0 ∨ d'.a = 255) ∧ d.a ≤ d'.a) (e : drawNN m op.toUInt32 s d = .ok p) (e' : drawNN m' op.toUInt32 s' d' = .ok p') :
    (p.a = 0 ∨ p.a = 255) ∧ (p'.a = 0 ∨ p'.a = 255) ∧ p.a ≤ p'.a := by
  have key : ∀ {m : Mode} {s d p : Px}, (s.a = 0 ∨ s.a = 255) → (d.a = 0 ∨ d.a = 255) → drawNN m op.toUInt32 s d = .ok p → p.a = if s.a = 255 ∧ op = 255 then 255 else d.a := by
    intro m s d p hs hd h
    have c := draw_composite h
    unfold Composite at c
    dsimp only at c
    rcases hs with hs | hs <;> rcases ho with rfl | rfl <;> rcases hd with hd | hd <;> rw [hs, hd] at c ⊢ <;> simp at c ⊢
    all_goals first | rw [c, hd] | exact UInt8.toNat_inj.1 c.1
  rw [key hs.1 hd.1 e, key hs.2.1 hd.2.1 e']
  obtain ⟨s1, s2, s3⟩ := hs
  obtain ⟨d1, d2, d3⟩ := hd
  rcases s1 with s1 | s1 <;> rcases s2 with s2 | s2 <;> rcases d1 with d1 | d1 <;> rcases d2 with d2 | d2 <;> rcases ho with rfl | rfl <;> rw [s1, s2] at s3 <;> rw [d1, d2] at d3 <;>
    rw [s1, s2, d1, d2] <;> revert s3 d3 <;> decide

theorem cover_ops (i : Nat) : RelOps tileOps (fun t t' => ((t i).a = 0 ∨ (t i).a = 255) ∧ ((t' i).a = 0 ∨ (t' i).a = 255) ∧ (t i).a ≤ (t' i).a) (fun k => k = 0 ∨ k = 255)
    (fun m => m i = 0 ∨ m i = 255) (fun _ _ => True) := by
  have two : ∀ (f : UInt8 → UInt8 → UInt8), (∀ x y, (x = 0 ∨ x = 255) → (y = 0 ∨ y = 255) → f x y = 0 ∨ f x y = 255) → (f 0 0 ≤ f 0 255 ∧ f 0 255 ≤ f 255 255 ∧ f 0 0 ≤ f 255 0 ∧ f 255 0 ≤ f 255 255 ∧ f 0 0 ≤ f 255 255) →
      ∀ {x x' y y' : UInt8}, (x = 0 ∨ x = 255) ∧ (x' = 0 ∨ x' = 255) ∧ x ≤ x' → (y = 0 ∨ y = 255) ∧ (y' = 0 ∨ y' = 255) ∧ y ≤ y' →
        (f x y = 0 ∨ f x y = 255) ∧ (f x' y' = 0 ∨ f x' y' = 255) ∧ f x y ≤ f x' y' := by
    intro f hf h x x' y y' hx hy
    refine ⟨hf _ _ hx.1 hy.1, hf _ _ hx.2.1 hy.2.1, ?_⟩
    obtain ⟨h1, h2, h3, h4, h5⟩ := h
    obtain ⟨x1, x2, x3⟩ := hx
    obtain ⟨y1, y2, y3⟩ := hy
    rcases x1 with rfl | rfl <;> rcases x2 with rfl | rfl <;> rcases y1 with rfl | rfl <;> rcases y2 with rfl | rfl <;>
      first | exact UInt8.le_refl _ | assumption | exact absurd x3 (by decide) | exact absurd y3 (by decide)
  have sim := tile_alpha i
  refine ⟨⟨.inl rfl, .inl rfl, UInt8.le_refl _⟩, fun {p q} h => ?_, ?_, ?_, fun {p q} h => .inl ⟨.inr rfl, .inr rfl, UInt8.le_refl _⟩, ?_, ?_, ?_, ?_, ?_, .inr rfl, ?_⟩
  · rw [copy_alpha, copy_alpha]
    exact h
  · rintro k m m' b b' x x' y y' hk - hb hx e e'
    obtain ⟨md, -, e1⟩ := draw_px e i
    obtain ⟨md', -, e1'⟩ := draw_px e' i
    exact Cover.draw (by rcases hk with rfl | rfl <;> decide) hx hb e1 e1'
  · intro k b x y e
    simp only [tileOps, show blendMode passThrough = none by decide, reduceCtorEq] at e
  · intro b b' x x' hb hx
    rw [sim.destIn, sim.destIn]
    exact two (fun x b => pdA .destIn x b) (by rintro x y (rfl | rfl) (rfl | rfl) <;> decide) (by decide) hx hb
  · intro b b' x x' hb hx
    rw [sim.destOver, sim.destOver]
    exact two (fun x b => pdA .destOver x b) (by rintro x y (rfl | rfl) (rfl | rfl) <;> decide) (by decide) hx hb
  · intro b b' m hm hb
    rw [sim.maskIn, sim.maskIn]
    exact two (fun x b => pdA .destIn x b) (by rintro x y (rfl | rfl) (rfl | rfl) <;> decide) (by decide) ⟨hm, hm, UInt8.le_refl _⟩ hb
  · intro b b' m hm hb
    rw [sim.maskOut, sim.maskOut]
    obtain ⟨b1, b2, b3⟩ := hb
    show (pdA .destOut (m i) (b i).a = 0 ∨ pdA .destOut (m i) (b i).a = 255) ∧ (pdA .destOut (m i) (b' i).a = 0 ∨ pdA .destOut (m i) (b' i).a = 255) ∧ pdA .destOut (m i) (b i).a ≤ pdA .destOut (m i) (b' i).a
    rcases hm with hm | hm <;> rcases b1 with b1 | b1 <;> rcases b2 with b2 | b2 <;> rw [b1, b2] at b3 ⊢ <;> rw [hm] <;> revert b3 <;> decide
  · intro b b' _
    rw [clear_px, clear_px]
    decide
  · rintro k x (rfl | rfl) (rfl | rfl) <;> decide

/-- **C132 (partial)** Layers that cover more make a picture that covers more: if every layer of a document has full opacity or none, if at a pixel every layer is fully opaque or fully transparent
and every mask black or white, and if each layer that is opaque there in the one file is so in the other, then if the picture is opaque there in the one, it is in the other, in whatever blend
modes and with whatever folders, clipping and masks. Missing: translucent layers (`C132_more_opaque_is_less`). -/
theorem C132_covering_more_partial (grow : Nat → Nat) (dec : List UInt8 → Option (List UInt8)) (n : Nat) (doc : List (LTree LayerRec)) (hf : depthAll doc ≤ n) (hu : UniqueDoc doc) (hk : KnownModes doc)
    (ho : FullOrNone doc) (canvas canvas' : Int → Option (List (TPt × Tile))) (mask : Int → List (TPt × (Nat → UInt8))) (pt : TPt) (i : Nat) (hc : CoversMore canvas canvas' pt i)
    (hm : ∀ id m, (mask id).lookup pt = some m → m i = 0 ∨ m i = 255)
    (fuel : Nat) (hfu : 2 * n ≤ fuel) (diff aborted : Bool) (visited : List TPt) (hnd : visited.Nodup) (hpt : pt ∈ visited) (dest dest' : TPt → Tile) :
    ∃ st st' d d', render tileOps ⟨newTree grow dec n doc, rootPtr, canvas, mask⟩ fuel diff aborted visited .empty dest = .ok (st, d) ∧
      render tileOps ⟨newTree grow dec n doc, rootPtr, canvas', mask⟩ fuel diff aborted visited .empty dest' = .ok (st', d') ∧ (d pt i).a ≤ (d' pt i).a := by
  obtain ⟨st, st', d, d', e, e', hr⟩ := shown_rel (cover_ops i) (docRel_self (Q := fun l => l.opacity = 0 ∨ l.opacity = 255) ho) (by rintro l l' ⟨rfl, -⟩; rfl) (by rintro l l' ⟨rfl, -⟩; rfl) grow dec
    (by
      rintro l l' ⟨rfl, h⟩
      refine ⟨⟨rfl, Iff.rfl⟩, ?_, .inl trivial⟩
      show l'.opacity.toNat = 0 ∨ l'.opacity.toNat = 255
      rcases h with h | h <;> rw [h]
      · exact .inl rfl
      · exact .inr rfl) n hf hf hu hu hk hk canvas canvas' mask pt
    (by
      rintro l l' ⟨rfl, -⟩
      have := hc l'.seqID
      revert this
      generalize (canvas l'.seqID).bind (·.lookup pt) = x
      generalize (canvas' l'.seqID).bind (·.lookup pt) = y
      intro this
      cases x with
      | none => cases y with
        | none => trivial
        | some => exact absurd this id
      | some t => cases y with
        | none => exact absurd this id
        | some t' => exact (cover_ops i).copy this)
    (fun l l' _ x hx => hm _ x hx) fuel hfu diff aborted visited hnd dest dest'
  exact ⟨st, st', d, d', e, e', (hr hpt).2.2⟩

/-! ### Non-vacuity, and what is not so -/

/-- `posDoc` with a layer that covers a pixel or not. -/
def coverCanvas (a : UInt8) (id : Int) : Option (List (TPt × Tile)) :=
  if id = 0 then some [((0, 0), plainTile ⟨200, 100, 0, 0⟩)] else if id = 1 then some [((0, 0), plainTile ⟨10, 20, 130, a⟩)]
  else if id = 2 then some [((0, 0), plainTile ⟨250, 50, 30, 255⟩)] else none

/-- They meet the hypotheses of `C132_covering_more_partial`. -/
example : FullOrNone (posDoc "mul " "idiv") ∧ CoversMore (coverCanvas 0) (coverCanvas 255) (0, 0) 5 := by
  refine ⟨DocAll.of_list (Q := fun l _ => l.opacity = 0 ∨ l.opacity = 255) ?_, fun id => ?_⟩
  · intro x hx
    simp only [docList, posDoc, List.map, List.nil_append] at hx
    fin_cases hx <;> exact .inr rfl
  · unfold coverCanvas
    by_cases h0 : id = 0
    · simp only [if_pos h0]
      exact ⟨.inl rfl, .inl rfl, UInt8.le_refl _⟩
    by_cases h1 : id = 1
    · simp only [if_neg h0, if_pos h1]
      exact ⟨.inl rfl, .inr rfl, by decide⟩
    by_cases h2 : id = 2
    · simp only [if_neg h0, if_neg h1, if_pos h2]
      exact ⟨.inr rfl, .inr rfl, UInt8.le_refl _⟩
    · simp only [if_neg h0, if_neg h1, if_neg h2]
      trivial

/-- The pixel is transparent in the one, though the clipped layer is opaque, and opaque in the other. -/
example :
    peekPx (render tileOps ⟨newTree (fun n => n) some 1 (posDoc "mul " "idiv"), rootPtr, coverCanvas 0, fun _ => []⟩ 2 false false [(0, 0)] .empty blank) 5 = .ok ⟨0, 0, 0, 0⟩ ∧
    peekPx (render tileOps ⟨newTree (fun n => n) some 1 (posDoc "mul " "idiv"), rootPtr, coverCanvas 255, fun _ => []⟩ 2 false false [(0, 0)] .empty blank) 5 = .ok ⟨6, 0, 0, 255⟩ := by
  decide +kernel

/-- A white layer over an almost opaque white one. -/
def mistCanvas (a : UInt8) (id : Int) : Option (List (TPt × Tile)) :=
  if id = 0 then some [((0, 0), plainTile ⟨255, 255, 255, 254⟩)] else if id = 1 then some [((0, 0), plainTile ⟨255, 255, 255, a⟩)] else none

/-- **C132, negated** A layer that is a little more opaque can make the picture less opaque, even where everything is in normal mode at full opacity. -/
theorem C132_more_opaque_is_less : MoreOpaque (mistCanvas 0) (mistCanvas 1) (0, 0) 5 ∧
    peekPx (render tileOps ⟨newTree (fun n => n) some 1 (posDoc "norm" "norm"), rootPtr, mistCanvas 0, fun _ => []⟩ 2 false false [(0, 0)] .empty blank) 5 = .ok ⟨255, 255, 255, 254⟩ ∧
    peekPx (render tileOps ⟨newTree (fun n => n) some 1 (posDoc "norm" "norm"), rootPtr, mistCanvas 1, fun _ => []⟩ 2 false false [(0, 0)] .empty blank) 5 = .ok ⟨255, 255, 255, 253⟩ := by
  refine ⟨fun id => ?_, by decide +kernel, by decide +kernel⟩
  unfold mistCanvas
  by_cases h0 : id = 0
  · simp only [if_pos h0]
    exact UInt8.le_refl _
  by_cases h1 : id = 1
  · simp only [if_neg h0, if_pos h1]
    exact (by decide : (0 : UInt8) ≤ 1)
  · simp only [if_neg h0, if_neg h1]
    trivial

end Psd
