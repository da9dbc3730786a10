import Verif.Lemmas.Channels
import Verif.Props.Alpha
import Verif.Props.Luminosity

/-!
# Theorems C128, C129 and C130

Brighter layers make a brighter picture, the channels do not mix, and grey layers make a grey picture.
-/

namespace Psd

/-- What painting keeps, rendering keeps. -/
theorem shown_rel {R : Tile → Tile → Prop} {Op : Nat → Prop} {Mk : (Nat → UInt8) → Prop} {Md : List UInt8 → List UInt8 → Prop} (ho : RelOps tileOps R Op Mk Md)
    {Q : LayerRec → LayerRec → Prop} {doc doc' : List (LTree LayerRec)} (hd : DocRel Q doc doc') (hQ : ∀ l l', Q l l' → l'.clipping = l.clipping) (hid : ∀ l l', Q l l' → l'.seqID = l.seqID)
    (grow : Nat → Nat) (dec : List UInt8 → Option (List UInt8)) (hA : ∀ l l', Q l l' → (attrOf dec l).Rel Op Md (attrOf dec l')) (n : Nat) (hf : depthAll doc ≤ n) (hf' : depthAll doc' ≤ n)
    (hu : UniqueDoc doc) (hu' : UniqueDoc doc') (hk : KnownModes doc) (hk' : KnownModes doc')
    (canvas canvas' : Int → Option (List (TPt × Tile))) (mask : Int → List (TPt × (Nat → UInt8))) (pt : TPt)
    (hp : ∀ l l', Q l l' → BothRel (fun x y => R (tileOps.copy x) (tileOps.copy y)) ((canvas l.seqID).bind (·.lookup pt)) ((canvas' l.seqID).bind (·.lookup pt)))
    (hm : ∀ l l', Q l l' → ∀ x, (mask l.seqID).lookup pt = some x → Mk x)
    (fuel : Nat) (hfu : 2 * n ≤ fuel) (diff aborted : Bool) (visited : List TPt) (hnd : visited.Nodup) (dest dest' : TPt → Tile) :
    ∃ st st' d d', render tileOps ⟨newTree grow dec n doc, rootPtr, canvas, mask⟩ fuel diff aborted visited .empty dest = .ok (st, d) ∧
      render tileOps ⟨newTree grow dec n doc', rootPtr, canvas', mask⟩ fuel diff aborted visited .empty dest' = .ok (st', d') ∧ (pt ∈ visited → R (d pt) (d' pt)) := by
  obtain ⟨st, d, e, h⟩ := C82_render_paints_the_layers grow dec n doc hf hu hk canvas mask fuel hfu diff aborted visited hnd dest
  obtain ⟨st', d', e', h'⟩ := C82_render_paints_the_layers grow dec n doc' hf' hu' hk' canvas' mask fuel hfu diff aborted visited hnd dest'
  refine ⟨st, st', d, d', e, e', fun hpt => ?_⟩
  obtain ⟨t, r, h1, h2, h3⟩ := h pt
  obtain ⟨t', r', h1', h2', h3'⟩ := h' pt
  rw [h3, h3', if_pos hpt, if_pos hpt]
  have hs := stack_rel (o := tileOps) hQ (R := R) (Op := Op) (Mk := Mk) (Md := Md) hA (fun l l' h => by rw [hid l l' h]; exact hp l l' h) hm (fun l l' h => by rw [hid l l' h]) t t' doc doc' h1 h1' hd
  obtain ⟨k1, k2⟩ := paint_rel ho t t' hs false id (fun _ hx => hx) _ _ ho.blank r r' h2 h2'
  have cl : ∀ b, tileOps.clear b = tileOps.blank := fun b => by
    funext i
    rw [clear_px]
    rfl
  unfold tileShown
  rw [← k1]
  split
  · exact ho.copy (ho.copy k2)
  · rw [cl, cl]
    exact ho.blank

theorem attr_modes {Q : Mode → Prop} (hn : Q (.sep .normal)) (dec : List UInt8 → Option (List UInt8)) (l : LayerRec)
    (h : (l.folder = false → (∃ m, blendMode l.blendMode = some m ∧ Q m) ∨ l.blendMode = ascii "pass") ∧ (l.folder = true → (∃ m, blendMode l.sdBlendMode = some m ∧ Q m) ∨ l.sdBlendMode = ascii "pass")) :
    (∃ m, blendMode (attrOf dec l).blendMode = some m ∧ Q m) ∨ (attrOf dec l).blendMode = passThrough := by
  show (∃ m, blendMode (if l.folder then l.sdBlendMode else if l.blendMode = ascii "pass" then ascii "norm" else l.blendMode) = some m ∧ Q m) ∨
    (if l.folder then l.sdBlendMode else if l.blendMode = ascii "pass" then ascii "norm" else l.blendMode) = passThrough
  cases hfo : l.folder with
  | true =>
    simp only [if_true]
    exact h.2 hfo
  | false =>
    simp only [Bool.false_eq_true, if_false]
    rcases h.1 hfo with h1 | h1
    · split
      · exact .inl ⟨_, by decide, hn⟩
      · exact .inl h1
    · rw [if_pos h1]
      exact .inl ⟨_, by decide, hn⟩

/-- The same for a relation on a channel. -/
theorem chan_shown {rel : Nat → Nat → Prop} (c c' : Primary) (h0 : rel 0 0) (hpd : ∀ op sa da {s s' d d'}, rel s s' → rel d d' → rel (pdC op sa da s d) (pdC op sa da s' d'))
    (hn : KeepsRel rel (.sep .normal)) (grow : Nat → Nat) (dec : List UInt8 → Option (List UInt8)) (n : Nat) (doc : List (LTree LayerRec)) (hf : depthAll doc ≤ n) (hu : UniqueDoc doc) (hk : KnownModes doc) (hq : ModesIn (KeepsRel rel) doc)
    (canvas canvas' : Int → Option (List (TPt × Tile))) (mask : Int → List (TPt × (Nat → UInt8))) (pt : TPt) (i : Nat)
    (hc : PixelsRel (fun p q => rel (p.chan c).toNat (q.chan c').toNat) canvas canvas' pt i)
    (fuel : Nat) (hfu : 2 * n ≤ fuel) (diff aborted : Bool) (visited : List TPt) (hnd : visited.Nodup) (dest dest' : TPt → Tile) :
    ∃ st st' d d', render tileOps ⟨newTree grow dec n doc, rootPtr, canvas, mask⟩ fuel diff aborted visited .empty dest = .ok (st, d) ∧
      render tileOps ⟨newTree grow dec n doc, rootPtr, canvas', mask⟩ fuel diff aborted visited .empty dest' = .ok (st', d') ∧ (pt ∈ visited → ChanRel rel c c' i (d pt) (d' pt)) := by
  have ho := chan_ops c c' i h0 hpd
  refine shown_rel ho (docRel_self (Q := fun l => (l.folder = false → (∃ m, blendMode l.blendMode = some m ∧ KeepsRel rel m) ∨ l.blendMode = ascii "pass") ∧
    (l.folder = true → (∃ m, blendMode l.sdBlendMode = some m ∧ KeepsRel rel m) ∨ l.sdBlendMode = ascii "pass")) hq) ?_ ?_ grow dec ?_ n hf hf hu hu hk hk canvas canvas' mask pt ?_
    (fun _ _ _ _ _ => trivial) fuel hfu diff aborted visited hnd dest dest'
  · rintro l l' ⟨rfl, -⟩
    rfl
  · rintro l l' ⟨rfl, -⟩
    rfl
  · rintro l l' ⟨rfl, h⟩
    refine ⟨⟨rfl, Iff.rfl⟩, trivial, ?_⟩
    rcases attr_modes hn dec l' h with h | h
    · exact .inl ⟨rfl, h⟩
    · exact .inr h
  · rintro l l' ⟨rfl, -⟩
    have := hc l'.seqID
    generalize (canvas l'.seqID).bind (·.lookup pt) = x at this
    generalize (canvas' l'.seqID).bind (·.lookup pt) = y at this
    cases x with
    | none => cases y with
      | none => trivial
      | some => exact absurd this id
    | some t => cases y with
      | none => exact absurd this id
      | some t' =>
        obtain ⟨ha, hr⟩ := this
        show ChanRel rel c c' i (tileOps.copy t) (tileOps.copy t')
        refine ⟨?_, by rw [copy_alpha, copy_alpha, ha]⟩
        have e : ∀ (u : Tile) (k : Primary), ((tileOps.copy u i).chan k).toNat = pdC .copy (u i).a.toNat 0 ((u i).chan k).toNat 0 := fun u k => by
          rw [show tileOps.copy u i = pxOr (u i) (drawPD .copy .nrgba (.px .nrgba (u i)) ⟨0, 0, 0, 0⟩) from rfl, pd_chan]
          cases k <;> rfl
        rw [e, e, ← ha]
        by_cases hz : (t i).a = 0
        · have z : ∀ x, pdC .copy (t i).a.toNat 0 x 0 = 0 := fun x => by
            rw [hz]
            simp [pdC, PD.mix, scale16]
          rw [z, z]
          exact h0
        · exact hpd _ _ _ (hr hz) h0

/-! ### C128 -/

theorem keeps_le {m : Sep} (h1 : m.increasing = true) (h2 : m.increasingInSource = true) (h3 : m ≠ .softLight) : KeepsRel (· ≤ ·) (.sep m) :=
  ⟨m, rfl, fun op sa da _ _ _ _ _ b1 _ b2 hx hy => drawC_mono m h1 h2 h3 op sa da hx hy b1 b2⟩

/-- **C128 (partial)** Brightening layers never darkens the picture: if the blend modes of a document are among those that grow, other than soft light, with pass-through folders, clipping, masks and
opacities as they may be, and if at a pixel no channel of any layer is brighter in the one file than in the other and each layer is as opaque, then no channel of the picture is
brighter, and it is as opaque. Missing: soft light (`C128_soft_light_is_off`). -/
theorem C128_brighter_layers_partial (grow : Nat → Nat) (dec : List UInt8 → Option (List UInt8)) (n : Nat) (doc : List (LTree LayerRec)) (hf : depthAll doc ≤ n) (hu : UniqueDoc doc) (hk : KnownModes doc)
    (hq : ModesIn (fun m => m.Growing ∧ m ≠ .sep .softLight) doc) (canvas canvas' : Int → Option (List (TPt × Tile))) (mask : Int → List (TPt × (Nat → UInt8))) (pt : TPt) (i : Nat)
    (hc : PixelsRel Px.Darker canvas canvas' pt i)
    (fuel : Nat) (hfu : 2 * n ≤ fuel) (diff aborted : Bool) (visited : List TPt) (hnd : visited.Nodup) (hpt : pt ∈ visited) (dest dest' : TPt → Tile) :
    ∃ st st' d d', render tileOps ⟨newTree grow dec n doc, rootPtr, canvas, mask⟩ fuel diff aborted visited .empty dest = .ok (st, d) ∧
      render tileOps ⟨newTree grow dec n doc, rootPtr, canvas', mask⟩ fuel diff aborted visited .empty dest' = .ok (st', d') ∧ (d pt i).Darker (d' pt i) := by
  have hq' : ModesIn (KeepsRel (· ≤ ·)) doc := by
    have k : ∀ b, (∃ m, blendMode b = some m ∧ m.Growing ∧ m ≠ .sep .softLight) → ∃ m, blendMode b = some m ∧ KeepsRel (· ≤ ·) m := by
      rintro b ⟨m, e, hg, hs⟩
      cases m with
      | sep m => exact ⟨_, e, keeps_le hg.1 hg.2 fun h => hs (by rw [h])⟩
      | _ => exact absurd hg id
    intro π l kids e
    exact ⟨fun h => (hq π l kids e).1 h |>.imp_left (k _), fun h => (hq π l kids e).2 h |>.imp_left (k _)⟩
  have hall : ∀ c : Primary, PixelsRel (fun p q => (p.chan c).toNat ≤ (q.chan c).toNat) canvas canvas' pt i := by
    intro c id
    have := hc id
    revert this
    generalize (canvas id).bind (·.lookup pt) = x
    generalize (canvas' id).bind (·.lookup pt) = y
    intro this
    cases x <;> cases y <;> try exact this
    refine ⟨this.1, fun h => ?_⟩
    obtain ⟨h1, h2, h3, -⟩ := this.2 h
    cases c
    · exact UInt8.le_iff_toNat_le.1 h1
    · exact UInt8.le_iff_toNat_le.1 h2
    · exact UInt8.le_iff_toNat_le.1 h3
  have main := fun c : Primary => chan_shown (rel := (· ≤ ·)) c c (Nat.le_refl 0) (fun op sa da => pdC_mono op sa da) (keeps_le rfl rfl (by decide)) grow dec n doc hf hu hk hq' canvas canvas' mask pt i
    (hall c) fuel hfu diff aborted visited hnd dest dest'
  obtain ⟨st, st', d, d', e, e', hr⟩ := main .red
  refine ⟨st, st', d, d', e, e', ?_⟩
  have get : ∀ c : Primary, (d pt i).chan c ≤ (d' pt i).chan c := by
    intro c
    obtain ⟨_, _, d1, d1', e1, e1', hr1⟩ := main c
    rw [e] at e1
    rw [e'] at e1'
    injection e1 with e1
    injection e1 with _ e1
    injection e1' with e1'
    injection e1' with _ e1'
    subst e1 e1'
    exact UInt8.le_iff_toNat_le.2 (hr1 hpt).1
  exact ⟨get .red, get .green, get .blue, (hr hpt).2⟩

/-! ### C129 -/

theorem keeps_eq (m : Sep) : KeepsRel (· = ·) (.sep m) :=
  ⟨m, rfl, fun op sa da _ _ _ _ _ _ _ _ hx hy => by rw [hx, hy]⟩

/-- **C129** The channels do not mix: in a document whose blend modes are separable, a channel of the picture depends on that channel of the layers, and on their opacity, alone. What the
channel `c` of the layers makes of a pixel in one file, the channel `c'` of the layers makes of it in another file with the same layers, if at that pixel the layers are as opaque and have
the same in `c` as the others have in `c'`. -/
theorem C129_channels_do_not_mix (c c' : Primary) (grow : Nat → Nat) (dec : List UInt8 → Option (List UInt8)) (n : Nat) (doc : List (LTree LayerRec)) (hf : depthAll doc ≤ n) (hu : UniqueDoc doc) (hk : KnownModes doc)
    (hq : ModesIn Mode.Separable doc) (canvas canvas' : Int → Option (List (TPt × Tile))) (mask : Int → List (TPt × (Nat → UInt8))) (pt : TPt) (i : Nat)
    (hc : PixelsRel (fun p q => p.chan c = q.chan c') canvas canvas' pt i)
    (fuel : Nat) (hfu : 2 * n ≤ fuel) (diff aborted : Bool) (visited : List TPt) (hnd : visited.Nodup) (hpt : pt ∈ visited) (dest dest' : TPt → Tile) :
    ∃ st st' d d', render tileOps ⟨newTree grow dec n doc, rootPtr, canvas, mask⟩ fuel diff aborted visited .empty dest = .ok (st, d) ∧
      render tileOps ⟨newTree grow dec n doc, rootPtr, canvas', mask⟩ fuel diff aborted visited .empty dest' = .ok (st', d') ∧
      (d pt i).chan c = (d' pt i).chan c' ∧ (d pt i).a = (d' pt i).a := by
  have hq' : ModesIn (KeepsRel (· = ·)) doc := by
    have k : ∀ b, (∃ m, blendMode b = some m ∧ m.Separable) → ∃ m, blendMode b = some m ∧ KeepsRel (· = ·) m := by
      rintro b ⟨m, e, hg⟩
      cases m with
      | sep m => exact ⟨_, e, keeps_eq m⟩
      | _ => exact absurd hg id
    intro π l kids e
    exact ⟨fun h => (hq π l kids e).1 h |>.imp_left (k _), fun h => (hq π l kids e).2 h |>.imp_left (k _)⟩
  obtain ⟨st, st', d, d', e, e', hr⟩ := chan_shown (rel := (· = ·)) c c' rfl (fun op sa da _ _ _ _ hs hd => by rw [hs, hd]) (keeps_eq .normal) grow dec n doc hf hu hk hq' canvas canvas' mask pt i (by
    intro id
    have := hc id
    revert this
    generalize (canvas id).bind (·.lookup pt) = x
    generalize (canvas' id).bind (·.lookup pt) = y
    intro this
    cases x <;> cases y <;> try exact this
    exact ⟨this.1, fun h => congrArg _ (this.2 h)⟩) fuel hfu diff aborted visited hnd dest dest'
  exact ⟨st, st', d, d', e, e', UInt8.toNat_inj.1 (hr hpt).1, (hr hpt).2⟩

/-! ### C130 -/

theorem setLum_grey {c : RGB Nat} (h : c.r = c.g ∧ c.g = c.b) (l : Int) : (setLumZ c l).r = (setLumZ c l).g ∧ (setLumZ c l).g = (setLumZ c l).b := by
  obtain ⟨r, g, b⟩ := c
  simp only at h
  obtain ⟨rfl, rfl⟩ := h
  exact ⟨rfl, rfl⟩

theorem setSat_grey {c : RGB Nat} (h : c.r = c.g ∧ c.g = c.b) (s : Nat) : (setSatN c s).r = (setSatN c s).g ∧ (setSatN c s).g = (setSatN c s).b := by
  obtain ⟨r, g, b⟩ := c
  simp only at h
  obtain ⟨rfl, rfl⟩ := h
  exact ⟨rfl, rfl⟩

theorem blend_grey (m : Mode) {s d : RGB Nat} (hs : s.r = s.g ∧ s.g = s.b) (hd : d.r = d.g ∧ d.g = d.b) : (blendN m s d).r = (blendN m s d).g ∧ (blendN m s d).g = (blendN m s d).b := by
  cases m with
  | sep m => exact ⟨by simp only [blendN, hs.1, hd.1], by simp only [blendN, hs.2, hd.2]⟩
  | darkerColor => unfold blendN; dsimp only; split <;> assumption
  | lighterColor => unfold blendN; dsimp only; split <;> assumption
  | nonSep m =>
    cases m
    · exact setLum_grey (setSat_grey hs _) _
    · exact setLum_grey (setSat_grey hd _) _
    · exact setLum_grey hs _
    · exact setLum_grey hd _

theorem draw_grey {m : Mode} {op : UInt8} {s d p : Px} (h : drawNN m op.toUInt32 s d = .ok p) (hs : s.Grey) (hd : d.Grey) : p.Grey := by
  have k := draw_composite h
  unfold Composite at k
  dsimp only at k
  split at k
  · rw [k]
    exact hd
  · obtain ⟨-, k1, k2, k3⟩ := k
    obtain ⟨g1, g2⟩ := blend_grey m (s := ⟨s.r.toNat, s.g.toNat, s.b.toNat⟩) (d := ⟨d.r.toNat, d.g.toNat, d.b.toNat⟩) ⟨congrArg UInt8.toNat hs.1, congrArg UInt8.toNat hs.2⟩ ⟨congrArg UInt8.toNat hd.1, congrArg UInt8.toNat hd.2⟩
    refine ⟨UInt8.toNat_inj.1 ?_, UInt8.toNat_inj.1 ?_⟩
    · rw [k1, k2, g1, hs.1, hd.1]
    · rw [k2, k3, g2, hs.2, hd.2]

theorem grey_ops (i : Nat) : RelOps tileOps (fun t _ => (t i).Grey) (fun _ => True) (fun _ => True) (fun _ _ => True) := by
  have px : ∀ (op : PD) (s d e : Px), s.Grey → d.Grey → (pxOr e (drawPD op .nrgba (.px .nrgba s) d)).Grey := by
    intro op s d e hs hd
    have k := pd_chan op s d e
    have h1 : s.chan .red = s.chan .green ∧ s.chan .green = s.chan .blue := hs
    have h2 : d.chan .red = d.chan .green ∧ d.chan .green = d.chan .blue := hd
    refine ⟨UInt8.toNat_inj.1 ?_, UInt8.toNat_inj.1 ?_⟩
    · refine (k .red).trans (.trans ?_ (k .green).symm)
      rw [h1.1, h2.1]
    · refine (k .green).trans (.trans ?_ (k .blue).symm)
      rw [h1.2, h2.2]
  have mk : ∀ (op : PD) (v : UInt8) (d e : Px), d.Grey → (pxOr e (drawPD op .nrgba (.alpha v) d)).Grey := by
    intro op v d e hd
    have k := pd_chan_mask op v d e
    have h2 : d.chan .red = d.chan .green ∧ d.chan .green = d.chan .blue := hd
    refine ⟨UInt8.toNat_inj.1 ?_, UInt8.toNat_inj.1 ?_⟩
    · refine (k .red).trans (.trans ?_ (k .green).symm)
      rw [h2.1]
    · refine (k .green).trans (.trans ?_ (k .blue).symm)
      rw [h2.2]
  have cp : ∀ {p : Tile}, (p i).Grey → (tileOps.copy p i).Grey := fun {p} h => px .copy _ _ _ h ⟨rfl, rfl⟩
  refine ⟨⟨rfl, rfl⟩, cp, ?_, ?_, fun h => .inl (cp h), fun hb hx => px .destIn _ _ _ hx hb, fun hb hx => px .destOver _ _ _ hx hb, fun _ hb => mk .destIn _ _ _ hb, fun _ hb => mk .destOut _ _ _ hb, ?_,
    trivial, fun _ _ => trivial⟩
  · intro k m m' b b' x x' y y' _ _ hb hx e _
    obtain ⟨md, h1, e1⟩ := draw_px e i
    exact draw_grey e1 hx hb
  · intro k b x y e
    simp only [tileOps, show blendMode passThrough = none by decide, reduceCtorEq] at e
  · intro b _ _
    rw [clear_px]
    exact ⟨rfl, rfl⟩

/-- **C130** Grey layers make a grey picture, in all blend modes, with whatever folders, clipping, masks and opacities: if at a pixel every layer is grey (or fully transparent), then so is the picture. -/
theorem C130_grey_stays_grey (grow : Nat → Nat) (dec : List UInt8 → Option (List UInt8)) (n : Nat) (doc : List (LTree LayerRec)) (hf : depthAll doc ≤ n) (hu : UniqueDoc doc) (hk : KnownModes doc)
    (canvas : Int → Option (List (TPt × Tile))) (mask : Int → List (TPt × (Nat → UInt8))) (pt : TPt) (i : Nat)
    (hc : ∀ id t, (canvas id).bind (·.lookup pt) = some t → (t i).a ≠ 0 → (t i).Grey)
    (fuel : Nat) (hfu : 2 * n ≤ fuel) (diff aborted : Bool) (visited : List TPt) (hnd : visited.Nodup) (hpt : pt ∈ visited) (dest : TPt → Tile) :
    ∃ st d, render tileOps ⟨newTree grow dec n doc, rootPtr, canvas, mask⟩ fuel diff aborted visited .empty dest = .ok (st, d) ∧ (d pt i).Grey := by
  obtain ⟨st, -, d, -, e, -, hr⟩ := shown_rel (grey_ops i) (docRel_self (Q := fun _ => True) (fun _ _ _ _ => trivial)) (by rintro l l' ⟨rfl, -⟩; rfl) (by rintro l l' ⟨rfl, -⟩; rfl) grow dec
    (by rintro l l' ⟨rfl, -⟩; exact ⟨⟨rfl, Iff.rfl⟩, trivial, .inl trivial⟩) n hf hf hu hu hk hk canvas canvas mask pt (by
      rintro l l' ⟨rfl, -⟩
      have := hc l'.seqID
      generalize (canvas l'.seqID).bind (·.lookup pt) = x at this
      cases x with
      | none => trivial
      | some t =>
        show (tileOps.copy t i).Grey
        by_cases hz : (t i).a = 0
        · rw [show tileOps.copy t i = ⟨0, 0, 0, 0⟩ by
            have hs := pd_zero (op := .copy) (s := .px .nrgba (t i)) (d := ⟨0, 0, 0, 0⟩) (by rw [read_alpha, hz]; rfl) (t i)
            exact hs]
          exact ⟨rfl, rfl⟩
        · exact (grey_ops i).copy (q := t) (this t rfl hz)) (fun _ _ _ _ _ => trivial) fuel hfu diff aborted visited hnd dest dest
  exact ⟨st, d, e, hr hpt⟩

/-! ### Non-vacuity -/

/-- `softDoc` in brighter colours. -/
def softCanvasUp (id : Int) : Option (List (TPt × Tile)) :=
  if id = 0 then some [((0, 0), plainTile ⟨210, 100, 77, 128⟩)] else if id = 1 then some [((0, 0), plainTile ⟨10, 200, 130, 201⟩)]
  else if id = 2 then some [((0, 0), plainTile ⟨255, 250, 31, 99⟩)] else none

theorem softDoc_modes {Q : Mode → Prop} (h1 : Q (.sep .normal)) (h2 : Q (.sep .multiply)) : ModesIn Q softDoc := DocAll.of_list
    (Q := fun l _ => (l.folder = false → (∃ m, blendMode l.blendMode = some m ∧ Q m) ∨ l.blendMode = ascii "pass") ∧
      (l.folder = true → (∃ m, blendMode l.sdBlendMode = some m ∧ Q m) ∨ l.sdBlendMode = ascii "pass")) (by
  intro x hx
  simp only [docList, softDoc, List.map, List.nil_append] at hx
  fin_cases hx
  · exact ⟨fun _ => .inl ⟨_, by decide, h1⟩, fun h => by cases h⟩
  · exact ⟨fun _ => .inl ⟨_, by decide, h2⟩, fun h => by cases h⟩
  · exact ⟨fun _ => .inl ⟨_, by decide, h1⟩, fun h => by cases h⟩)

/-- They meet the hypotheses of `C128_brighter_layers_partial`. -/
example : depthAll softDoc ≤ 1 ∧ UniqueDoc softDoc ∧ KnownModes softDoc ∧ ModesIn (fun m => m.Growing ∧ m ≠ .sep .softLight) softDoc ∧ PixelsRel Px.Darker softCanvas softCanvasUp (0, 0) 5 := by
  refine ⟨by decide, softDoc_unique, softDoc_known, softDoc_modes ⟨⟨rfl, rfl⟩, by decide⟩ ⟨⟨rfl, rfl⟩, by decide⟩, fun id => ?_⟩
  unfold softCanvas softCanvasUp
  by_cases h0 : id = 0
  · simp only [if_pos h0]
    exact ⟨rfl, fun _ => ⟨by decide, by decide, by decide, rfl⟩⟩
  by_cases h1 : id = 1
  · simp only [if_neg h0, if_pos h1]
    exact ⟨rfl, fun _ => ⟨by decide, by decide, by decide, rfl⟩⟩
  by_cases h2 : id = 2
  · simp only [if_neg h0, if_neg h1, if_pos h2]
    exact ⟨rfl, fun _ => ⟨by decide, by decide, by decide, rfl⟩⟩
  · simp only [if_neg h0, if_neg h1, if_neg h2]
    trivial

/-- `softDoc` with red and blue exchanged. -/
def softCanvasSwap (id : Int) : Option (List (TPt × Tile)) :=
  if id = 0 then some [((0, 0), plainTile ⟨0, 100, 200, 128⟩)] else if id = 1 then some [((0, 0), plainTile ⟨130, 20, 10, 201⟩)]
  else if id = 2 then some [((0, 0), plainTile ⟨30, 250, 250, 99⟩)] else none

/-- They meet the hypotheses of `C129_channels_do_not_mix`, for red in the one and blue in the other. -/
example : depthAll softDoc ≤ 1 ∧ UniqueDoc softDoc ∧ KnownModes softDoc ∧ ModesIn Mode.Separable softDoc ∧ PixelsRel (fun p q => p.chan .red = q.chan .blue) softCanvas softCanvasSwap (0, 0) 5 := by
  refine ⟨by decide, softDoc_unique, softDoc_known, softDoc_modes trivial trivial, fun id => ?_⟩
  unfold softCanvas softCanvasSwap
  by_cases h0 : id = 0
  · simp only [if_pos h0]
    exact ⟨rfl, fun _ => rfl⟩
  by_cases h1 : id = 1
  · simp only [if_neg h0, if_pos h1]
    exact ⟨rfl, fun _ => rfl⟩
  by_cases h2 : id = 2
  · simp only [if_neg h0, if_neg h1, if_pos h2]
    exact ⟨rfl, fun _ => rfl⟩
  · simp only [if_neg h0, if_neg h1, if_neg h2]
    trivial

/-- Grey layers in the modes of `softDocRe`, among which are hue and difference. -/
def greyCanvas (id : Int) : Option (List (TPt × Tile)) :=
  if id = 0 then some [((0, 0), plainTile ⟨100, 100, 100, 128⟩)] else if id = 1 then some [((0, 0), plainTile ⟨20, 20, 20, 201⟩)]
  else if id = 2 then some [((0, 0), plainTile ⟨1, 2, 3, 0⟩)] else none

/-- They meet the hypotheses of `C130_grey_stays_grey`. -/
example : ∀ id t, (greyCanvas id).bind (·.lookup (0, 0)) = some t → (t 5).a ≠ 0 → (t 5).Grey := by
  intro id t e h
  unfold greyCanvas at e
  split at e
  · cases e
    exact ⟨rfl, rfl⟩
  split at e
  · cases e
    exact ⟨rfl, rfl⟩
  split at e
  · cases e
    exact absurd rfl h
  · cases e

/-- White in soft light over grey. -/
def glareDoc : List (LTree LayerRec) :=
  [.node { seqID := 0, blendMode := ascii "norm", opacity := 255, blendClippedElements := true } [],
    .node { seqID := 1, blendMode := ascii "sLit", opacity := 255, blendClippedElements := true } []]

def glareCanvas (v : UInt8) (id : Int) : Option (List (TPt × Tile)) :=
  if id = 0 then some [((0, 0), plainTile ⟨v, v, v, 255⟩)] else if id = 1 then some [((0, 0), plainTile ⟨255, 255, 255, 255⟩)] else none

/-- **C128, negated** In soft light, which grows by its formula, a brighter background can give a darker picture. -/
theorem C128_soft_light_is_off : ModesIn Mode.Growing glareDoc ∧ PixelsRel Px.Darker (glareCanvas 59) (glareCanvas 63) (0, 0) 5 ∧
    peekPx (render tileOps ⟨newTree (fun n => n) some 1 glareDoc, rootPtr, glareCanvas 59, fun _ => []⟩ 2 false false [(0, 0)] .empty blank) 5 = .ok ⟨113, 113, 113, 255⟩ ∧
    peekPx (render tileOps ⟨newTree (fun n => n) some 1 glareDoc, rootPtr, glareCanvas 63, fun _ => []⟩ 2 false false [(0, 0)] .empty blank) 5 = .ok ⟨111, 111, 111, 255⟩ := by
  refine ⟨DocAll.of_list
    (Q := fun l _ => (l.folder = false → (∃ m, blendMode l.blendMode = some m ∧ m.Growing) ∨ l.blendMode = ascii "pass") ∧
      (l.folder = true → (∃ m, blendMode l.sdBlendMode = some m ∧ m.Growing) ∨ l.sdBlendMode = ascii "pass")) ?_, fun id => ?_, by decide +kernel, by decide +kernel⟩
  · intro x hx
    simp only [docList, glareDoc, List.map, List.nil_append] at hx
    fin_cases hx
    · exact ⟨fun _ => .inl ⟨.sep .normal, by decide, rfl, rfl⟩, fun h => by cases h⟩
    · exact ⟨fun _ => .inl ⟨.sep .softLight, by decide, rfl, rfl⟩, fun h => by cases h⟩
  · unfold glareCanvas
    by_cases h0 : id = 0
    · simp only [if_pos h0]
      exact ⟨rfl, fun _ => ⟨by decide, by decide, by decide, rfl⟩⟩
    by_cases h1 : id = 1
    · simp only [if_neg h0, if_pos h1]
      exact ⟨rfl, fun _ => ⟨by decide, by decide, by decide, rfl⟩⟩
    · simp only [if_neg h0, if_neg h1]
      trivial

end Psd
