import Verif.Props.CoverageFiles
import Verif.Props.TileSize

/-!
# Theorem C132 for files whose layers cover other tiles
-/

namespace Psd
open Spec

theorem gap_supported {P M : Type} {o : PicOps P M} {R : P → P → Prop} {Op : Nat → Prop} {Mk : M → Prop} {Z : P → Prop} {Mz : Nat → M → Prop} {P1 P2 : Prop} : ∀ (t t' : Stk P M),
    StkGap o R Op Mk (fun m _ => blendMode m ≠ none) Z Mz P1 P2 t t' → t.supported (fun _ => True) (fun m => blendMode m ≠ none) := by
  intro t
  induction t with
  | nil => intros; trivial
  | layer a p m k c r ihk ihc ihr =>
    intro t' h
    cases t' with
    | nil => exact h.elim
    | layer a' p' m' k' c' r' =>
      obtain ⟨h1, -, -, h4, h5, h6, h7⟩ := h
      refine ⟨trivial, ?_, ihk _ h5, ihc _ h6, ihr _ h7⟩
      rcases h1.2.2 with h | h
      · exact .inl h
      · exact .inr ⟨h, by rw [(h4 h).2.2.1]; rfl⟩

theorem layer_known {l : Layer} (h : l.ModeKnown) : blendMode l.blendKey ≠ none ∨ l.blendKey = ascii "pass" := by
  unfold Layer.ModeKnown at h
  unfold Layer.blendKey
  split at h
  · rename_i hk
    rw [if_pos hk]
    exact h.imp known_key And.left
  · rename_i hk
    rw [if_neg hk]
    left
    split
    · decide
    · exact h.elim known_key fun h => absurd h ‹_›

theorem key_pass {l : Layer} (hb : l.blendKey = ascii "pass") (x y : Int) : l.colour x y = none := by
  unfold Layer.blendKey at hb
  unfold Layer.colour
  rw [if_neg]
  intro h0
  rw [if_neg (by rw [h0]; decide)] at hb
  split at hb
  · revert hb; decide
  · exact absurd hb ‹_›

/-- How opaque the picture of a file is at a pixel where there are hard edges only: as it would be if every layer had a mask there, and all but the pass-through folders a picture. -/
theorem filled_alpha {d : Doc} {layers : List Layer} (hf : d.RgbFile layers)
    (hpass : (∀ l ∈ layers, l.blendKey ≠ ascii "pass") ∨ ∀ l ∈ layers, l.clipping = 0)
    {ts : Nat} {visited : List TPt} {picture : TPt → Tile} (h : FirstPicture d layers ts visited picture) {x y : Int} (hx : 0 ≤ x) (hy : 0 ≤ y) (hpt : tilePt ts x y ∈ visited)
    (hard : ∀ l ∈ layers, (l.opacity = 0 ∨ l.opacity = 255) ∧ l.HardAt x y ∧ (l.veil x y = 0 ∨ l.veil x y = 255)) :
    ∃ (doc : List (LTree LayerRec)) (dec : List UInt8 → Option (List UInt8)) (pic : Int → Option Px) (mask : Int → Option UInt8) (stack : Stk Px UInt8) (r : Bool × Px),
      buildTree LayerRec.sdType (rgbLayers layers) = .ok doc ∧
      (∀ (k : Nat) l, layers[k]? = some l → (pic k = if l.blendKey = ascii "pass" then none else some ((l.colour x y).getD ⟨0, 0, 0, 0⟩)) ∧ mask k = some (l.veil x y)) ∧
      IsStack dec pic mask doc stack ∧ paint pxOps stack false id ⟨0, 0, 0, 0⟩ = .ok r ∧ (picture (tilePt ts x y) (tileIx ts x y)).a = r.2.a := by
  obtain ⟨doc, dec, pic, mask, stack, r, e1, e2, e3, e4, e5⟩ := first_pixel hf h hx hy hpt
  let full : Int → Option Px := fun k => match layers[k.toNat]? with
    | some l => if l.blendKey = ascii "pass" then none else some ((l.colour x y).getD ⟨0, 0, 0, 0⟩)
    | none => none
  have hfull : ∀ (k : Nat) l, layers[k]? = some l → full k = if l.blendKey = ascii "pass" then none else some ((l.colour x y).getD ⟨0, 0, 0, 0⟩) := by
    intro k l g
    show (match layers[(k : Int).toNat]? with
      | some l => if l.blendKey = ascii "pass" then none else some ((l.colour x y).getD ⟨0, 0, 0, 0⟩)
      | none => none) = _
    rw [Int.toNat_natCast, g]
  let veil : Int → Option UInt8 := fun k => (layers[k.toNat]?).map fun l => l.veil x y
  have hveil : ∀ (k : Nat) l, layers[k]? = some l → veil k = some (l.veil x y) := by
    intro k l g
    show (layers[(k : Int).toNat]?).map (fun l => l.veil x y) = _
    rw [Int.toNat_natCast, g]
    rfl
  obtain ⟨stack', e3'⟩ := stack_exists (dec := dec) (pic := full) (mask := veil) _ doc (Nat.le_refl _)
  have hd := docRel_of_layers (Q := fun r r' => ∃ (k : Nat) (l : Layer), layers[k]? = some l ∧ r = layerFull 3 8 k l ∧ r' = layerFull 3 8 k l) rfl
    (fun k l l' g g' => by
      obtain rfl : l = l' := by
        rw [g] at g'
        exact Option.some.inj g'
      exact ⟨⟨k, l, g, rfl, rfl⟩, rfl⟩) e1 e1
  have c0 : pxOps.copy ⟨0, 0, 0, 0⟩ = ⟨0, 0, 0, 0⟩ := gap_copy_zero rfl
  have gap : ∀ Md : List UInt8 → List UInt8 → Prop, (∀ l ∈ layers, Md l.blendKey l.blendKey ∨ l.blendKey = ascii "pass") →
      StkGap pxOps (fun p q => p = q ∧ p.Crisp) (fun k => k = 0 ∨ k = 255) (fun m => m = 0 ∨ m = 255) Md (· = ⟨0, 0, 0, 0⟩) (fun _ m => m = 0) True True stack' stack := by
    intro Md hMd
    refine stack_gap (Q := fun r r' => ∃ (k : Nat) (l : Layer), layers[k]? = some l ∧ r = layerFull 3 8 k l ∧ r' = layerFull 3 8 k l) (dec := dec) (dec' := dec) (pic := full) (pic' := pic) (mask := veil) (mask' := mask)
      (by rintro _ _ ⟨k, l, g, rfl, rfl⟩; rfl) (by rintro _ _ ⟨k, l, g, rfl, rfl⟩; rfl) ?_ ?_ ?_ ?_ ?_ stack' stack doc doc e3' e3 hd
    · rintro _ _ ⟨k, l, g, rfl, rfl⟩
      refine ⟨⟨rfl, Iff.rfl⟩, (?_ : l.opacity.toNat = 0 ∨ l.opacity.toNat = 255), ?_⟩
      · rcases (hard l (List.mem_of_getElem? g)).1 with h | h <;> rw [h] <;> decide
      rw [layer_key]
      exact hMd l (List.mem_of_getElem? g)
    · rintro _ _ ⟨k, l, g, rfl, rfl⟩
      have g1 := (e2 k l g).1
      show GapRel _ _ _ (full k) (pic k)
      rw [hfull k l g]
      split
      · rename_i hb
        cases hp : pic k with
        | none => trivial
        | some p =>
          rw [hp] at g1
          obtain ⟨⟨x1, y1, -, h2⟩, -⟩ := g1
          exact absurd (key_pass hb x1 y1) h2
      · cases hp : pic k with
        | none =>
          rw [hp] at g1
          show pxOps.copy _ = ⟨0, 0, 0, 0⟩
          rw [g1 x y ⟨rfl, rfl⟩, Option.getD_none, c0]
        | some p =>
          rw [hp] at g1
          show pxOps.copy _ = pxOps.copy _ ∧ (pxOps.copy _).Crisp
          rw [g1.2]
          refine ⟨rfl, ?_⟩
          have : ((l.colour x y).getD ⟨0, 0, 0, 0⟩).Crisp := by
            cases hc : l.colour x y with
            | none => exact .inr rfl
            | some q => exact .inl ((hard l (List.mem_of_getElem? g)).2.1 q hc)
          rw [this.copy]
          exact this
    · rintro _ _ ⟨k, l, g, rfl, rfl⟩ hme
      have white := (hard l (List.mem_of_getElem? g)).2.2
      have g1 := (e2 k l g).2
      show GapRel _ _ _ (veil k) (mask k) ∧ (∀ v, veil k = some v → _) ∧ ∀ v, mask k = some v → _
      rw [hveil k l g]
      cases hp : mask k with
      | none =>
        rw [hp] at g1
        exact ⟨g1 x y ⟨rfl, rfl⟩, fun v hv => Option.some.inj hv ▸ white, fun v hv => nomatch hv⟩
      | some v =>
        rw [hp] at g1
        refine ⟨g1.2.symm, fun v hv => Option.some.inj hv ▸ white, fun v hv => ?_⟩
        rw [← Option.some.inj hv, g1.2]
        exact white
    · rintro _ _ ⟨k, l, g, rfl, rfl⟩ hb
      rw [layer_key] at hb
      rcases hpass with hpass | hpass
      · exact absurd hb (hpass l (List.mem_of_getElem? g))
      · refine ⟨trivial, fun _ => trivial, ?_, ?_⟩
        · show full k = none
          rw [hfull k l g]
          exact if_pos hb
        · show pic k = none
          have g1 := (e2 k l g).1
          cases hp : pic k with
          | none => rfl
          | some p =>
            rw [hp] at g1
            obtain ⟨⟨x1, y1, -, h2⟩, -⟩ := g1
            exact absurd (key_pass hb x1 y1) h2
    · rcases hpass with hpass | hpass
      · right
        rintro _ _ ⟨k, l, g, rfl, rfl⟩ hb
        rw [layer_key] at hb
        exact hpass l (List.mem_of_getElem? g) hb
      · left
        rintro _ _ ⟨k, l, g, rfl, rfl⟩
        show decide (l.clipping ≠ 0) = false
        rw [hpass l (List.mem_of_getElem? g)]
        rfl
  obtain ⟨r', e4'⟩ := paint_ok px_draws stack' (gap_supported _ _ (gap _ fun l hl => layer_known (hf.modes l hl))) false id ⟨0, 0, 0, 0⟩ (fun _ h => h)
  have k := paint_gap crisp_gap stack' stack (gap Eq fun _ _ => .inl rfl) false id (fun _ h => h) ⟨0, 0, 0, 0⟩ ⟨0, 0, 0, 0⟩ crisp_gap.blank r' r e4' e4
  refine ⟨doc, dec, full, veil, stack', r', e1, fun k l g => ⟨hfull k l g, hveil k l g⟩, e3', e4', ?_⟩
  rw [e5, k.1]
  unfold tileShown
  obtain ⟨rd, rp⟩ := r
  cases rd with
  | true => exact (px_copy_alpha _).trans (px_copy_alpha _)
  | false =>
    have := paint_idle _ _ _ _ _ e4
    subst this
    exact congrArg Px.a (px_clear _)

/-- **C132** (for files, in part) Layers that cover more make a picture that covers more, also if they reach tiles that they did not reach. Take two well-formed 8-bit RGB files with the same layers, all of full opacity or none,
with other pictures in whatever known blend modes, except that the same folders are pass-through. There are no pass-through folders, or no clipping layers. At a pixel where
every layer is fully opaque or fully transparent and every mask black or white, if each layer that is opaque there in the one file is so in the other, then if a first picture of the one is opaque there, so is every first
picture of the other, whatever the tile sizes.

Missing: translucent layers (`C132_more_opaque_is_less`), and pass-through folders together with clipping layers, for which `C132_covering_more_in_files_partial` asks for the same layers in the tile. -/
theorem C132_covering_more_anywhere_partial {d d' : Doc} {layers layers' : List Layer} (hf : d.RgbFile layers) (hf' : d'.RgbFile layers') (hlen : layers.length = layers'.length)
    (hl : ∀ (k : Nat) l l', layers[k]? = some l → layers'[k]? = some l' → l.Repainted l' ∧ (l.blendKey = ascii "pass" ↔ l'.blendKey = ascii "pass") ∧ (l.opacity = 0 ∨ l.opacity = 255))
    (hpass : (∀ l ∈ layers, l.blendKey ≠ ascii "pass") ∨ ∀ l ∈ layers, l.clipping = 0)
    {ts ts' : Nat} {visited visited' : List TPt} {picture picture' : TPt → Tile} (h : FirstPicture d layers ts visited picture) (h' : FirstPicture d' layers' ts' visited' picture')
    {x y : Int} (hx : 0 ≤ x) (hy : 0 ≤ y) (hpt : tilePt ts x y ∈ visited) (hpt' : tilePt ts' x y ∈ visited')
    (hp : ∀ (k : Nat) l l', layers[k]? = some l → layers'[k]? = some l' → l.HardAt x y ∧ l'.HardAt x y ∧ (l.colour x y ≠ none → l'.colour x y ≠ none))
    (hm : ∀ l ∈ layers, l.veil x y = 0 ∨ l.veil x y = 255) :
    ((picture (tilePt ts x y) (tileIx ts x y)).a = 0 ∨ (picture (tilePt ts x y) (tileIx ts x y)).a = 255) ∧
      ((picture' (tilePt ts' x y) (tileIx ts' x y)).a = 0 ∨ (picture' (tilePt ts' x y) (tileIx ts' x y)).a = 255) ∧
      ((picture (tilePt ts x y) (tileIx ts x y)).a = 255 → (picture' (tilePt ts' x y) (tileIx ts' x y)).a = 255) := by
  have ho := RelOps.pixel (R := fun p q => (p.a = 0 ∨ p.a = 255) ∧ (q.a = 0 ∨ q.a = 255) ∧ p.a ≤ q.a) 0 (Mk := fun m => m = 0 ∨ m = 255) (cover_ops 0)
  have two : ∀ {a b : UInt8}, (a = 0 ∨ a = 255) → (b = 0 ∨ b = 255) → (a ≤ b ↔ (a = 255 → b = 255)) := by
    rintro a b (rfl | rfl) (rfl | rfl) <;> decide
  have old : ∀ l' ∈ layers', ∃ (k : Nat) (l : Layer), layers[k]? = some l ∧ layers'[k]? = some l' ∧ l.Repainted l' ∧ (l.blendKey = ascii "pass" ↔ l'.blendKey = ascii "pass") ∧ (l.opacity = 0 ∨ l.opacity = 255) := by
    intro l' hl'
    obtain ⟨k, hk, rfl⟩ := List.mem_iff_getElem.1 hl'
    have g1 := List.getElem?_eq_getElem (hlen ▸ hk : k < layers.length)
    have g2 := List.getElem?_eq_getElem hk
    exact ⟨k, _, g1, g2, hl k _ _ g1 g2⟩
  have hpass' : (∀ l ∈ layers', l.blendKey ≠ ascii "pass") ∨ ∀ l ∈ layers', l.clipping = 0 := by
    rcases hpass with hpass | hpass
    · left
      intro l' hl' hb
      obtain ⟨k, l, g, g', g1, g2, -⟩ := old l' hl'
      exact hpass l (List.mem_of_getElem? g) (g2.2 hb)
    · right
      intro l' hl'
      obtain ⟨k, l, g, g', g1, -⟩ := old l' hl'
      exact g1.clipping.2 (hpass l (List.mem_of_getElem? g))
  have hard : ∀ l ∈ layers, (l.opacity = 0 ∨ l.opacity = 255) ∧ l.HardAt x y ∧ (l.veil x y = 0 ∨ l.veil x y = 255) := by
    intro l g
    obtain ⟨k, hk, rfl⟩ := List.mem_iff_getElem.1 g
    have g1 := List.getElem?_eq_getElem hk
    have g2 := List.getElem?_eq_getElem (hlen ▸ hk : k < layers'.length)
    exact ⟨(hl k _ _ g1 g2).2.2, (hp k _ _ g1 g2).1, hm _ g⟩
  have hard' : ∀ l ∈ layers', (l.opacity = 0 ∨ l.opacity = 255) ∧ l.HardAt x y ∧ (l.veil x y = 0 ∨ l.veil x y = 255) := by
    intro l' hl'
    obtain ⟨k, l, g, g', g1, -, g3⟩ := old l' hl'
    rw [g1.opacity, g1.veil]
    exact ⟨g3, (hp k l l' g g').2.1, hm l (List.mem_of_getElem? g)⟩
  obtain ⟨doc, dec, pic, mask, stack, r, e1, e2, e3, e4, e5⟩ := filled_alpha hf hpass h hx hy hpt hard
  obtain ⟨doc', dec', pic', mask', stack', r', e1', e2', e3', e4', e5'⟩ := filled_alpha hf' hpass' h' hx hy hpt' hard'
  have hd := docRel_of_layers (Q := fun r r' => ∃ (k : Nat) (l l' : Layer), layers[k]? = some l ∧ layers'[k]? = some l' ∧ r = layerFull 3 8 k l ∧ r' = layerFull 3 8 k l') hlen
    (fun k l l' g g' => ⟨⟨k, l, l', g, g', rfl, rfl⟩, (hl k l l' g g').1.kind.symm⟩) e1 e1'
  have hs := stack_rel (o := pxOps) (R := fun p q => (p.a = 0 ∨ p.a = 255) ∧ (q.a = 0 ∨ q.a = 255) ∧ p.a ≤ q.a) (Op := fun k => k = 0 ∨ k = 255) (Mk := fun m => m = 0 ∨ m = 255) (Md := fun _ _ => True)
    (dec := dec) (dec' := dec') (pic := pic) (pic' := pic') (mask := mask) (mask' := mask')
    (by
      rintro _ _ ⟨k, l, l', g, g', rfl, rfl⟩
      have := repainted_attr (hl k l l' g g').1 (hl k l l' g g').2.1 k dec dec
      exact congrArg CAttr.clipping this.1)
    (by
      rintro _ _ ⟨k, l, l', g, g', rfl, rfl⟩
      obtain ⟨g1, g2, g3⟩ := hl k l l' g g'
      refine ⟨repainted_attr g1 g2 k dec dec', ?_, .inl trivial⟩
      show l.opacity.toNat = 0 ∨ l.opacity.toNat = 255
      rcases g3 with g3 | g3 <;> rw [g3]
      · exact .inl rfl
      · exact .inr rfl)
    (by
      rintro _ _ ⟨k, l, l', g, g', rfl, rfl⟩
      show BothRel _ (pic k) (pic' k)
      rw [(e2 k l g).1, (e2' k l' g').1]
      by_cases hb : l.blendKey = ascii "pass"
      · rw [if_pos hb, if_pos ((hl k l l' g g').2.1.1 hb)]
        trivial
      rw [if_neg hb, if_neg fun h => hb ((hl k l l' g g').2.1.2 h)]
      obtain ⟨q2, q3, q4⟩ := hp k l l' g g'
      refine ho.copy ?_
      have hard : ∀ l : Layer, l.HardAt x y → ((l.colour x y).getD ⟨0, 0, 0, 0⟩).a = if l.colour x y = none then 0 else 255 := by
        intro l hl
        cases h : l.colour x y with
        | none => rfl
        | some q => exact hl q h
      rw [hard l q2, hard l' q3]
      by_cases h1 : l.colour x y = none
      · rw [if_pos h1]
        refine ⟨.inl rfl, ?_, UInt8.zero_le⟩
        split
        · exact .inl rfl
        · exact .inr rfl
      · rw [if_neg h1, if_neg (q4 h1)]
        exact ⟨.inr rfl, .inr rfl, UInt8.le_refl _⟩)
    (by
      rintro _ _ ⟨k, l, l', g, g', rfl, rfl⟩ v hv
      have := (e2 k l g).2
      rw [show mask k = some v from hv] at this
      rw [Option.some.inj this]
      exact hm l (List.mem_of_getElem? g))
    (by
      rintro _ _ ⟨k, l, l', g, g', rfl, rfl⟩
      show mask' k = mask k
      rw [(e2 k l g).2, (e2' k l' g').2, (hl k l l' g g').1.veil])
    stack stack' doc doc' e3 e3' hd
  obtain ⟨-, k1, k2, k3⟩ := paint_rel ho stack stack' hs false id (fun _ hx => hx) _ _ ho.blank r r' e4 e4'
  rw [e5, e5']
  exact ⟨k1, k2, (two k1 k2).1 k3⟩

/-! ### Non-vacuity -/

/-- The layers of `exTintC`, with nothing in the upper one. -/
def exTintD : List Layer := [exTintUnder (ascii "mul ") [5, 120] [9, 200] [1, 100], { exOver (.raw [0, 0, 0] []) (.raw [10, 90, 40] []) (.raw [50, 51, 52] []) (.raw [10, 20, 30] []) with opacity := 255 }]

theorem exTintD_file : (exTintDoc exTintD).RgbFile exTintD ∧ exZipEnv.Reads (exTintDoc exTintD) ∧ PresentsFront (exTintDoc exTintD) { data := (exTintDoc exTintD).bytes } := by
  have front : ∀ d : Doc, d.bytes.length < 2000 → PresentsFront d { data := d.bytes } := fun d h => Presents.front ⟨⟨[], by simp⟩, rfl, (by decide : ReadsAtLeast 3 []), by simp only; omega⟩
  refine ⟨⟨by decide +kernel, rfl, rfl, ⟨_, rfl, rfl⟩, ?_, ?_, ?_⟩, by decide +kernel, front _ (by decide +kernel)⟩
  · intro l hl
    simp only [exTintD, List.mem_cons, List.not_mem_nil, or_false] at hl
    rcases hl with rfl | rfl <;> exact fun _ _ _ => by decide
  · intro l hl
    simp only [exTintD, List.mem_cons, List.not_mem_nil, or_false] at hl
    rcases hl with rfl | rfl
    · unfold Layer.ModeKnown
      rw [if_neg (by decide)]
      exact .inl ⟨.sep .multiply, by decide⟩
    · unfold Layer.ModeKnown
      rw [if_neg (by decide)]
      exact .inl ⟨.sep .normal, by decide⟩
  · intro l hl
    simp only [exTintD, List.mem_cons, List.not_mem_nil, or_false] at hl
    rcases hl with rfl | rfl
    · exact fun _ _ => ⟨1, 0, 255, by decide, by decide, by decide, by decide⟩
    · exact fun h => absurd h (by decide)

/-- D and C have first pictures, with tiles of 64 and of 16 pixels, and meet the hypotheses at the first pixel, where the upper layer of D shows nothing, there or elsewhere nearby, and that of C is opaque. -/
example : (∃ p, FirstPicture (exTintDoc exTintD) exTintD 64 [(0, 0)] p) ∧ (∃ p, FirstPicture (exTintDoc exTintC) exTintC 16 [(0, 0)] p) ∧ tilePt 64 0 0 ∈ [((0 : Int), (0 : Int))] ∧ tilePt 16 0 0 ∈ [((0 : Int), (0 : Int))] ∧
    exTintD.length = exTintC.length ∧ (∀ l ∈ exTintD, l.veil 0 0 = 0 ∨ l.veil 0 0 = 255) ∧ (∀ l ∈ exTintD, l.blendKey ≠ ascii "pass") ∧
    (∃ l l', exTintD[1]? = some l ∧ exTintC[1]? = some l' ∧ (∀ x ∈ [0, 1, 2, 3], l.colour x 0 = none) ∧ l'.InTile 16 0 0) ∧
    ∀ (k : Nat) l l', exTintD[k]? = some l → exTintC[k]? = some l' → l.Repainted l' ∧ (l.blendKey = ascii "pass" ↔ l'.blendKey = ascii "pass") ∧ (l.opacity = 0 ∨ l.opacity = 255) ∧
      l.HardAt 0 0 ∧ l'.HardAt 0 0 ∧ (l.colour 0 0 ≠ none → l'.colour 0 0 ≠ none) := by
  obtain ⟨h1, h2, h3⟩ := exTintD_file
  obtain ⟨g1, g2, g3⟩ := exTintC_file
  refine ⟨first_picture h2 h1 h3 (by omega) _ (by decide), first_picture g2 g1 g3 (by omega) _ (by decide), by decide, by decide, rfl, by decide, by decide,
    ⟨_, _, rfl, rfl, by decide, 1, 0, ⟨by decide, by decide⟩, by decide⟩, fun k l l' e e' => ?_⟩
  rcases k with _ | _ | k
  · injection e with e
    injection e' with e'
    subst e e'
    refine ⟨⟨rfl, rfl, rfl, Iff.rfl, rfl, rfl, fun x y => rfl⟩, Iff.rfl, .inr rfl, fun q e => ?_, fun q e => ?_, fun _ => by decide⟩
    · rw [show Layer.colour _ 0 0 = some ⟨5, 9, 1, 255⟩ by decide] at e
      cases e
      rfl
    · rw [show Layer.colour _ 0 0 = some ⟨5, 9, 1, 255⟩ by decide] at e
      cases e
      rfl
  · injection e with e
    injection e' with e'
    subst e e'
    refine ⟨⟨rfl, rfl, rfl, Iff.rfl, rfl, rfl, fun x y => rfl⟩, Iff.rfl, .inr rfl, fun q e => ?_, fun q e => ?_, fun h => absurd (by decide) h⟩
    · rw [show Layer.colour _ 0 0 = none by decide] at e
      cases e
    · rw [show Layer.colour _ 0 0 = some ⟨90, 51, 20, 255⟩ by decide] at e
      cases e
      rfl
  · simp [exTintD] at e

end Psd
