import Verif.Props.Coverage
import Verif.Props.FilePair

/-!
# Theorem C132 for files
-/

namespace Psd
open Spec

/-- **C132** (for files, in part) Layers that cover more make a picture that covers more. Take two well-formed 8-bit RGB files with the same layers, all of full opacity or none, with other pictures in whatever known
blend modes, except that the same folders are pass-through and the same layers have something in the tile. At a pixel where every layer is fully opaque or fully transparent and
every mask black or white, if each layer that is opaque there in the one file is so in the other, then if a first picture of the one is opaque there, so is every first picture of the other with the same tile size.

Missing: translucent layers (`C132_more_opaque_is_less`), and layers with something in the tile in only one of the files. -/
theorem C132_covering_more_in_files_partial {d d' : Doc} {layers layers' : List Layer} (hf : d.RgbFile layers) (hf' : d'.RgbFile layers') (hlen : layers.length = layers'.length)
    (hl : ∀ (k : Nat) l l', layers[k]? = some l → layers'[k]? = some l' → l.Repainted l' ∧ (l.blendKey = ascii "pass" ↔ l'.blendKey = ascii "pass") ∧ (l.opacity = 0 ∨ l.opacity = 255))
    {ts : Nat} {visited visited' : List TPt} {picture picture' : TPt → Tile} (h : FirstPicture d layers ts visited picture) (h' : FirstPicture d' layers' ts visited' picture')
    {x y : Int} (hx : 0 ≤ x) (hy : 0 ≤ y) (hpt : tilePt ts x y ∈ visited) (hpt' : tilePt ts x y ∈ visited')
    (hp : ∀ (k : Nat) l l', layers[k]? = some l → layers'[k]? = some l' → (l'.InTile ts x y ↔ l.InTile ts x y) ∧ l.HardAt x y ∧ l'.HardAt x y ∧ (l.colour x y ≠ none → l'.colour x y ≠ none))
    (hm : ∀ l ∈ layers, l.veil x y = 0 ∨ l.veil x y = 255) :
    ((picture (tilePt ts x y) (tileIx ts x y)).a = 0 ∨ (picture (tilePt ts x y) (tileIx ts x y)).a = 255) ∧
      ((picture' (tilePt ts x y) (tileIx ts x y)).a = 0 ∨ (picture' (tilePt ts x y) (tileIx ts x y)).a = 255) ∧
      ((picture (tilePt ts x y) (tileIx ts x y)).a = 255 → (picture' (tilePt ts x y) (tileIx ts x y)).a = 255) := by
  have ho := RelOps.pixel (R := fun p q => (p.a = 0 ∨ p.a = 255) ∧ (q.a = 0 ∨ q.a = 255) ∧ p.a ≤ q.a) 0 (Mk := fun m => m = 0 ∨ m = 255) (cover_ops 0)
  have two : ∀ {a b : UInt8}, (a = 0 ∨ a = 255) → (b = 0 ∨ b = 255) → (a ≤ b ↔ (a = 255 → b = 255)) := by
    rintro a b (rfl | rfl) (rfl | rfl) <;> decide
  obtain ⟨k1, k2, k3⟩ := file_pair_area (R := fun p q => (p.a = 0 ∨ p.a = 255) ∧ (q.a = 0 ∨ q.a = 255) ∧ p.a ≤ q.a) ho hf hf' hlen
    (fun k l l' g g' => by
      obtain ⟨g1, g2, g3⟩ := hl k l l' g g'
      refine ⟨g1, g2, ?_, .inl trivial⟩
      rcases g3 with g3 | g3 <;> rw [g3]
      · exact .inl rfl
      · exact .inr rfl)
    h h' hx hy hpt hpt'
    (fun k l l' g g' => by
      obtain ⟨q1, q2, q3, q4⟩ := hp k l l' g g'
      refine ⟨q1, ho.copy ?_⟩
      have hard : ∀ l : Layer, l.HardAt x y → ((l.colour x y).getD ⟨0, 0, 0, 0⟩).a = if l.colour x y = none then 0 else 255 := by
        intro l hl
        cases h : l.colour x y with
        | none => rfl
        | some q => exact hl q h
      rw [hard l q2, hard l' q3]
      by_cases h1 : l.colour x y = none
      · rw [if_pos h1]
        refine ⟨.inl rfl, ?_, UInt8.zero_le⟩
        split
        · exact .inl rfl
        · exact .inr rfl
      · rw [if_neg h1, if_neg (q4 h1)]
        exact ⟨.inr rfl, .inr rfl, UInt8.le_refl _⟩) hm
  exact ⟨k1, k2, (two k1 k2).1 k3⟩

/-! ### Non-vacuity -/

/-- The layers of `exTintA` in other colours, with the hole in the upper one filled. -/
def exTintC : List Layer := [exTintUnder (ascii "mul ") [5, 120] [9, 200] [1, 100], { exOver (.raw [255, 255, 255] []) (.raw [10, 90, 40] []) (.raw [50, 51, 52] []) (.raw [10, 20, 30] []) with opacity := 255 }]

theorem exTintC_file : (exTintDoc exTintC).RgbFile exTintC ∧ exZipEnv.Reads (exTintDoc exTintC) ∧ PresentsFront (exTintDoc exTintC) { data := (exTintDoc exTintC).bytes } := by
  have front : ∀ d : Doc, d.bytes.length < 2000 → PresentsFront d { data := d.bytes } := fun d h => Presents.front ⟨⟨[], by simp⟩, rfl, (by decide : ReadsAtLeast 3 []), by simp only; omega⟩
  refine ⟨⟨by decide +kernel, rfl, rfl, ⟨_, rfl, rfl⟩, ?_, ?_, ?_⟩, by decide +kernel, front _ (by decide +kernel)⟩
  · intro l hl
    simp only [exTintC, List.mem_cons, List.not_mem_nil, or_false] at hl
    rcases hl with rfl | rfl <;> exact fun _ _ _ => by decide
  · intro l hl
    simp only [exTintC, List.mem_cons, List.not_mem_nil, or_false] at hl
    rcases hl with rfl | rfl
    · unfold Layer.ModeKnown
      rw [if_neg (by decide)]
      exact .inl ⟨.sep .multiply, by decide⟩
    · unfold Layer.ModeKnown
      rw [if_neg (by decide)]
      exact .inl ⟨.sep .normal, by decide⟩
  · intro l hl
    simp only [exTintC, List.mem_cons, List.not_mem_nil, or_false] at hl
    rcases hl with rfl | rfl
    · exact fun _ _ => ⟨1, 0, 255, by decide, by decide, by decide, by decide⟩
    · exact fun h => absurd h (by decide)

/-- A and C have first pictures and meet the hypotheses at the first pixel, where the upper layer of A has a hole and the lower one a mask. -/
example : (∃ p, FirstPicture (exTintDoc exTintA) exTintA 64 [(0, 0)] p) ∧ (∃ p, FirstPicture (exTintDoc exTintC) exTintC 64 [(0, 0)] p) ∧ tilePt 64 0 0 ∈ [((0 : Int), (0 : Int))] ∧
    exTintA.length = exTintC.length ∧ (∀ l ∈ exTintA, l.veil 0 0 = 0 ∨ l.veil 0 0 = 255) ∧
    ∀ (k : Nat) l l', exTintA[k]? = some l → exTintC[k]? = some l' → l.Repainted l' ∧ (l.blendKey = ascii "pass" ↔ l'.blendKey = ascii "pass") ∧ (l.opacity = 0 ∨ l.opacity = 255) ∧
      (l'.InTile 64 0 0 ↔ l.InTile 64 0 0) ∧ l.HardAt 0 0 ∧ l'.HardAt 0 0 ∧ (l.colour 0 0 ≠ none → l'.colour 0 0 ≠ none) := by
  obtain ⟨h1, h2, h3⟩ := exTint_file (ls := exTintA) (.inl rfl)
  obtain ⟨g1, g2, g3⟩ := exTintC_file
  refine ⟨first_picture h2 h1 h3 (by omega) _ (by decide), first_picture g2 g1 g3 (by omega) _ (by decide), by decide, rfl, by decide, fun k l l' e e' => ?_⟩
  rcases k with _ | _ | k
  · injection e with e
    injection e' with e'
    subst e e'
    refine ⟨⟨rfl, rfl, rfl, Iff.rfl, rfl, rfl, fun x y => rfl⟩, Iff.rfl, .inr rfl, ⟨fun _ => ⟨1, 0, ⟨by decide, by decide⟩, by decide⟩, fun _ => ⟨1, 0, ⟨by decide, by decide⟩, by decide⟩⟩, fun q e => ?_, fun q e => ?_, fun _ => by decide⟩
    · rw [show Layer.colour _ 0 0 = some ⟨1, 2, 0, 255⟩ by decide] at e
      cases e
      rfl
    · rw [show Layer.colour _ 0 0 = some ⟨5, 9, 1, 255⟩ by decide] at e
      cases e
      rfl
  · injection e with e
    injection e' with e'
    subst e e'
    refine ⟨⟨rfl, rfl, rfl, Iff.rfl, rfl, rfl, fun x y => rfl⟩, Iff.rfl, .inr rfl, ⟨fun _ => ⟨1, 0, ⟨by decide, by decide⟩, by decide⟩, fun _ => ⟨1, 0, ⟨by decide, by decide⟩, by decide⟩⟩, fun q e => ?_, fun q e => ?_, fun h => absurd (by decide) h⟩
    · rw [show Layer.colour _ 0 0 = none by decide] at e
      cases e
    · rw [show Layer.colour _ 0 0 = some ⟨90, 51, 20, 255⟩ by decide] at e
      cases e
      rfl
  · simp [exTintA] at e

end Psd
