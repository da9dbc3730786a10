import Verif.Lemmas.LoadTiles
import Verif.Lemmas.Groups
import Verif.Props.Transform
import Verif.Props.Document

/-!
# Loading a document into a tree: C75 to C80
-/

namespace Psd
open Spec (Doc Layer)

variable {procs ts : Nat} {flat : List LayerRec}

theorem numbered_of_range (h : flat.map LayerRec.seqID = List.range flat.length) : Numbered flat := by
  have key : ∀ (i : Nat) l, flat[i]? = some l → l.seqID = i := by
    intro i l hl
    have h1 : (flat.map LayerRec.seqID)[i]? = some l.seqID := by rw [List.getElem?_map, hl]; rfl
    rw [h, List.getElem?_range (List.getElem?_eq_some_iff.1 hl).1] at h1
    exact (Option.some.inj h1).symm
  intro i j l l' hl hl' e
  rw [← key i l hl, ← key j l' hl', e]

theorem seqID_of_range (h : flat.map LayerRec.seqID = List.range flat.length) {i : Nat} {l : LayerRec} (hl : flat[i]? = some l) : l.seqID = i := by
  have h1 : (flat.map LayerRec.seqID)[i]? = some l.seqID := by rw [List.getElem?_map, hl]; rfl
  rw [h, List.getElem?_range (List.getElem?_eq_some_iff.1 hl).1] at h1
  exact (Option.some.inj h1).symm

theorem reach_inv (hn : flat.map LayerRec.seqID = List.range flat.length) {n : Nat} {s : Import}
    (r : ImportRun procs ts (Import.start n flat) s) : ImportInv procs ts flat s :=
  (importInv_start procs ts n flat).run (numbered_of_range hn) r

/-! ## C75 -/

/-- **C75** Whatever the number of goroutines and their schedule: when all layers are loaded, the picture and the mask stored under the number
of a layer are those that loading this layer alone gives, and nothing else is stored. -/
theorem C75_pictures_stored (hn : flat.map LayerRec.seqID = List.range flat.length) {n : Nat} {s : Import}
    (r : ImportRun procs ts (Import.start n flat) s) (hd : s.Done) :
    (∀ (k : Nat) l, flat[k]? = some l → ∃ img, LoadsTo procs ts l img ∧ s.images k = some img) ∧
    ∀ k, flat.length ≤ k → s.images k = none := by
  obtain ⟨h1, h2, -⟩ := (reach_inv hn r).done hd
  refine ⟨fun k l hl => ?_, fun k hk => h2 k ?_⟩
  · obtain ⟨img, a, b⟩ := h1 k l hl
    rw [seqID_of_range hn hl] at b
    exact ⟨img, a, b⟩
  · intro i l hl e
    have := (List.getElem?_eq_some_iff.1 hl).1
    rw [seqID_of_range hn hl] at e
    omega

/-- **C75** Two executions end with the same pictures. -/
theorem C75_same_pictures (hn : flat.map LayerRec.seqID = List.range flat.length) {n n' : Nat} {s s' : Import}
    (r : ImportRun procs ts (Import.start n flat) s) (r' : ImportRun procs ts (Import.start n' flat) s') (hd : s.Done) (hd' : s'.Done) :
    s.images = s'.images := by
  obtain ⟨h1, h2⟩ := C75_pictures_stored hn r hd
  obtain ⟨h1', h2'⟩ := C75_pictures_stored hn r' hd'
  funext k
  rcases Nat.lt_or_ge k flat.length with hk | hk
  · obtain ⟨img, a, b⟩ := h1 k _ (List.getElem?_eq_getElem hk)
    obtain ⟨img', a', b'⟩ := h1' k _ (List.getElem?_eq_getElem hk)
    rw [b, b']
    have e1 : img.canvas = img'.canvas := Res.ok.inj (a.1.symm.trans a'.1)
    have e2 : img.mask = img'.mask := Res.ok.inj (a.2.symm.trans a'.2)
    cases img; cases img'
    simp only at e1 e2
    rw [e1, e2]
  · rw [h2 k hk, h2' k hk]

/-- **C75** Loading comes to an end: with at least one goroutine, an execution that cannot go on is done or a goroutine has panicked, and no execution goes on
for ever. -/
theorem C75_ends (hn : flat.map LayerRec.seqID = List.range flat.length) {n : Nat} (hw : 1 ≤ n) :
    (∀ s, ImportRun procs ts (Import.start n flat) s → (¬∃ t, ImportStep procs ts s t) → s.Done ∨ s.Crashes procs ts) ∧
    ¬∃ f : Nat → Import, f 0 = Import.start n flat ∧ ∀ i, ImportStep procs ts (f i) (f (i + 1)) := by
  refine ⟨fun s r hs => ?_, ?_⟩
  · by_cases hd : s.Done
    · exact .inl hd
    · have hlen : s.workers.length = n := by rw [r.workers]; simp [Import.start]
      rcases (reach_inv hn r).progress' (by omega) hd with h | h
      · exact absurd h hs
      · exact .inr h
  · rintro ⟨f, -, hf⟩
    have : ∀ i, (f i).left + i = (f 0).left := by
      intro i
      induction i with
      | zero => rfl
      | succ i ih =>
        have := (hf i).left
        omega
    have := this ((f 0).left + 1)
    omega

/-- A document of 4 by 4 pixels with one layer: a red pixel at (1, 1), with a mask that hides it: all values are the default, 0. -/
def exDotDoc : Doc where
  header := { version := 1, channels := 3, height := 4, width := 4, depth := 8, mode := 3, colorData := [] }
  resources := []
  layerMask := some ⟨some { forest := [.layer { exFolder 0 with
    rect := ⟨1, 1, 2, 2⟩, mask := .short ⟨1, 1, 2, 3⟩ 0 0 0 0,
    channels := [(0, .raw [200] []), (1, .raw [0] []), (2, .raw [0] []), (-2, .raw [0, 0] [])] }] }, .none []⟩
  merged := .raw (List.replicate 48 0) []

/-- Its layer. -/
def exDot : LayerRec where
  rect := ⟨1, 1, 2, 2⟩
  channel := fun id => [((0 : Int), Channel.mk [200] ⟨.gray 1, ⟨1, 1, 2, 2⟩, [[200]], []⟩), (1, ⟨[0], ⟨.gray 1, ⟨1, 1, 2, 2⟩, [[0]], []⟩⟩),
    (2, ⟨[0], ⟨.gray 1, ⟨1, 1, 2, 2⟩, [[0]], []⟩⟩), (-2, ⟨[0, 0], ⟨.gray 1, ⟨1, 1, 3, 2⟩, [[0, 0]], []⟩⟩)].lookup id
  mask := { rect := ⟨1, 1, 3, 2⟩, userMaskDensity := 255, vectorMaskDensity := 255 }

/-- The document is well-formed, and its layer is read as described. -/
example : exDotDoc.Valid ∧ (outcome (decode exEnv newOptions { data := exDotDoc.bytes })).map
    (fun r => (postAll r.1.layer).map fun l => (l.seqID, l.rect, [0, 1, 2, -1, -2].map l.channel)) =
    .ok [(exDot.seqID, exDot.rect, [0, 1, 2, -1, -2].map exDot.channel)] ∧
    (outcome (decode exEnv newOptions { data := exDotDoc.bytes })).map (fun r => (postAll r.1.layer).map LayerRec.mask) = .ok [exDot.mask] := by
  decide +kernel

/-- What loading it gives: one tile for the picture, none for the mask. -/
def exDotImage : LayerImage := ⟨some [((0, 0), List.replicate 20 0 ++ [200, 0, 0, 255] ++ List.replicate 40 0)], some []⟩

theorem exDot_loads : LoadsTo 4 4 exDot exDotImage := ⟨by decide +kernel, by decide +kernel⟩

/-- An execution on it comes to its end, with its picture stored under its number. -/
example : ∃ s, ImportRun 4 4 (Import.start 2 [exDot]) s ∧ s.Done ∧ s.images 0 = some exDotImage := by
  obtain ⟨s, r, hd, -⟩ := run_fresh (procs := 4) (ts := 4) (n := 2) (flat := [exDot]) (by decide) (fun _ => exDotImage)
    (by rintro l (_ | ⟨_, ⟨⟩⟩); exact exDot_loads)
  obtain ⟨img, h1, h2⟩ := (C75_pictures_stored (flat := [exDot]) rfl r hd).1 0 exDot rfl
  refine ⟨s, r, hd, ?_⟩
  have e1 : img.canvas = exDotImage.canvas := Res.ok.inj (h1.1.symm.trans exDot_loads.1)
  have e2 : img.mask = exDotImage.mask := Res.ok.inj (h1.2.symm.trans exDot_loads.2)
  rw [h2, show img = ⟨img.canvas, img.mask⟩ from rfl, e1, e2]

/-! ## C76 -/

/-- **C76** (in part) In every execution the layers that the tree is built of are those of the file, in order, except for `Rect` and `Mask.Rect`; each
of these is that of the file or the bounding box of the tiles.

Missing: which of the two it is depends on the schedule (`C76_depends_on_schedule`). -/
theorem C76_copies_partial (hn : flat.map LayerRec.seqID = List.range flat.length) {n : Nat} {s : Import}
    (r : ImportRun procs ts (Import.start n flat) s) (hd : s.Done) :
    s.copied.length = flat.length ∧ ∀ (j : Nat) l, flat[j]? = some l → ∃ img rect maskRect, LoadsTo procs ts l img ∧
      s.copied[j]? = some { l with rect := rect, mask := { l.mask with rect := maskRect } } ∧
      (rect = l.rect ∨ ∃ m, img.canvas = some m ∧ rect = tilesRect ts m) ∧
      (maskRect = l.mask.rect ∨ ∃ m, img.mask = some m ∧ maskRect = tilesRect ts m) := by
  have inv := reach_inv hn r
  obtain ⟨h1, -, h3⟩ := inv.done hd
  refine ⟨h3, fun j l hl => ?_⟩
  have hj : j < s.copied.length := by rw [h3]; exact (List.getElem?_eq_some_iff.1 hl).1
  obtain ⟨l₂, a, b⟩ := inv.copies.2 j _ (List.getElem?_eq_getElem hj)
  rw [hl] at a
  cases a
  obtain ⟨img, hi, -⟩ := h1 j l hl
  rw [List.getElem?_eq_getElem hj]
  rcases b with b | ⟨c, hc, b | ⟨m, hm, b⟩⟩
  · exact ⟨img, l.rect, l.mask.rect, hi, by rw [b], .inl rfl, .inl rfl⟩
  · rw [hi.1] at hc
    cases hc
    rw [b]
    cases e : img.canvas with
    | none => exact ⟨img, l.rect, l.mask.rect, hi, rfl, .inl rfl, .inl rfl⟩
    | some m => exact ⟨img, _, l.mask.rect, hi, rfl, .inr ⟨m, e, rfl⟩, .inl rfl⟩
  · rw [hi.1] at hc
    cases hc
    rw [hi.2] at hm
    cases hm
    rw [b]
    unfold retiled
    cases e : img.canvas with
    | none =>
      cases e' : img.mask with
      | none => exact ⟨img, l.rect, l.mask.rect, hi, rfl, .inl rfl, .inl rfl⟩
      | some m => exact ⟨img, l.rect, _, hi, rfl, .inl rfl, .inr ⟨m, e', rfl⟩⟩
    | some c =>
      cases e' : img.mask with
      | none => exact ⟨img, _, l.mask.rect, hi, rfl, .inr ⟨c, e, rfl⟩, .inl rfl⟩
      | some m => exact ⟨img, _, _, hi, rfl, .inr ⟨c, e, rfl⟩, .inr ⟨m, e', rfl⟩⟩

/-- **C76** (in part) If the tiles of every picture and mask fill exactly its rectangle, the tree is built of the layers of the file in every
execution. -/
theorem C76_exact_tiles_partial (hn : flat.map LayerRec.seqID = List.range flat.length)
    (hx : ∀ l ∈ flat, ∀ img, LoadsTo procs ts l img →
      (∀ m, img.canvas = some m → tilesRect ts m = l.rect) ∧ ∀ m, img.mask = some m → tilesRect ts m = l.mask.rect)
    {n : Nat} {s : Import} (r : ImportRun procs ts (Import.start n flat) s) (hd : s.Done) : s.copied = flat := by
  obtain ⟨h1, h2⟩ := C76_copies_partial hn r hd
  apply List.ext_getElem?
  intro j
  rcases Nat.lt_or_ge j flat.length with hj | hj
  · have hl := List.getElem?_eq_getElem hj
    obtain ⟨img, rect, mr, a, b, c, d⟩ := h2 j _ hl
    obtain ⟨x1, x2⟩ := hx _ (List.mem_of_getElem? hl) img a
    have e1 : rect = flat[j].rect := by
      rcases c with c | ⟨m, c, rfl⟩
      · exact c
      · exact x1 m c
    have e2 : mr = flat[j].mask.rect := by
      rcases d with d | ⟨m, d, rfl⟩
      · exact d
      · exact x2 m d
    rw [b, hl, e1, e2]
  · rw [List.getElem?_eq_none hj, List.getElem?_eq_none (by omega)]

/-- A layer that fills a tile of side 2, with a mask. -/
def exPlate : LayerRec where
  rect := ⟨0, 0, 2, 2⟩
  channel := fun id => [((0 : Int), Channel.mk [9, 8, 7, 6] ⟨.gray 1, ⟨0, 0, 2, 2⟩, [[9, 8, 7, 6]], []⟩), (1, ⟨[1, 1, 1, 1], ⟨.gray 1, ⟨0, 0, 2, 2⟩, [[1, 1, 1, 1]], []⟩⟩),
    (2, ⟨[0, 0, 0, 0], ⟨.gray 1, ⟨0, 0, 2, 2⟩, [[0, 0, 0, 0]], []⟩⟩), (-2, ⟨[5, 0, 0, 200], ⟨.gray 1, ⟨0, 0, 2, 2⟩, [[5, 0, 0, 200]], []⟩⟩)].lookup id
  mask := { rect := ⟨0, 0, 2, 2⟩ }

/-- Its tiles fill its rectangles. -/
example : [exPlate].map LayerRec.seqID = List.range [exPlate].length ∧ ∀ l ∈ [exPlate], ∀ img, LoadsTo 3 2 l img →
      (∀ m, img.canvas = some m → tilesRect 2 m = l.rect) ∧ ∀ m, img.mask = some m → tilesRect 2 m = l.mask.rect := by
  refine ⟨rfl, ?_⟩
  rintro l (_ | ⟨_, ⟨⟩⟩) img ⟨h1, h2⟩
  have e1 : loadCanvas 3 2 exPlate = .ok (some [((0, 0), [9, 1, 0, 255, 8, 1, 0, 255, 7, 1, 0, 255, 6, 1, 0, 255])]) := by decide +kernel
  have e2 : loadMask 3 2 exPlate = .ok (some [((0, 0), [5, 0, 0, 200])]) := by decide +kernel
  rw [e1] at h1
  rw [e2] at h2
  refine ⟨fun m h => ?_, fun m h => ?_⟩
  · rw [← Res.ok.inj h1] at h
    cases h
    decide
  · rw [← Res.ok.inj h2] at h
    cases h
    decide

/-- **C76** is false: whatever the file, the last layer may be copied with the rectangles of the file or with those of its tiles, in executions
that both come to their end. -/
theorem C76_depends_on_schedule (init : List LayerRec) (last : LayerRec) (img : LayerRec → LayerImage)
    (hl : ∀ l ∈ init ++ [last], LoadsTo procs ts l (img l)) {n : Nat} (hw : 1 ≤ n) :
    (∃ s, ImportRun procs ts (Import.start n (init ++ [last])) s ∧ s.Done ∧ s.copied.getLast? = some last) ∧
    ∃ s, ImportRun procs ts (Import.start n (init ++ [last])) s ∧ s.Done ∧ s.copied.getLast? = some (retiled ts (img last) last) := by
  refine ⟨?_, ?_⟩
  · obtain ⟨s, r, d, e⟩ := run_stale hw img init last hl
    exact ⟨s, r, d, by rw [e]; simp⟩
  · obtain ⟨s, r, d, e⟩ := run_fresh hw img hl
    exact ⟨s, r, d, by rw [e]; simp⟩

/-- **C76** is false of `Rect` of the tree: the same file gives (1,1)-(2,2) or (0,0)-(4,4), with one goroutine or more. -/
theorem C76_rect_depends_on_schedule (n : Nat) (hw : 1 ≤ n) (grow : Nat → Nat) (dec : List UInt8 → Option (List UInt8)) (fuel : Nat) :
    (∃ s, ImportRun 4 4 (Import.start n [exDot]) s ∧ s.Done ∧ (finishNew grow dec fuel ⟨0, 0, 4, 4⟩ s).map LayerTree.rect = .ok ⟨1, 1, 2, 2⟩) ∧
    ∃ s, ImportRun 4 4 (Import.start n [exDot]) s ∧ s.Done ∧ (finishNew grow dec fuel ⟨0, 0, 4, 4⟩ s).map LayerTree.rect = .ok ⟨0, 0, 4, 4⟩ := by
  have hf : ∀ l ∈ [] ++ [exDot], LoadsTo 4 4 l ((fun _ => exDotImage) l) := by
    rintro l (_ | ⟨_, ⟨⟩⟩)
    exact exDot_loads
  have hc : transformRect ⟨0, 0, 4, 4⟩ Aff3.identity = ⟨0, 0, 5, 5⟩ := C65_identity_grows ⟨0, 0, 4, 4⟩ (by decide)
  refine ⟨?_, ?_⟩
  · obtain ⟨s, r, d, e⟩ := run_stale hw (fun _ => exDotImage) [] exDot hf
    refine ⟨s, r, d, ?_⟩
    unfold finishNew
    rw [e, hc]
    rfl
  · obtain ⟨s, r, d, e⟩ := run_fresh (flat := [exDot]) hw (fun _ => exDotImage) hf
    refine ⟨s, r, d, ?_⟩
    unfold finishNew
    rw [e, hc]
    rfl

/-! ## C77 -/

/-- **C77** (in part) A mask that is enabled in the file, with an area, and with a value in it, on the canvas for instance, that differs from its default
colour, is in effect in the tree, whatever the schedule; a mask that is disabled is not.

Missing: masks all of whose values are the default colour (`C77_uniform_mask_dropped`), not counting those before the first grid line after a negative edge. -/
theorem C77_mask_in_effect_partial (hp : 1 ≤ procs) (hts : 1 ≤ ts) (hn : flat.map LayerRec.seqID = List.range flat.length) {n : Nat} {s : Import}
    (r : ImportRun procs ts (Import.start n flat) s) (hd : s.Done) (dec : List UInt8 → Option (List UInt8))
    {j : Nat} {l : LayerRec} (hl : flat[j]? = some l) (hf : l.Filled) (hne : l.mask.rect.empty = false)
    (hv : l.channel (-2) = none ∨ ∃ c x y, l.channel (-2) = some c ∧ l.mask.rect.Keeps ts x y ∧
      channelAt l.mask.rect 1 c.data x y ≠ (if UInt8.ofNat l.mask.defaultColor = 0 then 0 else 255)) :
    ∃ l', s.copied[j]? = some l' ∧ (attrOf dec l').maskEnabled = l.mask.enabled ∧ (attrOf dec l').maskDefaultColor = l.mask.defaultColor := by
  obtain ⟨-, h2⟩ := C76_copies_partial hn r hd
  obtain ⟨img, rect, mr, a, b, -, d⟩ := h2 j l hl
  refine ⟨_, b, ?_, rfl⟩
  have : mr.empty = false := by
    rcases d with d | ⟨m, d, e⟩
    · rw [d]; exact hne
    · rw [e, tilesRect_empty hts]
      rcases hv with hv | ⟨c, x, y, hc, hm, hx⟩
      · have := a.2
        rw [loadMask_none (.inr hv), d] at this
        cases this
      · have h := a.2
        have hr := mask_reads (UInt8.ofNat l.mask.defaultColor) (fills_of_length (hf.mask c hc))
        obtain ⟨m', e', -⟩ := tiles_hold_use (procs := procs) hp hts hr hne
        rw [loadMask_some hne hc, e', d] at h
        have h := Option.some.inj (Res.ok.inj h)
        subst h
        cases m' with
        | cons _ _ => rfl
        | nil =>
          have := tilePixel_mask hp hts hr hne e' x y
          unfold cutMaskAt at this
          rw [if_pos hm, if_pos hm] at this
          simp only [tilePixel, List.lookup_nil] at this
          split at this
          · rename_i h0
            rw [if_pos h0] at hx
            simp only [List.replicate_succ, List.replicate_zero, List.cons.injEq, and_true] at this
            exact absurd this.symm hx
          · rename_i h0
            rw [if_neg h0] at hx
            simp only [List.replicate_succ, List.replicate_zero, List.cons.injEq, and_true] at this
            exfalso
            apply hx
            have := congrArg (fun v => 255 - v) this
            simp only [compl_compl] at this
            rw [← this]
            rfl
  show (l.mask.enabled && !mr.empty) = _
  rw [this]
  simp

/-- The layer above with its mask of 5, 0, 0 and 200. -/
example : exPlate.Filled ∧ exPlate.Coloured ∧ exPlate.Pictured ∧ exPlate.rect.Keeps 2 0 0 ∧ exPlate.mask.rect.empty = false ∧
    exPlate.mask.enabled = true ∧ ∃ c x y, exPlate.channel (-2) = some c ∧ exPlate.mask.rect.Keeps 2 x y ∧ channelAt exPlate.mask.rect 1 c.data x y ≠ 0 := by
  have lk : ∀ id c, exPlate.channel id = some c → c.data.length = 4 := by
    intro id c h
    unfold exPlate at h
    simp only [List.lookup_cons, List.lookup_nil] at h
    split at h
    · cases h; rfl
    · split at h
      · cases h; rfl
      · split at h
        · cases h; rfl
        · split at h
          · cases h; rfl
          · cases h
  refine ⟨⟨fun id c _ _ h => ?_, fun c h => ?_⟩, ?_, ⟨rfl, rfl⟩, by decide, rfl, rfl, _, 0, 0, rfl, by decide, by decide⟩
  · rw [lk id c h]; decide
  · rw [lk _ c h]; decide
  · intro _ id hid
    simp only [List.mem_cons, List.not_mem_nil, or_false] at hid
    rcases hid with rfl | rfl | rfl <;> rfl

/-- **C77** is false of a mask all of whose values are the default colour, 0 or 255, not counting those before the first grid line after a negative edge: it stores no tiles, so when its goroutine is through before the
layers are copied, the mask of the tree is off. A mask of zeros, which hides the whole layer, thus shows the whole layer. -/
theorem C77_uniform_mask_dropped (hp : 1 ≤ procs) (hts : 1 ≤ ts) (img : LayerRec → LayerImage) (hf : ∀ l ∈ flat, LoadsTo procs ts l (img l)) {n : Nat} (hw : 1 ≤ n)
    (dec : List UInt8 → Option (List UInt8)) {j : Nat} {l : LayerRec} (hl : flat[j]? = some l) (hne : l.mask.rect.empty = false) {c : Channel}
    (hc : l.channel (-2) = some c) (hlen : l.mask.rect.dx * l.mask.rect.dy ≤ (c.data.length : Int))
    (hd : UInt8.ofNat l.mask.defaultColor = 0 ∨ UInt8.ofNat l.mask.defaultColor = 255)
    (hu : ∀ x y, cutMaskAt ts l.mask.rect c.data (UInt8.ofNat l.mask.defaultColor) x y = UInt8.ofNat l.mask.defaultColor) :
    ∃ s, ImportRun procs ts (Import.start n flat) s ∧ s.Done ∧ ∃ l', s.copied[j]? = some l' ∧ (attrOf dec l').maskEnabled = false := by
  obtain ⟨s, r, d, e⟩ := run_fresh hw img hf
  refine ⟨s, r, d, retiled ts (img l) l, by rw [e, List.getElem?_map, hl]; rfl, ?_⟩
  have hr := mask_reads (UInt8.ofNat l.mask.defaultColor) (fills_of_length hlen)
  obtain ⟨m, e', hused⟩ := tiles_hold_use (procs := procs) hp hts hr hne
  have hnone : ∀ x y, l.mask.rect.Keeps ts x y → maskStored l.mask.rect c.data (UInt8.ofNat l.mask.defaultColor) x y = none := by
    intro x y hk
    have := hu x y
    unfold cutMaskAt at this
    rw [if_pos hk] at this
    have hm := hk.1
    unfold Rect.Mem at hm
    unfold maskStored
    rw [if_pos hm, this]
    rcases hd with hd | hd <;> rw [hd] <;> rfl
  have hm : m = [] := by
    cases m with
    | nil => rfl
    | cons a m =>
      obtain ⟨x, y, hk, h⟩ := hused a (List.mem_cons_self ..)
      rw [hnone x y hk] at h
      cases h
  have hi := (hf l (List.mem_of_getElem? hl)).2
  rw [loadMask_some hne hc, e', hm] at hi
  have hi : (img l).mask = some [] := (Res.ok.inj hi).symm
  unfold retiled
  rw [hi]
  show ((setRect ts (img l).canvas l).mask.enabled && !(tilesRect ts []).empty) = false
  rw [show (tilesRect ts []).empty = true from rfl]
  simp

/-- The document above: the mask hides the layer, yet it is off in the tree. -/
example : exDot.mask.enabled = true ∧ (∀ x y, cutMaskAt 4 exDot.mask.rect [0, 0] 0 x y = 0) ∧
    ∃ s, ImportRun 4 4 (Import.start 1 [exDot]) s ∧ s.Done ∧ ∃ l', s.copied[0]? = some l' ∧ (attrOf some l').maskEnabled = false := by
  have hu : ∀ x y, cutMaskAt 4 exDot.mask.rect [0, 0] 0 x y = 0 := by
    intro x y
    unfold cutMaskAt
    split
    · unfold channelAt
      generalize (((y - exDot.mask.rect.minY) * exDot.mask.rect.dx + (x - exDot.mask.rect.minX)) * ((1 : Nat) : Int)).toNat = i
      match i with
      | 0 => rfl
      | 1 => rfl
      | _ + 2 => rfl
    · rfl
  refine ⟨rfl, hu, ?_⟩
  exact C77_uniform_mask_dropped (flat := [exDot]) (by decide) (by decide) (fun _ => exDotImage)
    (by rintro l (_ | ⟨_, ⟨⟩⟩); exact exDot_loads) (by decide) some (j := 0) (l := exDot) rfl rfl (c := ⟨[0, 0], ⟨.gray 1, ⟨1, 1, 3, 2⟩, [[0, 0]], []⟩⟩)
    rfl (by decide) (.inl rfl) hu

/-- A white mask of one pixel, left of and above the canvas, is one of those: it counts as black everywhere. -/
example (x y : Int) : cutMaskAt 64 ⟨-2, -2, -1, -1⟩ [255] 0 x y = 0 := by
  unfold cutMaskAt
  rw [if_neg]
  rintro ⟨⟨-, h, -⟩, h0 | ⟨k, h1, h2⟩, -⟩
  · exact absurd h0 (by decide)
  · simp only at h h1
    omega

/-! ## C78 -/

/-- **C78** (in part) For every document that can be decoded: if the pictures of the layers of a section have red, green and blue, loading it
never panics, whatever the number of processors and goroutines, the tile size and the schedule. If the document has 16 or 32 bits, the layers and
masks must have less than 2^60 pixels.

Missing: pictures that lack a colour (`C78_no_blue_crashes`), and pictures with so many bytes that their number is not an `int`. -/
theorem C78_no_crash_partial {env : Env} {s : St} {psd : PSD} {n : Int} {s' : St} (h : decode env newOptions s = .ok ((psd, n), s')) :
    ∃ gs : List (List LayerRec), buildTree LayerRec.sdType gs.flatten = .ok psd.layer ∧ ∀ g ∈ gs,
      (∀ l ∈ g, l.Coloured ∧ (psd.config.depth = 8 ∨ l.rect.dx * l.rect.dy < 2 ^ 60 ∧ l.mask.rect.dx * l.mask.rect.dy < 2 ^ 60)) → ∀ procs ts workers : Nat, 1 ≤ procs → 1 ≤ ts → ∀ t, ImportRun procs ts (Import.start workers g) t →
        ¬t.Crashes procs ts := by
  obtain ⟨gs, h1, h2, -⟩ := grp_decode env newOptions s _ s' h
  refine ⟨gs, h1, fun g hg hc procs ts workers hp hts t r => ?_⟩
  obtain ⟨hn, hs⟩ := h2 g hg
  refine (reach_inv hn r).no_crash fun l hl => loads hp hts (hc l hl).1 ?_
  obtain ⟨hok, hsz⟩ := hs l hl
  obtain ⟨hdep, hsz⟩ := hsz rfl
  simp only at hdep hsz
  have plane : ∀ (rc : Rect) (m : Nat), rc.Ok → (psd.config.depth = 8 ∨ rc.dx * rc.dy < 2 ^ 60) → (m : Int) = planeSize rc psd.config.depth → rc.dx * rc.dy ≤ (m : Int) := by
    intro rc m ⟨a, b, c, d⟩ harea e
    have wide : ∀ k : Nat, k = 2 ∨ k = 4 → psd.config.depth = 8 * k → rc.dx * rc.dy < 2 ^ 60 → rc.dx * rc.dy ≤ (m : Int) := by
      intro k hk h8 harea
      rw [h8] at e
      unfold planeSize wrap64 at e
      have e8 : (rc.dx * ((8 * k : Nat) : Int) + 7) / 8 = k * rc.dx := by rcases hk with rfl | rfl <;> omega
      rw [e8, Int.mul_assoc] at e
      have hnn : 0 ≤ rc.dx * rc.dy := Int.mul_nonneg a c
      revert e hnn harea
      generalize rc.dx * rc.dy = v
      intro e hnn hlt
      rw [Int.bmod_def] at e
      rcases hk with rfl | rfl <;> split at e <;> omega
    rcases hdep with h8 | h8 | h8
    case inr.inl => exact wide 2 (.inl rfl) h8 (harea.resolve_left (by omega))
    case inr.inr => exact wide 4 (.inr rfl) h8 (harea.resolve_left (by omega))
    rw [h8] at e
    unfold planeSize wrap64 at e
    have e8 : (rc.dx * ((8 : Nat) : Int) + 7) / 8 = rc.dx := by omega
    rw [e8] at e
    have hnn : 0 ≤ rc.dx * rc.dy := Int.mul_nonneg a c
    have hlt : rc.dx * rc.dy < 2 ^ 64 := by
      have h1 : rc.dx * rc.dy ≤ 2 ^ 32 * rc.dy := Int.mul_le_mul_of_nonneg_right (by omega) c
      have h2 : (2 : Int) ^ 32 * rc.dy < 2 ^ 32 * 2 ^ 32 := Int.mul_lt_mul_of_pos_left d (by decide)
      have h3 : (2 : Int) ^ 32 * 2 ^ 32 = 2 ^ 64 := by decide
      omega
    revert e hnn hlt
    generalize rc.dx * rc.dy = v
    intro e hnn hlt
    rw [Int.bmod_def] at e
    split at e <;> omega
  refine ⟨fun id c h2 h3 e => ?_, fun c e => ?_⟩
  · have := hsz id c e
    unfold channelRect at this
    rw [if_neg h3, if_neg h2] at this
    exact plane _ _ hok.1 ((hc l hl).2.imp_right And.left) this
  · have := hsz (-2) c e
    exact plane _ _ hok.2.1 ((hc l hl).2.imp_right And.right) this

/-- The section of the example document. -/
example : (∀ l ∈ [exDot], l.Coloured ∧ l.rect.dx * l.rect.dy < 2 ^ 60 ∧ l.mask.rect.dx * l.mask.rect.dy < 2 ^ 60) ∧ (outcome (decode exEnv newOptions { data := exDotDoc.bytes })).map (fun r => r.1.config.depth) = .ok 8 := by
  refine ⟨?_, by decide +kernel⟩
  rintro l (_ | ⟨_, ⟨⟩⟩)
  refine ⟨?_, by decide, by decide⟩
  intro _ id hid
  simp only [List.mem_cons, List.not_mem_nil, or_false] at hid
  rcases hid with rfl | rfl | rfl <;> rfl

/-- **C78** is false: if a layer with a picture, part of which is on the canvas, has neither blue nor alpha, no execution comes to its end; every execution ends with a panic in
a goroutine, which no caller can recover from. -/
theorem C78_no_blue_crashes (hp : 1 ≤ procs) (hts : 1 ≤ ts) (hn : flat.map LayerRec.seqID = List.range flat.length) {n : Nat} (hw : 1 ≤ n)
    {l : LayerRec} (hl : l ∈ flat) (hpic : l.Pictured) (hg : ∃ x y, l.rect.Keeps ts x y) (h2 : l.channel 2 = none) (ha : l.channel (-1) = none)
    {s : Import} (r : ImportRun procs ts (Import.start n flat) s) :
    ¬s.Done ∧ ((¬∃ t, ImportStep procs ts s t) → s.Crashes procs ts) := by
  have hnd : ¬s.Done := by
    intro hd
    obtain ⟨i, hi⟩ := List.getElem?_of_mem hl
    obtain ⟨img, a, -⟩ := (C75_pictures_stored hn r hd).1 i l hi
    have := a.1
    rw [loadCanvas_no_blue hp hts hpic hg h2 ha] at this
    cases this
  refine ⟨hnd, fun hs => ?_⟩
  rcases (C75_ends hn hw).1 s r hs with h | h
  · exact absurd h hnd
  · exact h

/-- A document with a layer of one pixel that has only red, and the layer. -/
def exRedDoc : Doc :=
  { exDotDoc with
    layerMask := some ⟨some { forest := [.layer { exFolder 0 with rect := ⟨1, 1, 2, 2⟩, channels := [(0, .raw [200] [])] }] }, .none []⟩ }

/-- It is a well-formed document that can be decoded; the layer meets the conditions of the theorem. -/
example : exRedDoc.Valid ∧ (outcome (decode exEnv newOptions { data := exRedDoc.bytes })).map
    (fun r => (postAll r.1.layer).map fun l => (decide (l.hasImage = true ∧ l.rect.empty = false), l.rect, (l.channel 2).isSome, (l.channel (-1)).isSome)) =
    .ok [(true, ⟨1, 1, 2, 2⟩, false, false)] := by decide +kernel

/-! ## C79 -/

/-- **C79** (in part) In every 8-bit document, when loading is done, whatever the schedule: the tiles stored for a layer hold the layer's
picture at every pixel of the plane, and zeros where there is none; the tiles of its mask hold the mask if its default colour is 0, and its complement if the
default is 255. Of layers and masks with a negative edge what is before the first grid line is missing; on the canvas nothing is (`cutPictureAt_canvas`,
`cutMaskAt_canvas`).

Missing: 16-bit and 32-bit documents (`C79_wide_garbled`); what is before the first grid line (`C51_negative_edge_lost`). -/
theorem C79_colours_partial (hp : 1 ≤ procs) (hts : 1 ≤ ts) (hn : flat.map LayerRec.seqID = List.range flat.length) {n : Nat} {s : Import}
    (r : ImportRun procs ts (Import.start n flat) s) (hd : s.Done) {k : Nat} {l : LayerRec} (hl : flat[k]? = some l) (hc : l.Coloured) (hf : l.Filled) :
    ∃ img, s.images k = some img ∧
      (¬l.Pictured → img.canvas = none) ∧
      (l.Pictured → ∃ m, img.canvas = some m ∧ ∀ x y, tilePixel ts 4 m x y =
        (cutPictureAt ts l.rect 1 (l.dataOf 0) (l.dataOf 1) (l.dataOf 2) ((l.channel (-1)).map Channel.data) x y).getD [0, 0, 0, 0]) ∧
      (l.mask.rect.empty = true ∨ l.channel (-2) = none → img.mask = none) ∧
      (l.mask.rect.empty = false → ∀ c, l.channel (-2) = some c → ∃ m, img.mask = some m ∧ ∀ x y,
        (UInt8.ofNat l.mask.defaultColor = 0 → tilePixel ts 1 m x y = [cutMaskAt ts l.mask.rect c.data 0 x y]) ∧
        (UInt8.ofNat l.mask.defaultColor = 255 → tilePixel ts 1 m x y = [255 - cutMaskAt ts l.mask.rect c.data 255 x y])) := by
  obtain ⟨img, ⟨a1, a2⟩, b⟩ := (C75_pictures_stored hn r hd).1 k l hl
  refine ⟨img, b, ?_, ?_, ?_, ?_⟩
  · intro h
    rw [loadCanvas_none h] at a1
    exact (Res.ok.inj a1).symm
  · intro h
    have hr := layer_reads h hc hf
    obtain ⟨m, e, -⟩ := tiles_hold_use (procs := procs) hp hts hr h.2
    rw [loadCanvas_some h, e] at a1
    exact ⟨m, (Res.ok.inj a1).symm, fun x y => tilePixel_picture hp hts hr h.2 e x y⟩
  · intro h
    rw [loadMask_none h] at a2
    exact (Res.ok.inj a2).symm
  · intro h c hch
    have hr := mask_reads (UInt8.ofNat l.mask.defaultColor) (fills_of_length (hf.mask c hch))
    obtain ⟨m, e, -⟩ := tiles_hold_use (procs := procs) hp hts hr h
    rw [loadMask_some h hch, e] at a2
    refine ⟨m, (Res.ok.inj a2).symm, fun x y => ?_⟩
    rw [tilePixel_mask hp hts hr h e x y]
    refine ⟨fun h0 => ?_, fun h0 => ?_⟩
    · rw [if_pos h0]
    · rw [if_neg (by rw [h0]; decide)]

/-- **C79** is false of 16-bit and 32-bit documents, which are accepted and whose channels have two or four bytes for every pixel, the most significant one first: the tiles hold, for the
pixel that comes `i`-th in the picture, the bytes number `i` of the channels instead of the bytes number `2 i` or `4 i`. -/
theorem C79_wide_garbled (hp : 1 ≤ procs) (hts : 1 ≤ ts) (hn : flat.map LayerRec.seqID = List.range flat.length) {n : Nat} {s : Import}
    (r : ImportRun procs ts (Import.start n flat) s) (hd : s.Done) {k : Nat} {l : LayerRec} (hl : flat[k]? = some l) (hc : l.Coloured)
    {bytes : Nat} (hb : 2 ≤ bytes) (h16 : ∀ id c, l.channel id = some c → (c.data.length : Int) = bytes * ((channelRect l id).dx * (channelRect l id).dy))
    (h0 : 0 ≤ l.rect.dx * l.rect.dy ∧ 0 ≤ l.mask.rect.dx * l.mask.rect.dy)
    (hpic : l.Pictured) (ha : l.channel (-1) = none) :
    ∃ img m, s.images k = some img ∧ img.canvas = some m ∧ ∀ x y, l.rect.Keeps ts x y → ∃ i : Nat,
      (i : Int) = (y - l.rect.minY) * l.rect.dx + (x - l.rect.minX) ∧
      tilePixel ts 4 m x y = [(l.dataOf 0).getD i 0, (l.dataOf 1).getD i 0, (l.dataOf 2).getD i 0, 255] := by
  have wide : ∀ (v : Int) {m : Int}, 0 ≤ v → m = bytes * v → v ≤ m := by
    intro v m h0 h
    have : 1 * v ≤ bytes * v := Int.mul_le_mul_of_nonneg_right (by omega) h0
    omega
  have hf : l.Filled := by
    refine ⟨fun id c h2 h3 e => ?_, fun c e => ?_⟩
    · have := h16 id c e
      unfold channelRect at this
      rw [if_neg h3, if_neg h2] at this
      exact wide _ h0.1 this
    · have := h16 (-2) c e
      rw [show channelRect l (-2) = l.mask.rect from rfl] at this
      exact wide _ h0.2 this
  obtain ⟨img, b, -, h, -⟩ := C79_colours_partial hp hts hn r hd hl hc hf
  obtain ⟨m, e, hm⟩ := h hpic
  refine ⟨img, m, b, e, fun x y hxy => ?_⟩
  have hxy' := hxy.1
  unfold Rect.Mem at hxy'
  have hnn : 0 ≤ (y - l.rect.minY) * l.rect.dx := Int.mul_nonneg (by omega) (by unfold Rect.dx; omega)
  refine ⟨((y - l.rect.minY) * l.rect.dx + (x - l.rect.minX)).toNat, by omega, ?_⟩
  rw [hm x y]
  unfold cutPictureAt pictureAt
  rw [if_pos hxy, if_pos (by omega), ha]
  simp only [Option.map_none, channelAt, Nat.cast_one, Int.mul_one]
  rfl

/-- A 16-bit document with one layer of two pixels, with red values 0x1234 and 0x5678, and the layer. -/
def exWideDoc : Doc where
  header := { version := 1, channels := 3, height := 1, width := 2, depth := 16, mode := 3, colorData := [] }
  resources := []
  layerMask := some ⟨none, .blocks [] [] [.layers [56, 66, 73, 77] [76, 114, 49, 54] { forest := [.layer { exFolder 0 with
    rect := ⟨0, 0, 1, 2⟩,
    channels := [(0, .raw [0x12, 0x34, 0x56, 0x78] []), (1, .raw [0, 0, 0, 0] []), (2, .raw [0, 0, 0, 0] [])] }] } []]⟩
  merged := .raw (List.replicate 12 0) []

/-- It is well-formed and accepted; loading its layer gives the red values 0x12 and 0x34. -/
example : exWideDoc.Valid ∧ (outcome (decode exEnv newOptions { data := exWideDoc.bytes })).bind
    (fun r => (postAll r.1.layer).head?.elim (.panic .index) fun l => loadCanvas 1 2 l) =
    .ok (some [((0, 0), [0x12, 0, 0, 255, 0x34, 0, 0, 255, 0, 0, 0, 0, 0, 0, 0, 0])]) := by decide +kernel

/-! ## C80 -/

/-- **C80** (in part) `Rect` of a tree is empty or lies in `CanvasRect`, and `CanvasRect` contains the canvas of the file.

Missing: that `CanvasRect` is the canvas; it never is (`C80_canvas_grows`). -/
theorem C80_rects_partial {grow : Nat → Nat} {dec : List UInt8 → Option (List UInt8)} {fuel : Nat} {doc : Rect} {s : Import} {t : LayerTree}
    (h : finishNew grow dec fuel doc s = .ok t) (x y : Int) :
    (t.rect.Mem x y → t.canvasRect.Mem x y) ∧ (doc.Mem x y → t.canvasRect.Mem x y) := by
  unfold finishNew at h
  obtain ⟨tree, e1, h⟩ := Res.bind_eq_ok.1 h
  cases h
  refine ⟨fun hm => ?_, fun hm => ?_⟩
  · simp only at hm ⊢
    unfold Rect.intersect at hm
    simp only at hm
    split at hm
    · unfold Rect.Mem Rect.zero at hm
      simp only at hm
      omega
    · unfold Rect.Mem at hm ⊢
      simp only at hm
      omega
  · simp only
    rw [show Aff3.identity = ⟨1, 0, 0, 0, 1, 0⟩ from rfl, C65_identity_grows doc (by unfold Rect.Mem at hm; omega)]
    unfold Rect.Mem at hm ⊢
    simp only
    omega

/-- **C80** is false: without any transformation, `CanvasRect` is one column and one row larger than the canvas. -/
theorem C80_canvas_grows {grow : Nat → Nat} {dec : List UInt8 → Option (List UInt8)} {fuel : Nat} {doc : Rect} {s : Import} {t : LayerTree}
    (h : finishNew grow dec fuel doc s = .ok t) (hd : doc.minX ≤ doc.maxX ∧ doc.minY ≤ doc.maxY) :
    t.canvasRect = ⟨doc.minX, doc.minY, doc.maxX + 1, doc.maxY + 1⟩ ∧ t.canvasRect ≠ doc := by
  unfold finishNew at h
  obtain ⟨tree, e1, h⟩ := Res.bind_eq_ok.1 h
  cases h
  have e := C65_identity_grows doc hd
  refine ⟨e, fun h => ?_⟩
  have h : transformRect doc ⟨1, 0, 0, 0, 1, 0⟩ = doc := h
  rw [e] at h
  have := congrArg Rect.maxX h
  simp only at this
  omega

theorem union_least {r s R : Rect} : (∀ u v, (r.union s).Mem u v → R.Mem u v) ↔
    (∀ u v, r.Mem u v → R.Mem u v) ∧ ∀ u v, s.Mem u v → R.Mem u v := by
  unfold Rect.union Rect.empty Rect.Mem
  by_cases hr : r.minX ≥ r.maxX ∨ r.minY ≥ r.maxY
  · rw [if_pos (by simpa using hr)]
    exact ⟨fun h => ⟨fun u v hm => by omega, h⟩, fun h => h.2⟩
  · rw [if_neg (by simpa using hr)]
    by_cases hs : s.minX ≥ s.maxX ∨ s.minY ≥ s.maxY
    · rw [if_pos (by simpa using hs)]
      exact ⟨fun h => ⟨h, fun u v hm => by omega⟩, fun h => h.1⟩
    · rw [if_neg (by simpa using hs)]
      dsimp only
      constructor
      · intro h
        exact ⟨fun u v hm => h u v (by omega), fun u v hm => h u v (by omega)⟩
      · rintro ⟨h1, h2⟩ u v hm
        have a1 := h1 r.minX r.minY (by omega)
        have a2 := h1 (r.maxX - 1) (r.maxY - 1) (by omega)
        have b1 := h2 s.minX s.minY (by omega)
        have b2 := h2 (s.maxX - 1) (s.maxY - 1) (by omega)
        omega

mutual

theorem unionRect_least (R : Rect) : ∀ (k : LTree LayerRec) (r : Rect), (∀ u v, (k.unionRect r).Mem u v → R.Mem u v) ↔
    (∀ u v, r.Mem u v → R.Mem u v) ∧ ∀ l ∈ k.post, ∀ u v, l.rect.Mem u v → R.Mem u v
  | .node l kids, r => by
    rw [LTree.unionRect, unionRects_least R kids, union_least, LTree.post]
    simp only [List.mem_append, List.mem_singleton, or_imp, forall_and, forall_eq]
    tauto

theorem unionRects_least (R : Rect) : ∀ (ks : List (LTree LayerRec)) (r : Rect), (∀ u v, (unionRects ks r).Mem u v → R.Mem u v) ↔
    (∀ u v, r.Mem u v → R.Mem u v) ∧ ∀ l ∈ postAll ks, ∀ u v, l.rect.Mem u v → R.Mem u v
  | [], r => by simp [unionRects, postAll]
  | k :: ks, r => by
    rw [unionRects, unionRects_least R ks, unionRect_least R k, postAll]
    simp only [List.mem_append, or_imp, forall_and]
    tauto

end

/-- **C80** `Rect` of a tree is the smallest rectangle around the rectangles of all its layers, cut to `CanvasRect`: a point is in it
if it is in `CanvasRect` and in every rectangle that contains all layers. -/
theorem C80_rect_around_layers {grow : Nat → Nat} {dec : List UInt8 → Option (List UInt8)} {fuel : Nat} {doc : Rect} {s : Import} {t : LayerTree}
    {tree : List (LTree LayerRec)} (hb : buildTree LayerRec.sdType s.copied = .ok tree) (h : finishNew grow dec fuel doc s = .ok t) (x y : Int) :
    t.rect.Mem x y ↔ t.canvasRect.Mem x y ∧
      ∀ R : Rect, (∀ l ∈ postAll tree, ∀ u v, l.rect.Mem u v → R.Mem u v) → R.Mem x y := by
  unfold finishNew at h
  obtain ⟨tree', e1, h⟩ := Res.bind_eq_ok.1 h
  cases h
  rw [hb] at e1
  cases e1
  have hl := fun R => unionRects_least R tree Rect.zero
  have hz : ∀ (R : Rect) u v, Rect.zero.Mem u v → R.Mem u v := fun R u v hm => by unfold Rect.Mem Rect.zero at hm; dsimp only at hm; omega
  have hi : ∀ a b : Rect, (a.intersect b).Mem x y ↔ a.Mem x y ∧ b.Mem x y := by
    intro a b
    unfold Rect.intersect Rect.empty Rect.Mem
    dsimp only
    split
    · rename_i he
      simp only [ge_iff_le, Bool.or_eq_true, decide_eq_true_eq] at he
      unfold Rect.zero
      dsimp only
      omega
    · dsimp only
      omega
  dsimp only
  rw [hi, and_comm]
  apply and_congr_right
  intro _
  constructor
  · intro hm R hR
    exact (hl R).2 ⟨hz R, hR⟩ x y hm
  · intro hR
    exact hR _ ((hl _).1 (fun _ _ h => h)).2

/-- A tree of the example document. -/
example : ∃ s t, ImportRun 4 4 (Import.start 2 [exDot]) s ∧ s.Done ∧ finishNew (fun n => n) some 8 ⟨0, 0, 4, 4⟩ s = .ok t := by
  obtain ⟨s, r, d, e⟩ := run_fresh (procs := 4) (ts := 4) (flat := [exDot]) (n := 2) (by decide) (fun _ => exDotImage)
    (by rintro l (_ | ⟨_, ⟨⟩⟩); exact exDot_loads)
  suffices h : ∃ t, finishNew (fun n => n) some 8 ⟨0, 0, 4, 4⟩ s = .ok t from h.elim fun t h => ⟨s, t, r, d, h⟩
  unfold finishNew
  rw [e]
  exact ⟨_, rfl⟩

end Psd
