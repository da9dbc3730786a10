import Verif.Lemmas.Run
import Verif.Props.Document

/-!
# C106: mask data of any length

The contents of a mask data block by its length are specified in `Spec/MaskBlock.lean`.
-/

namespace Psd

open Spec (be Box MaskSpec Layer Doc Node)

/-- **C106 Mask data of any length** (part).  In every well-formed document, for every layer whose mask
data is a block of any length, ending anywhere within the fields that such a block may have: the decoder
reports exactly the fields that the block holds in full, the default for every other field, and goes on
behind the block: what follows it in the record (the name, for one) is read right.  Missing: blocks that
go on behind the last field; `C106_longer_block` shows that the decoder leaves the surplus bytes unread,
and `C106_padded_block_loses_name` that the claim is false for them. -/
theorem C106_mask_of_any_length_partial {env : Env} {d : Doc} (hp : env.Reads d) (hv : d.Valid) {o : Options}
    (ho : o.rejects (configMeaning d) = false) {s : St} (hs : Presents d s) :
    ∃ psd n s', decode env o s = .ok ((psd, n), s') ∧
      (postAll psd.layer).length = (shown d).length ∧
      ∀ (k i : Nat) (l : Layer) (b : List UInt8), (shown d)[k]? = some (i, l) → l.mask = .block b →
        ∃ r : LayerRec, (postAll psd.layer)[k]? = some r ∧
        r.mask.rect = ⟨(Spec.MaskBlock.box b).left, (Spec.MaskBlock.box b).top, (Spec.MaskBlock.box b).right,
          (Spec.MaskBlock.box b).bottom⟩ ∧
        r.mask.defaultColor = Spec.MaskBlock.color b ∧ r.mask.flags = Spec.MaskBlock.flags b ∧
        r.mask.userMaskDensity = Spec.MaskBlock.userDensity b ∧ r.mask.userMaskFeather = Spec.MaskBlock.userFeather b ∧
        r.mask.vectorMaskDensity = Spec.MaskBlock.vectorDensity b ∧
        r.mask.vectorMaskFeather = Spec.MaskBlock.vectorFeather b ∧
        r.mask.realFlags = Spec.MaskBlock.realFlags b ∧ r.mask.realBackgroundColor = Spec.MaskBlock.realColor b ∧
        r.mask.realRect = ⟨(Spec.MaskBlock.realBox b).left, (Spec.MaskBlock.realBox b).top,
          (Spec.MaskBlock.realBox b).right, (Spec.MaskBlock.realBox b).bottom⟩ ∧
        r.mbcsName = l.name := by
  obtain ⟨psd, n, s', h, -, h2, h3⟩ := layer_at hp hv ho hs
  refine ⟨psd, n, s', h, h2, fun k i l b hk hb => ?_⟩
  obtain ⟨r, hr, hrl⟩ := h3 k i l hk
  obtain ⟨c, p, hc⟩ := layer_fields hrl
  have hm : r.mask = maskMeaning (.block b) := by rw [hc, ← hb]; rfl
  refine ⟨r, hr, ?_⟩
  rw [hm]
  exact ⟨rfl, rfl, rfl, rfl, rfl, rfl, rfl, rfl, rfl, rfl, by rw [hc]; rfl⟩

/-- A block of 27 bytes: the user mask density is in it, the user mask feather is announced but cut off. -/
def exCutBlock : List UInt8 :=
  Box.bytes ⟨-5, -6, 7, 8⟩ ++ [9, 16, 3, 77] ++ [1, 2, 3, 4, 5, 6, 7]

/-- Blocks of 3, 16, 17, 20 (with parameters), 27 and 34 bytes. -/
def exMaskBlocks : List (List UInt8) :=
  [[1, 2, 3], Box.bytes ⟨5, 6, 1, 2⟩, Box.bytes ⟨1, 2, 3, 4⟩ ++ [9],
    Box.bytes ⟨1, 2, 3, 4⟩ ++ [9, 16, 1, 77], exCutBlock,
    Box.bytes ⟨1, 2, 3, 4⟩ ++ [9, 0] ++ [5, 6] ++ [0, 0, 0, 1, 0, 0, 0, 2, 0, 0, 0, 3, 0, 0]]

/-- A layer with the name "abc" and the given mask data. -/
def exMaskBlockLayer (b : List UInt8) : Layer :=
  { exFolder 0 with mask := .block b, name := [97, 98, 99], namePad := [] }

/-- A document whose layers have these masks. -/
def exMaskBlockDoc : Doc :=
  { exDoc with layerMask := some ⟨some { forest := exMaskBlocks.map fun b => .layer (exMaskBlockLayer b) }, .none []⟩ }

/-- Such documents exist, and the fields of the cut block are as said. -/
example : exMaskBlockDoc.Valid ∧ Presents exMaskBlockDoc (exReader exMaskBlockDoc) ∧
    (shown exMaskBlockDoc).map (fun p => p.2.mask) = exMaskBlocks.map .block ∧
    Spec.MaskBlock.userDensity exCutBlock = 77 ∧ Spec.MaskBlock.userFeather exCutBlock = 0 ∧
    Spec.MaskBlock.vectorDensity exCutBlock = 255 ∧ Spec.MaskBlock.box exCutBlock = ⟨-5, -6, 7, 8⟩ := by
  refine ⟨by decide +kernel, ?_, by decide +kernel, by decide +kernel, by decide +kernel, by decide +kernel,
    by decide +kernel⟩
  refine ⟨⟨_, rfl⟩, rfl, by decide, ?_⟩
  have : (exReader exMaskBlockDoc).data.length < 2000 := by decide +kernel
  omega

/-- Blocks that go on behind the last field, for all such blocks and all that follows: the decoder reads
the fields and leaves the rest of the block unread, so that it is taken for the field that follows. -/
theorem C106_longer_block {b rest : List UInt8} (hb : b.length < 2 ^ 32) (hk : Spec.MaskBlock.known b < b.length)
    (h20 : b.length ≠ 20) {s : St} (hs : s.avail = be 4 b.length ++ b ++ rest) (hw : ReadsAtLeast 1 s.sched)
    (he : s.eager = false) (hn : s.data.length < 2 ^ 63) :
    ∃ m s', readMaskData {} s = .ok ((m, ((4 + Spec.MaskBlock.known b : Nat) : Int)), s') ∧
      s'.avail = b.drop (Spec.MaskBlock.known b) ++ rest := by
  have hr := runs_maskBlock b hb
  have hm : maskEnd b (Spec.MaskBlock.realAt b) = Spec.MaskBlock.known b := by
    unfold Spec.MaskBlock.known at hk ⊢
    unfold maskEnd; rw [if_neg h20]; omega
  rw [hm] at hr
  have hsplit : s.avail = (be 4 b.length ++ b.take (Spec.MaskBlock.known b)) ++
      (b.drop (Spec.MaskBlock.known b) ++ rest) := by
    rw [hs, List.append_assoc, List.append_assoc, ← List.append_assoc (b.take _), List.take_append_drop]
  have hpos : s.pos ≤ s.data.length := by
    have := congrArg List.length hs
    simp only [St.avail_length, List.length_append, be_length] at this
    omega
  obtain ⟨sched', h, -⟩ := hr.any ((sim_clo (Nat.le_refl 1)).toClo0.maskData {}) s _ hsplit hw he hn hpos
  refine ⟨_, _, h, ?_⟩
  exact avail_advance hsplit

/-- There are such blocks. -/
example : Spec.MaskBlock.known (List.replicate 40 0) = 36 := by decide +kernel

/-- A block of 36 bytes and 4 zero bytes of padding, in a layer with the name "abc". -/
def exPaddedDoc : Doc :=
  { exDoc with
    layerMask := some ⟨some { forest := [.layer { exFolder 0 with
      mask := .block (Box.bytes ⟨1, 2, 3, 4⟩ ++ [9, 0] ++ [5, 6] ++ Box.bytes ⟨1, 2, 3, 4⟩ ++ [0, 0, 0, 0]),
      name := [97, 98, 99], namePad := [], blocks := [] }] }, .none []⟩ }

/-- The claim is false for padded blocks: the decoder succeeds and reports a layer without a name. -/
theorem C106_padded_block_loses_name :
    (shown exPaddedDoc).map (fun p => p.2.name) = [[97, 98, 99]] ∧
    (outcome (decode exEnv {} { data := exPaddedDoc.bytes })).map
      (fun r => (postAll r.1.layer).map fun l => (l.mask.realFlags, l.mbcsName)) = .ok [(5, [])] := by
  decide +kernel

end Psd
