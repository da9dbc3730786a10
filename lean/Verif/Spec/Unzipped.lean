import Verif.Spec.File

/-
Documents whose merged picture is compressed with ZIP.
-/

namespace Psd.Spec

/-- The document with its merged picture stored as it is. -/
def Doc.unzipped (d : Doc) : Doc := { d with merged := .raw d.merged.plane [] }

/-- A document that would be valid with its merged picture stored as it is, and has it compressed with ZIP, with or
without prediction. -/
def Doc.ZipValid (d : Doc) : Prop :=
  d.unzipped.Valid ∧ d.merged.Valid d.psb d.header.depth d.header.width (d.header.height * d.header.channels) ∧
  d.merged.isZip = true

instance (d : Doc) : Decidable d.ZipValid := by unfold Doc.ZipValid; infer_instance

/-- The document up to its merged picture. -/
def Doc.front (d : Doc) : List UInt8 :=
  d.header.bytes ++ resSection d.resources ++ lmBytes d.psb d.layerMask

/-- The compressed data of a merged picture. -/
def Doc.packed (d : Doc) : List UInt8 := (d.merged.bytes d.psb).drop 2

end Psd.Spec
