import Verif.Lemmas.Eager
import Verif.Props.Config
import Verif.Props.Decode

/-
C99: an `io.Reader` may report the end of the data along with the last bytes or by a further `Read` that
delivers nothing; the decoder should not care.
-/

namespace Psd
open Spec (Doc resSection)

/-- **C99 How the reader reports the end does not matter** (part). For every input, through every reader that
cannot seek: what `Decode` returns when the end is reported by a further `Read` (`eager := false`), it returns
also when the end is reported along with the last bytes; and the other way round.  If the merged picture is skipped,
there must be data behind the consumed part.  Missing: files that end with what `Decode` reads, for which
`C99_padding_at_end` shows that the claim is false, and inputs on which only Seekers succeed. -/
theorem C99_end_of_data_partial (env : Env) (o : Options) (s : St) (hk : s.kind ≠ .seeker)
    (hsize : s.data.length < 2 ^ 63) (r : PSD × Int) (s' : St)
    (hp : o.skipMergedImage = false ∨ s'.pos < s.data.length) :
    decode env o { s with eager := true } = .ok (r, { s' with eager := true }) ↔
    decode env o { s with eager := false } = .ok (r, { s' with eager := false }) := by
  constructor
  · intro h
    exact ends_decode env o (s := { s with eager := true }) (s' := { s' with eager := true }) false (.inr rfl) hsize h (.inr (.inr rfl))
  · intro h
    exact ends_decode env o (s := { s with eager := false }) (s' := { s' with eager := false }) true (.inl hk) hsize h (hp.imp_right .inl)

/-- **C99**, the direction that holds for all readers and files: whoever reports the end afterwards is on the safe
side. -/
theorem C99_later_is_safe (env : Env) (o : Options) (s : St) (hsize : s.data.length < 2 ^ 63) :
    (∀ r s', decode env o { s with eager := true } = .ok (r, s') →
      decode env o { s with eager := false } = .ok (r, { s' with eager := false })) ∧
    (∀ r s', decodeConfig { s with eager := true } = .ok (r, s') →
      decodeConfig { s with eager := false } = .ok (r, { s' with eager := false })) :=
  ⟨fun _ _ h => ends_decode env o (s := { s with eager := true }) false (.inr rfl) hsize h (.inr (.inr rfl)),
   fun _ _ h => ends_decodeConfig (s := { s with eager := true }) false (.inr rfl) hsize h (.inr rfl)⟩

/-- **C99** for `DecodeConfig` (part): if data follow the image resources, the result is the same. -/
theorem C99_config_partial (s : St) (hk : s.kind ≠ .seeker) (hsize : s.data.length < 2 ^ 63) (r : Config × Int) (s' : St)
    (hp : s'.pos < s.data.length) :
    decodeConfig { s with eager := true } = .ok (r, { s' with eager := true }) ↔
    decodeConfig { s with eager := false } = .ok (r, { s' with eager := false }) := by
  constructor
  · intro h
    exact ends_decodeConfig (s := { s with eager := true }) (s' := { s' with eager := true }) false (.inr rfl) hsize h (.inr rfl)
  · intro h
    exact ends_decodeConfig (s := { s with eager := false }) (s' := { s' with eager := false }) true (.inl hk) hsize h (.inl hp)

/-- The example document, cut after the merged picture, through a reader of either sort. -/
example : ∃ (r : PSD × Int) (s' : St), decode exEnv {} { exReader exDoc with data := exDoc.bytes, eager := true } =
    .ok (r, { s' with eager := true }) := by
  obtain ⟨s', h, -⟩ := decode_doc (env := exEnv) (exDoc_reads (Nat.le_refl 1)) exDoc_valid (o := {}) rfl
    (s := { exReader exDoc with data := exDoc.bytes, eager := true })
    ⟨⟨[], (List.append_nil _).symm⟩, rfl, by decide, by
      have := exReader_presents.size
      simp only [exReader, List.length_append] at this
      simp only
      omega⟩
  have h2 := (C99_later_is_safe exEnv {} { exReader exDoc with data := exDoc.bytes } (by
      have := exReader_presents.size
      simp only [exReader, List.length_append] at this
      simp only
      omega)).1 _ _ h
  exact ⟨_, s', ((C99_end_of_data_partial exEnv {} { exReader exDoc with data := exDoc.bytes } (by decide) (by
      have := exReader_presents.size
      simp only [exReader, List.length_append] at this
      simp only
      omega) _ s' (.inl rfl)).2 h2)⟩

/-- The claim is false for files that end in a padding byte: a header followed by one resource of three bytes, and
a document that ends in the padding of a layer name.  Both are decoded if the end is reported afterwards, and
rejected if it is reported along with the padding. -/
theorem C99_padding_at_end :
    let d := exHeader.bytes ++ resSection (exBlocks.take 1)
    (decodeConfig { data := d, eager := false }).isOk = true ∧
    decodeConfig { data := d, eager := true } = .err .eof ∧
    (let o : Options := { skipLayerImage := true, skipMergedImage := true }
     (decode exEnv o { data := exShortPad, eager := false }).isOk = true ∧
     decode exEnv o { data := exShortPad, eager := true } = .err .eof) := by
  have e1 : ∀ {α : Type} {x : Res α}, (match x with | .err .eof => true | _ => false) = true → x = .err .eof := by
    intro α x h
    split at h
    · rfl
    · cases h
  refine ⟨by decide +kernel, e1 (by decide +kernel), by decide +kernel, e1 (by decide +kernel)⟩

end Psd
