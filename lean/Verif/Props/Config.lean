import Verif.Lemmas.Header
import Verif.Lemmas.Eager
import Verif.Lemmas.NoPanic
import Verif.Props.Common

/-
Properties of DecodeConfig: C01–C04, C12.
-/

namespace Psd
open Spec (ResBlock Header resSection lastBlock num field)

/-- The readers of these examples: a PSB file of 2×1 pixels with two resources. -/
def exHeader : Header :=
  { version := 2, channels := 3, height := 1, width := 2, depth := 8, mode := 3, colorData := [] }

def exBlocks : List ResBlock :=
  [{ sig := [56, 66, 73, 77], id := 1005, name := [65, 66], data := [1, 2, 3] },
   { sig := [77, 101, 83, 97], id := 7, name := [], data := [] }]

/-- The decoder on the encoding of a header and resources, for every reader. -/
theorem config_run_lazy {h : Header} (hv : h.Valid) {rs : List ResBlock} (hr : ∀ r ∈ rs, r.Valid)
    (hlen : (rs.flatMap ResBlock.bytes).length < 2 ^ 32) (rest : List UInt8) (s : St)
    (hdata : s.data = h.bytes ++ resSection rs ++ rest) (hpos : s.pos = 0)
    (hsched : ReadsAtLeast 1 s.sched) (heager : s.eager = false) (hsize : s.data.length < 2 ^ 63) :
    ∃ s', decodeConfig s = .ok ((specConfig h rs, ((h.bytes ++ resSection rs).length : Int)), s') ∧
      s'.pos = (h.bytes ++ resSection rs).length := by
  rw [decodeConfig_eq s (Nat.lt_succ_self _)]
  have hl : s.data.length = (h.bytes ++ resSection rs).length + rest.length := by
    rw [hdata]; simp [Nat.add_assoc]
  have hl2 : (resSection rs).length = 4 + (rs.flatMap ResBlock.bytes).length := by simp [resSection]
  have h1 := runs_config hv hr hlen (fuel := s.data.length + 1)
    (by rw [hl, List.length_append, hl2]; omega) { s with sched := [] } rest rfl heager
    (by simp [St.avail, hpos, hdata]) (by simp only [hpos]; omega)
  have h2 := sim_decodeConfig (Nat.le_refl 1) (s.data.length + 1) { s with sched := [] } s
    ⟨rfl, by simp, hsched, hsize⟩
  rw [h1] at h2
  split at h2
  · rename_i he hs
    cases he
    obtain ⟨rfl, h3⟩ := h2
    refine ⟨_, hs, ?_⟩
    rw [h3.1]; simp [hpos]
  all_goals first | exact h2.elim | (rename_i he _; cases he)

theorem config_run {h : Header} (hv : h.Valid) {rs : List ResBlock} (hr : ∀ r ∈ rs, r.Valid)
    (hlen : (rs.flatMap ResBlock.bytes).length < 2 ^ 32) (rest : List UInt8) (s : St)
    (hdata : s.data = h.bytes ++ resSection rs ++ rest) (hpos : s.pos = 0)
    (hsched : ReadsAtLeast 1 s.sched) (heager : s.eager = false ∨ rest ≠ []) (hsize : s.data.length < 2 ^ 63) :
    ∃ s', decodeConfig s = .ok ((specConfig h rs, ((h.bytes ++ resSection rs).length : Int)), s') ∧
      s'.pos = (h.bytes ++ resSection rs).length := by
  obtain ⟨s', e, hp⟩ := config_run_lazy hv hr hlen rest { s with kind := .plain, eager := false } hdata hpos hsched rfl hsize
  refine ⟨_, decodeConfig_any_reader (by omega) hsize e ?_, hp⟩
  rcases heager with h | h
  · exact .inr h
  · refine .inl ?_
    have : 1 ≤ rest.length := by cases rest <;> simp_all
    rw [hp, hdata, List.length_append (bs := rest)]
    omega

/-- **C01 Header faithfulness.** For every valid header and list of resource blocks, followed by
anything, on every reader whose reads are never empty (and which, if nothing follows, reports the end of the
data only afterwards; see C99): DecodeConfig returns exactly that
configuration, counts exactly the bytes of the encoding, and has consumed exactly those. -/
theorem C01_header_faithful {h : Header} (hv : h.Valid) {rs : List ResBlock}
    (hr : ∀ r ∈ rs, r.Valid) (hlen : (rs.flatMap ResBlock.bytes).length < 2 ^ 32)
    (rest : List UInt8) (s : St) (hdata : s.data = h.bytes ++ resSection rs ++ rest)
    (hpos : s.pos = 0) (hsched : ReadsAtLeast 1 s.sched) (heager : s.eager = false ∨ rest ≠ [])
    (hsize : s.data.length < 2 ^ 63) :
    ∃ cfg s', decodeConfig s = .ok ((cfg, ((h.bytes ++ resSection rs).length : Int)), s') ∧
      cfg.version = h.version ∧ cfg.psb = decide (h.version = 2) ∧
      cfg.rect = ⟨0, 0, h.width, h.height⟩ ∧ cfg.channels = h.channels ∧ cfg.depth = h.depth ∧
      cfg.colorMode = h.mode ∧ cfg.colorModeData = h.colorData ∧
      (∀ id, cfg.res id = (lastBlock rs id).map fun r => ⟨r.name, r.data⟩) ∧
      s'.pos = (h.bytes ++ resSection rs).length := by
  obtain ⟨s', e, hp⟩ := config_run hv hr hlen rest s hdata hpos hsched heager hsize
  refine ⟨_, s', e, rfl, ?_, rfl, rfl, rfl, rfl, rfl, fun id => ?_, hp⟩
  · simp only [Config.psb, specConfig]
    by_cases h2 : h.version = 2 <;> simp [h2]
  · simp only [specConfig, storeBlocks_apply]
    cases lastBlock rs id <;> rfl

example : exHeader.Valid ∧ (∀ r ∈ exBlocks, r.Valid) ∧
    (exBlocks.flatMap ResBlock.bytes).length < 2 ^ 32 := by decide

/-- **C12 Image resources are returned by ID.** Whatever list of resource blocks follows a valid
header, the decoded map holds under each ID the name and data of the last block with that ID. -/
theorem C12_resources_by_id {h : Header} (hv : h.Valid) {rs : List ResBlock}
    (hr : ∀ r ∈ rs, r.Valid) (hlen : (rs.flatMap ResBlock.bytes).length < 2 ^ 32)
    (rest : List UInt8) (s : St) (hdata : s.data = h.bytes ++ resSection rs ++ rest)
    (hpos : s.pos = 0) (hsched : ReadsAtLeast 1 s.sched)
    (hsize : s.data.length < 2 ^ 63) {cfg : Config} {n : Int} {s' : St}
    (hd : decodeConfig s = .ok ((cfg, n), s')) (id : Nat) :
    (∀ before r after, rs = before ++ r :: after → r.id = id → (∀ x ∈ after, x.id ≠ id) →
      cfg.res id = some ⟨r.name, r.data⟩) ∧
    ((∀ x ∈ rs, x.id ≠ id) → cfg.res id = none) := by
  obtain ⟨s'', e, _⟩ := config_run_lazy hv hr hlen rest (s.ends false) hdata hpos hsched rfl hsize
  rw [ends_decodeConfig false (.inr rfl) hsize hd (.inr rfl)] at e
  cases e
  constructor
  · intro before r after h1 h2 h3
    simp only [specConfig, storeBlocks_apply, lastBlock, h1]
    have : List.find? (fun r => decide (r.id = id)) (before ++ r :: after).reverse = some r := by
      rw [List.reverse_append, List.reverse_cons, List.append_assoc, List.find?_append,
        List.find?_eq_none.2 (by intro x hx; simpa using h3 x (by simpa using hx))]
      simp [h2]
    rw [this]
  · intro h1
    simp only [specConfig, storeBlocks_apply, lastBlock]
    rw [List.find?_eq_none.2 (by intro x hx; simpa using h1 x (by simpa using hx))]
    rfl

/-- Two blocks share the ID 7; the later one counts, and 1005 keeps its odd-length data. -/
example : (outcome (decodeConfig { data := (exHeader.bytes ++ resSection
      (exBlocks ++ [{ sig := [56, 66, 73, 77], id := 7, name := [90], data := [9] }])) })).map
      (fun r => (r.1.res 7, r.1.res 1005, r.1.res 8)) =
    .ok (some ⟨[90], [9]⟩, some ⟨[65, 66], [1, 2, 3]⟩, none) := by decide +kernel

/-- **C02 Only valid headers are accepted.** If DecodeConfig succeeds, the input began with an
acceptable header, and the returned fields are the numbers stored there; any other input is
answered with an error. -/
theorem C02_only_valid_headers (s : St) (hpos : s.pos = 0) :
    (∀ cfg n s', decodeConfig s = .ok ((cfg, n), s') →
      Spec.headerAcceptable s.data ∧
      cfg.version = num (field s.data 4 2) ∧ cfg.channels = num (field s.data 12 2) ∧
      cfg.rect = ⟨0, 0, num (field s.data 18 4), num (field s.data 14 4)⟩ ∧
      cfg.depth = num (field s.data 22 2) ∧
      (cfg.version = 1 ∨ cfg.version = 2) ∧ (1 ≤ cfg.channels ∧ cfg.channels ≤ 56) ∧
      (1 ≤ cfg.rect.dx ∧ cfg.rect.dx ≤ Spec.maxSide cfg.version) ∧
      (1 ≤ cfg.rect.dy ∧ cfg.rect.dy ≤ Spec.maxSide cfg.version) ∧
      cfg.depth ∈ [1, 8, 16, 32]) ∧
    (¬ Spec.headerAcceptable s.data → ∃ e, decodeConfig s = .err e) := by
  have key : ∀ cfg n s', decodeConfig s = .ok ((cfg, n), s') →
      Spec.headerAcceptable s.data ∧
      cfg.version = num (field s.data 4 2) ∧ cfg.channels = num (field s.data 12 2) ∧
      cfg.rect = ⟨0, 0, num (field s.data 18 4), num (field s.data 14 4)⟩ ∧
      cfg.depth = num (field s.data 22 2) := by
    intro cfg n s' e
    unfold decodeConfig at e
    obtain ⟨b, s₁, e1, e⟩ := P.bind_eq_ok.1 e
    obtain ⟨h1, h2, h3, _⟩ := readFull_eq_ok e1
    have hav : s.avail = s.data := by simp [St.avail, hpos]
    rw [hav] at h1 h2
    have hf : ∀ off n, off + n ≤ 30 → beAt b off n = num (field s.data off n) := by
      intro off n hn
      rw [num_eq, beAt, field, h2, List.drop_take, List.take_take]
      congr 2; omega
    have hs : b.take 4 = field s.data 0 4 := by
      rw [h2, List.take_take, field]; rfl
    simp only [P.ite_app] at e
    rw [hf 4 2 (by decide), hf 12 2 (by decide), hf 14 4 (by decide), hf 18 4 (by decide),
      hf 22 2 (by decide), hs] at e
    unfold Spec.headerAcceptable
    generalize num (field s.data 4 2) = ver at e ⊢
    generalize num (field s.data 12 2) = chn at e ⊢
    generalize num (field s.data 14 4) = hgt at e ⊢
    generalize num (field s.data 18 4) = wid at e ⊢
    generalize num (field s.data 22 2) = dep at e ⊢
    split at e
    · cases e
    rename_i c1
    split at e
    · cases e
    rename_i c2
    split at e
    · cases e
    rename_i c3
    split at e
    · cases e
    rename_i c4
    split at e
    · cases e
    rename_i c5
    split at e
    · cases e
    rename_i c6
    obtain ⟨cmd, s₂, e2, e⟩ := P.bind_eq_ok.1 e
    obtain ⟨⟨res, l⟩, s₃, e3, e⟩ := P.bind_eq_ok.1 e
    cases e
    have hms : Spec.maxSide ver = 30000 ∧ ver = 1 ∨ Spec.maxSide ver = 300000 ∧ ver = 2 := by
      unfold Spec.maxSide; split <;> omega
    refine ⟨⟨by omega, by simpa [headerSignature] using c1, by omega, by omega, by omega, by omega,
      by simp; omega⟩, rfl, rfl, ?_, rfl⟩
    unfold Rect.make; congr 1 <;> omega
  refine ⟨fun cfg n s' e => ?_, fun hn => ?_⟩
  · obtain ⟨h0, h1, h2, h3, h4⟩ := key cfg n s' e
    have h0' := h0
    obtain ⟨_, _, a1, a2, a3, a4, a5⟩ := h0
    rw [← h1] at a1 a3 a4
    rw [← h2] at a2
    rw [← h4] at a5
    refine ⟨h0', h1, h2, h3, h4, a1, a2, ?_, ?_, a5⟩
    · rw [h3]; simp only [Rect.dx]; omega
    · rw [h3]; simp only [Rect.dy]; omega
  · cases hd : decodeConfig s with
    | ok r => exact absurd (key r.1.1 r.1.2 r.2 hd).1 hn
    | err e => exact ⟨e, rfl⟩
    | panic q =>
      rw [decodeConfig_eq s (Nat.lt_succ_self _)] at hd
      exact absurd hd (NoPanic.configF _ _ _)
    | fuel => exact absurd hd (decodeConfig_nofuel s)

example : Spec.headerAcceptable (exHeader.bytes ++ resSection exBlocks) ∧
    (outcome (decodeConfig { data := exHeader.bytes ++ resSection exBlocks })).isOk = true := by
  decide +kernel

/-- A height of 30001 is accepted in PSB but not in PSD. -/
example : (outcome (decodeConfig { data := (({ exHeader with height := 30001 } : Header).bytes ++
      resSection []) })).isOk = true ∧
    (outcome (decodeConfig { data := (({ exHeader with height := 30001, version := 1 } : Header).bytes ++
      resSection []) })).isErr = true := by
  decide +kernel

/-- **C03 DecodeConfig never panics.** On every reader whatsoever it returns a configuration or an
error. -/
theorem C03_decodeConfig_never_panics (s : St) :
    (∃ cfg n s', decodeConfig s = .ok ((cfg, n), s')) ∨ (∃ e, decodeConfig s = .err e) := by
  cases hd : decodeConfig s with
  | ok r => exact .inl ⟨r.1.1, r.1.2, r.2, rfl⟩
  | err e => exact .inr ⟨e, rfl⟩
  | panic q =>
    rw [decodeConfig_eq s (Nat.lt_succ_self _)] at hd
    exact absurd hd (NoPanic.configF _ _ _)
  | fuel => exact absurd hd (decodeConfig_nofuel s)

/-- Both outcomes occur. -/
example : (outcome (decodeConfig { data := exHeader.bytes ++ resSection exBlocks })).isOk = true ∧
    (outcome (decodeConfig { data := exHeader.bytes ++ [0, 0, 0, 9, 56] })).isErr = true := by
  decide +kernel

/-- **C04 DecodeConfig is independent of reader chunking.** For every byte string and any two
schedules of non-empty reads the outcome is the same, and so is the final position. -/
theorem C04_decodeConfig_chunking (s : St) (sched : List Nat) (h1 : ReadsAtLeast 1 s.sched)
    (h2 : ReadsAtLeast 1 sched) (hsize : s.data.length < 2 ^ 63) :
    outcome (decodeConfig { s with sched := sched }) = outcome (decodeConfig s) ∧
    ∀ r s' r' t', decodeConfig s = .ok (r, s') →
      decodeConfig { s with sched := sched } = .ok (r', t') → t'.pos = s'.pos := by
  have h := sim_decodeConfig (Nat.le_refl 1) (s.data.length + 1) s { s with sched := sched }
    ⟨rfl, h1, h2, hsize⟩
  rw [← decodeConfig_eq s (Nat.lt_succ_self _),
    ← decodeConfig_eq { s with sched := sched } (Nat.lt_succ_self _)] at h
  generalize decodeConfig s = x at h ⊢
  generalize decodeConfig { s with sched := sched } = y at h ⊢
  rcases x with ⟨r, s'⟩ | e | e | _ <;> rcases y with ⟨r', t'⟩ | e' | e' | _ <;>
    simp only [] at h <;> try exact h.elim
  · obtain ⟨rfl, h3⟩ := h
    refine ⟨rfl, fun a b c d e1 e2 => ?_⟩
    cases e1; cases e2
    rw [h3.1]
  · subst h; exact ⟨rfl, fun _ _ _ _ e1 => by cases e1⟩
  · subst h; exact ⟨rfl, fun _ _ _ _ e1 => by cases e1⟩
  · exact ⟨rfl, fun _ _ _ _ e1 => by cases e1⟩

example : ReadsAtLeast 1 (List.replicate 90 1) ∧
    (outcome (decodeConfig { data := (exHeader.bytes ++ resSection exBlocks),
                             sched := List.replicate 90 1 })).isOk = true := by decide +kernel

end Psd
