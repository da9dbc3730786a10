import Verif.Props.Order
import Verif.Lemmas.Locality
import Verif.Lemmas.PanicLayers

/-
Properties of Decode on arbitrary input: C05 to C11.
-/

namespace Psd
open Spec (Doc SoundBlocks DrawableLayers wide)

/-! ### C05 -/

/-- What the caller of `Decode` gets besides the read count: the document and the callbacks, the
error, or a panic. -/
def document (r : Res ((PSD × Int) × St)) : Res (PSD × List Event) := r.map fun x => (x.1.1, x.2.log)

/-- **C05 Decode is independent of reader chunking** (part). For every byte string and any two
schedules of reads that deliver at least three bytes each (or what was asked for): the document, the
callbacks, or the error are the same.  The read count is the same too, unless it is that of a
ZIP-compressed merged picture, where inflating may read ahead.  Missing: reads of one or two bytes,
for which `C05_depends_on_chunking` shows that the claim is false. -/
theorem C05_chunking_partial (env : Env) (o : Options) (s : St) (sched : List Nat) (h1 : ReadsAtLeast 3 s.sched)
    (h2 : ReadsAtLeast 3 sched) (hsize : s.data.length < 2 ^ 63) :
    document (decode env o { s with sched := sched }) = document (decode env o s) ∧
    ((o.skipMergedImage = true ∨ ∀ w n a b, env.pulled w n a = env.pulled w n b) →
      outcome (decode env o { s with sched := sched }) = outcome (decode env o s)) := by
  rw [decode_eq env o s (m := s.data.length + 1) (n := s.data.length + 1) (by omega) (by omega),
    decode_eq env o { s with sched := sched } (m := s.data.length + 1) (n := s.data.length + 1)
      (by simp only; omega) (by simp only; omega)]
  have hr : SameBytes 3 s { s with sched := sched } := ⟨rfl, h1, h2, hsize⟩
  refine ⟨(simG_decode (Nat.le_refl 3) env o _ _ _ _ hr).symm, fun hp => ?_⟩
  exact ((sim_decode (Nat.le_refl 3) env o hp _ _).toG (g := Prod.fst) (fun _ _ _ _ => rfl) _ _ hr).symm

/-- The example document, read three bytes at a time. -/
example : ReadsAtLeast 3 (List.replicate 100 3) ∧
    (outcome (decode exEnv {} { data := exDoc.bytes, sched := List.replicate 100 3 })).isOk = true :=
  ⟨by decide +kernel, by
    obtain ⟨s', h, -⟩ := decode_doc (env := exEnv) (exDoc_reads (Nat.le_refl 1)) exDoc_valid (o := {}) rfl
      (s := { data := exDoc.bytes, sched := List.replicate 100 3 })
      ⟨⟨[], (List.append_nil _).symm⟩, rfl, by decide +kernel, by
        have : exDoc.bytes.length < 2000 := by decide +kernel
        simp only; omega⟩
    rw [h]; rfl⟩

/-- A document with one layer without name, whose name padding contains the byte 56. -/
def exPadDoc : Doc :=
  { exDoc with
    layerMask := some ⟨some { forest := [.layer { exFolder 0 with
      namePad := [0, 56, 0], blocks := [], divider := none }] }, .none []⟩ }

/-- The claim is false if one or two bytes are delivered at a time: padding is read with a single
`Read`, and what it leaves is taken for additional information. -/
theorem C05_depends_on_chunking :
    exPadDoc.Valid ∧
    (outcome (decode exEnv {} { data := exPadDoc.bytes })).isOk = true ∧
    (outcome (decode exEnv {} { data := exPadDoc.bytes, sched := List.replicate 200 1 })).isErr = true := by
  decide +kernel

/-! ### C06 -/

/-- **C06 Read count equals bytes consumed.** For every input, options, reader kind and chunking: when
DecodeConfig or Decode succeeds, the reader's position has advanced by exactly the returned count. -/
theorem C06_read_count (env : Env) (o : Options) (s : St) :
    (∀ cfg n s', decodeConfig s = .ok ((cfg, n), s') → (s'.pos : Int) = s.pos + n) ∧
    (∀ psd n s', decode env o s = .ok ((psd, n), s') → (s'.pos : Int) = s.pos + n) := by
  refine ⟨fun cfg n s' h => ?_, fun psd n s' h => ?_⟩
  · rw [decodeConfig_eq s (Nat.lt_succ_self _)] at h
    exact Cnt.configF _ _ _ _ h
  · rw [decode_eq env o s (Nat.lt_succ_self _) (Nat.lt_succ_self _)] at h
    exact Cnt.decodeF env o _ _ _ _ _ h

/-- Both succeed on the example document. -/
example : (∃ cfg n s', decodeConfig (exReader exDoc) = .ok ((cfg, n), s')) ∧
    ∃ psd n s', decode exEnv {} (exReader exDoc) = .ok ((psd, n), s') := by
  obtain ⟨s', h, -⟩ := decode_doc (env := exEnv) (exDoc_reads (Nat.le_refl 1)) exDoc_valid (o := {}) rfl exReader_presents
  refine ⟨?_, _, _, s', h⟩
  unfold decode at h
  obtain ⟨⟨cfg, n⟩, s₁, e, -⟩ := P.bind_eq_ok.1 h
  exact ⟨cfg, n, s₁, e⟩

/-! ### C09 -/

/-- **C09 Decode terminates.** In the model every loop and the recursion between layer information and
additional information carries a bound.  On no input is the bound of `decode` reached, and any bounds
larger than the number of input bytes give the same result: the unbounded program makes progress in
every step and stops with that result. -/
theorem C09_terminates (env : Env) (o : Options) (s : St) :
    decode env o s ≠ .fuel ∧ decodeConfig s ≠ .fuel ∧
    ∀ m n, s.data.length < m → s.data.length < n → decodeF env o m n s = decode env o s :=
  ⟨decode_nofuel env o s, decodeConfig_nofuel s, fun _ _ hm hn => (decode_eq env o s hm hn).symm⟩

/-- The bound matters: with too small a bound the example document is not decoded. -/
example : (decodeF exEnv {} 1 1 { data := exDoc.bytes } matches .fuel) = true := by decide +kernel

/-! ### C11 -/

/-- **C11 Result is independent of the reader kind** (part). For every input: if decoding through a plain
reader or a Discarder succeeds, decoding through any other kind succeeds with the same document, count,
position and callbacks.  So plain readers and Discarders succeed on the same inputs with the same results.
Missing: inputs on which only a Seeker succeeds; `C11_seeker_differs` shows that they exist. -/
theorem C11_reader_kinds_partial (env : Env) (o : Options) (s : St) (k : Kind) (hk : s.kind ≠ .seeker)
    (hp : s.pos ≤ s.data.length) (hsize : s.data.length < 2 ^ 63) {r : PSD × Int} {s' : St}
    (h : decode env o s = .ok (r, s')) :
    decode env o { s with kind := k } = .ok (r, { s' with kind := k }) := by
  rw [decode_eq env o s (m := s.data.length + 1) (n := s.data.length + 1) (by omega) (by omega)] at h
  rw [decode_eq env o { s with kind := k } (m := s.data.length + 1) (n := s.data.length + 1)
      (by simp only; omega) (by simp only; omega)]
  obtain ⟨t, e, -, ht, -⟩ := kind_decode (k' := k) hk env o _ _ s { s with kind := k } ⟨rfl, rfl, hp, hsize⟩ _ _ h
  rw [e, ht]

/-- The example document read through bufio. -/
example : (decode exEnv {} { exReader exDoc with kind := .discarder }).isOk = true := by
  obtain ⟨s', h, -⟩ := decode_doc (env := exEnv) (exDoc_reads (Nat.le_refl 1)) exDoc_valid (o := {}) rfl exReader_presents
  have := C11_reader_kinds_partial exEnv {} (exReader exDoc) .discarder (by decide) (by decide +kernel)
    exReader_presents.size h
  rw [this]; rfl

/-- A document with global mask information of four bytes and no layers. -/
def exMaskDoc : Doc := { exDoc with layerMask := some ⟨none, .mask [1, 2, 3, 4] []⟩ }

/-- The bytes of that document up to the middle of the global mask information. -/
def exCutMask : List UInt8 := exMaskDoc.bytes.take (exMaskDoc.bytes.length - 12)

/-- The claim is false for seekers: they skip beyond the end of the data without noticing, so that a
truncated file is accepted which other readers reject. -/
theorem C11_seeker_differs :
    exMaskDoc.Valid ∧
    (outcome (decode exEnv { skipMergedImage := true } { data := exCutMask, kind := .seeker })).isOk = true ∧
    (outcome (decode exEnv { skipMergedImage := true } { data := exCutMask, kind := .plain })).isErr = true ∧
    (outcome (decode exEnv { skipMergedImage := true } { data := exCutMask, kind := .discarder })).isErr = true := by
  decide +kernel

/-- The example document with the length of its layer and mask section replaced by 4. -/
def exShortSection : List UInt8 := (exDoc.bytes.set 36 0).set 37 4

/-- The claim is false for seekers on complete files, too: where the layers take more bytes than their section
announces, a seeker goes back to where the section should have ended and reports success. Other readers reject the file. -/
theorem C11_seeker_steps_back :
    let o : Options := { skipLayerImage := true, skipMergedImage := true }
    (decode exEnv o { data := exShortSection, kind := .seeker }).map (fun x => (x.1.1.layer.length, x.2.pos)) = .ok (2, 42) ∧
    (outcome (decode exEnv o { data := exShortSection, kind := .plain })).isErr = true ∧
    (outcome (decode exEnv o { data := exShortSection, kind := .discarder })).isErr = true := by
  decide +kernel

/-! ### C07 and C08 -/

/-- The merged picture is raw or RLE data: `Decode` with SkipMergedImage stops before its compression
method, which is 0 or 1. -/
def MergedNotZip (env : Env) (o : Options) (s : St) : Prop :=
  ∃ psd n s', decode env { o with skipMergedImage := true } s = .ok ((psd, n), s') ∧
    ((s.data.drop s'.pos).take 2 = [0, 0] ∨ (s.data.drop s'.pos).take 2 = [0, 1])

theorem mergedNotZip_pre {env : Env} {o : Options} {s : St} (h : MergedNotZip env o s) {m n : Nat}
    (hm : s.data.length < m) (hn : s.data.length < n) {r : Config × PSD × Int} {s₁ : St}
    (he : preF env o m n s = .ok (r, s₁)) :
    (s.data.drop s₁.pos).take 2 = [0, 0] ∨ (s.data.drop s₁.pos).take 2 = [0, 1] := by
  obtain ⟨psd, k, s', h1, h2⟩ := h
  rw [decode_eq env _ s hm hn, decodeF_split, preF_skip] at h1
  obtain ⟨r', s₂, e1, e2⟩ := P.bind_eq_ok.1 h1
  rw [he] at e1
  cases e1
  unfold postF at e2
  simp only [if_true] at e2
  cases e2
  exact h2

/-- The data of the reader never changes. -/
theorem preF_data {env : Env} {o : Options} {m n : Nat} {s s₁ : St} {r : Config × PSD × Int}
    (h : preF env o m n s = .ok (r, s₁)) : s₁.data = s.data := by
  unfold preF at h
  obtain ⟨⟨cfg, read⟩, s₂, e1, h⟩ := P.bind_eq_ok.1 h
  have h1 := (frame_decodeConfigF m _ _ _ e1).1
  simp only at h
  rw [P.ite_app] at h
  split at h
  · cases h
  · obtain ⟨⟨psd, l⟩, s₃, e2, h⟩ := P.bind_eq_ok.1 h
    have h2 := (frame_layerAndMask env cfg o n _ _ _ e2).1
    cases h
    exact h2.trans h1

theorem postF_reads {env : Env} {o : Options} (ho : o.skipMergedImage = false) {r : Config × PSD × Int} {s s' : St}
    {a : PSD × Int} (h : postF env o r s = .ok (a, s')) : 2 ≤ s.avail.length := by
  unfold postF at h
  rw [ho] at h
  obtain ⟨_, _, h, _⟩ := P.bind_eq_ok.1 h
  unfold readMerged at h
  obtain ⟨_, _, e, h⟩ := P.bind_eq_ok.1 h
  obtain ⟨-, rfl⟩ := P.lift_eq_ok.1 e
  obtain ⟨⟨_, _⟩, _, e, h⟩ := P.bind_eq_ok.1 h
  obtain ⟨-, rfl⟩ := P.lift_eq_ok.1 e
  obtain ⟨_, _, e, h⟩ := P.bind_eq_ok.1 h
  obtain ⟨-, rfl⟩ := P.lift_eq_ok.1 e
  obtain ⟨_, _, e, h⟩ := P.bind_eq_ok.1 h
  exact (readFull_eq_ok e).1

/-- **C07** (which error) A reader that has nothing to give makes `DecodeConfig` and `Decode` return the reader's own error, `io.EOF` for an empty file, so that a program
can tell "no more documents" from a damaged one; a file that is cut within the first 30 bytes is reported with `io.ErrUnexpectedEOF`. -/
theorem C07_end_of_input (env : Env) (o : Options) (s : St) :
    (s.avail = [] → decodeConfig s = .err s.tail ∧ decode env o s = .err s.tail) ∧
    (s.avail ≠ [] → s.avail.length < 30 → s.tail = .eof → decodeConfig s = .err .unexpectedEOF ∧ decode env o s = .err .unexpectedEOF) := by
  have key : ∀ e, readFull 30 s = .err e → decodeConfig s = .err e ∧ decode env o s = .err e := by
    intro e he
    have h1 : decodeConfig s = .err e := by
      show P.bind (readFull 30) _ s = _
      unfold P.bind
      rw [he]
    refine ⟨h1, ?_⟩
    unfold decode
    show P.bind decodeConfig _ s = _
    unfold P.bind
    rw [h1]
  constructor
  · intro h
    refine key _ ?_
    rw [readFull_err (by rw [h]; decide), h]
    unfold shortErr
    rw [if_neg (by simp)]
  · intro h hl ht
    refine key _ ?_
    rw [readFull_err hl, ht]
    unfold shortErr
    rw [if_pos ⟨rfl, fun c => h (List.eq_nil_of_length_eq_zero c)⟩]

/-- An empty file, and one of three bytes that come one at a time. -/
example : ({ data := [] } : St).avail = [] ∧ ({ data := [0x38, 0x42, 0x50], sched := [1, 1, 1] } : St).avail ≠ [] := by decide

/-- **C07 Truncated files are rejected.** For every input, options and chunking, if `Decode` succeeds
through a reader that cannot seek, having advanced it to position `s'.pos`, then on any strictly shorter
prefix of these bytes `Decode` does not succeed (merged picture skipped or not ZIP-compressed). -/
theorem C07_truncated_rejected (env : Env) (o : Options) (s : St) (hk : s.kind ≠ .seeker)
    (hp : s.pos ≤ s.data.length) (hsize : s.data.length < 2 ^ 63) {r : PSD × Int} {s' : St} (h : decode env o s = .ok (r, s'))
    (hz : o.skipMergedImage = true ∨ MergedNotZip env o s) (cut : Nat) (hstart : s.pos ≤ cut) (hcut : cut < s'.pos) :
    (decode env o { s with data := s.data.take cut }).isOk = false := by
  cases hd : decode env o { s with data := s.data.take cut } with
  | err _ => rfl
  | panic _ => rfl
  | fuel => rfl
  | ok a =>
    exfalso
    obtain ⟨r', u'⟩ := a
    have hlen : (s.data.take cut).length ≤ cut := by simp; omega
    have hN : (s.data.take cut).length ≤ s.data.length := by simp; omega
    rw [decode_eq env o s (m := s.data.length + 1) (n := s.data.length + 1) (by omega) (by omega), decodeF_split] at h
    rw [decode_eq env o _ (m := s.data.length + 1) (n := s.data.length + 1) (by simp only; omega)
      (by simp only; omega), decodeF_split] at hd
    obtain ⟨a, t₁, e1, e2⟩ := P.bind_eq_ok.1 h
    obtain ⟨b, u₁, d1, d2⟩ := P.bind_eq_ok.1 hd
    have hj : s.data.take cut ++ s.data.drop cut = s.data := List.take_append_drop ..
    have hpu : s.pos ≤ (s.data.take cut).length := by simp; omega
    have hov : ({ s with data := s.data.take cut } : St).over (s.data.take cut ++ s.data.drop cut) = s := by
      rw [hj]; rfl
    obtain ⟨⟨c1, c2, c3⟩, c4⟩ := pc_pre (u := s.data.take cut) (x := s.data.drop cut) (by rw [hj]; exact hsize)
      env o _ _ { s with data := s.data.take cut } rfl hk hpu _ _ d1
    rw [hov, hj] at c4
    obtain ⟨rfl, rfl⟩ := c4 _ _ e1
    by_cases ho : o.skipMergedImage = true
    · unfold postF at e2 d2
      rw [ho] at e2 d2
      cases e2; cases d2
      simp only [St.over_pos] at hcut
      omega
    · have ho' : o.skipMergedImage = false := by simpa using ho
      have hnz := mergedNotZip_pre (hz.resolve_left ho) (by omega) (by omega) e1
      simp only [St.over_pos] at hnz
      have h2 := postF_reads ho' d2
      have hav : u₁.avail.take 2 = (s.data.drop u₁.pos).take 2 := by
        have ha := u₁.avail_length
        rw [c1] at ha
        have := take_common (u := s.data.take cut) (x := []) (y := s.data.drop cut) (pos := u₁.pos) (k := 2) (by omega)
        rw [List.append_nil, hj] at this
        unfold St.avail
        rw [c1, this]
      rw [postNZ_eq env ho' a _ (by rw [hav]; exact hnz)] at d2
      rw [postNZ_eq env ho' a _ (by exact hnz)] at e2
      obtain ⟨⟨f1, f2, f3⟩, f4⟩ := (pc_clo (u := s.data.take cut) (x := s.data.drop cut)).toCloR.postNZ
        (fun _ => pc_lift _) env a u₁ c1 (by rw [c2]; exact hk) c3 _ _ d2
      rw [hj] at f4
      obtain ⟨rfl, rfl⟩ := f4 _ _ e2
      simp only [St.over_pos] at hcut
      omega

/-- The example document cut anywhere: its merged picture is not compressed. -/
example : MergedNotZip exEnv {} (exReader exDoc) ∧ ∃ r s', decode exEnv {} (exReader exDoc) = .ok (r, s') := by
  obtain ⟨s', h, -⟩ := decode_doc (env := exEnv) (exDoc_reads (Nat.le_refl 1)) exDoc_valid (o := {}) rfl exReader_presents
  refine ⟨?_, _, s', h⟩
  cases e : decode exEnv { skipMergedImage := true } (exReader exDoc) with
  | ok a =>
    refine ⟨a.1.1, a.1.2, a.2, e, .inl ?_⟩
    have : (decode exEnv { skipMergedImage := true } (exReader exDoc)).map
        (fun a => ((exReader exDoc).data.drop a.2.pos).take 2) = .ok [0, 0] := by
      decide +kernel
    rw [e] at this
    exact Res.ok.inj this
  | _ =>
    have : (decode exEnv { skipMergedImage := true } (exReader exDoc)).isOk = true := by decide +kernel
    rw [e] at this; cases this

/-- **C08 Bytes after the document are irrelevant** (part). For every input and options: if `Decode`
succeeds, having advanced a reader that cannot seek to position `s'.pos`, then after replacing everything
behind that position by any other bytes `y` it succeeds with the same result.  The merged picture must not be
ZIP-compressed.  If it is skipped, there must have been bytes behind the consumed ones in the first place,
and if there are none afterwards, the reader must not report the end early.  Missing: seekers, and skipped
merged pictures at the very end of the data; for the latter `C08_padding_at_end` shows that the claim is false. -/
theorem C08_trailing_bytes_partial (env : Env) (o : Options) (s : St) (hk : s.kind ≠ .seeker)
    (hp : s.pos ≤ s.data.length) (hsize : s.data.length < 2 ^ 63) {r : PSD × Int} {s' : St}
    (h : decode env o s = .ok (r, s')) (y : List UInt8) (hy : s'.pos + y.length < 2 ^ 63)
    (hz : (o.skipMergedImage = false ∧ MergedNotZip env o s) ∨
      (o.skipMergedImage = true ∧ s'.pos < s.data.length ∧ (y ≠ [] ∨ (s.eager = false ∧ ∀ c ∈ s.sched, 1 ≤ c)))) :
    decode env o { s with data := s.data.take s'.pos ++ y } =
      .ok (r, { s' with data := s.data.take s'.pos ++ y }) := by
  generalize hN : s.data.length + s'.pos + y.length + 1 = N
  have hlen : (s.data.take s'.pos ++ y).length ≤ s'.pos + y.length := by simp; omega
  rw [decode_eq env o s (m := N) (n := N) (by omega) (by omega), decodeF_split] at h
  rw [decode_eq env o _ (m := N) (n := N) (by simp only; omega) (by simp only; omega), decodeF_split]
  obtain ⟨a, t, e1, e2⟩ := P.bind_eq_ok.1 h
  rcases hz with ⟨ho, hz⟩ | ⟨ho, hlt, hc⟩
  · have hd := preF_data e1
    have hnz := mergedNotZip_pre hz (by omega) (by omega) e1
    have hnz' : t.avail.take 2 = [0, 0] ∨ t.avail.take 2 = [0, 1] := by unfold St.avail; rw [hd]; exact hnz
    rw [postNZ_eq env ho a t hnz'] at e2
    have hadv := postNZ_advances e2
    have hrd := postNZ_reads e2
    rw [t.avail_length, hd] at hrd
    have hj1 : s.data.take t.pos ++ s.data.drop t.pos = s.data := List.take_append_drop ..
    have hj2 : s.data.take s'.pos ++ s.data.drop s'.pos = s.data := List.take_append_drop ..
    have hl1 : (s.data.take t.pos).length = t.pos := by simp; omega
    have hdl : (s.data.drop t.pos).length = s.data.length - t.pos := List.length_drop ..
    -- the consumed bytes are there
    obtain ⟨⟨q1, q2, q3⟩, -⟩ := pc_pre (u := s.data) (x := []) (by rw [List.append_nil]; exact hsize)
      env o _ _ s rfl hk hp _ _ e1
    obtain ⟨⟨-, -, q4⟩, -⟩ := (pc_clo (u := s.data) (x := [])).toCloR.postNZ
        (fun _ => pc_lift _) env a t q1 (by rw [q2]; exact hk) q3 _ _ e2
    have hl2 : (s.data.take s'.pos).length = s'.pos := by simp; omega
    have hdat : s.data.take s'.pos ++ y = s.data.take t.pos ++ ((s.data.take s'.pos).drop t.pos ++ y) := by
      rw [← List.append_assoc]
      congr 1
      have h := List.take_append_drop t.pos (s.data.take s'.pos)
      rw [List.take_take, Nat.min_eq_left (by omega)] at h
      exact h.symm
    have hy1 : (s.data.take s'.pos).drop t.pos ++ y ≠ [] := by
      intro hn
      have := congrArg List.length hn
      simp only [List.length_append, List.length_drop, hl2, List.length_nil] at this
      omega
    obtain ⟨-, g⟩ := loc_pre (u := s.data.take t.pos) (z := s.data.drop t.pos)
      (y := (s.data.take s'.pos).drop t.pos ++ y) (by intro hn; rw [hn] at hdl; simp at hdl; omega)
      (by rw [hj1]; exact hsize) (by rw [← hdat]; omega) env o N N s hj1.symm hk (.inl hy1) _ _ e1
    have g' := g (by omega)
    rw [← hdat] at g'
    refine P.bind_eq_ok.2 ⟨a, _, g', ?_⟩
    obtain ⟨-, f⟩ := (locR_cloR (u := s.data.take s'.pos) (z := s.data.drop s'.pos) (y := y)).postNZ locR_lift env a t
      (by rw [hj2]; exact hd) _ _ e2
    rw [postNZ_eq env ho a _ ?_]
    · exact f (by omega)
    · have : (t.over (s.data.take s'.pos ++ y)).avail.take 2 = t.avail.take 2 := by
        unfold St.avail
        rw [St.over_data, St.over_pos, hd]
        conv => rhs; rw [← hj2]
        exact take_common (by omega)
      rw [this]; exact hnz'
  · unfold postF at e2 ⊢
    rw [ho] at e2 ⊢
    cases e2
    have hj : s.data.take s'.pos ++ s.data.drop s'.pos = s.data := List.take_append_drop ..
    obtain ⟨-, g⟩ := loc_pre (u := s.data.take s'.pos) (z := s.data.drop s'.pos) (y := y)
      (by intro hn; have := congrArg List.length hn; simp at this; omega) (by rw [hj]; exact hsize) (by omega)
      env o N N s hj.symm hk hc _ _ e1
    exact P.bind_eq_ok.2 ⟨a, _, g (by simp; omega), rfl⟩

/-- A file without merged picture that ends in a layer name padding of one byte instead of three. -/
def exShortPad : List UInt8 :=
  let d : Doc := { exDoc with
    layerMask := some ⟨some { forest := [.layer { exFolder 0 with namePad := [0], blocks := [], divider := none }] },
      .none []⟩ }
  d.bytes.take 88

/-- Without SkipMergedImage there is always data behind the paddings.  With it, the claim is false: a file
may end in the middle of a padding, and is rejected when bytes follow. -/
theorem C08_padding_at_end :
    let o : Options := { skipLayerImage := true, skipMergedImage := true }
    (outcome (decode exEnv o { data := exShortPad })).isOk = true ∧
    (decode exEnv o { data := exShortPad }).map (fun x => x.2.pos) = .ok exShortPad.length ∧
    (outcome (decode exEnv o { data := exShortPad ++ [0] })).isErr = true := by
  decide +kernel

/-- **C08** for readers of every kind, seekers among them: if a reader that cannot seek decodes the bytes, replacing
everything behind those it consumed leaves the result as it is for all of them. -/
theorem C08_every_kind_partial (env : Env) (o : Options) (s : St) (k : Kind) (hk : s.kind ≠ .seeker)
    (hp : s.pos ≤ s.data.length) (hsize : s.data.length < 2 ^ 63) {r : PSD × Int} {s' : St}
    (h : decode env o s = .ok (r, s')) (y : List UInt8) (hy : s'.pos + y.length < 2 ^ 63)
    (hz : (o.skipMergedImage = false ∧ MergedNotZip env o s) ∨
      (o.skipMergedImage = true ∧ s'.pos < s.data.length ∧ (y ≠ [] ∨ (s.eager = false ∧ ∀ c ∈ s.sched, 1 ≤ c)))) :
    decode env o { s with kind := k } = .ok (r, { s' with kind := k }) ∧
    decode env o { s with data := s.data.take s'.pos ++ y, kind := k } =
      .ok (r, { s' with data := s.data.take s'.pos ++ y, kind := k }) := by
  refine ⟨C11_reader_kinds_partial env o s k hk hp hsize h, ?_⟩
  have h8 := C08_trailing_bytes_partial env o s hk hp hsize h y hy hz
  have hle : s.pos ≤ (s.data.take s'.pos ++ y).length := by
    have h9 := h8
    unfold decode decodeConfig at h9
    obtain ⟨_, _, h9, -⟩ := P.bind_eq_ok.1 h9
    obtain ⟨_, _, h9, -⟩ := P.bind_eq_ok.1 h9
    have := (readFull_eq_ok h9).1
    rw [St.avail_length] at this
    simp only at this
    omega
  exact C11_reader_kinds_partial env o { s with data := s.data.take s'.pos ++ y } k hk
    hle (by simp only [List.length_append, List.length_take]; omega) h8

/-- For seekers alone the claim is false: they may have read far more than they report (`C11_seeker_steps_back`). -/
theorem C08_seeker_steps_back :
    let o : Options := { skipLayerImage := true, skipMergedImage := true }
    (decode exEnv o { data := exShortSection, kind := .seeker }).map (fun x => (x.1.1.layer.length, x.2.pos)) = .ok (2, 42) ∧
    (decode exEnv o { data := exShortSection.take 42 ++ List.replicate 600 0, kind := .seeker }).map
      (fun x => (x.1.1.layer.length, x.2.pos)) = .ok (0, 42) := by
  decide +kernel

/-! ### C10 -/

/-- A configuration whose merged picture can be shown: an indexed picture has a colour table of 768 bytes (or none)
and a transparency resource of at least two bytes (or none); the alpha identifiers resource is a list of 4-byte
numbers; the file has the channels its colour mode needs. -/
structure Paintable (cfg : Config) : Prop where
  table : cfg.colorMode = cmIndexed → cfg.colorModeData.length = 0 ∨ cfg.colorModeData.length = 768
  transparent : cfg.colorMode = cmIndexed → ∀ r, cfg.res 0x0417 = some r → 2 ≤ r.data.length
  alpha : ∀ r, cfg.res 0x041D = some r → r.data.length % 4 = 0
  enough : cfg.colorMode.channels ≤ cfg.channels

theorem alphaID0_safe : ∀ fuel (d : List UInt8), d.length % 4 = 0 → ∀ e, alphaID0Loop fuel d ≠ .panic e := by
  intro fuel
  induction fuel with
  | zero => intro d _ e; cases d <;> simp [alphaID0Loop]
  | succ n ih =>
    intro d h e
    cases d with
    | nil => simp [alphaID0Loop]
    | cons x xs =>
      rw [alphaID0Loop, if_neg (by simp only [List.length_cons] at h ⊢; omega)]
      · split
        · simp
        · exact ih _ (by simp only [List.length_drop]; omega) e
      · simp

theorem paletteFrom_safe {cmd : List UInt8} (h : cmd.length = 768) (t : Int) : ∀ n i, i + n ≤ 256 →
    ∀ e, paletteFrom cmd t n i ≠ .panic e := by
  intro n
  induction n with
  | zero => intro i _ e; simp [paletteFrom]
  | succ n ih =>
    intro i hi e
    have idx : ∀ k, k < 768 → ∃ x, goIndex cmd k = .ok x := by
      intro k hk
      unfold goIndex
      rw [List.getElem?_eq_getElem (by omega)]
      exact ⟨_, rfl⟩
    obtain ⟨a, ha⟩ := idx i (by omega)
    obtain ⟨b, hb⟩ := idx (i + 256) (by omega)
    obtain ⟨c, hc⟩ := idx (i + 512) (by omega)
    rw [paletteFrom, ha, hb, hc]
    simp only [Res.ok_bind]
    cases hh : paletteFrom cmd t n (i + 1) with
    | panic q => exact absurd hh (ih _ (by omega) q)
    | _ => simp

theorem Res.bind_np {α β : Type} {x : Res α} {f : α → Res β} (h1 : ∀ q, x ≠ .panic q)
    (h2 : ∀ a, ∀ q, f a ≠ .panic q) (q : Panic) : (x >>= f) ≠ .panic q := by
  cases x with
  | ok a => exact h2 a q
  | panic p => exact absurd rfl (h1 p)
  | _ => simp

theorem palette_safe {cfg : Config} (h : Paintable cfg) (q : Panic) : cfg.palette ≠ .panic q := by
  unfold Config.palette
  split
  · simp
  · rename_i hi
    have hi := Classical.not_not.1 hi
    refine Res.bind_np (fun q => ?_) (fun t q => ?_) q
    · split
      · rename_i r hr
        unfold readUint16
        rw [if_pos (by have := h.transparent hi r hr; omega)]
        simp
      · simp
    · refine Res.bind_np (fun q => ?_) (fun t q => by simp) q
      rcases h.table hi with h0 | h0
      · rw [h0]; simp [paletteFrom]
      · exact paletteFrom_safe h0 t _ _ (by omega) q

theorem findPicker_arity {depth : Nat} {mode : ColorMode} {alpha : Bool} {k : PickerKind}
    (h : findPicker depth mode alpha = some k) :
    k.arity = (if alpha = true then mode.channels + 1 else mode.channels) := by
  unfold findPicker findNGrayPicker findNRGBAPicker findNCMYKAPicker at h
  split at h
  · rename_i hm
    have hch : mode.channels = 1 := by rcases hm with hm | hm <;> rw [hm] <;> rfl
    rw [hch]
    repeat' split at h
    all_goals first | cases h | skip
    all_goals (cases alpha <;> rfl)
  · split at h
    · rename_i hm
      rw [show mode.channels = 3 by rw [hm]; rfl]
      repeat' split at h
      all_goals first | cases h | skip
      all_goals (cases alpha <;> rfl)
    · split at h
      · rename_i hm
        rw [show mode.channels = 4 by rw [hm]; rfl]
        repeat' split at h
        all_goals first | cases h | skip
        all_goals (cases alpha <;> rfl)
      · cases h

/-- Choosing how to show the merged picture does not panic, and the picker finds its planes. -/
theorem makePicker_safe {cfg : Config} (h : Paintable cfg) (hc : 1 ≤ cfg.channels) :
    (∀ e, cfg.makePicker ≠ .panic e) ∧ ∀ k pal, cfg.makePicker = .ok (k, pal) → k.arity ≤ cfg.channels := by
  unfold Config.makePicker
  split
  · refine ⟨Res.bind_np (palette_safe h) fun a q => by simp, fun k pal hk => ?_⟩
    obtain ⟨pal', -, h2⟩ := Res.bind_eq_ok.1 hk
    cases h2
    exact hc
  · split
    · refine ⟨by intro e; simp, fun k pal hk => ?_⟩
      cases hk
      exact hc
    · refine ⟨Res.bind_np (fun q => ?_) fun a q => ?_, fun k pal hk => ?_⟩
      · split
        · unfold hasAlphaID0
          split
          · simp
          · exact alphaID0_safe _ _ (h.alpha _ ‹_›) q
        · simp
      · split <;> simp
      · obtain ⟨alpha, h1, h2⟩ := Res.bind_eq_ok.1 hk
        have hal : alpha = true → cfg.colorMode.channels < cfg.channels := by
          intro ht
          by_cases hx : (cfg.channels : Int) > cfg.colorMode.channels
          · exact hx
          · rw [if_neg hx, ht] at h1; cases h1
        have he := h.enough
        have key : k.arity = (if alpha = true then cfg.colorMode.channels + 1 else cfg.colorMode.channels) := by
          cases hf : findPicker cfg.depth cfg.colorMode alpha with
          | none => rw [hf] at h2; cases h2
          | some k' =>
            rw [hf] at h2
            cases h2
            exact findPicker_arity hf
        cases alpha
        · simp only [Bool.false_eq_true, if_false] at key; omega
        · have := hal rfl
          simp only [if_true] at key; omega

theorem config_bounds {m : Nat} : Ens (decodeConfigF m) fun r =>
    1 ≤ r.1.channels ∧ r.1.channels ≤ 56 ∧ r.1.depth ∈ [1, 8, 16, 32] ∧ (r.1.psb = false → r.1.rect.dy ≤ 30000) := by
  unfold decodeConfigF
  refine Ens.bind_any fun b => ?_
  refine Ens.ite (fun _ => Ens.fail) fun _ => Ens.ite (fun _ => Ens.fail) fun hv => ?_
  refine Ens.ite (fun _ => Ens.fail) fun hc => Ens.ite (fun _ => Ens.fail) fun h1 => ?_
  refine Ens.ite (fun _ => Ens.fail) fun h2 => Ens.ite (fun _ => Ens.fail) fun hd => ?_
  refine Ens.bind_any fun cmd => Ens.bind_any fun ⟨res, l⟩ => Ens.pure ?_
  simp only [Rect.make, Rect.dy, List.mem_cons, List.not_mem_nil, or_false]
  refine ⟨by omega, by omega, by omega, fun hp => ?_⟩
  unfold Config.psb at hp
  simp only [beq_eq_false_iff_ne, ne_eq] at hp
  omega

/-- **C10 Decode never panics** (part). For every byte string of up to 8 GiB, reader and chunking, with or without layer
pictures: if every block has a length that can be allocated and every unicode name and section divider block has room
for what it announces, layer pictures are skipped or the layer records of the file are drawable (their channels
are ones the colour mode has and their planes fit in memory), and the merged picture is skipped or can
be shown (and in PSB files has at most 65536 rows of all channels), then `Decode` returns a document or an error and
does not panic.  Missing: the inputs excluded above; `C10_panics` shows that for such the claim is false. -/
theorem C10_never_panics_partial (env : Env) (hp : 1 ≤ env.procs) (o : Options) (s : St)
    (hsize : s.data.length ≤ 2 ^ 33)
    (hcfg : ∀ cfg n s', decodeConfig s = .ok ((cfg, n), s') →
      SoundBlocks cfg.psb s.data ∧
      (o.skipLayerImage = true ∨
        DrawableLayers cfg.psb cfg.depth cfg.colorMode s.data (s'.pos + wide cfg.psb)) ∧
      (o.skipMergedImage = true ∨
        (Paintable cfg ∧ (cfg.psb = true → cfg.rect.dy.toNat * cfg.channels ≤ 65536)))) (e : Panic) :
    decode env o s ≠ .panic e := by
  rw [decode_eq env o s (Nat.lt_succ_self _) (Nat.lt_succ_self _)]
  unfold decodeF
  rw [P.bind_apply]
  cases hc : decodeConfigF (s.data.length + 1) s with
  | panic q => exact absurd hc (NoPanic.configF _ s q)
  | err q => simp
  | fuel => simp
  | ok r =>
    obtain ⟨⟨cfg, read⟩, t⟩ := r
    have hd := (frame_decodeConfigF _ _ _ _ hc).1
    obtain ⟨b1, b2, b3, b4⟩ := config_bounds _ _ _ hc
    obtain ⟨hsound, hlay, hm⟩ := hcfg cfg read t (by rw [decodeConfig_eq s (Nat.lt_succ_self _)]; exact hc)
    simp only
    rw [P.ite_app]
    split
    · simp
    · rw [P.bind_apply]
      have hmain : SectionOk o cfg s.data (t.pos + wide cfg.psb) := hlay.imp id fun h => h.1
      have hnest : ∀ q, Spec.NestedAt s.data q → SectionOk o cfg s.data q := fun q hq => hlay.imp id fun h => h.2 q hq
      obtain ⟨h1, h2⟩ := safe_layerAndMask hsize env hp cfg hsound o hnest (s.data.length + 1) t hd hmain
      cases hl : readLayerAndMaskInfo env cfg o (s.data.length + 1) t with
      | panic q => exact absurd hl (h1 q)
      | err q => simp
      | fuel => simp
      | ok r =>
        obtain ⟨⟨psd, l⟩, u⟩ := r
        have hd2 := h2 _ _ hl
        simp only
        rw [P.ite_app]
        split
        · simp
        · rename_i hsk
          obtain ⟨hpa, hrow⟩ := hm.resolve_left hsk
          obtain ⟨k1, k2⟩ := makePicker_safe hpa b1
          have hgray : ∃ g, findGrayPicker cfg.depth = some g := by
            simp only [List.mem_cons, List.not_mem_nil, or_false] at b3
            rcases b3 with h | h | h | h <;> rw [h] <;> exact ⟨_, rfl⟩
          obtain ⟨g, hg⟩ := hgray
          have hsafe : Safe s.data (readMerged env cfg psd) fun _ => True := by
            unfold readMerged
            rw [hg]
            refine Safe.bind (Q := fun _ => True) (Safe.lift (by simp) fun _ _ => trivial) fun gk _ => ?_
            refine Safe.bind (Q := fun r => r.1.arity ≤ cfg.channels) (Safe.lift k1 fun r hr => k2 r.1 r.2 hr)
              fun ⟨k, pal⟩ hk => ?_
            refine Safe.bind (Q := fun _ => True) (Safe.lift ?_ fun _ _ => trivial) fun _ _ => ?_
            · intro q
              unfold PickerKind.setSource
              rw [if_pos (by rw [List.length_replicate]; exact hk)]
              simp
            refine (safe_readAny _).bind fun b _ => ?_
            refine Safe.bind (Q := fun _ => True) ?_ fun ⟨data, l⟩ _ => Safe.pure trivial
            intro v hv
            refine ⟨fun q => ?_, fun a s' he => ⟨?_, trivial⟩⟩
            · refine cmDecode_safe env hp _ cfg.rect cfg.depth b3 cfg.channels cfg.psb ?_ 0 v (by rw [hv]; exact hsize) q
              cases hpsb : cfg.psb with
              | false =>
                rw [show get4or8 false / 2 = 2 from rfl]
                have hm : cfg.rect.dy.toNat * cfg.channels ≤ 30000 * 56 := Nat.mul_le_mul (by have : cfg.rect.dy ≤ 30000 := b4 hpsb; omega) b2
                omega
              | true =>
                rw [show get4or8 true / 2 = 4 from rfl]
                have := hrow hpsb
                omega
            · exact ((frame_clo.cmDecode frame_lift env (frame_zlib env) _ _ _ _ _ _ _ v a s' he).1).trans hv
          have := hsafe u hd2
          rw [P.bind_apply]
          cases hh : readMerged env cfg psd u with
          | panic q => exact absurd hh (this.1 q)
          | _ => simp

/-- The example document, which has section dividers and layers with pictures, meets the hypotheses. -/
example : exDoc.bytes.length ≤ 2 ^ 33 ∧
    (∀ cfg n s', decodeConfig { data := exDoc.bytes } = .ok ((cfg, n), s') → SoundBlocks cfg.psb exDoc.bytes ∧
      DrawableLayers cfg.psb cfg.depth cfg.colorMode exDoc.bytes (s'.pos + wide cfg.psb) ∧
      Paintable cfg ∧ (cfg.psb = true → cfg.rect.dy.toNat * cfg.channels ≤ 65536)) := by
  have hl : exDoc.bytes.length < 2000 := by decide +kernel
  refine ⟨by omega, fun cfg n s' h => ?_⟩
  have hc : (decodeConfig { data := exDoc.bytes }).map (fun r => (r.1.1.psb, r.1.1.colorMode, r.1.1.channels,
      r.1.1.res 0x041D, r.1.1.depth, r.2.pos)) = .ok (false, cmRGB, 4, none, 8, 34) := by decide +kernel
  rw [h] at hc
  have hc := Res.ok.inj hc
  simp only [Prod.mk.injEq] at hc
  obtain ⟨h1, h2, h3, h4, h5, h6⟩ := hc
  rw [h1, h2, h5, h6]
  refine ⟨Spec.soundBlocks_of _ _ (by decide +kernel), Spec.drawableLayers_of _ _ _ _ _ (by decide +kernel)
    (by decide +kernel), ⟨fun hi => ?_, fun hi => ?_, fun r hr => ?_, ?_⟩, fun hf => by cases hf⟩
  · rw [h2] at hi; exact absurd hi (by decide)
  · rw [h2] at hi; exact absurd hi (by decide)
  · rw [h4] at hr; cases hr
  · rw [h2, h3]; decide

/-- So does the PSB example, which has section dividers and layers with pictures. -/
example : exDocPSB.bytes.length ≤ 2 ^ 33 ∧
    (∀ cfg n s', decodeConfig { data := exDocPSB.bytes } = .ok ((cfg, n), s') → SoundBlocks cfg.psb exDocPSB.bytes ∧
      DrawableLayers cfg.psb cfg.depth cfg.colorMode exDocPSB.bytes (s'.pos + wide cfg.psb) ∧
      Paintable cfg ∧ (cfg.psb = true → cfg.rect.dy.toNat * cfg.channels ≤ 65536)) := by
  have hl : exDocPSB.bytes.length < 2000 := by decide +kernel
  refine ⟨by omega, fun cfg n s' h => ?_⟩
  have hc : (decodeConfig { data := exDocPSB.bytes }).map (fun r => (r.1.1.psb, r.1.1.colorMode, r.1.1.channels,
      r.1.1.res 0x041D, r.1.1.depth, r.2.pos)) = .ok (true, cmRGB, 4, none, 8, 34) := by decide +kernel
  have hy : (decodeConfig { data := exDocPSB.bytes }).map (fun r => r.1.1.rect.dy) = .ok 1 := by decide +kernel
  rw [h] at hy
  have h0 : cfg.rect.dy = 1 := Res.ok.inj hy
  rw [h] at hc
  have hc := Res.ok.inj hc
  simp only [Prod.mk.injEq] at hc
  obtain ⟨h1, h2, h3, h4, h5, h6⟩ := hc
  rw [h1, h2, h5, h6]
  refine ⟨Spec.soundBlocks_of _ _ (by decide +kernel), Spec.drawableLayers_of _ _ _ _ _ (by decide +kernel)
    (by decide +kernel), ⟨fun hi => ?_, fun hi => ?_, fun r hr => ?_, ?_⟩, fun _ => by rw [h0, h3]; decide⟩
  · rw [h2] at hi; exact absurd hi (by decide)
  · rw [h2] at hi; exact absurd hi (by decide)
  · rw [h4] at hr; cases hr
  · rw [h2, h3]; decide

/-- An RGB header with one channel only. -/
def exFewChannels : Doc :=
  { exDoc with header := { exDoc.header with channels := 1 }, layerMask := none, merged := .raw [1, 2] [] }

/-- A palette document with a layer. -/
def exIndexedLayer : Doc :=
  { exDoc with
    header := { exDoc.header with channels := 1, mode := 2, colorData := List.replicate 768 0 }
    layerMask := some ⟨some { forest := [.layer { exFolder 0 with blocks := [], divider := none }] }, .none []⟩
    merged := .raw [1, 2] [] }

/-- A palette document with a colour table of three bytes. -/
def exShortTable : Doc :=
  { exDoc with
    header := { exDoc.header with channels := 1, mode := 2, colorData := [1, 2, 3] }
    layerMask := none
    merged := .raw [1, 2] [] }

/-- A document with a layer that has one block of the given name and contents. -/
def exBlockLayer (key body : List UInt8) : Doc :=
  { exDoc with
    layerMask := some ⟨some { forest := [.layer { exFolder 0 with
      blocks := [⟨[56, 66, 73, 77], key, body, []⟩], divider := none }] }, .none []⟩ }

/-- A PSB document whose layer has a block that announces 2^62 bytes. -/
def exHugeBlock : List UInt8 :=
  let d : Doc := { exDocPSB with layerMask := some ⟨some { forest := [.layer { exFolder 0 with
      blocks := [⟨[56, 66, 73, 77], [76, 77, 115, 107], [], []⟩], divider := none }] }, .none []⟩ }
  d.bytes.take 106 ++ [64] ++ d.bytes.drop 107

/-- The claim is false for: RGB files with fewer than three channels, layers in indexed documents, short colour
tables, section divider blocks of less than four bytes, unicode names longer than their block, and blocks
that announce more bytes than can be allocated. -/
theorem C10_panics :
    (outcome (decode exEnv {} { data := exFewChannels.bytes })).isPanic = true ∧
    (outcome (decode exEnv {} { data := exIndexedLayer.bytes })).isPanic = true ∧
    (outcome (decode exEnv {} { data := exShortTable.bytes })).isPanic = true ∧
    (outcome (decode exEnv {} { data := (exBlockLayer [0x6C, 0x73, 0x63, 0x74] [0, 0]).bytes })).isPanic = true ∧
    (outcome (decode exEnv {} { data := (exBlockLayer [0x6C, 0x75, 0x6E, 0x69] [0, 0, 0, 9, 0, 65]).bytes })).isPanic = true ∧
    (outcome (decode exEnv {} { data := exHugeBlock })).isPanic = true := by
  decide +kernel

end Psd
