import Verif.Lemmas.Eager
import Verif.Lemmas.Compress
import Verif.Spec.Document

/-
Properties of the picture decoders: C13–C20.
-/

namespace Psd
open Spec (Packet rowBytes rowMeaning rowLen wide lengthTable unpack cut headers)

theorem wide_eq (large : Bool) : wide large = get4or8 large := rfl

theorem sum_map_length (rows : List (List UInt8)) : (rows.map List.length).sum = rows.flatten.length := by
  induction rows with
  | nil => rfl
  | cons r rs ih => rw [List.map_cons, List.sum_cons, ih, List.flatten_cons, List.length_append]

theorem flatMap_eq_flatten_map {α β : Type} (l : List α) (f : α → List β) :
    l.flatMap f = (l.map f).flatten := rfl

/-- RLE data of `rows`: the table of row lengths, then the rows. -/
def rleBytes (large : Bool) (rows : List (List Packet)) : List UInt8 :=
  lengthTable (wide large / 2) (rows.map fun r => (rowBytes r).length) ++ rows.flatMap rowBytes

/-- Serial and parallel decoding of correctly encoded rows. -/
theorem rows_run {procs : Nat} (hp : 1 ≤ procs) {rows : List (List Packet)} {width : Nat}
    (hvalid : ∀ r ∈ rows, (∀ p ∈ r, p.Valid) ∧ (rowMeaning r).length = width)
    {dest : List UInt8} (hdest : dest.length = rows.length * width) :
    packBitsRows procs dest (rows.flatMap rowBytes) (rows.map fun r => (rowBytes r).length) width =
      .ok (rows.flatMap rowMeaning) := by
  have hcut : cut (rows.map fun r => (rowBytes r).length) (rows.flatMap rowBytes) =
      rows.map rowBytes := by
    have := cut_flatten (rows.map rowBytes)
    rw [List.map_map] at this
    rw [flatMap_eq_flatten_map]; exact this
  have hsum : (rows.map fun r => (rowBytes r).length).sum = (rows.flatMap rowBytes).length := by
    rw [flatMap_eq_flatten_map, ← sum_map_length, List.map_map]; rfl
  have hlen : (rows.flatMap rowMeaning).length = rows.length * width := by
    clear hcut hsum hdest
    induction rows with
    | nil => simp
    | cons r rs ih =>
      rw [List.flatMap_cons, List.length_append, (hvalid r (by simp)).2,
        ih (fun r hr => hvalid r (by simp [hr])), List.length_cons, Nat.succ_mul]; omega
  rw [packBitsRows_exact procs hp dest _ _ width (by omega) (by simp; omega), hcut,
    unpackAll_rows rows (fun r hr => (hvalid r hr).1)]
  · simp only [rowsResult, ← flatMap_eq_flatten_map]
    rw [if_pos (by omega), List.drop_eq_nil_of_le (by omega), List.append_nil]
  · rw [hcut]
    intro r hr w hw
    obtain ⟨q, hq, rfl⟩ := List.mem_map.1 hr
    rw [unpack_rowBytes q (hvalid q hq).1] at hw
    cases hw; exact (hvalid q hq).2

/-- RLE decoding of correctly encoded rows, on a reader that fills every request. -/
theorem rle_runs (env : Env) (hp : 1 ≤ env.procs) (rect : Rect) (depth : Nat)
    (hdepth : depth = 1 ∨ depth = 8) (channels : Nat) (large : Bool) (hint : Int)
    (rows : List (List Packet)) (hrows : rows.length = rect.dy.toNat * channels)
    (hvalid : ∀ r ∈ rows, (∀ p ∈ r, p.Valid) ∧ (rowMeaning r).length = rowLen depth rect.dx.toNat ∧
      (rowBytes r).length < 256 ^ (wide large / 2))
    (htotal : (rows.flatMap rowBytes).length ≤ 2 ^ 48)
    (dest : List UInt8) (hdest : dest.length = rows.length * rowLen depth rect.dx.toNat) :
    Runs (cmDecode env 1 dest hint rect depth channels large) (rleBytes large rows)
      (rows.flatMap rowMeaning, ((rleBytes large rows).length : Int)) := by
  have hw : (if depth = 1 then (rect.dx.toNat + 7) / 8 else rect.dx.toNat) =
      rowLen depth rect.dx.toNat := by
    unfold rowLen
    rcases hdepth with rfl | rfl
    · simp
    · simp; omega
  have h1 := rows_run (procs := env.procs) hp (rows := rows) (width := rowLen depth rect.dx.toNat)
    (fun r hr => ⟨(hvalid r hr).1, (hvalid r hr).2.1⟩) hdest
  have h2 := Runs.packBits (large := large) (lens := rows.map fun r => (rowBytes r).length)
    (by intro n hn; obtain ⟨r, hr, rfl⟩ := List.mem_map.1 hn; exact (hvalid r hr).2.2)
    (by rw [flatMap_eq_flatten_map, ← sum_map_length, List.map_map]; rfl)
    (by unfold maxAlloc; exact htotal) h1
  unfold cmDecode
  rw [if_neg (by decide), if_pos rfl]
  simp only
  rw [hw, ← hrows]
  rw [List.length_map] at h2
  refine Runs.congr h2 rfl ?_
  simp only [rleBytes, List.length_append, lengthTable_length, List.length_map, wide_eq]

/-- **C13 PackBits decoding inverts every encoding.** For every picture of `rows.length` rows
and every way of writing its rows as packets (literals, repeats, no-ops), decoding with the RLE
method yields exactly the picture's bytes and consumes exactly the encoding: for PSD and PSB
tables, whatever follows, for every reader schedule and every GOMAXPROCS. -/
theorem C13_packbits_inverts (env : Env) (hp : 1 ≤ env.procs) (rect : Rect) (depth : Nat)
    (hdepth : depth = 1 ∨ depth = 8) (channels : Nat) (large : Bool) (hint : Int)
    (rows : List (List Packet)) (hrows : rows.length = rect.dy.toNat * channels)
    (hvalid : ∀ r ∈ rows, (∀ p ∈ r, p.Valid) ∧ (rowMeaning r).length = rowLen depth rect.dx.toNat ∧
      (rowBytes r).length < 256 ^ (wide large / 2))
    (htotal : (rows.flatMap rowBytes).length ≤ 2 ^ 48)
    (dest : List UInt8) (hdest : dest.length = rows.length * rowLen depth rect.dx.toNat)
    (s : St) (rest : List UInt8) (hav : s.avail = rleBytes large rows ++ rest)
    (hsched : ReadsAtLeast 1 s.sched) (hsize : s.data.length < 2 ^ 63)
    (hpos : s.pos ≤ s.data.length) :
    ∃ s', cmDecode env 1 dest hint rect depth channels large s =
        .ok ((rows.flatMap rowMeaning, ((rleBytes large rows).length : Int)), s') ∧
      s'.pos = s.pos + (rleBytes large rows).length := by
  have hrun := rle_runs env hp rect depth hdepth channels large hint rows hrows hvalid htotal dest hdest
  obtain ⟨sched', e, _⟩ := hrun.any (sim_cmDecode (Nat.le_refl 1) env (by decide) (by decide) _ _ _ _ _ _)
    (s.ends false) rest hav hsched rfl hsize hpos
  exact ⟨_, endsR_cmDecode _ _ _ _ _ _ _ _ (s.ends false) _ _ s.eager e, rfl⟩

/-- Four rows of three bytes, written with literals, repeats and no-ops. -/
def exRows : List (List Packet) :=
  [[.lit [1, 2, 3]], [.run 3 7], [.nop, .lit [5], .run 2 6], [.run 2 0, .nop, .lit [9]]]

example : (∀ r ∈ exRows, (∀ p ∈ r, p.Valid) ∧ (rowMeaning r).length = rowLen 8 3 ∧
      (rowBytes r).length < 256 ^ (wide false / 2)) ∧
    (outcome (cmDecode ⟨2, fun _ _ => none, fun _ _ _ => 0⟩ 1 (List.replicate 12 0) 0 ⟨-1, 5, 2, 9⟩ 8 1 false
      { data := rleBytes false exRows, sched := List.replicate 40 1 })) =
      .ok ([1, 2, 3, 7, 7, 7, 5, 6, 6, 0, 0, 9], 24) := by decide +kernel

/-! ### Arbitrary compressed bytes -/

theorem sum_le_mul : ∀ (l : List Nat) (b : Nat), (∀ x ∈ l, x ≤ b) → l.sum ≤ l.length * b := by
  intro l b
  induction l with
  | nil => intro _; simp
  | cons x xs ih =>
    intro h
    have := ih (fun y hy => h y (by simp [hy]))
    have := h x (by simp)
    simp only [List.sum_cons, List.length_cons, Nat.succ_mul]; omega

theorem pbLens_lt (sz : Nat) : ∀ n t, ∀ x ∈ pbLens sz n t, x < 256 ^ sz := by
  intro n
  induction n with
  | zero => intro t x h; simp [pbLens] at h
  | succ n ih =>
    intro t x h
    rw [pbLens, List.mem_cons] at h
    rcases h with rfl | h
    · have := beAt_lt t 0 sz
      simpa [beAt] using this
    · exact ih _ _ h

/-- The row lengths announced by the table at the reader's position. -/
def tableTotal (large : Bool) (lines : Nat) (s : St) : Nat :=
  ((pbLens (get4or8 large / 2) lines (s.avail.take (lines * (get4or8 large / 2))))).sum

/-- **C14 PackBits decoding is memory safe** (part). On every stream, reader and destination of
the size the callers allocate (`Spec.rowLen depth width` bytes per row), RLE decoding succeeds with
a destination of unchanged size, or returns an error, or the allocation of the compressed buffer
panics, and that only if the table announces more than 2^48 bytes.  (Files up to 8 GiB, so that
the announced lengths cannot overflow 64 bits.)  In particular no index or slice
expression is ever out of range.  Missing from the full claim: the allocation panic, which
`C14_huge_table_panics` shows to be reachable. -/
theorem C14_packbits_safe_partial (env : Env) (hp : 1 ≤ env.procs) (rect : Rect) (depth : Nat)
    (hdepth : depth ∈ [1, 8, 16, 32]) (channels : Nat) (large : Bool) (hint : Int)
    (dest : List UInt8) (hdest : dest.length = rowLen depth rect.dx.toNat * rect.dy.toNat * channels)
    (s : St) (hfile : s.data.length ≤ 2 ^ 33) :
    (∃ d n s', cmDecode env 1 dest hint rect depth channels large s = .ok ((d, n), s') ∧
      d.length = dest.length) ∨
    (∃ e, cmDecode env 1 dest hint rect depth channels large s = .err e) ∨
    (cmDecode env 1 dest hint rect depth channels large s = .panic .makeslice ∧
      2 ^ 48 < tableTotal large (rect.dy.toNat * channels) s) := by
  have hunf : cmDecode env 1 dest hint rect depth channels large =
      decodePackBits env.procs dest (if depth = 1 then (rect.dx.toNat + 7) / 8 else rect.dx.toNat)
        (rect.dy.toNat * channels) large := rfl
  have hw : (if depth = 1 then (rect.dx.toNat + 7) / 8 else rect.dx.toNat) ≤
      rowLen depth rect.dx.toNat := by
    unfold rowLen
    simp only [List.mem_cons, List.not_mem_nil, or_false] at hdepth
    rcases hdepth with rfl | rfl | rfl | rfl <;> simp <;> omega
  rw [hunf]
  generalize (if depth = 1 then (rect.dx.toNat + 7) / 8 else rect.dx.toNat) = width at hw
  have hd : rect.dy.toNat * channels * width ≤ dest.length := by
    rw [hdest, Nat.mul_assoc (rowLen _ _), Nat.mul_comm (rowLen _ _)]
    exact Nat.mul_le_mul_left _ hw
  generalize rect.dy.toNat * channels = lines at hd
  unfold decodePackBits tableTotal
  generalize hsz : get4or8 large / 2 = sz
  simp only
  by_cases hav : lines * sz ≤ s.avail.length
  · obtain ⟨sched', e, _⟩ := readFull_ok hav
    rw [P.bind_ok e]
    generalize hL : pbLens sz lines (s.avail.take (lines * sz)) = lens
    have hlens : lens.length = lines := by rw [← hL, pbLens_length]
    simp only [goMake]
    by_cases hm : 0 ≤ wrap64 (lens.sum : Int) ∧ wrap64 (lens.sum : Int) ≤ maxAlloc
    · rw [if_pos hm, P.bind_ok (P.lift_ok _ _)]
      cases hr : readFull (wrap64 (lens.sum : Int)).toNat
          { s with pos := s.pos + lines * sz, sched := sched' } with
      | ok x =>
        rw [P.bind_ok hr]
        have hbl : x.1.length = (wrap64 (lens.sum : Int)).toNat :=
          (readFull_eq_ok (b := x.1) (s' := x.2) hr).2.2.1
        have hbig : lens.sum < 2 ^ 63 := by
          have h1 := sum_le_mul lens (256 ^ sz - 1) (by
            intro y hy; rw [← hL] at hy; have := pbLens_lt sz _ _ y hy; omega)
          rw [hlens] at h1
          have h2 := s.avail_length
          have h3 : sz = 2 ∨ sz = 4 := by rw [← hsz]; cases large <;> simp [get4or8]
          rcases h3 with rfl | rfl <;> omega
        rw [wrap64_small (by omega) (by omega)] at hbl
        rcases packBitsRows_safe env.procs hp dest x.1 lens width (by omega) (by rw [hlens]; exact hd) with
          ⟨d, h1, h2⟩ | h1
        · rw [h1, P.bind_ok (P.lift_ok _ _)]
          exact .inl ⟨d, _, _, rfl, h2⟩
        · rw [h1, P.bind_err (P.lift_err _ _)]
          exact .inr (.inl ⟨_, rfl⟩)
      | err e => rw [P.bind_err hr]; exact .inr (.inl ⟨_, rfl⟩)
      | panic q =>
        exfalso
        by_cases h1 : (wrap64 (lens.sum : Int)).toNat ≤
            ({ s with pos := s.pos + lines * sz, sched := sched' } : St).avail.length
        · obtain ⟨_, e', _⟩ := readFull_ok h1
          rw [e'] at hr; cases hr
        · rw [readFull_err (Nat.lt_of_not_le h1)] at hr; cases hr
      | fuel => exact absurd hr (readFull_nofuel _ _)
    · rw [if_neg hm, P.bind_panic (P.lift_panic _ _)]
      refine .inr (.inr ⟨rfl, ?_⟩)
      by_cases hbig : lens.sum ≤ 2 ^ 48
      · rw [wrap64_small (by omega) (by omega)] at hm
        unfold maxAlloc at hm; omega
      · omega
  · rw [P.bind_err (readFull_err (by omega))]
    exact .inr (.inl ⟨_, rfl⟩)

/-- The hypotheses are those of every call: here a 16-bit picture and garbage. -/
example : (outcome (cmDecode ⟨4, fun _ _ => none, fun _ _ _ => 0⟩ 1 (List.replicate 24 0) 0 ⟨0, 0, 3, 4⟩ 16 1 false
      { data := [0, 2, 0, 1, 0, 9, 0, 0, 200, 1, 128, 3, 4, 5, 6, 7, 8, 9, 10, 11] })).isErr = true ∧
    (List.replicate 24 (0 : UInt8)).length = rowLen 16 3 * 4 * 1 := by decide +kernel

theorem pbLens_ff (n : Nat) : pbLens 4 n (List.replicate (n * 4) 255) =
    List.replicate n (2 ^ 32 - 1) := by
  induction n with
  | zero => rfl
  | succ n ih =>
    have e : List.replicate ((n + 1) * 4) (255 : UInt8) =
        [255, 255, 255, 255] ++ List.replicate (n * 4) 255 := by
      rw [show (n + 1) * 4 = 4 + n * 4 by omega, ← List.replicate_append_replicate]; rfl
    rw [e, pbLens, List.take_append_of_le_length (by simp), List.drop_append_of_le_length (by simp)]
    simp only [List.drop_succ_cons, List.drop_zero, List.take_succ_cons, List.take_zero, List.nil_append, ih]
    rfl

/-- The claim of C14 that RLE decoding never panics is false: a PSB picture of 65537 rows whose
table is filled with 0xFF asks for more memory than Go can address, on every machine. -/
theorem C14_huge_table_panics (env : Env) (sched : List Nat) :
    cmDecode env 1 (List.replicate 65537 0) 0 ⟨0, 0, 1, 65537⟩ 8 1 true
      { data := List.replicate (65537 * 4) 255, sched := sched } = .panic .makeslice := by
  have hunf : cmDecode env 1 (List.replicate 65537 0) 0 ⟨0, 0, 1, 65537⟩ 8 1 true =
      decodePackBits env.procs (List.replicate 65537 0) 1 65537 true := rfl
  rw [hunf]
  unfold decodePackBits
  simp only
  have hsz : get4or8 true / 2 = 4 := rfl
  rw [hsz]
  have hl : ({ data := List.replicate (65537 * 4) 255, sched := sched } : St).avail =
      List.replicate (65537 * 4) 255 := rfl
  obtain ⟨sched', e, _⟩ := readFull_ok (k := 65537 * 4)
    (s := { data := List.replicate (65537 * 4) 255, sched := sched })
    (by rw [hl, List.length_replicate]; exact Nat.le_refl _)
  rw [P.bind_ok e, hl, List.take_of_length_le (by rw [List.length_replicate]; exact Nat.le_refl _),
    pbLens_ff]
  have hsum : (List.replicate 65537 (2 ^ 32 - 1)).sum = 281479271612415 := by
    rw [List.sum_replicate_nat]
  rw [hsum]
  have hm : goMake (wrap64 ((281479271612415 : Nat) : Int)) = .panic .makeslice := by decide
  rw [hm]
  rfl

/-! ### Splitting the rows over goroutines -/

/-- **C15 PackBits result is independent of GOMAXPROCS** (part). Whenever every readable row
expands to exactly the row width (malformed rows are allowed), the outcome is the same for
any two processor counts.  Missing: rows of other lengths, where `C15_depends_on_procs` shows the
claim to be false. -/
theorem C15_procs_irrelevant_partial (p q : Nat) (hp : 1 ≤ p) (hq : 1 ≤ q)
    (dest buf : List UInt8) (lens : List Nat) (width : Nat) (hbuf : lens.sum ≤ buf.length)
    (hdest : lens.length * width ≤ dest.length)
    (hrows : ∀ r ∈ cut lens buf, ∀ w, unpack r = some w → w.length = width) :
    packBitsRows p dest buf lens width = packBitsRows q dest buf lens width := by
  rw [packBitsRows_exact p hp dest buf lens width hbuf hdest hrows,
    packBitsRows_exact q hq dest buf lens width hbuf hdest hrows]

/-- Four rows of width 3, the last one malformed. -/
example : (∀ r ∈ cut [2, 2, 2, 2] [254, 1, 254, 2, 254, 3, 9, 9], ∀ w, unpack r = some w → w.length = 3) ∧
    (packBitsRows 2 (List.replicate 12 0) [254, 1, 254, 2, 254, 3, 254, 4] [2, 2, 2, 2] 3).isOk = true ∧
    packBitsRows 3 (List.replicate 12 0) [254, 1, 254, 2, 254, 3, 9, 9] [2, 2, 2, 2] 3 =
      .err errBrokenPackBits := by
  refine ⟨?_, by decide, by decide⟩
  intro r hr w hw
  have : r = [254, 1] ∨ r = [254, 2] ∨ r = [254, 3] ∨ r = [9, 9] := by
    simpa [cut] using hr
  rcases this with rfl | rfl | rfl | rfl <;> simp [unpack] at hw <;> subst hw <;> rfl

/-- With rows of uneven length the claim of C15 is false: one goroutine decodes these four rows of
width 1 (the first expands to 3 bytes), two goroutines report broken data. -/
theorem C15_depends_on_procs :
    packBitsRows 1 [0, 0, 0, 0] [254, 7, 0, 9] [2, 2, 0, 0] 1 = .ok [7, 7, 7, 9] ∧
    packBitsRows 2 [0, 0, 0, 0] [254, 7, 0, 9] [2, 2, 0, 0] 1 = .err errBrokenPackBits := by decide

/-! ### 16- and 32-bit pictures -/

theorem workers_one {lines procs : Nat} (hp : 1 ≤ procs) (h : procs = 1 ∨ lines < 4) :
    workers lines procs = 1 := by
  have h1 := workers_le lines procs
  have h2 := workers_pos lines procs hp
  have h3 := workers_spec lines procs
  omega

theorem workers_many {lines procs : Nat} (hp : 2 ≤ procs) (h : 4 ≤ lines) :
    2 ≤ workers lines procs := by
  induction procs with
  | zero => omega
  | succ n ih =>
    rw [workers]; split
    · rename_i hc
      by_cases hn : 2 ≤ n
      · exact ih hn
      · have : n = 1 := by omega
        subst this; omega
    · omega

theorem rowLen_wide {depth w : Nat} (hdepth : depth = 16 ∨ depth = 32) (hw : 1 ≤ w) : w < rowLen depth w := by
  unfold rowLen; rcases hdepth with rfl | rfl <;> omega

theorem pbJoin_ok_head {r : Res (List UInt8)} {rs : List (Res (List UInt8))} {d : List UInt8}
    (h : pbJoin (r :: rs) = .ok d) : ∃ x, r = .ok x := by
  simp only [pbJoin] at h
  split at h <;> first | exact ⟨_, rfl⟩ | cases h

theorem unpackAll_take {rows : List (List Packet)} (hv : ∀ r ∈ rows, ∀ p ∈ r, p.Valid) (k : Nat) :
    unpackAll ((rows.map rowBytes).take k) = some ((rows.map rowMeaning).take k) := by
  rw [← List.map_take, ← List.map_take]
  exact unpackAll_rows _ fun r hr => hv r (List.mem_of_mem_take hr)

theorem flatten_const_length : ∀ (rows : List (List UInt8)) (n : Nat), (∀ r ∈ rows, r.length = n) →
    rows.flatten.length = rows.length * n := by
  intro rows n
  induction rows with
  | nil => simp
  | cons r rs ih =>
    intro h
    rw [List.flatten_cons, List.length_append, h r (by simp), ih (fun r hr => h r (by simp [hr])),
      List.length_cons, Nat.succ_mul]; omega

/-- The whole of a correctly encoded 16- or 32-bit picture, split over goroutines. -/
theorem wide_rows_fail {procs : Nat} (hp : 2 ≤ procs) {rows : List (List Packet)} {w n : Nat}
    (hw : w < n) (h4 : 4 ≤ rows.length)
    (hvalid : ∀ r ∈ rows, (∀ p ∈ r, p.Valid) ∧ (rowMeaning r).length = n)
    {dest : List UInt8} (hdest : dest.length = rows.length * n) :
    packBitsRows procs dest (rows.flatMap rowBytes) (rows.map fun r => (rowBytes r).length) w =
      .err errBrokenPackBits := by
  generalize hlens : (rows.map fun r => (rowBytes r).length) = lens
  generalize hbuf : rows.flatMap rowBytes = buf
  have hll : lens.length = rows.length := by rw [← hlens, List.length_map]
  have hcut : cut lens buf = rows.map rowBytes := by
    have := cut_flatten (rows.map rowBytes)
    rw [List.map_map] at this
    rw [← hlens, ← hbuf, flatMap_eq_flatten_map]; exact this
  have hsum : lens.sum = buf.length := by
    rw [← hlens, ← hbuf, flatMap_eq_flatten_map, ← sum_map_length, List.map_map]; rfl
  have hd : lens.length * w ≤ dest.length := by
    rw [hll, hdest]; exact Nat.mul_le_mul_left _ (by omega)
  rcases packBitsRows_safe procs (by omega) dest buf lens w (by omega) hd with ⟨d, h1, _⟩ | h1
  · exfalso
    have hn := workers_many hp (lines := lens.length) (by omega)
    have h2 : 2 * workers lens.length procs ≤ lens.length := by
      rcases workers_spec lens.length procs with h | h <;> omega
    have hstep := step_bound hn h2
    obtain ⟨k, hk⟩ : ∃ k, workers lens.length procs - 1 = k + 1 := ⟨workers lens.length procs - 2, by omega⟩
    unfold packBitsRows at h1
    simp only at h1
    rw [if_neg (by omega), if_neg (by omega), hk] at h1
    rw [hk] at hstep
    generalize hs : lens.length / workers lens.length procs = step at h1 hstep
    have hsl : step ≤ lens.length := by rw [← hs]; exact Nat.div_le_self _ _
    obtain ⟨ts, e1, e2, e3⟩ := pbTasks_ok dest buf lens w step (by omega) hd (k + 1) 0 (by omega)
    rw [e1] at h1
    simp only [Res.ok_bind] at h1
    have hss : 0 + step < lens.length := by
      have := hstep.1; rw [Nat.succ_mul] at this; omega
    rw [pbTasks] at e1
    simp only [Nat.zero_mul, Nat.zero_add] at e1
    have g1 : step * w ≤ dest.length :=
      Nat.le_trans (Nat.mul_le_mul_right w hsl) hd
    have hts := take_sum_le lens step
    rw [show goSlice dest 0 (step * w) = .ok (dest.take (step * w)) by
        unfold goSlice; rw [if_pos ⟨by omega, g1⟩]; rfl, Res.ok_bind,
      goIndex_offsets (by omega), Res.ok_bind, goIndex_offsets (by omega), Res.ok_bind,
      show goSlice buf (lens.take 0).sum (lens.take step).sum = .ok (buf.take (lens.take step).sum) by
        unfold goSlice; rw [List.take_zero, List.sum_nil, if_pos ⟨by omega, by omega⟩]; rfl, Res.ok_bind,
      show goSlice lens 0 step = .ok (lens.take step) by
        unfold goSlice; rw [if_pos ⟨by omega, hsl⟩]; rfl, Res.ok_bind] at e1
    cases htl : pbTasks dest buf lens (offsetsFrom 0 lens) w step k step with
    | ok ts' =>
      rw [htl] at e1
      cases e1
      rw [List.map_cons] at h1
      obtain ⟨x, hx⟩ := pbJoin_ok_head h1
      simp only at hx
      have e4 := e3 _ (List.mem_cons_self)
      simp only at e4
      rw [perLine_spec _ _ _ e4, cut_take _ _ _ (Nat.le_refl _)] at hx
      have hc2 : cut (lens.take step) buf = (rows.map rowBytes).take step := by
        have h5 := cut_append (lens.take step) (lens.drop step) buf
        rw [List.take_append_drop, hcut] at h5
        rw [h5]; exact (List.take_left' (by rw [cut_length, List.length_take]; omega)).symm
      rw [hc2, unpackAll_take (fun r hr => (hvalid r hr).1)] at hx
      simp only [rowsResult] at hx
      have h6 : ((rows.map rowMeaning).take step).flatten.length = step * n := by
        rw [flatten_const_length _ n]
        · rw [List.length_take, List.length_map, Nat.min_eq_left (by omega)]
        · intro r hr
          obtain ⟨q, hq, rfl⟩ := List.mem_map.1 (List.mem_of_mem_take hr)
          exact (hvalid q hq).2
      have h7 : step * w < step * n := Nat.mul_lt_mul_of_pos_left hw (by omega)
      rw [h6, List.length_take, if_neg (by omega)] at hx
      cases hx
    | err e => rw [htl] at e1; cases e1
    | panic e => rw [htl] at e1; cases e1
    | fuel => rw [htl] at e1; cases e1
  · exact h1

/-- **C16 16-bit RLE data decodes like 8-bit** (part). For every correctly PackBits-encoded 16- or
32-bit picture, decoding succeeds with the picture's bytes if only one goroutine is used: a single
processor, or fewer than four rows.  Missing: several goroutines, where
`C16_parallel_rle_fails` shows the claim to be false for every picture. -/
theorem C16_wide_rle_partial (env : Env) (hp : 1 ≤ env.procs) (rect : Rect) (depth : Nat)
    (_hdepth : depth = 16 ∨ depth = 32) (channels : Nat) (large : Bool) (hint : Int)
    (rows : List (List Packet)) (hrows : rows.length = rect.dy.toNat * channels)
    (hvalid : ∀ r ∈ rows, (∀ p ∈ r, p.Valid) ∧ (rowMeaning r).length = rowLen depth rect.dx.toNat ∧
      (rowBytes r).length < 256 ^ (wide large / 2))
    (htotal : (rows.flatMap rowBytes).length ≤ 2 ^ 48) (hone : env.procs = 1 ∨ rows.length < 4)
    (dest : List UInt8) (hdest : dest.length = rows.length * rowLen depth rect.dx.toNat)
    (s : St) (rest : List UInt8) (hav : s.avail = rleBytes large rows ++ rest)
    (hsched : ReadsAtLeast 1 s.sched) (hsize : s.data.length < 2 ^ 63)
    (hpos : s.pos ≤ s.data.length) :
    ∃ s', cmDecode env 1 dest hint rect depth channels large s =
        .ok ((rows.flatMap rowMeaning, ((rleBytes large rows).length : Int)), s') ∧
      s'.pos = s.pos + (rleBytes large rows).length := by
  have hrun : Runs (cmDecode env 1 dest hint rect depth channels large) (rleBytes large rows)
      (rows.flatMap rowMeaning, ((rleBytes large rows).length : Int)) := by
    have h1 := rows_run (procs := env.procs) hp (rows := rows) (width := rowLen depth rect.dx.toNat)
      (fun r hr => ⟨(hvalid r hr).1, (hvalid r hr).2.1⟩) hdest
    have hww : ∀ w, packBitsRows env.procs dest (rows.flatMap rowBytes)
        (rows.map fun r => (rowBytes r).length) w = .ok (rows.flatMap rowMeaning) := by
      intro w
      rw [← h1]; unfold packBitsRows
      simp only
      rw [workers_one hp (by rwa [List.length_map]), if_pos rfl, if_pos rfl]
    have h2 := fun w => Runs.packBits (large := large) (lens := rows.map fun r => (rowBytes r).length)
      (by intro n hn; obtain ⟨r, hr, rfl⟩ := List.mem_map.1 hn; exact (hvalid r hr).2.2)
      (by rw [flatMap_eq_flatten_map, ← sum_map_length, List.map_map]; rfl)
      (by unfold maxAlloc; exact htotal) (hww w)
    unfold cmDecode
    rw [if_neg (by decide), if_pos rfl]
    simp only
    rw [← hrows]
    simp only [List.length_map] at h2
    refine Runs.congr (h2 _) rfl ?_
    simp only [rleBytes, List.length_append, lengthTable_length, List.length_map, wide_eq]
  obtain ⟨sched', e, _⟩ := hrun.any (sim_cmDecode (Nat.le_refl 1) env (by decide) (by decide) _ _ _ _ _ _)
    (s.ends false) rest hav hsched rfl hsize hpos
  exact ⟨_, endsR_cmDecode _ _ _ _ _ _ _ _ (s.ends false) _ _ s.eager e, rfl⟩

/-- The claim of C16 is false as soon as rows are split: **every** correctly encoded 16- or 32-bit
picture with at least four rows and one column is rejected as broken when GOMAXPROCS is at least 2. -/
theorem C16_parallel_rle_fails (env : Env) (hp : 2 ≤ env.procs) (rect : Rect) (depth : Nat)
    (hdepth : depth = 16 ∨ depth = 32) (channels : Nat) (large : Bool) (hint : Int)
    (rows : List (List Packet)) (hrows : rows.length = rect.dy.toNat * channels)
    (hvalid : ∀ r ∈ rows, (∀ p ∈ r, p.Valid) ∧ (rowMeaning r).length = rowLen depth rect.dx.toNat ∧
      (rowBytes r).length < 256 ^ (wide large / 2))
    (htotal : (rows.flatMap rowBytes).length ≤ 2 ^ 48) (hmany : 4 ≤ rows.length) (hw : 1 ≤ rect.dx)
    (dest : List UInt8) (hdest : dest.length = rows.length * rowLen depth rect.dx.toNat)
    (s : St) (rest : List UInt8) (hav : s.avail = rleBytes large rows ++ rest) :
    cmDecode env 1 dest hint rect depth channels large s =
      .err (.bad "compressed image data seems broken") := by
  have h1 := wide_rows_fail hp (rows := rows) (w := rect.dx.toNat) (n := rowLen depth rect.dx.toNat)
    (rowLen_wide hdepth (by omega)) hmany (fun r hr => ⟨(hvalid r hr).1, (hvalid r hr).2.1⟩) hdest
  have hunf : cmDecode env 1 dest hint rect depth channels large =
      decodePackBits env.procs dest rect.dx.toNat rows.length large := by
    unfold cmDecode
    rw [if_neg (by decide), if_pos rfl]
    simp only
    rw [if_neg (by omega), hrows]
  rw [hunf]
  unfold decodePackBits
  simp only
  have hal := congrArg List.length hav
  simp only [rleBytes, List.length_append, lengthTable_length, List.length_map, wide_eq] at hal
  obtain ⟨sc1, e1, _⟩ := readFull_ok (k := rows.length * (get4or8 large / 2)) (s := s) (by omega)
  rw [P.bind_ok e1]
  have ht : s.avail.take (rows.length * (get4or8 large / 2)) =
      lengthTable (get4or8 large / 2) (rows.map fun r => (rowBytes r).length) := by
    rw [hav]; unfold rleBytes
    rw [wide_eq, List.append_assoc, List.take_append_of_le_length (by rw [lengthTable_length]; simp),
      List.take_of_length_le (by rw [lengthTable_length]; simp)]
  have hlens := pbLens_table (get4or8 large / 2) (rows.map fun r => (rowBytes r).length) []
      (by intro n hn; obtain ⟨r, hr, rfl⟩ := List.mem_map.1 hn; exact (hvalid r hr).2.2)
  rw [List.append_nil, List.length_map] at hlens
  rw [ht, hlens]
  have hsum : (rows.map fun r => (rowBytes r).length).sum = (rows.flatMap rowBytes).length := by
    rw [flatMap_eq_flatten_map, ← sum_map_length, List.map_map]; rfl
  rw [hsum, wrap64_small (by omega) (by omega)]
  have hm : goMake ((rows.flatMap rowBytes).length : Int) = .ok (rows.flatMap rowBytes).length := by
    unfold goMake
    rw [if_pos ⟨by omega, by unfold maxAlloc; exact Int.ofNat_le.2 htotal⟩]; rfl
  rw [hm, P.bind_ok (P.lift_ok _ _)]
  have hav2 : ({ s with pos := s.pos + rows.length * (get4or8 large / 2), sched := sc1 } : St).avail =
      rows.flatMap rowBytes ++ rest := by
    have : s.avail.drop (rows.length * (get4or8 large / 2)) = rows.flatMap rowBytes ++ rest := by
      rw [hav]; unfold rleBytes
      rw [wide_eq, List.append_assoc, List.drop_append_of_le_length (by rw [lengthTable_length]; simp),
        List.drop_eq_nil_of_le (by rw [lengthTable_length]; simp), List.nil_append]
    rw [← this]; simp only [St.avail, List.drop_drop]
  obtain ⟨sc2, e2, _⟩ := readFull_ok (k := (rows.flatMap rowBytes).length)
    (s := { s with pos := s.pos + rows.length * (get4or8 large / 2), sched := sc1 })
    (by rw [hav2, List.length_append]; omega)
  rw [P.bind_ok e2, hav2, List.take_append_of_le_length (Nat.le_refl _), List.take_of_length_le (Nat.le_refl _),
    h1]
  rfl

/-- A 16-bit picture of four rows and one column meets the hypotheses of both theorems. -/
example : (∀ r ∈ [[Packet.run 2 1], [.lit [1, 2]], [.run 2 3], [.lit [4, 5]]],
      (∀ p ∈ r, p.Valid) ∧ (rowMeaning r).length = rowLen 16 1 ∧
      (rowBytes r).length < 256 ^ (wide false / 2)) ∧
    outcome (cmDecode ⟨1, fun _ _ => none, fun _ _ _ => 0⟩ 1 (List.replicate 8 0) 0 ⟨0, 0, 1, 4⟩ 16 1 false
      { data := rleBytes false [[.run 2 1], [.lit [1, 2]], [.run 2 3], [.lit [4, 5]]] }) =
      .ok ([1, 1, 1, 2, 3, 3, 4, 5], 18) ∧
    outcome (cmDecode ⟨2, fun _ _ => none, fun _ _ _ => 0⟩ 1 (List.replicate 8 0) 0 ⟨0, 0, 1, 4⟩ 16 1 false
      { data := rleBytes false [[.run 2 1], [.lit [1, 2]], [.run 2 3], [.lit [4, 5]]] }) =
      .err (.bad "compressed image data seems broken") := by decide +kernel

/-! ### Platform variants -/

theorem headers_cons (b : UInt8) (bs : List UInt8) : headers (b :: bs) =
    if b.toNat ≤ 127 then b :: headers (bs.drop (b.toNat + 1))
    else if b.toNat = 128 then b :: headers bs
    else b :: headers (bs.drop 1) := by rw [headers.eq_def]

/-- The JavaScript row decoder in terms of the specification, for rows without no-op bytes. -/
def jsResult (u : Option (List UInt8)) (buf' dest : List UInt8) :
    Res (Option (List UInt8 × List UInt8 × List UInt8)) :=
  match u with
  | none => .ok none
  | some w => if w.length ≤ dest.length then .ok (some (w, buf', dest.drop w.length)) else .ok none

theorem jsLine_spec (ln : Nat) : ∀ (fuel j : Nat) (buf dest : List UInt8), j ≤ ln → ln - j ≤ fuel →
    ln - j ≤ buf.length → (128 : UInt8) ∉ headers (buf.take (ln - j)) →
    jsLine ln fuel j buf dest = jsResult (unpack (buf.take (ln - j))) (buf.drop (ln - j)) dest := by
  intro fuel
  induction fuel with
  | zero =>
    intro j buf dest h1 h2 _ _
    rw [jsLine.eq_def]
    simp only
    rw [if_neg (by omega), show ln - j = 0 by omega]
    simp [jsResult, unpack]
  | succ fuel ih =>
    intro j buf dest h1 h2 h3 h4
    rw [jsLine.eq_def]
    simp only
    by_cases hj : j < ln
    · rw [if_pos hj]
      cases buf with
      | nil => simp at h3; omega
      | cons b bs =>
        simp only [List.length_cons] at h3
        obtain ⟨m, hm⟩ : ∃ m, ln - j = m + 1 := ⟨ln - j - 1, by omega⟩
        rw [hm, List.take_succ_cons] at h4
        rw [hm, List.take_succ_cons, List.drop_succ_cons, unpack_cons]
        rw [headers_cons] at h4
        simp only
        by_cases hb : b.toNat ≤ 127
        · rw [if_pos hb] at h4 ⊢
          rw [if_pos (show b.toNat ≤ 0x7f from hb)]
          have hl : (bs.take m).length = m := by rw [List.length_take]; omega
          rw [hl]
          by_cases hlen : m < b.toNat + 1
          · rw [if_pos hlen, if_pos (Or.inr (by omega))]
            rfl
          · rw [if_neg hlen]
            have hih := ih (j + (b.toNat + 1 + 1)) (bs.drop (b.toNat + 1)) (dest.drop (b.toNat + 1))
              (by omega) (by omega) (by rw [List.length_drop]; omega) (by
                rw [List.drop_take] at h4
                rw [show ln - (j + (b.toNat + 1 + 1)) = m - (b.toNat + 1) by omega]
                exact fun h => h4 (List.mem_cons_of_mem _ h))
            rw [show ln - (j + (b.toNat + 1 + 1)) = m - (b.toNat + 1) by omega] at hih
            rw [List.drop_take]
            by_cases hd : dest.length < b.toNat + 1
            · rw [if_pos (Or.inl hd)]
              cases unpack (List.take (m - (b.toNat + 1)) (List.drop (b.toNat + 1) bs)) with
              | none => rfl
              | some w =>
                simp only [Option.map_some, jsResult, List.length_append, List.length_take]
                rw [if_neg (by omega)]
            · rw [if_neg (by omega), hih]
              have e : bs.take (b.toNat + 1) ++ List.replicate (b.toNat + 1 - bs.length) 0 =
                  (bs.take m).take (b.toNat + 1) := by
                rw [show b.toNat + 1 - bs.length = 0 by omega, List.replicate_zero, List.append_nil,
                  List.take_take, Nat.min_eq_left (by omega)]
              rw [e]
              cases unpack (List.take (m - (b.toNat + 1)) (List.drop (b.toNat + 1) bs)) with
              | none => rfl
              | some w =>
                simp only [Option.map_some, jsResult, List.length_append, List.length_take, List.length_drop]
                by_cases hw : w.length ≤ dest.length - (b.toNat + 1)
                · rw [if_pos hw, if_pos (by omega)]
                  simp only [List.drop_drop]
                  rw [show b.toNat + 1 + (m - (b.toNat + 1)) = m by omega,
                    show min (b.toNat + 1) (min m bs.length) + w.length = b.toNat + 1 + w.length by omega]
                · rw [if_neg hw, if_neg (by omega)]
        · rw [if_neg hb] at h4 ⊢
          rw [if_neg (show ¬ b.toNat ≤ 0x7f from hb)]
          have hb8 : b.toNat ≠ 128 := by
            intro h
            rw [if_pos h] at h4
            exact h4 (by rw [List.mem_cons]; left; apply UInt8.toNat_inj.1; rw [h]; rfl)
          rw [if_neg hb8] at h4 ⊢
          rw [if_neg (show ¬ b.toNat = 0x80 from hb8)]
          have hb2 := b.toNat_lt
          by_cases hm0 : m = 0
          · subst hm0
            rw [if_pos (Or.inr (by omega))]
            rfl
          · obtain ⟨m', rfl⟩ : ∃ m', m = m' + 1 := ⟨m - 1, by omega⟩
            cases bs with
            | nil => simp at h3; omega
            | cons c cs =>
              simp only [List.length_cons] at h3
              simp only [List.take_succ_cons, List.headD_cons, List.drop_succ_cons, List.drop_zero] at h4 ⊢
              have hih := ih (j + 2) cs (dest.drop (256 - b.toNat + 1))
                (by omega) (by omega) (by omega) (by
                  rw [show ln - (j + 2) = m' by omega]
                  exact fun h => h4 (List.mem_cons_of_mem _ h))
              rw [show ln - (j + 2) = m' by omega] at hih
              have e2 : 256 - b.toNat + 1 = 257 - b.toNat := by omega
              by_cases hd : dest.length < 256 - b.toNat + 1
              · rw [if_pos (Or.inl hd)]
                cases unpack (List.take m' cs) with
                | none => rfl
                | some w =>
                  simp only [Option.map_some, jsResult, List.length_append, List.length_replicate]
                  rw [if_neg (by omega)]
              · rw [if_neg (by omega), hih]
                cases unpack (List.take m' cs) with
                | none => rfl
                | some w =>
                  simp only [Option.map_some, jsResult, List.length_append, List.length_replicate, List.length_drop]
                  by_cases hw : w.length ≤ dest.length - (256 - b.toNat + 1)
                  · rw [if_pos hw, if_pos (by omega)]
                    simp only [List.drop_drop]
                    rw [e2]
                  · rw [if_neg hw, if_neg (by omega)]
    · rw [if_neg hj, show ln - j = 0 by omega]
      simp [jsResult, unpack]

theorem js_rows : ∀ (lens : List Nat) (dest buf : List UInt8), lens.sum ≤ buf.length →
    (∀ r ∈ cut lens buf, (128 : UInt8) ∉ headers r) →
    packBitsRowsJS dest buf lens = match rowsResult (unpackAll (cut lens buf)) dest with
      | .ok d => .ok d
      | _ => .err (.bad "error occurred in decodePackBits") := by
  intro lens
  induction lens with
  | nil => intro dest buf _ _; simp [packBitsRowsJS, cut, unpackAll, rowsResult]
  | cons ln lens ih =>
    intro dest buf h hn
    simp only [List.sum_cons] at h
    simp only [cut, List.mem_cons, forall_eq_or_imp] at hn
    rw [packBitsRowsJS, jsLine_spec ln _ 0 buf dest (by omega) (by omega) (by omega) (by simpa using hn.1)]
    simp only [Nat.sub_zero, cut, unpackAll]
    cases hu : unpack (buf.take ln) with
    | none => simp [jsResult, rowsResult]
    | some w =>
      simp only [jsResult]
      by_cases hw : w.length ≤ dest.length
      · rw [if_pos hw]
        simp only
        rw [ih (dest.drop w.length) (buf.drop ln) (by rw [List.length_drop]; omega) hn.2]
        cases hua : unpackAll (cut lens (buf.drop ln)) with
        | none => simp [rowsResult]
        | some ws =>
          simp only [rowsResult, List.flatten_cons, List.length_append, List.length_drop]
          by_cases hws : ws.flatten.length ≤ dest.length - w.length
          · rw [if_pos hws, if_pos (by omega)]
            simp only [Res.ok_bind, List.drop_drop, List.append_assoc]
          · rw [if_neg hws, if_neg (by omega)]; rfl
      · rw [if_neg hw]
        cases hua : unpackAll (cut lens (buf.drop ln)) with
        | none => simp [rowsResult]
        | some ws =>
          simp only [rowsResult, List.flatten_cons, List.length_append]
          rw [if_neg (by omega)]

/-- **C17 Platform implementations of PackBits agree** (part). On every input whose row lengths fit
the data, the wasm variant does what the native one does with one processor; and if no row uses the
no-op byte, the GopherJS variant succeeds exactly when they do, with the same bytes, and fails with
an error when they do.  Missing: no-op bytes, where `C17_js_differs` shows the claim to be false. -/
theorem C17_platforms_agree_partial (dest buf : List UInt8) (lens : List Nat) (width : Nat)
    (hbuf : lens.sum ≤ buf.length) :
    packBitsRowsWasm dest buf lens = packBitsRows 1 dest buf lens width ∧
    ((∀ r ∈ cut lens buf, (128 : UInt8) ∉ headers r) →
      (∀ d, packBitsRowsJS dest buf lens = .ok d ↔ packBitsRows 1 dest buf lens width = .ok d) ∧
      ((∃ e, packBitsRowsJS dest buf lens = .err e) ↔
        (∃ e, packBitsRows 1 dest buf lens width = .err e))) := by
  have e1 : packBitsRows 1 dest buf lens width = decodePackBitsPerLine dest buf lens := by
    unfold packBitsRows
    simp only
    rw [workers_one (Nat.le_refl 1) (.inl rfl), if_pos rfl]
  refine ⟨by rw [e1]; rfl, fun h => ?_⟩
  rw [e1, perLine_spec _ _ _ hbuf, js_rows _ _ _ hbuf h]
  rcases rowsResult_safe (unpackAll (cut lens buf)) dest with ⟨d, e, _⟩ | e <;> rw [e] <;> simp

example : (∀ r ∈ cut [3, 2] [1, 7, 8, 255, 5], (128 : UInt8) ∉ headers r) ∧
    packBitsRowsJS [0, 0, 0] [1, 7, 8, 255, 5] [3, 2] = .err (.bad "error occurred in decodePackBits") ∧
    packBitsRowsJS [0, 0, 0, 0] [1, 7, 8, 255, 5] [3, 2] = .ok [7, 8, 5, 5] ∧
    packBitsRows 1 [0, 0, 0, 0] [1, 7, 8, 255, 5] [3, 2] 2 = .ok [7, 8, 5, 5] := by
  refine ⟨?_, by decide, by decide, by decide⟩
  intro r hr
  have : r = [1, 7, 8] ∨ r = [255, 5] := by simpa [cut] using hr
  rcases this with rfl | rfl <;> simp [headers]

/-- With a no-op byte the variants differ: native code decodes this row, GopherJS does not
count the no-op and runs past the end of the row. -/
theorem C17_js_differs :
    packBitsRows 1 [0, 0] [128, 255, 5] [3] 2 = .ok [5, 5] ∧
    packBitsRowsJS [0, 0] [128, 255, 5] [3] = .err (.bad "error occurred in decodePackBits") := by decide

/-! ### Prediction -/

theorem sampleBytes_eq (sz v : Nat) : Spec.sampleBytes sz v = beBytes sz v := entry_eq_beBytes sz v

theorem sampleBytes_fun (sz : Nat) : Spec.sampleBytes sz = beBytes sz := funext (sampleBytes_eq sz)

theorem flatMap_beBytes_length (sz : Nat) (l : List Nat) : (l.flatMap (beBytes sz)).length = l.length * sz := by
  induction l with
  | nil => simp
  | cons x xs ih => rw [List.flatMap_cons, List.length_append, beBytes_length, ih, List.length_cons, Nat.succ_mul]; omega

theorem diffs_length (m : Nat) : ∀ (xs : List Nat) (p : Nat), (Spec.diffs m p xs).length = xs.length := by
  intro xs
  induction xs with
  | nil => intro p; rfl
  | cons x xs ih => intro p; simp [Spec.diffs, ih]

theorem deltaRows_spec {sz w : Nat} (hsz : 0 < sz) : ∀ (rows : List (List Nat)) (fuel : Nat),
    (∀ r ∈ rows, r.length = w ∧ ∀ x ∈ r, x < 256 ^ sz) → (Spec.predicted sz rows).length ≤ fuel →
    deltaRows sz w fuel (Spec.predicted sz rows) = .ok (Spec.planeBytes sz rows) := by
  intro rows
  induction rows with
  | nil => intro fuel _ _; cases fuel <;> simp [Spec.predicted, Spec.planeBytes, deltaRows]
  | cons r rs ih =>
    intro fuel h hf
    have hr := h r (by simp)
    have e1 : Spec.predicted sz (r :: rs) = (Spec.diffs (256 ^ sz) 0 r).flatMap (beBytes sz) ++
        Spec.predicted sz rs := by
      simp only [Spec.predicted, List.flatMap_cons, sampleBytes_fun]
    have e2 : Spec.planeBytes sz (r :: rs) = r.flatMap (beBytes sz) ++ Spec.planeBytes sz rs := by
      simp only [Spec.planeBytes, List.flatMap_cons, sampleBytes_fun]
    have hl : ((Spec.diffs (256 ^ sz) 0 r).flatMap (beBytes sz)).length = w * sz := by
      rw [flatMap_beBytes_length, diffs_length, hr.1]
    by_cases hw : w = 0
    · have hr0 : r = [] := List.eq_nil_of_length_eq_zero (by omega)
      subst hr0
      rw [e1, e2]
      simp only [Spec.diffs, List.flatMap_nil, List.nil_append]
      refine ih fuel (fun r hr => h r (by simp [hr])) ?_
      rw [e1] at hf; simpa [Spec.diffs] using hf
    · have hpos : 0 < w * sz := Nat.mul_pos (by omega) hsz
      rw [e1, List.length_append, hl] at hf
      obtain ⟨f, rfl⟩ : ∃ f, fuel = f + 1 := ⟨fuel - 1, by omega⟩
      have hd := deltaRow_spec sz r 0 (Spec.predicted sz rs) hr.2 (Nat.pow_pos (by omega))
      rw [hr.1, ← e1] at hd
      have hne : Spec.predicted sz (r :: rs) ≠ [] := by
        intro h0
        have := congrArg List.length h0
        rw [e1, List.length_append, hl] at this; simp at this; omega
      have hun : deltaRows sz w (f + 1) (Spec.predicted sz (r :: rs)) = (do
          let (row, rest) ← deltaRow sz w 0 (Spec.predicted sz (r :: rs))
          let rows ← deltaRows sz w f rest
          .ok (row ++ rows)) := by
        generalize Spec.predicted sz (r :: rs) = l at hne
        cases l with
        | nil => exact absurd rfl hne
        | cons => rw [deltaRows]; exact hne
      rw [hun, hd, e2]
      simp only [Res.ok_bind]
      rw [ih f (fun r hr => h r (by simp [hr])) (by omega)]
      rfl

theorem planeBytes_length (sz w : Nat) : ∀ (rows : List (List Nat)), (∀ r ∈ rows, r.length = w) →
    (Spec.planeBytes sz rows).length = rows.length * (w * sz) := by
  intro rows
  induction rows with
  | nil => intro _; simp [Spec.planeBytes]
  | cons r rs ih =>
    intro h
    have e2 : Spec.planeBytes sz (r :: rs) = r.flatMap (beBytes sz) ++ Spec.planeBytes sz rs := by
      simp only [Spec.planeBytes, List.flatMap_cons, sampleBytes_fun]
    rw [e2, List.length_append, flatMap_beBytes_length, h r (by simp), ih (fun r hr => h r (by simp [hr])),
      List.length_cons, Nat.succ_mul]; omega

theorem predicted_length (sz w : Nat) : ∀ (rows : List (List Nat)), (∀ r ∈ rows, r.length = w) →
    (Spec.predicted sz rows).length = rows.length * (w * sz) := by
  intro rows
  induction rows with
  | nil => intro _; simp [Spec.predicted]
  | cons r rs ih =>
    intro h
    have e1 : Spec.predicted sz (r :: rs) = (Spec.diffs (256 ^ sz) 0 r).flatMap (beBytes sz) ++
        Spec.predicted sz rs := by
      simp only [Spec.predicted, List.flatMap_cons, sampleBytes_fun]
    rw [e1, List.length_append, flatMap_beBytes_length, diffs_length, h r (by simp),
      ih (fun r hr => h r (by simp [hr])), List.length_cons, Nat.succ_mul]; omega

/-- The window of compressed bytes that ZIP decoding may look at. -/
def zipWindow (hint : Int) (s : St) : List UInt8 :=
  s.avail.take (if hint = 0 then 2 ^ 63 - 1 else hint.toNat)

theorem zip_run {env : Env} {want : Nat} {hint : Int} {s : St} {out : List UInt8}
    (hz : env.inflate (zipWindow hint s) want = some out) (hl : out.length = want) :
    ∃ n s', decodeZLIB env want hint s = .ok ((out, n), s') := by
  unfold decodeZLIB
  simp only [zipWindow] at hz ⊢
  rw [hz]
  simp only
  rw [if_pos hl]
  exact ⟨_, _, rfl⟩

theorem delta_undone {sz w : Nat} (hsz : sz = 2 ∨ sz = 4) {rows : List (List Nat)}
    (hrows : ∀ r ∈ rows, r.length = w ∧ ∀ x ∈ r, x < 256 ^ sz) :
    decodeDelta (Spec.predicted sz rows) w (8 * sz) = .ok (Spec.planeBytes sz rows) := by
  have h1 := fun h0 => deltaRows_spec (sz := sz) h0 rows _ hrows (Nat.le_refl _)
  unfold decodeDelta
  rcases hsz with rfl | rfl
  · rw [if_pos rfl]; exact h1 (by decide)
  · rw [if_neg (by decide), if_pos rfl]; exact h1 (by decide)

/-- **C18 ZIP-with-prediction inverts the predictor.** For every 16- or 32-bit picture of any width and
height and any sample values: if the compressed data inflates to the picture's horizontally
differenced rows, decoding returns the picture's samples exactly. -/
theorem C18_prediction_inverse (env : Env) (sz : Nat) (hsz : sz = 2 ∨ sz = 4) (rect : Rect)
    (channels : Nat) (large : Bool) (hint : Int) (rows : List (List Nat))
    (hrows : ∀ r ∈ rows, r.length = rect.dx.toNat ∧ ∀ x ∈ r, x < 256 ^ sz)
    (dest : List UInt8) (hdest : dest.length = rows.length * (rect.dx.toNat * sz)) (s : St)
    (hz : env.inflate (zipWindow hint s) dest.length = some (Spec.predicted sz rows)) :
    ∃ n s', cmDecode env 3 dest hint rect (8 * sz) channels large s =
      .ok ((Spec.planeBytes sz rows, n), s') := by
  have hl := predicted_length sz rect.dx.toNat rows fun r hr => (hrows r hr).1
  obtain ⟨n, s', e⟩ := zip_run hz (by omega)
  rw [cmDecode_three, P.bind_ok e]
  have hd : decodeDelta (Spec.predicted sz rows) rect.dx.toNat (8 * sz) = .ok (Spec.planeBytes sz rows) :=
    delta_undone hsz hrows
  simp only
  rw [hd]
  exact ⟨n, s', rfl⟩

/-- Two rows of two 16-bit samples, with wrap-around, through an inflate that knows them. -/
example : (∀ r ∈ [[65535, 3], [0, 258]], r.length = 2 ∧ ∀ x ∈ r, x < 256 ^ 2) ∧
    Spec.predicted 2 [[65535, 3], [0, 258]] = [255, 255, 0, 4, 0, 0, 1, 2] ∧
    (outcome (cmDecode ⟨1, fun w n => if w = [1, 2, 3] ∧ n = 8 then some (Spec.predicted 2 [[65535, 3], [0, 258]]) else none,
      fun _ _ _ => 3⟩ 3 (List.replicate 8 0) 3 ⟨0, 0, 2, 2⟩ 16 1 false { data := [1, 2, 3, 9] })) =
      .ok ([255, 255, 0, 3, 0, 0, 1, 2], 3) := by decide +kernel

theorem diffs_fixed : ∀ (xs : List Nat) (p : Nat), p < 256 → (∀ x ∈ xs, x < 256) →
    (Spec.diffs 256 p xs = xs ↔ ∀ y ∈ (p :: xs).dropLast, y = 0) := by
  intro xs
  induction xs with
  | nil => intro p _ _; simp [Spec.diffs]
  | cons x xs ih =>
    intro p hp h
    have hx := h x (by simp)
    have hi := ih x hx (fun y hy => h y (by simp [hy]))
    simp only [Spec.diffs, List.cons.injEq, hi, List.dropLast_cons_cons, List.mem_cons, forall_eq_or_imp]
    constructor
    · rintro ⟨h1, h2⟩
      exact ⟨by omega, h2⟩
    · rintro ⟨h1, h2⟩
      exact ⟨by omega, h2⟩

theorem flatMap_sample1_inj : ∀ (a b : List Nat), (∀ x ∈ a, x < 256) → (∀ x ∈ b, x < 256) →
    a.flatMap (Spec.sampleBytes 1) = b.flatMap (Spec.sampleBytes 1) → a = b := by
  have e : ∀ v, Spec.sampleBytes 1 v = [UInt8.ofNat (v % 256)] := by intro v; simp [Spec.sampleBytes]
  intro a
  induction a with
  | nil =>
    intro b _ _ h
    cases b with
    | nil => rfl
    | cons x xs => simp [e] at h
  | cons x xs ih =>
    intro b ha hb h
    cases b with
    | nil => simp [e] at h
    | cons y ys =>
      simp only [List.flatMap_cons, e, List.cons_append, List.nil_append, List.cons.injEq] at h
      have h1 := congrArg UInt8.toNat h.1
      have hx := ha x (by simp)
      have hy := hb y (by simp)
      rw [toNat_ofNat (by omega), toNat_ofNat (by omega)] at h1
      rw [ih ys (fun z hz => ha z (by simp [hz])) (fun z hz => hb z (by simp [hz])) h.2]
      rw [show x = y by omega]

theorem diffs_lt (m : Nat) (hm : 0 < m) : ∀ (xs : List Nat) (p : Nat), ∀ x ∈ Spec.diffs m p xs, x < m := by
  intro xs
  induction xs with
  | nil => intro p x h; simp [Spec.diffs] at h
  | cons y ys ih =>
    intro p x h
    rw [Spec.diffs, List.mem_cons] at h
    rcases h with rfl | h
    · exact Nat.mod_lt _ hm
    · exact ih _ _ h

/-- **C19 8-bit ZIP-with-prediction is undone** (part). For 8-bit pictures decoding succeeds but
returns the differences themselves.  It returns the picture exactly when in every row all samples
before the last are zero.  Missing: every other picture; see `C19_8bit_prediction_not_undone`. -/
theorem C19_8bit_prediction_partial (env : Env) (rect : Rect) (channels : Nat) (large : Bool)
    (hint : Int) (rows : List (List Nat))
    (hrows : ∀ r ∈ rows, r.length = rect.dx.toNat ∧ ∀ x ∈ r, x < 256)
    (dest : List UInt8) (hdest : dest.length = rows.length * (rect.dx.toNat * 1)) (s : St)
    (hz : env.inflate (zipWindow hint s) dest.length = some (Spec.predicted 1 rows)) :
    ∃ d n s', cmDecode env 3 dest hint rect 8 channels large s = .ok ((d, n), s') ∧
      (d = Spec.planeBytes 1 rows ↔ ∀ r ∈ rows, ∀ x ∈ r.dropLast, x = 0) := by
  have hl := predicted_length 1 rect.dx.toNat rows fun r hr => (hrows r hr).1
  obtain ⟨n, s', e⟩ := zip_run hz (by omega)
  rw [cmDecode_three, P.bind_ok e]
  refine ⟨Spec.predicted 1 rows, n, s', rfl, ?_⟩
  clear hz e hdest hl
  induction rows with
  | nil => simp [Spec.predicted, Spec.planeBytes]
  | cons r rs ih =>
    have hr := hrows r (by simp)
    have hi := ih (fun r hr => hrows r (by simp [hr]))
    have e1 : Spec.predicted 1 (r :: rs) = (Spec.diffs 256 0 r).flatMap (Spec.sampleBytes 1) ++
        Spec.predicted 1 rs := rfl
    have e2 : Spec.planeBytes 1 (r :: rs) = r.flatMap (Spec.sampleBytes 1) ++ Spec.planeBytes 1 rs := rfl
    have hlen : ∀ l : List Nat, (l.flatMap (Spec.sampleBytes 1)).length = l.length := by
      intro l
      rw [sampleBytes_fun, flatMap_beBytes_length]; omega
    have hfix := diffs_fixed r 0 (by decide) hr.2
    rw [e1, e2]
    constructor
    · intro h
      obtain ⟨h1, h2⟩ := List.append_inj h (by rw [hlen, hlen, diffs_length])
      have h3 := flatMap_sample1_inj _ _ (diffs_lt 256 (by decide) r 0) hr.2 h1
      intro q hq
      rcases List.mem_cons.1 hq with rfl | hq
      · intro x hx
        refine hfix.1 h3 x ?_
        cases q with
        | nil => simp at hx
        | cons y ys => rw [List.dropLast_cons_cons, List.mem_cons]; exact .inr hx
      · exact hi.1 h2 q hq
    · intro h
      rw [hi.2 fun q hq => h q (by simp [hq]), hfix.2]
      intro y hy
      cases r with
      | nil => simp at hy
      | cons z zs =>
        rw [List.dropLast_cons_cons, List.mem_cons] at hy
        rcases hy with hy | hy
        · exact hy
        · exact h _ (List.mem_cons_self) y hy

/-- The claim of C19 is false: a row of the samples 1, 2 comes back as 1, 1. -/
theorem C19_8bit_prediction_not_undone :
    (outcome (cmDecode ⟨1, fun _ _ => some (Spec.predicted 1 [[1, 2]]), fun _ _ _ => 0⟩ 3
      [0, 0] 0 ⟨0, 0, 2, 1⟩ 8 1 false { data := [] })) = .ok ([1, 1], 0) ∧
    Spec.planeBytes 1 [[1, 2]] = [1, 2] := by decide +kernel

/-! ### Raw data -/

/-- **C20 Raw decoding is exact.** On every reader, schedule and destination size: if enough bytes
are left, raw decoding fills the destination with exactly the next `dest.length` bytes, reports and
consumes exactly that many; otherwise it returns an error. -/
theorem C20_raw_exact (env : Env) (dest : List UInt8) (hint : Int) (rect : Rect)
    (depth channels : Nat) (large : Bool) (s : St) :
    (dest.length ≤ s.avail.length → ∃ s',
      cmDecode env 0 dest hint rect depth channels large s =
        .ok ((s.avail.take dest.length, (dest.length : Int)), s') ∧ s'.pos = s.pos + dest.length) ∧
    (s.avail.length < dest.length →
      ∃ e, cmDecode env 0 dest hint rect depth channels large s = .err e) := by
  have hunf : cmDecode env 0 dest hint rect depth channels large = (do
    let d ← readFull dest.length
    pure (d, (d.length : Int))) := rfl
  rw [hunf]
  constructor
  · intro h
    obtain ⟨sched', e, _⟩ := readFull_ok h
    rw [P.bind_ok e]
    refine ⟨{ s with pos := s.pos + dest.length, sched := sched' }, ?_, rfl⟩
    rw [P.pure_apply, List.length_take, Nat.min_eq_left h]
  · intro h
    rw [P.bind_err (readFull_err h)]
    exact ⟨_, rfl⟩

example : outcome (cmDecode ⟨1, fun _ _ => none, fun _ _ _ => 0⟩ 0 [0, 0, 0] 0 ⟨0, 0, 3, 1⟩ 8 1 false
      { data := [7, 8, 9, 10], sched := [2, 1] }) = .ok ([7, 8, 9], 3) ∧
    (outcome (cmDecode ⟨1, fun _ _ => none, fun _ _ _ => 0⟩ 0 [0, 0, 0] 0 ⟨0, 0, 3, 1⟩ 8 1 false
      { data := [7, 8] })).isErr = true := by decide +kernel

end Psd
