import Verif.Props.Codec

/-
C101: ZIP with prediction in 32-bit files, as the applications that write them do it.
-/

namespace Psd

theorem beBytes_beNat : ∀ (bs : List UInt8), beBytes bs.length (beNat bs) = bs := by
  have key : ∀ (bs : List UInt8) (q : Nat), beBytes bs.length (q * 256 ^ bs.length + beNat bs) = bs := by
    intro bs
    induction bs with
    | nil => intro q; rfl
    | cons b bs ih =>
      intro q
      have hlt := beNat_lt bs
      have hb := b.toNat_lt
      have e : q * 256 ^ (bs.length + 1) + (b.toNat * 256 ^ bs.length + beNat bs) =
          (q * 256 + b.toNat) * 256 ^ bs.length + beNat bs := by
        rw [Nat.pow_succ, Nat.add_mul]; ac_rfl
      rw [List.length_cons, beNat, e, beBytes, ih]
      have hd : ((q * 256 + b.toNat) * 256 ^ bs.length + beNat bs) / 256 ^ bs.length = q * 256 + b.toNat := by
        rw [Nat.mul_comm, Nat.mul_add_div (Nat.pow_pos (by omega)), Nat.div_eq_of_lt hlt, Nat.add_zero]
      rw [hd, show (q * 256 + b.toNat) % 256 = b.toNat by omega]
      simp
  intro bs
  have := key bs 0
  simpa using this

/-- The sample with the given differences. -/
def sums (m : Nat) : (p : Nat) → List Nat → List Nat
  | _, [] => []
  | p, y :: ys => (p + y) % m :: sums m ((p + y) % m) ys

theorem sums_props (m : Nat) (hm : 0 < m) : ∀ (ys : List Nat) (p : Nat), p < m → (∀ y ∈ ys, y < m) →
    Spec.diffs m p (sums m p ys) = ys ∧ (sums m p ys).length = ys.length ∧ ∀ x ∈ sums m p ys, x < m := by
  intro ys
  induction ys with
  | nil => intro p _ _; exact ⟨rfl, rfl, by intro x h; cases h⟩
  | cons y ys ih =>
    intro p hp h
    have hy := h y (by simp)
    have hlt : (p + y) % m < m := Nat.mod_lt _ hm
    obtain ⟨h1, h2, h3⟩ := ih ((p + y) % m) hlt fun z hz => h z (by simp [hz])
    refine ⟨?_, by simp [sums, h2], ?_⟩
    · have hmod : ((p + y) % m + m - p) % m = y := by
        by_cases hc : p + y < m
        · rw [Nat.mod_eq_of_lt hc, show p + y + m - p = y + m by omega, Nat.add_mod_right, Nat.mod_eq_of_lt hy]
        · have e : (p + y) % m = p + y - m := by
            rw [Nat.mod_eq_sub_mod (by omega), Nat.mod_eq_of_lt (by omega)]
          rw [e, show p + y - m + m - p = y by omega, Nat.mod_eq_of_lt hy]
      simp [sums, Spec.diffs, h1, hmod]
    · intro x hx
      rw [sums, List.mem_cons] at hx
      rcases hx with rfl | hx
      · exact hlt
      · exact h3 x hx

/-- Any bytes are samples. -/
theorem samples_of (sz : Nat) : ∀ (w : Nat) (bs : List UInt8), bs.length = w * sz →
    ∃ ys : List Nat, ys.length = w ∧ (∀ y ∈ ys, y < 256 ^ sz) ∧ ys.flatMap (beBytes sz) = bs := by
  intro w
  induction w with
  | zero => intro bs h; exact ⟨[], rfl, (by intro y hy; cases hy), by simp at h; simp [h]⟩
  | succ w ih =>
    intro bs h
    rw [Nat.succ_mul] at h
    obtain ⟨ys, h1, h2, h3⟩ := ih (bs.drop sz) (by rw [List.length_drop]; omega)
    have hl : (bs.take sz).length = sz := by rw [List.length_take]; omega
    refine ⟨beNat (bs.take sz) :: ys, by simp [h1], ?_, ?_⟩
    · intro y hy
      rcases List.mem_cons.1 hy with rfl | hy
      · have := beNat_lt (bs.take sz); rwa [hl] at this
      · exact h2 y hy
    · rw [List.flatMap_cons, h3]
      have := beBytes_beNat (bs.take sz)
      rw [hl] at this
      rw [this, List.take_append_drop]

/-- Any bytes that fill rows are the differenced rows of some picture. -/
theorem predicted_surjective (sz w : Nat) : ∀ (h : Nat) (bs : List UInt8), bs.length = h * (w * sz) →
    ∃ rows : List (List Nat), rows.length = h ∧ (∀ r ∈ rows, r.length = w ∧ ∀ x ∈ r, x < 256 ^ sz) ∧
      Spec.predicted sz rows = bs := by
  intro h
  induction h with
  | zero => intro bs hl; exact ⟨[], rfl, (by intro r hr; cases hr), by simp at hl; simp [hl, Spec.predicted]⟩
  | succ h ih =>
    intro bs hl
    rw [Nat.succ_mul] at hl
    obtain ⟨rows, h1, h2, h3⟩ := ih (bs.drop (w * sz)) (by rw [List.length_drop]; omega)
    obtain ⟨ys, g1, g2, g3⟩ := samples_of sz w (bs.take (w * sz)) (by rw [List.length_take]; omega)
    have hm : 0 < 256 ^ sz := Nat.pow_pos (by omega)
    obtain ⟨p1, p2, p3⟩ := sums_props (256 ^ sz) hm ys 0 hm g2
    refine ⟨sums (256 ^ sz) 0 ys :: rows, by simp [h1], ?_, ?_⟩
    · intro r hr
      rcases List.mem_cons.1 hr with rfl | hr
      · exact ⟨by rw [p2, g1], p3⟩
      · exact h2 r hr
    · have e1 : Spec.predicted sz (sums (256 ^ sz) 0 ys :: rows) =
          (Spec.diffs (256 ^ sz) 0 (sums (256 ^ sz) 0 ys)).flatMap (beBytes sz) ++ Spec.predicted sz rows := by
        simp only [Spec.predicted, List.flatMap_cons, sampleBytes_fun]
      rw [e1, p1, g3, h3, List.take_append_drop]

theorem beBytes_inj {sz a b : Nat} (ha : a < 256 ^ sz) (hb : b < 256 ^ sz) (h : beBytes sz a = beBytes sz b) : a = b := by
  have := congrArg beNat h
  rwa [beNat_beBytes, beNat_beBytes, Nat.mod_eq_of_lt ha, Nat.mod_eq_of_lt hb] at this

theorem flatMap_beBytes_inj (sz : Nat) : ∀ (a b : List Nat), a.length = b.length → (∀ x ∈ a, x < 256 ^ sz) →
    (∀ x ∈ b, x < 256 ^ sz) → a.flatMap (beBytes sz) = b.flatMap (beBytes sz) → a = b := by
  intro a
  induction a with
  | nil => intro b hl _ _ _; exact (List.eq_nil_of_length_eq_zero hl.symm).symm
  | cons x xs ih =>
    intro b hl ha hb h
    cases b with
    | nil => simp at hl
    | cons y ys =>
      rw [List.flatMap_cons, List.flatMap_cons] at h
      obtain ⟨h1, h2⟩ := List.append_inj h (by rw [beBytes_length, beBytes_length])
      rw [beBytes_inj (ha x (by simp)) (hb y (by simp)) h1,
        ih ys (by simpa using hl) (fun z hz => ha z (by simp [hz])) (fun z hz => hb z (by simp [hz])) h2]

/-- A plane determines the samples. -/
theorem planeBytes_inj (sz w : Nat) : ∀ (a b : List (List Nat)), a.length = b.length →
    (∀ r ∈ a, r.length = w ∧ ∀ x ∈ r, x < 256 ^ sz) → (∀ r ∈ b, r.length = w ∧ ∀ x ∈ r, x < 256 ^ sz) →
    Spec.planeBytes sz a = Spec.planeBytes sz b → a = b := by
  intro a
  induction a with
  | nil => intro b hl _ _ _; exact (List.eq_nil_of_length_eq_zero hl.symm).symm
  | cons r rs ih =>
    intro b hl ha hb h
    cases b with
    | nil => simp at hl
    | cons q qs =>
      have hr := ha r (by simp)
      have hq := hb q (by simp)
      simp only [Spec.planeBytes, List.flatMap_cons, sampleBytes_fun] at h
      obtain ⟨h1, h2⟩ := List.append_inj h (by rw [flatMap_beBytes_length, flatMap_beBytes_length, hr.1, hq.1])
      rw [flatMap_beBytes_inj sz r q (by rw [hr.1, hq.1]) hr.2 hq.2 h1,
        ih qs (by simpa using hl) (fun z hz => ha z (by simp [hz])) (fun z hz => hb z (by simp [hz])) (by
          simp only [Spec.planeBytes, sampleBytes_fun]; exact h2)]

theorem bytePlanes_length (r : List Nat) : (Spec.bytePlanes r).length = r.length * 4 := by
  have e : List.range 4 = [0, 1, 2, 3] := rfl
  unfold Spec.bytePlanes
  rw [e]
  simp
  omega

theorem floatPredicted_length (w : Nat) : ∀ (rows : List (List Nat)), (∀ r ∈ rows, r.length = w) →
    (Spec.floatPredicted rows).length = rows.length * (w * 4) := by
  intro rows
  induction rows with
  | nil => intro _; simp [Spec.floatPredicted]
  | cons r rs ih =>
    intro h
    have e1 : Spec.floatPredicted (r :: rs) = (Spec.diffs 256 0 (Spec.bytePlanes r)).map UInt8.ofNat ++
        Spec.floatPredicted rs := by
      simp only [Spec.floatPredicted, List.flatMap_cons]
    rw [e1, List.length_append, List.length_map, diffs_length, bytePlanes_length, h r (by simp),
      ih (fun r hr => h r (by simp [hr])), List.length_cons, Nat.succ_mul]; omega

/-- **C101 Prediction of 32-bit pictures is undone** (part). If the compressed data inflate to the byte
planes of the rows, differenced byte by byte, decoding always succeeds; but it returns the picture
only if differencing the samples would have given the same bytes.  Missing: every other picture; see
`C101_white_not_undone`. -/
theorem C101_float_partial (env : Env) (rect : Rect) (channels : Nat) (large : Bool) (hint : Int) (rows : List (List Nat))
    (hrows : ∀ r ∈ rows, r.length = rect.dx.toNat ∧ ∀ x ∈ r, x < 2 ^ 32)
    (dest : List UInt8) (hdest : dest.length = rows.length * (rect.dx.toNat * 4)) (s : St)
    (hz : env.inflate (zipWindow hint s) dest.length = some (Spec.floatPredicted rows)) :
    ∃ d n s', cmDecode env 3 dest hint rect 32 channels large s = .ok ((d, n), s') ∧ d.length = dest.length ∧
      (d = Spec.planeBytes 4 rows ↔ Spec.floatPredicted rows = Spec.predicted 4 rows) := by
  have hl := floatPredicted_length rect.dx.toNat rows fun r hr => (hrows r hr).1
  obtain ⟨rows', h1, h2, h3⟩ := predicted_surjective 4 rect.dx.toNat rows.length _ hl
  rw [← h3] at hz
  obtain ⟨n, s', e⟩ := C18_prediction_inverse env 4 (.inr rfl) rect channels large hint rows' h2 dest
    (by rw [hdest, h1]) s hz
  refine ⟨_, n, s', e, ?_, ?_⟩
  · rw [planeBytes_length 4 rect.dx.toNat rows' fun r hr => (h2 r hr).1, hdest, h1]
  · rw [← h3]
    constructor
    · intro hd
      rw [planeBytes_inj 4 rect.dx.toNat rows' rows h1 h2 hrows hd]
    · intro hd
      have hbuf := delta_undone (w := rect.dx.toNat) (.inr rfl) h2
      have hbuf' := delta_undone (w := rect.dx.toNat) (sz := 4) (rows := rows) (.inr rfl) hrows
      rw [hd, hbuf'] at hbuf
      injection hbuf with hbuf
      exact hbuf.symm

/-- A picture of any size whose samples are all the same. -/
def evenRows (w h v : Nat) : List (List Nat) := List.replicate h (List.replicate w v)

theorem evenRows_mem {w h v : Nat} : ∀ r ∈ evenRows w h v, r = List.replicate w v := by
  intro r hr
  exact (List.mem_replicate.1 hr).2

theorem diffs_zero (m : Nat) (hm : 0 < m) : ∀ n : Nat, Spec.diffs m 0 (List.replicate n 0) = List.replicate n 0 := by
  intro n
  induction n with
  | zero => rfl
  | succ n ih => simp [List.replicate_succ, Spec.diffs, ih]

theorem black_same (w h : Nat) : Spec.floatPredicted (evenRows w h 0) = Spec.predicted 4 (evenRows w h 0) := by
  have e1 : Spec.bytePlanes (List.replicate w 0) = List.replicate (4 * w) 0 := by
    unfold Spec.bytePlanes
    rw [show List.range 4 = [0, 1, 2, 3] from rfl]
    simp only [List.map_replicate, Nat.zero_div, Nat.zero_mod, List.flatMap_cons, List.flatMap_nil, List.append_nil,
      List.replicate_append_replicate]
    congr 1
    omega
  have e2 : ∀ n, (List.replicate n 0).flatMap (Spec.sampleBytes 4) = List.replicate (4 * n) 0 := by
    intro n
    induction n with
    | zero => rfl
    | succ n ih =>
      rw [List.replicate_succ, List.flatMap_cons, ih, show Spec.sampleBytes 4 0 = List.replicate 4 0 from rfl,
        List.replicate_append_replicate]
      congr 1
      omega
  unfold Spec.floatPredicted Spec.predicted
  have key : ∀ r ∈ evenRows w h 0, (Spec.diffs 256 0 (Spec.bytePlanes r)).map UInt8.ofNat =
      (Spec.diffs (256 ^ 4) 0 r).flatMap (Spec.sampleBytes 4) := by
    intro r hr
    rw [evenRows_mem r hr, e1, diffs_zero _ (by decide), diffs_zero _ (by decide), e2, List.map_replicate]
    rfl
  generalize evenRows w h 0 = l at key ⊢
  induction l with
  | nil => rfl
  | cons r l ih =>
    rw [List.flatMap_cons, List.flatMap_cons, key r (by simp), ih fun x hx => key x (by simp [hx])]

theorem white_differs (w h : Nat) (hw : 0 < w) (hh : 0 < h) :
    Spec.floatPredicted (evenRows w h 0x3F800000) ≠ Spec.predicted 4 (evenRows w h 0x3F800000) := by
  obtain ⟨w, rfl⟩ : ∃ k, w = k + 1 := ⟨w - 1, by omega⟩
  obtain ⟨h, rfl⟩ : ∃ k, h = k + 1 := ⟨h - 1, by omega⟩
  intro he
  have h1 := congrArg (fun l => l[1]?) he
  simp only [Spec.floatPredicted, Spec.predicted, evenRows, List.replicate_succ, List.flatMap_cons] at h1
  have e1 : Spec.bytePlanes (0x3F800000 :: List.replicate w 0x3F800000) =
      0x3F :: (List.replicate w 0x3F ++ (0x80 :: (List.replicate w 0x80 ++ (0 :: List.replicate w 0 ++ (0 :: List.replicate w 0))))) := by
    unfold Spec.bytePlanes
    rw [show List.range 4 = [0, 1, 2, 3] from rfl]
    simp [List.map_replicate]
  rw [e1] at h1
  cases w with
  | zero => revert h1; simp [Spec.diffs, Spec.sampleBytes, List.range, List.range.loop]
  | succ w => revert h1; simp [Spec.diffs, Spec.sampleBytes, List.range, List.range.loop, List.replicate_succ]

/-- Black pictures are restored and white ones (all samples the floating point number 1, 0x3F800000) are not, whatever their size. -/
theorem C101_white_not_undone (env : Env) (rect : Rect) (channels : Nat) (large : Bool) (hint : Int) (h v : Nat)
    (hw : 0 < rect.dx.toNat) (hh : 0 < h) (hv : v = 0 ∨ v = 0x3F800000)
    (dest : List UInt8) (hdest : dest.length = h * (rect.dx.toNat * 4)) (s : St)
    (hz : env.inflate (zipWindow hint s) dest.length = some (Spec.floatPredicted (evenRows rect.dx.toNat h v))) :
    ∃ d n s', cmDecode env 3 dest hint rect 32 channels large s = .ok ((d, n), s') ∧
      (d = Spec.planeBytes 4 (evenRows rect.dx.toNat h v) ↔ v = 0) := by
  obtain ⟨d, n, s', e, -, hd⟩ := C101_float_partial env rect channels large hint (evenRows rect.dx.toNat h v)
    (fun r hr => by
      rw [evenRows_mem r hr]
      refine ⟨by simp, fun x hx => ?_⟩
      have := (List.mem_replicate.1 hx).2
      omega) dest (by rw [hdest]; simp [evenRows]) s hz
  refine ⟨d, n, s', e, ?_⟩
  rw [hd]
  rcases hv with rfl | rfl
  · simp [black_same]
  · simp [white_differs _ _ hw hh]

/-- One white pixel: the data inflate to 3F 41 80 00, which decoding returns as it is. -/
example : Spec.floatPredicted [[0x3F800000]] = [0x3F, 0x41, 0x80, 0x00] ∧ Spec.planeBytes 4 [[0x3F800000]] = [0x3F, 0x80, 0, 0] ∧
    outcome (cmDecode ⟨1, fun _ _ => some (Spec.floatPredicted [[0x3F800000]]), fun _ _ _ => 1⟩ 3 (List.replicate 4 0) 1 ⟨0, 0, 1, 1⟩ 32 1
      false { data := [1] }) = .ok ([0x3F, 0x41, 0x80, 0x00], 1) := by decide +kernel

end Psd
