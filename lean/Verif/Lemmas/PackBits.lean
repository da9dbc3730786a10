import Verif.Lemmas.Basic
import Verif.Model.PackBits
import Verif.Spec.PackBits

namespace Psd
open Spec

theorem unpack_cons (b : UInt8) (bs : List UInt8) : unpack (b :: bs) =
    if b.toNat ≤ 127 then
      if bs.length < b.toNat + 1 then none
      else (unpack (bs.drop (b.toNat + 1))).map (bs.take (b.toNat + 1) ++ ·)
    else if b.toNat = 128 then unpack bs
    else
      match bs with
      | [] => none
      | c :: cs => (unpack cs).map (List.replicate (257 - b.toNat) c ++ ·) := by
  rw [unpack.eq_def]; cases bs <;> rfl

/-- What the row decoder does, in terms of the specification's reading of the row. -/
def lineResult (u : Option (List UInt8)) (dest : List UInt8) :
    Res (List UInt8 × List UInt8) :=
  match u with
  | none => .err errBrokenPackBits
  | some w => if w.length ≤ dest.length then .ok (w, dest.drop w.length)
      else .err errBrokenPackBits

theorem pbLine_spec (buf : List UInt8) (ln : Nat) (hln : ln ≤ buf.length) :
    ∀ (fuel i : Nat) (dest row : List UInt8), i ≤ ln → ln - i ≤ fuel →
      (buf.take ln).drop i = row → pbLine buf ln fuel i dest = lineResult (unpack row) dest := by
  intro fuel
  induction fuel with
  | zero =>
    intro i dest row hi hf hrow
    have : i = ln := by omega
    subst this
    have : row = [] := by rw [← hrow]; simp
    subst this
    simp [pbLine, unpack, lineResult]
  | succ fuel ih =>
    intro i dest row hi hf hrow
    by_cases hlt : i < ln
    · have hib : i < buf.length := by omega
      have hrow' : row = buf[i] :: (buf.take ln).drop (i + 1) := by
        rw [← hrow, List.drop_eq_getElem_cons (by simp; omega)]
        simp
      rw [pbLine]
      simp only [hlt, if_true, List.getElem?_eq_getElem hib]
      rw [hrow', unpack_cons]
      have hlen : ((buf.take ln).drop (i + 1)).length = ln - (i + 1) := by
        simp [Nat.min_eq_left hln]
      by_cases h1 : (buf[i]).toNat ≤ 127
      · simp only [h1, if_true]
        rw [hlen]
        by_cases h2 : ln - (i + 1) < (buf[i]).toNat + 1
        · have : dest.length < (buf[i]).toNat + 1 ∨ (ln : Int) - i - 1 < ((buf[i]).toNat + 1 : Nat) := by
            right; omega
          simp only [this, if_true, h2, lineResult]
        · have h2' : ¬ ((ln : Int) - i - 1 < ((buf[i]).toNat + 1 : Nat)) := by omega
          simp only [h2, if_false, h2', or_false]
          have hdrop : ((buf.take ln).drop (i + 1)).drop ((buf[i]).toNat + 1)
              = (buf.take ln).drop (i + ((buf[i]).toNat + 1 + 1)) := by
            rw [List.drop_drop]; congr 1; omega
          rw [hdrop]
          have htake : ((buf.take ln).drop (i + 1)).take ((buf[i]).toNat + 1)
              = (buf.drop (i + 1)).take ((buf[i]).toNat + 1) := by
            rw [List.drop_take, List.take_take]; congr 1; omega
          rw [htake]
          have hl : ((buf.drop (i + 1)).take ((buf[i]).toNat + 1)).length = (buf[i]).toNat + 1 := by
            simp; omega
          by_cases h3 : dest.length < (buf[i]).toNat + 1
          · simp only [h3, if_true]
            cases hu : unpack ((buf.take ln).drop (i + ((buf[i]).toNat + 1 + 1))) with
            | none => simp [lineResult]
            | some w =>
              simp only [Option.map_some, lineResult, List.length_append, hl]
              rw [if_neg (by omega)]
          · simp only [h3, if_false]
            rw [ih (i + ((buf[i]).toNat + 1 + 1)) _ _ (by omega) (by omega) rfl]
            cases hu : unpack ((buf.take ln).drop (i + ((buf[i]).toNat + 1 + 1))) with
            | none => simp [lineResult]
            | some w =>
              simp only [Option.map_some, lineResult, List.length_append, hl, List.length_drop]
              by_cases h4 : w.length ≤ dest.length - ((buf[i]).toNat + 1)
              · rw [if_pos h4, if_pos (by omega)]
                have : List.drop ((buf[i]).toNat + 1) (List.take ((buf[i]).toNat + 1) dest) = [] := by
                  simp
                simp only [this, List.append_nil, List.drop_drop]
              · rw [if_neg h4, if_neg (by omega)]
      · simp only [h1, if_false]
        by_cases h128 : (buf[i]).toNat = 128
        · simp only [h128, if_true]
          rw [ih (i + 1) dest _ (by omega) (by omega) rfl]
        · simp only [h128, if_false]
          have hb := (buf[i]).toNat_lt
          by_cases h2 : i + 1 ≥ ln
          · have hnil : (buf.take ln).drop (i + 1) = [] := by
              apply List.eq_nil_of_length_eq_zero; omega
            simp only [h2, or_true, if_true, hnil, lineResult]
          · have hi1 : i + 1 < buf.length := by omega
            have hcons : (buf.take ln).drop (i + 1) = buf[i+1] :: (buf.take ln).drop (i + 2) := by
              rw [List.drop_eq_getElem_cons (by simp; omega)]
              simp
            simp only [h2, or_false, hcons, List.getElem?_eq_getElem hi1]
            have he : 256 - (buf[i]).toNat + 1 = 257 - (buf[i]).toNat := by omega
            rw [he]
            by_cases h3 : dest.length < 257 - (buf[i]).toNat
            · simp only [h3, if_true]
              cases hu : unpack ((buf.take ln).drop (i + 2)) with
              | none => simp [lineResult]
              | some w =>
                simp only [Option.map_some, lineResult, List.length_append, List.length_replicate]
                rw [if_neg (by omega)]
            · simp only [h3, if_false]
              rw [ih (i + 2) _ _ (by omega) (by omega) rfl]
              cases hu : unpack ((buf.take ln).drop (i + 2)) with
              | none => simp [lineResult]
              | some w =>
                simp only [Option.map_some, lineResult, List.length_append, List.length_drop,
                  List.length_replicate]
                by_cases h4 : w.length ≤ dest.length - (257 - (buf[i]).toNat)
                · rw [if_pos h4, if_pos (by omega)]
                  simp only [List.drop_drop]
                · rw [if_neg h4, if_neg (by omega)]
    · have : i = ln := by omega
      subst this
      have : row = [] := by rw [← hrow]; simp
      subst this
      simp [pbLine, unpack, lineResult]

/-- All rows of a compressed picture: `none` if some row is malformed. -/
def unpackAll : List (List UInt8) → Option (List (List UInt8))
  | [] => some []
  | r :: rs =>
    match unpack r, unpackAll rs with
    | some w, some ws => some (w :: ws)
    | _, _ => none

/-- Serial decoding in terms of the specification. -/
def rowsResult (u : Option (List (List UInt8))) (dest : List UInt8) : Res (List UInt8) :=
  match u with
  | none => .err errBrokenPackBits
  | some ws => if ws.flatten.length ≤ dest.length then
      .ok (ws.flatten ++ dest.drop ws.flatten.length) else .err errBrokenPackBits

theorem perLine_spec : ∀ (lens : List Nat) (dest buf : List UInt8), lens.sum ≤ buf.length →
    decodePackBitsPerLine dest buf lens = rowsResult (unpackAll (cut lens buf)) dest := by
  intro lens
  induction lens with
  | nil => intro dest buf _; simp [decodePackBitsPerLine, cut, unpackAll, rowsResult]
  | cons ln lens ih =>
    intro dest buf h
    simp only [List.sum_cons] at h
    rw [decodePackBitsPerLine, pbLine_spec buf ln (by omega) ln 0 dest (buf.take ln) (by omega)
      (by omega) (by simp), cut, unpackAll]
    cases hu : unpack (buf.take ln) with
    | none => simp [lineResult, rowsResult]
    | some w =>
      simp only [lineResult]
      by_cases hw : w.length ≤ dest.length
      · simp only [hw, if_true, Res.ok_bind]
        rw [goSlice_to_end (by omega)]
        simp only [Res.ok_bind]
        rw [ih _ _ (by simp; omega)]
        cases hr : unpackAll (cut lens (buf.drop ln)) with
        | none => simp [rowsResult]
        | some ws =>
          simp only [rowsResult, List.length_drop, List.flatten_cons, List.length_append]
          by_cases h4 : ws.flatten.length ≤ dest.length - w.length
          · rw [if_pos h4, if_pos (by omega)]
            simp [List.drop_drop]
          · rw [if_neg h4, if_neg (by omega)]
            simp
      · simp only [hw, if_false, Res.err_bind]
        cases hr : unpackAll (cut lens (buf.drop ln)) with
        | none => simp [rowsResult]
        | some ws =>
          simp only [rowsResult, List.flatten_cons, List.length_append]
          rw [if_neg (by omega)]

/-! ### The worker split -/

theorem workers_le (lines n : Nat) : workers lines n ≤ n := by
  induction n with
  | zero => simp [workers]
  | succ n ih => rw [workers]; split <;> omega

theorem workers_pos (lines n : Nat) (h : 1 ≤ n) : 1 ≤ workers lines n := by
  induction n with
  | zero => omega
  | succ n ih =>
    rw [workers]; split
    · exact ih (by omega)
    · omega

theorem workers_spec (lines n : Nat) : workers lines n ≤ 1 ∨ 2 * workers lines n ≤ lines := by
  induction n with
  | zero => simp [workers]
  | succ n ih =>
    rw [workers]; split
    · exact ih
    · omega

theorem offsetsFrom_get : ∀ (lens : List Nat) (t i : Nat), i < lens.length →
    (offsetsFrom t lens)[i]? = some (t + (lens.take i).sum) := by
  intro lens
  induction lens with
  | nil => intro t i h; simp at h
  | cons l ls ih =>
    intro t i h
    cases i with
    | zero => simp [offsetsFrom]
    | succ i =>
      simp only [List.length_cons] at h
      simp [offsetsFrom, ih (t + l) i (by omega), Nat.add_assoc]

theorem goIndex_offsets {lens : List Nat} {i : Nat} (h : i < lens.length) :
    goIndex (offsetsFrom 0 lens) i = .ok (lens.take i).sum := by
  simp [goIndex, offsetsFrom_get lens 0 i h]

theorem take_sum_le (lens : List Nat) (i : Nat) : (lens.take i).sum ≤ lens.sum := by
  have := List.sum_append_nat (l₁ := lens.take i) (l₂ := lens.drop i)
  rw [List.take_append_drop] at this; omega

theorem take_sum_add (lens : List Nat) (i j : Nat) :
    (lens.take (i + j)).sum = (lens.take i).sum + ((lens.drop i).take j).sum := by
  rw [List.take_add, List.sum_append_nat]

/-- The slices handed to the workers: they exist (no slice expression panics), they partition the
destination, and every worker's row lengths fit its piece of the compressed data. -/
theorem pbTasks_ok (dest buf : List UInt8) (lens : List Nat) (width step : Nat)
    (hbuf : lens.sum ≤ buf.length) (hdest : lens.length * width ≤ dest.length) :
    ∀ k ofs, ofs + k * step < lens.length →
      ∃ ts, pbTasks dest buf lens (offsetsFrom 0 lens) width step k ofs = .ok ts ∧
        (ts.map PBTask.dest).flatten = dest.drop (ofs * width) ∧
        ∀ t ∈ ts, t.lens.sum ≤ t.buf.length := by
  intro k
  induction k with
  | zero =>
    intro ofs h
    have h1 : ofs * width ≤ dest.length :=
      Nat.le_trans (Nat.mul_le_mul_right _ (by omega)) hdest
    have h2 := take_sum_le lens ofs
    refine ⟨[⟨dest.drop (ofs * width), buf.drop (lens.take ofs).sum, lens.drop ofs⟩], ?_, ?_, ?_⟩
    · simp only [pbTasks, goSlice_to_end h1, Res.ok_bind, goIndex_offsets (show ofs < lens.length by omega)]
      rw [goSlice_to_end (by omega), goSlice_to_end (by omega)]
      rfl
    · simp
    · intro t ht
      simp only [List.mem_singleton] at ht
      subst ht
      have := List.sum_append_nat (l₁ := lens.take ofs) (l₂ := lens.drop ofs)
      rw [List.take_append_drop] at this
      simp; omega
  | succ k ih =>
    intro ofs h
    have hmul : (k + 1) * step = k * step + step := by rw [Nat.succ_mul]
    obtain ⟨ts, e1, e2, e3⟩ := ih (ofs + step) (by omega)
    have h1 : (ofs + step) * width ≤ dest.length :=
      Nat.le_trans (Nat.mul_le_mul_right _ (by omega)) hdest
    have h0 : ofs * width ≤ (ofs + step) * width := Nat.mul_le_mul_right _ (by omega)
    have h2 := take_sum_le lens (ofs + step)
    have h3 := take_sum_add lens ofs step
    refine ⟨⟨(dest.take ((ofs + step) * width)).drop (ofs * width), (buf.take (lens.take (ofs + step)).sum).drop (lens.take ofs).sum, (lens.take (ofs + step)).drop ofs⟩ :: ts, ?_, ?_, ?_⟩
    · simp only [pbTasks, Res.ok_bind, goIndex_offsets (show ofs < lens.length by omega),
        goIndex_offsets (show ofs + step < lens.length by omega)]
      rw [goSlice_ok h0 h1, goSlice_ok (by omega) (by omega), goSlice_ok (by omega) (by omega), e1]
      rfl
    · simp only [List.map_cons, List.flatten_cons, e2]
      have hd : dest.drop (ofs * width) = (dest.take ((ofs + step) * width) ++
          dest.drop ((ofs + step) * width)).drop (ofs * width) := by rw [List.take_append_drop]
      rw [hd, List.drop_append_of_le_length (by simp; omega)]
    · intro t ht
      rcases List.mem_cons.1 ht with rfl | ht
      · simp only [List.drop_take, List.length_take, List.length_drop]
        have : ofs + step - ofs = step := by omega
        rw [this]; omega
      · exact e3 t ht

theorem rowsResult_safe (u : Option (List (List UInt8))) (dest : List UInt8) :
    (∃ d, rowsResult u dest = .ok d ∧ d.length = dest.length) ∨
    rowsResult u dest = .err errBrokenPackBits := by
  unfold rowsResult
  split
  · right; rfl
  · split
    · left; refine ⟨_, rfl, ?_⟩
      simp only [List.length_append, List.length_drop]; omega
    · right; rfl

theorem pbJoin_safe : ∀ ts : List PBTask, (∀ t ∈ ts, t.lens.sum ≤ t.buf.length) →
    (∃ d, pbJoin (ts.map fun t => decodePackBitsPerLine t.dest t.buf t.lens) = .ok d ∧
      d.length = (ts.map PBTask.dest).flatten.length) ∨
    pbJoin (ts.map fun t => decodePackBitsPerLine t.dest t.buf t.lens) =
      .err errBrokenPackBits := by
  intro ts
  induction ts with
  | nil => intro _; left; exact ⟨[], rfl, rfl⟩
  | cons t ts ih =>
    intro h
    have ht := perLine_spec t.lens t.dest t.buf (h t (by simp))
    have h' := rowsResult_safe (unpackAll (cut t.lens t.buf)) t.dest
    rw [← ht] at h'
    rcases h' with ⟨d, e, el⟩ | e <;> rcases ih (fun t ht => h t (by simp [ht])) with ⟨d', e', el'⟩ | e'
    · left; refine ⟨d ++ d', ?_, ?_⟩
      · simp [pbJoin, e, e']
      · simp [el, el']
    · right; simp [pbJoin, e, e']
    · right; simp [pbJoin, e, e']
    · right; simp [pbJoin, e, e']

theorem step_bound {lines n : Nat} (h : 2 ≤ n) (h2 : 2 * n ≤ lines) :
    (n - 1) * (lines / n) < lines ∧ 1 ≤ lines / n := by
  have h3 : lines / n * n ≤ lines := Nat.div_mul_le_self lines n
  have h4 : 2 ≤ lines / n := (Nat.le_div_iff_mul_le (by omega)).2 h2
  have h5 : (n - 1) * (lines / n) + lines / n = lines / n * n := by
    obtain ⟨m, rfl⟩ : ∃ m, n = m + 1 := ⟨n - 1, by omega⟩
    rw [Nat.mul_succ, Nat.mul_comm (lines / (m + 1)) m]
    simp
  omega

/-- No slice expression, index or loop of the row decoder goes out of bounds. -/
theorem packBitsRows_safe (procs : Nat) (hp : 1 ≤ procs) (dest buf : List UInt8) (lens : List Nat)
    (width : Nat) (hbuf : lens.sum ≤ buf.length) (hdest : lens.length * width ≤ dest.length) :
    (∃ d, packBitsRows procs dest buf lens width = .ok d ∧ d.length = dest.length) ∨
    packBitsRows procs dest buf lens width = .err errBrokenPackBits := by
  unfold packBitsRows
  simp only
  have hpos := workers_pos lens.length procs hp
  split
  · rw [perLine_spec _ _ _ hbuf]; exact rowsResult_safe _ _
  · rename_i h1
    rw [if_neg (by omega)]
    have hw : 2 * workers lens.length procs ≤ lens.length := by
      rcases workers_spec lens.length procs with h | h <;> omega
    have hs := step_bound (by omega) hw
    obtain ⟨ts, e1, e2, e3⟩ := pbTasks_ok dest buf lens width
      (lens.length / workers lens.length procs) hbuf hdest
      (workers lens.length procs - 1) 0 (by omega)
    rw [e1]
    simp only [Res.ok_bind]
    have := pbJoin_safe ts e3
    rw [e2] at this
    simpa using this

/-- Every row that can be read at all has exactly `width` bytes. -/
def ExactRows (width : Nat) (rows : List (List UInt8)) : Prop :=
  ∀ r ∈ rows, ∀ w, unpack r = some w → w.length = width

theorem unpackAll_append (a b : List (List UInt8)) : unpackAll (a ++ b) =
    match unpackAll a, unpackAll b with
    | some x, some y => some (x ++ y)
    | _, _ => none := by
  induction a with
  | nil => cases h : unpackAll b <;> simp [unpackAll, h]
  | cons r rs ih =>
    rw [List.cons_append, unpackAll, ih, unpackAll]
    cases unpack r <;> cases unpackAll rs <;> cases unpackAll b <;> simp

theorem unpackAll_length {width : Nat} : ∀ {rows ws}, ExactRows width rows →
    unpackAll rows = some ws → ws.flatten.length = rows.length * width := by
  intro rows
  induction rows with
  | nil => intro ws _ h; simp [unpackAll] at h; subst h; simp
  | cons r rs ih =>
    intro ws hx h
    rw [unpackAll] at h
    split at h
    · rename_i w ws' h1 h2
      cases h
      have e1 := hx r (by simp) w h1
      have e2 := ih (fun r hr => hx r (by simp [hr])) h2
      simp only [List.flatten_cons, List.length_append, e1, e2, List.length_cons, Nat.succ_mul]
      omega
    · cases h

theorem cut_append (ls1 ls2 : List Nat) (buf : List UInt8) :
    cut (ls1 ++ ls2) buf = cut ls1 buf ++ cut ls2 (buf.drop ls1.sum) := by
  induction ls1 generalizing buf with
  | nil => simp [cut]
  | cons l ls ih => simp [cut, ih, List.drop_drop]

theorem cut_take (ls : List Nat) (buf : List UInt8) (n : Nat) (h : ls.sum ≤ n) :
    cut ls (buf.take n) = cut ls buf := by
  induction ls generalizing buf n with
  | nil => simp [cut]
  | cons l ls ih =>
    simp only [List.sum_cons] at h
    simp only [cut]
    rw [List.take_take, List.drop_take, ih _ _ (by omega), Nat.min_eq_left (by omega)]

theorem cut_length (ls : List Nat) (buf : List UInt8) : (cut ls buf).length = ls.length := by
  induction ls generalizing buf with
  | nil => rfl
  | cons l ls ih => simp [cut, ih]

/-- With exact rows, decoding two pieces separately gives the same as decoding them together. -/
theorem rowsResult_append {width : Nat} {r1 r2 : List (List UInt8)} {d1 d2 : List UInt8}
    (h1 : ExactRows width r1) (h2 : ExactRows width r2) (hd1 : d1.length = r1.length * width)
    (hd2 : r2.length * width ≤ d2.length) :
    pbJoin [rowsResult (unpackAll r1) d1, rowsResult (unpackAll r2) d2] =
      rowsResult (unpackAll (r1 ++ r2)) (d1 ++ d2) := by
  rw [unpackAll_append]
  cases e1 : unpackAll r1 with
  | none =>
    rcases rowsResult_safe (unpackAll r2) d2 with ⟨d, e, _⟩ | e <;> rw [e] <;>
      simp [rowsResult, pbJoin]
  | some w1 =>
    have l1 := unpackAll_length h1 e1
    cases e2 : unpackAll r2 with
    | none =>
      rcases rowsResult_safe (some w1) d1 with ⟨d, e, _⟩ | e <;> rw [e] <;>
        simp [rowsResult, pbJoin]
    | some w2 =>
      have l2 := unpackAll_length h2 e2
      simp only [rowsResult]
      rw [if_pos (by omega), if_pos (by omega)]
      simp only [List.flatten_append, List.length_append]
      rw [if_pos (by omega)]
      simp only [pbJoin, List.append_nil]
      congr 1
      rw [List.drop_append, List.drop_eq_nil_of_le (show d1.length ≤ _ by omega),
        List.drop_eq_nil_of_le (show d1.length ≤ _ by omega)]
      simp only [List.append_nil, List.nil_append, List.append_assoc]
      congr 3
      omega

theorem pbJoin_cons (r : Res (List UInt8)) (rs : List (Res (List UInt8))) :
    pbJoin (r :: rs) = pbJoin [r, pbJoin rs] := by
  simp only [pbJoin]
  cases r <;> cases pbJoin rs <;> simp

theorem pbTasks_exact (dest buf : List UInt8) (lens : List Nat) (width step : Nat)
    (hbuf : lens.sum ≤ buf.length) (hdest : lens.length * width ≤ dest.length)
    (hx : ExactRows width (cut lens buf)) :
    ∀ k ofs, ofs + k * step < lens.length →
      ∃ ts, pbTasks dest buf lens (offsetsFrom 0 lens) width step k ofs = .ok ts ∧
        pbJoin (ts.map fun t => decodePackBitsPerLine t.dest t.buf t.lens) =
          rowsResult (unpackAll (cut (lens.drop ofs) (buf.drop (lens.take ofs).sum)))
            (dest.drop (ofs * width)) := by
  intro k
  induction k with
  | zero =>
    intro ofs h
    have h1 : ofs * width ≤ dest.length :=
      Nat.le_trans (Nat.mul_le_mul_right _ (by omega)) hdest
    have h2 := take_sum_le lens ofs
    have h3 : (lens.drop ofs).sum + (lens.take ofs).sum = lens.sum := by
      have := List.sum_append_nat (l₁ := lens.take ofs) (l₂ := lens.drop ofs)
      rw [List.take_append_drop] at this; omega
    refine ⟨[⟨dest.drop (ofs * width), buf.drop (lens.take ofs).sum, lens.drop ofs⟩], ?_, ?_⟩
    · simp only [pbTasks, goSlice_to_end h1, Res.ok_bind, goIndex_offsets (show ofs < lens.length by omega)]
      rw [goSlice_to_end (by omega), goSlice_to_end (by omega)]
      rfl
    · simp only [List.map_cons, List.map_nil]
      rw [perLine_spec _ _ _ (by simp; omega)]
      rcases rowsResult_safe (unpackAll (cut (lens.drop ofs) (buf.drop (lens.take ofs).sum)))
        (dest.drop (ofs * width)) with ⟨d, e, _⟩ | e <;> simp [pbJoin, e]
  | succ k ih =>
    intro ofs h
    have hmul : (k + 1) * step = k * step + step := by rw [Nat.succ_mul]
    obtain ⟨ts, e1, e2⟩ := ih (ofs + step) (by omega)
    have h1 : (ofs + step) * width ≤ dest.length :=
      Nat.le_trans (Nat.mul_le_mul_right _ (by omega)) hdest
    have h0 : ofs * width ≤ (ofs + step) * width := Nat.mul_le_mul_right _ (by omega)
    have h2 := take_sum_le lens (ofs + step)
    have h3 := take_sum_add lens ofs step
    have hsub : ofs + step - ofs = step := by omega
    refine ⟨⟨(dest.take ((ofs + step) * width)).drop (ofs * width), (buf.take (lens.take (ofs + step)).sum).drop (lens.take ofs).sum, (lens.take (ofs + step)).drop ofs⟩ :: ts, ?_, ?_⟩
    · simp only [pbTasks, Res.ok_bind, goIndex_offsets (show ofs < lens.length by omega),
        goIndex_offsets (show ofs + step < lens.length by omega)]
      rw [goSlice_ok h0 h1, goSlice_ok (by omega) (by omega), goSlice_ok (by omega) (by omega), e1]
      rfl
    · rw [List.map_cons, pbJoin_cons, e2]
      simp only [List.drop_take, hsub]
      rw [perLine_spec _ _ _ (by simp; omega), cut_take _ _ _ (by omega)]
      have hcut : cut lens buf = cut (lens.take ofs) buf ++
          (cut ((lens.drop ofs).take step) (buf.drop (lens.take ofs).sum) ++
           cut (lens.drop (ofs + step)) (buf.drop (lens.take (ofs + step)).sum)) := by
        conv => lhs; rw [← List.take_append_drop ofs lens]
        rw [cut_append]
        congr 1
        conv => lhs; rw [← List.take_append_drop step (lens.drop ofs)]
        rw [cut_append, List.drop_drop, List.drop_drop, h3]
      have hmul2 : (ofs + step) * width = ofs * width + step * width := Nat.add_mul _ _ _
      rw [rowsResult_append (width := width)]
      · congr 2
        · have := cut_append ((lens.drop ofs).take step) ((lens.drop ofs).drop step)
            (buf.drop (lens.take ofs).sum)
          rw [List.take_append_drop, List.drop_drop, List.drop_drop] at this
          rw [h3, this]
        · rw [hmul2, ← List.drop_drop]
          rw [Nat.add_sub_cancel_left, List.take_append_drop]
      · intro r hr; exact hx r (by rw [hcut]; simp [hr])
      · intro r hr; exact hx r (by rw [hcut]; simp [hr])
      · rw [cut_length]; simp; 
        rw [hmul2, Nat.add_sub_cancel_left, Nat.min_eq_left (show step ≤ lens.length - ofs by omega),
          Nat.min_eq_left (by omega)]
      · rw [cut_length]; simp
        rw [Nat.sub_mul]; omega

/-- With exact rows the result does not depend on the number of processors. -/
theorem packBitsRows_exact (procs : Nat) (hp : 1 ≤ procs) (dest buf : List UInt8)
    (lens : List Nat) (width : Nat) (hbuf : lens.sum ≤ buf.length)
    (hdest : lens.length * width ≤ dest.length) (hx : ExactRows width (cut lens buf)) :
    packBitsRows procs dest buf lens width = rowsResult (unpackAll (cut lens buf)) dest := by
  unfold packBitsRows
  simp only
  have hpos := workers_pos lens.length procs hp
  split
  · rw [perLine_spec _ _ _ hbuf]
  · rename_i h1
    rw [if_neg (by omega)]
    have hw : 2 * workers lens.length procs ≤ lens.length := by
      rcases workers_spec lens.length procs with h | h <;> omega
    have hs := step_bound (by omega) hw
    obtain ⟨ts, e1, e2⟩ := pbTasks_exact dest buf lens width
      (lens.length / workers lens.length procs) hbuf hdest hx
      (workers lens.length procs - 1) 0 (by omega)
    rw [e1]
    simp only [Res.ok_bind, e2]
    simp

/-! ### Reading what the specification writes -/

theorem toNat_ofNat {n : Nat} (h : n < 256) : (UInt8.ofNat n).toNat = n := by
  simp [UInt8.toNat_ofNat']; omega

theorem unpack_packet (p : Packet) (hp : p.Valid) (rest : List UInt8) :
    unpack (p.bytes ++ rest) = (unpack rest).map (p.meaning ++ ·) := by
  cases p with
  | lit bs =>
    simp only [Packet.Valid] at hp
    simp only [Packet.bytes, Packet.meaning, List.cons_append]
    rw [unpack_cons, toNat_ofNat (by omega)]
    rw [if_pos (by omega), if_neg (by simp; omega)]
    have : bs.length - 1 + 1 = bs.length := by omega
    rw [this]
    simp
  | run n b =>
    simp only [Packet.Valid] at hp
    simp only [Packet.bytes, Packet.meaning, List.cons_append, List.nil_append]
    rw [unpack_cons, toNat_ofNat (by omega)]
    rw [if_neg (by omega), if_neg (by omega)]
    simp only
    have : 257 - (257 - n) = n := by omega
    rw [this]
  | nop =>
    simp only [Packet.bytes, Packet.meaning, List.cons_append, List.nil_append]
    rw [unpack_cons]
    simp

theorem unpack_rowBytes (ps : List Packet) (h : ∀ p ∈ ps, p.Valid) :
    unpack (rowBytes ps) = some (rowMeaning ps) := by
  induction ps with
  | nil => simp [rowBytes, rowMeaning, unpack]
  | cons p ps ih =>
    have := unpack_packet p (h p (by simp)) (rowBytes ps)
    rw [ih (fun q hq => h q (by simp [hq]))] at this
    simpa [rowBytes, rowMeaning] using this

theorem cut_flatten (rows : List (List UInt8)) : cut (rows.map List.length) rows.flatten = rows := by
  induction rows with
  | nil => rfl
  | cons r rs ih => simp [cut, ih]

theorem unpackAll_rows (rows : List (List Packet)) (h : ∀ r ∈ rows, ∀ p ∈ r, p.Valid) :
    unpackAll (rows.map rowBytes) = some (rows.map rowMeaning) := by
  induction rows with
  | nil => rfl
  | cons r rs ih =>
    simp only [List.map_cons, unpackAll]
    rw [unpack_rowBytes r (h r (by simp)), ih (fun q hq => h q (by simp [hq]))]

end Psd
