import Verif.Lemmas.Header
import Verif.Spec.Decoded

/-!
# Reading a mask data block of any length
-/

namespace Psd

open Spec (be field num)
open Spec.MaskBlock

/-- What is read of a block of `b.length` bytes whose real user mask is at `k`. -/
def maskEnd (b : List UInt8) (k : Nat) : Nat := if b.length = 20 then 20 else min b.length (k + 18)

/-- The bytes of the block from `k` on that are read. -/
def maskPart (b : List UInt8) (e k : Nat) : List UInt8 := (b.take e).drop k

theorem maskPart_length {b : List UInt8} {e k : Nat} (he : e ≤ b.length) : (maskPart b e k).length = e - k := by
  unfold maskPart
  rw [List.length_drop, List.length_take]
  omega

theorem maskPart_split {b : List UInt8} {e k n : Nat} (h : k + n ≤ e) :
    maskPart b e k = field b k n ++ maskPart b e (k + n) := by
  unfold maskPart field
  rw [← List.drop_drop, List.drop_take, List.drop_take]
  have : e - k = n + (e - k - n) := by omega
  rw [this, List.take_add]
  congr 2
  omega

theorem field_length {b : List UInt8} {k n : Nat} (h : k + n ≤ b.length) : (field b k n).length = n := by
  unfold field
  rw [List.length_take, List.length_drop]
  omega

/-- Reading a field. -/
theorem runs_maskField {α : Type} {b : List UInt8} {e k n : Nat} {f : List UInt8 → P α} {r : α} (he : e ≤ b.length)
    (h : k + n ≤ e) (hf : Runs (f (field b k n)) (maskPart b e (k + n)) r) :
    Runs (readFull n >>= f) (maskPart b e k) r := by
  rw [maskPart_split h]
  exact Runs.bind (Runs.readFull (field_length (by omega))) hf

theorem value_some {b : List UInt8} {i n : Nat} (h : i + n ≤ b.length) : value b i n = some (beNat (field b i n)) := by
  unfold value; rw [if_pos h, num_eq]

theorem value_none {b : List UInt8} {i n : Nat} (h : b.length < i + n) : value b i n = none := by
  unfold value; rw [if_neg (by omega)]

theorem maskPart_nil {b : List UInt8} {e k : Nat} (he : e ≤ b.length) (h : e ≤ k) : maskPart b e k = [] :=
  List.eq_nil_of_length_eq_zero (by rw [maskPart_length he]; omega)

/-- The rest of a block, skipped. -/
theorem runs_maskSkip {b : List UInt8} {k : Nat} (hk : k ≤ b.length) (m : Mask) (read : Int) :
    Runs (if (b.length : Int) - k > 0 then do
        let l ← discard (b.length - k)
        pure (m, read + l)
      else pure (m, read)) (maskPart b b.length k) (m, read + (b.length - k : Nat)) := by
  split
  · refine Runs.congr (b := maskPart b b.length k ++ []) (Runs.bind (Runs.discard ?_) (Runs.pure _)) (by simp) ?_
    · rw [maskPart_length (Nat.le_refl _)]; omega
    · congr 1; omega
  · rw [maskPart_nil (Nat.le_refl _) (by omega)]
    refine (Runs.pure _).congr rfl ?_
    congr 1; omega

/-- The mask after the real user mask at `k` has been read. -/
def tailM (b : List UInt8) (k : Nat) (m : Mask) : Mask :=
  if b.length = 20 then m else
  { m with
    realFlags := (value b k 1).getD m.realFlags
    realBackgroundColor := (value b (k + 1) 1).getD m.realBackgroundColor
    realRect := if b.length < k + 18 then m.realRect else rectU (field b (k + 2) 16) }

theorem tailM_none {b : List UInt8} {k : Nat} (m : Mask) (h : b.length ≤ k) : tailM b k m = m := by
  unfold tailM
  split
  · rfl
  · rw [value_none (by omega), value_none (by omega), if_pos (by omega)]; rfl

theorem maskEnd_le (b : List UInt8) (k : Nat) : maskEnd b k ≤ b.length := by
  unfold maskEnd; split <;> omega

theorem maskEnd_of_short {b : List UInt8} {k : Nat} (h : b.length ≤ k + 18) : maskEnd b k = b.length := by
  unfold maskEnd; split <;> omega

theorem runs_tail {b : List UInt8} {k : Nat} (hk : k ≤ b.length) (h18 : 18 ≤ k) (m : Mask) (read : Int) :
    Runs (readMaskTail m b.length k read) (maskPart b (maskEnd b k) k)
      (tailM b k m, read + (maskEnd b k - k : Nat)) := by
  have he := maskEnd_le b k
  unfold readMaskTail
  by_cases h20 : b.length = 20
  · rw [if_pos (by omega)]
    have e : maskEnd b k = b.length := by unfold maskEnd; rw [if_pos h20, h20]
    rw [e] at he ⊢
    have et : tailM b k m = m := by unfold tailM; rw [if_pos h20]
    rw [et]
    split
    · rename_i h
      have : ((b.length : Int) - k).toNat = b.length - k := by omega
      rw [this]
      refine runs_maskField he (by omega) ?_
      rw [maskPart_nil he (by omega), field_length (by omega)]
      exact Runs.pure _
    · rename_i h
      have : b.length = k := by omega
      rw [maskPart_nil he (by omega)]
      refine (Runs.pure _).congr rfl ?_
      congr 1; omega
  · rw [if_neg (by omega)]
    have e : maskEnd b k = min b.length (k + 18) := by unfold maskEnd; rw [if_neg h20]
    have et : tailM b k m = { m with
        realFlags := (value b k 1).getD m.realFlags
        realBackgroundColor := (value b (k + 1) 1).getD m.realBackgroundColor
        realRect := if b.length < k + 18 then m.realRect else rectU (field b (k + 2) 16) } := by
      unfold tailM; rw [if_neg h20]
    split
    · rw [tailM_none m (by omega), maskPart_nil he (by omega)]
      refine (Runs.pure _).congr rfl ?_
      congr 1; omega
    · refine runs_maskField he (by omega) ?_
      dsimp only
      rw [et, value_some (i := k) (by omega)]
      split
      · rw [maskPart_nil he (by omega), value_none (by omega), if_pos (by omega)]
        refine (Runs.pure _).congr rfl ?_
        refine Prod.ext rfl ?_
        dsimp only; omega
      · refine runs_maskField he (by omega) ?_
        rw [value_some (i := k + 1) (by omega)]
        by_cases hr : b.length < k + 18
        · rw [if_pos (by omega), if_pos hr]
          have hs := runs_maskSkip (b := b) (k := k + 1 + 1) (by omega)
            { m with realFlags := beNat (field b k 1), realBackgroundColor := beNat (field b (k + 1) 1) } (read + 1 + 1)
          rw [maskEnd_of_short (by omega)]
          have e2 : ((k + 1 + 1 : Nat) : Int) = (k : Int) + 1 + 1 := by omega
          rw [e2] at hs
          refine hs.congr rfl (Prod.ext rfl ?_)
          dsimp only; omega
        · rw [if_neg (by omega), if_neg hr]
          refine runs_maskField he (by omega) ?_
          rw [maskPart_nil he (by omega)]
          refine (Runs.pure _).congr rfl (Prod.ext rfl ?_)
          dsimp only; omega

/-! ### The parameters -/

theorem bits_byte (p : Nat) (h : p < 256) :
    (p &&& 1 ≠ 0 ↔ bit p 0 = true) ∧ (p &&& 2 ≠ 0 ↔ bit p 1 = true) ∧ (p &&& 4 ≠ 0 ↔ bit p 2 = true) ∧
      (p &&& 8 ≠ 0 ↔ bit p 3 = true) ∧ (p &&& 16 ≠ 0 ↔ bit p 4 = true) := by
  revert p; decide +kernel

/-- The mask after the vector mask feather at `k` and what follows. -/
def p8M (b : List UInt8) (p k : Nat) (m : Mask) : Mask :=
  tailM b (k + if bit p 3 then 8 else 0)
    { m with vectorMaskFeather := (if bit p 3 then value b k 8 else none).getD m.vectorMaskFeather }

theorem runs_p8 {b : List UInt8} {k p : Nat} (hp : p < 256) (hk : k ≤ b.length) (h18 : 18 ≤ k) (m : Mask) (read : Int) :
    Runs (readMaskP8 p m b.length k read) (maskPart b (maskEnd b (k + if bit p 3 then 8 else 0)) k)
      (p8M b p k m, read + (maskEnd b (k + if bit p 3 then 8 else 0) - k : Nat)) := by
  have hb := (bits_byte p hp).2.2.2.1
  unfold readMaskP8 p8M
  by_cases h : bit p 3 = true
  · rw [if_pos (hb.2 h), h]
    simp only [if_true]
    by_cases hl : b.length < k + 8
    · rw [if_pos (by omega), maskEnd_of_short (by omega), value_none hl, tailM_none _ (by omega)]
      exact runs_maskSkip hk m read
    · rw [if_neg (by omega), value_some (by omega)]
      have h1 : k + 8 ≤ maskEnd b (k + 8) := by unfold maskEnd; split <;> omega
      refine runs_maskField (maskEnd_le _ _) h1 ?_
      have := runs_tail (b := b) (k := k + 8) (by omega) (by omega)
        { m with vectorMaskFeather := beNat (field b k 8) } (read + 8)
      have e2 : ((k + 8 : Nat) : Int) = (k : Int) + 8 := by omega
      rw [e2] at this
      refine this.congr rfl (Prod.ext rfl ?_)
      dsimp only; omega
  · rw [if_neg (by rw [hb]; exact h)]
    simp only [h]
    exact runs_tail hk h18 m read

/-- The mask after the vector mask density at `k` and what follows. -/
def p4M (b : List UInt8) (p k : Nat) (m : Mask) : Mask :=
  p8M b p (k + if bit p 2 then 1 else 0)
    { m with vectorMaskDensity := (if bit p 2 then value b k 1 else none).getD m.vectorMaskDensity }

/-- The mask after the user mask feather at `k` and what follows. -/
def p2M (b : List UInt8) (p k : Nat) (m : Mask) : Mask :=
  p4M b p (k + if bit p 1 then 8 else 0)
    { m with userMaskFeather := (if bit p 1 then value b k 8 else none).getD m.userMaskFeather }

/-- The mask after the user mask density at `k` and what follows. -/
def p1M (b : List UInt8) (p k : Nat) (m : Mask) : Mask :=
  p2M b p (k + if bit p 0 then 1 else 0)
    { m with userMaskDensity := (if bit p 0 then value b k 1 else none).getD m.userMaskDensity }

theorem p8M_none {b : List UInt8} {p k : Nat} (m : Mask) (h : b.length ≤ k) : p8M b p k m = m := by
  unfold p8M
  rw [tailM_none _ (by omega), value_none (by omega)]
  split <;> rfl

theorem p4M_none {b : List UInt8} {p k : Nat} (m : Mask) (h : b.length ≤ k) : p4M b p k m = m := by
  unfold p4M
  rw [p8M_none _ (by omega), value_none (by omega)]
  split <;> rfl

theorem p2M_none {b : List UInt8} {p k : Nat} (m : Mask) (h : b.length ≤ k) : p2M b p k m = m := by
  unfold p2M
  rw [p4M_none _ (by omega), value_none (by omega)]
  split <;> rfl

theorem runs_p4 {b : List UInt8} {k k' p : Nat} (hp : p < 256) (hk : k ≤ b.length) (h18 : 18 ≤ k) (m : Mask) (read : Int)
    (hk' : k' = k + (if bit p 2 then 1 else 0) + if bit p 3 then 8 else 0) :
    Runs (readMaskP4 p m b.length k read) (maskPart b (maskEnd b k') k) (p4M b p k m, read + (maskEnd b k' - k : Nat)) := by
  have hb := (bits_byte p hp).2.2.1
  unfold readMaskP4 p4M
  by_cases h : bit p 2 = true
  · rw [if_pos (hb.2 h), h]
    simp only [if_true, h] at hk' ⊢
    by_cases hl : b.length < k + 1
    · rw [if_pos (by omega), maskEnd_of_short (by omega), value_none hl, p8M_none _ (by omega),
        maskPart_nil (Nat.le_refl _) (by omega)]
      refine (Runs.pure _).congr rfl (Prod.ext rfl ?_)
      dsimp only; omega
    · rw [if_neg (by omega), value_some (by omega)]
      have h1 : k + 1 ≤ maskEnd b k' := by unfold maskEnd; split <;> omega
      refine runs_maskField (maskEnd_le _ _) h1 ?_
      have := runs_p8 (b := b) (k := k + 1) hp (by omega) (by omega)
        { m with vectorMaskDensity := beNat (field b k 1) } (read + 1)
      have e2 : ((k + 1 : Nat) : Int) = (k : Int) + 1 := by omega
      rw [e2, ← hk'] at this
      refine this.congr rfl (Prod.ext rfl ?_)
      dsimp only; omega
  · rw [if_neg (by rw [hb]; exact h)]
    simp only [h] at hk' ⊢
    subst hk'
    exact runs_p8 hp hk h18 m read

theorem runs_p2 {b : List UInt8} {k k' p : Nat} (hp : p < 256) (hk : k ≤ b.length) (h18 : 18 ≤ k) (m : Mask) (read : Int)
    (hk' : k' = k + (if bit p 1 then 8 else 0) + (if bit p 2 then 1 else 0) + if bit p 3 then 8 else 0) :
    Runs (readMaskP2 p m b.length k read) (maskPart b (maskEnd b k') k) (p2M b p k m, read + (maskEnd b k' - k : Nat)) := by
  have hb := (bits_byte p hp).2.1
  unfold readMaskP2 p2M
  by_cases h : bit p 1 = true
  · rw [if_pos (hb.2 h), h]
    simp only [if_true, h] at hk' ⊢
    by_cases hl : b.length < k + 8
    · rw [if_pos (by omega), maskEnd_of_short (by omega), value_none hl, p4M_none _ (by omega)]
      exact runs_maskSkip hk m read
    · rw [if_neg (by omega), value_some (by omega)]
      have h1 : k + 8 ≤ maskEnd b k' := by unfold maskEnd; split <;> omega
      refine runs_maskField (maskEnd_le _ _) h1 ?_
      have := runs_p4 (b := b) (k := k + 8) hp (by omega) (by omega)
        { m with userMaskFeather := beNat (field b k 8) } (read + 8) hk'
      have e2 : ((k + 8 : Nat) : Int) = (k : Int) + 8 := by omega
      rw [e2] at this
      refine this.congr rfl (Prod.ext rfl ?_)
      dsimp only; omega
  · rw [if_neg (by rw [hb]; exact h)]
    simp only [h] at hk' ⊢
    exact runs_p4 hp hk h18 m read hk'

theorem runs_p1 {b : List UInt8} {k k' p : Nat} (hp : p < 256) (hk : k ≤ b.length) (h18 : 18 ≤ k) (m : Mask) (read : Int)
    (hk' : k' = k + (if bit p 0 then 1 else 0) + (if bit p 1 then 8 else 0) + (if bit p 2 then 1 else 0) + if bit p 3 then 8 else 0) :
    Runs (readMaskP1 p m b.length k read) (maskPart b (maskEnd b k') k) (p1M b p k m, read + (maskEnd b k' - k : Nat)) := by
  have hb := (bits_byte p hp).1
  unfold readMaskP1 p1M
  by_cases h : bit p 0 = true
  · rw [if_pos (hb.2 h), h]
    simp only [if_true, h] at hk' ⊢
    by_cases hl : b.length < k + 1
    · rw [if_pos (by omega), maskEnd_of_short (by omega), value_none hl, p2M_none _ (by omega),
        maskPart_nil (Nat.le_refl _) (by omega)]
      refine (Runs.pure _).congr rfl (Prod.ext rfl ?_)
      dsimp only; omega
    · rw [if_neg (by omega), value_some (by omega)]
      have h1 : k + 1 ≤ maskEnd b k' := by unfold maskEnd; split <;> omega
      refine runs_maskField (maskEnd_le _ _) h1 ?_
      have := runs_p2 (b := b) (k := k + 1) hp (by omega) (by omega)
        { m with userMaskDensity := beNat (field b k 1) } (read + 1) hk'
      have e2 : ((k + 1 : Nat) : Int) = (k : Int) + 1 := by omega
      rw [e2] at this
      refine this.congr rfl (Prod.ext rfl ?_)
      dsimp only; omega
  · rw [if_neg (by rw [hb]; exact h)]
    simp only [h] at hk' ⊢
    exact runs_p2 hp hk h18 m read hk'

/-! ### The whole block -/

theorem field_field (b : List UInt8) {k i n w : Nat} (h : i + n ≤ w) : field (field b k w) i n = field b (k + i) n := by
  unfold field
  rw [List.drop_take, List.drop_drop, List.take_take]
  congr 1; omega

theorem beAt_block (b : List UInt8) {k i : Nat} (h : i + 4 ≤ 16) : beAt (field b k 16) i 4 = beNat (field b (k + i) 4) := by
  rw [← field_field b h]; rfl

theorem int32_field (b : List UInt8) (k : Nat) : int32 (beNat (field b k 4)) = signed (beNat (field b k 4)) := by
  have h := beNat_lt (field b k 4)
  have h4 : (field b k 4).length ≤ 4 := by unfold field; rw [List.length_take]; omega
  have h5 : 256 ^ (field b k 4).length ≤ 256 ^ 4 := Nat.pow_le_pow_right (by omega) h4
  unfold int32 signed
  dsimp only
  rw [Nat.mod_eq_of_lt (by omega)]

theorem boxAt_some {b : List UInt8} {i : Nat} (h : i + 16 ≤ b.length) : boxAt b i =
    ⟨min (signed (beNat (field b i 4))) (signed (beNat (field b (i + 8) 4))),
      min (signed (beNat (field b (i + 4) 4))) (signed (beNat (field b (i + 12) 4))),
      max (signed (beNat (field b i 4))) (signed (beNat (field b (i + 8) 4))),
      max (signed (beNat (field b (i + 4) 4))) (signed (beNat (field b (i + 12) 4)))⟩ := by
  unfold boxAt
  rw [value_some (by omega), value_some (by omega), value_some (by omega), value_some (by omega)]

theorem boxAt_none {b : List UInt8} {i : Nat} (h : b.length < i + 16) : boxAt b i = ⟨0, 0, 0, 0⟩ := by
  unfold boxAt
  rw [value_none (i := i + 12) (by omega)]
  split
  · rename_i h4; cases h4
  · rfl

theorem rectS_field {b : List UInt8} (h : 16 ≤ b.length) : rectS (field b 0 16) = rectOf (box b) := by
  unfold rectS box
  rw [boxAt_some (by omega), beAt_block b (by omega), beAt_block b (by omega), beAt_block b (by omega),
    beAt_block b (by omega), int32_field, int32_field, int32_field, int32_field]
  rfl

/-- The real rectangle as the code reads it. -/
def rawReal (b : List UInt8) : Rect :=
  if b.length = 20 ∨ b.length < realAt b + 18 then Rect.zero else rectU (field b (realAt b + 2) 16)

/-- The mask as the code reads it. -/
def blockMask (b : List UInt8) : Mask := { maskMeaning (.block b) with realRect := rawReal b }

theorem short_params {b : List UInt8} (h : b.length < 18) : flags b = 0 ∧ params b = 0 ∧ realAt b = 18 := by
  have h1 : flags b = 0 := by unfold flags; rw [value_none (by omega)]; rfl
  have h2 : params b = 0 := by unfold params; rw [h1]; rfl
  refine ⟨h1, h2, ?_⟩
  unfold realAt vectorFeatherAt vectorDensityAt userFeatherAt userDensityAt
  rw [h1, h2]; rfl

theorem blockMask_short {b : List UInt8} (h : b.length < 18) : blockMask b =
    { rect := rectOf (box b), defaultColor := (value b 16 1).getD 0 } := by
  obtain ⟨h1, h2, h3⟩ := short_params h
  unfold blockMask maskMeaning rawReal realColor realFlags userDensity userFeather vectorDensity vectorFeather
  simp only [h1, h2, h3, h, if_true]
  rw [value_none (i := 18) (by omega), value_none (i := 18 + 1) (by omega), if_pos (Or.inr (by omega))]
  simp [bit, color]

/-- The mask of a block with flags. -/
theorem blockMask_long {b : List UInt8} (h : 18 ≤ b.length) : blockMask b =
    (if bit (flags b) 4 then p1M b (params b) 19 else tailM b 18)
      { rect := rectOf (box b), defaultColor := beNat (field b 16 1), flags := beNat (field b 17 1),
        userMaskDensity := 255, vectorMaskDensity := 255 } := by
  have key : ∀ (m : Mask), m.realRect = Rect.zero → m.realFlags = 0 → m.realBackgroundColor = 0 →
      tailM b (realAt b) m = { m with
        realFlags := realFlags b
        realBackgroundColor := realColor b
        realRect := rawReal b } := by
    intro m h1 h2 h3
    unfold tailM realFlags realColor rawReal
    by_cases h20 : b.length = 20
    · rw [if_pos h20, if_pos h20, if_pos h20, if_pos (Or.inl h20), ← h1, ← h2]
      cases m; simp_all
    · rw [if_neg h20, if_neg h20, if_neg h20, h1, h2, h3]
      congr 1
      simp only [h20, false_or]
  have hd : ¬ b.length < 18 := by omega
  have hfl : flags b = beNat (field b 17 1) := by unfold flags; rw [value_some (by omega)]; rfl
  have hco : color b = beNat (field b 16 1) := by unfold color; rw [value_some (by omega)]; rfl
  unfold blockMask maskMeaning
  dsimp only
  rw [← hfl, ← hco]
  unfold userDensity vectorDensity userFeather vectorFeather
  rw [if_neg hd, if_neg hd]
  cases hp : bit (flags b) 4 with
  | false =>
    have h2 : params b = 0 := by unfold params; rw [hp]; rfl
    have h3 : realAt b = 18 := by
      unfold realAt vectorFeatherAt vectorDensityAt userFeatherAt userDensityAt
      rw [hp, h2]; rfl
    have := key
      { rect := rectOf (box b), defaultColor := color b, flags := flags b,
        userMaskDensity := 255, vectorMaskDensity := 255 } rfl rfl rfl
    rw [h3] at this
    simp only [Bool.false_eq_true, if_false]
    rw [this, h2]
    simp [bit]
  | true =>
    simp only [if_true]
    have h19 : userDensityAt b = 19 := by unfold userDensityAt; rw [hp]; rfl
    unfold p1M p2M p4M p8M
    rw [← h19]
    have e1 : userDensityAt b + (if bit (params b) 0 then 1 else 0) = userFeatherAt b := rfl
    have e2 : userFeatherAt b + (if bit (params b) 1 then 8 else 0) = vectorDensityAt b := rfl
    have e3 : vectorDensityAt b + (if bit (params b) 2 then 1 else 0) = vectorFeatherAt b := rfl
    have e4 : vectorFeatherAt b + (if bit (params b) 3 then 8 else 0) = realAt b := rfl
    rw [e1, e2, e3, e4, key _ rfl rfl rfl]

theorem runs_maskBlock (b : List UInt8) (hl : b.length < 2 ^ 32) :
    Runs (readMaskData {}) (be 4 b.length ++ b.take (maskEnd b (realAt b)))
      (blockMask b, ((4 + maskEnd b (realAt b) : Nat) : Int)) := by
  have he := maskEnd_le b (realAt b)
  unfold readMaskData
  refine Runs.bind (Runs.readFull (by simp)) ?_
  simp only
  rw [beAt_last, Nat.mod_eq_of_lt (by omega)]
  have h0 : b.take (maskEnd b (realAt b)) = maskPart b (maskEnd b (realAt b)) 0 := rfl
  rw [h0]
  by_cases hs : b.length < 18
  · obtain ⟨h1, h2, h3⟩ := short_params hs
    rw [h3] at he ⊢
    rw [maskEnd_of_short (by omega), blockMask_short hs]
    by_cases h16 : b.length < 16
    · have er : rectOf (box b) = Rect.zero := by unfold box; rw [boxAt_none (by omega)]; rfl
      rw [er, value_none (by omega)]
      split
      · rename_i hz
        rw [maskPart_nil (Nat.le_refl _) (by omega)]
        refine (Runs.pure _).congr rfl (Prod.ext rfl ?_)
        dsimp only; omega
      · rw [if_pos (by omega)]
        have := runs_maskSkip (b := b) (k := 0) (by omega) {} 4
        simp only [Int.ofNat_zero, Int.sub_zero] at this
        refine this.congr rfl (Prod.ext rfl ?_)
        dsimp only; omega
    · rw [if_neg (by omega), if_neg (by omega)]
      refine runs_maskField (Nat.le_refl _) (by omega) ?_
      rw [rectS_field (by omega)]
      by_cases h17 : b.length < 17
      · rw [if_pos (by omega), maskPart_nil (Nat.le_refl _) (by omega), value_none (by omega)]
        refine (Runs.pure _).congr rfl (Prod.ext rfl ?_)
        dsimp only; omega
      · rw [if_neg (by omega)]
        refine runs_maskField (Nat.le_refl _) (by omega) ?_
        rw [if_pos (by omega), maskPart_nil (Nat.le_refl _) (by omega), value_some (by omega)]
        refine (Runs.pure _).congr rfl (Prod.ext rfl ?_)
        dsimp only; omega
  · have hE : 18 ≤ maskEnd b (realAt b) := by
      unfold maskEnd; split <;> omega
    rw [if_neg (by omega), if_neg (by omega), blockMask_long (by omega)]
    refine runs_maskField he (by omega) ?_
    rw [rectS_field (by omega), if_neg (by omega)]
    refine runs_maskField he (by omega) ?_
    rw [if_neg (by omega)]
    refine runs_maskField he (by omega) ?_
    have hflag : ∀ n, beNat (field b n 1) < 256 := by
      intro n
      have h := beNat_lt (field b n 1)
      have h4 : (field b n 1).length ≤ 1 := by unfold field; rw [List.length_take]; omega
      have h5 : 256 ^ (field b n 1).length ≤ 256 ^ 1 := Nat.pow_le_pow_right (by omega) h4
      omega
    have h16 : beNat (field b (0 + 16 + 1) 1) &&& 16 ≠ 0 ↔ bit (flags b) 4 = true := by
      rw [(bits_byte _ (hflag _)).2.2.2.2]
      unfold flags
      rw [value_some (by omega)]; rfl
    by_cases hp : bit (flags b) 4 = true
    · rw [if_pos (h16.2 hp), hp]
      by_cases h19 : b.length < 19
      · have hr : 19 ≤ realAt b := by
          unfold realAt vectorFeatherAt vectorDensityAt userFeatherAt userDensityAt
          rw [hp]; simp only [if_true]; omega
        rw [if_pos (by omega)]
        simp only [if_true]
        rw [maskEnd_of_short (by omega), maskPart_nil (Nat.le_refl _) (by omega)]
        refine (Runs.pure _).congr rfl (Prod.ext ?_ ?_)
        · unfold p1M
          rw [p2M_none _ (by omega), value_none (by omega)]
          split <;> rfl
        · dsimp only; omega
      · rw [if_neg (by omega)]
        have hr : realAt b = 19 + (if bit (params b) 0 then 1 else 0) + (if bit (params b) 1 then 8 else 0) +
            (if bit (params b) 2 then 1 else 0) + if bit (params b) 3 then 8 else 0 := by
          unfold realAt vectorFeatherAt vectorDensityAt userFeatherAt userDensityAt
          rw [hp]; rfl
        have hpar : params b = beNat (field b 18 1) := by
          unfold params; rw [hp, value_some (by omega)]; rfl
        have h1 : 19 ≤ maskEnd b (realAt b) := by unfold maskEnd; split <;> omega
        refine runs_maskField he (by omega) ?_
        have := runs_p1 (b := b) (k := 19) (k' := realAt b) (p := params b) (by rw [hpar]; exact hflag _)
          (by omega) (by omega)
          { rect := rectOf (box b), defaultColor := beNat (field b 16 1), flags := beNat (field b 17 1),
            userMaskDensity := 255, vectorMaskDensity := 255 } (4 + 16 + 1 + 1 + 1) hr
        simp only [if_true]
        rw [hpar] at this ⊢
        refine this.congr rfl (Prod.ext rfl ?_)
        dsimp only; omega
    · rw [if_neg (by rw [h16]; exact hp)]
      have hr : realAt b = 18 := by
        have h1 : bit (flags b) 4 = false := by simpa using hp
        have h2 : params b = 0 := by unfold params; rw [h1]; rfl
        unfold realAt vectorFeatherAt vectorDensityAt userFeatherAt userDensityAt
        rw [h1, h2]; rfl
      have := runs_tail (b := b) (k := 18) (by omega) (by omega)
          { rect := rectOf (box b), defaultColor := beNat (field b 16 1), flags := beNat (field b 17 1),
            userMaskDensity := 255, vectorMaskDensity := 255 } (4 + 16 + 1 + 1)
      rw [hr, if_neg hp]
      refine this.congr rfl (Prod.ext rfl ?_)
      rw [hr] at hE
      dsimp only; omega

/-! ### Rectangles of blocks -/

theorem field4_lt (b : List UInt8) (k : Nat) : beNat (field b k 4) < 2 ^ 32 := by
  have h := beNat_lt (field b k 4)
  have h4 : (field b k 4).length ≤ 4 := by unfold field; rw [List.length_take]; omega
  have h5 : 256 ^ (field b k 4).length ≤ 256 ^ 4 := Nat.pow_le_pow_right (by omega) h4
  omega

theorem boxAt_valid (b : List UInt8) (i : Nat) : (boxAt b i).Valid := by
  by_cases h : i + 16 ≤ b.length
  · rw [boxAt_some h]
    have hs : ∀ k, -2 ^ 31 ≤ signed (beNat (field b k 4)) ∧ signed (beNat (field b k 4)) < 2 ^ 31 := by
      intro k
      have := field4_lt b k
      unfold signed
      split <;> omega
    have h1 := hs i
    have h2 := hs (i + 4)
    have h3 := hs (i + 8)
    have h4 := hs (i + 12)
    unfold Spec.Box.Valid
    dsimp only
    omega
  · rw [boxAt_none (by omega)]
    decide

theorem realBox_valid (b : List UInt8) : (realBox b).Valid := by
  unfold realBox
  split
  · decide
  · exact boxAt_valid b _

/-- A real rectangle that is not left of or above the canvas is read as it is. -/
theorem rawReal_eq {b : List UInt8} (hl : 0 ≤ (realBox b).left) (ht : 0 ≤ (realBox b).top) :
    rawReal b = rectOf (realBox b) := by
  unfold rawReal
  unfold realBox at hl ht ⊢
  by_cases h20 : b.length = 20
  · rw [if_pos (Or.inl h20), if_pos h20]; rfl
  · rw [if_neg h20] at hl ht ⊢
    by_cases h : b.length < realAt b + 18
    · rw [if_pos (Or.inr h), boxAt_none (by omega)]; rfl
    · rw [if_neg (by omega)]
      rw [boxAt_some (by omega)] at hl ht ⊢
      dsimp only at hl ht
      have hs : ∀ k, 0 ≤ signed (beNat (field b k 4)) → signed (beNat (field b k 4)) = (beNat (field b k 4) : Int) := by
        intro k
        have := field4_lt b k
        unfold signed
        split <;> omega
      rw [hs (realAt b + 2) (by omega), hs (realAt b + 2 + 4) (by omega), hs (realAt b + 2 + 8) (by omega),
        hs (realAt b + 2 + 12) (by omega)]
      unfold rectU
      rw [beAt_block b (by omega), beAt_block b (by omega), beAt_block b (by omega), beAt_block b (by omega)]
      rfl

theorem flags_lt (b : List UInt8) : flags b < 256 ∧ color b < 256 := by
  have h : ∀ k, (value b k 1).getD 0 < 256 := by
    intro k
    unfold value
    split
    · rw [num_eq]
      have h := beNat_lt (field b k 1)
      have h4 : (field b k 1).length ≤ 1 := by unfold field; rw [List.length_take]; omega
      have h5 : 256 ^ (field b k 1).length ≤ 256 ^ 1 := Nat.pow_le_pow_right (by omega) h4
      show beNat (field b k 1) < 256
      omega
    · show 0 < 256; omega
  exact ⟨h 17, h 16⟩

end Psd
