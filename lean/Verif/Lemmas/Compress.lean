import Verif.Lemmas.Reader
import Verif.Lemmas.PackBits
import Verif.Model.Compress
import Verif.Spec.Delta

namespace Psd
open Spec

theorem lengthTable_length (sz : Nat) (lens : List Nat) :
    (lengthTable sz lens).length = lens.length * sz := by
  induction lens with
  | nil => simp [lengthTable]
  | cons l ls ih =>
    simp only [lengthTable, List.flatMap_cons, List.length_append, List.length_map,
      List.length_range, List.length_cons] at *
    rw [ih, Nat.succ_mul]; omega

theorem entry_eq_beBytes (sz v : Nat) :
    (List.range sz).map (fun i => UInt8.ofNat (v / 256 ^ (sz - 1 - i) % 256)) = beBytes sz v := by
  induction sz with
  | zero => rfl
  | succ n ih =>
    rw [List.range_succ_eq_map, List.map_cons, List.map_map, beBytes]
    congr 1
    rw [← ih]
    apply List.map_congr_left
    intro i hi
    simp only [Function.comp]
    congr 4
    simp at hi; omega

theorem pbLens_table (sz : Nat) : ∀ (lens : List Nat) (rest : List UInt8), (∀ n ∈ lens, n < 256 ^ sz) →
    pbLens sz lens.length (lengthTable sz lens ++ rest) = lens := by
  intro lens
  induction lens with
  | nil => intro _ _; rfl
  | cons l ls ih =>
    intro rest h
    have e : lengthTable sz (l :: ls) = beBytes sz l ++ lengthTable sz ls := by
      simp only [lengthTable, List.flatMap_cons]
      rw [entry_eq_beBytes]
    rw [e, List.length_cons, pbLens, List.append_assoc]
    have hl : (beBytes sz l).length = sz := beBytes_length sz l
    rw [List.take_append_of_le_length (by omega), List.drop_append_of_le_length (by omega)]
    rw [List.take_of_length_le (by omega), List.drop_eq_nil_of_le (by omega)]
    rw [List.nil_append, ih rest (fun n hn => h n (by simp [hn])), beNat_beBytes,
      Nat.mod_eq_of_lt (h l (by simp))]

theorem pbLens_length (sz n : Nat) (t : List UInt8) : (pbLens sz n t).length = n := by
  induction n generalizing t with
  | zero => rfl
  | succ n ih => simp [pbLens, ih]

/-- `decodePackBits` on a well-formed length table and row data. -/
theorem Runs.packBits {procs : Nat} {dest out buf : List UInt8} {lens : List Nat}
    {width : Nat} {large : Bool} (hlens : ∀ n ∈ lens, n < 256 ^ (get4or8 large / 2))
    (hsum : lens.sum = buf.length) (hbuf : buf.length ≤ maxAlloc)
    (hrun : packBitsRows procs dest buf lens width = .ok out) :
    Runs (decodePackBits procs dest width lens.length large)
      (lengthTable (get4or8 large / 2) lens ++ buf)
      (out, (lens.length * (get4or8 large / 2) + buf.length : Nat)) := by
  unfold decodePackBits
  simp only
  apply Runs.bind (Runs.readFull (lengthTable_length _ _))
  have hl : pbLens (get4or8 large / 2) lens.length (lengthTable (get4or8 large / 2) lens) = lens := by
    have := pbLens_table (get4or8 large / 2) lens [] hlens
    simpa using this
  rw [hl, hsum]
  unfold maxAlloc at hbuf
  have hw : wrap64 (buf.length : Int) = buf.length := wrap64_small (by omega) (by omega)
  refine Runs.bind' (b₁ := []) (b₂ := buf) (a := buf.length) (Runs.lift ?_) ?_ (by simp)
  · rw [hw]; simp [goMake, maxAlloc]; omega
  refine Runs.bind' (b₁ := buf) (b₂ := []) (Runs.readFull rfl) ?_ (by simp)
  refine Runs.bind' (b₁ := []) (b₂ := []) (Runs.lift hrun) ?_ (by simp)
  refine Runs.congr (Runs.pure _) rfl ?_
  rw [lengthTable_length]
  congr 1

/-! ### Prediction -/

/-- Samples of a row. -/
theorem deltaRow_spec (sz : Nat) : ∀ (xs : List Nat) (d : Nat) (rest : List UInt8),
    (∀ x ∈ xs, x < 256 ^ sz) → d < 256 ^ sz →
    deltaRow sz xs.length d ((Spec.diffs (256 ^ sz) d xs).flatMap (beBytes sz) ++ rest) =
      .ok (xs.flatMap (beBytes sz), rest) := by
  intro xs
  induction xs with
  | nil => intro d rest _ _; simp [deltaRow, Spec.diffs]
  | cons x xs ih =>
    intro d rest h hd
    have hx := h x (by simp)
    simp only [List.length_cons, Spec.diffs, List.flatMap_cons, deltaRow, List.append_assoc]
    have hl : ∀ v, (beBytes sz v).length = sz := beBytes_length sz
    rw [if_neg (by simp [hl]), List.take_append_of_le_length (by simp [hl]),
      List.drop_append_of_le_length (by simp [hl]), List.take_of_length_le (by simp [hl]),
      List.drop_eq_nil_of_le (by simp [hl]), beNat_beBytes]
    have hsum : (d + (x + 256 ^ sz - d) % 256 ^ sz % 256 ^ sz) % 256 ^ sz = x := by
      rw [Nat.mod_mod, Nat.add_mod, Nat.mod_mod, ← Nat.add_mod]
      have : d + (x + 256 ^ sz - d) = x + 256 ^ sz := by omega
      rw [this, Nat.add_mod_right, Nat.mod_eq_of_lt hx]
    rw [hsum, List.nil_append, ih x rest (fun y hy => h y (by simp [hy])) hx]

end Psd
