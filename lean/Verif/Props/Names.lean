import Verif.Model.Names
import Verif.Model.Util
import Verif.Spec.Names
import Verif.Lemmas.Basic
import Mathlib.Tactic.Ring

/-!
# Theorems C67 and C68: names of blend modes, numbers in messages
-/

namespace Psd

/-! ## C67 -/

theorem blendName_known {k n : List UInt8} (h : (k, n) ∈ blendNames) : blendName k = n := by
  have key : ∀ e ∈ blendNames, blendName e.1 = e.2 := by decide +kernel
  exact key _ h

theorem blendName_cases (k : List UInt8) : (∃ n, (k, n) ∈ blendNames ∧ blendName k = n) ∨
    (blendName k = ascii "unknown-blend-name-" ++ k) := by
  unfold blendName
  cases h : blendNames.find? (fun e => e.1 = k) with
  | none => exact Or.inr rfl
  | some e =>
    have h1 := List.find?_some h
    have h2 := List.mem_of_find?_eq_some h
    simp only [decide_eq_true_eq] at h1
    subst h1
    exact Or.inl ⟨e.2, h2, rfl⟩

/-- **C67** Two blend mode keys with the same name are the same key, whatever their length and whether or not they are
known. -/
theorem C67_names_are_unambiguous (a b : List UInt8) (h : blendName a = blendName b) : a = b := by
  have inj : ∀ e ∈ blendNames, ∀ e' ∈ blendNames, e.2 = e'.2 → e.1 = e'.1 := by decide +kernel
  have pre : ∀ e ∈ blendNames, e.2.take 19 ≠ ascii "unknown-blend-name-" := by decide +kernel
  have ln : (ascii "unknown-blend-name-").length = 19 := by decide +kernel
  have ne : ∀ e ∈ blendNames, ∀ k, e.2 ≠ ascii "unknown-blend-name-" ++ k := by
    intro e he k hk
    apply pre e he
    rw [hk, ← ln, List.take_left]
  rcases blendName_cases a with ⟨n, ha, ea⟩ | ea <;> rcases blendName_cases b with ⟨n', hb, eb⟩ | eb
  · exact inj _ ha _ hb (by simpa [← ea, ← eb] using h)
  · exact absurd (show n = _ by rw [← ea, h, eb]) (ne _ ha b)
  · exact absurd (show n' = _ by rw [← eb, ← h, ea]) (ne _ hb a)
  · rw [ea, eb] at h
    exact List.append_cancel_left h

/-- A known key, and an unknown one. -/
example : blendName (ascii "mul ") = ascii "multiply" ∧ blendName [0x78, 0, 0xff, 0x20] = ascii "unknown-blend-name-" ++ [0x78, 0, 0xff, 0x20] := by
  decide +kernel

/-- **C67** Every blend mode the compositor draws has its own name. -/
theorem C67_names_of_modes (m : Mode) : blendName (ascii (modeKey m)) = ascii (modeName m) := by
  rcases m with s | _ | _ | n
  · cases s <;> decide +kernel
  · decide +kernel
  · decide +kernel
  · cases n <;> decide +kernel

/-- **C67** A key found in a file is drawn with a blend mode exactly if it is the key of that mode. "Linear Dodge (Add)" is drawn by
`Add`. -/
theorem C67_keys_of_modes (k : List UInt8) (m : Mode) : blendMode k = some m ↔ k = ascii (modeKey m) ∧ m ≠ .sep .linearDodge := by
  constructor
  · intro h
    have key : ∀ e ∈ blendTable, e.1 = ascii (modeKey e.2) ∧ e.2 ≠ .sep .linearDodge := by decide +kernel
    unfold blendMode at h
    cases hf : blendTable.find? (fun e => e.1 = k) with
    | none => rw [hf] at h; cases h
    | some e =>
      rw [hf] at h
      simp only [Option.map_some, Option.some.injEq] at h
      have h1 := List.find?_some hf
      simp only [decide_eq_true_eq] at h1
      rw [← h, ← h1]
      exact key e (List.mem_of_find?_eq_some hf)
  · rintro ⟨rfl, h⟩
    rcases m with s | _ | _ | n
    · cases s <;> first | exact absurd rfl h | decide +kernel
    · decide +kernel
    · decide +kernel
    · cases n <;> decide +kernel

/-! ## C68 -/

theorem digitsValue_append (xs : List Nat) (d : Nat) : digitsValue (xs ++ [d]) = 10 * digitsValue xs + d := by
  simp [digitsValue]

/-- The digit loop: it stops at a one-digit number, whose digit and the digits written give `x`. -/
theorem itoaLoop_spec : ∀ (p n : Nat) (acc : List UInt8), n < 10 ^ (p + 1) → ∃ (q l : Nat) (ds : List Nat),
    itoaLoop p (n : Int) acc = .ok (q, (l : Int), ds.map (fun d => UInt8.ofNat (48 + d)) ++ acc) ∧ l < 10 ∧
    (∀ d ∈ ds, d < 10) ∧ q + ds.length = p ∧ (l = 0 → ds = []) ∧ digitsValue (l :: ds) = n := by
  intro p
  induction p with
  | zero =>
    intro n acc h
    refine ⟨0, n, [], ?_, by omega, by simp, rfl, by simp, by simp [digitsValue]⟩
    unfold itoaLoop
    rw [if_neg (by omega)]
    simp
  | succ p ih =>
    intro n acc h
    by_cases hn : (n : Int) > 9
    · obtain ⟨q, l, ds, h1, h2, h3, h4, h5, h6⟩ := ih (n / 10) (UInt8.ofNat (48 + n % 10) :: acc) (by
        rw [Nat.pow_succ] at h
        omega)
      refine ⟨q, l, ds ++ [n % 10], ?_, h2, ?_, ?_, ?_, ?_⟩
      · rw [itoaLoop.eq_def]
        simp only [if_pos hn]
        have e1 : (n : Int) / 10 = ((n / 10 : Nat) : Int) := by omega
        have e2 : ((n : Int) % 10 + 48).toNat = 48 + n % 10 := by omega
        rw [e1, e2, h1]
        simp
      · intro d hd
        rcases List.mem_append.1 hd with hd | hd
        · exact h3 d hd
        · simp only [List.mem_singleton] at hd
          omega
      · simp only [List.length_append, List.length_cons, List.length_nil]
        omega
      · intro hl
        have := h5 hl
        subst this hl
        simp only [digitsValue, List.foldl_cons, List.foldl_nil] at h6
        omega
      · rw [← List.cons_append, digitsValue_append, h6]
        omega
    · refine ⟨p + 1, n, [], ?_, by omega, by simp, by simp, by simp, by simp [digitsValue]⟩
      rw [itoaLoop.eq_def]
      simp only [if_neg hn]
      simp

/-- **C68** (in part) The formatter prints the decimal notation of every 64-bit int but the least.

Missing: the least int, for which the claim is false (`C68_least_int`). -/
theorem C68_decimal_partial (x : Int) (hlo : -2 ^ 63 < x) (hhi : x < 2 ^ 63) : ∃ s, itoa x = .ok s ∧ IsDecimal x s := by
  have hw : (if x < 0 then wrap64 (-x) else x) = (x.natAbs : Int) := by
    split
    · unfold wrap64
      rw [Int.bmod_eq_of_le (by omega) (by omega)]
      omega
    · omega
  obtain ⟨q, l, ds, h1, h2, h3, h4, h5, h6⟩ := itoaLoop_spec 32 x.natAbs [] (by
    have : (2 : Nat) ^ 63 < 10 ^ 33 := by decide
    omega)
  have hds : ds.length ≤ 18 := by
    -- a number of k + 1 digits without leading zero is at least 10 ^ k
    have key : ∀ (ds : List Nat) (v : Nat), v * 10 ^ ds.length ≤ ds.foldl (fun v d => 10 * v + d) v := by
      intro ds
      induction ds with
      | nil => intro v; simp
      | cons d ds ih =>
        intro v
        simp only [List.length_cons, List.foldl_cons]
        refine Nat.le_trans ?_ (ih (10 * v + d))
        rw [Nat.pow_succ]
        calc v * (10 ^ ds.length * 10) = (10 * v) * 10 ^ ds.length := by ring
          _ ≤ (10 * v + d) * 10 ^ ds.length := Nat.mul_le_mul_right _ (by omega)
    by_contra hc
    have hl : l ≠ 0 := by
      intro e
      rw [h5 e] at hc
      simp at hc
    have h7 := key ds l
    have h8 : (10 : Nat) ^ 19 ≤ 10 ^ ds.length := Nat.pow_le_pow_right (by decide) (by omega)
    have h9 : l * 10 ^ ds.length ≤ x.natAbs := by
      rw [← h6]
      simpa [digitsValue] using h7
    have h10 : 1 * 10 ^ ds.length ≤ l * 10 ^ ds.length := Nat.mul_le_mul_right _ (by omega)
    have : (2 : Nat) ^ 63 ≤ 10 ^ 19 := by decide
    omega
  have hb : byteOf ((l : Int) + 48) = UInt8.ofNat (48 + l) := by
    unfold byteOf
    congr 1
    omega
  obtain ⟨q', rfl⟩ : ∃ q', q = q' + 1 + 1 := ⟨q - 2, by omega⟩
  refine ⟨(if x < 0 then [45] else []) ++ (l :: ds).map fun d => UInt8.ofNat (48 + d), ?_, l :: ds, by simp, ?_, ?_, h6, rfl⟩
  · unfold itoa
    simp only [hw, h1, Res.ok_bind, hb, List.append_nil]
    by_cases hx : x < 0
    · simp [hx]
    · simp [hx]
  · intro d hd
    rcases List.mem_cons.1 hd with rfl | hd
    · exact h2
    · exact h3 d hd
  · intro h
    simp only [List.head?_cons, Option.some.injEq] at h
    rw [h5 h, h]

/-- The least int is printed as "-0". -/
theorem C68_least_int : itoa (-2 ^ 63) = .ok (ascii "-0") ∧ ¬ IsDecimal (-2 ^ 63) (ascii "-0") := by
  refine ⟨by decide +kernel, ?_⟩
  rintro ⟨ds, _, hd, _, hv, hs⟩
  have e : ascii "-0" = [45, 48] := by decide +kernel
  rw [e] at hs
  simp only [show (-2 ^ 63 : Int) < 0 by decide, if_true, List.singleton_append, List.cons.injEq, true_and] at hs
  match ds, hs, hd, hv with
  | _ :: _ :: _, hs, _, _ => simp at hs
  | [d], hs, hd, hv =>
    have := hd d (by simp)
    simp only [digitsValue, List.foldl_cons, List.foldl_nil] at hv
    have : ((-2 ^ 63 : Int)).natAbs = 2 ^ 63 := by decide
    omega

example : itoa (-120) = .ok (ascii "-120") ∧ itoa 0 = .ok (ascii "0") := by decide +kernel

end Psd
