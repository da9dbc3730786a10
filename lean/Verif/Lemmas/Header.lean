import Verif.Lemmas.Sim
import Verif.Lemmas.Compress
import Verif.Spec.Config

/-
The header and image resources section: running the decoder on the encoder's bytes.
-/

namespace Psd
open Spec (be num field twos evenPad ResBlock Header lastBlock resSection)

theorem be_eq (n v : Nat) : be n v = beBytes n v := entry_eq_beBytes n v

@[simp] theorem be_length (n v : Nat) : (be n v).length = n := by simp [be]

theorem beNat_be {n v : Nat} (h : v < 256 ^ n) : beNat (be n v) = v := by
  rw [be_eq, beNat_beBytes, Nat.mod_eq_of_lt h]

theorem num_eq_aux (bs : List UInt8) : ∀ a, bs.foldl (fun a b => a * 256 + b.toNat) a =
    a * 256 ^ bs.length + beNat bs := by
  induction bs with
  | nil => intro a; simp [beNat]
  | cons b bs ih =>
    intro a
    simp only [List.foldl_cons, ih, beNat, List.length_cons, Nat.pow_succ]
    rw [Nat.add_mul, Nat.mul_assoc, Nat.mul_comm (256 ^ bs.length), Nat.add_assoc]

theorem num_eq (bs : List UInt8) : num bs = beNat bs := by
  unfold num; rw [num_eq_aux]; simp

theorem beAt_skip {a b : List UInt8} {m off n : Nat} (h : a.length = m) (hm : m ≤ off) :
    beAt (a ++ b) off n = beAt b (off - m) n := by
  unfold beAt
  rw [List.drop_append, List.drop_eq_nil_of_le (by omega), h]; rfl

theorem beAt_be_skip {k v : Nat} {b : List UInt8} {off n : Nat} (hm : k ≤ off) :
    beAt (be k v ++ b) off n = beAt b (off - k) n := beAt_skip (be_length k v) hm

theorem beAt_cons {x : UInt8} {b : List UInt8} {off n : Nat} (h : 0 < off) :
    beAt (x :: b) off n = beAt b (off - 1) n := by
  cases off with
  | zero => omega
  | succ k => rfl

theorem beAt_here {n v off : Nat} {b : List UInt8} (h0 : off = 0 := by rfl) :
    beAt (be n v ++ b) off n = v % 256 ^ n := by
  subst h0
  unfold beAt
  rw [List.drop_zero, List.take_append_of_le_length (by simp), List.take_of_length_le (by simp),
    be_eq, beNat_beBytes]

theorem beAt_last {n v off : Nat} (h0 : off = 0 := by rfl) :
    beAt (be n v) off n = v % 256 ^ n := by
  have := @beAt_here n v off [] h0
  rwa [List.append_nil] at this

theorem int16_twos {x : Int} (h1 : -2 ^ 15 ≤ x) (h2 : x < 2 ^ 15) : int16 (twos 16 x) = x := by
  unfold int16 twos
  simp only
  split <;> omega

theorem twos_lt (w : Nat) (x : Int) : twos w x < 2 ^ w := by
  unfold twos
  have h : (0 : Int) < 2 ^ w := Int.pow_pos (by decide)
  have h1 := Int.emod_nonneg x (by omega : (2 : Int) ^ w ≠ 0)
  have h2 := Int.emod_lt_of_pos x h
  have : ((2 : Nat) ^ w : Int) = 2 ^ w := by norm_cast
  omega

theorem evenPad_length (n : Nat) (p : UInt8) : (evenPad n p).length = n % 2 := by
  unfold evenPad; split <;> simp <;> omega

/-! ### Image resources -/

theorem Runs.pascal {name : List UInt8} (h : name.length < 256) :
    Runs readPascalString ([UInt8.ofNat name.length] ++ name) (name, (name.length : Int) + 1) := by
  unfold readPascalString
  refine Runs.bind (Runs.readFull rfl) ?_
  have h1 : beNat [UInt8.ofNat name.length] = name.length := by
    simp [beNat]; omega
  simp only [h1]
  split
  · rename_i h0
    have : name = [] := List.eq_nil_of_length_eq_zero h0
    subst this; exact Runs.pure _
  · exact Runs.bind' (Runs.readFull rfl) (Runs.pure _) (by simp)

theorem runs_resBlock {r : ResBlock} (h : r.Valid) :
    Runs readResBlock r.bytes (r.id, ⟨r.name, r.data⟩, (r.bytes.length : Int)) := by
  obtain ⟨h1, h2, h3, h4⟩ := h
  have hsig : r.sig.length = 4 := by
    simp only [Spec.resSigs, List.mem_cons, List.not_mem_nil, or_false] at h1
    rcases h1 with h | h | h | h | h <;> rw [h] <;> rfl
  unfold readResBlock ResBlock.bytes
  simp only [List.append_assoc]
  rw [← List.append_assoc r.sig]
  refine Runs.bind (Runs.readFull (by simp [hsig])) ?_
  have e1 : (r.sig ++ be 2 r.id).take 4 = r.sig := by
    rw [List.take_append_of_le_length (by omega), List.take_of_length_le (by omega)]
  have e2 : beAt (r.sig ++ be 2 r.id) 4 2 = r.id := by
    rw [beAt_skip hsig (by omega), beAt_last, Nat.mod_eq_of_lt (by omega)]
  rw [if_neg (by rw [e1]; exact fun hn => hn h1)]
  rw [← List.append_assoc [_] r.name]
  refine Runs.bind (Runs.pascal (by omega)) ?_
  refine Runs.bind (Runs.align2 (by rw [evenPad_length]; omega)) ?_
  refine Runs.bind (Runs.readFull (by simp)) ?_
  rw [beAt_last, Nat.mod_eq_of_lt (by omega)]
  refine Runs.bind (Runs.readFull rfl) ?_
  refine Runs.bind' (Runs.align2 (by rw [evenPad_length]; omega)) ?_ (List.append_nil _).symm
  refine (Runs.pure _).congr rfl ?_
  rw [e2]
  simp only [List.length_append, be_length, hsig, List.length_cons, List.length_nil]
  congr 2
  omega

theorem resBlock_length {r : ResBlock} (h : r.Valid) : 12 ≤ r.bytes.length := by
  obtain ⟨h1, h2, h3, h4⟩ := h
  have hsig : r.sig.length = 4 := by
    simp only [Spec.resSigs, List.mem_cons, List.not_mem_nil, or_false] at h1
    rcases h1 with h | h | h | h | h <;> rw [h] <;> rfl
  unfold ResBlock.bytes
  simp only [List.length_append, be_length, evenPad_length, hsig, List.length_cons, List.length_nil]
  omega

/-- The map after storing the blocks one after the other. -/
def storeBlocks (m : ResMap) (rs : List ResBlock) : ResMap :=
  rs.foldl (fun m r => m.set r.id ⟨r.name, r.data⟩) m

theorem storeBlocks_apply (rs : List ResBlock) : ∀ (m : ResMap) (id : Nat), storeBlocks m rs id =
    match lastBlock rs id with
    | some r => some ⟨r.name, r.data⟩
    | none => m id := by
  induction rs with
  | nil => intro m id; rfl
  | cons r rs ih =>
    intro m id
    show storeBlocks (m.set r.id _) rs id = _
    rw [ih]
    unfold lastBlock
    rw [List.reverse_cons, List.find?_append]
    cases hf : List.find? (fun r => decide (r.id = id)) rs.reverse with
    | some x => simp
    | none =>
      simp only [Option.none_or, List.find?_cons, List.find?_nil]
      by_cases hid : r.id = id
      · simp only [hid, decide_true]; rw [GoMap.set_same]
      · simp only [hid, decide_false]; rw [GoMap.set_other _ _ (fun e => hid e.symm)]

theorem runs_resLoop (total : Int) : ∀ (rs : List ResBlock) (fuel : Nat) (read : Int) (m : ResMap),
    (∀ r ∈ rs, r.Valid) → (rs.flatMap ResBlock.bytes).length ≤ fuel →
    read + (rs.flatMap ResBlock.bytes).length = total + 4 →
    Runs (readResLoop total fuel read m) (rs.flatMap ResBlock.bytes) (storeBlocks m rs, total + 4) := by
  intro rs
  induction rs with
  | nil =>
    intro fuel read m _ _ h
    simp only [List.flatMap_nil, List.length_nil] at h ⊢
    rw [readResLoop.eq_def]; simp only
    rw [if_neg (by omega)]
    exact (Runs.pure _).congr rfl (by simp [storeBlocks]; omega)
  | cons r rs ih =>
    intro fuel read m hv hf ht
    have hr := hv r (by simp)
    have hl := resBlock_length hr
    simp only [List.flatMap_cons, List.length_append] at hf ht ⊢
    obtain ⟨fuel, rfl⟩ : ∃ k, fuel = k + 1 := ⟨fuel - 1, by omega⟩
    rw [readResLoop.eq_def]; simp only
    rw [if_pos (by omega)]
    refine Runs.bind (runs_resBlock hr) ?_
    exact ih fuel _ _ (fun x hx => hv x (by simp [hx])) (by omega) (by simp only; omega)

theorem runs_imageResource {rs : List ResBlock} (hv : ∀ r ∈ rs, r.Valid)
    (hlen : (rs.flatMap ResBlock.bytes).length < 2 ^ 32) {fuel : Nat}
    (hf : (rs.flatMap ResBlock.bytes).length ≤ fuel) :
    Runs (readImageResourceF fuel) (resSection rs)
      (storeBlocks GoMap.empty rs, ((resSection rs).length : Int)) := by
  unfold readImageResourceF resSection
  simp only
  refine Runs.bind (Runs.readFull (by simp)) ?_
  rw [beAt_last, Nat.mod_eq_of_lt (by omega)]
  split
  · rename_i h0
    cases rs with
    | nil => exact (Runs.pure _).congr rfl (by simp [storeBlocks])
    | cons r rs =>
      have := resBlock_length (hv r (by simp))
      simp only [List.flatMap_cons, List.length_append] at h0
      omega
  · refine (runs_resLoop _ rs fuel 4 _ hv hf (by omega)).congr rfl ?_
    simp only [List.length_append, be_length]
    congr 1; omega

/-! ### The header -/

/-- The configuration that stands for a header and resource blocks. -/
def specConfig (h : Header) (rs : List ResBlock) : Config :=
  { version := h.version, rect := ⟨0, 0, h.width, h.height⟩, channels := h.channels,
    depth := h.depth, colorMode := h.mode, colorModeData := h.colorData,
    res := storeBlocks GoMap.empty rs }

theorem runs_config {h : Header} (hv : h.Valid) {rs : List ResBlock} (hr : ∀ r ∈ rs, r.Valid)
    (hlen : (rs.flatMap ResBlock.bytes).length < 2 ^ 32) {fuel : Nat}
    (hf : (rs.flatMap ResBlock.bytes).length ≤ fuel) :
    Runs (decodeConfigF fuel) (h.bytes ++ resSection rs)
      (specConfig h rs, ((h.bytes ++ resSection rs).length : Int)) := by
  obtain ⟨v1, v2, v3, v4, v5, v6, v7, v8⟩ := hv
  have hms : Spec.maxSide h.version = 30000 ∧ h.version = 1 ∨
      Spec.maxSide h.version = 300000 ∧ h.version = 2 := by
    unfold Spec.maxSide; rcases v1 with e | e <;> simp [e]
  have hd : h.depth = 1 ∨ h.depth = 8 ∨ h.depth = 16 ∨ h.depth = 32 := by simpa using v5
  have ht := twos_lt 16 h.mode
  have hbytes : h.bytes ++ resSection rs = ([56, 66, 80, 83] ++ (be 2 h.version ++ (h.reserved ++
      (be 2 h.channels ++ (be 4 h.height ++ (be 4 h.width ++ (be 2 h.depth ++ (be 2 (twos 16 h.mode) ++
      be 4 h.colorData.length)))))))) ++ (h.colorData ++ resSection rs) := by
    unfold Header.bytes; simp only [List.append_assoc]
  have hlen' : ((h.bytes ++ resSection rs).length : Int) =
      30 + h.colorData.length + (resSection rs).length := by
    rw [hbytes]; simp only [List.length_append, be_length, v8, List.length_cons, List.length_nil]
    omega
  rw [hlen', hbytes]
  unfold decodeConfigF
  refine Runs.bind (Runs.readFull (by simp [v8])) ?_
  generalize hb : ([56, 66, 80, 83] ++ (be 2 h.version ++ (h.reserved ++
      (be 2 h.channels ++ (be 4 h.height ++ (be 4 h.width ++ (be 2 h.depth ++ (be 2 (twos 16 h.mode) ++
      be 4 h.colorData.length))))))) : List UInt8) = b
  have e0 : b.take 4 = headerSignature := by rw [← hb]; rfl
  have e1 : beAt b 4 2 = h.version := by
    rw [← hb, beAt_skip rfl (by decide), beAt_here (by rfl), Nat.mod_eq_of_lt (by omega)]
  have e2 : beAt b 12 2 = h.channels := by
    rw [← hb, beAt_skip rfl (by decide), beAt_be_skip (by decide), beAt_skip v8 (by decide),
      beAt_here (by rfl), Nat.mod_eq_of_lt (by omega)]
  have e3 : beAt b 14 4 = h.height := by
    rw [← hb, beAt_skip rfl (by decide), beAt_be_skip (by decide), beAt_skip v8 (by decide),
      beAt_be_skip (by decide), beAt_here (by rfl), Nat.mod_eq_of_lt (by omega)]
  have e4 : beAt b 18 4 = h.width := by
    rw [← hb, beAt_skip rfl (by decide), beAt_be_skip (by decide), beAt_skip v8 (by decide),
      beAt_be_skip (by decide), beAt_be_skip (by decide), beAt_here (by rfl), Nat.mod_eq_of_lt (by omega)]
  have e5 : beAt b 22 2 = h.depth := by
    rw [← hb, beAt_skip rfl (by decide), beAt_be_skip (by decide), beAt_skip v8 (by decide),
      beAt_be_skip (by decide), beAt_be_skip (by decide), beAt_be_skip (by decide), beAt_here (by rfl),
      Nat.mod_eq_of_lt (by omega)]
  have e6 : int16 (beAt b 24 2) = h.mode := by
    rw [← hb, beAt_skip rfl (by decide), beAt_be_skip (by decide), beAt_skip v8 (by decide),
      beAt_be_skip (by decide), beAt_be_skip (by decide), beAt_be_skip (by decide),
      beAt_be_skip (by decide), beAt_here (by rfl), Nat.mod_eq_of_lt (by omega), int16_twos v6.1 v6.2]
  have e7 : beAt b 26 4 = h.colorData.length := by
    rw [← hb, beAt_skip rfl (by decide), beAt_be_skip (by decide), beAt_skip v8 (by decide),
      beAt_be_skip (by decide), beAt_be_skip (by decide), beAt_be_skip (by decide),
      beAt_be_skip (by decide), beAt_be_skip (by decide), beAt_last (by rfl), Nat.mod_eq_of_lt (by omega)]
  simp only [e0, e1, e2, e3, e4, e5, e6, e7]
  rw [if_neg (by simp), if_neg (by omega), if_neg (by omega), if_neg (by omega), if_neg (by omega),
    if_neg (by omega)]
  refine Runs.bind (Runs.readFull rfl) ?_
  refine Runs.bind' (runs_imageResource hr hlen hf) ?_ (List.append_nil _).symm
  refine (Runs.pure _).congr rfl ?_
  have : Rect.make 0 0 h.width h.height = ⟨0, 0, h.width, h.height⟩ := by
    unfold Rect.make; congr 1 <;> omega
  simp only [this, specConfig]

end Psd
