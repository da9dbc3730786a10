import Verif.Lemmas.Header
import Verif.Lemmas.MaskBlock
import Verif.Spec.Decoded

/-
Layer records: running the decoder on the encoder's bytes.
-/

namespace Psd
open Spec (be twos wide Box MaskParams MaskSpec InfoBlock Divider Picture Layer lastInfo infoSection)

/-! ### Rectangles -/

/-- The decoded rectangle of the real user mask, whose coordinates the code reads as unsigned. -/
def realRectOf (b : Box) : Rect :=
  Rect.make (b.left % 2 ^ 32) (b.top % 2 ^ 32) (b.right % 2 ^ 32) (b.bottom % 2 ^ 32)

theorem int32_twos {x : Int} (h1 : -2 ^ 31 ≤ x) (h2 : x < 2 ^ 31) : int32 (twos 32 x) = x := by
  unfold int32 twos
  simp only
  split <;> omega

theorem box_length (b : Box) : b.bytes.length = 16 := by simp [Box.bytes]

theorem box_at (b : Box) : beAt b.bytes 0 4 = twos 32 b.top ∧ beAt b.bytes 4 4 = twos 32 b.left ∧
    beAt b.bytes 8 4 = twos 32 b.bottom ∧ beAt b.bytes 12 4 = twos 32 b.right := by
  have h : ∀ x, twos 32 x % 256 ^ 4 = twos 32 x := fun x => Nat.mod_eq_of_lt (twos_lt 32 x)
  unfold Box.bytes
  simp only [List.append_assoc]
  refine ⟨?_, ?_, ?_, ?_⟩
  · rw [beAt_here, h]
  · rw [beAt_be_skip (by decide), beAt_here (by rfl), h]
  · rw [beAt_be_skip (by decide), beAt_be_skip (by decide), beAt_here (by rfl), h]
  · rw [beAt_be_skip (by decide), beAt_be_skip (by decide), beAt_be_skip (by decide),
      beAt_last (by rfl), h]

theorem rectS_box {b : Box} (h : b.Valid) : rectS b.bytes = rectOf b := by
  obtain ⟨h1, h2, h3, h4⟩ := box_at b
  obtain ⟨⟨a1, a2, a3⟩, a4, a5, a6⟩ := h
  unfold rectS rectOf
  rw [h1, h2, h3, h4, int32_twos (by omega) (by omega), int32_twos (by omega) (by omega),
    int32_twos (by omega) (by omega), int32_twos (by omega) (by omega)]
  unfold Rect.make
  congr 1 <;> omega

theorem twos_cast (x : Int) : ((twos 32 x : Nat) : Int) = x % 2 ^ 32 := by
  unfold twos; omega

theorem rectU_box (b : Box) : rectU b.bytes = realRectOf b := by
  obtain ⟨h1, h2, h3, h4⟩ := box_at b
  unfold rectU realRectOf
  rw [h1, h2, h3, h4, twos_cast, twos_cast, twos_cast, twos_cast]

theorem realRectOf_nonneg {b : Box} (h : b.Valid) (hl : 0 ≤ b.left) (ht : 0 ≤ b.top) :
    realRectOf b = rectOf b := by
  obtain ⟨⟨a1, a2, a3⟩, a4, a5, a6⟩ := h
  unfold realRectOf rectOf Rect.make
  congr 1 <;> omega

/-! ### Masks -/

/-- The decoded mask. -/
def maskOf : MaskSpec → Mask
  | .absent => {}
  | .short r c f _ _ =>
    { rect := rectOf r, defaultColor := c.toNat, flags := f.toNat,
      userMaskDensity := 255, vectorMaskDensity := 255 }
  | .full r c f ps rf rc rr =>
    { rect := rectOf r, defaultColor := c.toNat, flags := f.toNat,
      realRect := realRectOf rr, realBackgroundColor := rc.toNat, realFlags := rf.toNat,
      userMaskDensity := ((ps.bind (·.userDensity)).getD 255).toNat,
      userMaskFeather := (ps.bind (·.userFeather)).getD 0,
      vectorMaskDensity := ((ps.bind (·.vectorDensity)).getD 255).toNat,
      vectorMaskFeather := (ps.bind (·.vectorFeather)).getD 0 }
  | .block b => blockMask b

theorem beNat_one (x : UInt8) : beNat [x] = x.toNat := by simp [beNat]

theorem and16 (f : UInt8) : f.toNat &&& 16 ≠ 0 ↔ f.toNat / 16 % 2 = 1 := by
  have h : ∀ n : Nat, n < 256 → (n &&& 16 ≠ 0 ↔ n / 16 % 2 = 1) := by decide +kernel
  exact h _ f.toNat_lt

theorem runs_maskTail (m : Mask) {maskLen rm read : Int} (h : maskLen - rm = 18) (h20 : maskLen ≠ 20)
    (rf rc : UInt8) (rr : Box) :
    Runs (readMaskTail m maskLen rm read) ([rf, rc] ++ rr.bytes)
      ({ m with realFlags := rf.toNat, realBackgroundColor := rc.toNat, realRect := realRectOf rr },
        read + 18) := by
  unfold readMaskTail
  rw [if_neg h20, if_neg (by omega)]
  refine Runs.bind' (b₁ := [rf]) (b₂ := [rc] ++ rr.bytes) (Runs.readFull rfl) ?_ (by simp)
  rw [if_neg (by omega)]
  refine Runs.bind' (b₁ := [rc]) (b₂ := rr.bytes) (Runs.readFull rfl) ?_ rfl
  rw [if_neg (by omega)]
  refine Runs.bind' (b₁ := rr.bytes) (b₂ := []) (Runs.readFull (box_length rr)) ?_ (by simp)
  refine (Runs.pure _).congr rfl ?_
  rw [rectU_box, beNat_one, beNat_one]
  congr 1; omega

theorem runs_maskP8 (m : Mask) {maskLen rm read : Int} {p : Nat} (o : Option Nat) (ho : ∀ v ∈ o, v < 2 ^ 64)
    (hp : p &&& 8 ≠ 0 ↔ o.isSome = true) {a : List UInt8} {r : Mask × Int}
    (hlen : o.isSome = true → 8 ≤ maskLen - rm)
    (h : Runs (readMaskTail { m with vectorMaskFeather := o.getD m.vectorMaskFeather } maskLen
        (rm + if o.isSome then 8 else 0) (read + if o.isSome then 8 else 0)) a r) :
    Runs (readMaskP8 p m maskLen rm read) ((match (generalizing := false) o with | some v => be 8 v | none => []) ++ a) r := by
  unfold readMaskP8
  cases o with
  | none =>
    rw [if_neg (by rw [hp]; simp)]
    simpa using h
  | some v =>
    rw [if_pos (by rw [hp]; rfl), if_neg (by have := hlen rfl; omega)]
    refine Runs.bind (Runs.readFull (by simp)) ?_
    rw [beNat_be (by have := ho v rfl; omega)]
    simpa using h

theorem runs_maskP4 (m : Mask) {maskLen rm read : Int} {p : Nat} (o : Option UInt8)
    (hp : p &&& 4 ≠ 0 ↔ o.isSome = true) {a : List UInt8} {r : Mask × Int}
    (hlen : o.isSome = true → 1 ≤ maskLen - rm)
    (h : Runs (readMaskP8 p { m with vectorMaskDensity := (o.map UInt8.toNat).getD m.vectorMaskDensity } maskLen
        (rm + if o.isSome then 1 else 0) (read + if o.isSome then 1 else 0)) a r) :
    Runs (readMaskP4 p m maskLen rm read) ((match (generalizing := false) o with | some v => [v] | none => []) ++ a) r := by
  unfold readMaskP4
  cases o with
  | none =>
    rw [if_neg (by rw [hp]; simp)]
    simpa using h
  | some v =>
    rw [if_pos (by rw [hp]; rfl), if_neg (by have := hlen rfl; omega)]
    refine Runs.bind (Runs.readFull (by simp)) ?_
    rw [beNat_one]
    simpa using h

theorem runs_maskP2 (m : Mask) {maskLen rm read : Int} {p : Nat} (o : Option Nat) (ho : ∀ v ∈ o, v < 2 ^ 64)
    (hp : p &&& 2 ≠ 0 ↔ o.isSome = true) {a : List UInt8} {r : Mask × Int}
    (hlen : o.isSome = true → 8 ≤ maskLen - rm)
    (h : Runs (readMaskP4 p { m with userMaskFeather := o.getD m.userMaskFeather } maskLen
        (rm + if o.isSome then 8 else 0) (read + if o.isSome then 8 else 0)) a r) :
    Runs (readMaskP2 p m maskLen rm read) ((match (generalizing := false) o with | some v => be 8 v | none => []) ++ a) r := by
  unfold readMaskP2
  cases o with
  | none =>
    rw [if_neg (by rw [hp]; simp)]
    simpa using h
  | some v =>
    rw [if_pos (by rw [hp]; rfl), if_neg (by have := hlen rfl; omega)]
    refine Runs.bind (Runs.readFull (by simp)) ?_
    rw [beNat_be (by have := ho v rfl; omega)]
    simpa using h

theorem runs_maskP1 (m : Mask) {maskLen rm read : Int} {p : Nat} (o : Option UInt8)
    (hp : p &&& 1 ≠ 0 ↔ o.isSome = true) {a : List UInt8} {r : Mask × Int}
    (hlen : o.isSome = true → 1 ≤ maskLen - rm)
    (h : Runs (readMaskP2 p { m with userMaskDensity := (o.map UInt8.toNat).getD m.userMaskDensity } maskLen
        (rm + if o.isSome then 1 else 0) (read + if o.isSome then 1 else 0)) a r) :
    Runs (readMaskP1 p m maskLen rm read) ((match (generalizing := false) o with | some v => [v] | none => []) ++ a) r := by
  unfold readMaskP1
  cases o with
  | none =>
    rw [if_neg (by rw [hp]; simp)]
    simpa using h
  | some v =>
    rw [if_pos (by rw [hp]; rfl), if_neg (by have := hlen rfl; omega)]
    refine Runs.bind (Runs.readFull (by simp)) ?_
    rw [beNat_one]
    simpa using h

theorem bits_and (a b c d : Bool) :
    let n := (if a then 1 else 0) + (if b then 2 else 0) + (if c then 4 else 0) + (if d then 8 else 0)
    (UInt8.ofNat n).toNat = n ∧ (n &&& 1 ≠ 0 ↔ a = true) ∧ (n &&& 2 ≠ 0 ↔ b = true) ∧
    (n &&& 4 ≠ 0 ↔ c = true) ∧ (n &&& 8 ≠ 0 ↔ d = true) := by
  revert a b c d; decide

theorem params_length (p : MaskParams) : p.bytes.length =
    1 + (if p.userDensity.isSome then 1 else 0) + (if p.userFeather.isSome then 8 else 0) +
      (if p.vectorDensity.isSome then 1 else 0) + (if p.vectorFeather.isSome then 8 else 0) := by
  unfold MaskParams.bytes
  cases p.userDensity <;> cases p.userFeather <;> cases p.vectorDensity <;> cases p.vectorFeather <;>
    simp

theorem maskBody_bound {m : MaskSpec} (h : m.Valid) : m.body.length ≤ 100 := by
  cases m with
  | block b =>
    simp only [MaskSpec.Valid, Spec.MaskBlock.known, Spec.MaskBlock.realAt, Spec.MaskBlock.vectorFeatherAt,
      Spec.MaskBlock.vectorDensityAt, Spec.MaskBlock.userFeatherAt, Spec.MaskBlock.userDensityAt] at h
    simp only [MaskSpec.body]
    have : ∀ (c : Prop) [Decidable c] (x : Nat), (if c then x else 0) ≤ x := by intro c _ x; split <;> omega
    have h1 := this (Spec.MaskBlock.bit (Spec.MaskBlock.params b) 0 = true) 1
    have h2 := this (Spec.MaskBlock.bit (Spec.MaskBlock.params b) 1 = true) 8
    have h3 := this (Spec.MaskBlock.bit (Spec.MaskBlock.params b) 2 = true) 1
    have h4 := this (Spec.MaskBlock.bit (Spec.MaskBlock.params b) 3 = true) 8
    have h5 : (if Spec.MaskBlock.bit (Spec.MaskBlock.flags b) 4 then 19 else 18) ≤ 19 := by split <;> omega
    omega
  | absent => simp [MaskSpec.body]
  | short => simp [MaskSpec.body, box_length]
  | full r c f ps rf rc rr =>
    cases ps with
    | none => simp [MaskSpec.body, box_length]
    | some p =>
      simp only [MaskSpec.body, List.length_append, box_length, params_length, List.length_cons,
        List.length_nil]
      split <;> split <;> split <;> split <;> omega

theorem runs_mask {m : MaskSpec} (h : m.Valid) :
    Runs (readMaskData {}) m.bytes (maskOf m, (m.bytes.length : Int)) := by
  have hb := maskBody_bound h
  by_cases hblk : ∃ b, m = .block b
  · obtain ⟨b, rfl⟩ := hblk
    simp only [MaskSpec.body] at hb
    have hr := runs_maskBlock b (by omega)
    have he : maskEnd b (Spec.MaskBlock.realAt b) = b.length := by
      simp only [MaskSpec.Valid, Spec.MaskBlock.known] at h
      unfold maskEnd; split <;> omega
    rw [he, List.take_length] at hr
    refine hr.congr rfl (Prod.ext rfl ?_)
    simp only [MaskSpec.bytes, MaskSpec.body, List.length_append, be_length]
  unfold readMaskData MaskSpec.bytes
  refine Runs.bind (Runs.readFull (by simp)) ?_
  simp only
  rw [beAt_last, Nat.mod_eq_of_lt (by omega)]
  simp only [List.length_append, be_length]
  cases m with
  | block b => exact (hblk ⟨b, rfl⟩).elim
  | absent => simp only [MaskSpec.body]; exact (Runs.pure _)
  | short r c f p1 p2 =>
    simp only [MaskSpec.Valid] at h
    have hl : (MaskSpec.short r c f p1 p2).body.length = 20 := by simp [MaskSpec.body, box_length]
    rw [hl]
    simp only [MaskSpec.body]
    rw [if_neg (by decide), if_neg (by decide)]
    refine Runs.bind (Runs.readFull (box_length r)) ?_
    rw [if_neg (by decide)]
    refine Runs.bind' (b₁ := [c]) (b₂ := [f, p1, p2]) (Runs.readFull rfl) ?_ rfl
    rw [if_neg (by decide)]
    refine Runs.bind' (b₁ := [f]) (b₂ := [p1, p2]) (Runs.readFull rfl) ?_ rfl
    simp only [beNat_one]
    rw [if_neg (by rw [and16]; omega)]
    unfold readMaskTail
    rw [if_pos (by decide), if_pos (by decide)]
    refine Runs.bind' (b₁ := [p1, p2]) (b₂ := []) (Runs.readFull rfl) ?_ rfl
    refine (Runs.pure _).congr rfl ?_
    rw [rectS_box h.1]
    rfl
  | full r c f ps rf rc rr =>
    simp only [MaskSpec.Valid] at h
    obtain ⟨hr, hrr, hf, hps⟩ := h
    cases ps with
    | none =>
      have hl : (MaskSpec.full r c f none rf rc rr).body.length = 36 := by
        simp [MaskSpec.body, box_length]
      rw [hl]
      simp only [MaskSpec.body, List.append_nil, List.append_assoc]
      rw [if_neg (by decide), if_neg (by decide)]
      refine Runs.bind (Runs.readFull (box_length r)) ?_
      rw [if_neg (by decide)]
      refine Runs.bind' (b₁ := [c]) (b₂ := [f] ++ ([rf, rc] ++ rr.bytes)) (Runs.readFull rfl) ?_ rfl
      rw [if_neg (by decide)]
      refine Runs.bind' (b₁ := [f]) (b₂ := [rf, rc] ++ rr.bytes) (Runs.readFull rfl) ?_ rfl
      simp only [beNat_one]
      rw [if_neg (by rw [and16, hf]; simp)]
      refine (runs_maskTail _ (by decide) (by decide) rf rc rr).congr rfl ?_
      rw [rectS_box hr]
      rfl
    | some p =>
      obtain ⟨hp1, hp2⟩ := hps p rfl
      have hl : (MaskSpec.full r c f (some p) rf rc rr).body.length = 36 + p.bytes.length := by
        simp [MaskSpec.body, box_length]; omega
      have hpl := params_length p
      obtain ⟨b0, b1, b2, b4, b8⟩ := bits_and p.userDensity.isSome p.userFeather.isSome
        p.vectorDensity.isSome p.vectorFeather.isSome
      rw [hl]
      generalize p.bytes.length = N at hpl
      simp only [MaskSpec.body, List.append_assoc]
      rw [if_neg (by omega), if_neg (by omega)]
      refine Runs.bind (Runs.readFull (box_length r)) ?_
      rw [if_neg (by omega)]
      refine Runs.bind' (b₁ := [c]) (b₂ := [f] ++ (p.bytes ++ ([rf, rc] ++ rr.bytes))) (Runs.readFull rfl) ?_ rfl
      rw [if_neg (by omega)]
      refine Runs.bind' (b₁ := [f]) (b₂ := p.bytes ++ ([rf, rc] ++ rr.bytes)) (Runs.readFull rfl) ?_ rfl
      simp only [beNat_one]
      rw [if_pos (by rw [and16, hf]; rfl), if_neg (by omega)]
      unfold MaskParams.bytes
      simp only [List.append_assoc]
      refine Runs.bind (Runs.readFull rfl) ?_
      rw [beNat_one]
      unfold MaskParams.bits
      rw [b0]
      refine runs_maskP1 _ p.userDensity b1 ?_ ?_
      · intro h; rw [if_pos h] at hpl; omega
      refine runs_maskP2 _ p.userFeather hp1 b2 ?_ ?_
      · intro h; rw [if_pos h] at hpl; split <;> simp_all <;> omega
      refine runs_maskP4 _ p.vectorDensity b4 ?_ ?_
      · intro h; rw [if_pos h] at hpl; split <;> split <;> simp_all <;> omega
      refine runs_maskP8 _ p.vectorFeather hp2 b8 ?_ ?_
      · intro h; rw [if_pos h] at hpl; split <;> split <;> split <;> simp_all <;> omega
      refine (runs_maskTail _ ?_ (by omega) rf rc rr).congr rfl ?_
      · rw [hpl]
        split <;> split <;> split <;> split <;> omega
      · rw [rectS_box hr]
        simp only [maskOf, Option.bind_some]
        congr 1
        · congr 1
          · cases p.userDensity <;> rfl
          · cases p.vectorDensity <;> rfl
        · rw [hpl]
          split <;> split <;> split <;> split <;> simp <;> omega

/-! ### Runs with events -/

/-- Like `Runs`, with the callback invocations `es`. -/
def RunsE {α : Type} (p : P α) (bytes : List UInt8) (a : α) (es : List Event) : Prop :=
  ∀ (s : St) (rest : List UInt8), s.sched = [] → s.eager = false → s.avail = bytes ++ rest →
    s.pos + bytes.length < 2 ^ 63 →
    p s = .ok (a, { s with pos := s.pos + bytes.length, log := s.log ++ es })

theorem Runs.toE {α : Type} {p : P α} {b : List UInt8} {a : α} (h : Runs p b a) : RunsE p b a [] := by
  intro s rest hs he hav hpos
  rw [h s rest hs he hav hpos]; simp

theorem RunsE.toRuns {α : Type} {p : P α} {b : List UInt8} {a : α} (h : RunsE p b a []) : Runs p b a := by
  intro s rest hs he hav hpos
  rw [h s rest hs he hav hpos]; simp

theorem RunsE.bind {α β : Type} {p : P α} {f : α → P β} {b₁ b₂ : List UInt8} {a : α} {c : β}
    {e₁ e₂ : List Event} (h₁ : RunsE p b₁ a e₁) (h₂ : RunsE (f a) b₂ c e₂) :
    RunsE (p >>= f) (b₁ ++ b₂) c (e₁ ++ e₂) := by
  intro s rest hs he hav hpos
  simp only [List.length_append] at hpos
  rw [List.append_assoc] at hav
  rw [P.bind_ok (h₁ s (b₂ ++ rest) hs he hav (by omega))]
  rw [h₂ { s with pos := s.pos + b₁.length, log := s.log ++ e₁ } rest hs he (avail_advance hav)
    (by simp; omega)]
  simp [Nat.add_assoc]

theorem RunsE.bind' {α β : Type} {p : P α} {f : α → P β} {b₁ b₂ b : List UInt8} {a : α} {c : β}
    {e₁ e₂ e : List Event} (h₁ : RunsE p b₁ a e₁) (h₂ : RunsE (f a) b₂ c e₂) (hb : b = b₁ ++ b₂)
    (he : e = e₁ ++ e₂) : RunsE (p >>= f) b c e := by
  subst hb he; exact h₁.bind h₂

theorem RunsE.congr {α : Type} {p : P α} {b b' : List UInt8} {a a' : α} {e e' : List Event}
    (h : RunsE p b a e) (hb : b' = b) (ha : a' = a) (he : e' = e) : RunsE p b' a' e' := by
  subst hb ha he; exact h

/-- A silent parser in front. -/
theorem Runs.bindE {α β : Type} {p : P α} {f : α → P β} {b₁ b₂ : List UInt8} {a : α} {c : β}
    {e : List Event} (h₁ : Runs p b₁ a) (h₂ : RunsE (f a) b₂ c e) : RunsE (p >>= f) (b₁ ++ b₂) c e :=
  (h₁.toE).bind h₂

theorem Runs.bindE' {α β : Type} {p : P α} {f : α → P β} {b₁ b₂ b : List UInt8} {a : α} {c : β}
    {e : List Event} (h₁ : Runs p b₁ a) (h₂ : RunsE (f a) b₂ c e) (hb : b = b₁ ++ b₂) :
    RunsE (p >>= f) b c e := by
  subst hb; exact h₁.bindE h₂

/-! ### Additional layer information -/

theorem scanSig_stop (infoLen : Int) (fuel : Nat) (b0 : UInt8) (read : Int)
    (h : ¬ (read < infoLen ∧ b0 ≠ 0x38)) : scanSig infoLen fuel b0 read = pure (b0, read) := by
  rw [scanSig.eq_def]; simp only; rw [if_neg h]

theorem scanSig_step (infoLen : Int) (fuel : Nat) (b0 : UInt8) (read : Int)
    (h : read < infoLen ∧ b0 ≠ 0x38) : scanSig infoLen (fuel + 1) b0 read =
      (readFull 1 >>= fun b => scanSig infoLen fuel (b.headD 0) (read + 1)) := by
  rw [scanSig.eq_def]; simp only; rw [if_pos h]

theorem runs_scanFound (infoLen : Int) : ∀ (pad : List UInt8) (fuel : Nat) (b0 : UInt8) (read : Int),
    b0 ≠ 0x38 → (∀ x ∈ pad, x ≠ 56) → read + pad.length + 1 ≤ infoLen → pad.length + 1 ≤ fuel →
    Runs (scanSig infoLen fuel b0 read) (pad ++ [56]) (56, read + pad.length + 1) := by
  intro pad
  induction pad with
  | nil =>
    intro fuel b0 read hb _ hr hf
    cases fuel with
    | zero => simp at hf
    | succ n =>
      simp only [List.length_nil] at hr
      rw [scanSig_step _ _ _ _ ⟨by omega, hb⟩]
      refine Runs.bind' (b₁ := [56]) (b₂ := []) (Runs.readFull rfl) ?_ rfl
      rw [scanSig_stop _ _ _ _ (by simp)]
      exact (Runs.pure _).congr rfl (by simp)
  | cons x xs ih =>
    intro fuel b0 read hb hp hr hf
    cases fuel with
    | zero => simp at hf
    | succ n =>
      simp only [List.length_cons] at hr hf
      rw [scanSig_step _ _ _ _ ⟨by omega, hb⟩]
      refine Runs.bind' (b₁ := [x]) (b₂ := xs ++ [56]) (Runs.readFull rfl) ?_ rfl
      refine (ih n x (read + 1) (hp x (by simp)) (fun y hy => hp y (by simp [hy])) (by omega)
        (by omega)).congr rfl ?_
      simp only [List.length_cons]
      congr 1; omega

theorem runs_scanEnd (infoLen : Int) : ∀ (pad : List UInt8) (fuel : Nat) (b0 : UInt8) (read : Int),
    b0 ≠ 0x38 → (∀ x ∈ pad, x ≠ 56) → read + pad.length = infoLen → pad.length ≤ fuel →
    ∃ b0', b0' ≠ 0x38 ∧ Runs (scanSig infoLen fuel b0 read) pad (b0', infoLen) := by
  intro pad
  induction pad with
  | nil =>
    intro fuel b0 read hb _ hr hf
    simp only [List.length_nil] at hr
    refine ⟨b0, hb, ?_⟩
    rw [scanSig_stop _ _ _ _ (by omega)]
    exact (Runs.pure _).congr rfl (by congr 1; omega)
  | cons x xs ih =>
    intro fuel b0 read hb hp hr hf
    cases fuel with
    | zero => simp at hf
    | succ n =>
      simp only [List.length_cons] at hr hf
      obtain ⟨b0', h1, h2⟩ := ih n x (read + 1) (hp x (by simp)) (fun y hy => hp y (by simp [hy]))
        (by omega) (by omega)
      refine ⟨b0', h1, ?_⟩
      rw [scanSig_step _ _ _ _ ⟨by omega, hb⟩]
      exact Runs.bind' (b₁ := [x]) (b₂ := xs) (Runs.readFull rfl) h2 rfl

/-- A block of a section: an ordinary one, or one holding layers. -/
structure Ent where
  sig : List UInt8
  key : List UInt8
  payload : List UInt8
  pad : List UInt8
  info : Option (List UInt8)
  layers : List LayerRec
  events : List Event

def Ent.bytes (e : Ent) : List UInt8 := e.sig ++ e.key ++ e.payload ++ e.pad

def Ent.Ok (li : P (Option (List LayerRec) × Int)) (psb : Bool) (e : Ent) : Prop :=
  e.sig ∈ Spec.infoSigs ∧ e.key.length = 4 ∧ (∀ x ∈ e.pad, x ≠ 56) ∧
  ((e.key ∉ Spec.nestedKeys ∧ e.layers = [] ∧ e.events = [] ∧
    ∃ data, e.info = some data ∧ data.length ≤ 2 ^ 48 ∧ data.length < 256 ^ lenSize e.key psb ∧
      e.payload = be (lenSize e.key psb) data.length ++ data) ∨
   (e.key ∈ Spec.nestedKeys ∧ e.info = none ∧
    ∃ ls, RunsE li e.payload (ls, (e.payload.length : Int)) e.events ∧ e.layers = ls.getD []))

def Ent.store (m : Infos) (e : Ent) : Infos :=
  match e.info with
  | some d => m.set e.key d
  | none => m

def storeEnts (m : Infos) (es : List Ent) : Infos := es.foldl Ent.store m

theorem addlLoop_stop (li : P (Option (List LayerRec) × Int)) (psb : Bool) (infoLen : Int)
    (bound fuel : Nat) (infos : Infos) (layers : List LayerRec) (read : Int) (h : ¬ read < infoLen) :
    addlLoop li psb infoLen bound fuel infos layers read = pure (infos, layers, read) := by
  rw [addlLoop.eq_def]; simp only; rw [if_neg h]

theorem addlLoop_step (li : P (Option (List LayerRec) × Int)) (psb : Bool) (infoLen : Int)
    (bound fuel : Nat) (infos : Infos) (layers : List LayerRec) (read : Int) (h : read < infoLen) :
    addlLoop li psb infoLen bound (fuel + 1) infos layers read = (do
        let (b0, read) ← scanSig infoLen bound 0 read
        if b0 ≠ 0x38 then pure (infos, layers, read)
        else do
          let b ← readFull 7
          let read := read + 7
          let b := b0 :: b
          if b.take 4 ≠ sectionSignature ∧ b.take 4 ≠ sig8B64 then
            P.fail (.bad "unexpected the signature found in the additional layer information block")
          else
            let key := b.drop 4
            if key = keyLayr ∨ key = keyLr16 ∨ key = keyLr32 then do
              let (layrs, l) ← li
              addlLoop li psb infoLen bound fuel infos (layers ++ layrs.getD []) (read + l)
            else do
              let sz := lenSize key psb
              let b ← readFull sz
              let read := read + sz
              let ln := int64 (beAt b 0 sz)
              if ln > 0 then do
                let n ← P.lift (goMake ln)
                let data ← readFull n
                addlLoop li psb infoLen bound fuel (infos.set key data) layers (read + data.length)
              else addlLoop li psb infoLen bound fuel (infos.set key []) layers read) := by
  rw [addlLoop.eq_def]; simp only; rw [if_pos h]

theorem nested_iff (k : List UInt8) : k ∈ Spec.nestedKeys ↔ k = keyLayr ∨ k = keyLr16 ∨ k = keyLr32 := by
  simp only [Spec.nestedKeys, List.mem_cons, List.not_mem_nil, or_false]
  rfl

theorem goMake_nat {n : Nat} (h : n ≤ 2 ^ 48) : goMake (n : Int) = .ok n := by
  unfold goMake maxAlloc
  rw [if_pos (by omega)]
  simp

theorem int64_nat {n : Nat} (h : n < 2 ^ 63) : int64 n = n := by
  unfold int64
  simp only
  split <;> omega

theorem runs_addlLoop (li : P (Option (List LayerRec) × Int)) (psb : Bool) (infoLen : Int) (bound : Nat) :
    ∀ (es : List Ent) (pad : List UInt8) (fuel : Nat) (infos : Infos) (layers : List LayerRec)
      (read : Int), (∀ e ∈ es, e.Ok li psb) → (∀ x ∈ pad, x ≠ 56) →
      read + (pad ++ es.flatMap Ent.bytes).length = infoLen →
      (pad ++ es.flatMap Ent.bytes).length < bound → es.length < fuel →
    RunsE (addlLoop li psb infoLen bound fuel infos layers read) (pad ++ es.flatMap Ent.bytes)
      (storeEnts infos es, layers ++ es.flatMap Ent.layers, infoLen) (es.flatMap Ent.events) := by
  intro es
  induction es with
  | nil =>
    intro pad fuel infos layers read _ hp hl hb hf
    simp only [List.flatMap_nil, List.append_nil] at hl hb ⊢
    by_cases h : read < infoLen
    · cases fuel with
      | zero => simp at hf
      | succ n =>
        rw [addlLoop_step _ _ _ _ _ _ _ _ h]
        obtain ⟨b0, h1, h2⟩ := runs_scanEnd infoLen pad bound 0 read (by decide) hp hl (by omega)
        refine Runs.bindE' h2 (b₂ := []) ?_ (by simp)
        simp only
        rw [if_pos h1]
        exact (Runs.pure _).toE
    · have h0 : pad = [] := List.eq_nil_of_length_eq_zero (by omega)
      rw [addlLoop_stop _ _ _ _ _ _ _ _ h, h0]
      refine (Runs.pure _).toE.congr rfl ?_ rfl
      subst h0
      simp only [List.length_nil] at hl
      have : read = infoLen := by omega
      rw [this]; rfl
  | cons e es ih =>
    intro pad fuel infos layers read he hp hl hb hf
    obtain ⟨hsig, hkey, hpad, hcase⟩ := he e (by simp)
    have hsl : ∃ t, e.sig = 56 :: t ∧ t.length = 3 ∧ (e.sig = sectionSignature ∨ e.sig = sig8B64) := by
      simp only [Spec.infoSigs, List.mem_cons, List.not_mem_nil, or_false] at hsig
      rcases hsig with h | h
      · exact ⟨_, h, rfl, .inl h⟩
      · exact ⟨_, h, rfl, .inr h⟩
    obtain ⟨t, ht, htl, hsig'⟩ := hsl
    have hel : e.bytes.length = 8 + e.payload.length + e.pad.length := by
      simp [Ent.bytes, ht, htl, hkey]; omega
    simp only [List.flatMap_cons, List.length_append] at hl hb
    cases fuel with
    | zero => simp at hf
    | succ n =>
      rw [addlLoop_step _ _ _ _ _ _ _ _ (by omega)]
      have hsplit : pad ++ (e :: es).flatMap Ent.bytes =
          (pad ++ [56]) ++ ((t ++ e.key) ++ (e.payload ++ (e.pad ++ es.flatMap Ent.bytes))) := by
        simp [Ent.bytes, ht, List.flatMap_cons]
      rw [hsplit]
      refine Runs.bindE (runs_scanFound infoLen pad bound 0 read (by decide) hp (by omega) (by omega)) ?_
      simp only
      rw [if_neg (by decide)]
      refine Runs.bindE (Runs.readFull (by simp [htl, hkey])) ?_
      have ht4 : ((56 : UInt8) :: (t ++ e.key)).take 4 = e.sig := by
        rw [ht, ← List.cons_append, List.take_append_of_le_length (by simp [htl]),
          List.take_of_length_le (by simp [htl])]
      have hd4 : ((56 : UInt8) :: (t ++ e.key)).drop 4 = e.key := by
        rw [← List.cons_append, List.drop_append, List.drop_eq_nil_of_le (by simp [htl])]
        simp [htl]
      simp only [ht4, hd4]
      rw [if_neg (by rcases hsig' with h | h <;> rw [h] <;> simp)]
      rcases hcase with ⟨hk, hlay, hev, data, hinfo, hd48, hdsz, hpay⟩ | ⟨hk, hinfo, ls, hrun, hlay⟩
      · rw [if_neg (by rw [← nested_iff]; exact hk), hpay, List.append_assoc]
        refine Runs.bindE (Runs.readFull (by simp)) ?_
        rw [beAt_last, Nat.mod_eq_of_lt hdsz, int64_nat (by omega)]
        have hpl : e.payload.length = lenSize e.key psb + data.length := by rw [hpay]; simp
        have hst : e.store infos = infos.set e.key data := by unfold Ent.store; rw [hinfo]
        have hrec := ih e.pad n (e.store infos) layers
          (read + pad.length + 1 + 7 + lenSize e.key psb + data.length)
          (fun x hx => he x (by simp [hx])) hpad (by simp only [List.length_append]; omega)
          (by simp only [List.length_append]; omega) (by simp at hf; omega)
        have hres : RunsE (addlLoop li psb infoLen bound n (infos.set e.key data) layers
            (read + pad.length + 1 + 7 + lenSize e.key psb + data.length))
            (e.pad ++ es.flatMap Ent.bytes)
            (storeEnts infos (e :: es), layers ++ (e :: es).flatMap Ent.layers, infoLen)
            ((e :: es).flatMap Ent.events) := by
          rw [← hst]
          refine hrec.congr rfl ?_ ?_
          · simp only [storeEnts, List.foldl_cons, List.flatMap_cons, hlay, List.nil_append]
          · simp [hev]
        by_cases h0 : (data.length : Int) > 0
        · rw [if_pos h0]
          refine Runs.bindE' (b₁ := []) (Runs.lift (goMake_nat hd48)) ?_ rfl
          refine Runs.bindE (Runs.readFull rfl) ?_
          exact hres
        · rw [if_neg h0]
          have hd0 : data = [] := List.eq_nil_of_length_eq_zero (by omega)
          subst hd0
          simpa using hres
      · rw [if_pos (by rw [← nested_iff]; exact hk)]
        have hst : e.store infos = infos := by unfold Ent.store; rw [hinfo]
        refine RunsE.bind' hrun ?_ rfl (by rw [List.flatMap_cons])
        refine (ih e.pad n infos (layers ++ ls.getD [])
          (read + pad.length + 1 + 7 + e.payload.length)
          (fun x hx => he x (by simp [hx])) hpad (by simp only [List.length_append]; omega)
          (by simp only [List.length_append]; omega) (by simp at hf; omega)).congr rfl ?_ rfl
        simp only [storeEnts, List.foldl_cons, hst, List.flatMap_cons, hlay, List.append_assoc]

theorem runs_additional (li : P (Option (List LayerRec) × Int)) (psb : Bool) (bound : Nat)
    (es : List Ent) (pad : List UInt8) (he : ∀ e ∈ es, e.Ok li psb) (hp : ∀ x ∈ pad, x ≠ 56)
    (hb : (pad ++ es.flatMap Ent.bytes).length < bound) :
    RunsE (readAdditionalWith li psb ((pad ++ es.flatMap Ent.bytes).length : Nat) bound)
      (pad ++ es.flatMap Ent.bytes)
      (storeEnts GoMap.empty es, es.flatMap Ent.layers, ((pad ++ es.flatMap Ent.bytes).length : Nat))
      (es.flatMap Ent.events) := by
  have hlen : es.length ≤ (es.flatMap Ent.bytes).length := by
    clear hb
    induction es with
    | nil => simp
    | cons e es ih =>
      have := ih fun x hx => he x (by simp [hx])
      obtain ⟨-, hkey, -⟩ := he e (by simp)
      simp only [List.flatMap_cons, List.length_append, List.length_cons, Ent.bytes]
      omega
  unfold readAdditionalWith
  refine RunsE.bind' (runs_addlLoop li psb _ bound es pad bound GoMap.empty [] 0 he hp (by omega) hb
    (by simp only [List.length_append] at hb; omega)) ?_ (List.append_nil _).symm (List.append_nil _).symm
  simp only
  rw [if_neg (by simp)]
  exact (Runs.pure _).toE

/-! ### Ordinary blocks -/

def entOf (psb : Bool) (b : InfoBlock) : Ent :=
  ⟨b.sig, b.key, be (b.lenBytes psb) b.data.length ++ b.data, b.pad, some b.data, [], []⟩

theorem entOf_bytes (psb : Bool) (b : InfoBlock) : (entOf psb b).bytes = b.bytes psb := by
  simp [entOf, Ent.bytes, InfoBlock.bytes]

theorem largeKeys_eq : largeKeys = Spec.wideKeys := by decide +kernel

theorem lenSize_eq (psb : Bool) (b : InfoBlock) : lenSize b.key psb = b.lenBytes psb := by
  unfold lenSize InfoBlock.lenBytes
  rw [largeKeys_eq]

theorem entOf_ok (li : P (Option (List LayerRec) × Int)) (psb : Bool) {b : InfoBlock} (h : b.Valid psb) :
    (entOf psb b).Ok li psb := by
  obtain ⟨h1, h2, h3, h4, h5, h6⟩ := h
  have hs := lenSize_eq psb b
  refine ⟨h1, h2, h4, .inl ⟨h3, rfl, rfl, b.data, rfl, h6, ?_, ?_⟩⟩
  · show b.data.length < 256 ^ lenSize b.key psb
    rw [hs]; exact h5
  · show _ = be (lenSize b.key psb) _ ++ _
    rw [hs]; rfl

theorem lastInfo_cons (b : InfoBlock) (bs : List InfoBlock) (k : List UInt8) :
    lastInfo (b :: bs) k = match lastInfo bs k with
      | some d => some d
      | none => if b.key = k then some b.data else none := by
  unfold lastInfo
  rw [List.reverse_cons, List.find?_append]
  cases hf : List.find? (fun r => decide (r.key = k)) bs.reverse with
  | some x => simp
  | none =>
    simp only [Option.none_or, List.find?_cons, List.find?_nil]
    by_cases hid : b.key = k <;> simp [hid]

theorem storeEnts_apply (psb : Bool) (bs : List InfoBlock) : ∀ (m : Infos) (k : Key),
    storeEnts m (bs.map (entOf psb)) k = match lastInfo bs k with
      | some d => some d
      | none => m k := by
  induction bs with
  | nil => intro m k; rfl
  | cons b bs ih =>
    intro m k
    show storeEnts ((entOf psb b).store m) (bs.map (entOf psb)) k = _
    rw [ih, lastInfo_cons]
    show _ = _
    cases hf : lastInfo bs k with
    | some x => simp
    | none =>
      simp only
      show (m.set b.key b.data) k = _
      by_cases hid : b.key = k
      · rw [if_pos hid, hid]; simp only; rw [GoMap.set_same]
      · rw [if_neg hid]; simp only; rw [GoMap.set_other _ _ (fun e => hid e.symm)]

theorem storeEnts_eq (psb : Bool) (bs : List InfoBlock) :
    storeEnts GoMap.empty (bs.map (entOf psb)) = lastInfo bs := by
  funext k
  rw [storeEnts_apply]
  cases lastInfo bs k <;> rfl

theorem map_entOf_bytes (psb : Bool) (bs : List InfoBlock) :
    (bs.map (entOf psb)).flatMap Ent.bytes = bs.flatMap (InfoBlock.bytes psb) := by
  rw [List.flatMap_map]
  congr 1; funext b; exact entOf_bytes psb b

theorem map_entOf_layers (psb : Bool) (bs : List InfoBlock) :
    (bs.map (entOf psb)).flatMap Ent.layers = [] := by
  rw [List.flatMap_map]
  exact List.flatMap_eq_nil_iff.2 fun _ _ => rfl

theorem map_entOf_events (psb : Bool) (bs : List InfoBlock) :
    (bs.map (entOf psb)).flatMap Ent.events = [] := by
  rw [List.flatMap_map]
  exact List.flatMap_eq_nil_iff.2 fun _ _ => rfl

/-- A section of ordinary blocks. -/
theorem runs_infoSection (li : P (Option (List LayerRec) × Int)) (psb : Bool) (bound : Nat)
    (lead : List UInt8) (bs : List InfoBlock) (hp : ∀ x ∈ lead, x ≠ 56)
    (hv : ∀ b ∈ bs, b.Valid psb) (hb : (infoSection psb lead bs).length < bound) :
    Runs (readAdditionalWith li psb ((infoSection psb lead bs).length : Nat) bound)
      (infoSection psb lead bs) (lastInfo bs, [], ((infoSection psb lead bs).length : Nat)) := by
  have h := runs_additional li psb bound (bs.map (entOf psb)) lead
    (fun e he => by
      obtain ⟨b, hb, rfl⟩ := List.mem_map.1 he
      exact entOf_ok li psb (hv b hb)) hp
    (by rw [map_entOf_bytes]; exact hb)
  rw [map_entOf_bytes, storeEnts_eq, map_entOf_layers, map_entOf_events] at h
  exact h.toRuns

/-! ### Text -/

theorem char_range (c : Char) : c.toNat < 0xD800 ∨ (0xDFFF < c.toNat ∧ c.toNat < 0x110000) := by
  exact c.valid

theorem utf16Decode_cons {u : Nat} (h : u < 0xD800 ∨ 0xE000 ≤ u) (us : List Nat) :
    utf16Decode (u :: us) = Char.ofNat u :: utf16Decode us := by
  rw [utf16Decode.eq_def]
  simp only
  rw [if_neg (by omega), if_neg (by omega)]

theorem utf16Decode_pair {u v : Nat} (h : 0xD800 ≤ u ∧ u < 0xDC00) (h' : 0xDC00 ≤ v ∧ v < 0xE000)
    (us : List Nat) : utf16Decode (u :: v :: us) =
      Char.ofNat ((u - 0xD800) * 1024 + (v - 0xDC00) + 0x10000) :: utf16Decode us := by
  rw [utf16Decode.eq_def]
  simp only
  rw [if_pos h, if_pos h']

theorem utf16Decode_utf16 (t : List Char) : utf16Decode (t.flatMap Spec.utf16) = t := by
  induction t with
  | nil => simp [utf16Decode]
  | cons c t ih =>
    rw [List.flatMap_cons]
    have hr := char_range c
    generalize hx : t.flatMap Spec.utf16 = x at ih ⊢
    unfold Spec.utf16
    split
    · rw [List.singleton_append, utf16Decode_cons (by omega), ih, Char.ofNat_toNat]
    · rw [List.cons_append, List.cons_append, List.nil_append, utf16Decode_pair (by omega) (by omega), ih]
      have : (0xD800 + (c.toNat - 0x10000) / 1024 - 0xD800) * 1024 +
          (0xDC00 + (c.toNat - 0x10000) % 1024 - 0xDC00) + 0x10000 = c.toNat := by omega
      rw [this, Char.ofNat_toNat]

theorem utf16_lt (c : Char) : ∀ u ∈ Spec.utf16 c, u < 65536 := by
  intro u hu
  have hr := char_range c
  unfold Spec.utf16 at hu
  split at hu
  · simp at hu; omega
  · simp at hu; omega

theorem readUnits_ok (b : List UInt8) : ∀ (us : List Nat) (i : Nat) (rest : List UInt8),
    (∀ u ∈ us, u < 65536) → b.drop (4 + 2 * i) = us.flatMap (be 2) ++ rest →
    readUnits b us.length i = .ok us := by
  intro us
  induction us with
  | nil => intro i rest _ _; rfl
  | cons u us ih =>
    intro i rest hu hb
    have hl := congrArg List.length hb
    simp only [List.flatMap_cons, List.length_append, be_length, List.length_drop] at hl
    have h1 : readUint16 b (4 + 2 * i) = .ok u := by
      unfold readUint16
      rw [if_pos (by omega), hb, List.flatMap_cons, List.append_assoc,
        List.take_append_of_le_length (by simp), List.take_of_length_le (by simp),
        beNat_be (by have := hu u (by simp); omega)]
    have h2 : b.drop (4 + 2 * (i + 1)) = us.flatMap (be 2) ++ rest := by
      have : 4 + 2 * (i + 1) = (4 + 2 * i) + 2 := by omega
      rw [this, ← List.drop_drop, hb, List.flatMap_cons, List.append_assoc,
        List.drop_append_of_le_length (by simp), List.drop_eq_nil_of_le (by simp), List.nil_append]
    show (readUint16 b (4 + 2 * i) >>= fun u => readUnits b us.length (i + 1) >>= fun us => Res.ok (u :: us)) = _
    rw [h1]
    show (readUnits b us.length (i + 1) >>= fun us => Res.ok (u :: us)) = _
    rw [ih (i + 1) rest (fun v hv => hu v (by simp [hv])) h2]
    rfl

theorem readUnicodeString_ok {t : List Char} {d : List UInt8} (h : Spec.uniData t <+: d)
    (hl : (t.flatMap Spec.utf16).length < 2 ^ 32) : readUnicodeString d = .ok (Spec.utf8 t) := by
  obtain ⟨rest, rfl⟩ := h
  have h1 : readUint32 (Spec.uniData t ++ rest) 0 = .ok (t.flatMap Spec.utf16).length := by
    unfold readUint32 Spec.uniData
    rw [if_pos (by simp), List.drop_zero, List.append_assoc, List.take_append_of_le_length (by simp),
      List.take_of_length_le (by simp), beNat_be (by omega)]
  have h2 : readUnits (Spec.uniData t ++ rest) (t.flatMap Spec.utf16).length 0 =
      .ok (t.flatMap Spec.utf16) := by
    refine readUnits_ok _ _ 0 rest ?_ ?_
    · intro u hu
      obtain ⟨c, _, hc⟩ := List.mem_flatMap.1 hu
      exact utf16_lt c u hc
    · unfold Spec.uniData
      rw [List.append_assoc, List.drop_append_of_le_length (by simp),
        List.drop_eq_nil_of_le (by simp), List.nil_append]
  unfold readUnicodeString
  rw [h1]
  show (readUnits _ _ 0 >>= fun us => Res.ok ((utf16Decode us).flatMap String.utf8EncodeChar)) = _
  rw [h2]
  show Res.ok _ = _
  rw [utf16Decode_utf16]
  rfl

/-! ### Layer records -/

/-- The layer before its pictures are read, as number `i`. -/
def recordOf (i : Nat) (l : Layer) : LayerRec where
  seqID := i
  name := match l.unicode with | some t => Spec.utf8 t | none => l.name
  unicodeName := match l.unicode with | some t => Spec.utf8 t | none => []
  mbcsName := l.name
  rect := rectOf l.rect
  blendMode := l.blend
  opacity := l.opacity
  clipping := l.clipping ≠ 0
  blendClippedElements := l.clbl.getD true
  flags := l.flags
  mask := maskOf l.mask
  infos := infosOf l.blocks
  sdType := match l.divider with | some d => d.type | none => 0
  sdBlendMode := match l.divider with | some ⟨_, some (bm, _)⟩ => bm | _ => l.blend
  sdSubType := match l.divider with | some ⟨_, some (_, some s)⟩ => s | _ => 0

theorem runs_extra (li : P (Option (List LayerRec) × Int)) (psb : Bool) (bound : Nat) (l : Layer)
    (h : l.Valid psb) (hb : (l.extra psb).length < bound) (base : LayerRec) (hm : base.mask = {}) :
    Runs (readLayerExtraData (fun n => readAdditionalWith li psb n bound) base)
      (be 4 (l.extra psb).length ++ l.extra psb)
      ({ base with mask := maskOf l.mask, mbcsName := l.name, infos := lastInfo l.blocks },
        4 + ((l.extra psb).length : Int)) := by
  obtain ⟨-, -, -, -, h5, h6, h7, h8, h9, h10, h11, h12, -⟩ := h
  have hmask := runs_mask h5
  have hxl : (l.extra psb).length = l.mask.bytes.length + (4 + l.ranges.length) +
      (1 + l.name.length + l.namePad.length) + (infoSection psb l.lead l.blocks).length := by
    simp [Layer.extra]; omega
  have hml : 4 ≤ l.mask.bytes.length := by simp [MaskSpec.bytes]
  unfold readLayerExtraData
  refine Runs.bind (Runs.readFull (by simp)) ?_
  simp only
  rw [beAt_last, Nat.mod_eq_of_lt (by omega), if_neg (by omega), hm]
  generalize hX : (l.extra psb).length = X at *
  unfold Layer.extra
  simp only [List.append_assoc]
  refine Runs.bind hmask ?_
  simp only
  refine Runs.bind (Runs.readFull (by simp)) ?_
  rw [beAt_last, Nat.mod_eq_of_lt (by omega)]
  refine Runs.bind (a := (l.ranges.length : Int)) ?_ ?_
  · split
    · exact Runs.discard rfl
    · have : l.ranges = [] := List.eq_nil_of_length_eq_zero (by omega)
      rw [this]; exact Runs.pure _
  rw [← List.append_assoc [_] l.name]
  refine Runs.bind (Runs.pascal (by omega)) ?_
  simp only
  refine Runs.bind (Runs.align4 (by omega)) ?_
  refine Runs.bind' (a := (lastInfo l.blocks, ([] : List LayerRec),
      ((infoSection psb l.lead l.blocks).length : Int))) (b₂ := []) ?_ ?_ (List.append_nil _).symm
  · split
    · rename_i hlt
      have e : (X : Int) + 4 - (4 + (l.mask.bytes.length : Int) + 4 + l.ranges.length +
          (l.name.length + 1) + l.namePad.length) = ((infoSection psb l.lead l.blocks).length : Nat) := by
        omega
      rw [e]
      exact runs_infoSection li psb bound l.lead l.blocks h10 h11 (by omega)
    · have h0 : (infoSection psb l.lead l.blocks).length = 0 := by omega
      have h1 : infoSection psb l.lead l.blocks = [] := List.eq_nil_of_length_eq_zero h0
      have h2 : l.blocks = [] := by
        cases hbs : l.blocks with
        | nil => rfl
        | cons b bs =>
          have hk := (h11 b (by rw [hbs]; simp)).2.1
          rw [hbs] at h0
          simp [infoSection, InfoBlock.bytes, hk] at h0
      rw [h1, h2]
      exact (Runs.pure _)
  simp only
  rw [if_neg (by simp), if_neg (by omega)]
  refine (Runs.pure _).congr rfl ?_
  congr 1; omega

theorem runs_channelList (psb : Bool) : ∀ (cs : List (Int × Picture)),
    (∀ c ∈ cs, -2 ^ 15 ≤ c.1 ∧ c.1 < 2 ^ 15 ∧ (c.2.bytes psb).length < 2 ^ (if psb then 63 else 32)) →
    Runs (readChannelList (get4or8 psb) cs.length)
      (cs.flatMap (fun c => be 2 (twos 16 c.1) ++ be (wide psb) (c.2.bytes psb).length))
      (cs.map fun c => ⟨c.1, ((c.2.bytes psb).length : Int)⟩) := by
  intro cs
  induction cs with
  | nil => intro _; exact Runs.pure _
  | cons c cs ih =>
    intro h
    obtain ⟨h1, h2, h3⟩ := h c (by simp)
    have hw : wide psb = get4or8 psb := by cases psb <;> rfl
    have h3' : (c.2.bytes psb).length < 256 ^ (get4or8 psb) ∧ (c.2.bytes psb).length < 2 ^ 63 := by
      cases psb <;> simp [get4or8] at h3 ⊢ <;> omega
    rw [List.flatMap_cons, List.length_cons, List.map_cons]
    unfold readChannelList
    refine Runs.bind (Runs.readFull (by simp [hw])) ?_
    refine Runs.bind' (ih fun x hx => h x (by simp [hx])) (b₂ := []) ?_ (List.append_nil _).symm
    refine (Runs.pure _).congr rfl ?_
    rw [hw, beAt_here, beAt_be_skip (by omega), beAt_last (by rfl), Nat.mod_eq_of_lt h3'.1,
      int64_nat h3'.2, Nat.mod_eq_of_lt (by have := twos_lt 16 c.1; omega), int16_twos h1 h2]

theorem sectionDivider_ok {d : Divider} (h : d.Valid) : sectionDivider d.bytes =
    .ok (d.type, (match d.blend with | some (bm, _) => bm | none => []),
      (match d.blend with | some (_, some s) => s | _ => 0)) := by
  obtain ⟨h1, h2⟩ := h
  rcases d with ⟨t, b⟩
  simp only at h1 h2
  have hr : ∀ rest : List UInt8, readUint32 (be 4 t ++ rest) 0 = .ok t := by
    intro rest
    unfold readUint32
    rw [if_pos (by simp), List.drop_zero, List.take_append_of_le_length (by simp),
      List.take_of_length_le (by simp), beNat_be (by omega)]
  unfold sectionDivider Divider.bytes
  simp only
  rw [hr]
  show (if _ then _ else _) = _
  rcases b with _ | ⟨bm, sub⟩
  · rw [if_pos (by simp)]
  · obtain ⟨hbm, hsub⟩ := h2 _ rfl
    simp only at hbm hsub
    have e1 : ∀ rest, ((be 4 t ++ ([56, 66, 73, 77] ++ rest)).drop 4).take 4 = sectionSignature := by
      intro rest
      rw [List.drop_append_of_le_length (by simp), List.drop_eq_nil_of_le (by simp)]
      rfl
    have e2 : ∀ rest, ((be 4 t ++ ([56, 66, 73, 77] ++ (bm ++ rest))).drop 8).take 4 = bm := by
      intro rest
      rw [List.drop_append, List.drop_eq_nil_of_le (by simp)]
      simp [hbm]
    cases sub with
    | none =>
      simp only
      rw [if_neg (by simp [hbm]), if_neg (by rw [e1]; simp), if_pos (by simp [hbm])]
      have := e2 []
      rw [List.append_nil] at this
      rw [this]
    | some s =>
      simp only [List.append_assoc]
      rw [if_neg (by simp [hbm]), if_neg (by rw [e1]; simp), if_neg (by simp [hbm])]
      have e3 : readUint32 (be 4 t ++ ([56, 66, 73, 77] ++ (bm ++ be 4 s))) 12 = .ok s := by
        unfold readUint32
        rw [if_pos (by simp [hbm])]
        have : (be 4 t ++ ([56, 66, 73, 77] ++ (bm ++ be 4 s))).drop 12 = be 4 s := by
          rw [← List.append_assoc, ← List.append_assoc, List.drop_append,
            List.drop_eq_nil_of_le (by simp [hbm])]
          simp [hbm]
        rw [this, List.take_of_length_le (by simp), beNat_be (by have := hsub s rfl; omega)]
      rw [e3, e2]
      rfl

/-- The record before its blocks are evaluated. -/
def rawRecordOf (i : Nat) (l : Layer) : LayerRec where
  seqID := i
  mbcsName := l.name
  rect := rectOf l.rect
  blendMode := l.blend
  opacity := l.opacity
  clipping := l.clipping ≠ 0
  flags := l.flags
  mask := maskOf l.mask
  infos := lastInfo l.blocks

theorem GoMap.del_apply {κ ν : Type} [DecidableEq κ] (m : GoMap κ ν) (k k' : κ) :
    m.del k k' = if k' = k then none else m k' := rfl

theorem GoMap.del_absent {κ ν : Type} [DecidableEq κ] {m : GoMap κ ν} {k : κ} (h : m k = none) :
    m.del k = m := by
  funext x
  rw [GoMap.del_apply]
  by_cases hx : x = k
  · rw [if_pos hx, hx, h]
  · rw [if_neg hx]

def finishName (layer : LayerRec) : Res LayerRec :=
  match layer.infos keyLuni with
    | some (d :: ds) => do
      let u ← readUnicodeString (d :: ds)
      Res.ok { layer with unicodeName := u, name := u, infos := layer.infos.del keyLuni }
    | _ => Res.ok { layer with name := layer.mbcsName }

def finishClbl (layer : LayerRec) : LayerRec :=
  match layer.infos keyClbl with
    | some (d :: _) =>
      { layer with blendClippedElements := d ≠ 0, infos := layer.infos.del keyClbl }
    | _ => { layer with blendClippedElements := true }

def finishDivider (layer : LayerRec) : Res LayerRec := do
  let (typ, bm, sub) ← readSectionDividerSetting layer.infos
  .ok { layer with
    sdType := typ
    sdBlendMode := if bm = [] then layer.blendMode else bm
    sdSubType := sub
    infos := layer.infos.del keyLsct }

theorem finishRecord_eq (l : LayerRec) :
    finishRecord l = finishName l >>= fun l => finishDivider (finishClbl l) := rfl

theorem finishName_ok (i : Nat) (l : Layer) (hc : l.Consistent) :
    finishName (rawRecordOf i l) = .ok { rawRecordOf i l with
        unicodeName := (recordOf i l).unicodeName, name := (recordOf i l).name,
        infos := GoMap.del (lastInfo l.blocks) keyLuni } := by
  have h1 := hc.1
  unfold finishName
  change match lastInfo l.blocks keyLuni, l.unicode with
      | none, none => True
      | some d, some t => Spec.uniData t <+: d ∧ (t.flatMap Spec.utf16).length < 2 ^ 32
      | _, _ => False at h1
  have e : (rawRecordOf i l).infos keyLuni = lastInfo l.blocks keyLuni := rfl
  rw [e]
  cases hl : lastInfo l.blocks keyLuni with
  | none =>
    rw [hl] at h1
    cases hu : l.unicode with
    | some t => rw [hu] at h1; exact h1.elim
    | none =>
      rw [GoMap.del_absent hl]
      unfold recordOf
      rw [hu]
      rfl
  | some d =>
    rw [hl] at h1
    cases hu : l.unicode with
    | none => rw [hu] at h1; exact h1.elim
    | some t =>
      rw [hu] at h1
      obtain ⟨h11, h12⟩ := h1
      have hr := readUnicodeString_ok h11 h12
      cases d with
      | nil => obtain ⟨r, hr⟩ := h11; simp [Spec.uniData, be] at hr
      | cons x xs =>
        simp only
        rw [hr]
        unfold recordOf
        rw [hu]
        rfl

theorem finishClbl_ok (l : Layer) (hc : l.Consistent) (L : LayerRec)
    (hi : L.infos = GoMap.del (lastInfo l.blocks) keyLuni) :
    finishClbl L = { L with blendClippedElements := l.clbl.getD true, infos := L.infos.del keyClbl } := by
  have h2 := hc.2.1
  have e : L.infos keyClbl = lastInfo l.blocks keyClbl := by
    rw [hi, GoMap.del_apply, if_neg (by decide)]
  change match lastInfo l.blocks keyClbl, l.clbl with
    | none, none => True
    | some d, some b => d ≠ [] ∧ b = decide (d.head? ≠ some 0)
    | _, _ => False at h2
  rw [← e] at h2
  unfold finishClbl
  cases hl : L.infos keyClbl with
  | none =>
    rw [hl] at h2
    cases hu : l.clbl with
    | some t => rw [hu] at h2; exact h2.elim
    | none => rw [GoMap.del_absent hl]; rfl
  | some d =>
    rw [hl] at h2
    cases hu : l.clbl with
    | none => rw [hu] at h2; exact h2.elim
    | some t =>
      rw [hu] at h2
      obtain ⟨h21, h22⟩ := h2
      cases d with
      | nil => exact (h21 rfl).elim
      | cons x xs => simp [h22]

theorem finishDivider_ok (i : Nat) (l : Layer) (hc : l.Consistent) (L : LayerRec) (hbl : L.blendMode = l.blend)
    (hi : L.infos = GoMap.del (GoMap.del (lastInfo l.blocks) keyLuni) keyClbl) :
    finishDivider L = .ok { L with
      sdType := (recordOf i l).sdType, sdBlendMode := (recordOf i l).sdBlendMode,
      sdSubType := (recordOf i l).sdSubType, infos := infosOf l.blocks } := by
  have h3 := hc.2.2
  have e1 : L.infos keyLsct = lastInfo l.blocks keyLsct := by
    rw [hi, GoMap.del_apply, GoMap.del_apply, if_neg (by decide), if_neg (by decide)]
  have e2 : L.infos keyLsdk = lastInfo l.blocks keyLsdk := by
    rw [hi, GoMap.del_apply, GoMap.del_apply, if_neg (by decide), if_neg (by decide)]
  have e3 : L.infos.del keyLsct = infosOf l.blocks := by
    funext k
    rw [hi]
    simp only [GoMap.del_apply, infosOf]
    by_cases h1 : k = keyLsct
    · simp [h1]
    · by_cases h2 : k = keyClbl
      · simp [h2]
      · by_cases h4 : k = keyLuni <;> simp [h1, h2, h4]
  change match lastInfo l.blocks keyLsct, lastInfo l.blocks keyLsdk, l.divider with
    | none, none, none => True
    | some d, _, some v => d = v.bytes ∧ v.Valid
    | none, some d, some v => d = v.bytes ∧ v.Valid
    | _, _, _ => False at h3
  have key : ∃ bm sub, readSectionDividerSetting L.infos = .ok ((recordOf i l).sdType, bm, sub) ∧
      (if bm = [] then l.blend else bm) = (recordOf i l).sdBlendMode ∧ sub = (recordOf i l).sdSubType := by
    have hdiv : ∀ v : Divider, l.divider = some v → v.Valid → ∃ bm sub,
        sectionDivider v.bytes = .ok ((recordOf i l).sdType, bm, sub) ∧
        (if bm = [] then l.blend else bm) = (recordOf i l).sdBlendMode ∧ sub = (recordOf i l).sdSubType := by
      intro v hv hval
      refine ⟨(match v.blend with | some (bm, _) => bm | none => []),
        (match v.blend with | some (_, some s) => s | _ => 0), ?_, ?_, ?_⟩
      · rw [sectionDivider_ok hval]
        congr 2
        unfold recordOf
        rw [hv]
      · obtain ⟨t, b⟩ := v
        unfold recordOf
        rw [hv]
        rcases b with _ | ⟨bm, sub⟩
        · simp
        · have : bm ≠ [] := by
            intro h0
            have := (hval.2 _ rfl).1
            simp [h0] at this
          simp [this]
      · obtain ⟨t, b⟩ := v
        unfold recordOf
        rw [hv]
        rcases b with _ | ⟨bm, _ | sub⟩ <;> rfl
    unfold readSectionDividerSetting
    rw [e1, e2]
    cases ha : lastInfo l.blocks keyLsct with
    | some d =>
      rw [ha] at h3
      cases hv : l.divider with
      | none => rw [hv] at h3; simp at h3
      | some v =>
        rw [hv] at h3
        simp only at h3 ⊢
        rw [h3.1]
        exact hdiv v hv h3.2
    | none =>
      rw [ha] at h3
      cases hb : lastInfo l.blocks keyLsdk with
      | some d =>
        rw [hb] at h3
        cases hv : l.divider with
        | none => rw [hv] at h3; simp at h3
        | some v =>
          rw [hv] at h3
          simp only at h3 ⊢
          rw [h3.1]
          exact hdiv v hv h3.2
      | none =>
        rw [hb] at h3
        cases hv : l.divider with
        | some v => rw [hv] at h3; simp at h3
        | none =>
          refine ⟨[], 0, ?_, ?_, ?_⟩ <;> unfold recordOf <;> rw [hv] <;> rfl
  obtain ⟨bm, sub, k1, k2, k3⟩ := key
  unfold finishDivider
  rw [k1]
  show Res.ok _ = Res.ok _
  rw [e3, hbl]
  simp only [k2, k3]

theorem finish_ok (i : Nat) (l : Layer) (hc : l.Consistent) :
    finishRecord (rawRecordOf i l) = .ok (recordOf i l) := by
  rw [finishRecord_eq, finishName_ok i l hc]
  show finishDivider (finishClbl _) = _
  rw [finishClbl_ok l hc _ rfl, finishDivider_ok i l hc _ rfl rfl]
  rfl

theorem rawRecord_take (l : Layer) (hb : l.blend.length = 4) :
    let b : List UInt8 := [56, 66, 73, 77] ++ l.blend ++ [l.opacity, l.clipping, l.flags, l.filler]
    b.length = 12 ∧ b.take 4 = sectionSignature ∧ (b.drop 4).take 4 = l.blend ∧
    (b.drop 8).headD 0 = l.opacity ∧ (b.drop 9).headD 0 = l.clipping ∧ (b.drop 10).headD 0 = l.flags := by
  match h : l.blend, hb with
  | [a, b, c, d], _ => exact ⟨rfl, rfl, rfl, rfl, rfl, rfl⟩

theorem record_length (psb : Bool) (l : Layer) (hb : l.blend.length = 4) : (l.record psb).length =
    16 + 2 + l.channels.length * (2 + get4or8 psb) + 12 + (4 + (l.extra psb).length) := by
  have hc : ∀ cs : List (Int × Picture), (cs.flatMap (fun c => be 2 (twos 16 c.1) ++
      be (wide psb) (c.2.bytes psb).length)).length = cs.length * (2 + get4or8 psb) := by
    intro cs
    have hw : wide psb = get4or8 psb := by cases psb <;> rfl
    induction cs with
    | nil => simp
    | cons c cs ih =>
      rw [List.flatMap_cons, List.length_append, ih, List.length_append, be_length, be_length,
        List.length_cons, Nat.succ_mul, hw]
      omega
  unfold Layer.record
  simp only [List.length_append, box_length, be_length, hc, hb, List.length_cons, List.length_nil]
  omega

theorem runs_layerRecord (li : P (Option (List LayerRec) × Int)) (psb : Bool) (bound : Nat) (i : Nat)
    (l : Layer) (h : l.Valid psb) (hb : (l.extra psb).length < bound) :
    Runs (readLayerRecord (fun n => readAdditionalWith li psb n bound) psb i) (l.record psb)
      (recordOf i l, (l.channels.map fun c => ⟨c.1, ((c.2.bytes psb).length : Int)⟩),
        ((l.record psb).length : Int)) := by
  have hv := h
  obtain ⟨h1, h2, h3, h4, -, -, -, -, -, -, -, -, h13⟩ := h
  obtain ⟨k0, k1, k2, k3, k4, k5⟩ := rawRecord_take l h4
  have hlen := record_length psb l h4
  unfold readLayerRecord
  generalize hN : (l.record psb).length = N at hlen
  unfold Layer.record
  have hassoc : l.rect.bytes ++ be 2 l.channels.length ++
      l.channels.flatMap (fun c => be 2 (twos 16 c.1) ++ be (wide psb) (c.2.bytes psb).length) ++
      [56, 66, 73, 77] ++ l.blend ++ [l.opacity, l.clipping, l.flags, l.filler] ++
      be 4 (l.extra psb).length ++ l.extra psb =
    l.rect.bytes ++ (be 2 l.channels.length ++
      (l.channels.flatMap (fun c => be 2 (twos 16 c.1) ++ be (wide psb) (c.2.bytes psb).length) ++
      (([56, 66, 73, 77] ++ l.blend ++ [l.opacity, l.clipping, l.flags, l.filler]) ++
      (be 4 (l.extra psb).length ++ l.extra psb)))) := by
    simp only [List.append_assoc]
  rw [hassoc]
  refine Runs.bind (Runs.readFull (box_length _)) ?_
  simp only
  refine Runs.bind (Runs.readFull (by simp)) ?_
  rw [beAt_last, Nat.mod_eq_of_lt (by omega)]
  refine Runs.bind (runs_channelList psb l.channels h3) ?_
  refine Runs.bind (Runs.readFull k0) ?_
  rw [if_neg (by rw [k1]; simp), rectS_box h1, k2, k3, k4, k5]
  refine Runs.bind' (runs_extra li psb bound l hv hb _ rfl) (b₂ := []) ?_ (List.append_nil _).symm
  simp only
  refine Runs.bind' (b₁ := []) (b₂ := []) (Runs.lift (a := recordOf i l) ?_) ?_ rfl
  · exact finish_ok i l h13
  · refine (Runs.pure _).congr rfl ?_
    congr 2
    rw [hlen]
    push_cast
    omega

/-- The decoded records, numbered from `i`. -/
def recordsFrom (psb : Bool) : Nat → List Layer → List (LayerRec × List ChannelData)
  | _, [] => []
  | i, l :: ls => (recordOf i l, l.channels.map fun c => ⟨c.1, ((c.2.bytes psb).length : Int)⟩) ::
      recordsFrom psb (i + 1) ls

theorem runs_layerRecords (li : P (Option (List LayerRec) × Int)) (psb : Bool) (bound : Nat) :
    ∀ (ls : List Layer) (i : Nat), (∀ l ∈ ls, l.Valid psb ∧ (l.extra psb).length < bound) →
    Runs (readLayerRecords (fun n => readAdditionalWith li psb n bound) psb ls.length i)
      (ls.flatMap (Layer.record psb))
      (recordsFrom psb i ls, ((ls.flatMap (Layer.record psb)).length : Int)) := by
  intro ls
  induction ls with
  | nil => intro i _; exact Runs.pure _
  | cons l ls ih =>
    intro i h
    rw [List.flatMap_cons, List.length_cons]
    unfold readLayerRecords
    refine Runs.bind (runs_layerRecord li psb bound i l (h l (by simp)).1 (h l (by simp)).2) ?_
    simp only
    refine Runs.bind' (ih (i + 1) fun x hx => h x (by simp [hx])) (b₂ := []) ?_ (List.append_nil _).symm
    refine (Runs.pure _).congr rfl ?_
    rw [List.length_append]
    push_cast
    rfl

end Psd
