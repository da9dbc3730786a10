import Verif.Props.Codec
import Verif.Lemmas.Panic
import Verif.Lemmas.Count

/-
Layer pictures do not panic when the channels of the layer records have planes of a size that can be allocated.
-/

namespace Psd

open Spec (field num signed wide PlaneFits BoxFits RealBoxFits recChannels recChannelID recExtra recNext paramBytes
  realBoxAt DrawableRecord DrawableRecords layerCount DrawableSection NestedAt LayeredMode modeColors SoundBlocks)

/-- Whatever `p` returns from position `q` of the data `D` satisfies `Q`. -/
def Gives (D : List UInt8) (q : Nat) {α : Type} (p : P α) (Q : α → Prop) : Prop :=
  ∀ s a s', s.data = D → s.pos = q → p s = .ok (a, s') → Q a

namespace Gives
variable {D : List UInt8} {q : Nat} {α β : Type}

theorem pure {a : α} {Q : α → Prop} (h : Q a) : Gives D q (Pure.pure a : P α) Q := by
  intro s b s' _ _ e
  cases e; exact h

theorem fail {e : Err} {Q : α → Prop} : Gives D q (P.fail e : P α) Q := by
  intro s b s' _ _ e; cases e

theorem ite {c : Prop} [Decidable c] {p p' : P α} {Q : α → Prop} (h1 : c → Gives D q p Q) (h2 : ¬c → Gives D q p' Q) :
    Gives D q (if c then p else p') Q := by
  split
  · exact h1 ‹_›
  · exact h2 ‹_›

theorem read {k : Nat} {f : List UInt8 → P β} {Q : β → Prop}
    (h : (field D q k).length = k → Gives D (q + k) (f (field D q k)) Q) : Gives D q (readFull k >>= f) Q := by
  intro s b s' hd hq e
  obtain ⟨a, s₁, e₁, e₂⟩ := P.bind_eq_ok.1 e
  obtain ⟨h1, h2, h3, h4⟩ := field_data e₁
  rw [hd, hq] at h1
  subst h1
  exact h h4 s₁ b s' (h3.trans hd) (by omega) e₂

theorem bind {p : P α} {f : α → P β} {Q : α → Prop} {R : β → Prop} (h1 : Gives D q p Q) (hs : Safe D p fun _ => True)
    (h2 : ∀ a q', Q a → Gives D q' (f a) R) : Gives D q (p >>= f) R := by
  intro s b s' hd hq e
  obtain ⟨a, s₁, e₁, e₂⟩ := P.bind_eq_ok.1 e
  exact h2 a s₁.pos (h1 s a s₁ hd hq e₁) s₁ b s' ((hs s hd).2 _ _ e₁).1 rfl e₂

theorem any {p : P α} {f : α → P β} {R : β → Prop} (hs : Safe D p fun _ => True)
    (h2 : ∀ a q', Gives D q' (f a) R) : Gives D q (p >>= f) R :=
  bind (Q := fun _ => True) (fun _ _ _ _ _ _ => trivial) hs fun a q' _ => h2 a q'

/-- Followed by something at a known position. -/
theorem bindAt {p : P α} {f : α → P β} {Q : α → Prop} {R : β → Prop} {r : α → Int} {k : Nat} (h1 : Gives D q p Q)
    (hs : Safe D p fun _ => True) (hc : Cnt p r) (hk : ∀ a, Q a → r a = k)
    (h2 : ∀ a, Q a → Gives D (q + k) (f a) R) : Gives D q (p >>= f) R := by
  intro s b s' hd hq e
  obtain ⟨a, s₁, e₁, e₂⟩ := P.bind_eq_ok.1 e
  have hQ := h1 s a s₁ hd hq e₁
  have := hc _ _ _ e₁
  rw [hk a hQ] at this
  exact h2 a hQ s₁ b s' ((hs s hd).2 _ _ e₁).1 (by omega) e₂

theorem liftBind {x : Res α} {f : α → P β} {R : β → Prop} (h : ∀ a, x = .ok a → Gives D q (f a) R) :
    Gives D q (P.lift x >>= f) R := by
  intro s b s' hd hq e
  obtain ⟨a, s₁, e₁, e₂⟩ := P.bind_eq_ok.1 e
  obtain ⟨h1, rfl⟩ := P.lift_eq_ok.1 e₁
  exact h a h1 _ b s' hd hq e₂

theorem mono {p : P α} {Q R : α → Prop} (h : Gives D q p Q) (hi : ∀ a, Q a → R a) : Gives D q p R :=
  fun s a s' hd hq e => hi a (h s a s' hd hq e)

end Gives

section
variable {D : List UInt8}

/-! ### Masks -/

/-- After the mask data: the real rectangle is the old one or the one at `at`, and there is room for it. -/
def RealIs (D : List UInt8) (m : Mask) (left : Int) (pos : Nat) (m' : Mask) : Prop :=
  m'.rect = m.rect ∧ (m'.realRect = m.realRect ∨ (18 ≤ left ∧ m'.realRect = rectU (field D (pos + 2) 16) ∧
    (field D (pos + 2) 16).length = 16))

theorem real_same {m m' : Mask} {left : Int} {pos : Nat} (h1 : m'.rect = m.rect) (h2 : m'.realRect = m.realRect) :
    RealIs D m left pos m' := ⟨h1, .inl h2⟩

theorem gives_maskTail (q : Nat) (m : Mask) (L rm read : Int) :
    Gives D q (readMaskTail m L rm read) fun r => RealIs D m (L - rm) q r.1 := by
  unfold readMaskTail
  refine Gives.ite (fun _ => Gives.ite (fun _ => Gives.any (safe_readAny _) fun _ _ => Gives.pure (real_same rfl rfl))
    fun _ => Gives.pure (real_same rfl rfl)) fun _ => Gives.ite (fun _ => Gives.pure (real_same rfl rfl)) fun _ => ?_
  refine Gives.read fun _ => Gives.ite (fun _ => Gives.pure (real_same rfl rfl)) fun _ => ?_
  refine Gives.read fun _ => Gives.ite (fun _ => Gives.ite (fun _ => Gives.any (safe_discard _) fun _ _ =>
    Gives.pure (real_same rfl rfl)) fun _ => Gives.pure (real_same rfl rfl)) fun _ => ?_
  refine Gives.read fun hl => Gives.pure ⟨rfl, .inr ⟨?_, rfl, hl⟩⟩
  omega

theorem gives_maskP8 (q : Nat) (p : Nat) (m : Mask) (L rm read : Int) :
    Gives D q (readMaskP8 p m L rm read) fun r =>
      RealIs D m (L - rm - (if p &&& 8 ≠ 0 then 8 else 0 : Nat)) (q + (if p &&& 8 ≠ 0 then 8 else 0)) r.1 := by
  unfold readMaskP8
  refine Gives.ite (fun h => Gives.ite (fun _ => Gives.ite (fun _ => Gives.any (safe_discard _) fun _ _ =>
    Gives.pure (real_same rfl rfl)) fun _ => Gives.pure (real_same rfl rfl)) fun _ => ?_) fun h => ?_
  · rw [if_pos h]
    refine Gives.read fun _ => (gives_maskTail _ _ _ _ _).mono fun r hr => ?_
    unfold RealIs at hr ⊢
    rw [show L - rm - ((8 : Nat) : Int) = L - (rm + 8) from by omega]
    exact hr
  · rw [if_neg h]
    refine (gives_maskTail _ _ _ _ _).mono fun r hr => ?_
    simpa using hr

theorem gives_maskP4 (q : Nat) (p : Nat) (m : Mask) (L rm read : Int) :
    Gives D q (readMaskP4 p m L rm read) fun r =>
      RealIs D m (L - rm - ((if p &&& 4 ≠ 0 then 1 else 0) + (if p &&& 8 ≠ 0 then 8 else 0) : Nat))
        (q + ((if p &&& 4 ≠ 0 then 1 else 0) + (if p &&& 8 ≠ 0 then 8 else 0))) r.1 := by
  unfold readMaskP4
  refine Gives.ite (fun h => Gives.ite (fun _ => Gives.pure (real_same rfl rfl)) fun _ => ?_) fun h => ?_
  · rw [if_pos h]
    refine Gives.read fun _ => (gives_maskP8 _ _ _ _ _ _).mono fun r hr => ?_
    generalize (if p &&& 8 ≠ 0 then 8 else 0) = e at hr ⊢
    unfold RealIs at hr ⊢
    rw [show L - rm - ((1 + e : Nat) : Int) = L - (rm + 1) - (e : Nat) from by omega,
      show q + (1 + e) = q + 1 + e from by omega]
    exact hr
  · rw [if_neg h]
    refine (gives_maskP8 _ _ _ _ _ _).mono fun r hr => ?_
    rw [Nat.zero_add]
    exact hr

theorem gives_maskP2 (q : Nat) (p : Nat) (m : Mask) (L rm read : Int) :
    Gives D q (readMaskP2 p m L rm read) fun r =>
      RealIs D m (L - rm - ((if p &&& 2 ≠ 0 then 8 else 0) + ((if p &&& 4 ≠ 0 then 1 else 0) +
        (if p &&& 8 ≠ 0 then 8 else 0)) : Nat))
        (q + ((if p &&& 2 ≠ 0 then 8 else 0) + ((if p &&& 4 ≠ 0 then 1 else 0) + (if p &&& 8 ≠ 0 then 8 else 0)))) r.1 := by
  unfold readMaskP2
  refine Gives.ite (fun h => Gives.ite (fun _ => Gives.ite (fun _ => Gives.any (safe_discard _) fun _ _ =>
    Gives.pure (real_same rfl rfl)) fun _ => Gives.pure (real_same rfl rfl)) fun _ => ?_) fun h => ?_
  · rw [if_pos h]
    refine Gives.read fun _ => (gives_maskP4 _ _ _ _ _ _).mono fun r hr => ?_
    generalize ((if p &&& 4 ≠ 0 then 1 else 0) + (if p &&& 8 ≠ 0 then 8 else 0)) = e at hr ⊢
    unfold RealIs at hr ⊢
    rw [show L - rm - ((8 + e : Nat) : Int) = L - (rm + 8) - (e : Nat) from by omega,
      show q + (8 + e) = q + 8 + e from by omega]
    exact hr
  · rw [if_neg h]
    refine (gives_maskP4 _ _ _ _ _ _).mono fun r hr => ?_
    rw [Nat.zero_add]
    exact hr

theorem gives_maskP1 (q : Nat) (p : Nat) (m : Mask) (L rm read : Int) :
    Gives D q (readMaskP1 p m L rm read) fun r =>
      RealIs D m (L - rm - ((if p &&& 1 ≠ 0 then 1 else 0) + ((if p &&& 2 ≠ 0 then 8 else 0) +
        ((if p &&& 4 ≠ 0 then 1 else 0) + (if p &&& 8 ≠ 0 then 8 else 0))) : Nat))
        (q + ((if p &&& 1 ≠ 0 then 1 else 0) + ((if p &&& 2 ≠ 0 then 8 else 0) + ((if p &&& 4 ≠ 0 then 1 else 0) +
          (if p &&& 8 ≠ 0 then 8 else 0))))) r.1 := by
  unfold readMaskP1
  refine Gives.ite (fun h => Gives.ite (fun _ => Gives.pure (real_same rfl rfl)) fun _ => ?_) fun h => ?_
  · rw [if_pos h]
    refine Gives.read fun _ => (gives_maskP2 _ _ _ _ _ _).mono fun r hr => ?_
    generalize ((if p &&& 2 ≠ 0 then 8 else 0) + ((if p &&& 4 ≠ 0 then 1 else 0) + (if p &&& 8 ≠ 0 then 8 else 0))) = e
      at hr ⊢
    unfold RealIs at hr ⊢
    rw [show L - rm - ((1 + e : Nat) : Int) = L - (rm + 1) - (e : Nat) from by omega,
      show q + (1 + e) = q + 1 + e from by omega]
    exact hr
  · rw [if_neg h]
    refine (gives_maskP2 _ _ _ _ _ _).mono fun r hr => ?_
    rw [Nat.zero_add]
    exact hr

theorem bits_table : ∀ x ∈ List.range 256, ((x &&& 16 ≠ 0) ↔ (x / 16 % 2 = 1)) ∧
    paramBytes x = (if x &&& 1 ≠ 0 then 1 else 0) + ((if x &&& 2 ≠ 0 then 8 else 0) +
        ((if x &&& 4 ≠ 0 then 1 else 0) + (if x &&& 8 ≠ 0 then 8 else 0))) := by decide +kernel

theorem byte_lt {D : List UInt8} {q : Nat} : num (field D q 1) ∈ List.range 256 := by
  rw [num_eq, List.mem_range]
  exact beAt_lt D q 1

theorem beAt_field {n : Nat} (h : (field D p n).length = n) : beAt (field D p n) 0 n = num (field D p n) := by
  unfold beAt
  rw [List.drop_zero, List.take_of_length_le (by omega), num_eq]

/-- What `readMaskData` returns for the mask data at `q`. -/
theorem gives_mask (q : Nat) : Gives D q (readMaskData {}) fun r =>
    (r.1.rect = Rect.zero ∨ (16 ≤ num (field D q 4) ∧ r.1.rect = rectS (field D (q + 4) 16) ∧
      (field D (q + 4) 16).length = 16)) ∧
    (r.1.realRect = Rect.zero ∨ (realBoxAt D q + 12 - q ≤ num (field D q 4) ∧
      r.1.realRect = rectU (field D (realBoxAt D q) 16) ∧ (field D (realBoxAt D q) 16).length = 16)) := by
  unfold readMaskData
  refine Gives.read fun h0 => ?_
  simp only [beAt_field h0]
  generalize hL : num (field D q 4) = L
  refine Gives.ite (fun _ => Gives.pure ⟨.inl rfl, .inl rfl⟩) fun _ => Gives.ite (fun _ => Gives.ite (fun _ =>
    Gives.any (safe_discard _) fun _ _ => Gives.pure ⟨.inl rfl, .inl rfl⟩) fun _ => Gives.pure ⟨.inl rfl, .inl rfl⟩)
    fun hge => ?_
  have hge : 16 ≤ L := by omega
  refine Gives.read fun h1 => Gives.ite (fun _ => Gives.pure ⟨.inr ⟨hge, rfl, h1⟩, .inl rfl⟩) fun _ => ?_
  refine Gives.read fun _ => Gives.ite (fun _ => Gives.pure ⟨.inr ⟨hge, rfl, h1⟩, .inl rfl⟩) fun _ => ?_
  refine Gives.read fun h3 => ?_
  have hflag : beNat (field D (q + 4 + 16 + 1) 1) = num (field D (q + 21) 1) := by rw [num_eq]
  refine Gives.ite (fun hf => Gives.ite (fun _ => Gives.pure ⟨.inr ⟨hge, rfl, h1⟩, .inl rfl⟩) fun _ => ?_) fun hf => ?_
  · simp only [hflag] at hf
    have hf := (bits_table _ byte_lt).1.1 hf
    have hat : realBoxAt D q = q + 25 + paramBytes (num (field D (q + 22) 1)) := by
      unfold realBoxAt; rw [if_pos hf]
    refine Gives.read fun h4 => (gives_maskP1 _ _ _ _ _ _).mono fun r hr => ?_
    have hp : beNat (field D (q + 4 + 16 + 1 + 1) 1) = num (field D (q + 22) 1) := by rw [num_eq]
    rw [hp, ← (bits_table _ byte_lt).2] at hr
    rw [hat]
    obtain ⟨hr1, hr2⟩ := hr
    refine ⟨.inr ⟨hge, hr1, h1⟩, ?_⟩
    rcases hr2 with hr2 | ⟨hr2, hr3, hr4⟩
    · exact .inl hr2
    · rw [show q + 4 + 16 + 1 + 1 + 1 + paramBytes (num (field D (q + 22) 1)) + 2 =
        q + 25 + paramBytes (num (field D (q + 22) 1)) from by omega] at hr3 hr4
      exact .inr ⟨by omega, hr3, hr4⟩
  · simp only [hflag] at hf
    have hf : ¬ num (field D (q + 21) 1) / 16 % 2 = 1 := fun h => hf ((bits_table _ byte_lt).1.2 h)
    have hat : realBoxAt D q = q + 24 := by unfold realBoxAt; rw [if_neg hf]
    refine (gives_maskTail _ _ _ _ _).mono fun r hr => ?_
    rw [hat]
    obtain ⟨hr1, hr2⟩ := hr
    refine ⟨.inr ⟨hge, hr1, h1⟩, ?_⟩
    rcases hr2 with hr2 | ⟨hr2, hr3, hr4⟩
    · exact .inl hr2
    · exact .inr ⟨by omega, hr3, hr4⟩

/-! ### Rectangles -/

theorem beAt_sub {p k off n : Nat} (h : off + n ≤ k) : beAt (field D p k) off n = num (field D (p + off) n) := by
  unfold beAt field
  rw [List.drop_take, List.drop_drop, List.take_take, Nat.min_eq_left (by omega), num_eq]

theorem field_full {p k off n : Nat} (h : off + n ≤ k) (hl : (field D p k).length = k) :
    (field D (p + off) n).length = n := by
  unfold field at hl ⊢
  simp only [List.length_take, List.length_drop] at hl ⊢
  omega

theorem int32_signed {p : Nat} (h : (field D p 4).length = 4) : int32 (num (field D p 4)) = signed (field D p 4) := by
  have : num (field D p 4) < 2 ^ 32 := by rw [num_eq]; exact beAt_lt D p 4
  unfold int32 signed
  rw [h]
  simp only
  rw [Nat.mod_eq_of_lt this]
  split <;> split <;> omega

theorem int16_signed {p : Nat} (h : (field D p 2).length = 2) : int16 (num (field D p 2)) = signed (field D p 2) := by
  have : num (field D p 2) < 2 ^ 16 := by rw [num_eq]; exact beAt_lt D p 2
  unfold int16 signed
  rw [h]
  simp only
  rw [Nat.mod_eq_of_lt this]
  split <;> split <;> omega

/-- The plane of a rectangle fits. -/
def RectFits (psb : Bool) (depth : Nat) (r : Rect) : Prop := PlaneFits psb depth r.dx.toNat r.dy.toNat

theorem rectFits_zero (psb : Bool) (depth : Nat) : RectFits psb depth Rect.zero := by
  refine ⟨?_, fun _ => ?_⟩ <;> simp [Rect.zero, Rect.dx, Rect.dy]

theorem rectS_fits {psb : Bool} {depth p : Nat} (hl : (field D p 16).length = 16) (h : BoxFits psb depth D p) :
    RectFits psb depth (rectS (field D p 16)) := by
  unfold RectFits
  unfold BoxFits at h
  have e : ∀ off, off + 4 ≤ 16 → int32 (beAt (field D p 16) off 4) = signed (field D (p + off) 4) := by
    intro off ho
    rw [beAt_sub ho, int32_signed (field_full ho hl)]
  have e0 := e 0 (by omega)
  have e4 := e 4 (by omega)
  have e8 := e 8 (by omega)
  have e12 := e 12 (by omega)
  rw [Nat.add_zero] at e0
  unfold rectS
  rw [e0, e4, e8, e12]
  have hx : ∀ a b c d : Int, (Rect.make a b c d).dx.toNat = (c - a).natAbs := by
    intro a b c d; unfold Rect.make Rect.dx; simp only; omega
  have hy : ∀ a b c d : Int, (Rect.make a b c d).dy.toNat = (d - b).natAbs := by
    intro a b c d; unfold Rect.make Rect.dy; simp only; omega
  rw [hx, hy]
  exact h

theorem rectU_fits {psb : Bool} {depth p : Nat} (h : RealBoxFits psb depth D p) :
    RectFits psb depth (rectU (field D p 16)) := by
  unfold RectFits
  unfold RealBoxFits at h
  have e : ∀ off, off + 4 ≤ 16 → beAt (field D p 16) off 4 = num (field D (p + off) 4) := fun off ho => beAt_sub ho
  have e0 := e 0 (by omega)
  rw [Nat.add_zero] at e0
  unfold rectU
  rw [e0, e 4 (by omega), e 8 (by omega), e 12 (by omega)]
  have hx : ∀ a b c d : Int, (Rect.make a b c d).dx.toNat = (c - a).natAbs := by
    intro a b c d; unfold Rect.make Rect.dx; simp only; omega
  have hy : ∀ a b c d : Int, (Rect.make a b c d).dy.toNat = (d - b).natAbs := by
    intro a b c d; unfold Rect.make Rect.dy; simp only; omega
  rw [hx, hy]
  exact h

/-! ### Records -/

theorem gives_extra {addl : Int → P (Infos × List LayerRec × Int)} (ha : ∀ n, Safe D (addl n) fun r => GoodInfos r.1)
    (layer : LayerRec) (hm : layer.mask = {}) (q : Nat) :
    Gives D q (readLayerExtraData addl layer) fun r =>
      r.2 = (num (field D q 4) : Nat) + 4 ∧ r.1.rect = layer.rect ∧
      (r.1.mask.rect = Rect.zero ∨ (num (field D q 4) ≠ 0 ∧ 16 ≤ num (field D (q + 4) 4) ∧
        r.1.mask.rect = rectS (field D (q + 4 + 4) 16) ∧ (field D (q + 4 + 4) 16).length = 16)) ∧
      (r.1.mask.realRect = Rect.zero ∨ (num (field D q 4) ≠ 0 ∧
        realBoxAt D (q + 4) + 12 - (q + 4) ≤ num (field D (q + 4) 4) ∧
        r.1.mask.realRect = rectU (field D (realBoxAt D (q + 4)) 16))) := by
  unfold readLayerExtraData
  refine Gives.read fun h0 => ?_
  simp only [beAt_field h0, hm]
  refine Gives.ite (fun h => Gives.pure ⟨?_, rfl, ?_, ?_⟩) fun hne => ?_
  · simp only; omega
  · exact .inl (by simp only [hm])
  · exact .inl (by simp only [hm])
  refine Gives.bind (gives_mask (q + 4)) (safe_mask _) fun ⟨mask, l⟩ q1 hq => ?_
  refine Gives.any (safe_readAny _) fun _ _ => ?_
  refine Gives.any (Safe.ite (fun _ => safe_discard _) fun _ => Safe.pure trivial) fun _ _ => ?_
  refine Gives.any (safe_of_clo NoPanic.pascal frame_clo.pascal) fun ⟨name, l⟩ _ => ?_
  refine Gives.any (safe_of_clo (NoPanic.align4 _) (frame_align4 _)) fun l _ => ?_
  refine Gives.any (Safe.ite (fun _ => (ha _).mono fun _ _ => trivial) fun _ => Safe.pure trivial) fun ⟨infos, layers, l⟩ _ => ?_
  refine Gives.ite (fun _ => Gives.fail) fun _ => Gives.ite (fun _ => Gives.fail) fun hr => Gives.pure ⟨?_, rfl, ?_, ?_⟩
  · simp only at hr ⊢; omega
  · rcases hq.1 with h | ⟨h1, h2, h3⟩
    · exact .inl h
    · exact .inr ⟨by omega, h1, h2, h3⟩
  · rcases hq.2 with h | ⟨h1, h2, h3⟩
    · exact .inl h
    · exact .inr ⟨by omega, h1, h2⟩

theorem gives_channels (w : Nat) : ∀ n q, Gives D q (readChannelList w n) fun chs =>
    ∀ ch ∈ chs, ∃ j, j < n ∧ ch.chIndex = signed (field D (q + (2 + w) * j) 2) := by
  intro n
  induction n with
  | zero => intro q; rw [readChannelList]; exact Gives.pure (by simp)
  | succ n ih =>
    intro q
    rw [readChannelList]
    refine Gives.read fun h0 => Gives.bindAt (r := fun _ => (n : Int) * (2 + w)) (k := n * (2 + w)) (ih _)
      (safe_channelList _ _) (Cnt.channelList _ _) (fun a _ => by simp) fun rest hr => Gives.pure ?_
    intro ch hch
    rcases List.mem_cons.1 hch with rfl | hch
    · refine ⟨0, by omega, ?_⟩
      simp only [Nat.mul_zero, Nat.add_zero]
      have e := beAt_sub (D := D) (p := q) (k := 2 + w) (off := 0) (n := 2) (by omega)
      have f := field_full (D := D) (p := q) (k := 2 + w) (off := 0) (n := 2) (by omega) h0
      rw [Nat.add_zero] at e f
      rw [e, int16_signed f]
    · obtain ⟨j, hj, he⟩ := hr ch hch
      refine ⟨j + 1, by omega, ?_⟩
      have e : q + (2 + w) * (j + 1) = q + (2 + w) + (2 + w) * j := by rw [Nat.mul_succ]; omega
      rw [he, e]

/-- The channels of a record have planes that fit and colours that exist. -/
def GoodRec (psb : Bool) (depth colors : Nat) (x : LayerRec × List ChannelData) : Prop :=
  x.1.Ok ∧ ∀ ch ∈ x.2, ch.chIndex < colors ∧ RectFits psb depth (channelRect x.1 ch.chIndex)

theorem get4or8_eq_wide (psb : Bool) : get4or8 psb = wide psb := rfl

theorem gives_record {addl : Int → P (Infos × List LayerRec × Int)} (ha : ∀ n, Safe D (addl n) fun r => GoodInfos r.1)
    {psb : Bool} {depth colors p : Nat} (i : Nat) (h : DrawableRecord psb depth colors D p) :
    Gives D p (readLayerRecord addl psb i) fun r =>
      GoodRec psb depth colors (r.1, r.2.1) ∧ ((p : Int) + r.2.2 = recNext psb D p) := by
  have hok : Gives D p (readLayerRecord addl psb i) fun r => r.1.Ok := by
    intro s a s' _ _ e
    exact (ens_layerRecord addl psb i s a s' e).1
  obtain ⟨hb, hch⟩ := h
  have main : Gives D p (readLayerRecord addl psb i) fun r =>
      (∀ ch ∈ r.2.1, ch.chIndex < colors ∧ RectFits psb depth (channelRect r.1 ch.chIndex)) ∧
        ((p : Int) + r.2.2 = recNext psb D p) := by
    unfold readLayerRecord
    refine Gives.read fun h0 => Gives.read fun h1 => ?_
    have hn : beAt (field D (p + 16) 2) 0 2 = recChannels D p := by
      unfold recChannels; exact beAt_field h1
    simp only [hn, get4or8_eq_wide]
    refine Gives.bindAt (r := fun _ => (recChannels D p : Int) * (2 + wide psb)) (k := recChannels D p * (2 + wide psb))
      (gives_channels _ _ _) (safe_channelList _ _) (Cnt.channelList _ _) (fun a _ => by simp) fun chs hchs => ?_
    refine Gives.read fun h2 => Gives.ite (fun _ => Gives.fail) fun _ => ?_
    have hq : p + 16 + 2 + recChannels D p * (2 + wide psb) + 12 = recExtra psb D p := by
      unfold recExtra; rw [Nat.mul_comm (2 + wide psb)]; omega
    rw [hq]
    refine Gives.bind (gives_extra ha _ rfl _) ((safe_extra ha _ goodInfos_empty).mono fun _ _ => trivial)
      fun ⟨layer, l⟩ q1 hl => ?_
    obtain ⟨hl1, hl2, hl3, hl4⟩ := hl
    refine Gives.liftBind fun layer' e => ?_
    have hf : layer'.rect = layer.rect ∧ layer'.mask = layer.mask := by
      have := finishRecord_ok e
      exact ⟨this.1, this.2.1⟩
    refine Gives.pure ⟨fun ch hc => ?_, ?_⟩
    · obtain ⟨j, hj, he⟩ := hchs ch hc
      have he' : ch.chIndex = recChannelID psb D p j := he
      obtain ⟨c1, c2, c3⟩ := hch j (List.mem_range.2 hj)
      rw [← he'] at c1 c2 c3
      refine ⟨c1, ?_⟩
      simp only at hl1 hl2 hl3 hl4
      unfold channelRect
      split
      · rename_i h3
        rw [hf.2]
        rcases hl4 with h | ⟨h4, h5, h6⟩
        · rw [h]; exact rectFits_zero _ _
        · rw [h6]; exact rectU_fits (c3 h3 ⟨h4, h5⟩)
      · split
        · rename_i h3
          rw [hf.2]
          rcases hl3 with h | ⟨h4, h5, h6, h7⟩
          · rw [h]; exact rectFits_zero _ _
          · rw [h6]; exact rectS_fits h7 (c2 h3 ⟨h4, h5⟩)
        · rw [hf.1, hl2]
          exact rectS_fits h0 hb
    · simp only at hl1 ⊢
      rw [hl1]
      unfold recNext
      have hq' : ((recExtra psb D p : Nat) : Int) = p + 16 + 2 + recChannels D p * (2 + wide psb) + 12 := by
        rw [← hq]; simp
      omega
  intro s a s' hd hq e
  have h1 := hok s a s' hd hq e
  have h2 := main s a s' hd hq e
  exact ⟨⟨h1, h2.1⟩, h2.2⟩

theorem gives_records {addl : Int → P (Infos × List LayerRec × Int)} (ha : ∀ n, Safe D (addl n) fun r => GoodInfos r.1)
    (hc : ∀ n, Cnt (addl n) fun r => r.2.2) {psb : Bool} {depth colors : Nat} : ∀ n i p,
      DrawableRecords psb depth colors D n p →
      Gives D p (readLayerRecords addl psb n i) fun r => ∀ x ∈ r.1, GoodRec psb depth colors x := by
  intro n
  induction n with
  | zero => intro i p _; rw [readLayerRecords]; exact Gives.pure (by simp)
  | succ n ih =>
    intro i p h
    rw [readLayerRecords]
    have hle : p ≤ recNext psb D p := by unfold recNext recExtra; omega
    refine Gives.bindAt (r := fun r => r.2.2) (k := recNext psb D p - p) (gives_record ha i h.1) (safe_record ha psb i)
      (Cnt.layerRecord hc psb i) (fun a hq => by have := hq.2; omega) fun ⟨layer, chs, l⟩ h1 => ?_
    rw [show p + (recNext psb D p - p) = recNext psb D p from by omega]
    refine Gives.bind (ih _ _ h.2) (safe_records ha psb _ _) fun ⟨rest, l'⟩ _ h2 => Gives.pure ?_
    intro x hx
    rcases List.mem_cons.1 hx with rfl | hx
    · exact h1.1
    · exact h2 x hx

/-! ### Pictures -/

theorem deltaRow_safe (sz : Nat) : ∀ w d (buf : List UInt8), w * sz ≤ buf.length →
    ∃ row rest, deltaRow sz w d buf = .ok (row, rest) ∧ rest.length = buf.length - w * sz := by
  intro w
  induction w with
  | zero => intro d buf _; exact ⟨[], buf, by rw [deltaRow], by simp⟩
  | succ w ih =>
    intro d buf h
    have h1 : sz ≤ buf.length := by rw [Nat.succ_mul] at h; omega
    obtain ⟨row, rest, e, hl⟩ := ih ((d + beNat (buf.take sz)) % 256 ^ sz) (buf.drop sz) (by
      rw [Nat.succ_mul] at h; rw [List.length_drop]; omega)
    rw [deltaRow, if_neg (by omega)]
    simp only [e]
    refine ⟨_, rest, rfl, ?_⟩
    rw [hl, List.length_drop, Nat.succ_mul]
    omega

theorem deltaRows_safe (sz w : Nat) : ∀ k fuel (buf : List UInt8), buf.length = k * (w * sz) →
    ∀ e, deltaRows sz w fuel buf ≠ .panic e := by
  intro k
  induction k with
  | zero =>
    intro fuel buf h e
    rw [Nat.zero_mul] at h
    rw [List.length_eq_zero_iff.1 h]
    cases fuel <;> simp [deltaRows]
  | succ k ih =>
    intro fuel buf h e
    cases buf with
    | nil => cases fuel <;> simp [deltaRows]
    | cons x xs =>
      cases fuel with
      | zero => simp [deltaRows]
      | succ f =>
        rw [deltaRows]
        · rw [Nat.succ_mul] at h
          obtain ⟨row, rest, e1, hl⟩ := deltaRow_safe sz w 0 (x :: xs) (by omega)
          rw [e1]
          have := ih f rest (by omega)
          simp only [Res.ok_bind]
          cases hh : deltaRows sz w f rest with
          | panic e => exact absurd hh (this e)
          | _ => simp
        · simp

theorem rowLen_multiple (depth w h : Nat) (hd : depth = 16 ∨ depth = 32) :
    (w * depth + 7) / 8 * h = h * (w * (depth / 8)) := by
  rcases hd with rfl | rfl
  · rw [show (w * 16 + 7) / 8 = w * (16 / 8) by omega, Nat.mul_comm]
  · rw [show (w * 32 + 7) / 8 = w * (32 / 8) by omega, Nat.mul_comm]

/-- Decoding a channel of a plane that fits, or the merged picture, does not panic. -/
theorem cmDecode_safe (env : Env) (hp : 1 ≤ env.procs) (method : Int) (rect : Rect) (depth : Nat)
    (hdepth : depth ∈ [1, 8, 16, 32]) (channels : Nat) (large : Bool)
    (hrows : rect.dy.toNat * channels * (256 ^ (get4or8 large / 2) - 1) ≤ 2 ^ 48) (hint : Int)
    (s : St) (hfile : s.data.length ≤ 2 ^ 33) (e : Panic) :
    cmDecode env method (List.replicate ((rect.dx.toNat * depth + 7) / 8 * rect.dy.toNat * channels) 0) hint rect
      depth channels large s ≠ .panic e := by
  intro h
  by_cases h1 : method = 1
  · subst h1
    rcases C14_packbits_safe_partial env hp rect depth hdepth channels large hint
      (List.replicate ((rect.dx.toNat * depth + 7) / 8 * rect.dy.toNat * channels) 0) (by rw [List.length_replicate]; rfl) s hfile with
      ⟨d, n, s', e1, -⟩ | ⟨e', e1⟩ | ⟨e1, hl⟩
    · rw [h] at e1; cases e1
    · rw [h] at e1; cases e1
    · unfold tableTotal at hl
      have hs := sum_le_mul (pbLens (get4or8 large / 2) (rect.dy.toNat * channels)
        (s.avail.take (rect.dy.toNat * channels * (get4or8 large / 2)))) (256 ^ (get4or8 large / 2) - 1)
        (fun x hx => by have := pbLens_lt _ _ _ x hx; omega)
      rw [pbLens_length] at hs
      omega
  · unfold cmDecode at h
    have zip : ∀ w k q, decodeZLIB env w k s ≠ .panic q := by
      intro w k q hz
      unfold decodeZLIB at hz
      simp only at hz
      split at hz
      · cases hz
      · split at hz <;> cases hz
    rw [if_neg h1] at h
    rw [P.ite_app] at h
    split at h
    · exact (NoPanic.bind (NoPanic.readFull _) fun _ => NoPanic.pure _) s e h
    · rw [P.ite_app] at h
      split at h
      · exact zip _ _ _ h
      · rw [P.ite_app] at h
        split at h
        · rw [P.bind_apply] at h
          cases hz : decodeZLIB env (List.replicate ((rect.dx.toNat * depth + 7) / 8 * rect.dy.toNat * channels)
              (0 : UInt8)).length hint s with
          | ok r =>
            obtain ⟨⟨d, read⟩, s₁⟩ := r
            rw [hz] at h
            have hdl : d.length = (rect.dx.toNat * depth + 7) / 8 * rect.dy.toNat * channels := by
              obtain ⟨n, -, -, -, hn, -⟩ := decodeZLIB_eq_ok hz
              rwa [List.length_replicate] at hn
            have hnp : ∀ q, decodeDelta d rect.dx.toNat depth ≠ .panic q := by
              intro q
              unfold decodeDelta
              split
              · refine deltaRows_safe 2 _ (rect.dy.toNat * channels) _ d ?_ q
                rw [hdl, ‹depth = 16›, rowLen_multiple 16 _ _ (.inl rfl), Nat.mul_right_comm]
              · split
                · refine deltaRows_safe 4 _ (rect.dy.toNat * channels) _ d ?_ q
                  rw [hdl, ‹depth = 32›, rowLen_multiple 32 _ _ (.inr rfl), Nat.mul_right_comm]
                · simp
            exact (NoPanic.bind (NoPanic.lift hnp) fun _ => NoPanic.pure _) _ _ h
          | panic q => exact zip _ _ _ hz
          | _ => rw [hz] at h; cases h
        · cases h

theorem safe_channelBody (hfile : D.length ≤ 2 ^ 33) (env : Env) (hp : 1 ≤ env.procs) (cfg : Config)
    (hdepth : cfg.depth ∈ [1, 8, 16, 32]) (colors : Nat) (layer : LayerRec) (hl : layer.Ok) (ch : ChannelData)
    (hc : ch.chIndex < colors) (hr : RectFits cfg.psb cfg.depth (channelRect layer ch.chIndex)) (m : GoMap Int Channel)
    (pcs : List (List UInt8)) (hpc : colors ≤ pcs.length) (method read : Int) :
    Safe D (readChannelBody env cfg layer ch m pcs method read) fun r => colors ≤ r.2.1.length := by
  have hok : (channelRect layer ch.chIndex).Ok := by
    unfold channelRect
    split
    · exact hl.2.2
    · split
      · exact hl.2.1
      · exact hl.1
  unfold readChannelBody
  simp only
  generalize channelRect layer ch.chIndex = rect at hr hok
  obtain ⟨x0, x1, y0, y1⟩ := hok
  have hsz : (rect.dx * cfg.depth + 7) / 8 * rect.dy =
      (((rect.dx.toNat * cfg.depth + 7) / 8 * rect.dy.toNat : Nat) : Int) := by
    have ex : rect.dx = (rect.dx.toNat : Int) := by omega
    have ey : rect.dy = (rect.dy.toNat : Int) := by omega
    rw [ex, ey]
    simp only [Int.toNat_natCast]
    simp
  have hle := hr.1
  have hmk : goMake (planeSize rect cfg.depth) = .ok ((rect.dx.toNat * cfg.depth + 7) / 8 * rect.dy.toNat) := by
    unfold planeSize
    rw [hsz, wrap64_small (by omega) (by omega)]
    unfold goMake maxAlloc
    rw [if_pos (by omega), Int.toNat_natCast]
  rw [hmk]
  refine Safe.bind (Q := fun n => n = (rect.dx.toNat * cfg.depth + 7) / 8 * rect.dy.toNat)
    (Safe.lift (by simp) fun a h => (Res.ok.inj h).symm) fun n hn => ?_
  have hgray : ∃ g, findGrayPicker cfg.depth = some g ∧ g.arity = 1 := by
    simp only [List.mem_cons, List.not_mem_nil, or_false] at hdepth
    rcases hdepth with h | h | h | h <;> rw [h] <;> exact ⟨_, rfl, rfl⟩
  obtain ⟨g, hg, hga⟩ := hgray
  rw [hg]
  refine Safe.bind (Q := fun k => k = g) (Safe.lift (by simp) fun a h => (Res.ok.inj h).symm) fun k hk => ?_
  subst hk hn
  have hdata : Safe D (readChannelData env method ((rect.dx.toNat * cfg.depth + 7) / 8 * rect.dy.toNat) ch.dataLen read
      rect cfg.depth cfg.psb) fun _ => True := by
    unfold readChannelData
    refine Safe.bind (Q := fun _ => True) (Safe.ite (fun _ => ?_) fun _ => Safe.pure trivial) fun ⟨d, l⟩ _ => ?_
    · intro v hv
      refine ⟨fun q => ?_, fun a s' he => ⟨?_, trivial⟩⟩
      · have := cmDecode_safe env hp method rect cfg.depth hdepth 1 cfg.psb ?_ (ch.dataLen - 2) v (by rw [hv]; exact hfile) q
        · rwa [Nat.mul_one] at this
        · rw [Nat.mul_one]
          have h2 := hr.2
          cases hpsb : cfg.psb with
          | false =>
            have : get4or8 false / 2 = 2 := rfl
            rw [this]
            omega
          | true =>
            have : get4or8 true / 2 = 4 := rfl
            rw [this]
            have := h2 hpsb
            omega
      · exact ((frame_clo.cmDecode frame_lift env (frame_zlib env) _ _ _ _ _ _ _ v a s' he).1).trans hv
    · exact Safe.bind (Q := fun _ => True) (Safe.ite (fun _ => safe_discard _) fun _ => Safe.pure trivial) fun l _ =>
        Safe.pure trivial
  refine hdata.bind fun ⟨data, readCh⟩ _ => Safe.ite (fun _ => Safe.fail) fun _ => ?_
  refine Safe.bind (Q := fun _ => True) (Safe.lift ?_ fun _ _ => trivial) fun pk _ => ?_
  · intro q
    unfold PickerKind.setSource
    rw [if_pos (by rw [hga]; simp)]
    simp
  refine Safe.ite (fun hge => ?_) fun _ => Safe.ite (fun _ => Safe.pure ?_) fun _ => Safe.pure hpc
  · refine Safe.bind (Q := fun _ => True) (Safe.lift ?_ fun _ _ => trivial) fun _ _ => Safe.pure ?_
    · intro q
      unfold goIndex
      rw [List.getElem?_eq_getElem (by omega)]
      simp
    · simp only [List.length_set]; exact hpc
  · simp only [List.length_append]; omega

theorem safe_channelImages (hfile : D.length ≤ 2 ^ 33) (env : Env) (hp : 1 ≤ env.procs) (cfg : Config)
    (hdepth : cfg.depth ∈ [1, 8, 16, 32]) (colors : Nat) (layer : LayerRec) (hl : layer.Ok) : ∀ (chs : List ChannelData)
    (_ : ∀ ch ∈ chs, ch.chIndex < colors ∧ RectFits cfg.psb cfg.depth (channelRect layer ch.chIndex))
    (m : GoMap Int Channel) (pcs : List (List UInt8)) (_ : colors ≤ pcs.length),
    Safe D (readChannelImages env cfg layer chs m pcs) fun r => colors ≤ r.2.1.length := by
  intro chs
  induction chs with
  | nil => intro _ m pcs h; rw [readChannelImages]; exact Safe.pure h
  | cons ch chs ih =>
    intro h m pcs hpc
    rw [readChannelImages]
    obtain ⟨c1, c2⟩ := h ch (by simp)
    refine Safe.bind (Q := fun r => colors ≤ r.2.1.length) ?_ fun ⟨m, pcs, l⟩ hq =>
      (ih (fun c hc => h c (by simp [hc])) m pcs hq).bind fun ⟨m, pcs, l'⟩ hq => Safe.pure hq
    unfold readChannelImage
    exact Safe.ite (fun _ => (safe_readAny _).bind fun b _ =>
      safe_channelBody hfile env hp cfg hdepth colors layer hl ch c1 c2 m pcs hpc _ _) fun _ =>
      safe_channelBody hfile env hp cfg hdepth colors layer hl ch c1 c2 m pcs hpc _ _

theorem layered_picker {mode : Int} {depth : Nat} (h : LayeredMode mode depth) (alpha : Bool) :
    ColorMode.channels mode = modeColors mode ∧ ∃ k, findPicker depth mode alpha = some k ∧
      k.arity = modeColors mode + (if alpha = true then 1 else 0) := by
  unfold LayeredMode at h
  simp only [List.mem_cons, List.not_mem_nil, or_false] at h
  rcases h with ⟨h | h, hd | hd | hd⟩ | ⟨h, hd | hd⟩ <;> subst h hd <;> cases alpha <;>
    exact ⟨by decide, _, rfl, by decide⟩

theorem safe_layerImages (hfile : D.length ≤ 2 ^ 33) (env : Env) (hp : 1 ≤ env.procs) (cfg : Config)
    (hm : LayeredMode cfg.colorMode cfg.depth) (o : Options) (total : Nat) :
    ∀ (recs : List (LayerRec × List ChannelData)) (_ : ∀ x ∈ recs, GoodRec cfg.psb cfg.depth (modeColors cfg.colorMode) x) i,
      Safe D (readLayerImages env cfg o total i recs) fun _ => True := by
  have hdepth : cfg.depth ∈ [1, 8, 16, 32] := by
    unfold LayeredMode at hm
    simp only [List.mem_cons, List.not_mem_nil, or_false] at hm ⊢
    omega
  intro recs
  induction recs with
  | nil => intro _ i; rw [readLayerImages]; exact Safe.pure trivial
  | cons x recs ih =>
    intro h i
    obtain ⟨layer, chs⟩ := x
    obtain ⟨g1, g2⟩ := h (layer, chs) (by simp)
    rw [readLayerImages]
    have hcol := (layered_picker hm false).1
    have hmk : goMake (cfg.colorMode.channels) = .ok (modeColors cfg.colorMode) := by
      rw [hcol]
      have : modeColors cfg.colorMode ≤ 4 := by unfold modeColors; split <;> (try split) <;> omega
      unfold goMake maxAlloc
      rw [if_pos (by omega)]; simp
    rw [hmk]
    refine Safe.bind (Q := fun n => n = modeColors cfg.colorMode) (Safe.lift (by simp) fun a h => (Res.ok.inj h).symm)
      fun n hn => ?_
    subst hn
    refine (safe_channelImages hfile env hp cfg hdepth (modeColors cfg.colorMode) layer g1 chs g2 _ _ (by simp)).bind
      fun ⟨m, pcs, l⟩ hq => ?_
    refine Safe.bind (Q := fun _ => True) (Safe.lift ?_ fun _ _ => trivial) fun pk _ => ?_
    · intro q
      obtain ⟨-, k, hk, ha⟩ := layered_picker hm (decide (cfg.colorMode.channels < (pcs.length : Int)))
      simp only at hq ⊢
      rw [hk]
      simp only
      unfold PickerKind.setSource
      rw [if_pos]
      · simp
      · rw [ha, hcol]
        split
        · rename_i ht
          have := of_decide_eq_true ht
          omega
        · omega
    refine Safe.bind (Q := fun _ => True) (Safe.ite (fun _ => ?_) fun _ => Safe.pure trivial) fun _ _ => ?_
    · intro s hd
      refine ⟨(by intro e h; cases h), fun a s' e => ?_⟩
      cases e
      exact ⟨hd, trivial⟩
    · exact (ih (fun y hy => h y (by simp [hy])) _).bind fun ⟨ls, l'⟩ _ => Safe.pure trivial

/-! ### Sections -/

/-- Layer pictures are skipped or the section is drawable. -/
def SectionOk (o : Options) (cfg : Config) (D : List UInt8) (q : Nat) : Prop :=
  o.skipLayerImage = true ∨ DrawableSection cfg.psb cfg.depth cfg.colorMode D q

theorem safe_layerInfo (hfile : D.length ≤ 2 ^ 33) (env : Env) (hp : 1 ≤ env.procs) (cfg : Config)
    (hD : SoundBlocks cfg.psb D) (o : Options) (hn : ∀ q, NestedAt D q → SectionOk o cfg D q) : ∀ fuel,
      (∀ s, s.data = D → SectionOk o cfg D s.pos → (∀ e, readLayerInfo env cfg o fuel s ≠ .panic e) ∧
        ∀ a s', readLayerInfo env cfg o fuel s = .ok (a, s') → s'.data = D) ∧
      ∀ n, Safe D (readAdditionalLayerInfo env cfg o fuel n) fun r => GoodInfos r.1 := by
  intro fuel
  induction fuel with
  | zero =>
    refine ⟨fun s hd _ => ?_, fun n => ?_⟩
    · rw [readLayerInfo]; exact ⟨(by intro e h; cases h), fun a s' e => by cases e⟩
    · rw [readAdditionalLayerInfo]; exact Safe.outOfFuel
  | succ n ih =>
    refine ⟨fun s hd hs => ?_, fun k => ?_⟩
    · rw [readLayerInfo]
      have hcnt := (Cnt.layerInfo env cfg o n).2
      generalize readAdditionalLayerInfo env cfg o n = addl at ih hcnt
      unfold readLayerInfoWith
      have hs' : o.skipLayerImage = true ∨ num (field D s.pos (get4or8 cfg.psb)) = 0 ∨
        num (field D (s.pos + get4or8 cfg.psb) 2) = 0 ∨ (LayeredMode cfg.colorMode cfg.depth ∧
          DrawableRecords cfg.psb cfg.depth (modeColors cfg.colorMode) D
            (layerCount (num (field D (s.pos + get4or8 cfg.psb) 2))) (s.pos + get4or8 cfg.psb + 2)) := hs
      generalize get4or8 cfg.psb = W at hs'
      simp only
      rw [P.bind_apply]
      cases h0 : readFull (W) s with
      | err e => exact ⟨(by intro e h; cases h), fun a s' e => by cases e⟩
      | panic e => exact absurd h0 (NoPanic.readFull _ s e)
      | fuel => exact ⟨(by intro e h; cases h), fun a s' e => by cases e⟩
      | ok r =>
        obtain ⟨b, t⟩ := r
        obtain ⟨b1, b2, b3, b4⟩ := field_data h0
        rw [hd] at b1 b3
        subst b1
        simp only
        simp only [beAt_field b4]
        rw [P.ite_app]
        split
        · refine ⟨(by intro e h; cases h), fun a s' e => ?_⟩
          cases e; exact b3
        · rename_i hne
          rw [P.bind_apply]
          cases h1 : readFull 2 t with
          | err e => exact ⟨(by intro e h; cases h), fun a s' e => by cases e⟩
          | panic e => exact absurd h1 (NoPanic.readFull _ t e)
          | fuel => exact ⟨(by intro e h; cases h), fun a s' e => by cases e⟩
          | ok r =>
            obtain ⟨c, u⟩ := r
            obtain ⟨c1, c2, c3, c4⟩ := field_data h1
            rw [b3, b2] at c1
            subst c1
            rw [b3] at c3
            have hraw : num (field D (s.pos + W) 2) < 2 ^ 16 := by rw [num_eq]; exact beAt_lt D _ 2
            simp only
            simp only [beAt_field c4]
            have hcount : (if num (field D (s.pos + W) 2) ≥ 0x8000 then
                (0x10000 - num (field D (s.pos + W) 2)) % 0x10000 else num (field D (s.pos + W) 2)) =
                layerCount (num (field D (s.pos + W) 2)) := by
              unfold layerCount; split <;> omega
            rw [hcount]
            generalize hN : layerCount (num (field D (s.pos + W) 2)) = N
            -- what follows the records
            have hup : u.pos = s.pos + W + 2 := by omega
            obtain ⟨r1, r2⟩ := safe_records ih.2 cfg.psb N 0 u c3
            rw [P.bind_apply]
            cases h2 : readLayerRecords addl cfg.psb N 0 u with
            | err e => exact ⟨(by intro e h; cases h), fun a s' e => by cases e⟩
            | panic e => exact absurd h2 (r1 e)
            | fuel => exact ⟨(by intro e h; cases h), fun a s' e => by cases e⟩
            | ok r =>
              obtain ⟨⟨recs, l⟩, v⟩ := r
              have hv := (r2 _ _ h2).1
              have himg : Safe D (if o.skipLayerImage = true then Pure.pure (recs.map (·.1), 0)
                  else readLayerImages env cfg o recs.length 0 recs : P (List LayerRec × Int)) fun _ => True := by
                refine Safe.ite (fun _ => Safe.pure trivial) fun hsk => ?_
                have hsec := hs'.resolve_left hsk
                rcases hsec with h | h | ⟨hm, h⟩
                · exact absurd (by rw [h]; rfl) hne
                · have hN0 : N = 0 := by rw [← hN, h]; rfl
                  subst hN0
                  rw [readLayerRecords] at h2
                  cases h2
                  rw [readLayerImages]
                  exact Safe.pure trivial
                · rw [hN] at h
                  have hgood := gives_records ih.2 hcnt N 0 _ h u _ v c3 hup h2
                  exact safe_layerImages hfile env hp cfg hm o recs.length recs hgood 0
              have hrest := himg.bind (f := fun (layers, l') => do
                  let read : Int := (W : Int) + 2 + l + l'
                  let l'' ← (if wrap64 (int64 (num (field D s.pos (W))) + (W : Nat)) > read then
                      discard (wrap64 (int64 (num (field D s.pos (W))) + (W : Nat)) - read)
                    else pure 0)
                  pure (some layers, read + l'')) (R := fun _ => True) fun ⟨layers, l'⟩ _ =>
                Safe.bind (Q := fun _ => True) (Safe.ite (fun _ => safe_discard _) fun _ => Safe.pure trivial) fun l'' _ =>
                  Safe.pure trivial
              obtain ⟨k1, k2⟩ := hrest v hv
              exact ⟨k1, fun a s' e => (k2 a s' e).1⟩
    · rw [readAdditionalLayerInfo]
      unfold readAdditionalWith
      refine (addl_ok hD (fun s hd hne => ih.1 s hd (hn _ hne)) _ _ _ _ _ _ goodInfos_empty).bind
        fun ⟨infos, layers, read⟩ hg => ?_
      exact Safe.ite (fun _ => Safe.fail) fun _ => Safe.pure hg

/-- The layer section comes after the length of the layer and mask information. -/
theorem safe_layerAndMask (hfile : D.length ≤ 2 ^ 33) (env : Env) (hp : 1 ≤ env.procs) (cfg : Config)
    (hD : SoundBlocks cfg.psb D) (o : Options) (hn : ∀ q, NestedAt D q → SectionOk o cfg D q) (fuel : Nat) (s : St)
    (hd : s.data = D) (hs : SectionOk o cfg D (s.pos + wide cfg.psb)) :
    (∀ e, readLayerAndMaskInfo env cfg o fuel s ≠ .panic e) ∧
    ∀ a s', readLayerAndMaskInfo env cfg o fuel s = .ok (a, s') → s'.data = D := by
  obtain ⟨h1, h2⟩ := safe_layerInfo hfile env hp cfg hD o hn fuel
  unfold readLayerAndMaskInfo
  have hs' : SectionOk o cfg D (s.pos + get4or8 cfg.psb) := hs
  generalize get4or8 cfg.psb = W at hs'
  simp only
  rw [P.bind_apply]
  cases h0 : readFull (W) s with
  | err e => exact ⟨(by intro e h; cases h), fun a s' e => by cases e⟩
  | panic e => exact absurd h0 (NoPanic.readFull _ s e)
  | fuel => exact ⟨(by intro e h; cases h), fun a s' e => by cases e⟩
  | ok r =>
    obtain ⟨b, t⟩ := r
    obtain ⟨b1, b2, b3, b4⟩ := field_data h0
    rw [hd] at b3
    simp only
    rw [P.ite_app]
    split
    · refine ⟨(by intro e h; cases h), fun a s' e => ?_⟩
      cases e; exact b3
    · rw [← b2] at hs'
      -- the layer section, from the position after the length
      have hfirst : ∀ (c : Prop) [Decidable c], (∀ e, (if c then readLayerInfo env cfg o fuel else
          pure (none, 0) : P (Option (List LayerRec) × Int)) t ≠ .panic e) ∧ ∀ a s', (if c then
          readLayerInfo env cfg o fuel else pure (none, 0) : P (Option (List LayerRec) × Int)) t = .ok (a, s') → s'.data = D := by
        intro c _
        rw [P.ite_app]
        split
        · exact h1 t b3 hs'
        · refine ⟨(by intro e h; cases h), fun a s' e => ?_⟩
          cases e; exact b3
      rw [P.bind_apply]
      obtain ⟨f1, f2⟩ := hfirst ((W : Int) < wrap64 (int64 (beAt b 0 (W)) + (W : Nat)))
      cases h3 : (if (W : Int) < wrap64 (int64 (beAt b 0 (W)) + (W : Nat)) then
          readLayerInfo env cfg o fuel else pure (none, 0) : P (Option (List LayerRec) × Int)) t with
      | err e => exact ⟨(by intro e h; cases h), fun a s' e => by cases e⟩
      | panic e => exact absurd h3 (f1 e)
      | fuel => exact ⟨(by intro e h; cases h), fun a s' e => by cases e⟩
      | ok r =>
        obtain ⟨⟨layer, l⟩, u⟩ := r
        have hu := f2 _ _ h3
        simp only
        have key : Safe D (do
            let l1 ← readGlobalMask (wrap64 (wrap64 (int64 (beAt b 0 (W)) + (W : Nat)) - ((W : Int) + l)))
            let read : Int := (W : Int) + l + l1
            let (infos, layer2, l) ← (if wrap64 (wrap64 (int64 (beAt b 0 (W)) + (W : Nat)) - read) ≥ 8 then
                readAdditionalLayerInfo env cfg o fuel (wrap64 (wrap64 (int64 (beAt b 0 (W)) + (W : Nat)) - read))
              else pure (GoMap.empty, [], 0))
            let read := read + l
            if layer.isSome ∧ layer2 ≠ [] then P.fail (.bad "unexpected layer structure")
            else do
              let layers := if layer2 ≠ [] then layer2 else layer.getD []
              let tree ← P.lift (buildTree LayerRec.sdType layers)
              let remain := wrap64 (wrap64 (int64 (beAt b 0 (W)) + (W : Nat)) - read)
              let l ← (if remain ≠ 0 ∧ remain < (W : Nat) then discard remain else pure 0)
              let read := read + l
              if read ≠ wrap64 (int64 (beAt b 0 (W)) + (W : Nat)) then
                P.fail (.bad "layer and mask info read size mismatched")
              else pure (({ config := cfg, layer := tree, infos := infos } : PSD), read)) fun _ => True := by
          refine Safe.bind (Q := fun _ => True) ?_ fun l _ => ?_
          · unfold readGlobalMask
            refine Safe.ite (fun _ => (safe_readAny _).bind fun b _ => Safe.ite (fun _ => ?_) fun _ => Safe.pure trivial)
              fun _ => Safe.pure trivial
            exact (safe_discard _).bind fun _ _ => Safe.pure trivial
          refine Safe.bind (Q := fun _ => True) (Safe.ite (fun _ => (h2 _).mono fun _ _ => trivial) fun _ =>
            Safe.pure trivial) fun ⟨infos, layer2, l⟩ _ => Safe.ite (fun _ => Safe.fail) fun _ => ?_
          refine Safe.bind (Q := fun _ => True) (Safe.lift (buildTree_ok _ _ _ _) fun _ _ => trivial) fun tree _ => ?_
          refine Safe.bind (Q := fun _ => True) (Safe.ite (fun _ => safe_discard _) fun _ => Safe.pure trivial) fun l _ => ?_
          exact Safe.ite (fun _ => Safe.fail) fun _ => Safe.pure trivial
        obtain ⟨k1, k2⟩ := key u hu
        exact ⟨k1, fun a s' e => (k2 a s' e).1⟩

end

end Psd
