import Verif.Lemmas.Reader
import Verif.Model.Decode

/-
Postconditions of the record parsers.
-/

namespace Psd

/-- Every result of `p` satisfies `R`. -/
def Ens {α : Type} (p : P α) (R : α → Prop) : Prop := ∀ s a s', p s = .ok (a, s') → R a

namespace Ens
variable {α β : Type}

theorem pure {a : α} {R : α → Prop} (h : R a) : Ens (Pure.pure a) R := by
  intro s b s' e
  cases e; exact h

theorem bind {p : P α} {f : α → P β} {R : α → Prop} {T : β → Prop} (h₁ : Ens p R)
    (h₂ : ∀ a, R a → Ens (f a) T) : Ens (p >>= f) T := by
  intro s b s' e
  obtain ⟨a, s₁, e₁, e₂⟩ := P.bind_eq_ok.1 e
  exact h₂ a (h₁ _ _ _ e₁) _ _ _ e₂

theorem trivial (p : P α) : Ens p fun _ => True := fun _ _ _ _ => True.intro

theorem bind_any {p : P α} {f : α → P β} {T : β → Prop} (h₂ : ∀ a, Ens (f a) T) :
    Ens (p >>= f) T := bind (trivial p) fun a _ => h₂ a

theorem fail {e : Err} {R : α → Prop} : Ens (P.fail e : P α) R := by
  intro s a s' h; cases h

theorem lift {x : Res α} {R : α → Prop} (h : ∀ a, x = .ok a → R a) : Ens (P.lift x) R := by
  intro s a s' e
  exact h a (P.lift_eq_ok.1 e).1

theorem ite {c : Prop} [Decidable c] {p q : P α} {R : α → Prop} (h₁ : c → Ens p R)
    (h₂ : ¬c → Ens q R) : Ens (if c then p else q) R := by
  split
  · exact h₁ (by assumption)
  · exact h₂ (by assumption)

theorem mono {p : P α} {R T : α → Prop} (h : Ens p R) (hi : ∀ a, R a → T a) : Ens p T :=
  fun s a s' e => hi a (h s a s' e)

theorem readFull (k : Nat) : Ens (readFull k) fun b => b.length = k :=
  fun _ _ _ e => (readFull_eq_ok e).2.2.1

end Ens

/-- The rectangle is well-formed and not larger than the file format allows. -/
def Rect.Ok (r : Rect) : Prop := 0 ≤ r.dx ∧ r.dx < 2 ^ 32 ∧ 0 ≤ r.dy ∧ r.dy < 2 ^ 32

/-- All rectangles of the layer are well-formed. -/
def Mask.Ok (m : Mask) : Prop := m.rect.Ok ∧ m.realRect.Ok
def LayerRec.Ok (l : LayerRec) : Prop := l.rect.Ok ∧ l.mask.Ok

theorem int32_bounds (n : Nat) : -2 ^ 31 ≤ int32 n ∧ int32 n < 2 ^ 31 := by
  unfold int32; simp only; split <;> omega

theorem beAt_lt (b : List UInt8) (off n : Nat) : beAt b off n < 256 ^ n := by
  unfold beAt
  refine Nat.lt_of_lt_of_le (beNat_lt _) (Nat.pow_le_pow_right (by omega) ?_)
  simp; omega

theorem Rect.ok_zero : Rect.zero.Ok := by
  simp [Rect.Ok, Rect.zero, Rect.dx, Rect.dy]

theorem rectS_ok (b : List UInt8) : (rectS b).Ok := by
  have h1 := int32_bounds (beAt b 4 4)
  have h2 := int32_bounds (beAt b 0 4)
  have h3 := int32_bounds (beAt b 12 4)
  have h4 := int32_bounds (beAt b 8 4)
  simp only [rectS, Rect.make, Rect.Ok, Rect.dx, Rect.dy]
  omega

theorem rectU_ok (b : List UInt8) : (rectU b).Ok := by
  have h1 := beAt_lt b 4 4
  have h2 := beAt_lt b 0 4
  have h3 := beAt_lt b 12 4
  have h4 := beAt_lt b 8 4
  simp only [rectU, Rect.make, Rect.Ok, Rect.dx, Rect.dy]
  omega

section Masks

theorem ens_maskTail (m : Mask) (hm : m.Ok) (a b c : Int) :
    Ens (readMaskTail m a b c) fun r => r.1.Ok := by
  unfold readMaskTail
  refine Ens.ite (fun _ => Ens.ite (fun _ => Ens.bind_any fun _ => Ens.pure hm) fun _ => Ens.pure hm)
    fun _ => Ens.ite (fun _ => Ens.pure hm) fun _ => ?_
  refine Ens.bind_any fun _ => Ens.ite (fun _ => Ens.pure hm) fun _ => ?_
  refine Ens.bind_any fun _ => Ens.ite (fun _ => Ens.ite (fun _ => Ens.bind_any fun _ => Ens.pure hm)
    fun _ => Ens.pure hm) fun _ => ?_
  exact Ens.bind_any fun _ => Ens.pure ⟨hm.1, rectU_ok _⟩

theorem ens_maskP8 (p : Nat) (m : Mask) (hm : m.Ok) (a b c : Int) :
    Ens (readMaskP8 p m a b c) fun r => r.1.Ok := by
  unfold readMaskP8
  refine Ens.ite (fun _ => Ens.ite (fun _ => Ens.ite (fun _ => Ens.bind_any fun _ => Ens.pure hm)
    fun _ => Ens.pure hm) fun _ => ?_) fun _ => ens_maskTail _ (by exact hm) _ _ _
  exact Ens.bind_any fun _ => ens_maskTail _ (by exact hm) _ _ _

theorem ens_maskP4 (p : Nat) (m : Mask) (hm : m.Ok) (a b c : Int) :
    Ens (readMaskP4 p m a b c) fun r => r.1.Ok := by
  unfold readMaskP4
  refine Ens.ite (fun _ => Ens.ite (fun _ => Ens.pure hm) fun _ => ?_) fun _ => ens_maskP8 _ _ (by exact hm) _ _ _
  exact Ens.bind_any fun _ => ens_maskP8 _ _ (by exact hm) _ _ _

theorem ens_maskP2 (p : Nat) (m : Mask) (hm : m.Ok) (a b c : Int) :
    Ens (readMaskP2 p m a b c) fun r => r.1.Ok := by
  unfold readMaskP2
  refine Ens.ite (fun _ => Ens.ite (fun _ => Ens.ite (fun _ => Ens.bind_any fun _ => Ens.pure hm)
    fun _ => Ens.pure hm) fun _ => ?_) fun _ => ens_maskP4 _ _ (by exact hm) _ _ _
  exact Ens.bind_any fun _ => ens_maskP4 _ _ (by exact hm) _ _ _

theorem ens_maskP1 (p : Nat) (m : Mask) (hm : m.Ok) (a b c : Int) :
    Ens (readMaskP1 p m a b c) fun r => r.1.Ok := by
  unfold readMaskP1
  refine Ens.ite (fun _ => Ens.ite (fun _ => Ens.pure hm) fun _ => ?_) fun _ => ens_maskP2 _ _ (by exact hm) _ _ _
  exact Ens.bind_any fun _ => ens_maskP2 _ _ (by exact hm) _ _ _

theorem ens_maskData (m : Mask) (hm : m.Ok) : Ens (readMaskData m) fun r => r.1.Ok := by
  unfold readMaskData
  refine Ens.bind_any fun _ => Ens.ite (fun _ => Ens.pure hm) fun _ => ?_
  refine Ens.ite (fun _ => Ens.ite (fun _ => Ens.bind_any fun _ => Ens.pure hm)
    fun _ => Ens.pure hm) fun _ => ?_
  refine Ens.bind_any fun b => Ens.ite (fun _ => Ens.pure ⟨rectS_ok _, hm.2⟩) fun _ => ?_
  refine Ens.bind_any fun _ => Ens.ite (fun _ => Ens.pure ⟨rectS_ok _, hm.2⟩) fun _ => ?_
  refine Ens.bind_any fun _ => Ens.ite (fun _ => ?_) fun _ => ens_maskTail _ (by exact ⟨rectS_ok _, hm.2⟩) _ _ _
  refine Ens.ite (fun _ => Ens.pure ⟨rectS_ok _, hm.2⟩) fun _ => ?_
  exact Ens.bind_any fun _ => ens_maskP1 _ _ (by exact ⟨rectS_ok _, hm.2⟩) _ _ _

end Masks

theorem ens_extraData (addl : Int → P (Infos × List LayerRec × Int)) (layer : LayerRec)
    (h : layer.Ok) : Ens (readLayerExtraData addl layer) fun r =>
      r.1.Ok ∧ r.1.seqID = layer.seqID := by
  unfold readLayerExtraData
  refine Ens.bind_any fun _ => Ens.ite (fun _ => Ens.pure ⟨h, rfl⟩) fun _ => ?_
  refine Ens.bind (ens_maskData _ h.2) fun ⟨mask, l⟩ hm => ?_
  refine Ens.bind_any fun _ => Ens.bind_any fun _ => Ens.bind_any fun _ => Ens.bind_any fun _ => ?_
  refine Ens.bind_any fun _ => Ens.ite (fun _ => Ens.fail) fun _ => Ens.ite (fun _ => Ens.fail) fun _ => ?_
  exact Ens.pure ⟨⟨h.1, hm⟩, rfl⟩

theorem finishRecord_ok {l l' : LayerRec} (h : finishRecord l = .ok l') :
    l'.rect = l.rect ∧ l'.mask = l.mask ∧ l'.seqID = l.seqID := by
  unfold finishRecord at h
  obtain ⟨l₁, h₁, h⟩ := Res.bind_eq_ok.1 h
  obtain ⟨⟨t, bm, sub⟩, _, h⟩ := Res.bind_eq_ok.1 h
  have e1 : l₁.rect = l.rect ∧ l₁.mask = l.mask ∧ l₁.seqID = l.seqID := by
    split at h₁
    · obtain ⟨u, _, h₁⟩ := Res.bind_eq_ok.1 h₁
      cases h₁; exact ⟨rfl, rfl, rfl⟩
    · cases h₁; exact ⟨rfl, rfl, rfl⟩
  cases h
  simp only
  split <;> exact e1

theorem ens_layerRecord (addl : Int → P (Infos × List LayerRec × Int)) (psb : Bool) (i : Nat) :
    Ens (readLayerRecord addl psb i) fun r => r.1.Ok ∧ r.1.seqID = i := by
  unfold readLayerRecord
  refine Ens.bind_any fun _ => Ens.bind_any fun _ => Ens.bind_any fun _ => Ens.bind_any fun _ => ?_
  refine Ens.ite (fun _ => Ens.fail) fun _ => ?_
  refine Ens.bind (ens_extraData addl _ ⟨rectS_ok _, Rect.ok_zero, Rect.ok_zero⟩)
    fun ⟨layer, l⟩ hl => ?_
  refine Ens.bind (Ens.lift (R := fun l' => l'.Ok ∧ l'.seqID = i) fun l' e => ?_)
    fun l' hl' => Ens.pure hl'
  have := finishRecord_ok e
  exact ⟨⟨by rw [this.1]; exact hl.1.1, by rw [this.2.1]; exact hl.1.2⟩, by rw [this.2.2]; exact hl.2⟩

/-- Every layer record is well-formed, and the i-th one has SeqID i. -/
theorem ens_layerRecords (addl : Int → P (Infos × List LayerRec × Int)) (psb : Bool) :
    ∀ (n i : Nat), Ens (readLayerRecords addl psb n i) fun r =>
      (∀ x ∈ r.1, x.1.Ok) ∧ r.1.map (fun x => x.1.seqID) = List.range' i n := by
  intro n
  induction n with
  | zero => intro i; exact Ens.pure ⟨by simp, rfl⟩
  | succ n ih =>
    intro i
    rw [readLayerRecords]
    refine Ens.bind (ens_layerRecord addl psb i) fun ⟨layer, chs, l⟩ h1 => ?_
    refine Ens.bind (ih (i + 1)) fun ⟨rest, l'⟩ h2 => Ens.pure ⟨?_, ?_⟩
    · intro x hx
      rcases List.mem_cons.1 hx with rfl | hx
      · exact h1.1
      · exact h2.1 x hx
    · simp only [List.map_cons, List.range'_succ]
      rw [h2.2, h1.2]

end Psd
