import Verif.Lemmas.Fuel

/-
The read count that every function reports is how far the reader moved.
-/

namespace Psd

/-- Whenever `p` succeeds, the reader has moved by `r` of the result. -/
def Cnt {α : Type} (p : P α) (r : α → Int) : Prop := ∀ s a s', p s = .ok (a, s') →
  (s'.pos : Int) = s.pos + r a

namespace Cnt
variable {α β : Type}

theorem pure {a : α} {r : α → Int} (h : r a = 0) : Cnt (Pure.pure a) r := by
  intro s b s' e; cases e; omega

theorem fail {e : Err} {r : α → Int} : Cnt (P.fail e : P α) r := by intro s b s' h; cases h

theorem outOfFuel {r : α → Int} : Cnt (P.outOfFuel : P α) r := by intro s b s' h; cases h

theorem bind {p : P α} {f : α → P β} {r : α → Int} {t : β → Int} (h1 : Cnt p r)
    (h2 : ∀ a, Cnt (f a) fun b => t b - r a) : Cnt (p >>= f) t := by
  intro s b s' e
  obtain ⟨a, s₁, e1, e2⟩ := P.bind_eq_ok.1 e
  have := h1 _ _ _ e1
  have := h2 _ _ _ _ e2
  simp only at this
  omega

theorem liftBind {x : Res α} {f : α → P β} {t : β → Int} (h : ∀ a, x = .ok a → Cnt (f a) t) :
    Cnt (P.lift x >>= f) t := by
  intro s b s' e
  obtain ⟨a, s₁, e1, e2⟩ := P.bind_eq_ok.1 e
  obtain ⟨h1, rfl⟩ := P.lift_eq_ok.1 e1
  exact h a h1 _ _ _ e2

theorem readBind {k : Nat} {f : List UInt8 → P β} {t : β → Int}
    (h : ∀ b, b.length = k → Cnt (f b) fun x => t x - k) : Cnt (readFull k >>= f) t := by
  intro s b s' e
  obtain ⟨a, s₁, e1, e2⟩ := P.bind_eq_ok.1 e
  obtain ⟨_, _, hl, _, rfl, _⟩ := readFull_eq_ok e1
  have := h a hl _ _ _ e2
  simp only at this
  omega

theorem ite {c : Prop} [Decidable c] {p q : P α} {r : α → Int} (h1 : c → Cnt p r)
    (h2 : ¬c → Cnt q r) : Cnt (if c then p else q) r := by
  split
  · exact h1 ‹_›
  · exact h2 ‹_›

theorem congr {p : P α} {r t : α → Int} (h : Cnt p r) (e : ∀ a, t a = r a) : Cnt p t := by
  intro s a s' h'
  rw [e]; exact h _ _ _ h'

theorem bareRead (k : Nat) : Cnt (bareRead k) fun l => l := by
  intro s a s' e
  obtain ⟨_, m, rfl, _, _, _, rfl, _⟩ := bareRead_eq_ok e
  simp

theorem align2 (l : Int) : Cnt (adjustAlign2 l) fun l => l := by
  unfold adjustAlign2
  exact ite (fun _ => bareRead _) fun _ => pure rfl

theorem align4 (l : Int) : Cnt (adjustAlign4 l) fun l => l := by
  unfold adjustAlign4
  exact ite (fun _ => bareRead _) fun _ => pure rfl

theorem discard (n : Int) : Cnt (discard n) fun l => l := by
  intro s a s' e
  unfold Psd.discard at e
  cases hk : s.kind <;> simp only [hk] at e <;> (repeat' split at e) <;> cases e <;>
    simp only <;> omega

theorem pascal : Cnt readPascalString fun r => r.2 := by
  unfold readPascalString
  refine readBind fun b hb => ite (fun _ => pure ?_) fun _ => readBind fun c hc => pure ?_
  · simp
  · simp [hc]

theorem resBlock : Cnt readResBlock fun r => r.2.2 := by
  unfold readResBlock
  refine readBind fun b hb => ite (fun _ => fail) fun _ => bind pascal fun ⟨n, l⟩ => ?_
  refine bind (align2 _) fun l' => readBind fun b hb => readBind fun d hd => ?_
  refine bind (align2 _) fun l'' => pure ?_
  simp only [hd]; omega

theorem resLoop (total : Int) : ∀ fuel read m,
    Cnt (readResLoop total fuel read m) fun r => r.2 - read := by
  intro fuel
  induction fuel with
  | zero =>
    intro read m
    rw [readResLoop.eq_def]; simp only
    exact ite (fun _ => outOfFuel) fun _ => pure (by simp)
  | succ n ih =>
    intro read m
    rw [readResLoop.eq_def]; simp only
    refine ite (fun _ => bind resBlock fun ⟨_, _, l⟩ => (ih _ _).congr fun a => ?_) fun _ => pure (by simp)
    simp only; omega

theorem configF (n : Nat) : Cnt (decodeConfigF n) fun r => r.2 := by
  unfold decodeConfigF readImageResourceF
  refine readBind fun b hb => ?_
  refine ite (fun _ => fail) fun _ => ?_
  refine ite (fun _ => fail) fun _ => ?_
  refine ite (fun _ => fail) fun _ => ?_
  refine ite (fun _ => fail) fun _ => ?_
  refine ite (fun _ => fail) fun _ => ?_
  refine ite (fun _ => fail) fun _ => ?_
  refine readBind fun cmd hc => bind (r := fun x => x.2) ?_ fun ⟨_, _⟩ => pure ?_
  · refine readBind fun b hb => ite (fun _ => pure ?_) fun _ => (resLoop _ _ _ _).congr fun a => ?_
    · simp
    · omega
  · simp only [hc]; omega

/-! ### Layers -/

theorem maskTail (m : Mask) (ml rm read : Int) :
    Cnt (readMaskTail m ml rm read) fun r => r.2 - read := by
  unfold readMaskTail
  refine ite (fun _ => ?_) fun _ => ite (fun _ => pure (by simp)) fun _ => ?_
  · refine ite (fun _ => readBind fun b hb => pure ?_) fun _ => pure (by simp)
    simp only [hb]; omega
  · refine readBind fun b hb => ite (fun _ => pure ?_) fun _ => ?_
    · simp only; omega
    · refine readBind fun b hb => ite (fun _ => ite (fun _ => ?_) fun _ => pure ?_) fun _ => ?_
      · refine bind (discard _) fun l => pure ?_
        simp only; omega
      · simp only; omega
      · refine readBind fun b hb => pure ?_
        simp only; omega

theorem maskP8 (p : Nat) (m : Mask) (ml rm read : Int) :
    Cnt (readMaskP8 p m ml rm read) fun r => r.2 - read := by
  unfold readMaskP8
  refine ite (fun _ => ite (fun _ => ite (fun _ => ?_) fun _ => pure (by simp)) fun _ => ?_)
    fun _ => maskTail _ _ _ _
  · refine bind (discard _) fun l => pure ?_
    simp only; omega
  · refine readBind fun b hb => (maskTail _ _ _ _).congr fun a => ?_
    omega

theorem maskP4 (p : Nat) (m : Mask) (ml rm read : Int) :
    Cnt (readMaskP4 p m ml rm read) fun r => r.2 - read := by
  unfold readMaskP4
  refine ite (fun _ => ite (fun _ => pure (by simp)) fun _ => ?_) fun _ => maskP8 _ _ _ _ _
  refine readBind fun b hb => (maskP8 _ _ _ _ _).congr fun a => ?_
  omega

theorem maskP2 (p : Nat) (m : Mask) (ml rm read : Int) :
    Cnt (readMaskP2 p m ml rm read) fun r => r.2 - read := by
  unfold readMaskP2
  refine ite (fun _ => ite (fun _ => ite (fun _ => ?_) fun _ => pure (by simp)) fun _ => ?_)
    fun _ => maskP4 _ _ _ _ _
  · refine bind (discard _) fun l => pure ?_
    simp only; omega
  · refine readBind fun b hb => (maskP4 _ _ _ _ _).congr fun a => ?_
    omega

theorem maskP1 (p : Nat) (m : Mask) (ml rm read : Int) :
    Cnt (readMaskP1 p m ml rm read) fun r => r.2 - read := by
  unfold readMaskP1
  refine ite (fun _ => ite (fun _ => pure (by simp)) fun _ => ?_) fun _ => maskP2 _ _ _ _ _
  refine readBind fun b hb => (maskP2 _ _ _ _ _).congr fun a => ?_
  omega

theorem maskData (m : Mask) : Cnt (readMaskData m) fun r => r.2 := by
  unfold readMaskData
  refine readBind fun b hb => ite (fun _ => pure (by simp)) fun _ => ite (fun _ => ?_) fun _ => ?_
  · refine ite (fun _ => bind (discard _) fun l => pure ?_) fun _ => pure (by simp)
    simp only; omega
  · refine readBind fun b hb => ite (fun _ => pure ?_) fun _ => ?_
    · simp only; omega
    · refine readBind fun b hb => ite (fun _ => pure ?_) fun _ => ?_
      · simp only; omega
      · refine readBind fun b hb => ite (fun _ => ite (fun _ => pure ?_) fun _ => ?_) fun _ => ?_
        · simp only; omega
        · refine readBind fun b hb => (maskP1 _ _ _ _ _).congr fun a => ?_
          omega
        · refine (maskTail _ _ _ _).congr fun a => ?_
          omega

theorem scan (infoLen : Int) : ∀ fuel b0 read,
    Cnt (scanSig infoLen fuel b0 read) fun r => r.2 - read := by
  intro fuel
  induction fuel with
  | zero =>
    intro b0 read
    rw [scanSig.eq_def]; simp only
    exact ite (fun _ => outOfFuel) fun _ => pure (by simp)
  | succ n ih =>
    intro b0 read
    rw [scanSig.eq_def]; simp only
    refine ite (fun _ => readBind fun b hb => (ih _ _).congr fun a => ?_) fun _ => pure (by simp)
    omega

theorem addlLoop {li : P (Option (List LayerRec) × Int)} (hli : Cnt li fun r => r.2) (psb : Bool)
    (infoLen : Int) (b : Nat) : ∀ fuel infos layers read,
    Cnt (addlLoop li psb infoLen b fuel infos layers read) fun r => r.2.2 - read := by
  intro fuel
  induction fuel with
  | zero =>
    intro infos layers read
    rw [addlLoop.eq_def]; simp only
    exact ite (fun _ => outOfFuel) fun _ => pure (by simp)
  | succ n ih =>
    intro infos layers read
    rw [addlLoop.eq_def]; simp only
    refine ite (fun _ => ?_) fun _ => pure (by simp)
    refine bind (scan _ _ _ _) fun ⟨b0, read'⟩ => ite (fun _ => pure ?_) fun _ => ?_
    · simp only; omega
    refine readBind fun b hb => ite (fun _ => fail) fun _ => ite (fun _ => ?_) fun _ => ?_
    · refine bind hli fun ⟨layrs, l⟩ => (ih _ _ _).congr fun a => ?_
      simp only; omega
    · refine readBind fun b hb => ite (fun _ => liftBind fun k hk => ?_) fun _ => ?_
      · refine readBind fun d hd => (ih _ _ _).congr fun a => ?_
        simp only [hd]; omega
      · refine (ih _ _ _).congr fun a => ?_
        simp only; omega

theorem additionalWith {li : P (Option (List LayerRec) × Int)} (hli : Cnt li fun r => r.2)
    (psb : Bool) (infoLen : Int) (b : Nat) :
    Cnt (readAdditionalWith li psb infoLen b) fun r => r.2.2 := by
  unfold readAdditionalWith
  refine bind (addlLoop hli _ _ _ _ _ _ _) fun ⟨infos, layers, read⟩ => ?_
  exact ite (fun _ => fail) fun _ => pure (by simp)

theorem extraData {addl : Int → P (Infos × List LayerRec × Int)}
    (h : ∀ n, Cnt (addl n) fun r => r.2.2) (layer : LayerRec) :
    Cnt (readLayerExtraData addl layer) fun r => r.2 := by
  unfold readLayerExtraData
  refine readBind fun b hb => ite (fun _ => pure (by simp)) fun _ => ?_
  refine bind (maskData _) fun ⟨m, l⟩ => readBind fun b hb => ?_
  refine bind (r := fun l => l) (ite (fun _ => discard _) fun _ => pure rfl) fun l1 => ?_
  refine bind pascal fun ⟨nm, l2⟩ => bind (align4 _) fun l3 => ?_
  refine bind (r := fun r => r.2.2) (ite (fun _ => h _) fun _ => pure rfl) fun ⟨infos, layers, l4⟩ => ?_
  refine ite (fun _ => fail) fun _ => ite (fun _ => fail) fun _ => pure ?_
  simp only; omega

theorem channelList (k : Nat) : ∀ n, Cnt (readChannelList k n) fun _ => (n : Int) * (2 + k) := by
  intro n
  induction n with
  | zero => exact pure (by simp)
  | succ n ih =>
    refine readBind fun b hb => bind ih fun rest => pure ?_
    rw [Int.natCast_succ, Int.add_mul]; simp

theorem layerRecord {addl : Int → P (Infos × List LayerRec × Int)}
    (h : ∀ n, Cnt (addl n) fun r => r.2.2) (psb : Bool) (i : Nat) :
    Cnt (readLayerRecord addl psb i) fun r => r.2.2 := by
  unfold readLayerRecord
  refine readBind fun b hb => readBind fun b hb => bind (channelList _ _) fun chs => ?_
  refine readBind fun b hb => ite (fun _ => fail) fun _ => bind (extraData h _) fun ⟨lay, l⟩ => ?_
  refine liftBind fun lay _ => pure ?_
  simp only; omega

theorem layerRecords {addl : Int → P (Infos × List LayerRec × Int)}
    (h : ∀ n, Cnt (addl n) fun r => r.2.2) (psb : Bool) :
    ∀ n i, Cnt (readLayerRecords addl psb n i) fun r => r.2 := by
  intro n
  induction n with
  | zero => intro i; exact pure rfl
  | succ n ih =>
    intro i
    refine bind (layerRecord h psb i) fun ⟨lay, chs, l⟩ => bind (ih _) fun ⟨rest, l'⟩ => pure ?_
    simp only; omega

theorem packBits (procs : Nat) (dest : List UInt8) (w n : Nat) (large : Bool) :
    Cnt (decodePackBits procs dest w n large) fun r => r.2 := by
  unfold decodePackBits
  refine readBind fun t ht => liftBind fun tot _ => readBind fun b hb => liftBind fun d _ => pure ?_
  simp only [ht, hb]; omega

theorem zlib (env : Env) (w : Nat) (k : Int) : Cnt (decodeZLIB env w k) fun r => r.2 := by
  intro s a s' e
  obtain ⟨n, _, h, rfl, _⟩ := decodeZLIB_eq_ok e
  simp only; omega

theorem cmDecode (env : Env) (method : Int) (dest : List UInt8) (hint : Int) (rect : Rect)
    (depth ch : Nat) (large : Bool) :
    Cnt (cmDecode env method dest hint rect depth ch large) fun r => r.2 := by
  unfold Psd.cmDecode
  refine ite (fun _ => readBind fun d hd => pure (by simp [hd])) fun _ => ite (fun _ => packBits _ _ _ _ _) fun _ => ?_
  refine ite (fun _ => zlib _ _ _) fun _ => ite (fun _ => ?_) fun _ => fail
  refine bind (zlib _ _ _) fun ⟨d, l⟩ => liftBind fun _ _ => pure (by simp)

theorem channelData (env : Env) (method : Int) (n : Nat) (dataLen read0 : Int) (rect : Rect)
    (depth : Nat) (psb : Bool) :
    Cnt (readChannelData env method n dataLen read0 rect depth psb) fun r => r.2 - read0 := by
  unfold readChannelData
  refine bind (r := fun r => r.2) (ite (fun _ => cmDecode _ _ _ _ _ _ _ _) fun _ => pure rfl)
    fun ⟨d, l⟩ => ?_
  refine bind (r := fun l => l) (ite (fun _ => discard _) fun _ => pure rfl) fun l' => pure ?_
  simp only; omega

theorem channelBody (env : Env) (cfg : Config) (layer : LayerRec) (ch : ChannelData)
    (m : GoMap Int Channel) (pcs : List (List UInt8)) (method read : Int) :
    Cnt (readChannelBody env cfg layer ch m pcs method read) fun r => r.2.2 - read := by
  unfold readChannelBody
  refine liftBind fun n _ => liftBind fun pk _ => bind (channelData _ _ _ _ _ _ _ _) fun ⟨d, l⟩ => ?_
  refine ite (fun _ => fail) fun _ => liftBind fun pk _ => ite (fun _ => liftBind fun _ _ => pure ?_) fun _ => ?_
  · simp only; omega
  · refine ite (fun _ => pure ?_) fun _ => pure ?_ <;> (simp only; omega)

theorem channelImage (env : Env) (cfg : Config) (layer : LayerRec) (ch : ChannelData)
    (m : GoMap Int Channel) (pcs : List (List UInt8)) :
    Cnt (readChannelImage env cfg layer ch m pcs) fun r => r.2.2 := by
  unfold readChannelImage
  refine ite (fun _ => readBind fun b _ => (channelBody _ _ _ _ _ _ _ _).congr fun a => ?_)
    fun _ => (channelBody _ _ _ _ _ _ _ _).congr fun a => ?_
  · simp
  · simp

theorem channelImages (env : Env) (cfg : Config) (layer : LayerRec) : ∀ chs m pcs,
    Cnt (readChannelImages env cfg layer chs m pcs) fun r => r.2.2 := by
  intro chs
  induction chs with
  | nil => intro m pcs; exact pure rfl
  | cons ch chs ih =>
    intro m pcs
    refine bind (channelImage _ _ _ _ _ _) fun ⟨m, pcs, l⟩ => bind (ih _ _) fun ⟨m, pcs, l'⟩ => pure ?_
    simp only; omega

theorem layerImages (env : Env) (cfg : Config) (o : Options) (total : Nat) : ∀ recs i,
    Cnt (readLayerImages env cfg o total i recs) fun r => r.2 := by
  intro recs
  induction recs with
  | nil => intro i; exact pure rfl
  | cons x recs ih =>
    intro i
    obtain ⟨layer, chs⟩ := x
    unfold readLayerImages
    refine liftBind fun n _ => bind (channelImages _ _ _ _ _ _) fun ⟨m, pcs, l⟩ => liftBind fun pk _ => ?_
    refine bind (r := fun _ => 0) (ite (fun _ => ?_) fun _ => pure rfl) fun _ => ?_
    · intro s a s' e; cases e; simp
    · refine bind (ih _) fun ⟨ls, l'⟩ => pure ?_
      simp only; omega

theorem layerInfoWith (env : Env) (cfg : Config) (o : Options)
    {addl : Int → P (Infos × List LayerRec × Int)} (h : ∀ n, Cnt (addl n) fun r => r.2.2) :
    Cnt (readLayerInfoWith env cfg o addl) fun r => r.2 := by
  unfold readLayerInfoWith
  refine readBind fun b _ => ite (fun _ => pure (by simp)) fun _ => readBind fun b _ => ?_
  refine bind (layerRecords h _ _ _) fun ⟨recs, l⟩ => ?_
  refine bind (r := fun r => r.2) (ite (fun _ => pure rfl) fun _ => layerImages _ _ _ _ _ _)
    fun ⟨ls, l'⟩ => ?_
  refine bind (r := fun l => l) (ite (fun _ => discard _) fun _ => pure rfl) fun l'' => pure ?_
  simp only; omega

theorem layerInfo (env : Env) (cfg : Config) (o : Options) : ∀ fuel,
    Cnt (readLayerInfo env cfg o fuel) (fun r => r.2) ∧
    ∀ n, Cnt (readAdditionalLayerInfo env cfg o fuel n) fun r => r.2.2 := by
  intro fuel
  induction fuel with
  | zero =>
    refine ⟨?_, fun n => ?_⟩
    · rw [readLayerInfo]; exact outOfFuel
    · rw [readAdditionalLayerInfo]; exact outOfFuel
  | succ k ih =>
    refine ⟨?_, fun n => ?_⟩
    · rw [readLayerInfo]; exact layerInfoWith _ _ _ ih.2
    · rw [readAdditionalLayerInfo]; exact additionalWith ih.1 _ _ _

theorem globalMask (k : Int) : Cnt (readGlobalMask k) fun l => l := by
  unfold readGlobalMask
  refine ite (fun _ => readBind fun b _ => ite (fun _ => bind (discard _) fun l => pure ?_) fun _ => pure ?_)
    fun _ => pure rfl
  · omega
  · simp

theorem layerAndMask (env : Env) (cfg : Config) (o : Options) (fuel : Nat) :
    Cnt (readLayerAndMaskInfo env cfg o fuel) fun r => r.2 := by
  unfold readLayerAndMaskInfo
  refine readBind fun b _ => ite (fun _ => pure (by simp)) fun _ => ?_
  refine bind (r := fun r => r.2) (ite (fun _ => (layerInfo _ _ _ _).1) fun _ => pure rfl) fun ⟨lay, l⟩ => ?_
  refine bind (globalMask _) fun l1 => ?_
  refine bind (r := fun r => r.2.2) (ite (fun _ => (layerInfo _ _ _ _).2 _) fun _ => pure rfl)
    fun ⟨infos, lay2, l2⟩ => ?_
  refine ite (fun _ => fail) fun _ => liftBind fun tree _ => ?_
  refine bind (r := fun l => l) (ite (fun _ => discard _) fun _ => pure rfl) fun l3 => ?_
  refine ite (fun _ => fail) fun _ => pure ?_
  simp only; omega

theorem merged (env : Env) (cfg : Config) (psd : PSD) : Cnt (readMerged env cfg psd) fun r => r.2 := by
  unfold readMerged
  refine liftBind fun gk _ => liftBind fun ⟨k, pal⟩ _ => liftBind fun _ _ => readBind fun b _ => ?_
  refine bind (cmDecode _ _ _ _ _ _ _ _) fun ⟨d, l⟩ => pure ?_
  simp only; omega

theorem decodeF (env : Env) (o : Options) (m n : Nat) : Cnt (decodeF env o m n) fun r => r.2 := by
  unfold Psd.decodeF
  refine bind (configF m) fun ⟨cfg, l⟩ => ite (fun _ => fail) fun _ => ?_
  refine bind (layerAndMask _ _ _ _) fun ⟨psd, l1⟩ => ite (fun _ => pure ?_) fun _ => ?_
  · simp only; omega
  · refine bind (merged _ _ _) fun ⟨psd, l2⟩ => pure ?_
    simp only; omega

end Cnt

end Psd
