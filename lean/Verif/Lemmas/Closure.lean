import Verif.Lemmas.Reader
import Verif.Lemmas.Ens
import Verif.Model.Decode

/-
One traversal of the decoder for all properties that are preserved by sequencing: a relation on
parsers that is closed under the building blocks holds for every function of the decoder.
-/

namespace Psd

/-- A relation between parsers that is preserved by sequencing and holds for complete reads. -/
structure CloR (Q : ∀ {α : Type}, P α → P α → Prop) : Prop where
  pure : ∀ {α : Type} (a : α), Q (Pure.pure a : P α) (Pure.pure a)
  bind : ∀ {α β : Type} {p q : P α} {f g : α → P β}, Q p q → (∀ a, Q (f a) (g a)) →
    Q (p >>= f) (q >>= g)
  fail : ∀ {α : Type} (e : Err), Q (P.fail e : P α) (P.fail e)
  readFull : ∀ k, Q (readFull k) (readFull k)

/-- The same, for all primitives except perhaps callbacks. -/
structure Clo0 (Q : ∀ {α : Type}, P α → P α → Prop) : Prop extends CloR @Q where
  lift : ∀ {α : Type} (x : Res α), x ≠ .fuel → Q (P.lift x) (P.lift x)
  align2 : ∀ l, Q (adjustAlign2 l) (adjustAlign2 l)
  discard : ∀ n, 0 ≤ n → Q (discard n) (discard n)

/-- The same, for callbacks too. -/
structure Clo (Q : ∀ {α : Type}, P α → P α → Prop) : Prop extends Clo0 @Q where
  emit : ∀ e, Q (P.emit e) (P.emit e)

/-- What is needed in addition where the recursion bound is exhausted: either both runs have the
same bound, or an exhausted bound is related to everything. -/
def FuelOk (Q : ∀ {α : Type}, P α → P α → Prop) (m n : Nat) : Prop :=
  (m = n ∧ ∀ {α : Type}, Q (P.outOfFuel : P α) P.outOfFuel) ∨
  (m ≤ n ∧ ∀ {α : Type} (q : P α), Q P.outOfFuel q)

theorem FuelOk.pred {Q : ∀ {α : Type}, P α → P α → Prop} {m n : Nat} (h : FuelOk @Q (m + 1) (n + 1)) :
    FuelOk @Q m n := by
  rcases h with ⟨h, h'⟩ | ⟨h, h'⟩
  · exact .inl ⟨by omega, h'⟩
  · exact .inr ⟨by omega, h'⟩

theorem FuelOk.succ_right {Q : ∀ {α : Type}, P α → P α → Prop} {m n : Nat}
    (h : FuelOk @Q (m + 1) n) : ∃ k, n = k + 1 := by
  rcases h with ⟨h, _⟩ | ⟨h, _⟩ <;> exact ⟨n - 1, by omega⟩

theorem FuelOk.zero {Q : ∀ {α : Type}, P α → P α → Prop} {n : Nat} (h : FuelOk @Q 0 n)
    {α : Type} (f : Nat → P α) (hf : f 0 = P.outOfFuel) : Q P.outOfFuel (f n) := by
  rcases h with ⟨h, h'⟩ | ⟨_, h'⟩
  · subst h; rw [hf]; exact h'
  · exact h' _

theorem FuelOk.same {Q : ∀ {α : Type}, P α → P α → Prop} {n : Nat}
    (h : ∀ {α : Type}, Q (P.outOfFuel : P α) P.outOfFuel) : FuelOk @Q n n := .inl ⟨rfl, h⟩

section
variable {Q : ∀ {α : Type}, P α → P α → Prop} (C : Clo0 @Q)
include C

omit C in
theorem Clo.ite {α : Type} {c : Prop} [Decidable c] {p q p' q' : P α} (h₁ : c → Q p p')
    (h₂ : ¬c → Q q q') : Q (if c then p else q) (if c then p' else q') := by
  split
  · exact h₁ (by assumption)
  · exact h₂ (by assumption)

/-- A pure computation followed by something that may use that it succeeded. -/
theorem Clo0.liftBind {α β : Type} {x : Res α} {f g : α → P β} (hx : x ≠ .fuel)
    (h : ∀ a, x = .ok a → Q (f a) (g a)) : Q (P.lift x >>= f) (P.lift x >>= g) := by
  cases x with
  | ok a => exact h a rfl
  | err e =>
    have e1 : (P.lift (.err e) >>= f : P β) = P.fail e := rfl
    have e2 : (P.lift (.err e) >>= g : P β) = P.fail e := rfl
    rw [e1, e2]; exact C.fail e
  | panic p =>
    have e1 : (P.lift (.panic p) >>= f : P β) = P.lift (.panic p) := rfl
    have e2 : (P.lift (.panic p) >>= g : P β) = P.lift (.panic p) := rfl
    rw [e1, e2]; exact C.lift _ (by simp)
  | fuel => exact absurd rfl hx

/-- Sequencing where the second step may use a postcondition of the first. -/
theorem Clo0.bindEns {α β : Type} {p q : P α} {f g : α → P β} {R : α → Prop} (hp : Ens p R)
    (hq : Ens q R) (h : Q p q) (hf : ∀ a, R a → Q (f a) (g a)) : Q (p >>= f) (q >>= g) := by
  classical
  have e : ∀ (p : P α) (f : α → P β), Ens p R → (p >>= f) =
      (p >>= fun a => if R a then f a else P.fail .user) := by
    intro p f hp
    funext s
    simp only [P.bind_apply]
    cases h : p s with
    | ok r => simp only; rw [if_pos (hp _ _ _ h)]
    | _ => rfl
  rw [e p f hp, e q g hq]
  refine C.bind h fun a => ?_
  by_cases hR : R a
  · simp only [hR, if_true]; exact hf a hR
  · simp only [hR, if_false]; exact C.fail _

theorem Clo0.pascal : Q readPascalString readPascalString := by
  unfold readPascalString
  refine C.bind (C.readFull _) fun b => Clo.ite (fun _ => C.pure _) fun _ => ?_
  exact C.bind (C.readFull _) fun b => C.pure _

theorem Clo0.resBlock : Q readResBlock readResBlock := by
  unfold readResBlock
  refine C.bind (C.readFull _) fun b => Clo.ite (fun _ => C.fail _) fun _ => ?_
  refine C.bind C.pascal fun ⟨name, l⟩ => C.bind (C.align2 _) fun l => ?_
  refine C.bind (C.readFull _) fun b => C.bind (C.readFull _) fun data => ?_
  exact C.bind (C.align2 _) fun l => C.pure _

theorem Clo0.resLoop (total : Int) : ∀ (m n : Nat), FuelOk @Q m n → ∀ (read : Int) (r : ResMap),
    Q (readResLoop total m read r) (readResLoop total n read r) := by
  intro m
  induction m with
  | zero =>
    intro n h read r
    rw [readResLoop.eq_def total _ read r, readResLoop.eq_def total n read r]
    refine Clo.ite (fun _ => ?_) (fun _ => C.pure _)
    rcases h with ⟨h, h'⟩ | ⟨_, h'⟩
    · subst h; exact h'
    · exact h' _
  | succ m ih =>
    intro n h read r
    obtain ⟨n, rfl⟩ := h.succ_right
    rw [readResLoop.eq_def total _ read r, readResLoop.eq_def total (n + 1) read r]
    refine Clo.ite (fun _ => ?_) (fun _ => C.pure _)
    exact C.bind C.resBlock fun ⟨id, res, l⟩ => ih n h.pred _ _

/-- `readImageResource` with an explicit recursion bound. -/
def readImageResourceF (fuel : Nat) : P (ResMap × Int) := do
  let b ← readFull 4
  let read : Int := 4
  let imageResourceLen : Int := beAt b 0 4
  if imageResourceLen = 0 then pure (GoMap.empty, read)
  else readResLoop imageResourceLen fuel read GoMap.empty

omit C in
theorem readImageResource_eq (s : St) :
    readImageResource s = readImageResourceF (s.data.length + 1) s := rfl

theorem Clo0.imageResource {m n : Nat} (h : FuelOk @Q m n) :
    Q (readImageResourceF m) (readImageResourceF n) := by
  unfold readImageResourceF
  refine C.bind (C.readFull _) fun b => Clo.ite (fun _ => C.pure _) fun _ => ?_
  exact C.resLoop _ _ _ h _ _

/-- `decodeConfig` with an explicit recursion bound. -/
def decodeConfigF (fuel : Nat) : P (Config × Int) := do
  let b ← readFull 30
  let read : Int := 30
  if b.take 4 ≠ headerSignature then P.fail (.bad "invalid format")
  else
    let version := beAt b 4 2
    if version ≠ 1 ∧ version ≠ 2 then P.fail (.bad "unexpected file version")
    else
      let channels := beAt b 12 2
      if channels < 1 ∨ channels > 56 then P.fail (.bad "unexpected the number of channels")
      else
        let width := beAt b 18 4
        let height := beAt b 14 4
        if height < 1 ∨ (version = 1 ∧ height > 30000) ∨ (version = 2 ∧ height > 300000) then
          P.fail (.bad "unexpected the height of the image")
        else if width < 1 ∨ (version = 1 ∧ width > 30000) ∨ (version = 2 ∧ width > 300000) then
          P.fail (.bad "unexpected the width of the image")
        else
          let depth := beAt b 22 2
          if depth ≠ 1 ∧ depth ≠ 8 ∧ depth ≠ 16 ∧ depth ≠ 32 then
            P.fail (.bad "unexpected color depth")
          else do
            let colorMode := int16 (beAt b 24 2)
            let ln := beAt b 26 4
            let cmd ← readFull ln
            let read := read + cmd.length
            let (res, l) ← readImageResourceF fuel
            let read := read + l
            pure ({ version := version, rect := Rect.make 0 0 width height, channels := channels,
                    depth := depth, colorMode := colorMode, colorModeData := cmd, res := res },
                  read)

theorem Clo0.decodeConfig {m n : Nat} (h : FuelOk @Q m n) :
    Q (decodeConfigF m) (decodeConfigF n) := by
  unfold decodeConfigF
  refine C.bind (C.readFull _) fun b => ?_
  refine Clo.ite (fun _ => C.fail _) fun _ => ?_
  refine Clo.ite (fun _ => C.fail _) fun _ => ?_
  refine Clo.ite (fun _ => C.fail _) fun _ => ?_
  refine Clo.ite (fun _ => C.fail _) fun _ => ?_
  refine Clo.ite (fun _ => C.fail _) fun _ => ?_
  refine Clo.ite (fun _ => C.fail _) fun _ => ?_
  refine C.bind (C.readFull _) fun cmd => ?_
  exact C.bind (C.imageResource h) fun ⟨res, l⟩ => C.pure _

theorem Clo0.maskTail (m : Mask) (a b c : Int) :
    Q (readMaskTail m a b c) (readMaskTail m a b c) := by
  unfold readMaskTail
  refine Clo.ite (fun _ => Clo.ite (fun _ => C.bind (C.readFull _) fun _ => C.pure _)
    fun _ => C.pure _) fun _ => Clo.ite (fun _ => C.pure _) fun _ => ?_
  refine C.bind (C.readFull _) fun _ => Clo.ite (fun _ => C.pure _) fun _ => ?_
  refine C.bind (C.readFull _) fun _ => Clo.ite (fun _ => ?_) fun _ => ?_
  · exact Clo.ite (fun _ => C.bind (C.discard _ (by omega)) fun _ => C.pure _) fun _ => C.pure _
  · exact C.bind (C.readFull _) fun _ => C.pure _

theorem Clo0.maskP8 (p : Nat) (m : Mask) (a b c : Int) :
    Q (readMaskP8 p m a b c) (readMaskP8 p m a b c) := by
  unfold readMaskP8
  refine Clo.ite (fun _ => Clo.ite (fun _ => ?_) fun _ => ?_) fun _ => C.maskTail _ _ _ _
  · exact Clo.ite (fun _ => C.bind (C.discard _ (by omega)) fun _ => C.pure _) fun _ => C.pure _
  · exact C.bind (C.readFull _) fun _ => C.maskTail _ _ _ _

theorem Clo0.maskP4 (p : Nat) (m : Mask) (a b c : Int) :
    Q (readMaskP4 p m a b c) (readMaskP4 p m a b c) := by
  unfold readMaskP4
  refine Clo.ite (fun _ => Clo.ite (fun _ => C.pure _) fun _ => ?_) fun _ => C.maskP8 _ _ _ _ _
  exact C.bind (C.readFull _) fun _ => C.maskP8 _ _ _ _ _

theorem Clo0.maskP2 (p : Nat) (m : Mask) (a b c : Int) :
    Q (readMaskP2 p m a b c) (readMaskP2 p m a b c) := by
  unfold readMaskP2
  refine Clo.ite (fun _ => Clo.ite (fun _ => ?_) fun _ => ?_) fun _ => C.maskP4 _ _ _ _ _
  · exact Clo.ite (fun _ => C.bind (C.discard _ (by omega)) fun _ => C.pure _) fun _ => C.pure _
  · exact C.bind (C.readFull _) fun _ => C.maskP4 _ _ _ _ _

theorem Clo0.maskP1 (p : Nat) (m : Mask) (a b c : Int) :
    Q (readMaskP1 p m a b c) (readMaskP1 p m a b c) := by
  unfold readMaskP1
  refine Clo.ite (fun _ => Clo.ite (fun _ => C.pure _) fun _ => ?_) fun _ => C.maskP2 _ _ _ _ _
  exact C.bind (C.readFull _) fun _ => C.maskP2 _ _ _ _ _

theorem Clo0.maskData (m : Mask) : Q (readMaskData m) (readMaskData m) := by
  unfold readMaskData
  refine C.bind (C.readFull _) fun _ => Clo.ite (fun _ => C.pure _) fun _ => ?_
  refine Clo.ite (fun _ => ?_) fun _ => ?_
  · exact Clo.ite (fun _ => C.bind (C.discard _ (by omega)) fun _ => C.pure _) fun _ => C.pure _
  refine C.bind (C.readFull _) fun _ => Clo.ite (fun _ => C.pure _) fun _ => ?_
  refine C.bind (C.readFull _) fun _ => Clo.ite (fun _ => C.pure _) fun _ => ?_
  refine C.bind (C.readFull _) fun _ => Clo.ite (fun _ => ?_) fun _ => C.maskTail _ _ _ _
  refine Clo.ite (fun _ => C.pure _) fun _ => ?_
  exact C.bind (C.readFull _) fun _ => C.maskP1 _ _ _ _ _

theorem Clo0.scan (infoLen : Int) : ∀ (m n : Nat), FuelOk @Q m n → ∀ (b0 : UInt8) (read : Int),
    Q (scanSig infoLen m b0 read) (scanSig infoLen n b0 read) := by
  intro m
  induction m with
  | zero =>
    intro n h b0 read
    rw [scanSig.eq_def infoLen _ b0 read, scanSig.eq_def infoLen n b0 read]
    refine Clo.ite (fun _ => ?_) (fun _ => C.pure _)
    rcases h with ⟨h, h'⟩ | ⟨_, h'⟩
    · subst h; exact h'
    · exact h' _
  | succ m ih =>
    intro n h b0 read
    obtain ⟨n, rfl⟩ := h.succ_right
    rw [scanSig.eq_def infoLen _ b0 read, scanSig.eq_def infoLen (n + 1) b0 read]
    refine Clo.ite (fun _ => ?_) (fun _ => C.pure _)
    exact C.bind (C.readFull _) fun _ => ih n h.pred _ _

theorem Clo0.addlLoop {li li' : P (Option (List LayerRec) × Int)} (hli : Q li li') (psb : Bool)
    (infoLen : Int) {b b' : Nat} (hb : FuelOk @Q b b') : ∀ (m n : Nat), FuelOk @Q m n →
    ∀ (infos : Infos) (layers : List LayerRec) (read : Int),
    Q (addlLoop li psb infoLen b m infos layers read)
      (addlLoop li' psb infoLen b' n infos layers read) := by
  intro m
  induction m with
  | zero =>
    intro n h infos layers read
    rw [addlLoop.eq_def li, addlLoop.eq_def li']
    refine Clo.ite (fun _ => ?_) (fun _ => C.pure _)
    rcases h with ⟨h, h'⟩ | ⟨_, h'⟩
    · subst h; exact h'
    · exact h' _
  | succ m ih =>
    intro n h infos layers read
    obtain ⟨n, rfl⟩ := h.succ_right
    rw [addlLoop.eq_def li, addlLoop.eq_def li']
    refine Clo.ite (fun _ => ?_) (fun _ => C.pure _)
    refine C.bind (C.scan _ _ _ hb _ _) fun ⟨b0, read⟩ => ?_
    refine Clo.ite (fun _ => C.pure _) fun _ => ?_
    refine C.bind (C.readFull _) fun b => Clo.ite (fun _ => C.fail _) fun _ => ?_
    refine Clo.ite (fun _ => ?_) fun _ => ?_
    · exact C.bind hli fun ⟨layrs, l⟩ => ih n h.pred _ _ _
    · refine C.bind (C.readFull _) fun b => Clo.ite (fun _ => ?_) fun _ => ih n h.pred _ _ _
      refine C.bind (C.lift _ ?_) fun k => C.bind (C.readFull _) fun data => ih n h.pred _ _ _
      simp only [goMake]; split <;> simp

theorem Clo0.additionalWith {li li' : P (Option (List LayerRec) × Int)} (hli : Q li li')
    (psb : Bool) (infoLen : Int) {m n : Nat} (h : FuelOk @Q m n) :
    Q (readAdditionalWith li psb infoLen m) (readAdditionalWith li' psb infoLen n) := by
  unfold readAdditionalWith
  refine C.bind (C.addlLoop hli psb infoLen h m n h _ _ _) fun ⟨infos, layers, read⟩ => ?_
  exact Clo.ite (fun _ => C.fail _) fun _ => C.pure _

/-- Relations for which also the alignment to four bytes is a primitive. -/
theorem Clo0.extraData (h4 : ∀ l, Q (adjustAlign4 l) (adjustAlign4 l))
    {addl addl' : Int → P (Infos × List LayerRec × Int)} (h : ∀ n, Q (addl n) (addl' n))
    (layer : LayerRec) : Q (readLayerExtraData addl layer) (readLayerExtraData addl' layer) := by
  unfold readLayerExtraData
  refine C.bind (C.readFull _) fun _ => Clo.ite (fun _ => C.pure _) fun _ => ?_
  refine C.bind (C.maskData _) fun ⟨mask, l⟩ => C.bind (C.readFull _) fun b => ?_
  refine C.bind (Clo.ite (fun _ => C.discard _ (by omega)) fun _ => C.pure _) fun l => ?_
  refine C.bind C.pascal fun ⟨name, l⟩ => C.bind (h4 _) fun l => ?_
  refine C.bind (Clo.ite (fun _ => h _) fun _ => C.pure _) fun ⟨infos, layers, l⟩ => ?_
  exact Clo.ite (fun _ => C.fail _) fun _ => Clo.ite (fun _ => C.fail _) fun _ => C.pure _

theorem Clo0.channelList (k : Nat) : ∀ n, Q (readChannelList k n) (readChannelList k n) := by
  intro n
  induction n with
  | zero => exact C.pure _
  | succ n ih =>
    rw [readChannelList]
    exact C.bind (C.readFull _) fun _ => C.bind ih fun _ => C.pure _

omit C in
theorem readUnits_nofuel (b : List UInt8) : ∀ n i, readUnits b n i ≠ .fuel := by
  intro n
  induction n with
  | zero => intro i; simp [readUnits]
  | succ n ih =>
    intro i
    rw [readUnits]
    simp only [readUint16]
    split
    · simp only [Res.ok_bind]
      cases h : readUnits b n (i + 1) with
      | fuel => exact absurd h (ih _)
      | _ => simp
    · simp

omit C in
theorem readUnicodeString_nofuel (b : List UInt8) : readUnicodeString b ≠ .fuel := by
  simp only [readUnicodeString, readUint32]
  split
  · simp only [Res.ok_bind]
    cases h : readUnits b (beNat (List.take 4 (List.drop 0 b))) 0 <;> simp
    exact readUnits_nofuel _ _ _ h
  · simp

omit C in
theorem sectionDivider_nofuel (b : List UInt8) : sectionDivider b ≠ .fuel := by
  simp only [sectionDivider, readUint32]
  repeat' (first | split | simp)

omit C in
theorem finishRecord_nofuel (layer : LayerRec) : finishRecord layer ≠ .fuel := by
  unfold finishRecord
  have hs : ∀ i, readSectionDividerSetting i ≠ .fuel := by
    intro i; unfold readSectionDividerSetting
    split
    · exact sectionDivider_nofuel _
    · split
      · exact sectionDivider_nofuel _
      · simp
  have key : ∀ (l : LayerRec), (do
      let (typ, bm, sub) ← readSectionDividerSetting l.infos
      Res.ok { l with
        sdType := typ
        sdBlendMode := if bm = [] then l.blendMode else bm
        sdSubType := sub
        infos := l.infos.del keyLsct }) ≠ .fuel := by
    intro l
    cases h : readSectionDividerSetting l.infos with
    | fuel => exact absurd h (hs _)
    | _ => simp
  split
  · cases h : readUnicodeString _ with
    | fuel => exact absurd h (readUnicodeString_nofuel _)
    | ok u => simp only [Res.ok_bind]; exact key _
    | _ => simp
  · simp only [Res.ok_bind]; exact key _

/-- What the traversal needs to know about reading the extra data of a layer. -/
def ExtraOk (Q : ∀ {α : Type}, P α → P α → Prop) : Prop :=
  ∀ {addl addl' : Int → P (Infos × List LayerRec × Int)}, (∀ n, Q (addl n) (addl' n)) →
    ∀ layer, Q (readLayerExtraData addl layer) (readLayerExtraData addl' layer)

/-- The same for the calls that occur. -/
def ExtraAt (Q : ∀ {α : Type}, P α → P α → Prop) (env : Env) (cfg : Config) (o : Options) : Prop :=
  ∀ m n, FuelOk @Q m n →
    (∀ k, Q (readAdditionalLayerInfo env cfg o m k) (readAdditionalLayerInfo env cfg o n k)) →
    ∀ layer, Q (readLayerExtraData (readAdditionalLayerInfo env cfg o m) layer)
      (readLayerExtraData (readAdditionalLayerInfo env cfg o n) layer)

/-- What the traversal needs to know about reading one channel picture. -/
def ChannelOk (Q : ∀ {α : Type}, P α → P α → Prop) (env : Env) (cfg : Config) : Prop :=
  ∀ layer ch m pcs, layer.Ok → Q (readChannelImage env cfg layer ch m pcs)
    (readChannelImage env cfg layer ch m pcs)

theorem Clo0.layerRecord {addl addl' : Int → P (Infos × List LayerRec × Int)}
    (hx : ∀ layer, Q (readLayerExtraData addl layer) (readLayerExtraData addl' layer)) (psb : Bool) (i : Nat) :
    Q (readLayerRecord addl psb i) (readLayerRecord addl' psb i) := by
  unfold readLayerRecord
  refine C.bind (C.readFull _) fun _ => C.bind (C.readFull _) fun _ => ?_
  refine C.bind (C.channelList _ _) fun _ => C.bind (C.readFull _) fun _ => ?_
  refine Clo.ite (fun _ => C.fail _) fun _ => C.bind (hx _) fun ⟨layer, l⟩ => ?_
  exact C.bind (C.lift _ (finishRecord_nofuel _)) fun _ => C.pure _

theorem Clo0.layerRecords {addl addl' : Int → P (Infos × List LayerRec × Int)}
    (hx : ∀ layer, Q (readLayerExtraData addl layer) (readLayerExtraData addl' layer)) (psb : Bool) : ∀ (n i : Nat),
    Q (readLayerRecords addl psb n i) (readLayerRecords addl' psb n i) := by
  intro n
  induction n with
  | zero => intro i; exact C.pure _
  | succ n ih =>
    intro i
    rw [readLayerRecords, readLayerRecords]
    refine C.bind (C.layerRecord hx psb i) fun ⟨layer, chs, l⟩ => ?_
    exact C.bind (ih _) fun _ => C.pure _

theorem Clo0.channelImages {env : Env} {cfg : Config} (hc : ChannelOk @Q env cfg)
    (layer : LayerRec) (hlay : layer.Ok) : ∀ chs m pcs,
    Q (readChannelImages env cfg layer chs m pcs) (readChannelImages env cfg layer chs m pcs) := by
  intro chs
  induction chs with
  | nil => intro m pcs; exact C.pure _
  | cons ch chs ih =>
    intro m pcs
    rw [readChannelImages]
    refine C.bind (hc _ _ _ _ hlay) fun ⟨m, pcs, l⟩ => ?_
    exact C.bind (ih _ _) fun _ => C.pure _

omit C in
theorem setSource_nofuel (k : PickerKind) (r : Rect) (src : List (List UInt8)) :
    k.setSource r src ≠ .fuel := by
  unfold PickerKind.setSource; split <;> simp

omit C in
theorem goMake_nofuel (n : Int) : goMake n ≠ .fuel := by
  unfold goMake; split <;> simp

omit C in
theorem Clo.layerImages (C : Clo @Q) {env : Env} {cfg : Config} (hc : ChannelOk @Q env cfg) (o : Options)
    (total : Nat) : ∀ recs i, (∀ x ∈ recs, x.1.Ok) →
    Q (readLayerImages env cfg o total i recs) (readLayerImages env cfg o total i recs) := by
  intro recs
  induction recs with
  | nil => intro i _; exact C.pure _
  | cons rc recs ih =>
    intro i hok
    obtain ⟨layer, chs⟩ := rc
    rw [readLayerImages]
    refine C.bind (C.lift _ (goMake_nofuel _)) fun n => ?_
    refine C.bind (C.channelImages hc _ (hok (_, _) (List.mem_cons_self ..)) _ _ _) fun ⟨m, pcs, l⟩ => ?_
    refine C.bind (C.lift _ ?_) fun pk => ?_
    · split
      · simp
      · exact setSource_nofuel _ _ _
    refine C.bind (Clo.ite (fun _ => C.emit _) fun _ => C.pure _) fun _ => ?_
    exact C.bind (ih _ fun x hx => hok x (by simp [hx])) fun _ => C.pure _

omit C in
theorem Clo.layerInfoWith (C : Clo @Q) {env : Env} {cfg : Config} (hc : ChannelOk @Q env cfg)
    (o : Options) {addl addl' : Int → P (Infos × List LayerRec × Int)}
    (hx : ∀ layer, Q (readLayerExtraData addl layer) (readLayerExtraData addl' layer)) :
    Q (readLayerInfoWith env cfg o addl) (readLayerInfoWith env cfg o addl') := by
  unfold readLayerInfoWith
  refine C.bind (C.readFull _) fun _ => Clo.ite (fun _ => C.pure _) fun _ => ?_
  refine C.bind (C.readFull _) fun _ => C.bindEns (ens_layerRecords _ _ _ _)
    (ens_layerRecords _ _ _ _) (C.layerRecords hx _ _ _) fun ⟨recs, l⟩ hok => ?_
  refine C.bind (Clo.ite (fun _ => C.pure _) fun _ => C.layerImages hc _ _ _ _ hok.1) fun ⟨layers, l⟩ => ?_
  exact C.bind (Clo.ite (fun _ => C.discard _ (by omega)) fun _ => C.pure _) fun _ => C.pure _

omit C in
theorem Clo.layerInfo (C : Clo @Q) {env : Env} {cfg : Config} {o : Options} (hx : ExtraAt @Q env cfg o)
    (hc : ChannelOk @Q env cfg) : ∀ (m n : Nat), FuelOk @Q m n →
    Q (readLayerInfo env cfg o m) (readLayerInfo env cfg o n) ∧
    ∀ k, Q (readAdditionalLayerInfo env cfg o m k) (readAdditionalLayerInfo env cfg o n k) := by
  intro m
  induction m with
  | zero =>
    intro n h
    constructor
    · rw [readLayerInfo]
      exact h.zero (fun n => readLayerInfo env cfg o n) (by rw [readLayerInfo])
    · intro k
      rw [readAdditionalLayerInfo]
      exact h.zero (fun n => readAdditionalLayerInfo env cfg o n k) (by rw [readAdditionalLayerInfo])
  | succ m ih =>
    intro n h
    obtain ⟨n, rfl⟩ := h.succ_right
    obtain ⟨ih1, ih2⟩ := ih n h.pred
    constructor
    · rw [readLayerInfo, readLayerInfo]
      exact C.layerInfoWith hc o (hx m n h.pred ih2)
    · intro k
      rw [readAdditionalLayerInfo, readAdditionalLayerInfo]
      exact C.additionalWith ih1 _ _ h

theorem Clo0.globalMask (k : Int) : Q (readGlobalMask k) (readGlobalMask k) := by
  unfold readGlobalMask
  refine Clo.ite (fun _ => C.bind (C.readFull _) fun _ => ?_) fun _ => C.pure _
  exact Clo.ite (fun _ => C.bind (C.discard _ (by omega)) fun _ => C.pure _) fun _ => C.pure _

/-- layer.go:177-190: the last step of `readLayerAndMaskInfo`. -/
def lmFinish (cfg : Config) (total read : Int) (tree : List (LTree LayerRec)) (infos : Infos) :
    P (PSD × Int) := do
  let remain := wrap64 (total - read)
  let l ← (if remain ≠ 0 ∧ remain < get4or8 cfg.psb then discard remain else pure 0)
  let read := read + l
  if read ≠ total then P.fail (.bad "layer and mask info read size mismatched")
  else pure ({ config := cfg, layer := tree, infos := infos }, read)

omit C in
theorem buildTreeLoop_nofuel {α : Type} (typ : α → Nat) : ∀ ls st n,
    buildTreeLoop typ ls st n ≠ .fuel := by
  intro ls
  induction ls with
  | nil => intro st n; simp [buildTreeLoop]
  | cons l ls ih =>
    intro st n
    rw [buildTreeLoop.eq_def]
    simp only
    split
    · split
      · simp
      · exact ih _ _
    · split
      · exact ih _ _
      · exact ih _ _

omit C in
theorem Clo.layerAndMaskInfoAt (C : Clo @Q) {env : Env} {cfg : Config} {o : Options} (hx : ExtraAt @Q env cfg o)
    (hc : ChannelOk @Q env cfg)
    (hfin : ∀ total read tree infos, Q (lmFinish cfg total read tree infos)
      (lmFinish cfg total read tree infos)) {m n : Nat} (h : FuelOk @Q m n) :
    Q (readLayerAndMaskInfo env cfg o m) (readLayerAndMaskInfo env cfg o n) := by
  obtain ⟨h1, h2⟩ := C.layerInfo hx hc m n h
  unfold readLayerAndMaskInfo
  refine C.bind (C.readFull _) fun _ => Clo.ite (fun _ => C.pure _) fun _ => ?_
  refine C.bind (Clo.ite (fun _ => h1) fun _ => C.pure _) fun ⟨layer, l⟩ => ?_
  refine C.bind (C.globalMask _) fun l => ?_
  refine C.bind (Clo.ite (fun _ => h2 _) fun _ => C.pure _) fun ⟨infos, layer2, l⟩ => ?_
  refine Clo.ite (fun _ => C.fail _) fun _ => ?_
  refine C.bind (C.lift _ (buildTreeLoop_nofuel _ _ _ _)) fun tree => ?_
  exact hfin _ _ _ _

omit C in
theorem Clo.layerAndMaskInfo (C : Clo @Q) (hx : ExtraOk @Q) {env : Env} {cfg : Config}
    (hc : ChannelOk @Q env cfg) (o : Options)
    (hfin : ∀ total read tree infos, Q (lmFinish cfg total read tree infos)
      (lmFinish cfg total read tree infos)) {m n : Nat} (h : FuelOk @Q m n) :
    Q (readLayerAndMaskInfo env cfg o m) (readLayerAndMaskInfo env cfg o n) :=
  C.layerAndMaskInfoAt (fun _ _ _ ha layer => hx ha layer) hc hfin h

/-- Relations that also accept every pure computation. -/
def LiftOk (Q : ∀ {α : Type}, P α → P α → Prop) : Prop :=
  ∀ {α : Type} (x : Res α), Q (P.lift x) (P.lift x)

omit C in
theorem CloR.packBits (C : CloR @Q) (hl : LiftOk @Q) (procs : Nat) (dest : List UInt8) (w n : Nat) (large : Bool) :
    Q (decodePackBits procs dest w n large) (decodePackBits procs dest w n large) := by
  unfold decodePackBits
  refine C.bind (C.readFull _) fun tbl => C.bind (hl _) fun total => ?_
  refine C.bind (C.readFull _) fun buf => C.bind (hl _) fun d => C.pure _

omit C in
/-- Raw and RLE data. -/
theorem CloR.cmDecodeNoZip (C : CloR @Q) (hl : LiftOk @Q) (env : Env) {method : Int} (h2 : method ≠ 2)
    (h3 : method ≠ 3) (dest : List UInt8) (hint : Int) (rect : Rect) (depth ch : Nat)
    (large : Bool) : Q (cmDecode env method dest hint rect depth ch large)
      (cmDecode env method dest hint rect depth ch large) := by
  unfold cmDecode
  refine Clo.ite (fun _ => C.bind (C.readFull _) fun _ => C.pure _) fun _ => ?_
  refine Clo.ite (fun _ => C.packBits hl _ _ _ _ _) fun _ => ?_
  rw [if_neg h2, if_neg h3]
  exact C.fail _

theorem Clo0.cmDecode (hl : LiftOk @Q) (env : Env)
    (hz : ∀ w k, Q (decodeZLIB env w k) (decodeZLIB env w k)) (method : Int)
    (dest : List UInt8) (hint : Int) (rect : Rect) (depth ch : Nat)
    (large : Bool) : Q (cmDecode env method dest hint rect depth ch large)
      (cmDecode env method dest hint rect depth ch large) := by
  unfold Psd.cmDecode
  refine Clo.ite (fun _ => C.bind (C.readFull _) fun _ => C.pure _) fun _ => ?_
  refine Clo.ite (fun _ => C.packBits hl _ _ _ _ _) fun _ => ?_
  refine Clo.ite (fun _ => hz _ _) fun _ => ?_
  refine Clo.ite (fun _ => C.bind (hz _ _) fun _ => C.bind (hl _) fun _ => C.pure _) fun _ => ?_
  exact C.fail _

/-- What the traversal needs to know about the data of one channel. -/
def ChannelDataOk (Q : ∀ {α : Type}, P α → P α → Prop) (env : Env) : Prop :=
  ∀ method n dataLen read0 rect depth psb, (dataLen > 2 → read0 = 2) →
    rect.Ok → goMake (planeSize rect depth) = .ok n →
    Q (readChannelData env method n dataLen read0 rect depth psb)
      (readChannelData env method n dataLen read0 rect depth psb)

theorem Clo0.channelDataNoZip (hl : LiftOk @Q) (env : Env) {method : Int} (h2 : method ≠ 2)
    (h3 : method ≠ 3) (n : Nat) (dataLen read0 : Int) (rect : Rect) (depth : Nat) (psb : Bool) :
    Q (readChannelData env method n dataLen read0 rect depth psb)
      (readChannelData env method n dataLen read0 rect depth psb) := by
  unfold readChannelData
  refine C.bind (Clo.ite (fun _ => C.cmDecodeNoZip hl env h2 h3 _ _ _ _ _ _) fun _ => C.pure _)
    fun ⟨data, l⟩ => ?_
  exact C.bind (Clo.ite (fun _ => C.discard _ (by omega)) fun _ => C.pure _) fun _ => C.pure _

theorem Clo0.channelDataShort (env : Env) (method : Int) (n : Nat) {dataLen : Int}
    (h : ¬ dataLen > 2) (read0 : Int) (rect : Rect) (depth : Nat) (psb : Bool) :
    Q (readChannelData env method n dataLen read0 rect depth psb)
      (readChannelData env method n dataLen read0 rect depth psb) := by
  unfold readChannelData
  rw [if_neg h]
  refine C.bind (C.pure _) fun ⟨data, l⟩ => ?_
  exact C.bind (Clo.ite (fun _ => C.discard _ (by omega)) fun _ => C.pure _) fun _ => C.pure _

theorem Clo0.channelDataAll (hl : LiftOk @Q) (env : Env)
    (hz : ∀ w k, Q (decodeZLIB env w k) (decodeZLIB env w k)) : ChannelDataOk @Q env := by
  intro method n dataLen read0 rect depth psb _ _ _
  unfold readChannelData
  refine C.bind (Clo.ite (fun _ => C.cmDecode hl env hz _ _ _ _ _ _ _) fun _ => C.pure _)
    fun ⟨data, l⟩ => ?_
  exact C.bind (Clo.ite (fun _ => C.discard _ (by omega)) fun _ => C.pure _) fun _ => C.pure _

omit C in
theorem goIndex_nofuel {α : Type} (l : List α) (i : Nat) : goIndex l i ≠ .fuel := by
  unfold goIndex; split <;> simp

theorem Clo0.channelImage {env : Env} (hd : ChannelDataOk @Q env) (cfg : Config) :
    ChannelOk @Q env cfg := by
  intro layer ch m pcs hlay
  have hrect : (channelRect layer ch.chIndex).Ok := by
    unfold channelRect; split
    · exact hlay.2.2
    · split
      · exact hlay.2.1
      · exact hlay.1
  have rest : ∀ (method readCh : Int), (ch.dataLen > 2 → readCh = 2) →
      Q (readChannelBody env cfg layer ch m pcs method readCh)
        (readChannelBody env cfg layer ch m pcs method readCh) := by
    intro method readCh hr
    unfold readChannelBody
    refine C.liftBind (goMake_nofuel _) fun n hn => ?_
    refine C.bind (C.lift _ (by split <;> simp)) fun pk => ?_
    refine C.bind (hd _ _ _ _ _ _ _ hr hrect hn) fun ⟨data, readCh⟩ => ?_
    refine Clo.ite (fun _ => C.fail _) fun _ => ?_
    refine C.bind (C.lift _ (setSource_nofuel _ _ _)) fun pk => ?_
    refine Clo.ite (fun _ => ?_) fun _ => Clo.ite (fun _ => C.pure _) fun _ => C.pure _
    exact C.bind (C.lift _ (goIndex_nofuel _ _)) fun _ => C.pure _
  unfold readChannelImage
  refine Clo.ite (fun _ => C.bind (C.readFull _) fun b => rest _ _ (fun _ => rfl)) fun h => ?_
  exact rest _ _ (fun h => by omega)

end
end Psd
