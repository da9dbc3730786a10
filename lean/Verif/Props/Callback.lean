import Verif.Props.Image
import Verif.Model.Load

/-
C81: the `ConfigLoaded` callback of `Decode`.
-/

namespace Psd
open Spec (Doc)

theorem layerAndMask_config {env : Env} {cfg : Config} {o : Options} {fuel : Nat} {s s' : St} {r : PSD × Int}
    (h : readLayerAndMaskInfo env cfg o fuel s = .ok (r, s')) : r.1.config = cfg := by
  unfold readLayerAndMaskInfo at h
  obtain ⟨b, s₁, -, h⟩ := P.bind_eq_ok.1 h
  dsimp only at h
  split at h
  · cases h; rfl
  · obtain ⟨⟨layer, l⟩, s₂, -, h⟩ := P.bind_eq_ok.1 h
    obtain ⟨l2, s₃, -, h⟩ := P.bind_eq_ok.1 h
    obtain ⟨⟨infos, layer2, l3⟩, s₄, -, h⟩ := P.bind_eq_ok.1 h
    dsimp only at h
    split at h
    · cases h
    · obtain ⟨tree, s₅, -, h⟩ := P.bind_eq_ok.1 h
      obtain ⟨l4, s₆, -, h⟩ := P.bind_eq_ok.1 h
      split at h
      · cases h
      · cases h; rfl

theorem readMerged_config {env : Env} {cfg : Config} {psd : PSD} {s s' : St} {r : PSD × Int} (h : readMerged env cfg psd s = .ok (r, s')) :
    r.1.config = psd.config := by
  unfold readMerged at h
  obtain ⟨gk, s₄, -, h⟩ := P.bind_eq_ok.1 h
  obtain ⟨⟨k, pal⟩, s₅, -, h⟩ := P.bind_eq_ok.1 h
  obtain ⟨_, s₆, -, h⟩ := P.bind_eq_ok.1 h
  obtain ⟨b, s₇, -, h⟩ := P.bind_eq_ok.1 h
  obtain ⟨⟨data, l''⟩, s₈, -, h⟩ := P.bind_eq_ok.1 h
  cases h
  rfl

/-- **C81** The callback sees what `DecodeConfig` returns for the same reader, and the document `Decode` returns has the same configuration; a document is returned only
if the callback accepts it. -/
theorem C81_sees_the_config {env : Env} {o : Options} {s : St} {r : PSD × Int} {s' : St} (h : decode env o s = .ok (r, s')) :
    ∃ n s₁, decodeConfig s = .ok ((r.1.config, n), s₁) ∧ ∀ f, o.configLoaded = some f → f r.1.config = false := by
  unfold decode at h
  obtain ⟨⟨cfg, n⟩, s₁, e, h⟩ := P.bind_eq_ok.1 h
  dsimp only at h
  split at h
  · cases h
  · rename_i hr
    obtain ⟨⟨psd, l⟩, s₂, e2, h⟩ := P.bind_eq_ok.1 h
    have hc : r.1.config = cfg := by
      dsimp only at h
      split at h
      · cases h
        exact (layerAndMask_config e2 : psd.config = cfg)
      · obtain ⟨⟨psd', l'⟩, s₃, e3, h⟩ := P.bind_eq_ok.1 h
        cases h
        exact (readMerged_config e3 : psd'.config = psd.config).trans (layerAndMask_config e2)
    refine ⟨n, s₁, hc ▸ e, fun f hf => ?_⟩
    rw [hc]
    unfold Options.rejects at hr
    rw [hf] at hr
    simpa using hr

theorem layerImages_options (env : Env) (cfg : Config) {o o' : Options} (h : o.layerImageLoaded = o'.layerImageLoaded) (total : Nat) :
    ∀ (recs : List (LayerRec × List ChannelData)) (i : Nat), readLayerImages env cfg o total i recs = readLayerImages env cfg o' total i recs
  | [], _ => rfl
  | (layer, chs) :: rest, i => by
    unfold readLayerImages
    simp only [layerImages_options env cfg h total rest, h]

theorem layerInfo_options (env : Env) (cfg : Config) {o o' : Options} (h1 : o.layerImageLoaded = o'.layerImageLoaded)
    (h2 : o.skipLayerImage = o'.skipLayerImage) : ∀ fuel : Nat,
    readLayerInfo env cfg o fuel = readLayerInfo env cfg o' fuel ∧ readAdditionalLayerInfo env cfg o fuel = readAdditionalLayerInfo env cfg o' fuel
  | 0 => by
    refine ⟨?_, ?_⟩
    · rw [readLayerInfo, readLayerInfo]
    · funext k
      rw [readAdditionalLayerInfo, readAdditionalLayerInfo]
  | fuel + 1 => by
    obtain ⟨e1, e2⟩ := layerInfo_options env cfg h1 h2 fuel
    refine ⟨?_, ?_⟩
    · rw [readLayerInfo, readLayerInfo, e2]
      unfold readLayerInfoWith
      simp only [layerImages_options env cfg h1, h2]
    · funext k
      rw [readAdditionalLayerInfo, readAdditionalLayerInfo, e1]

/-- **C81** If the callback returns an error, `Decode` returns this error: whatever follows the configuration in the file, nothing else happens. If it returns nil, `Decode` does what it does without a
callback. If the configuration cannot be read, the callback has no influence: it is not called. -/
theorem C81_decides (env : Env) (o : Options) (f : Config → Bool) (s : St) :
    (∀ cfg n s₁, decodeConfig s = .ok ((cfg, n), s₁) →
      (f cfg = true → decode env { o with configLoaded := some f } s = .err .user) ∧
      (f cfg = false → decode env { o with configLoaded := some f } s = decode env { o with configLoaded := none } s)) ∧
    (∀ e, decodeConfig s = .err e → decode env { o with configLoaded := some f } s = .err e) := by
  refine ⟨fun cfg n s₁ e => ?_, fun e h => ?_⟩
  · have step : ∀ o : Options, decode env o s =
        (if o.rejects cfg then (P.fail .user : P (PSD × Int)) else do
          let (psd, l) ← readLayerAndMaskInfo env cfg o (2 * s.data.length + 4)
          let read := n + l
          if o.skipMergedImage then pure (psd, read)
          else do
            let (psd, l) ← readMerged env cfg psd
            pure (psd, read + l)) s₁ := by
      intro o
      show P.bind _ _ s = _
      unfold P.bind
      rw [e]
    refine ⟨fun hf => ?_, fun hf => ?_⟩
    · rw [step, if_pos (show Options.rejects { o with configLoaded := some f } cfg = true from hf)]
      rfl
    · rw [step, step, if_neg (show ¬Options.rejects { o with configLoaded := some f } cfg = true by rw [show Options.rejects { o with configLoaded := some f } cfg = f cfg from rfl, hf]; decide),
        if_neg (show ¬Options.rejects { o with configLoaded := none } cfg = true from Bool.false_ne_true)]
      unfold readLayerAndMaskInfo
      simp only [(layerInfo_options env cfg (o := { o with configLoaded := some f }) (o' := { o with configLoaded := none }) rfl rfl _).1,
        (layerInfo_options env cfg (o := { o with configLoaded := some f }) (o' := { o with configLoaded := none }) rfl rfl _).2]
  · show P.bind _ _ s = _
    unfold P.bind
    rw [h]

/-- **C81** Through such a callback `composite.New` refuses every document that is not RGB. -/
theorem C81_new_refuses_others {env : Env} {s : St} {r : PSD × Int} {s' : St} (h : decode env newOptions s = .ok (r, s')) : r.1.config.colorMode = 3 := by
  obtain ⟨-, -, -, hf⟩ := C81_sees_the_config h
  simpa using hf _ rfl

/-- A callback that accepts documents up to a width of 2 pixels, one that does not, and the example document, which is 2 pixels wide. -/
example : (decode exEnv { configLoaded := some fun c => decide (2 < c.rect.dx) } (exReader exDoc)).map (fun r => r.1.1.config.rect) = .ok ⟨0, 0, 2, 1⟩ ∧
    (decode exEnv { configLoaded := some fun c => decide (1 < c.rect.dx) } (exReader exDoc)).map (fun r => r.1.1.config.rect) = .err .user := by
  decide +kernel

end Psd
