import Verif.Lemmas.Locality

/-
Decoding does not look at the record of the calls of `LayerImageLoaded`.
-/

namespace Psd

/-- The same reader; other calls may have been made so far. -/
def SameButLog (s t : St) : Prop := t = { s with log := t.log }

theorem Sim.of_ok {R : St → St → Prop} {α : Type} {p q : P α} (h : Sim R p q) {s t s' : St} {a : α} (hr : R s t) (hp : p s = .ok (a, s')) :
    ∃ t', q t = .ok (a, t') ∧ R s' t' := by
  have := h s t hr
  rw [hp] at this
  cases hq : q t with
  | ok r =>
    obtain ⟨b, t'⟩ := r
    rw [hq] at this
    obtain ⟨rfl, h2⟩ := this
    exact ⟨t', rfl, h2⟩
  | err e => rw [hq] at this; exact this.elim
  | panic e => rw [hq] at this; exact this.elim
  | fuel => rw [hq] at this; exact this.elim

/-- The same reader, with `a` and `b` as the calls made before. -/
def Shifted (a b : List Event) (s t : St) : Prop := ∃ es, s.log = a ++ es ∧ t = { s with log := b ++ es }

/-- A computation that treats readers with other records of calls alike, and makes no calls. -/
def LogFree {α : Type} (p : P α) : Prop := ∀ s l, p { s with log := l } = (p s).map fun r => (r.1, { r.2 with log := l })

theorem LogFree.sim {α : Type} {p : P α} (h : LogFree p) : Sim SameButLog p p := by
  intro s t e
  rw [e, h s t.log]
  cases hp : p s with
  | ok r => exact ⟨rfl, rfl⟩
  | err e => rfl
  | panic e => rfl
  | fuel => trivial

theorem LogFree.shifted {α : Type} {p : P α} (h : LogFree p) {a b : List Event} : Sim (Shifted a b) p p := by
  intro s t ⟨es, e1, e2⟩
  have h1 := h s s.log
  have h2 : ({ s with log := s.log } : St) = s := rfl
  rw [h2] at h1
  rw [e2, h s (b ++ es)]
  cases hp : p s with
  | ok r =>
    obtain ⟨x, s'⟩ := r
    rw [hp] at h1
    have h3 : s'.log = s.log := by
      have h4 : s' = { s' with log := s.log } := congrArg Prod.snd (Res.ok.inj h1)
      rw [h4]
    exact ⟨rfl, es, h3.trans e1, rfl⟩
  | err e => rfl
  | panic e => rfl
  | fuel => trivial

theorem free_pure {α : Type} (a : α) : LogFree (pure a : P α) := fun _ _ => rfl

theorem free_readFull (k : Nat) : LogFree (readFull k) := by
  intro s l
  unfold readFull
  show (match readLoop s.tail s.eager s.sched k 0 s.avail.length with
    | .ok sched => _ | .err e => _ | .panic q => _ | .fuel => _) = _
  cases readLoop s.tail s.eager s.sched k 0 s.avail.length <;> rfl

theorem free_bareRead (k : Nat) : LogFree (bareRead k) := by
  intro s l
  rw [bareRead_val, bareRead_val]
  have ha : ({ s with log := l } : St).avail = s.avail := rfl
  have hr : readAmount k ({ s with log := l } : St) = readAmount k s := rfl
  rw [ha, hr]
  split <;> rfl

theorem free_discard (n : Int) : LogFree (discard n) := by
  intro s l
  obtain ⟨data, pos, sched, kind, tail, eager, log⟩ := s
  unfold discard
  have ha : (⟨data, pos, sched, kind, tail, eager, l⟩ : St).avail = (⟨data, pos, sched, kind, tail, eager, log⟩ : St).avail := rfl
  dsimp only
  rw [ha]
  generalize (⟨data, pos, sched, kind, tail, eager, log⟩ : St).avail.length = len
  cases kind <;> dsimp only <;> repeat' split
  all_goals rfl

theorem free_align2 (l : Int) : LogFree (adjustAlign2 l) := by
  unfold adjustAlign2
  split
  · exact free_bareRead _
  · exact free_pure _

theorem free_align4 (l : Int) : LogFree (adjustAlign4 l) := by
  unfold adjustAlign4
  simp only
  split
  · exact free_bareRead _
  · exact free_pure _

theorem free_zlib (env : Env) (w : Nat) (k : Int) : LogFree (decodeZLIB env w k) := by
  intro s l
  unfold decodeZLIB
  have ha : ({ s with log := l } : St).avail = s.avail := rfl
  simp only [ha]
  split
  · rfl
  · split <;> rfl

theorem log_emit {a b : Bool} (e : Event) :
    Sim SameButLog (if a then P.emit e else pure ()) (if b then P.emit e else pure ()) := by
  intro s t h
  rw [h]
  cases a <;> cases b <;> exact ⟨rfl, rfl⟩

theorem shift_emit {a b : List Event} (e : Event) : Sim (Shifted a b) (P.emit e) (P.emit e) := by
  intro s t ⟨es, e1, e2⟩
  rw [e2]
  refine ⟨rfl, es ++ [e], ?_, ?_⟩
  · show s.log ++ [e] = _
    rw [e1, List.append_assoc]
  · show ({ s with log := b ++ es ++ [e] } : St) = _
    rw [List.append_assoc]

theorem log_clo : Clo (@Sim SameButLog) where
  pure a := (free_pure a).sim
  bind := Sim.bind
  fail _ := fun _ _ _ => rfl
  lift x _ := Sim.lift x
  emit e := log_emit (a := true) (b := true) e
  readFull k := (free_readFull k).sim
  align2 l := (free_align2 l).sim
  discard n _ := (free_discard n).sim

theorem shift_clo (a b : List Event) : Clo (@Sim (Shifted a b)) where
  pure a := (free_pure a).shifted
  bind := Sim.bind
  fail _ := fun _ _ _ => rfl
  lift x _ := Sim.lift x
  emit e := shift_emit e
  readFull k := (free_readFull k).shifted
  align2 l := (free_align2 l).shifted
  discard n _ := (free_discard n).shifted

theorem log_channel (env : Env) (cfg : Config) : ChannelOk (@Sim SameButLog) env cfg :=
  log_clo.channelImage (log_clo.channelDataAll Sim.lift env fun w k => (free_zlib env w k).sim) cfg

theorem shift_channel (a b : List Event) (env : Env) (cfg : Config) : ChannelOk (@Sim (Shifted a b)) env cfg :=
  (shift_clo a b).channelImage ((shift_clo a b).channelDataAll Sim.lift env fun w k => (free_zlib env w k).shifted) cfg

/-! ### Two runs with different options -/

section
variable {Q : ∀ {α : Type}, P α → P α → Prop} (C : Clo @Q) (hl : LiftOk @Q) (hx : ExtraOk @Q) (hd : ∀ n, Q (discard n) (discard n)) {env : Env} {cfg : Config}
  (hc : ChannelOk @Q env cfg) {o o' : Options} (ho : o.skipLayerImage = o'.skipLayerImage)
  (he : ∀ e, Q (if o.layerImageLoaded then P.emit e else pure ()) (if o'.layerImageLoaded then P.emit e else pure ()))

include C hl hc he in
theorem two_layerImages (total : Nat) : ∀ recs i, (∀ x ∈ recs, x.1.Ok) →
    Q (readLayerImages env cfg o total i recs) (readLayerImages env cfg o' total i recs) := by
  intro recs
  induction recs with
  | nil => intro i _; exact C.pure _
  | cons rc recs ih =>
    intro i hok
    obtain ⟨layer, chs⟩ := rc
    rw [readLayerImages, readLayerImages]
    refine C.bind (hl _) fun n => ?_
    refine C.bind (C.channelImages hc _ (hok (_, _) (List.mem_cons_self ..)) _ _ _) fun ⟨m, pcs, l⟩ => ?_
    refine C.bind (hl _) fun pk => ?_
    refine C.bind (he _) fun _ => ?_
    exact C.bind (ih _ fun x hx => hok x (by simp [hx])) fun _ => C.pure _

include C hl hc he ho in
theorem two_layerInfoWith {addl addl' : Int → P (Infos × List LayerRec × Int)}
    (hx : ∀ layer, Q (readLayerExtraData addl layer) (readLayerExtraData addl' layer)) :
    Q (readLayerInfoWith env cfg o addl) (readLayerInfoWith env cfg o' addl') := by
  unfold readLayerInfoWith
  rw [ho]
  refine C.bind (C.readFull _) fun _ => Clo.ite (fun _ => C.pure _) fun _ => ?_
  refine C.bind (C.readFull _) fun _ => C.bindEns (ens_layerRecords _ _ _ _)
    (ens_layerRecords _ _ _ _) (C.layerRecords hx _ _ _) fun ⟨recs, l⟩ hok => ?_
  refine C.bind (Clo.ite (fun _ => C.pure _) fun _ => two_layerImages C hl hc he _ _ _ hok.1) fun ⟨layers, l⟩ => ?_
  exact C.bind (Clo.ite (fun _ => C.discard _ (by omega)) fun _ => C.pure _) fun _ => C.pure _

variable (hf : ∀ {α : Type}, Q (P.outOfFuel : P α) P.outOfFuel)

include C hl hx hc ho he hf in
theorem two_layerInfo : ∀ n, Q (readLayerInfo env cfg o n) (readLayerInfo env cfg o' n) ∧
    ∀ k, Q (readAdditionalLayerInfo env cfg o n k) (readAdditionalLayerInfo env cfg o' n k) := by
  intro n
  induction n with
  | zero =>
    constructor
    · rw [readLayerInfo, readLayerInfo]
      exact hf
    · intro k
      rw [readAdditionalLayerInfo, readAdditionalLayerInfo]
      exact hf
  | succ n ih =>
    obtain ⟨ih1, ih2⟩ := ih
    constructor
    · rw [readLayerInfo, readLayerInfo]
      exact two_layerInfoWith C hl hc ho he fun layer => hx ih2 layer
    · intro k
      rw [readAdditionalLayerInfo, readAdditionalLayerInfo]
      exact C.additionalWith ih1 _ _ (.inl ⟨rfl, hf⟩)

include C hl hx hd hc ho he hf in
theorem two_layerAndMask (n : Nat) : Q (readLayerAndMaskInfo env cfg o n) (readLayerAndMaskInfo env cfg o' n) := by
  obtain ⟨h1, h2⟩ := two_layerInfo C hl hx hc ho he hf n
  unfold readLayerAndMaskInfo
  refine C.bind (C.readFull _) fun _ => Clo.ite (fun _ => C.pure _) fun _ => ?_
  refine C.bind (Clo.ite (fun _ => h1) fun _ => C.pure _) fun ⟨layer, l⟩ => ?_
  refine C.bind (C.globalMask _) fun l => ?_
  refine C.bind (Clo.ite (fun _ => h2 _) fun _ => C.pure _) fun ⟨infos, layer2, l⟩ => ?_
  refine Clo.ite (fun _ => C.fail _) fun _ => ?_
  refine C.bind (hl _) fun tree => ?_
  refine C.bind (Clo.ite (fun _ => hd _) fun _ => C.pure _) fun _ => ?_
  exact Clo.ite (fun _ => C.fail _) fun _ => C.pure _

end

theorem log_layerAndMask (env : Env) (cfg : Config) {o o' : Options} (ho : o.skipLayerImage = o'.skipLayerImage) (n : Nat) :
    Sim SameButLog (readLayerAndMaskInfo env cfg o n) (readLayerAndMaskInfo env cfg o' n) :=
  two_layerAndMask log_clo Sim.lift (fun h layer => log_clo.extraData (fun l => (free_align4 l).sim) h layer) (fun n => (free_discard n).sim)
    (log_channel env cfg) ho (fun e => log_emit e) (fun _ _ _ => trivial) n

theorem shift_layerAndMask (a b : List Event) (env : Env) (cfg : Config) (o : Options) (n : Nat) :
    Sim (Shifted a b) (readLayerAndMaskInfo env cfg o n) (readLayerAndMaskInfo env cfg o n) :=
  two_layerAndMask (shift_clo a b) Sim.lift (fun h layer => (shift_clo a b).extraData (fun l => (free_align4 l).shifted) h layer)
    (fun n => (free_discard n).shifted) (shift_channel a b env cfg) rfl
    (fun e => Clo.ite (fun _ => shift_emit e) fun _ => (shift_clo a b).pure _) (fun _ _ _ => trivial) n

section
variable {Q : ∀ {α : Type}, P α → P α → Prop} (C : Clo @Q) (hl : LiftOk @Q) (hz : ∀ env w k, Q (decodeZLIB env w k) (decodeZLIB env w k))

include C hl hz in
theorem two_merged (env : Env) (cfg : Config) (psd : PSD) : Q (readMerged env cfg psd) (readMerged env cfg psd) := by
  unfold readMerged
  refine C.bind (hl _) fun gk => C.bind (hl _) fun ⟨k, pal⟩ => C.bind (hl _) fun _ => ?_
  refine C.bind (C.readFull _) fun b => ?_
  exact C.bind (C.cmDecode hl env (hz env) _ _ _ _ _ _ _) fun _ => C.pure _

include C hl hz in
theorem two_decodeF (hf : ∀ {α : Type}, Q (P.outOfFuel : P α) P.outOfFuel) (env : Env) {o o' : Options} {n : Nat}
    (h1 : ∀ cfg, Q (readLayerAndMaskInfo env cfg o n) (readLayerAndMaskInfo env cfg o' n)) (h2 : o.skipMergedImage = o'.skipMergedImage)
    (h3 : o.configLoaded = o'.configLoaded) (m : Nat) : Q (decodeF env o m n) (decodeF env o' m n) := by
  unfold decodeF
  rw [h2]
  refine C.bind (C.decodeConfig (.inl ⟨rfl, hf⟩)) fun ⟨cfg, read⟩ => ?_
  have hr : o.rejects cfg = o'.rejects cfg := by unfold Options.rejects; rw [h3]
  simp only [hr]
  refine Clo.ite (fun _ => C.fail _) fun _ => ?_
  refine C.bind (h1 cfg) fun ⟨psd, l⟩ => ?_
  refine Clo.ite (fun _ => C.pure _) fun _ => ?_
  exact C.bind (two_merged C hl hz env cfg psd) fun _ => C.pure _

end

/-- Whether `LayerImageLoaded` is set makes no difference. -/
theorem log_decode (env : Env) {o o' : Options} (h1 : o.skipLayerImage = o'.skipLayerImage) (h2 : o.skipMergedImage = o'.skipMergedImage)
    (h3 : o.configLoaded = o'.configLoaded) : Sim SameButLog (decode env o) (decode env o') := by
  intro s t h
  have hd : t.data = s.data := by rw [h]
  rw [decode_eq env o s (Nat.lt_succ_self _) (Nat.lt_succ_self _),
    decode_eq env o' t (m := s.data.length + 1) (n := s.data.length + 1) (by rw [hd]; exact Nat.lt_succ_self _) (by rw [hd]; exact Nat.lt_succ_self _)]
  exact two_decodeF log_clo Sim.lift (fun env w k => (free_zlib env w k).sim) (fun _ _ _ => trivial) env (fun cfg => log_layerAndMask env cfg h1 _) h2 h3 _ s t h

/-- What has been called before makes no difference. -/
theorem shift_decode (a b : List Event) (env : Env) (o : Options) : Sim (Shifted a b) (decode env o) (decode env o) := by
  intro s t h
  have hd : t.data = s.data := by
    obtain ⟨_, _, h⟩ := h
    rw [h]
  rw [decode_eq env o s (Nat.lt_succ_self _) (Nat.lt_succ_self _),
    decode_eq env o t (m := s.data.length + 1) (n := s.data.length + 1) (by rw [hd]; exact Nat.lt_succ_self _) (by rw [hd]; exact Nat.lt_succ_self _)]
  exact two_decodeF (shift_clo a b) Sim.lift (fun env w k => (free_zlib env w k).shifted) (fun _ _ _ => trivial) env (fun cfg => shift_layerAndMask a b env cfg o _) rfl rfl _ s t h

end Psd
