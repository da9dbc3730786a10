import Verif.Lemmas.Closure
import Verif.Lemmas.PackBits

/-
The recursion bounds of the model are never exhausted, and larger bounds change nothing.
-/

namespace Psd

/-! ### A larger bound changes nothing -/

/-- `q` agrees with `p` wherever `p` does not run out of its recursion bound. -/
def FMono {α : Type} (p q : P α) : Prop := ∀ s, p s ≠ .fuel → q s = p s

theorem FMono.refl {α : Type} (p : P α) : FMono p p := fun _ _ => rfl

theorem fmono_clo : Clo @FMono where
  pure _ := FMono.refl _
  bind := by
    intro α β p q f g h1 h2 s hs
    have hp : p s ≠ .fuel := fun h => hs (P.bind_fuel h)
    rw [P.bind_apply, P.bind_apply, h1 s hp]
    rw [P.bind_apply] at hs
    cases hps : p s with
    | ok r =>
      obtain ⟨a, s'⟩ := r
      rw [hps] at hs
      exact h2 a s' hs
    | _ => rfl
  fail _ := FMono.refl _
  lift _ _ := FMono.refl _
  emit _ := FMono.refl _
  readFull _ := FMono.refl _
  align2 _ := FMono.refl _
  discard _ _ := FMono.refl _

theorem fmono_fuel {m n : Nat} (h : m ≤ n) : FuelOk @FMono m n :=
  .inr ⟨h, fun _ _ hs => absurd rfl hs⟩

theorem fmono_extra : ExtraOk @FMono := fun h layer =>
  fmono_clo.extraData (fun _ => FMono.refl _) h layer

theorem fmono_channel (env : Env) (cfg : Config) : ChannelOk @FMono env cfg :=
  fun _ _ _ _ _ => FMono.refl _

theorem layerAndMask_fmono (env : Env) (cfg : Config) (o : Options) {m n : Nat} (h : m ≤ n) :
    FMono (readLayerAndMaskInfo env cfg o m) (readLayerAndMaskInfo env cfg o n) :=
  fmono_clo.layerAndMaskInfo fmono_extra (fmono_channel env cfg) o (fun _ _ _ _ => FMono.refl _)
    (fmono_fuel h)

theorem decodeConfigF_fmono {m n : Nat} (h : m ≤ n) : FMono (decodeConfigF m) (decodeConfigF n) :=
  fmono_clo.decodeConfig (fmono_fuel h)

/-! ### The frame: what no parser changes -/

/-- Unary relation on parsers seen as a binary one. -/
def Frame {α : Type} (p _q : P α) : Prop := ∀ s a s', p s = .ok (a, s') →
  s'.data = s.data ∧ s'.kind = s.kind ∧ s'.tail = s.tail ∧ s'.eager = s.eager ∧
  (∀ c ∈ s'.sched, c ∈ s.sched)

theorem bareRead_eq_ok {k : Nat} {s s' : St} {n : Int} (h : bareRead k s = .ok (n, s')) :
    s.avail ≠ [] ∧ ∃ m : Nat, (n = m) ∧ m ≤ k ∧ m ≤ s.avail.length ∧
      m = readAmount k s ∧
      s' = { s with pos := s.pos + m, sched := s.sched.tail } ∧
      ¬ (s.eager = true ∧ m = s.avail.length) := by
  unfold bareRead at h
  by_cases hav : s.avail = []
  · simp only [readOnce, if_pos hav] at h; cases h
  · refine ⟨hav, ?_⟩
    simp only [readOnce, if_neg hav] at h
    have hle : readAmount k s ≤ k ∧ readAmount k s ≤ s.avail.length := by
      unfold readAmount; split <;> omega
    generalize readAmount k s = m at h hle
    by_cases he : s.eager = true ∧ m = s.avail.length
    · simp [he.1, he.2] at h
    · have : (s.eager && m == s.avail.length) = false := by
        simp only [Bool.and_eq_false_imp, beq_eq_false_iff_ne]
        intro h1 h2; exact he ⟨h1, h2⟩
      rw [this] at h
      simp only [Bool.false_eq_true, if_false] at h
      cases h
      refine ⟨m, ?_, hle.1, hle.2, rfl, rfl, he⟩
      simp [List.length_take]; omega

theorem discard_eq_ok {n : Int} (hn : 0 ≤ n) {s s' : St} {l : Int} (h : discard n s = .ok (l, s')) :
    l = n ∧ s' = { s with pos := s.pos + n.toNat } ∧
      (s.kind ≠ .seeker → n.toNat ≤ s.avail.length) ∧
      (s.kind = .seeker → (s.pos : Int) + n < 2 ^ 63) := by
  unfold discard at h
  cases hk : s.kind with
  | plain =>
    simp only [hk] at h
    rw [if_neg (by omega)] at h
    split at h
    · cases h; exact ⟨rfl, rfl, fun _ => by assumption, by simp⟩
    · cases h
  | discarder =>
    simp only [hk] at h
    rw [if_neg (by omega)] at h
    split at h
    · cases h; exact ⟨rfl, rfl, fun _ => by assumption, by simp⟩
    · cases h
  | seeker =>
    simp only [hk] at h
    split at h
    · cases h
    · rename_i h1
      cases h
      refine ⟨rfl, ?_, by simp, fun _ => by omega⟩
      have : ((s.pos : Int) + n).toNat = s.pos + n.toNat := by omega
      rw [this]

theorem frame_bareRead (k : Nat) : Frame (bareRead k) (bareRead k) := by
  intro s a s' h
  obtain ⟨_, m, _, _, _, _, rfl, _⟩ := bareRead_eq_ok h
  exact ⟨rfl, rfl, rfl, rfl, fun c hc => List.mem_of_mem_tail hc⟩

theorem frame_discard (n : Int) : Frame (discard n) (discard n) := by
  intro s a s' h
  unfold discard at h
  cases hk : s.kind <;> simp only [hk] at h <;> (repeat' split at h) <;> cases h <;>
    simp [hk]

theorem frame_clo : Clo @Frame where
  pure _ := by intro s b s' h; cases h; simp
  bind := by
    intro α β p q f g h1 h2 s b s' h
    obtain ⟨a, s₁, e1, e2⟩ := P.bind_eq_ok.1 h
    obtain ⟨a1, a2, a3, a4, a5⟩ := h1 _ _ _ e1
    obtain ⟨b1, b2, b3, b4, b5⟩ := h2 a _ _ _ e2
    exact ⟨b1.trans a1, b2.trans a2, b3.trans a3, b4.trans a4, fun c hc => a5 c (b5 c hc)⟩
  fail _ := by intro s b s' h; cases h
  lift _ _ := by intro s b s' h; obtain ⟨_, rfl⟩ := P.lift_eq_ok.1 h; simp
  emit _ := by intro s b s' h; cases h; simp
  readFull k := by
    intro s b s' h
    obtain ⟨_, _, _, sched, rfl, hs⟩ := readFull_eq_ok h
    exact ⟨rfl, rfl, rfl, rfl, hs⟩
  align2 l := by
    unfold adjustAlign2
    split
    · exact frame_bareRead _
    · intro s b s' h; cases h; simp
  discard n _ := frame_discard n

theorem frame_lift : LiftOk @Frame := by
  intro α x s b s' h
  obtain ⟨_, rfl⟩ := P.lift_eq_ok.1 h; simp

theorem decodeZLIB_eq_ok {env : Env} {w : Nat} {k : Int} {s s' : St} {r : List UInt8 × Int}
    (h : decodeZLIB env w k s = .ok (r, s')) :
    ∃ n, n ≤ s.avail.length ∧ (n : Int) = r.2 ∧ s' = { s with pos := s.pos + n } ∧
      r.1.length = w ∧
      env.inflate (s.avail.take (if k = 0 then 2 ^ 63 - 1 else k.toNat)) w = some r.1 ∧
      n ≤ (if k = 0 then 2 ^ 63 - 1 else k.toNat) ∧
      n = min (env.pulled (s.avail.take (if k = 0 then 2 ^ 63 - 1 else k.toNat)) w s.sched)
        (s.avail.take (if k = 0 then 2 ^ 63 - 1 else k.toNat)).length := by
  unfold decodeZLIB at h
  simp only at h
  split at h
  · cases h
  · rename_i out hout
    split at h
    · rename_i hl
      cases h
      refine ⟨_, ?_, rfl, rfl, hl, hout, ?_, rfl⟩
      · refine Nat.le_trans (Nat.min_le_right _ _) ?_
        simp [List.length_take]; omega
      · refine Nat.le_trans (Nat.min_le_right _ _) ?_
        simp [List.length_take]; omega
    · cases h

theorem frame_zlib (env : Env) (w : Nat) (k : Int) : Frame (decodeZLIB env w k) (decodeZLIB env w k) := by
  intro s b s' h
  obtain ⟨n, _, _, rfl, _⟩ := decodeZLIB_eq_ok h
  simp

theorem frame_align4 (l : Int) : Frame (adjustAlign4 l) (adjustAlign4 l) := by
  unfold adjustAlign4
  simp only
  split
  · exact frame_bareRead _
  · intro s b s' h; cases h; simp

theorem frame_extra : ExtraOk @Frame := fun h layer => frame_clo.extraData frame_align4 h layer

theorem frame_channel (env : Env) (cfg : Config) : ChannelOk @Frame env cfg :=
  frame_clo.channelImage (frame_clo.channelDataAll frame_lift env (frame_zlib env)) cfg

theorem frame_fuel (n : Nat) : FuelOk @Frame n n := .inl ⟨rfl, by intro α s b s' h; cases h⟩

theorem frame_lmFinish (cfg : Config) (total read : Int) (tree : List (LTree LayerRec))
    (infos : Infos) : Frame (lmFinish cfg total read tree infos) (lmFinish cfg total read tree infos) := by
  unfold lmFinish
  refine frame_clo.bind (Clo.ite (fun _ => frame_discard _) fun _ => frame_clo.pure _) fun _ => ?_
  exact Clo.ite (fun _ => frame_clo.fail _) fun _ => frame_clo.pure _

theorem frame_layerAndMask (env : Env) (cfg : Config) (o : Options) (n : Nat) :
    Frame (readLayerAndMaskInfo env cfg o n) (readLayerAndMaskInfo env cfg o n) :=
  frame_clo.layerAndMaskInfo frame_extra (frame_channel env cfg) o (frame_lmFinish cfg) (frame_fuel n)

theorem frame_decodeConfigF (n : Nat) : Frame (decodeConfigF n) (decodeConfigF n) :=
  frame_clo.decodeConfig (frame_fuel n)

/-- `readMerged` is built from the same pieces. -/
theorem CloR.merged {Q : ∀ {α : Type}, P α → P α → Prop} (C : CloR @Q) {env : Env} (cfg : Config)
    (psd : PSD) (hl : LiftOk @Q)
    (hd : ∀ method, Q (Psd.cmDecode env method (List.replicate ((cfg.rect.dx.toNat * cfg.depth + 7) / 8 *
        cfg.rect.dy.toNat * cfg.channels) 0) 0 cfg.rect cfg.depth cfg.channels cfg.psb)
      (Psd.cmDecode env method (List.replicate ((cfg.rect.dx.toNat * cfg.depth + 7) / 8 *
        cfg.rect.dy.toNat * cfg.channels) 0) 0 cfg.rect cfg.depth cfg.channels cfg.psb)) :
    Q (readMerged env cfg psd) (readMerged env cfg psd) := by
  unfold readMerged
  refine C.bind (hl _) fun gk => C.bind (hl _) fun ⟨k, pal⟩ => C.bind (hl _) fun _ => ?_
  refine C.bind (C.readFull _) fun b => C.bind (hd _) fun ⟨d, l⟩ => C.pure _

theorem frame_merged (env : Env) (cfg : Config) (psd : PSD) :
    Frame (readMerged env cfg psd) (readMerged env cfg psd) :=
  frame_clo.merged cfg psd frame_lift fun _ => frame_clo.cmDecode frame_lift env (frame_zlib env) _ _ _ _ _ _ _

/-! ### The bounds are large enough -/

/-- On every reader with at most `N` bytes left, `p` does not run out of its recursion bound, and
it does not move backwards. -/
def NoFuel (N : Nat) {α : Type} (p _q : P α) : Prop := ∀ s, s.avail.length ≤ N →
  p s ≠ .fuel ∧ ∀ a s', p s = .ok (a, s') → s.data = s'.data ∧ s.pos ≤ s'.pos

theorem avail_le_of {s s' : St} (h1 : s.data = s'.data) (h2 : s.pos ≤ s'.pos) :
    s'.avail.length ≤ s.avail.length := by
  simp only [St.avail_length, ← h1]; omega

variable {N : Nat}

theorem readFull_nofuel (k : Nat) (s : St) : readFull k s ≠ .fuel := by
  by_cases h : k ≤ s.avail.length
  · obtain ⟨_, e, _⟩ := readFull_ok h; rw [e]; simp
  · rw [readFull_err (by omega)]; simp

theorem bareRead_nofuel (k : Nat) (s : St) : bareRead k s ≠ .fuel := by
  unfold bareRead; split <;> simp

theorem discard_nofuel (n : Int) (s : St) : discard n s ≠ .fuel := by
  unfold discard; cases s.kind <;> simp only <;> (repeat' split) <;> simp

theorem nofuel_bareRead (k : Nat) : NoFuel N (bareRead k) (bareRead k) := by
  refine fun s _ => ⟨bareRead_nofuel _ _, fun a s' h => ?_⟩
  obtain ⟨_, m, _, _, _, _, rfl, _⟩ := bareRead_eq_ok h
  exact ⟨rfl, by simp⟩

theorem nofuel_lift {α : Type} {x : Res α} (h : x ≠ .fuel) : NoFuel N (P.lift x) (P.lift x) := by
  refine fun s _ => ⟨by cases x <;> simp_all, fun a s' h => ?_⟩
  obtain ⟨_, rfl⟩ := P.lift_eq_ok.1 h
  exact ⟨rfl, Nat.le_refl _⟩

theorem nofuel_clo : Clo (@NoFuel N) where
  pure a := by
    refine fun s _ => ⟨by simp, fun b s' h => ?_⟩
    cases h; exact ⟨rfl, Nat.le_refl _⟩
  bind := by
    intro α β p q f g h1 h2 s hs
    obtain ⟨h3, h4⟩ := h1 s hs
    cases hp : p s with
    | ok r =>
      obtain ⟨a, s₁⟩ := r
      obtain ⟨h5, h6⟩ := h4 a s₁ hp
      obtain ⟨h7, h8⟩ := h2 a s₁ (Nat.le_trans (avail_le_of h5 h6) hs)
      rw [P.bind_ok hp]
      refine ⟨h7, fun b s' e => ?_⟩
      obtain ⟨h9, h10⟩ := h8 b s' e
      exact ⟨h5.trans h9, Nat.le_trans h6 h10⟩
    | err e => rw [P.bind_err hp]; simp
    | panic e => rw [P.bind_panic hp]; simp
    | fuel => exact absurd hp h3
  fail e := fun s _ => by simp
  lift x hx := nofuel_lift hx
  emit e := by
    refine fun s _ => ⟨by simp [P.emit], fun b s' h => ?_⟩
    cases h; exact ⟨rfl, Nat.le_refl _⟩
  readFull k := by
    refine fun s _ => ⟨readFull_nofuel k s, fun b s' h => ?_⟩
    obtain ⟨_, _, _, _, rfl, _⟩ := readFull_eq_ok h
    exact ⟨rfl, by simp⟩
  align2 l := by
    unfold adjustAlign2
    split
    · exact nofuel_bareRead _
    · refine fun s _ => ⟨by simp, fun b s' h => ?_⟩
      cases h; exact ⟨rfl, Nat.le_refl _⟩
  discard n hn := by
    refine fun s _ => ⟨discard_nofuel _ _, fun b s' h => ?_⟩
    obtain ⟨_, rfl, _, _⟩ := discard_eq_ok hn h
    exact ⟨rfl, by simp⟩

theorem nofuel_align4 (l : Int) : NoFuel N (adjustAlign4 l) (adjustAlign4 l) := by
  unfold adjustAlign4
  simp only
  split
  · exact nofuel_bareRead _
  · exact nofuel_clo.pure _

theorem nofuel_extra : ExtraOk (@NoFuel N) := fun h layer =>
  nofuel_clo.extraData nofuel_align4 h layer

/-- A step that reads at least one byte, followed by something that is fine with one byte less. -/
theorem nofuel_readFull_bind {β : Type} {k : Nat} (hk : 0 < k) {f : List UInt8 → P β}
    (h : k ≤ N → ∀ a, NoFuel (N - k) (f a) (f a)) : NoFuel N (readFull k >>= f) (readFull k >>= f) := by
  intro s hs
  by_cases hav : k ≤ s.avail.length
  · obtain ⟨sched, e, _⟩ := readFull_ok hav
    rw [P.bind_ok e]
    have hlen : ({ s with pos := s.pos + k, sched := sched } : St).avail.length ≤ N - k := by
      rw [St.avail_length] at *; simp only; omega
    obtain ⟨h1, h2⟩ := h (by omega) (s.avail.take k) _ hlen
    refine ⟨h1, fun b s' e' => ?_⟩
    obtain ⟨h3, h4⟩ := h2 b s' e'
    exact ⟨h3, by simp only at h4; omega⟩
  · rw [P.bind_err (readFull_err (by omega))]; simp

theorem NoFuel.weaken {α : Type} {M : Nat} {p q r : P α} (h : NoFuel N p q) (hm : M ≤ N) :
    NoFuel M p r := fun s hs => h s (by omega)

theorem nofuel_pascal : NoFuel N readPascalString readPascalString := nofuel_clo.pascal

theorem nofuel_resLoop (total : Int) : ∀ (m N : Nat), N < m → ∀ (read : Int) (r : ResMap),
    NoFuel N (readResLoop total m read r) (readResLoop total m read r) := by
  intro m
  induction m with
  | zero => intro N h; omega
  | succ m ih =>
    intro N h read r
    rw [readResLoop.eq_def total _ read r]
    refine Clo.ite (fun _ => ?_) (fun _ => nofuel_clo.pure _)
    simp only
    unfold readResBlock
    rw [P.bind_assoc']
    refine nofuel_readFull_bind (by omega) fun h6 b => ?_
    split
    · intro s _; simp [P.bind_err (P.fail_apply _ _)]
    · have C := @nofuel_clo (N - 6)
      have hi : ∀ (l : Int) (id : Nat) (res : ImageResource), NoFuel (N - 6)
          (readResLoop total m (read + l) (r.set id res))
          (readResLoop total m (read + l) (r.set id res)) := by
        intro l id res
        exact ih _ (by omega) _ _
      simp only [P.bind_assoc', P.pure_bind']
      refine C.bind C.pascal fun ⟨name, l⟩ => C.bind (C.align2 _) fun l => ?_
      refine C.bind (C.readFull _) fun b => C.bind (C.readFull _) fun data => ?_
      exact C.bind (C.align2 _) fun l => hi _ _ _

theorem nofuel_imageResource {m : Nat} (h : N < m) :
    NoFuel N (readImageResourceF m) (readImageResourceF m) := by
  unfold readImageResourceF
  refine nofuel_clo.bind (nofuel_clo.readFull _) fun b => Clo.ite (fun _ => nofuel_clo.pure _) fun _ => ?_
  exact nofuel_resLoop _ _ _ h _ _

theorem nofuel_decodeConfigF {m : Nat} (h : N < m) :
    NoFuel N (decodeConfigF m) (decodeConfigF m) := by
  have C := @nofuel_clo N
  unfold decodeConfigF
  refine C.bind (C.readFull _) fun b => ?_
  refine Clo.ite (fun _ => C.fail _) fun _ => ?_
  refine Clo.ite (fun _ => C.fail _) fun _ => ?_
  refine Clo.ite (fun _ => C.fail _) fun _ => ?_
  refine Clo.ite (fun _ => C.fail _) fun _ => ?_
  refine Clo.ite (fun _ => C.fail _) fun _ => ?_
  refine Clo.ite (fun _ => C.fail _) fun _ => ?_
  refine C.bind (C.readFull _) fun cmd => ?_
  exact C.bind (nofuel_imageResource h) fun ⟨res, l⟩ => C.pure _

theorem nofuel_scan (infoLen : Int) : ∀ (m N : Nat), N < m → ∀ (b0 : UInt8) (read : Int),
    NoFuel N (scanSig infoLen m b0 read) (scanSig infoLen m b0 read) := by
  intro m
  induction m with
  | zero => intro N h; omega
  | succ m ih =>
    intro N h b0 read
    rw [scanSig.eq_def infoLen _ b0 read]
    refine Clo.ite (fun _ => ?_) (fun _ => nofuel_clo.pure _)
    exact nofuel_readFull_bind (by omega) fun _ b => ih _ (by omega) _ _

theorem nofuel_addlLoop {li : P (Option (List LayerRec) × Int)} (psb : Bool) (infoLen : Int)
    {b : Nat} : ∀ (m N : Nat), N < m → N < b → (1 ≤ N → NoFuel (N - 1) li li) →
    ∀ (infos : Infos) (layers : List LayerRec) (read : Int),
    NoFuel N (addlLoop li psb infoLen b m infos layers read)
      (addlLoop li psb infoLen b m infos layers read) := by
  intro m
  induction m with
  | zero => intro N h; omega
  | succ m ih =>
    intro N h hb hli infos layers read
    have C := @nofuel_clo N
    rw [addlLoop.eq_def li]
    refine Clo.ite (fun _ => ?_) (fun _ => C.pure _)
    refine C.bind (nofuel_scan _ _ _ hb _ _) fun ⟨b0, read⟩ => ?_
    refine Clo.ite (fun _ => C.pure _) fun _ => ?_
    refine nofuel_readFull_bind (by omega) fun h7 b => ?_
    have C := @nofuel_clo (N - 7)
    have ih' := ih (N - 7) (by omega) (by omega) fun _ => (hli (by omega)).weaken (by omega)
    refine Clo.ite (fun _ => C.fail _) fun _ => Clo.ite (fun _ => ?_) fun _ => ?_
    · exact C.bind ((hli (by omega)).weaken (by omega)) fun ⟨layrs, l⟩ => ih' _ _ _
    · refine C.bind (C.readFull _) fun b => Clo.ite (fun _ => ?_) fun _ => ih' _ _ _
      refine C.bind (C.lift _ (goMake_nofuel _)) fun k => ?_
      exact C.bind (C.readFull _) fun data => ih' _ _ _

theorem nofuel_additionalWith {li : P (Option (List LayerRec) × Int)} (psb : Bool) (infoLen : Int)
    {b : Nat} (h : N < b) (hli : 1 ≤ N → NoFuel (N - 1) li li) :
    NoFuel N (readAdditionalWith li psb infoLen b) (readAdditionalWith li psb infoLen b) := by
  unfold readAdditionalWith
  refine nofuel_clo.bind (nofuel_addlLoop _ _ _ _ h h hli _ _ _) fun ⟨infos, layers, read⟩ => ?_
  exact Clo.ite (fun _ => nofuel_clo.fail _) fun _ => nofuel_clo.pure _

theorem get4or8_pos (b : Bool) : 4 ≤ get4or8 b := by cases b <;> simp [get4or8]

theorem nofuel_layerInfo {env : Env} {cfg : Config} (hc : ∀ N, ChannelOk (@NoFuel N) env cfg)
    (o : Options) : ∀ (m : Nat),
    (∀ N, N < m → NoFuel N (readLayerInfo env cfg o m) (readLayerInfo env cfg o m)) ∧
    ∀ N, N < m → ∀ k, NoFuel N (readAdditionalLayerInfo env cfg o m k)
      (readAdditionalLayerInfo env cfg o m k) := by
  intro m
  induction m with
  | zero => exact ⟨fun N h => by omega, fun N h => by omega⟩
  | succ m ih =>
    obtain ⟨ih1, ih2⟩ := ih
    constructor
    · intro N h
      rw [readLayerInfo]
      have hpos := get4or8_pos cfg.psb
      unfold readLayerInfoWith
      refine nofuel_readFull_bind (by omega) fun hN _ => ?_
      have C := @nofuel_clo (N - get4or8 cfg.psb)
      refine Clo.ite (fun _ => C.pure _) fun _ => ?_
      refine C.bind (C.readFull _) fun _ => C.bindEns (ens_layerRecords _ _ _ _)
        (ens_layerRecords _ _ _ _)
        (C.layerRecords (nofuel_extra (ih2 _ (by omega))) _ _ _) fun ⟨recs, l⟩ hok => ?_
      refine C.bind (Clo.ite (fun _ => C.pure _) fun _ => C.layerImages (hc _) _ _ _ _ hok.1)
        fun ⟨layers, l⟩ => ?_
      exact C.bind (Clo.ite (fun _ => C.discard _ (by omega)) fun _ => C.pure _) fun _ => C.pure _
    · intro N h k
      rw [readAdditionalLayerInfo]
      exact nofuel_additionalWith _ _ h fun _ => ih1 _ (by omega)

theorem pbLine_nofuel (buf : List UInt8) (ln : Nat) : ∀ (fuel i : Nat) (dest : List UInt8),
    ln ≤ i + fuel → pbLine buf ln fuel i dest ≠ .fuel := by
  have key : ∀ (x : Res (List UInt8 × List UInt8)) (w : List UInt8), x ≠ .fuel →
      (match x with
        | .ok (ws, rest) => Res.ok (w ++ ws, rest)
        | r => r) ≠ .fuel := by
    intro x w h; cases x <;> simp_all
  intro fuel
  induction fuel with
  | zero =>
    intro i dest h
    rw [pbLine.eq_def]; simp only
    rw [if_neg (by omega)]; simp
  | succ fuel ih =>
    intro i dest h
    rw [pbLine.eq_def]; simp only
    by_cases hi : i < ln
    · rw [if_pos hi]
      cases hb : buf[i]? with
      | none => simp
      | some b =>
        simp only
        by_cases h1 : b.toNat ≤ 127
        · rw [if_pos h1]
          split
          · simp
          · exact key _ _ (ih _ _ (by omega))
        · rw [if_neg h1]
          by_cases h2 : b.toNat = 128
          · rw [if_pos h2]; exact ih _ _ (by omega)
          · rw [if_neg h2]
            split
            · simp
            · cases hc : buf[i + 1]? with
              | none => simp
              | some c => exact key _ _ (ih _ _ (by omega))
    · rw [if_neg hi]; simp

theorem Res.bind_nofuel {α β : Type} {x : Res α} {f : α → Res β} (h : x ≠ .fuel)
    (hf : ∀ a, f a ≠ .fuel) : (x >>= f) ≠ .fuel := by
  cases x with
  | ok a => exact hf a
  | err e => simp
  | panic e => simp
  | fuel => exact absurd rfl h

theorem goSlice_nofuel {α : Type} (l : List α) (a b : Nat) : goSlice l a b ≠ .fuel := by
  unfold goSlice; split <;> simp

theorem perLine_nofuel : ∀ (lens : List Nat) (dest buf : List UInt8),
    decodePackBitsPerLine dest buf lens ≠ .fuel := by
  intro lens
  induction lens with
  | nil => intro d b; simp [decodePackBitsPerLine]
  | cons ln lens ih =>
    intro d b
    rw [decodePackBitsPerLine]
    refine Res.bind_nofuel (pbLine_nofuel _ _ _ _ _ (by omega)) fun ⟨w, rest⟩ => ?_
    refine Res.bind_nofuel (goSlice_nofuel _ _ _) fun b' => ?_
    exact Res.bind_nofuel (ih _ _) fun d => by simp

theorem pbTasks_nofuel (dest buf : List UInt8) (lens offsets : List Nat) (width step : Nat) :
    ∀ k ofs, pbTasks dest buf lens offsets width step k ofs ≠ .fuel := by
  intro k
  induction k with
  | zero =>
    intro ofs
    rw [pbTasks]
    refine Res.bind_nofuel (goSlice_nofuel _ _ _) fun _ => Res.bind_nofuel (goIndex_nofuel _ _) fun _ => ?_
    refine Res.bind_nofuel (goSlice_nofuel _ _ _) fun _ => Res.bind_nofuel (goSlice_nofuel _ _ _) fun _ => ?_
    simp
  | succ k ih =>
    intro ofs
    rw [pbTasks]
    refine Res.bind_nofuel (goSlice_nofuel _ _ _) fun _ => Res.bind_nofuel (goIndex_nofuel _ _) fun _ => ?_
    refine Res.bind_nofuel (goIndex_nofuel _ _) fun _ => ?_
    refine Res.bind_nofuel (goSlice_nofuel _ _ _) fun _ => Res.bind_nofuel (goSlice_nofuel _ _ _) fun _ => ?_
    exact Res.bind_nofuel (ih _) fun _ => by simp

theorem pbJoin_nofuel : ∀ rs : List (Res (List UInt8)), (∀ r ∈ rs, r ≠ .fuel) → pbJoin rs ≠ .fuel := by
  intro rs
  induction rs with
  | nil => intro _; simp [pbJoin]
  | cons r rs ih =>
    intro h
    have h1 := h r (by simp)
    have h2 := ih fun r hr => h r (by simp [hr])
    rw [pbJoin.eq_def]; simp only
    revert h1 h2
    cases r <;> cases pbJoin rs <;> simp

theorem packBitsRows_nofuel (procs : Nat) (dest buf : List UInt8) (lens : List Nat) (width : Nat) :
    packBitsRows procs dest buf lens width ≠ .fuel := by
  unfold packBitsRows
  simp only
  split
  · exact perLine_nofuel _ _ _
  · split
    · simp
    · refine Res.bind_nofuel (pbTasks_nofuel _ _ _ _ _ _ _ _) fun ts => pbJoin_nofuel _ ?_
      intro r hr
      obtain ⟨t, _, rfl⟩ := List.mem_map.1 hr
      exact perLine_nofuel _ _ _

theorem deltaRow_len (sz : Nat) : ∀ (w d : Nat) (buf : List UInt8),
    deltaRow sz w d buf ≠ .fuel ∧ ∀ row rest, deltaRow sz w d buf = .ok (row, rest) →
      row.length = w * sz ∧ rest.length + w * sz = buf.length := by
  intro w
  induction w with
  | zero => intro d buf; refine ⟨by simp [deltaRow], fun row rest h => ?_⟩; cases h; simp
  | succ w ih =>
    intro d buf
    rw [deltaRow]
    split
    · simp
    · rename_i hl
      obtain ⟨h1, h2⟩ := ih ((d + beNat (buf.take sz)) % 256 ^ sz) (buf.drop sz)
      simp only
      cases hr : deltaRow sz w ((d + beNat (buf.take sz)) % 256 ^ sz) (buf.drop sz) with
      | ok r =>
        obtain ⟨row, rest⟩ := r
        refine ⟨by simp, fun row' rest' h => ?_⟩
        cases h
        obtain ⟨h3, h4⟩ := h2 _ _ hr
        simp only [List.length_append, beBytes_length, List.length_drop, Nat.succ_mul] at *
        omega
      | err e => simp
      | panic e => simp
      | fuel => exact absurd hr h1

theorem deltaRows_nofuel {sz width : Nat} (hs : 0 < sz) : ∀ (fuel : Nat) (buf : List UInt8),
    buf.length ≤ fuel → (width = 0 → buf = []) → deltaRows sz width fuel buf ≠ .fuel := by
  intro fuel
  induction fuel with
  | zero =>
    intro buf h _
    have : buf = [] := List.eq_nil_of_length_eq_zero (by omega)
    subst this; simp [deltaRows]
  | succ fuel ih =>
    intro buf h h0
    cases buf with
    | nil => simp [deltaRows]
    | cons x xs =>
      have hw : 0 < width := by
        rcases Nat.eq_zero_or_pos width with h | h
        · exact absurd (h0 h) (by simp)
        · exact h
      rw [deltaRows.eq_def]; simp only
      obtain ⟨h1, h2⟩ := deltaRow_len sz width 0 (x :: xs)
      cases hr : deltaRow sz width 0 (x :: xs) with
      | ok r =>
        obtain ⟨row, rest⟩ := r
        obtain ⟨h3, h4⟩ := h2 _ _ hr
        have : 1 ≤ width * sz := Nat.mul_pos hw hs
        simp only [Res.ok_bind]
        exact Res.bind_nofuel (ih rest (by omega) (by omega)) fun _ => by simp
      | err e => simp
      | panic e => simp
      | fuel => exact absurd hr h1

theorem decodeDelta_nofuel {buf : List UInt8} {width depth : Nat} (h : width = 0 → buf = []) :
    decodeDelta buf width depth ≠ .fuel := by
  unfold decodeDelta
  split
  · exact deltaRows_nofuel (by omega) _ _ (Nat.le_refl _) h
  · split
    · exact deltaRows_nofuel (by omega) _ _ (Nat.le_refl _) h
    · simp

theorem nofuel_packBits (procs : Nat) (dest : List UInt8) (w n : Nat) (large : Bool) :
    NoFuel N (decodePackBits procs dest w n large) (decodePackBits procs dest w n large) := by
  have C := @nofuel_clo N
  unfold decodePackBits
  refine C.bind (C.readFull _) fun tbl => C.bind (C.lift _ (goMake_nofuel _)) fun total => ?_
  refine C.bind (C.readFull _) fun buf => C.bind (C.lift _ (packBitsRows_nofuel _ _ _ _ _)) fun d => C.pure _

theorem nofuel_zlib (env : Env) (w : Nat) (k : Int) :
    NoFuel N (decodeZLIB env w k) (decodeZLIB env w k) := by
  refine fun s _ => ⟨?_, fun a s' h => ?_⟩
  · unfold decodeZLIB; simp only; split
    · simp
    · split <;> simp
  · obtain ⟨n, _, _, rfl, _⟩ := decodeZLIB_eq_ok h
    exact ⟨rfl, by simp⟩

theorem nofuel_cmDecode (env : Env) (method : Int) (dest : List UInt8) (hint : Int) (rect : Rect)
    (depth ch : Nat) (large : Bool) (h : rect.dx.toNat = 0 → dest = []) :
    NoFuel N (cmDecode env method dest hint rect depth ch large)
      (cmDecode env method dest hint rect depth ch large) := by
  have C := @nofuel_clo N
  unfold cmDecode
  refine Clo.ite (fun _ => C.bind (C.readFull _) fun _ => C.pure _) fun _ => ?_
  refine Clo.ite (fun _ => nofuel_packBits _ _ _ _ _) fun _ => ?_
  refine Clo.ite (fun _ => nofuel_zlib _ _ _) fun _ => ?_
  refine Clo.ite (fun _ => ?_) fun _ => C.fail _
  refine C.bindEns (R := fun r => r.1.length = dest.length) ?_ ?_ (nofuel_zlib _ _ _) fun ⟨d, l⟩ hd => ?_
  · intro s a s' h; obtain ⟨_, _, _, _, h, _⟩ := decodeZLIB_eq_ok h; exact h
  · intro s a s' h; obtain ⟨_, _, _, _, h, _⟩ := decodeZLIB_eq_ok h; exact h
  · refine C.bind (C.lift _ (decodeDelta_nofuel fun h0 => ?_)) fun _ => C.pure _
    rw [h h0] at hd
    exact List.eq_nil_of_length_eq_zero hd

theorem nofuel_channelData (env : Env) : ChannelDataOk (@NoFuel N) env := by
  intro method n dataLen read0 rect depth psb _ hok hn
  have C := @nofuel_clo N
  unfold readChannelData
  refine C.bind (Clo.ite (fun _ => nofuel_cmDecode _ _ _ _ _ _ _ _ fun h0 => ?_) fun _ => C.pure _)
    fun ⟨data, l⟩ => ?_
  · obtain ⟨h1, _⟩ := hok
    have hdx : rect.dx = 0 := by omega
    rw [planeSize, hdx] at hn
    simp [wrap64, goMake] at hn
    rw [← hn]; rfl
  exact C.bind (Clo.ite (fun _ => C.discard _ (by omega)) fun _ => C.pure _) fun _ => C.pure _

theorem nofuel_channel (env : Env) (cfg : Config) : ChannelOk (@NoFuel N) env cfg :=
  nofuel_clo.channelImage (nofuel_channelData env) cfg

theorem nofuel_layerAndMask (env : Env) (cfg : Config) (o : Options) {m : Nat} (s : St)
    (h : s.avail.length < m) : readLayerAndMaskInfo env cfg o m s ≠ .fuel := by
  obtain ⟨h1, h2⟩ := nofuel_layerInfo (fun N => @nofuel_channel N env cfg) o m
  have C := @nofuel_clo s.avail.length
  -- the last step may move backwards on a seeker, so it is treated separately
  have key : ∀ {α : Type} (p : P α) (f : α → P (PSD × Int)) (t : St),
      t.avail.length ≤ s.avail.length → NoFuel s.avail.length p p →
      (∀ a t', t'.avail.length ≤ s.avail.length → f a t' ≠ .fuel) → (p >>= f) t ≠ .fuel := by
    intro α p f t ht hp hf
    obtain ⟨h3, h4⟩ := hp t ht
    cases hps : p t with
    | ok r =>
      obtain ⟨a, s₁⟩ := r
      rw [P.bind_ok hps]
      obtain ⟨h5, h6⟩ := h4 a s₁ hps
      exact hf a s₁ (Nat.le_trans (avail_le_of h5 h6) ht)
    | err e => rw [P.bind_err hps]; simp
    | panic e => rw [P.bind_panic hps]; simp
    | fuel => exact absurd hps h3
  unfold readLayerAndMaskInfo
  refine key _ _ _ (Nat.le_refl _) (C.readFull _) fun _ t ht => ?_
  simp only
  rw [P.ite_app]
  split
  · simp
  refine key _ _ _ ht (Clo.ite (fun _ => h1 _ h) fun _ => C.pure _) fun ⟨layer, l⟩ t ht => ?_
  refine key _ _ _ ht (C.globalMask _) fun _ t ht => ?_
  refine key _ _ _ ht (Clo.ite (fun _ => h2 _ h _) fun _ => C.pure _) fun ⟨infos, layer2, l⟩ t ht => ?_
  simp only
  rw [P.ite_app]
  split
  · simp
  refine key _ _ _ ht (C.lift _ (buildTreeLoop_nofuel _ _ _ _)) fun tree t ht => ?_
  rw [P.bind_apply]
  split
  · rw [P.ite_app]; split <;> simp
  · simp
  · simp
  · rename_i hf
    rw [P.ite_app] at hf
    split at hf
    · exact absurd hf (discard_nofuel _ _)
    · cases hf

theorem palette_nofuel (cfg : Config) : cfg.palette ≠ .fuel := by
  unfold Config.palette
  split
  · simp
  · refine Res.bind_nofuel ?_ fun t => Res.bind_nofuel ?_ fun _ => by simp
    · split
      · refine Res.bind_nofuel ?_ fun _ => by simp
        unfold readUint16; split <;> simp
      · simp
    · have : ∀ n i, paletteFrom cfg.colorModeData t n i ≠ .fuel := by
        intro n
        induction n with
        | zero => intro i; simp [paletteFrom]
        | succ n ih =>
          intro i
          rw [paletteFrom]
          refine Res.bind_nofuel (goIndex_nofuel _ _) fun _ => Res.bind_nofuel (goIndex_nofuel _ _) fun _ => ?_
          exact Res.bind_nofuel (goIndex_nofuel _ _) fun _ => Res.bind_nofuel (ih _) fun _ => by simp
      exact this _ _

theorem alphaID0_nofuel : ∀ (fuel : Nat) (d : List UInt8), d.length ≤ fuel →
    alphaID0Loop fuel d ≠ .fuel := by
  intro fuel
  induction fuel with
  | zero =>
    intro d h
    have : d = [] := List.eq_nil_of_length_eq_zero (by omega)
    subst this; simp [alphaID0Loop]
  | succ fuel ih =>
    intro d h
    cases d with
    | nil => simp [alphaID0Loop]
    | cons x xs =>
      rw [alphaID0Loop.eq_def]; simp only
      split
      · simp
      · split
        · simp
        · exact ih _ (by simp at *; omega)

theorem makePicker_nofuel (cfg : Config) : cfg.makePicker ≠ .fuel := by
  unfold Config.makePicker
  split
  · exact Res.bind_nofuel (palette_nofuel _) fun _ => by simp
  · split
    · simp
    · refine Res.bind_nofuel ?_ fun _ => ?_
      · split
        · unfold hasAlphaID0
          split
          · simp
          · exact alphaID0_nofuel _ _ (Nat.le_refl _)
        · simp
      · split <;> simp

theorem nofuel_merged (env : Env) (cfg : Config) (psd : PSD) (s : St)
    (h : cfg.rect.dx ≠ 0 ∧ 0 ≤ cfg.rect.dx) : readMerged env cfg psd s ≠ .fuel := by
  have C := @nofuel_clo s.avail.length
  have : NoFuel s.avail.length (readMerged env cfg psd) (readMerged env cfg psd) := by
    unfold readMerged
    refine C.bind (C.lift _ (by split <;> simp)) fun gk => ?_
    refine C.bind (C.lift _ (makePicker_nofuel _)) fun ⟨k, pal⟩ => ?_
    refine C.bind (C.lift _ (setSource_nofuel _ _ _)) fun _ => ?_
    refine C.bind (C.readFull _) fun b => C.bind (nofuel_cmDecode _ _ _ _ _ _ _ _ ?_) fun ⟨d, l⟩ => C.pure _
    intro h0; omega
  exact (this s (Nat.le_refl _)).1

/-- The width of an accepted configuration is positive. -/
theorem decodeConfigF_width {m : Nat} : Ens (decodeConfigF m) fun r =>
    1 ≤ r.1.rect.dx ∧ 1 ≤ r.1.rect.dy := by
  unfold decodeConfigF
  refine Ens.bind_any fun b => ?_
  refine Ens.ite (fun _ => Ens.fail) fun _ => Ens.ite (fun _ => Ens.fail) fun _ => ?_
  refine Ens.ite (fun _ => Ens.fail) fun _ => Ens.ite (fun _ => Ens.fail) fun h1 => ?_
  refine Ens.ite (fun _ => Ens.fail) fun h2 => Ens.ite (fun _ => Ens.fail) fun _ => ?_
  refine Ens.bind_any fun cmd => Ens.bind_any fun ⟨res, l⟩ => Ens.pure ?_
  simp only [Rect.make, Rect.dx, Rect.dy]
  omega

/-- `decode` with explicit recursion bounds. -/
def decodeF (env : Env) (o : Options) (m n : Nat) : P (PSD × Int) := do
  let (cfg, read) ← decodeConfigF m
  if o.rejects cfg then P.fail .user
  else do
    let (psd, l) ← readLayerAndMaskInfo env cfg o n
    let read := read + l
    if o.skipMergedImage then pure (psd, read)
    else do
      let (psd, l) ← readMerged env cfg psd
      pure (psd, read + l)

theorem decodeConfig_eq (s : St) {m : Nat} (hm : s.data.length < m) :
    decodeConfig s = decodeConfigF m s := by
  have h1 : decodeConfig s = decodeConfigF (s.data.length + 1) s := by
    have e : ∀ (t : St), t.data = s.data →
        readImageResource t = readImageResourceF (s.data.length + 1) t := by
      intro t ht; rw [readImageResource_eq, ht]
    unfold decodeConfig decodeConfigF
    rw [P.bind_apply, P.bind_apply]
    cases h : readFull 30 s with
    | ok r =>
      obtain ⟨b, t⟩ := r
      have hd := (frame_clo.readFull 30 _ _ _ h).1
      simp only
      split; · rfl
      split; · rfl
      split; · rfl
      split; · rfl
      split; · rfl
      split; · rfl
      rw [P.bind_apply, P.bind_apply]
      cases h' : readFull (beAt b 26 4) t with
      | ok r =>
        obtain ⟨c, u⟩ := r
        have hd' := (frame_clo.readFull _ _ _ _ h').1
        simp only
        rw [P.bind_apply, P.bind_apply, e u (by rw [hd', hd])]
      | _ => rfl
    | _ => rfl
  rw [h1]
  have := (@nofuel_decodeConfigF s.data.length (s.data.length + 1) (by omega) s
    (by rw [St.avail_length]; omega)).1
  exact (decodeConfigF_fmono (show s.data.length + 1 ≤ m by omega) s this).symm

theorem decodeConfig_nofuel (s : St) : decodeConfig s ≠ .fuel := by
  rw [decodeConfig_eq s (Nat.lt_succ_self _)]
  exact (@nofuel_decodeConfigF s.data.length _ (by omega) s (by rw [St.avail_length]; omega)).1

theorem decode_nofuel (env : Env) (o : Options) (s : St) : decode env o s ≠ .fuel := by
  unfold decode
  rw [P.bind_apply]
  cases h : decodeConfig s with
  | ok r =>
    obtain ⟨⟨cfg, read⟩, t⟩ := r
    rw [decodeConfig_eq s (Nat.lt_succ_self _)] at h
    have hw := decodeConfigF_width _ _ _ h
    have hd := (frame_decodeConfigF _ _ _ _ h).1
    simp only
    rw [P.ite_app]
    split
    · simp
    · rw [P.bind_apply]
      have h2 := nofuel_layerAndMask env cfg o (m := 2 * s.data.length + 4) t
        (by rw [St.avail_length, hd]; omega)
      cases h3 : readLayerAndMaskInfo env cfg o (2 * s.data.length + 4) t with
      | ok r =>
        obtain ⟨⟨psd, l⟩, u⟩ := r
        simp only
        rw [P.ite_app]
        split
        · simp
        · rw [P.bind_apply]
          have h4 := nofuel_merged env cfg psd u (by simp only at hw; omega)
          cases h5 : readMerged env cfg psd u with
          | fuel => exact absurd h5 h4
          | _ => simp
      | fuel => exact absurd h3 h2
      | _ => simp
  | fuel => exact absurd h (decodeConfig_nofuel s)
  | _ => simp

/-- The recursion bounds of `decode` do not matter as long as they exceed the number of bytes. -/
theorem decode_eq (env : Env) (o : Options) (s : St) {m n : Nat} (hm : s.data.length < m)
    (hn : s.data.length < n) : decode env o s = decodeF env o m n s := by
  unfold decode decodeF
  rw [P.bind_apply, P.bind_apply, ← decodeConfig_eq s hm]
  cases h : decodeConfig s with
  | ok r =>
    obtain ⟨⟨cfg, read⟩, t⟩ := r
    rw [decodeConfig_eq s (Nat.lt_succ_self _)] at h
    have hd := (frame_decodeConfigF _ _ _ _ h).1
    simp only
    rw [P.ite_app, P.ite_app]
    split
    · rfl
    · rw [P.bind_apply, P.bind_apply]
      have e : readLayerAndMaskInfo env cfg o (2 * s.data.length + 4) t =
          readLayerAndMaskInfo env cfg o n t := by
        have h1 := nofuel_layerAndMask env cfg o (m := s.data.length + 1) t
          (by rw [St.avail_length, hd]; omega)
        rw [layerAndMask_fmono env cfg o (show s.data.length + 1 ≤ 2 * s.data.length + 4 by omega) t h1,
          layerAndMask_fmono env cfg o (show s.data.length + 1 ≤ n by omega) t h1]
      rw [e]
  | _ => rfl

end Psd
