import Verif.Lemmas.Whole

/-
How the decoder depends on the data after the part it has consumed, for readers that cannot seek.
-/

namespace Psd

/-! ### Primitives on longer and shorter data -/

/-- The reads made to get `need` bytes do not depend on how much data there is beyond them. -/
theorem readLoop_indep (tail : Err) (eager : Bool) : ∀ (sched : List Nat) (need got avail got' avail' : Nat),
    need ≤ avail → need ≤ avail' →
    readLoop tail eager sched need got avail = readLoop tail eager sched need got' avail' := by
  intro sched
  induction sched with
  | nil =>
    intro need got avail got' avail' h h'
    cases need with
    | zero => simp [readLoop]
    | succ n => rw [readLoop, readLoop, if_pos h, if_pos h']
  | cons c cs ih =>
    intro need got avail got' avail' h h'
    cases need with
    | zero => simp [readLoop]
    | succ n =>
      rw [readLoop, readLoop, if_neg (by omega), if_neg (by omega)]
      simp only
      rw [if_neg (by omega), if_neg (by omega)]
      have e : min (n + 1) (min c avail) = min (n + 1) (min c avail') := by omega
      rw [e]
      exact ih _ _ _ _ _ (by omega) (by omega)

/-- The same reader over other data. -/
def St.over (s : St) (d : List UInt8) : St := { s with data := d }

@[simp] theorem St.over_pos (s : St) (d : List UInt8) : (s.over d).pos = s.pos := rfl
@[simp] theorem St.over_kind (s : St) (d : List UInt8) : (s.over d).kind = s.kind := rfl
@[simp] theorem St.over_data (s : St) (d : List UInt8) : (s.over d).data = d := rfl
@[simp] theorem St.over_sched (s : St) (d : List UInt8) : (s.over d).sched = s.sched := rfl
@[simp] theorem St.over_eager (s : St) (d : List UInt8) : (s.over d).eager = s.eager := rfl
@[simp] theorem St.over_tail (s : St) (d : List UInt8) : (s.over d).tail = s.tail := rfl
@[simp] theorem St.over_log (s : St) (d : List UInt8) : (s.over d).log = s.log := rfl

/-- Bytes at the reader's position within a common prefix. -/
theorem take_common {u x y : List UInt8} {pos k : Nat} (h : pos + k ≤ u.length) :
    ((u ++ x).drop pos).take k = ((u ++ y).drop pos).take k := by
  rw [List.drop_append_of_le_length (by omega), List.drop_append_of_le_length (by omega),
    List.take_append_of_le_length (by simp; omega), List.take_append_of_le_length (by simp; omega)]

theorem readFull_over {k : Nat} {s s' : St} {b : List UInt8} {u x y : List UInt8} (hd : s.data = u ++ x)
    (h : readFull k s = .ok (b, s')) (hp : s'.pos ≤ u.length) :
    readFull k (s.over (u ++ y)) = .ok (b, s'.over (u ++ y)) := by
  obtain ⟨h1, h2, h3, sched, rfl, -⟩ := readFull_eq_ok h
  simp only at hp
  have ha := s.avail_length
  have hb : k ≤ (s.over (u ++ y)).avail.length := by
    rw [St.avail_length]; simp only [St.over_data, St.over_pos, List.length_append]; omega
  unfold readFull at h ⊢
  simp only [St.over_tail, St.over_eager, St.over_sched]
  rw [readLoop_indep _ _ _ _ 0 _ 0 _ hb h1]
  cases hr : readLoop s.tail s.eager s.sched k 0 s.avail.length with
  | ok sc =>
    rw [hr] at h
    cases h
    simp only
    have : (s.over (u ++ y)).avail.take k = s.avail.take k := by
      unfold St.avail
      rw [hd]
      exact take_common hp
    rw [this]; rfl
  | _ => rw [hr] at h; cases h

/-! ### Truncation -/

/-- On data `u` and on data `u ++ x`: if both runs succeed, they give the same. -/
def PC (u x : List UInt8) {α : Type} (p _q : P α) : Prop := ∀ s, s.data = u → s.kind ≠ .seeker →
  s.pos ≤ u.length → ∀ a s', p s = .ok (a, s') →
    (s'.data = u ∧ s'.kind = s.kind ∧ s'.pos ≤ u.length) ∧
    ∀ b t', p (s.over (u ++ x)) = .ok (b, t') → b = a ∧ t' = s'.over (u ++ x)

section
variable {u x : List UInt8}

theorem pc_bareRead1 : PC u x (bareRead 1) (bareRead 1) := by
  intro s hd hk hp a s' e
  obtain ⟨h1, m, rfl, h2, h3, h4, rfl, h5⟩ := bareRead_eq_ok e
  have ha := s.avail_length
  rw [hd] at ha
  refine ⟨⟨hd, rfl, by simp only; omega⟩, fun b t' e' => ?_⟩
  obtain ⟨h1', m', rfl, h2', h3', h4', rfl, h5'⟩ := bareRead_eq_ok e'
  have hne : s.avail.length ≠ 0 := by simpa using h1
  have ha' := (s.over (u ++ x)).avail_length
  simp only [St.over_data, St.over_pos, List.length_append] at ha'
  have : m' = m := by
    rw [h4, h4']
    unfold readAmount
    simp only [St.over_sched]
    split <;> omega
  subst this
  exact ⟨rfl, rfl⟩

theorem pc_discard (n : Int) : PC u x (discard n) (discard n) := by
  intro s hd hk hp a s' e
  have ha := s.avail_length
  rw [hd] at ha
  unfold discard at e
  have hcases : (n < 0 ∧ s.kind = .plain ∧ a = 0 ∧ s' = s) ∨
      (0 ≤ n ∧ n.toNat ≤ s.avail.length ∧ a = n ∧ s' = { s with pos := s.pos + n.toNat }) := by
    cases hkk : s.kind with
    | plain =>
      simp only [hkk] at e
      split at e
      · cases e; exact .inl ⟨by assumption, rfl, rfl, rfl⟩
      · split at e
        · cases e; exact .inr ⟨by omega, by assumption, rfl, by rfl⟩
        · cases e
    | discarder =>
      simp only [hkk] at e
      split at e
      · cases e
      · split at e
        · cases e; exact .inr ⟨by omega, by assumption, rfl, by rfl⟩
        · cases e
    | seeker => exact absurd hkk hk
  rcases hcases with ⟨h1, h2, rfl, rfl⟩ | ⟨h1, h2, rfl, rfl⟩
  · refine ⟨⟨hd, rfl, hp⟩, fun b t' e' => ?_⟩
    unfold discard at e'
    simp only [St.over_kind, h2] at e'
    rw [if_pos h1] at e'
    cases e'
    exact ⟨rfl, rfl⟩
  · refine ⟨⟨hd, rfl, by simp only; omega⟩, fun b t' e' => ?_⟩
    obtain ⟨rfl, rfl, -⟩ := discard_eq_ok h1 e'
    exact ⟨rfl, rfl⟩

theorem pc_clo : Clo (@PC u x) where
  pure a := by
    intro s hd hk hp b s' e
    cases e
    exact ⟨⟨hd, rfl, hp⟩, fun b t' e => by cases e; exact ⟨rfl, rfl⟩⟩
  bind := by
    intro α β p q f g h1 h2 s hd hk hp b s' e
    obtain ⟨a, s₁, e1, e2⟩ := P.bind_eq_ok.1 e
    obtain ⟨⟨a1, a2, a3⟩, a4⟩ := h1 s hd hk hp _ _ e1
    obtain ⟨⟨b1, b2, b3⟩, b4⟩ := h2 a s₁ a1 (by rw [a2]; exact hk) a3 _ _ e2
    refine ⟨⟨b1, b2.trans a2, b3⟩, fun c t' e' => ?_⟩
    obtain ⟨a', t₁, e3, e4⟩ := P.bind_eq_ok.1 e'
    obtain ⟨rfl, rfl⟩ := a4 _ _ e3
    exact b4 _ _ e4
  fail e := by intro s hd hk hp b s' e; cases e
  lift y _ := by
    intro s hd hk hp b s' e
    obtain ⟨h1, rfl⟩ := P.lift_eq_ok.1 e
    refine ⟨⟨hd, rfl, hp⟩, fun c t' e' => ?_⟩
    obtain ⟨h2, rfl⟩ := P.lift_eq_ok.1 e'
    rw [h1] at h2; cases h2
    exact ⟨rfl, rfl⟩
  emit ev := by
    intro s hd hk hp b s' e
    cases e
    exact ⟨⟨hd, rfl, hp⟩, fun c t' e' => by cases e'; exact ⟨rfl, rfl⟩⟩
  readFull k := by
    intro s hd hk hp b s' e
    obtain ⟨h1, h2, h3, sched, rfl, -⟩ := readFull_eq_ok e
    have ha := s.avail_length
    rw [hd] at ha
    have hle : s.pos + k ≤ u.length := by omega
    refine ⟨⟨hd, rfl, hle⟩, fun c t' e' => ?_⟩
    have := readFull_over (y := x) (x := []) (by rw [hd, List.append_nil]) e hle
    rw [this] at e'
    cases e'
    exact ⟨rfl, rfl⟩
  align2 l := by
    unfold adjustAlign2
    split
    · exact pc_bareRead1
    · intro s hd hk hp b s' e
      cases e
      exact ⟨⟨hd, rfl, hp⟩, fun b t' e => by cases e; exact ⟨rfl, rfl⟩⟩
  discard n _ := pc_discard n

theorem pc_lift : LiftOk (@PC u x) := by
  intro α y s hd hk hp b s' e
  obtain ⟨h1, rfl⟩ := P.lift_eq_ok.1 e
  refine ⟨⟨hd, rfl, hp⟩, fun c t' e' => ?_⟩
  obtain ⟨h2, rfl⟩ := P.lift_eq_ok.1 e'
  rw [h1] at h2; cases h2
  exact ⟨rfl, rfl⟩

theorem pc_fuel (n : Nat) : FuelOk (@PC u x) n n :=
  .inl ⟨rfl, by intro α s hd hk hp b s' e; cases e⟩

/-- ZIP channels: the declared bytes must be there, so both runs see the same. -/
theorem pc_channelData (hx : (u ++ x).length < 2 ^ 63) (env : Env) : ChannelDataOk (@PC u x) env := by
  intro method n dataLen read0 rect depth psb h0 _ _
  by_cases hl : dataLen > 2
  · by_cases hz : method = 2 ∨ method = 3
    · have hu : u.length < 2 ^ 63 := by rw [List.length_append] at hx; omega
      intro s hd hk hp a s' e
      rw [h0 hl] at e ⊢
      rw [readChannelData_zip env hz n hl rect depth psb s (by rw [hd]; exact hu)] at e
      unfold zipChannel at e
      obtain ⟨d, s₁, e1, e⟩ := P.bind_eq_ok.1 e
      obtain ⟨h1, rfl⟩ := P.lift_eq_ok.1 e1
      obtain ⟨l, s₂, e2, e⟩ := P.bind_eq_ok.1 e
      cases e
      obtain ⟨⟨a1, a2, a3⟩, a4⟩ := pc_discard (x := x) _ s hd hk hp _ _ e2
      refine ⟨⟨a1, a2, a3⟩, fun b t' e' => ?_⟩
      rw [readChannelData_zip env hz n hl rect depth psb _ hx] at e'
      unfold zipChannel at e'
      obtain ⟨d', s₁', e1', e'⟩ := P.bind_eq_ok.1 e'
      obtain ⟨h1', rfl⟩ := P.lift_eq_ok.1 e1'
      obtain ⟨l', s₂', e2', e'⟩ := P.bind_eq_ok.1 e'
      cases e'
      obtain ⟨-, rfl⟩ := a4 _ _ e2'
      obtain ⟨-, -, h3, -⟩ := discard_eq_ok (by omega) e2
      have h4 := h3 hk
      have ha := s.avail_length
      have hw : (s.over (u ++ x)).avail.take (dataLen - 2).toNat = s.avail.take (dataLen - 2).toNat := by
        unfold St.avail
        rw [hd, St.over_data, St.over_pos]
        have := take_common (u := u) (x := x) (y := []) (pos := s.pos) (k := (dataLen - 2).toNat)
          (by rw [← hd]; omega)
        rwa [List.append_nil] at this
      rw [hw, h1] at h1'
      cases h1'
      exact ⟨rfl, rfl⟩
    · exact pc_clo.channelDataNoZip pc_lift env (fun h => hz (.inl h)) (fun h => hz (.inr h))
        n dataLen read0 rect depth psb
  · exact pc_clo.channelDataShort env method n hl read0 rect depth psb

theorem pc_lmFinish (cfg : Config) (total read : Int) (tree : List (LTree LayerRec)) (infos : Infos) :
    PC u x (lmFinish cfg total read tree infos) (lmFinish cfg total read tree infos) := by
  have C := @pc_clo u x
  unfold lmFinish
  refine C.bind (Clo.ite (fun _ => pc_discard _) fun _ => C.pure _) fun _ => ?_
  exact Clo.ite (fun _ => C.fail _) fun _ => C.pure _

/-- Additional information consumes exactly what it is told to. -/
theorem addl_advances {env : Env} {cfg : Config} {o : Options} {fuel : Nat} {n : Int} {s s' : St}
    {r : Infos × List LayerRec × Int} (h : readAdditionalLayerInfo env cfg o fuel n s = .ok (r, s')) :
    (s'.pos : Int) = s.pos + n := by
  have hc := (Cnt.layerInfo env cfg o fuel).2 n s r s' h
  cases fuel with
  | zero => rw [readAdditionalLayerInfo] at h; cases h
  | succ f =>
    rw [readAdditionalLayerInfo] at h
    unfold readAdditionalWith at h
    obtain ⟨⟨infos, layers, read⟩, s₁, _, h⟩ := P.bind_eq_ok.1 h
    simp only at h
    rw [P.ite_app] at h
    split at h
    · cases h
    · cases h
      rename_i hn
      simp only at hc
      omega

/-- Reading padding: either both runs read the same, or the short one is at its end. -/
theorem pc_align4 {β : Type} (l : Int) {f g : Int → P β} (h1 : ∀ l, PC u x (f l) (g l))
    (h2 : ∀ l₁ l₂, l₁ < l₂ → ∀ s t, s.data = u → s.kind ≠ .seeker → s.pos = u.length →
      ∀ a s' b t', f l₁ s = .ok (a, s') → f l₂ t = .ok (b, t') → False) :
    PC u x (adjustAlign4 l >>= f) (adjustAlign4 l >>= g) := by
  have C := @pc_clo u x
  unfold adjustAlign4
  simp only
  split
  · intro s hd hk hp a s' e
    obtain ⟨l₁, s₁, e1, e⟩ := P.bind_eq_ok.1 e
    obtain ⟨i1, m, rfl, i2, i3, i4, rfl, i5⟩ := bareRead_eq_ok e1
    have ha := s.avail_length
    rw [hd] at ha
    have hp' : s.pos + m ≤ u.length := by omega
    obtain ⟨b1, b2⟩ := h1 _ { s with pos := s.pos + m, sched := s.sched.tail } hd hk hp' _ _ e
    refine ⟨b1, fun b t' e' => ?_⟩
    obtain ⟨l₂, t₁, e1', e'⟩ := P.bind_eq_ok.1 e'
    obtain ⟨j1, m', rfl, j2, j3, j4, rfl, j5⟩ := bareRead_eq_ok e1'
    have ha' := (s.over (u ++ x)).avail_length
    simp only [St.over_data, St.over_pos, List.length_append] at ha'
    by_cases hm : m' = m
    · subst hm
      exact b2 _ _ e'
    · have hend : m < m' ∧ s.pos + m = u.length := by
        unfold readAmount at i4 j4
        simp only [St.over_sched] at j4
        cases hs : s.sched <;> rw [hs] at i4 j4 <;> simp only at i4 j4 <;> omega
      exact (h2 m m' (by omega) { s with pos := s.pos + m, sched := s.sched.tail } _ hd hk hend.2 _ _ _ _ e e').elim
  · rw [P.pure_bind', P.pure_bind']
    exact h1 0

theorem pc_extra (env : Env) (cfg : Config) (o : Options) : ExtraAt (@PC u x) env cfg o := by
  intro m n hmn haddl layer
  have C := @pc_clo u x
  unfold readLayerExtraData
  refine C.bind (C.readFull _) fun b => Clo.ite (fun _ => C.pure _) fun _ => ?_
  refine C.bind (C.maskData _) fun ⟨mask, l⟩ => C.bind (C.readFull _) fun b => ?_
  refine C.bind (Clo.ite (fun _ => C.discard _ (by omega)) fun _ => C.pure _) fun l => ?_
  refine C.bind C.pascal fun ⟨name, l⟩ => ?_
  refine pc_align4 _ (fun l => ?_) ?_
  · refine C.bind (Clo.ite (fun _ => haddl _) fun _ => C.pure _) fun ⟨infos, layers, l⟩ => ?_
    exact Clo.ite (fun _ => C.fail _) fun _ => Clo.ite (fun _ => C.fail _) fun _ => C.pure _
  · -- the padding was cut off: the short run still has to read something, but nothing is left
    intro l₁ l₂ hlt s t hd hk hp a s' b t' e e'
    obtain ⟨⟨infos, layers, l₃⟩, s₁, e1, e⟩ := P.bind_eq_ok.1 e
    obtain ⟨⟨infos', layers', l₃'⟩, t₁, e1', e'⟩ := P.bind_eq_ok.1 e'
    rw [P.ite_app] at e1 e1'
    simp only at e e'
    split at e1
    · rename_i hc
      have h1 := (haddl _ s hd hk (by omega) _ _ e1).1.2.2
      have h2 := addl_advances e1
      omega
    · rename_i hc
      rw [if_neg (by omega)] at e1'
      cases e1; cases e1'
      rw [P.ite_app] at e e'
      split at e
      · cases e
      · rw [if_neg (by assumption)] at e'
        rw [P.ite_app] at e e'
        split at e
        · cases e
        · rw [if_pos (by omega)] at e'
          cases e'

/-! ### The decoder without the merged picture -/

theorem pc_layerAndMask (hx : (u ++ x).length < 2 ^ 63) (env : Env) (cfg : Config) (o : Options) (n : Nat) :
    PC u x (readLayerAndMaskInfo env cfg o n) (readLayerAndMaskInfo env cfg o n) :=
  pc_clo.layerAndMaskInfoAt (pc_extra env cfg o) (pc_clo.channelImage (pc_channelData hx env) cfg)
    (pc_lmFinish cfg) (pc_fuel n)

end

/-- Everything before the merged picture. -/
def preF (env : Env) (o : Options) (m n : Nat) : P (Config × PSD × Int) := do
  let (cfg, read) ← decodeConfigF m
  if o.rejects cfg then P.fail .user
  else do
    let (psd, l) ← readLayerAndMaskInfo env cfg o n
    pure (cfg, psd, read + l)

/-- The merged picture. -/
def postF (env : Env) (o : Options) (r : Config × PSD × Int) : P (PSD × Int) :=
  if o.skipMergedImage then pure (r.2.1, r.2.2)
  else do
    let (psd, l) ← readMerged env r.1 r.2.1
    pure (psd, r.2.2 + l)

theorem decodeF_split (env : Env) (o : Options) (m n : Nat) :
    decodeF env o m n = preF env o m n >>= postF env o := by
  unfold decodeF preF
  rw [P.bind_assoc']
  congr 1
  funext ⟨cfg, read⟩
  simp only
  split
  · rfl
  · rw [P.bind_assoc']
    rfl

section
variable (env : Env) (cfg : Config) (o : Options) (b : Bool)

theorem layerImages_skip (total : Nat) : ∀ recs i,
    readLayerImages env cfg { o with skipMergedImage := b } total i recs = readLayerImages env cfg o total i recs := by
  intro recs
  induction recs with
  | nil => intro i; rw [readLayerImages, readLayerImages]
  | cons r recs ih => intro i; rw [readLayerImages, readLayerImages, ih]

theorem layerInfo_skip : ∀ fuel,
    readLayerInfo env cfg { o with skipMergedImage := b } fuel = readLayerInfo env cfg o fuel ∧
    readAdditionalLayerInfo env cfg { o with skipMergedImage := b } fuel = readAdditionalLayerInfo env cfg o fuel := by
  intro fuel
  induction fuel with
  | zero =>
    refine ⟨by rw [readLayerInfo, readLayerInfo], ?_⟩
    funext n; rw [readAdditionalLayerInfo, readAdditionalLayerInfo]
  | succ k ih =>
    refine ⟨?_, ?_⟩
    · rw [readLayerInfo, readLayerInfo, ih.2]
      unfold readLayerInfoWith
      simp only [layerImages_skip]
    · funext n
      rw [readAdditionalLayerInfo, readAdditionalLayerInfo, ih.1]

/-- The option SkipMergedImage has no influence on what comes before. -/
theorem preF_skip (m n : Nat) : preF env { o with skipMergedImage := b } m n = preF env o m n := by
  unfold preF readLayerAndMaskInfo
  simp only [(layerInfo_skip env _ o b n).1, (layerInfo_skip env _ o b n).2]
  rfl

end

/-! ### Other data after the consumed part -/

/-- The reader never reports an error early, or there is data left. -/
def Calm (y : List UInt8) (s : St) : Prop := y ≠ [] ∨ (s.eager = false ∧ ∀ c ∈ s.sched, 1 ≤ c)

/-- On data `u ++ z`, a run that stays within `u` is the same on data `u ++ y`. -/
def Loc (u z y : List UInt8) {α : Type} (p _q : P α) : Prop := ∀ s, s.data = u ++ z → s.kind ≠ .seeker →
  Calm y s → ∀ a s', p s = .ok (a, s') →
    (s'.data = u ++ z ∧ s'.kind ≠ .seeker ∧ Calm y s' ∧ s.pos ≤ s'.pos) ∧
    (s'.pos ≤ u.length → p (s.over (u ++ y)) = .ok (a, s'.over (u ++ y)))

section
variable {u z y : List UInt8}

theorem loc_lift : LiftOk (@Loc u z y) := by
  intro α x s hd hk hc b s' e
  obtain ⟨h1, rfl⟩ := P.lift_eq_ok.1 e
  exact ⟨⟨hd, hk, hc, Nat.le_refl _⟩, fun _ => P.lift_eq_ok.2 ⟨h1, rfl⟩⟩

theorem loc_cloR : CloR (@Loc u z y) where
  pure a := by
    intro s hd hk hc b s' e
    cases e
    exact ⟨⟨hd, hk, hc, Nat.le_refl _⟩, fun _ => rfl⟩
  bind := by
    intro α β p q f g h1 h2 s hd hk hc b s' e
    obtain ⟨a, s₁, e1, e2⟩ := P.bind_eq_ok.1 e
    obtain ⟨⟨a1, a2, a3, a5⟩, a4⟩ := h1 s hd hk hc _ _ e1
    obtain ⟨⟨b1, b2, b3, b5⟩, b4⟩ := h2 a s₁ a1 a2 a3 _ _ e2
    exact ⟨⟨b1, b2, b3, by omega⟩, fun hp => P.bind_eq_ok.2 ⟨a, _, a4 (by omega), b4 hp⟩⟩
  fail e := by intro s hd hk hp b s' e; cases e
  readFull k := by
    intro s hd hk hc b s' e
    obtain ⟨h1, h2, h3, sched, rfl, hs⟩ := readFull_eq_ok e
    exact ⟨⟨hd, hk, hc.imp_right fun h => ⟨h.1, fun c hc => h.2 c (hs c hc)⟩, by simp only; omega⟩,
      fun hp => readFull_over hd e hp⟩

theorem loc_bareRead (hz : z ≠ []) {k : Nat} (hk1 : 1 ≤ k) : Loc u z y (bareRead k) (bareRead k) := by
  intro s hd hk hc b s' e
  obtain ⟨h1, m, rfl, h2, h3, h4, rfl, h5⟩ := bareRead_eq_ok e
  have ha := s.avail_length
  rw [hd, List.length_append] at ha
  have hzl : 1 ≤ z.length := by cases z <;> simp_all
  refine ⟨⟨hd, hk, hc.imp_right fun h => ⟨h.1, fun c hc => h.2 c (List.mem_of_mem_tail hc)⟩, by simp only; omega⟩,
    fun hp => ?_⟩
  simp only at hp
  have ha' := (s.over (u ++ y)).avail_length
  simp only [St.over_data, St.over_pos, List.length_append] at ha'
  have hm : readAmount k (s.over (u ++ y)) = m := by
    unfold readAmount at h4 ⊢
    simp only [St.over_sched]
    cases hs : s.sched <;> rw [hs] at h4 <;> simp only at h4 ⊢ <;> omega
  rw [bareRead_val, hm, if_neg]
  · rfl
  · intro h
    rcases hc with hy | ⟨he, hge⟩
    · have : 1 ≤ y.length := by cases y <;> simp_all
      rcases h with h | ⟨_, h⟩
      · rw [h] at ha'; simp at ha'; omega
      · omega
    · rcases h with h | ⟨h, _⟩
      · rw [h] at ha'
        simp at ha'
        have : 1 ≤ m := by
          have hne : s.avail.length ≠ 0 := by simpa using h1
          unfold readAmount at h4
          cases hs : s.sched with
          | nil => rw [hs] at h4; simp only at h4; omega
          | cons c cs =>
            have := hge c (by rw [hs]; simp)
            rw [hs] at h4; simp only at h4; omega
        omega
      · rw [St.over_eager, he] at h; cases h

theorem loc_discard (n : Int) : Loc u z y (discard n) (discard n) := by
  intro s hd hk hc b s' e
  have hcases : (n < 0 ∧ s.kind = .plain ∧ b = 0 ∧ s' = s) ∨
      (0 ≤ n ∧ b = n ∧ s' = { s with pos := s.pos + n.toNat }) := by
    unfold discard at e
    cases hkk : s.kind with
    | plain =>
      simp only [hkk] at e
      split at e
      · cases e; exact .inl ⟨by assumption, rfl, rfl, rfl⟩
      · split at e
        · cases e; exact .inr ⟨by omega, rfl, by rfl⟩
        · cases e
    | discarder =>
      simp only [hkk] at e
      split at e
      · cases e
      · split at e
        · cases e; exact .inr ⟨by omega, rfl, by rfl⟩
        · cases e
    | seeker => exact absurd hkk hk
  rcases hcases with ⟨h1, h2, rfl, rfl⟩ | ⟨h1, rfl, rfl⟩
  · refine ⟨⟨hd, hk, hc, Nat.le_refl _⟩, fun _ => ?_⟩
    unfold discard
    simp only [St.over_kind, h2]
    rw [if_pos h1]
  · refine ⟨⟨hd, hk, hc, by simp only; omega⟩, fun hp => ?_⟩
    simp only at hp
    have ha' := (s.over (u ++ y)).avail_length
    simp only [St.over_data, St.over_pos, List.length_append] at ha'
    unfold discard
    simp only [St.over_kind]
    cases hkk : s.kind with
    | plain => simp only; rw [if_neg (by omega), if_pos (by omega)]; rfl
    | discarder => simp only; rw [if_neg (by omega), if_pos (by omega)]; rfl
    | seeker => exact absurd hkk hk

theorem loc_clo (hz : z ≠ []) : Clo (@Loc u z y) where
  toCloR := loc_cloR
  lift x _ := loc_lift x
  align2 l := by
    unfold adjustAlign2
    split
    · exact loc_bareRead hz (Nat.le_refl 1)
    · exact loc_cloR.pure _
  discard n _ := loc_discard n
  emit ev := by
    intro s hd hk hc b s' e
    cases e
    exact ⟨⟨hd, hk, hc, Nat.le_refl _⟩, fun _ => rfl⟩

theorem loc_align4 (hz : z ≠ []) (l : Int) : Loc u z y (adjustAlign4 l) (adjustAlign4 l) := by
  unfold adjustAlign4
  simp only
  split
  · exact loc_bareRead hz (by omega)
  · exact loc_cloR.pure _

theorem loc_channelData (hz : z ≠ []) (h63 : (u ++ z).length < 2 ^ 63) (h63' : (u ++ y).length < 2 ^ 63) (env : Env) :
    ChannelDataOk (@Loc u z y) env := by
  intro method n dataLen read0 rect depth psb h0 _ _
  by_cases hl : dataLen > 2
  · by_cases hm : method = 2 ∨ method = 3
    · intro s hd hk hc a s' e
      rw [h0 hl] at e ⊢
      rw [readChannelData_zip env hm n hl rect depth psb s (by rw [hd]; exact h63)] at e
      unfold zipChannel at e
      obtain ⟨d, s₁, e1, e⟩ := P.bind_eq_ok.1 e
      obtain ⟨h1, rfl⟩ := P.lift_eq_ok.1 e1
      obtain ⟨l, s₂, e2, e⟩ := P.bind_eq_ok.1 e
      cases e
      obtain ⟨a1, a2⟩ := loc_discard (y := y) _ s hd hk hc _ _ e2
      refine ⟨a1, fun hp => ?_⟩
      rw [readChannelData_zip env hm n hl rect depth psb _ h63']
      unfold zipChannel
      obtain ⟨-, hpos, -⟩ := discard_eq_ok (by omega) e2
      refine P.bind_eq_ok.2 ⟨d, _, P.lift_eq_ok.2 ⟨?_, rfl⟩, P.bind_eq_ok.2 ⟨l, _, a2 hp, rfl⟩⟩
      rw [← h1]
      congr 1
      unfold St.avail
      rw [hd, St.over_data, St.over_pos]
      exact take_common (by rw [hpos] at hp; exact hp)
    · exact (loc_clo hz).channelDataNoZip loc_lift env (fun h => hm (.inl h)) (fun h => hm (.inr h))
        n dataLen read0 rect depth psb
  · exact (loc_clo hz).channelDataShort env method n hl read0 rect depth psb

theorem loc_pre (hz : z ≠ []) (h63 : (u ++ z).length < 2 ^ 63) (h63' : (u ++ y).length < 2 ^ 63) (env : Env)
    (o : Options) (m n : Nat) : Loc u z y (preF env o m n) (preF env o m n) := by
  have C := @loc_clo u z y hz
  have hf : ∀ n, FuelOk (@Loc u z y) n n := fun n => .inl ⟨rfl, by intro α s hd hk hc b s' e; cases e⟩
  unfold preF
  refine C.bind (C.decodeConfig (hf m)) fun ⟨cfg, read⟩ => Clo.ite (fun _ => C.fail _) fun _ => ?_
  refine C.bind (C.layerAndMaskInfo (fun h layer => C.extraData (loc_align4 hz) h layer)
    (C.channelImage (loc_channelData hz h63 h63' env) cfg) o (fun total read tree infos => ?_) (hf n)) fun ⟨psd, l⟩ => C.pure _
  unfold lmFinish
  refine C.bind (Clo.ite (fun _ => loc_discard _) fun _ => C.pure _) fun _ => ?_
  exact Clo.ite (fun _ => C.fail _) fun _ => C.pure _

end

theorem pc_pre {u x : List UInt8} (hx : (u ++ x).length < 2 ^ 63) (env : Env) (o : Options) (m n : Nat) :
    PC u x (preF env o m n) (preF env o m n) := by
  have C := @pc_clo u x
  unfold preF
  refine C.bind (C.decodeConfig (pc_fuel m)) fun ⟨cfg, read⟩ => Clo.ite (fun _ => C.fail _) fun _ => ?_
  exact C.bind (pc_layerAndMask hx env cfg o n) fun _ => C.pure _

/-- Reading the merged picture, rejecting all but raw and RLE data. -/
def postNZ (env : Env) (r : Config × PSD × Int) : P (PSD × Int) := do
  let cfg := r.1
  let plane := (cfg.rect.dx.toNat * cfg.depth + 7) / 8 * cfg.rect.dy.toNat
  let gk ← P.lift (match findGrayPicker cfg.depth with
    | none => Res.panic .nilDeref
    | some k => Res.ok k)
  let (k, pal) ← P.lift cfg.makePicker
  let _ ← P.lift (k.setSource cfg.rect (List.replicate cfg.channels []))
  let b ← readFull 2
  if b = [0, 0] ∨ b = [0, 1] then do
    let (data, l) ← cmDecode env (int16 (beAt b 0 2)) (List.replicate (plane * cfg.channels) 0) 0 cfg.rect
      cfg.depth cfg.channels cfg.psb
    let planes := mergedPlanes data plane cfg.channels 0
    pure ({ r.2.1 with
            data := data
            channel := mergedChannels gk cfg.rect planes 0
            picker := some { kind := k, rect := cfg.rect, src := planes.take k.arity,
                             palette := pal } },
          r.2.2 + (2 + l))
  else P.fail .eof

theorem postNZ_eq (env : Env) {o : Options} (ho : o.skipMergedImage = false) (r : Config × PSD × Int) (s : St)
    (h : s.avail.take 2 = [0, 0] ∨ s.avail.take 2 = [0, 1]) : postF env o r s = postNZ env r s := by
  unfold postF postNZ readMerged
  rw [ho]
  simp only [Bool.false_eq_true, if_false, P.bind_assoc', P.bind_apply]
  cases h1 : (P.lift (match findGrayPicker r.1.depth with
    | none => Res.panic .nilDeref
    | some k => Res.ok k) : P PickerKind) s with
  | ok a =>
    obtain ⟨gk, s₁⟩ := a
    obtain ⟨-, rfl⟩ := P.lift_eq_ok.1 h1
    simp only
    cases h2 : (P.lift r.1.makePicker : P _) s with
    | ok a =>
      obtain ⟨⟨k, pal⟩, s₁⟩ := a
      obtain ⟨-, rfl⟩ := P.lift_eq_ok.1 h2
      simp only
      cases h3 : (P.lift (k.setSource r.1.rect (List.replicate r.1.channels [])) : P _) s with
      | ok a =>
        obtain ⟨_, s₁⟩ := a
        obtain ⟨-, rfl⟩ := P.lift_eq_ok.1 h3
        simp only
        cases h4 : readFull 2 s with
        | ok a =>
          obtain ⟨b, s₁⟩ := a
          obtain ⟨-, rfl, -⟩ := readFull_eq_ok h4
          simp only
          rw [if_pos h]
          rfl
        | _ => rfl
      | _ => rfl
    | _ => rfl
  | _ => rfl

theorem CloR.postNZ {Q : ∀ {α : Type}, P α → P α → Prop} (C : CloR @Q) (hl : LiftOk @Q) (env : Env)
    (r : Config × PSD × Int) : Q (postNZ env r) (postNZ env r) := by
  unfold Psd.postNZ
  refine C.bind (hl _) fun gk => C.bind (hl _) fun ⟨k, pal⟩ => C.bind (hl _) fun _ => C.bind (C.readFull _) fun b => ?_
  refine Clo.ite (fun hb => C.bind (C.cmDecodeNoZip hl env ?_ ?_ _ _ _ _ _ _) fun _ => C.pure _) fun _ => C.fail _
  · rcases hb with rfl | rfl <;> decide
  · rcases hb with rfl | rfl <;> decide

/-! ### Other data after the consumed part, without skipping or padding -/

/-- As `Loc`, for programs that only read whole fields: no assumption on the reader is needed. -/
def LocR (u z y : List UInt8) {α : Type} (p _q : P α) : Prop := ∀ s, s.data = u ++ z → ∀ a s', p s = .ok (a, s') →
  (s'.data = u ++ z ∧ s.pos ≤ s'.pos) ∧ (s'.pos ≤ u.length → p (s.over (u ++ y)) = .ok (a, s'.over (u ++ y)))

theorem locR_lift {u z y : List UInt8} : LiftOk (@LocR u z y) := by
  intro α x s hd b s' e
  obtain ⟨h1, rfl⟩ := P.lift_eq_ok.1 e
  exact ⟨⟨hd, Nat.le_refl _⟩, fun _ => P.lift_eq_ok.2 ⟨h1, rfl⟩⟩

theorem locR_cloR {u z y : List UInt8} : CloR (@LocR u z y) where
  pure a := by
    intro s hd b s' e
    cases e
    exact ⟨⟨hd, Nat.le_refl _⟩, fun _ => rfl⟩
  bind := by
    intro α β p q f g h1 h2 s hd b s' e
    obtain ⟨a, s₁, e1, e2⟩ := P.bind_eq_ok.1 e
    obtain ⟨⟨a1, a5⟩, a4⟩ := h1 s hd _ _ e1
    obtain ⟨⟨b1, b5⟩, b4⟩ := h2 a s₁ a1 _ _ e2
    exact ⟨⟨b1, by omega⟩, fun hp => P.bind_eq_ok.2 ⟨a, _, a4 (by omega), b4 hp⟩⟩
  fail e := by intro s hd b s' e; cases e
  readFull k := by
    intro s hd b s' e
    obtain ⟨h1, h2, h3, sched, rfl, hs⟩ := readFull_eq_ok e
    exact ⟨⟨hd, by simp only; omega⟩, fun hp => readFull_over hd e hp⟩

theorem postNZ_reads {env : Env} {r : Config × PSD × Int} {s s' : St} {a : PSD × Int}
    (h : postNZ env r s = .ok (a, s')) : 2 ≤ s.avail.length := by
  unfold postNZ at h
  obtain ⟨_, _, e, h⟩ := P.bind_eq_ok.1 h
  obtain ⟨-, rfl⟩ := P.lift_eq_ok.1 e
  obtain ⟨⟨_, _⟩, _, e, h⟩ := P.bind_eq_ok.1 h
  obtain ⟨-, rfl⟩ := P.lift_eq_ok.1 e
  obtain ⟨_, _, e, h⟩ := P.bind_eq_ok.1 h
  obtain ⟨-, rfl⟩ := P.lift_eq_ok.1 e
  obtain ⟨_, _, e, h⟩ := P.bind_eq_ok.1 h
  exact (readFull_eq_ok e).1

theorem postNZ_advances {env : Env} {r : Config × PSD × Int} {s s' : St} {a : PSD × Int}
    (h : postNZ env r s = .ok (a, s')) : s.pos + 2 ≤ s'.pos := by
  have h2 := postNZ_reads h
  rw [s.avail_length] at h2
  refine Classical.byContradiction fun hn => ?_
  have hd : s.data = s.data.take (s.pos + 1) ++ s.data.drop (s.pos + 1) := (List.take_append_drop ..).symm
  obtain ⟨-, h3⟩ := (locR_cloR (y := [])).postNZ locR_lift env r s hd _ _ h
  have hl : (s.data.take (s.pos + 1)).length = s.pos + 1 := by simp; omega
  have h4 := postNZ_reads (h3 (by rw [hl]; omega))
  rw [St.avail_length, St.over_data, St.over_pos, List.append_nil, hl] at h4
  omega

end Psd
