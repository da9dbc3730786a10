import Verif.Lemmas.PlaneLen

/-
Numbering of the layers and the calls of `LayerImageLoaded`, for arbitrary input.
-/

namespace Psd

/-! ### Functions without callbacks -/

/-- `p` makes no callback. -/
def Quiet {α : Type} (p _q : P α) : Prop := ∀ s a s', p s = .ok (a, s') → s'.log = s.log

theorem quiet_bareRead (k : Nat) : Quiet (bareRead k) (bareRead k) := by
  intro s a s' h
  obtain ⟨_, m, _, _, _, _, rfl, _⟩ := bareRead_eq_ok h
  rfl

theorem quiet_discard (n : Int) : Quiet (discard n) (discard n) := by
  intro s a s' h
  unfold discard at h
  cases hk : s.kind <;> simp only [hk] at h <;> (repeat' split at h) <;> cases h <;> rfl

theorem quiet_clo : Clo0 @Quiet where
  pure _ := by intro s b s' h; cases h; rfl
  bind := by
    intro α β p q f g h1 h2 s b s' h
    obtain ⟨a, s₁, e1, e2⟩ := P.bind_eq_ok.1 h
    exact (h2 a _ _ _ e2).trans (h1 _ _ _ e1)
  fail _ := by intro s b s' h; cases h
  lift _ _ := by intro s b s' h; obtain ⟨_, rfl⟩ := P.lift_eq_ok.1 h; rfl
  readFull k := by
    intro s b s' h
    obtain ⟨_, _, _, sched, rfl, hs⟩ := readFull_eq_ok h
    rfl
  align2 l := by
    unfold adjustAlign2
    split
    · exact quiet_bareRead _
    · intro s b s' h; cases h; rfl
  discard n _ := quiet_discard n

theorem quiet_lift : LiftOk @Quiet := by
  intro α x s b s' h
  obtain ⟨_, rfl⟩ := P.lift_eq_ok.1 h; rfl

theorem quiet_zlib (env : Env) (w : Nat) (k : Int) : Quiet (decodeZLIB env w k) (decodeZLIB env w k) := by
  intro s b s' h
  obtain ⟨n, _, _, rfl, _⟩ := decodeZLIB_eq_ok h
  rfl

theorem quiet_align4 (l : Int) : Quiet (adjustAlign4 l) (adjustAlign4 l) := by
  unfold adjustAlign4
  simp only
  split
  · exact quiet_bareRead _
  · intro s b s' h; cases h; rfl

theorem quiet_fuel (n : Nat) : FuelOk @Quiet n n := .inl ⟨rfl, by intro α s b s' h; cases h⟩

theorem quiet_channel (env : Env) (cfg : Config) : ChannelOk @Quiet env cfg :=
  quiet_clo.channelImage (quiet_clo.channelDataAll quiet_lift env (quiet_zlib env)) cfg

/-! ### Layer sections -/

/-- The callbacks for a section of `n` layers. -/
def sectionCalls (n : Nat) : List Event := (List.range n).map fun j => ⟨j, j, n⟩

/-- The callbacks for the sections `gs`. -/
def calls (o : Options) (gs : List (List LayerRec)) : List Event :=
  if o.layerImageLoaded ∧ ¬ o.skipLayerImage then gs.flatMap fun g => sectionCalls g.length else []

/-- A section: its layers are numbered from 0 and their channels have the right size. -/
def Sect (o : Options) (d : Nat) (g : List LayerRec) : Prop :=
  g.map LayerRec.seqID = List.range g.length ∧ ∀ l ∈ g, l.Sized o d

/-- The layers `r a` returned by `p` are those of some sections; in each they are numbered from 0,
and the callbacks are those for these sections. -/
def Grp (o : Options) (d : Nat) {α : Type} (p : P α) (r : α → List LayerRec) : Prop := ∀ s a s', p s = .ok (a, s') →
  ∃ gs : List (List LayerRec), r a = gs.flatten ∧ (∀ g ∈ gs, Sect o d g) ∧
    s'.log = s.log ++ calls o gs

theorem calls_append (o : Options) (a b : List (List LayerRec)) : calls o (a ++ b) = calls o a ++ calls o b := by
  unfold calls; split <;> simp

theorem calls_empty (o : Options) {gs : List (List LayerRec)} (h : gs.flatten = []) : calls o gs = [] := by
  unfold calls
  split
  · refine List.flatMap_eq_nil_iff.2 fun g hg => ?_
    rw [List.flatten_eq_nil_iff.1 h g hg]; rfl
  · rfl

namespace Grp
variable {o : Options} {d : Nat} {α β : Type}

theorem pure {a : α} {r : α → List LayerRec} (h : r a = []) : Grp o d (Pure.pure a) r := by
  intro s b s' e; cases e
  exact ⟨[], by rw [h]; rfl, by simp, by simp [calls_empty]⟩

theorem fail {e : Err} {r : α → List LayerRec} : Grp o d (P.fail e : P α) r := by intro s b s' h; cases h

theorem outOfFuel {r : α → List LayerRec} : Grp o d (P.outOfFuel : P α) r := by intro s b s' h; cases h

/-- A silent step first. -/
theorem quiet {p : P α} {f : α → P β} {r : β → List LayerRec} (h1 : Quiet p p) (h2 : ∀ a, Grp o d (f a) r) :
    Grp o d (p >>= f) r := by
  intro s b s' e
  obtain ⟨a, s₁, e1, e2⟩ := P.bind_eq_ok.1 e
  obtain ⟨gs, h3, h4, h5⟩ := h2 a _ _ _ e2
  exact ⟨gs, h3, h4, by rw [h5, h1 _ _ _ e1]⟩

/-- A silent step after layers have been read. -/
theorem thenQuiet {p : P α} {f : α → P β} {r : α → List LayerRec} {t : β → List LayerRec} (h1 : Grp o d p r)
    (h2 : ∀ a, Quiet (f a) (f a)) (h3 : ∀ a, Ens (f a) fun b => t b = r a) : Grp o d (p >>= f) t := by
  intro s b s' e
  obtain ⟨a, s₁, e1, e2⟩ := P.bind_eq_ok.1 e
  obtain ⟨gs, h4, h5, h6⟩ := h1 _ _ _ e1
  exact ⟨gs, by rw [h3 a _ _ _ e2, h4], h5, by rw [h2 a _ _ _ e2, h6]⟩

theorem ite {c : Prop} [Decidable c] {p q : P α} {r : α → List LayerRec} (h1 : c → Grp o d p r)
    (h2 : ¬c → Grp o d q r) : Grp o d (if c then p else q) r := by
  split
  · exact h1 ‹_›
  · exact h2 ‹_›

/-- Only an empty list of layers is accepted. -/
theorem quietly {p : P α} {f : α → P β} {r : α → List LayerRec} (h1 : Grp o d p r)
    (h2 : ∀ a, r a = [] → Quiet (f a) (f a)) (h3 : ∀ a, Ens (f a) fun _ => r a = []) :
    Quiet (p >>= f) (p >>= f) := by
  intro s b s' e
  obtain ⟨a, s₁, e1, e2⟩ := P.bind_eq_ok.1 e
  obtain ⟨gs, h4, _, h6⟩ := h1 _ _ _ e1
  have hr := h3 a _ _ _ e2
  rw [h2 a hr _ _ _ e2, h6, calls_empty o (by rw [← h4, hr]), List.append_nil]

end Grp

theorem grp_addlLoop {o : Options} {d : Nat} {li : P (Option (List LayerRec) × Int)} (hli : Grp o d li fun r => r.1.getD [])
    (psb : Bool) (infoLen : Int) (b : Nat) : ∀ fuel infos layers read s a s',
    addlLoop li psb infoLen b fuel infos layers read s = .ok (a, s') →
    ∃ gs : List (List LayerRec), a.2.1 = layers ++ gs.flatten ∧
      (∀ g ∈ gs, Sect o d g) ∧ s'.log = s.log ++ calls o gs := by
  have base : ∀ (infos : Infos) (layers : List LayerRec) (read : Int) (s : St) a s',
      (Pure.pure (infos, layers, read) : P _) s = .ok (a, s') → ∃ gs : List (List LayerRec),
        a.2.1 = layers ++ gs.flatten ∧
        (∀ g ∈ gs, Sect o d g) ∧ s'.log = s.log ++ calls o gs := by
    intro infos layers read s a s' e
    cases e
    exact ⟨[], by simp, by simp, by simp [calls_empty]⟩
  intro fuel
  induction fuel with
  | zero =>
    intro infos layers read s a s' e
    rw [addlLoop.eq_def] at e; simp only at e
    split at e
    · cases e
    · exact base _ _ _ _ _ _ e
  | succ n ih =>
    intro infos layers read s a s' e
    rw [addlLoop.eq_def] at e; simp only at e
    split at e
    · obtain ⟨⟨b0, read'⟩, s₁, e1, e⟩ := P.bind_eq_ok.1 e
      have q1 := quiet_clo.scan infoLen _ _ (quiet_fuel b) _ _ _ _ _ e1
      simp only at e
      split at e
      · obtain ⟨gs, h⟩ := base _ _ _ _ _ _ e
        exact ⟨gs, h.1, h.2.1, by rw [h.2.2, q1]⟩
      · obtain ⟨b7, s₂, e2, e⟩ := P.bind_eq_ok.1 e
        have q2 := quiet_clo.readFull _ _ _ _ e2
        split at e
        · cases e
        · split at e
          · obtain ⟨⟨layrs, l⟩, s₃, e3, e⟩ := P.bind_eq_ok.1 e
            obtain ⟨gs₁, a1, a2, a3⟩ := hli _ _ _ e3
            obtain ⟨gs₂, b1, b2, b3⟩ := ih _ _ _ _ _ _ e
            refine ⟨gs₁ ++ gs₂, ?_, ?_, ?_⟩
            · rw [b1, List.flatten_append, ← a1, List.append_assoc]
            · intro g hg
              rcases List.mem_append.1 hg with hg | hg
              · exact a2 g hg
              · exact b2 g hg
            · rw [b3, a3, q2, q1, calls_append, List.append_assoc]
          · obtain ⟨bl, s₃, e3, e⟩ := P.bind_eq_ok.1 e
            have q3 := quiet_clo.readFull _ _ _ _ e3
            split at e
            · obtain ⟨k, s₄, e4, e⟩ := P.bind_eq_ok.1 e
              have q4 := quiet_lift _ _ _ _ e4
              obtain ⟨d, s₅, e5, e⟩ := P.bind_eq_ok.1 e
              have q5 := quiet_clo.readFull _ _ _ _ e5
              obtain ⟨gs, h⟩ := ih _ _ _ _ _ _ e
              exact ⟨gs, h.1, h.2.1, by rw [h.2.2, q5, q4, q3, q2, q1]⟩
            · obtain ⟨gs, h⟩ := ih _ _ _ _ _ _ e
              exact ⟨gs, h.1, h.2.1, by rw [h.2.2, q3, q2, q1]⟩
    · exact base _ _ _ _ _ _ e

theorem grp_additionalWith {o : Options} {d : Nat} {li : P (Option (List LayerRec) × Int)}
    (hli : Grp o d li fun r => r.1.getD []) (psb : Bool) (infoLen : Int) (b : Nat) :
    Grp o d (readAdditionalWith li psb infoLen b) fun r => r.2.1 := by
  unfold readAdditionalWith
  refine Grp.thenQuiet (r := fun r => r.2.1) ?_ (fun ⟨i, l, r⟩ => ?_) (fun ⟨i, l, r⟩ => ?_)
  · intro s a s' e
    obtain ⟨gs, h⟩ := grp_addlLoop hli psb infoLen b _ _ _ _ _ _ _ e
    exact ⟨gs, by simpa using h.1, h.2⟩
  · exact Clo.ite (fun _ => quiet_clo.fail _) fun _ => quiet_clo.pure _
  · exact Ens.ite (fun _ => Ens.fail) fun _ => Ens.pure rfl

/-- No callbacks are made for a layer record. -/
theorem quiet_extraData {o : Options} {d : Nat} {addl : Int → P (Infos × List LayerRec × Int)}
    (h : ∀ n, Grp o d (addl n) fun r => r.2.1) (layer : LayerRec) :
    Quiet (readLayerExtraData addl layer) (readLayerExtraData addl layer) := by
  unfold readLayerExtraData
  refine quiet_clo.bind (quiet_clo.readFull _) fun _ => Clo.ite (fun _ => quiet_clo.pure _) fun _ => ?_
  refine quiet_clo.bind (quiet_clo.maskData _) fun ⟨mask, l⟩ => quiet_clo.bind (quiet_clo.readFull _) fun b => ?_
  refine quiet_clo.bind (Clo.ite (fun _ => quiet_discard _) fun _ => quiet_clo.pure _) fun l => ?_
  refine quiet_clo.bind quiet_clo.pascal fun ⟨nm, l2⟩ => quiet_clo.bind (quiet_align4 _) fun l3 => ?_
  refine Grp.quietly (o := o) (d := d) (r := fun r => r.2.1) (Grp.ite (fun _ => h _) fun _ => Grp.pure rfl)
    (fun ⟨infos, layers, l⟩ _ => ?_) (fun ⟨infos, layers, l⟩ => ?_)
  · exact Clo.ite (fun _ => quiet_clo.fail _) fun _ => Clo.ite (fun _ => quiet_clo.fail _) fun _ => quiet_clo.pure _
  · refine Ens.ite (fun _ => Ens.fail) fun h => ?_
    have h : layers = [] := by simpa using h
    exact Ens.ite (fun _ => Ens.fail) fun _ => Ens.pure h

theorem quiet_layerRecords {o : Options} {d : Nat} {addl : Int → P (Infos × List LayerRec × Int)}
    (h : ∀ n, Grp o d (addl n) fun r => r.2.1) (psb : Bool) : ∀ n i,
    Quiet (readLayerRecords addl psb n i) (readLayerRecords addl psb n i) := by
  intro n
  induction n with
  | zero => intro i; exact quiet_clo.pure _
  | succ n ih =>
    intro i
    rw [readLayerRecords]
    refine quiet_clo.bind ?_ fun ⟨layer, chs, l⟩ => quiet_clo.bind (ih _) fun _ => quiet_clo.pure _
    unfold readLayerRecord
    refine quiet_clo.bind (quiet_clo.readFull _) fun _ => quiet_clo.bind (quiet_clo.readFull _) fun _ => ?_
    refine quiet_clo.bind (quiet_clo.channelList _ _) fun _ => quiet_clo.bind (quiet_clo.readFull _) fun _ => ?_
    refine Clo.ite (fun _ => quiet_clo.fail _) fun _ => quiet_clo.bind (quiet_extraData h _) fun ⟨layer, l⟩ => ?_
    exact quiet_clo.bind (quiet_lift _) fun _ => quiet_clo.pure _

/-- The calls for the layers numbered from `i` on. -/
theorem layerImages_calls (env : Env) (cfg : Config) (o : Options) (total : Nat) : ∀ recs i s ls s',
    (∀ x ∈ recs, x.1.Ok) → (recs.map fun x => x.1.seqID) = List.range' i recs.length →
    readLayerImages env cfg o total i recs s = .ok (ls, s') →
    ls.1.map LayerRec.seqID = List.range' i recs.length ∧
    s'.log = s.log ++ if o.layerImageLoaded then (List.range' i recs.length).map fun j => ⟨j, j, total⟩ else [] := by
  intro recs
  induction recs with
  | nil => intro i s ls s' _ _ e; cases e; simp
  | cons x recs ih =>
    intro i s ls s' hok hseq e
    obtain ⟨layer, chs⟩ := x
    rw [List.map_cons, List.length_cons, List.range'_succ] at hseq
    have hi : layer.seqID = i := (List.cons.inj hseq).1
    have hr := (List.cons.inj hseq).2
    unfold readLayerImages at e
    obtain ⟨n, s₁, e1, e⟩ := P.bind_eq_ok.1 e
    have q1 := quiet_lift _ _ _ _ e1
    obtain ⟨⟨m, pcs, l⟩, s₂, e2, e⟩ := P.bind_eq_ok.1 e
    have q2 := quiet_clo.channelImages (quiet_channel env cfg) layer (hok _ (List.mem_cons_self ..)) _ _ _ _ _ _ e2
    obtain ⟨pk, s₃, e3, e⟩ := P.bind_eq_ok.1 e
    have q3 := quiet_lift _ _ _ _ e3
    obtain ⟨u, s₄, e4, e⟩ := P.bind_eq_ok.1 e
    obtain ⟨⟨ls', l'⟩, s₅, e5, e⟩ := P.bind_eq_ok.1 e
    cases e
    obtain ⟨h1, h2⟩ := ih (i + 1) _ _ _ (fun x hx => hok x (List.mem_cons_of_mem _ hx)) hr e5
    rw [List.length_cons, List.range'_succ]
    refine ⟨?_, ?_⟩
    · rw [List.map_cons, h1, hi]
    · rw [h2]
      rw [P.ite_app] at e4
      by_cases hc : o.layerImageLoaded = true
      · rw [if_pos hc] at e4
        cases e4
        simp [hc, q1, q2, q3, hi]
      · rw [if_neg hc] at e4
        cases e4
        simp [hc, q1, q2, q3]

theorem grp_layerInfoWith (env : Env) (cfg : Config) (o : Options)
    {addl : Int → P (Infos × List LayerRec × Int)} (h : ∀ n, Grp o cfg.depth (addl n) fun r => r.2.1) :
    Grp o cfg.depth (readLayerInfoWith env cfg o addl) fun r => r.1.getD [] := by
  unfold readLayerInfoWith
  refine Grp.quiet (quiet_clo.readFull _) fun b => Grp.ite (fun _ => Grp.pure rfl) fun _ => ?_
  refine Grp.quiet (quiet_clo.readFull _) fun b => ?_
  intro s a s' e
  obtain ⟨⟨recs, l⟩, s₁, e1, e⟩ := P.bind_eq_ok.1 e
  have q1 := quiet_layerRecords h _ _ _ _ _ _ e1
  obtain ⟨h2, h1⟩ := ens_layerRecords _ _ _ _ _ _ _ e1
  obtain ⟨⟨ls, l'⟩, s₂, e2, e⟩ := P.bind_eq_ok.1 e
  obtain ⟨l'', s₃, e3, e⟩ := P.bind_eq_ok.1 e
  cases e
  have q3 : s'.log = s₂.log := by
    rw [P.ite_app] at e3
    split at e3
    · exact quiet_discard _ _ _ _ e3
    · cases e3; rfl
  have hn := congrArg List.length h1
  simp only [List.length_map, List.length_range'] at hn h1
  rw [← hn] at h1
  rw [P.ite_app] at e2
  refine ⟨[ls], by simp, ?_, ?_⟩
  · simp only [List.mem_singleton, forall_eq]
    split at e2
    · rename_i hsk
      cases e2
      refine ⟨?_, fun l hl => ?_⟩
      case refine_2 =>
        obtain ⟨x, hx, rfl⟩ := List.mem_map.1 hl
        exact ⟨h2 x hx, fun hs => absurd hsk (by rw [hs]; decide)⟩
      rw [List.map_map, List.length_map, List.range_eq_range', ← h1]; rfl
    · refine ⟨?_, sized_layers env cfg o _ _ _ h2 _ _ _ e2⟩
      have := (layerImages_calls env cfg o _ _ _ _ _ _ h2 h1 e2).1
      have hl := congrArg List.length this
      simp only [List.length_map, List.length_range'] at hl this
      rw [this, hl, List.range_eq_range']
  · rw [q3]
    split at e2
    · rename_i hsk
      cases e2
      rw [q1]; simp [calls, hsk]
    · rename_i hsk
      have := layerImages_calls env cfg o _ _ _ _ _ _ h2 h1 e2
      have hl := congrArg List.length this.1
      simp only [List.length_map, List.length_range'] at hl
      rw [this.2, q1]
      unfold calls sectionCalls
      by_cases ho : o.layerImageLoaded = true
      · simp [ho, hsk, hl, List.range_eq_range']
      · simp [ho]

theorem grp_layerInfo (env : Env) (cfg : Config) (o : Options) : ∀ fuel,
    Grp o cfg.depth (readLayerInfo env cfg o fuel) (fun r => r.1.getD []) ∧
    ∀ n, Grp o cfg.depth (readAdditionalLayerInfo env cfg o fuel n) fun r => r.2.1 := by
  intro fuel
  induction fuel with
  | zero =>
    refine ⟨?_, fun n => ?_⟩
    · rw [readLayerInfo]; exact Grp.outOfFuel
    · rw [readAdditionalLayerInfo]; exact Grp.outOfFuel
  | succ k ih =>
    refine ⟨?_, fun n => ?_⟩
    · rw [readLayerInfo]; exact grp_layerInfoWith _ _ _ ih.2
    · rw [readAdditionalLayerInfo]; exact grp_additionalWith ih.1 _ _ _

/-- For a document: the tree is built from the layers of some sections. -/
def GrpDoc (o : Options) {α : Type} (p : P α) (r : α → List (LTree LayerRec)) (dep : α → Nat) : Prop :=
  ∀ s a s', p s = .ok (a, s') → ∃ gs : List (List LayerRec),
    buildTree LayerRec.sdType gs.flatten = .ok (r a) ∧
    (∀ g ∈ gs, Sect o (dep a) g) ∧ s'.log = s.log ++ calls o gs

theorem grpDoc_quiet {o : Options} {α β : Type} {p : P α} {f : α → P β} {r : β → List (LTree LayerRec)} {dep : β → Nat}
    (h1 : Quiet p p) (h2 : ∀ a, GrpDoc o (f a) r dep) : GrpDoc o (p >>= f) r dep := by
  intro s b s' e
  obtain ⟨a, s₁, e1, e2⟩ := P.bind_eq_ok.1 e
  obtain ⟨gs, h3, h4, h5⟩ := h2 a _ _ _ e2
  exact ⟨gs, h3, h4, by rw [h5, h1 _ _ _ e1]⟩

theorem grp_layerAndMask (env : Env) (cfg : Config) (o : Options) (fuel : Nat) :
    GrpDoc o (readLayerAndMaskInfo env cfg o fuel) (fun r => r.1.layer) fun r => r.1.config.depth := by
  unfold readLayerAndMaskInfo
  refine grpDoc_quiet (quiet_clo.readFull _) fun b => ?_
  intro s a s' e
  simp only at e
  rw [P.ite_app] at e
  split at e
  · cases e
    exact ⟨[], rfl, by simp, by simp [calls_empty]⟩
  · obtain ⟨⟨layer, l⟩, s₁, e1, e⟩ := P.bind_eq_ok.1 e
    have g1 : ∃ gs : List (List LayerRec), layer.getD [] = gs.flatten ∧
        (∀ g ∈ gs, Sect o cfg.depth g) ∧ s₁.log = s.log ++ calls o gs := by
      rw [P.ite_app] at e1
      split at e1
      · exact (grp_layerInfo env cfg o fuel).1 _ _ _ e1
      · cases e1; exact ⟨[], rfl, by simp, by simp [calls_empty]⟩
    obtain ⟨l1, s₂, e2, e⟩ := P.bind_eq_ok.1 e
    have q2 := quiet_clo.globalMask _ _ _ _ e2
    obtain ⟨⟨infos, layer2, l2⟩, s₃, e3, e⟩ := P.bind_eq_ok.1 e
    have g2 : ∃ gs : List (List LayerRec), layer2 = gs.flatten ∧
        (∀ g ∈ gs, Sect o cfg.depth g) ∧ s₃.log = s₂.log ++ calls o gs := by
      rw [P.ite_app] at e3
      split at e3
      · exact (grp_layerInfo env cfg o fuel).2 _ _ _ _ e3
      · cases e3; exact ⟨[], rfl, by simp, by simp [calls_empty]⟩
    obtain ⟨gs₁, a1, a2, a3⟩ := g1
    obtain ⟨gs₂, b1, b2, b3⟩ := g2
    simp only at e
    rw [P.ite_app] at e
    split at e
    · cases e
    · rename_i hc
      obtain ⟨tree, s₄, e4, e⟩ := P.bind_eq_ok.1 e
      obtain ⟨ht, rfl⟩ := P.lift_eq_ok.1 e4
      obtain ⟨l3, s₅, e5, e⟩ := P.bind_eq_ok.1 e
      have q5 : s₅.log = s₃.log := by
        rw [P.ite_app] at e5
        split at e5
        · exact quiet_discard _ _ _ _ e5
        · cases e5; rfl
      rw [P.ite_app] at e
      split at e
      · cases e
      · cases e
        refine ⟨gs₁ ++ gs₂, ?_, ?_, ?_⟩
        · simp only
          rw [← ht, List.flatten_append, ← a1, ← b1]
          congr 1
          by_cases h2 : layer2 = []
          · simp [h2]
          · rw [if_pos h2]
            cases layer with
            | none => rfl
            | some x => exact absurd ⟨rfl, h2⟩ hc
        · intro g hg
          rcases List.mem_append.1 hg with hg | hg
          · exact a2 g hg
          · exact b2 g hg
        · rw [q5, b3, q2, a3, calls_append, List.append_assoc]

theorem grp_decode (env : Env) (o : Options) : GrpDoc o (decode env o) (fun r => r.1.layer) fun r => r.1.config.depth := by
  intro s a s' e
  rw [decode_eq env o s (m := s.data.length + 1) (n := s.data.length + 3) (by omega) (by omega)] at e
  unfold decodeF at e
  refine grpDoc_quiet (r := fun r : PSD × Int => r.1.layer) (dep := fun r => r.1.config.depth) (quiet_clo.decodeConfig (quiet_fuel _))
    (fun ⟨cfg, read⟩ => ?_) s a s' e
  intro s a s' e
  simp only at e
  rw [P.ite_app] at e
  split at e
  · cases e
  · obtain ⟨⟨psd, l⟩, s₁, e1, e⟩ := P.bind_eq_ok.1 e
    obtain ⟨gs, h1, h2, h3⟩ := grp_layerAndMask _ _ _ _ _ _ _ e1
    simp only at e
    rw [P.ite_app] at e
    split at e
    · cases e
      exact ⟨gs, h1, h2, h3⟩
    · obtain ⟨⟨psd', l'⟩, s₂, e2, e⟩ := P.bind_eq_ok.1 e
      cases e
      have q := quiet_clo.merged cfg psd quiet_lift
        (fun _ => quiet_clo.cmDecode quiet_lift env (quiet_zlib env) _ _ _ _ _ _ _) _ _ _ e2
      have hl : psd'.layer = psd.layer ∧ psd'.config = psd.config := by
        unfold readMerged at e2
        obtain ⟨_, _, _, e2⟩ := P.bind_eq_ok.1 e2
        obtain ⟨⟨_, _⟩, _, _, e2⟩ := P.bind_eq_ok.1 e2
        obtain ⟨_, _, _, e2⟩ := P.bind_eq_ok.1 e2
        obtain ⟨_, _, _, e2⟩ := P.bind_eq_ok.1 e2
        obtain ⟨⟨_, _⟩, _, _, e2⟩ := P.bind_eq_ok.1 e2
        cases e2; exact ⟨rfl, rfl⟩
      exact ⟨gs, by simp only [hl.1]; exact h1, by simp only [hl.2]; exact h2, by rw [q, h3]⟩

end Psd
