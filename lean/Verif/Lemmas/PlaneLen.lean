import Verif.Lemmas.Count

/-!
# Decompressing never changes the size of a plane
-/

namespace Psd

theorem pbLine_len (buf : List UInt8) (ln : Nat) : ∀ (fuel i : Nat) (dest : List UInt8) w rest, pbLine buf ln fuel i dest = .ok (w, rest) →
    w.length + rest.length = dest.length := by
  intro fuel
  induction fuel with
  | zero =>
    intro i dest w rest h
    rw [pbLine] at h
    split at h
    · cases h
    · cases h; simp
  | succ n ih =>
    intro i dest w rest h
    rw [pbLine] at h
    split at h
    · split at h
      · cases h
      · simp only at h
        split at h
        · split at h
          · cases h
          · split at h
            · rename_i e
              cases h
              have := ih _ _ _ _ e
              rw [List.length_drop] at this
              rw [List.length_append, List.length_append, List.length_drop, List.length_take, List.length_take]
              omega
            · rename_i r hr
              exact (hr _ _ h).elim
        · split at h
          · exact ih _ _ _ _ h
          · split at h
            · cases h
            · split at h
              · cases h
              · split at h
                · rename_i e
                  cases h
                  have := ih _ _ _ _ e
                  rw [List.length_drop] at this
                  rw [List.length_append, List.length_replicate]
                  omega
                · rename_i r hr
                  exact (hr _ _ h).elim
    · cases h; simp

theorem perLine_len : ∀ (lens : List Nat) (dest buf d : List UInt8), decodePackBitsPerLine dest buf lens = .ok d → d.length = dest.length
  | [], dest, buf, d, h => by cases h; rfl
  | ln :: lens, dest, buf, d, h => by
    rw [decodePackBitsPerLine] at h
    obtain ⟨⟨w, rest⟩, e1, h⟩ := Res.bind_eq_ok.1 h
    obtain ⟨b', e2, h⟩ := Res.bind_eq_ok.1 h
    obtain ⟨d', e3, h⟩ := Res.bind_eq_ok.1 h
    cases h
    have h1 := pbLine_len _ _ _ _ _ _ _ e1
    have h2 := perLine_len lens _ _ _ e3
    rw [List.length_append]
    omega

theorem goSlice_len {α : Type} {l d : List α} {a b : Nat} (h : goSlice l a b = .ok d) : a ≤ b ∧ b ≤ l.length ∧ d.length = b - a := by
  unfold goSlice at h
  split at h
  · cases h
    refine ⟨by omega, by omega, ?_⟩
    simp
    omega
  · cases h

theorem pbTasks_len (dest buf : List UInt8) (lens offsets : List Nat) (width step : Nat) : ∀ (k ofs : Nat) ts,
    pbTasks dest buf lens offsets width step k ofs = .ok ts →
    ofs * width ≤ dest.length ∧ (ts.map fun t => t.dest.length).sum = dest.length - ofs * width
  | 0, ofs, ts, h => by
    rw [pbTasks] at h
    obtain ⟨d, e1, h⟩ := Res.bind_eq_ok.1 h
    obtain ⟨o, e2, h⟩ := Res.bind_eq_ok.1 h
    obtain ⟨b, e3, h⟩ := Res.bind_eq_ok.1 h
    obtain ⟨ls, e4, h⟩ := Res.bind_eq_ok.1 h
    cases h
    have := goSlice_len e1
    simp
    omega
  | k + 1, ofs, ts, h => by
    rw [pbTasks] at h
    obtain ⟨d, e1, h⟩ := Res.bind_eq_ok.1 h
    obtain ⟨o, e2, h⟩ := Res.bind_eq_ok.1 h
    obtain ⟨o', e3, h⟩ := Res.bind_eq_ok.1 h
    obtain ⟨b, e4, h⟩ := Res.bind_eq_ok.1 h
    obtain ⟨ls, e5, h⟩ := Res.bind_eq_ok.1 h
    obtain ⟨rest, e6, h⟩ := Res.bind_eq_ok.1 h
    cases h
    have h1 := goSlice_len e1
    have h2 := pbTasks_len dest buf lens offsets width step k _ _ e6
    simp only [List.map_cons, List.sum_cons]
    omega

theorem pbJoin_len (f : PBTask → Res (List UInt8)) (hf : ∀ t d, f t = .ok d → d.length = t.dest.length) : ∀ (ts : List PBTask) d,
    pbJoin (ts.map f) = .ok d → d.length = (ts.map fun t => t.dest.length).sum
  | [], d, h => by cases h; rfl
  | t :: ts, d, h => by
    rw [List.map_cons] at h
    cases e1 : f t with
    | ok d1 =>
      cases e2 : pbJoin (ts.map f) with
      | ok d2 =>
        simp only [pbJoin, e1, e2] at h
        cases h
        rw [List.length_append, hf _ _ e1, pbJoin_len f hf ts _ e2]
        rfl
      | _ => simp only [pbJoin, e1, e2] at h; cases h
    | _ =>
      cases e2 : pbJoin (ts.map f) <;> (simp only [pbJoin, e1, e2] at h; cases h)

theorem packBitsRows_len {procs : Nat} {dest buf : List UInt8} {lens : List Nat} {width : Nat} {d : List UInt8}
    (h : packBitsRows procs dest buf lens width = .ok d) : d.length = dest.length := by
  unfold packBitsRows at h
  simp only at h
  split at h
  · exact perLine_len _ _ _ _ h
  · split at h
    · cases h
    · obtain ⟨ts, e1, h⟩ := Res.bind_eq_ok.1 h
      rw [pbJoin_len _ (fun t d hd => perLine_len _ _ _ _ hd) _ _ h]
      have := (pbTasks_len _ _ _ _ _ _ _ _ _ e1).2
      simpa using this

theorem deltaRows_len (sz width : Nat) : ∀ (fuel : Nat) (buf d : List UInt8), deltaRows sz width fuel buf = .ok d → d.length = buf.length
  | fuel, [], d, h => by
    rw [deltaRows.eq_def] at h
    cases h; rfl
  | 0, b :: bs, d, h => by cases h
  | fuel + 1, b :: bs, d, h => by
    rw [deltaRows.eq_def] at h
    simp only at h
    obtain ⟨⟨row, rest⟩, e1, h⟩ := Res.bind_eq_ok.1 h
    obtain ⟨rows, e2, h⟩ := Res.bind_eq_ok.1 h
    cases h
    have h1 := (deltaRow_len _ _ _ _).2 _ _ e1
    have h2 := deltaRows_len sz width fuel _ _ e2
    simp only at h1 h2 ⊢
    rw [List.length_append]
    omega

theorem decodeDelta_len {buf d : List UInt8} {width depth : Nat} (h : decodeDelta buf width depth = .ok d) : d.length = buf.length := by
  unfold decodeDelta at h
  split at h
  · exact deltaRows_len _ _ _ _ _ h
  · split at h
    · exact deltaRows_len _ _ _ _ _ h
    · cases h; rfl

theorem cmDecode_len (env : Env) (method : Int) (dest : List UInt8) (hint : Int) (rect : Rect) (depth channels : Nat) (large : Bool) :
    Ens (cmDecode env method dest hint rect depth channels large) fun r => r.1.length = dest.length := by
  unfold cmDecode
  refine Ens.ite (fun _ => ?_) fun _ => Ens.ite (fun _ => ?_) fun _ => Ens.ite (fun _ => ?_) fun _ => Ens.ite (fun _ => ?_) fun _ => Ens.fail
  · intro s a s' h
    obtain ⟨d, s₁, e1, e2⟩ := P.bind_eq_ok.1 h
    cases e2
    exact (readFull_eq_ok e1).2.2.1
  · unfold decodePackBits
    intro s a s' h
    obtain ⟨_, _, _, h⟩ := P.bind_eq_ok.1 h
    obtain ⟨_, _, _, h⟩ := P.bind_eq_ok.1 h
    obtain ⟨_, _, _, h⟩ := P.bind_eq_ok.1 h
    obtain ⟨d, _, e, h⟩ := P.bind_eq_ok.1 h
    cases h
    exact packBitsRows_len (P.lift_eq_ok.1 e).1
  · intro s a s' h
    obtain ⟨_, _, _, _, h, _⟩ := decodeZLIB_eq_ok h
    exact h
  · intro s a s' h
    obtain ⟨⟨d, r⟩, s₁, e1, h⟩ := P.bind_eq_ok.1 h
    obtain ⟨d', s₂, e2, h⟩ := P.bind_eq_ok.1 h
    cases h
    obtain ⟨_, _, _, _, h, _⟩ := decodeZLIB_eq_ok e1
    exact (decodeDelta_len (P.lift_eq_ok.1 e2).1).trans h

/-- Every channel read for a layer with the rectangles of `l` has the size its rectangle asks for. -/
def SizedMap (depth : Nat) (l : LayerRec) (m : GoMap Int Channel) : Prop :=
  ∀ id c, m id = some c → (c.data.length : Int) = planeSize (channelRect l id) depth

theorem sized_body (env : Env) (cfg : Config) (layer : LayerRec) (ch : ChannelData) (m : GoMap Int Channel) (pcs : List (List UInt8))
    (method readCh : Int) (hm : SizedMap cfg.depth layer m) :
    Ens (readChannelBody env cfg layer ch m pcs method readCh) fun r => SizedMap cfg.depth layer r.1 := by
  unfold readChannelBody
  simp only
  intro s a s' h
  obtain ⟨n, s₁, e1, h⟩ := P.bind_eq_ok.1 h
  obtain ⟨pk, s₂, e2, h⟩ := P.bind_eq_ok.1 h
  obtain ⟨⟨data, rc⟩, s₃, e3, h⟩ := P.bind_eq_ok.1 h
  have hn : (n : Int) = planeSize (channelRect layer ch.chIndex) cfg.depth := by
    have := (P.lift_eq_ok.1 e1).1
    unfold goMake at this
    split at this
    · cases this
      omega
    · cases this
  have hd : data.length = n := by
    unfold readChannelData at e3
    obtain ⟨⟨d, l⟩, s₄, e4, e3⟩ := P.bind_eq_ok.1 e3
    obtain ⟨l', s₅, e5, e3⟩ := P.bind_eq_ok.1 e3
    cases e3
    have := (Ens.ite (R := fun r : List UInt8 × Int => r.1.length = n)
      (fun _ => (cmDecode_len env method (List.replicate n 0) (ch.dataLen - 2) (channelRect layer ch.chIndex) cfg.depth 1 cfg.psb).mono
        fun r hr => by rw [hr, List.length_replicate])
      (fun _ => Ens.pure (by simp))) _ _ _ e4
    exact this
  have key : ∀ pk', SizedMap cfg.depth layer (m.set ch.chIndex ⟨data, pk'⟩) := by
    intro pk' id c hc
    unfold GoMap.set at hc
    split at hc
    · rename_i e
      cases hc
      rw [e, hd, hn]
    · exact hm id c hc
  simp only at h
  rw [P.ite_app] at h
  split at h
  · cases h
  · obtain ⟨pk', s₄, e4, h⟩ := P.bind_eq_ok.1 h
    rw [P.ite_app] at h
    split at h
    · obtain ⟨_, s₅, e5, h⟩ := P.bind_eq_ok.1 h
      cases h
      exact key _
    · rw [P.ite_app] at h
      split at h <;> (cases h; exact key _)

theorem sized_channels (env : Env) (cfg : Config) (layer : LayerRec) : ∀ (chs : List ChannelData) (m : GoMap Int Channel) (pcs : List (List UInt8)),
    SizedMap cfg.depth layer m → Ens (readChannelImages env cfg layer chs m pcs) fun r => SizedMap cfg.depth layer r.1
  | [], m, pcs, hm => Ens.pure hm
  | ch :: chs, m, pcs, hm => by
    unfold readChannelImages
    refine Ens.bind (R := fun r => SizedMap cfg.depth layer r.1) ?_ fun ⟨m', pcs', l⟩ h => ?_
    · unfold readChannelImage
      refine Ens.ite (fun _ => Ens.bind_any fun b => sized_body _ _ _ _ _ _ _ _ hm) fun _ => sized_body _ _ _ _ _ _ _ _ hm
    · refine Ens.bind (sized_channels env cfg layer chs m' pcs' h) fun ⟨m'', pcs'', l'⟩ h' => ?_
      exact Ens.pure h'

theorem findPicker_depth {d : Nat} {m : ColorMode} {a : Bool} {k : PickerKind} (h : findPicker d m a = some k) : d = 8 ∨ d = 16 ∨ d = 32 := by
  unfold findPicker findNGrayPicker findNRGBAPicker findNCMYKAPicker at h
  repeat' split at h
  all_goals first
    | (cases h; done)
    | omega

/-- The rectangles are sane and, if pictures are read, the depth is one that pictures can have, and every channel of the layer has the size its rectangle asks for. -/
def LayerRec.Sized (o : Options) (depth : Nat) (l : LayerRec) : Prop :=
  l.Ok ∧ (o.skipLayerImage = false → (depth = 8 ∨ depth = 16 ∨ depth = 32) ∧ SizedMap depth l l.channel)

theorem sized_layers (env : Env) (cfg : Config) (o : Options) (total : Nat) : ∀ recs i, (∀ x ∈ recs, x.1.Ok) →
    Ens (readLayerImages env cfg o total i recs) fun r => ∀ l ∈ r.1, l.Sized o cfg.depth
  | [], i, _ => Ens.pure (by simp)
  | (layer, chs) :: rest, i, hok => by
    unfold readLayerImages
    refine Ens.bind_any fun n => Ens.bind (sized_channels env cfg layer chs _ _ (by intro id c h; cases h)) fun ⟨m, pcs, l⟩ h => ?_
    refine Ens.bind (R := fun _ => cfg.depth = 8 ∨ cfg.depth = 16 ∨ cfg.depth = 32) (Ens.lift fun a ha => ?_) fun pk hd => ?_
    · split at ha
      · cases ha
      · exact findPicker_depth (by assumption)
    refine Ens.bind_any fun _ => Ens.bind (sized_layers env cfg o total rest (i + 1) fun x hx => hok x (List.mem_cons_of_mem _ hx)) fun ⟨ls, l'⟩ h' => Ens.pure ?_
    intro x hx
    rcases List.mem_cons.1 hx with rfl | hx
    · exact ⟨hok (layer, chs) (List.mem_cons_self ..), fun _ => ⟨hd, h⟩⟩
    · exact h' x hx

end Psd
