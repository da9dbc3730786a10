import Verif.Lemmas.LayerRun
import Verif.Props.Codec
import Verif.Lemmas.Sim

/-
Layer pictures, layer sections and whole documents: running the decoder on the encoder's bytes.
-/

namespace Psd
open Spec (LayeredMode modeColors be twos wide Box MaskSpec InfoBlock Picture Layer LayerSection LayerMask Doc DocBlock Trailer
  lastInfo infoSection rowLen rowBytes rowMeaning Node recordsAll numberAll mapAll WellTypedAll)

/-! ### Against the specification -/

theorem maskOf_eq {m : MaskSpec} (h : m.Valid) (hl : 0 ≤ m.realBox.left) (ht : 0 ≤ m.realBox.top) :
    maskOf m = maskMeaning m := by
  cases m with
  | absent => rfl
  | short => rfl
  | full r c f ps rf rc rr =>
    simp only [MaskSpec.Valid] at h
    simp only [MaskSpec.realBox] at hl ht
    simp only [maskOf, maskMeaning, realRectOf_nonneg h.2.1 hl ht]
  | block b =>
    simp only [maskOf, blockMask, rawReal_eq hl ht]
    rfl

theorem recordOf_eq (i : Nat) {psb : Bool} {l : Layer} (h : l.Valid psb) (hr : l.RealMaskOnCanvas) :
    recordOf i l = layerMeaning i l := by
  unfold recordOf layerMeaning
  rw [maskOf_eq h.2.2.2.2.1 hr.1 hr.2]
  rfl

theorem channelRect_eq (i : Nat) (l : Layer) (id : Int) :
    channelRect (layerMeaning i l) id = rectOf (l.boxOf id) := by
  unfold channelRect Layer.boxOf
  by_cases h2 : id = -2
  · subst h2
    rw [if_neg (by decide), if_pos rfl, if_pos rfl]
    unfold layerMeaning
    cases l.mask <;> rfl
  · by_cases h3 : id = -3
    · subst h3
      rw [if_pos rfl, if_neg (by decide), if_pos rfl]
      unfold layerMeaning
      cases l.mask <;> rfl
    · rw [if_neg h3, if_neg h2, if_neg h2, if_neg h3]; rfl

/-! ### Pictures -/

/-- The compression method of a picture. -/
def methodOf : Picture → Nat
  | .raw _ _ => 0
  | .rle _ _ => 1
  | .zip _ _ => 2
  | .zipDelta _ _ _ => 3

/-- The data of a picture between the compression method and the unused bytes. -/
def payloadOf (psb : Bool) : Picture → List UInt8
  | .raw plane _ => plane
  | .rle rows _ => rleBytes psb rows
  | .zip packed _ => packed
  | .zipDelta packed _ _ => packed

theorem picture_bytes (psb : Bool) (p : Picture) :
    p.bytes psb = be 2 (methodOf p) ++ (payloadOf psb p ++ p.slack) := by
  cases p <;> simp [Picture.bytes, methodOf, payloadOf, Picture.slack, rleBytes]

theorem rle_plane_length {rows : List (List Spec.Packet)} {n : Nat}
    (h : ∀ r ∈ rows, (rowMeaning r).length = n) : (rows.flatMap rowMeaning).length = n * rows.length := by
  induction rows with
  | nil => simp
  | cons r rs ih =>
    rw [List.flatMap_cons, List.length_append, h r (by simp), ih fun x hx => h x (by simp [hx]),
      List.length_cons, Nat.mul_succ]
    omega

theorem rowLen_samples {sz depth w : Nat} (hsz : sz = 2 ∨ sz = 4) (hd : depth = 8 * sz) :
    rowLen depth w = w * sz := by
  unfold rowLen
  subst hd
  rcases hsz with rfl | rfl <;> omega

theorem plane_length {psb : Bool} {depth w h : Nat} {p : Picture} (hv : p.Valid psb depth w h) :
    p.plane.length = rowLen depth w * h := by
  cases p with
  | raw plane slack => exact hv
  | rle rows slack =>
    obtain ⟨h1, h2, h3, h4⟩ := hv
    show (rows.flatMap rowMeaning).length = _
    rw [rle_plane_length fun r hr => (h3 r hr).2.1, h1]
  | zip packed plane => exact hv.2
  | zipDelta packed sz rows =>
    obtain ⟨-, hsz, hd, h1, h2⟩ := hv
    show (Spec.planeBytes sz rows).length = _
    rw [planeBytes_length sz w rows fun r hr => (h2 r hr).1, h1, rowLen_samples hsz hd, Nat.mul_comm]

theorem method_lt (p : Picture) : methodOf p < 4 := by cases p <;> simp [methodOf]

theorem picture_run (env : Env) (hp : 1 ≤ env.procs) {psb : Bool} {depth w h ch : Nat} {p : Picture}
    (hv : p.Valid psb depth w (h * ch)) (hz : p.isZip = false) (rect : Rect) (hw : rect.dx.toNat = w)
    (hh : rect.dy.toNat = h) (hint : Int) :
    Runs (cmDecode env (methodOf p : Nat) (List.replicate (rowLen depth w * (h * ch)) 0) hint rect depth ch psb)
      (payloadOf psb p) (p.plane, ((payloadOf psb p).length : Int)) := by
  cases p with
  | raw plane slack =>
    show Runs (cmDecode env 0 _ hint rect depth ch psb) plane (plane, (plane.length : Int))
    unfold cmDecode
    rw [if_pos rfl]
    have hl : plane.length = rowLen depth w * (h * ch) := hv
    refine Runs.bind' (b₂ := []) (Runs.readFull (by rw [List.length_replicate]; exact hl)) (Runs.pure _)
      (List.append_nil _).symm
  | rle rows slack =>
    obtain ⟨h1, h2, h3, h4⟩ := hv
    subst hw hh
    exact rle_runs env hp rect depth h2 ch psb hint rows h1 h3 h4 _
      (by rw [List.length_replicate, h1, Nat.mul_comm])
  | zip packed plane => cases hz
  | zipDelta packed sz rows => cases hz

/-- The data of one channel that is compressed with ZIP. -/
theorem runs_channelZip (env : Env) {method : Int} (hm : method = 2 ∨ method = 3) {n : Nat} {rect : Rect} {depth : Nat}
    {psb : Bool} {packed plane : List UInt8} (h0 : packed ≠ []) (hz : zipOut env method packed n rect depth = .ok plane) :
    Runs (readChannelData env method n ((2 + packed.length : Nat) : Int) 2 rect depth psb) packed
      (plane, ((2 + packed.length : Nat) : Int)) := by
  have h1 : 0 < packed.length := List.length_pos_iff.2 h0
  have e : (((2 + packed.length : Nat) : Int) - 2) = (packed.length : Int) := by omega
  intro s rest hs he hav hpos
  rw [readChannelData_zip' env hm n (by omega) rect depth psb s (.inl (by rw [e]; simpa using hpos))]
  unfold zipChannel
  rw [e]
  have ht : s.avail.take (packed.length : Int).toNat = packed := by rw [hav]; simp
  rw [ht, hz]
  have hr : Runs (do
      let d ← P.lift (.ok plane)
      let _ ← discard (packed.length : Int)
      pure (d, ((2 + packed.length : Nat) : Int)) : P (List UInt8 × Int)) packed
      (plane, ((2 + packed.length : Nat) : Int)) :=
    Runs.bind' (b₁ := []) (Runs.lift rfl)
      (Runs.bind' (b₂ := []) (Runs.discard rfl) (Runs.pure _) (List.append_nil _).symm) rfl
  exact hr s rest hs he hav hpos

/-- The data of one channel that is not compressed with ZIP. -/
theorem runs_channelStored (env : Env) (hp : 1 ≤ env.procs) {psb : Bool} {depth w h : Nat} {p : Picture}
    (hv : p.Valid psb depth w h) (hz : p.isZip = false) (rect : Rect) (hw : rect.dx.toNat = w)
    (hh : rect.dy.toNat = h) :
    Runs (readChannelData env (methodOf p : Nat) (rowLen depth w * h) ((p.bytes psb).length : Nat) 2 rect depth psb)
      (payloadOf psb p ++ p.slack) (p.plane, ((p.bytes psb).length : Int)) := by
  have hb : (p.bytes psb).length = 2 + ((payloadOf psb p).length + p.slack.length) := by
    rw [picture_bytes]; simp
  unfold readChannelData
  refine Runs.bind (a := (p.plane, ((payloadOf psb p).length : Int))) ?_ ?_
  · by_cases h2 : ((p.bytes psb).length : Int) > 2
    · rw [if_pos h2]
      have := picture_run env hp (ch := 1) (by rw [Nat.mul_one]; exact hv) hz rect hw hh
        (((p.bytes psb).length : Int) - 2)
      rw [Nat.mul_one] at this
      exact this
    · rw [if_neg h2]
      have h0 : payloadOf psb p = [] := List.eq_nil_of_length_eq_zero (by omega)
      have hpl : p.plane = List.replicate (rowLen depth w * h) 0 := by
        have hl := plane_length hv
        cases p with
        | raw plane slack =>
          have : plane = [] := h0
          subst this
          have e : rowLen depth w * h = 0 := hl.symm
          rw [e]; rfl
        | rle rows slack =>
          have hrows : rows = [] := by
            cases rows with
            | nil => rfl
            | cons r rs =>
              have h5 := congrArg List.length h0
              have h6 : 1 ≤ wide psb / 2 := by cases psb <;> decide
              simp only [payloadOf, rleBytes, List.length_append, lengthTable_length, List.length_map,
                List.length_cons, List.length_nil, Nat.succ_mul] at h5
              omega
          subst hrows
          have e : rowLen depth w * h = 0 := hl.symm
          rw [e]; rfl
        | zip packed plane => cases hz
        | zipDelta packed sz rows => cases hz
      rw [h0, hpl]
      exact (Runs.pure _)
  · simp only
    refine Runs.bind' (a := (p.slack.length : Int)) (b₁ := p.slack) (b₂ := []) ?_ ?_ (List.append_nil _).symm
    · split
      · exact (Runs.discard (by omega)).congr rfl (by omega)
      · have : p.slack = [] := List.eq_nil_of_length_eq_zero (by omega)
        rw [this]; exact Runs.pure _
    · refine (Runs.pure _).congr rfl ?_
      congr 1; omega

/-- The data of one channel. -/
theorem runs_channelData (env : Env) (hp : 1 ≤ env.procs) {psb : Bool} {depth w h : Nat} {p : Picture}
    (hv : p.Valid psb depth w h) (hz : p.Inflates env.inflate) (rect : Rect) (hw : rect.dx.toNat = w)
    (hh : rect.dy.toNat = h) :
    Runs (readChannelData env (methodOf p : Nat) (rowLen depth w * h) ((p.bytes psb).length : Nat) 2 rect depth psb)
      (payloadOf psb p ++ p.slack) (p.plane, ((p.bytes psb).length : Int)) := by
  cases hzip : p.isZip with
  | false => exact runs_channelStored env hp hv hzip rect hw hh
  | true =>
    cases p with
    | raw => cases hzip
    | rle => cases hzip
    | zip packed plane =>
      have hb : (Picture.bytes psb (.zip packed plane)).length = 2 + packed.length := by
        simp [Picture.bytes]
      rw [hb]
      have e : payloadOf psb (.zip packed plane) ++ Picture.slack (.zip packed plane) = packed := List.append_nil _
      rw [e]
      refine runs_channelZip env (.inl rfl) hv.1 ?_
      unfold zipOut
      have hl := hv.2
      have h1 : env.inflate packed plane.length = some plane := hz
      rw [← hl, h1]
      simp [methodOf, Picture.plane]
    | zipDelta packed sz rows =>
      have hb : (Picture.bytes psb (.zipDelta packed sz rows)).length = 2 + packed.length := by
        simp [Picture.bytes]
      have hl := plane_length hv
      obtain ⟨h0, hsz, hd, hr, hrows⟩ := hv
      rw [hb]
      have e : payloadOf psb (.zipDelta packed sz rows) ++ Picture.slack (.zipDelta packed sz rows) = packed :=
        List.append_nil _
      rw [e]
      refine runs_channelZip env (.inr rfl) h0 ?_
      unfold zipOut
      have hl' : (Spec.planeBytes sz rows).length = rowLen depth w * h := hl
      have h1 : env.inflate packed (Spec.planeBytes sz rows).length = some (Spec.predicted sz rows) := hz
      have h2 : (Spec.predicted sz rows).length = (Spec.planeBytes sz rows).length := by
        rw [predicted_length sz w rows fun r hr => (hrows r hr).1,
          planeBytes_length sz w rows fun r hr => (hrows r hr).1]
      rw [← hl', h1]
      simp only [h2, if_true]
      rw [if_neg (by decide), hd, hw]
      exact delta_undone hsz hrows

theorem gray_found {depth : Nat} (h : depth ∈ [1, 8, 16, 32]) :
    findGrayPicker depth = some (grayKind depth) ∧ (grayKind depth).arity = 1 := by
  simp only [List.mem_cons, List.not_mem_nil, or_false] at h
  rcases h with rfl | rfl | rfl | rfl <;> exact ⟨rfl, rfl⟩

theorem planeSize_eq {b : Box} (hb : b.left ≤ b.right ∧ b.top ≤ b.bottom) {depth : Nat}
    (h : rowLen depth b.width * b.height ≤ 2 ^ 48) :
    planeSize (rectOf b) depth = ((rowLen depth b.width * b.height : Nat) : Int) := by
  have hdx : (rectOf b).dx = (b.width : Int) := by
    show b.right - b.left = ((b.right - b.left).toNat : Int); omega
  have hdy : (rectOf b).dy = (b.height : Int) := by
    show b.bottom - b.top = ((b.bottom - b.top).toNat : Int); omega
  unfold planeSize
  rw [hdx, hdy]
  have : ((b.width : Int) * depth + 7) / 8 * b.height = ((rowLen depth b.width * b.height : Nat) : Int) := by
    unfold rowLen; push_cast; rfl
  rw [this]
  exact wrap64_small (by omega) (by omega)

theorem boxOf_ordered {psb : Bool} {l : Layer} (h : l.Valid psb) (id : Int) :
    (l.boxOf id).left ≤ (l.boxOf id).right ∧ (l.boxOf id).top ≤ (l.boxOf id).bottom := by
  obtain ⟨h1, -, -, -, h5, -⟩ := h
  unfold Layer.boxOf
  split
  · cases hm : l.mask with
    | absent => simp [MaskSpec.box]
    | short r c f a b => rw [hm] at h5; exact ⟨h5.1.2.2.1, h5.1.1.2.1⟩
    | full r c f ps rf rc rr => rw [hm] at h5; exact ⟨h5.1.2.2.1, h5.1.1.2.1⟩
    | block b => have := boxAt_valid b 0; exact ⟨this.2.2.1, this.1.2.1⟩
  · split
    · cases hm : l.mask with
      | absent => simp [MaskSpec.realBox]
      | short r c f a b => simp [MaskSpec.realBox]
      | full r c f ps rf rc rr => rw [hm] at h5; exact ⟨h5.2.1.2.2.1, h5.2.1.1.2.1⟩
      | block b => have := realBox_valid b; exact ⟨this.2.2.1, this.1.2.1⟩
    · exact ⟨h1.2.2.1, h1.1.2.1⟩

/-- The effect of one channel on the planes collected for the layer's picture. -/
def stepPlanes (pcs : List (List UInt8)) (c : Int × Picture) : List (List UInt8) :=
  if c.1 ≥ 0 then pcs.set c.1.toNat c.2.plane
  else if c.1 = -1 then pcs ++ [c.2.plane]
  else pcs

/-- The decoded channel. -/
def channelOf (depth : Nat) (l : Layer) (c : Int × Picture) : Channel :=
  ⟨c.2.plane, { kind := grayKind depth, rect := rectOf (l.boxOf c.1), src := [c.2.plane] }⟩

theorem runs_channelImage (env : Env) (hp : 1 ≤ env.procs) {cfg : Config} (hd : cfg.depth ∈ [1, 8, 16, 32])
    {l : Layer} (hl : l.Valid cfg.psb) (i : Nat) (c : Int × Picture) {colors : Nat}
    (hv : c.2.Valid cfg.psb cfg.depth (l.boxOf c.1).width (l.boxOf c.1).height ∧
      rowLen cfg.depth (l.boxOf c.1).width * (l.boxOf c.1).height ≤ 2 ^ 48 ∧ c.1 < colors)
    (hz : c.2.Inflates env.inflate) (chMap : GoMap Int Channel) (pcs : List (List UInt8)) (hpcs : colors ≤ pcs.length) :
    Runs (readChannelImage env cfg (layerMeaning i l) ⟨c.1, ((c.2.bytes cfg.psb).length : Int)⟩ chMap pcs)
      (c.2.bytes cfg.psb)
      (chMap.set c.1 (channelOf cfg.depth l c), stepPlanes pcs c, ((c.2.bytes cfg.psb).length : Int)) := by
  obtain ⟨hv1, hv2, hv3⟩ := hv
  have hord := boxOf_ordered hl c.1
  have hb : (c.2.bytes cfg.psb).length = 2 + ((payloadOf cfg.psb c.2).length + c.2.slack.length) := by
    rw [picture_bytes]; simp
  have hm := method_lt c.2
  unfold readChannelImage
  simp only
  rw [if_pos (by omega)]
  generalize hN : (c.2.bytes cfg.psb).length = N at *
  rw [picture_bytes]
  refine Runs.bind (Runs.readFull (by simp)) ?_
  rw [beAt_last, Nat.mod_eq_of_lt (by omega)]
  have hint : int16 (methodOf c.2) = (methodOf c.2 : Int) := by
    unfold int16; simp only; split <;> omega
  rw [hint]
  unfold readChannelBody
  simp only
  rw [channelRect_eq]
  refine Runs.bind' (b₁ := []) (Runs.lift (by rw [planeSize_eq hord hv2]; exact goMake_nat hv2)) ?_ rfl
  refine Runs.bind' (b₁ := []) (a := grayKind cfg.depth)
    (Runs.lift (by rw [(gray_found hd).1])) ?_ rfl
  have hcd := runs_channelData env hp hv1 hz (rectOf (l.boxOf c.1)) rfl rfl
  rw [hN] at hcd
  refine Runs.bind' hcd (b₂ := []) ?_ (List.append_nil _).symm
  simp only
  rw [if_neg (by simp)]
  refine Runs.bind' (b₁ := []) (b₂ := [])
    (a := { kind := grayKind cfg.depth, rect := rectOf (l.boxOf c.1), src := [c.2.plane] })
    (Runs.lift ?_) ?_ rfl
  · unfold PickerKind.setSource
    rw [(gray_found hd).2]
    rfl
  · unfold stepPlanes
    by_cases h0 : c.1 ≥ 0
    · rw [if_pos h0, if_pos h0]
      have hlt : c.1.toNat < pcs.length := by omega
      refine Runs.bind' (b₁ := []) (b₂ := []) (a := pcs[c.1.toNat]) (Runs.lift ?_) (Runs.pure _) rfl
      unfold goIndex
      rw [List.getElem?_eq_getElem hlt]
    · rw [if_neg h0, if_neg h0]
      split
      · exact Runs.pure _
      · exact Runs.pure _

/-- The channel map after reading `cs`. -/
def storeChannels (depth : Nat) (l : Layer) (m : GoMap Int Channel) (cs : List (Int × Picture)) :
    GoMap Int Channel := cs.foldl (fun m c => m.set c.1 (channelOf depth l c)) m

theorem stepPlanes_length (pcs : List (List UInt8)) (c : Int × Picture) :
    pcs.length ≤ (stepPlanes pcs c).length := by
  unfold stepPlanes
  split
  · simp
  · split <;> simp

theorem runs_channelImages (env : Env) (hp : 1 ≤ env.procs) {cfg : Config} (hd : cfg.depth ∈ [1, 8, 16, 32])
    {l : Layer} (hl : l.Valid cfg.psb) (i : Nat) {colors : Nat} : ∀ (cs : List (Int × Picture)),
    (∀ c ∈ cs, c.2.Valid cfg.psb cfg.depth (l.boxOf c.1).width (l.boxOf c.1).height ∧
      rowLen cfg.depth (l.boxOf c.1).width * (l.boxOf c.1).height ≤ 2 ^ 48 ∧ c.1 < colors) →
    (∀ c ∈ cs, c.2.Inflates env.inflate) →
    ∀ (chMap : GoMap Int Channel) (pcs : List (List UInt8)), colors ≤ pcs.length →
    Runs (readChannelImages env cfg (layerMeaning i l)
        (cs.map fun c => ⟨c.1, ((c.2.bytes cfg.psb).length : Int)⟩) chMap pcs)
      (cs.flatMap fun c => c.2.bytes cfg.psb)
      (storeChannels cfg.depth l chMap cs, cs.foldl stepPlanes pcs,
        ((cs.flatMap fun c => c.2.bytes cfg.psb).length : Int)) := by
  intro cs
  induction cs with
  | nil => intro _ _ chMap pcs _; exact Runs.pure _
  | cons c cs ih =>
    intro h hz chMap pcs hpcs
    rw [List.map_cons, List.flatMap_cons]
    unfold readChannelImages
    refine Runs.bind (runs_channelImage env hp hd hl i c (h c (by simp)) (hz c (by simp)) chMap pcs hpcs) ?_
    simp only
    refine Runs.bind' (ih (fun x hx => h x (by simp [hx])) (fun x hx => hz x (by simp [hx])) _ _
      (Nat.le_trans hpcs (stepPlanes_length pcs c))) (b₂ := []) ?_ (List.append_nil _).symm
    refine (Runs.pure _).congr rfl ?_
    rw [List.length_append]
    push_cast
    rfl

/-! ### What the loops have collected -/

def lastIn (cs : List (Int × Picture)) (id : Int) : Option Picture :=
  (cs.reverse.find? fun c => c.1 = id).map Prod.snd

theorem lastIn_cons (c : Int × Picture) (cs : List (Int × Picture)) (id : Int) :
    lastIn (c :: cs) id = match lastIn cs id with
      | some p => some p
      | none => if c.1 = id then some c.2 else none := by
  unfold lastIn
  rw [List.reverse_cons, List.find?_append]
  cases hf : List.find? (fun r => decide (r.1 = id)) cs.reverse with
  | some x => simp
  | none =>
    simp only [Option.none_or, List.find?_cons, List.find?_nil]
    by_cases hid : c.1 = id <;> simp [hid]

theorem storeChannels_apply (depth : Nat) (l : Layer) : ∀ (cs : List (Int × Picture)) (m : GoMap Int Channel)
    (id : Int), storeChannels depth l m cs id = match lastIn cs id with
      | some p => some (channelOf depth l (id, p))
      | none => m id := by
  intro cs
  induction cs with
  | nil => intro m id; rfl
  | cons c cs ih =>
    intro m id
    show storeChannels depth l (m.set c.1 (channelOf depth l c)) cs id = _
    rw [ih, lastIn_cons]
    cases lastIn cs id with
    | some p => rfl
    | none =>
      simp only
      by_cases hid : c.1 = id
      · subst hid
        rw [GoMap.set_same, if_pos rfl]
      · rw [GoMap.set_other _ _ (fun e => hid e.symm), if_neg hid]

theorem storeChannels_eq (depth : Nat) (l : Layer) :
    storeChannels depth l GoMap.empty l.channels = channelsMeaning depth l := by
  funext id
  rw [storeChannels_apply]
  show _ = (lastIn l.channels id).map _
  cases lastIn l.channels id <;> rfl

def alphasIn (cs : List (Int × Picture)) : List (List UInt8) :=
  (cs.filter fun c => c.1 = -1).map fun c => c.2.plane

theorem foldl_step (n : Nat) : ∀ (cs : List (Int × Picture)) (A B : List (List UInt8)),
    A.length = n → (∀ c ∈ cs, c.1 < n) →
    cs.foldl stepPlanes (A ++ B) =
      ((List.range n).map fun (j : Nat) => match lastIn cs j with
        | some p => p.plane
        | none => A[j]?.getD []) ++ (B ++ alphasIn cs) := by
  intro cs
  induction cs with
  | nil =>
    intro A B hA _
    simp only [List.foldl_nil, alphasIn, List.filter_nil, List.map_nil, List.append_nil]
    congr 1
    apply List.ext_getElem
    · simp [hA]
    · intro k h1 h2
      simp [lastIn, h1]
  | cons c cs ih =>
    intro A B hA h
    rw [List.foldl_cons]
    have hc := h c (by simp)
    by_cases h0 : c.1 ≥ 0
    · have hlt : c.1.toNat < A.length := by omega
      have e1 : stepPlanes (A ++ B) c = A.set c.1.toNat c.2.plane ++ B := by
        unfold stepPlanes
        rw [if_pos h0, List.set_append_left _ _ hlt]
      have e2 : alphasIn (c :: cs) = alphasIn cs := by
        unfold alphasIn
        rw [List.filter_cons_of_neg (by simp; omega)]
      rw [e1, ih _ _ (by simp [hA]) (fun x hx => h x (by simp [hx])), e2]
      congr 1
      apply List.map_congr_left
      intro j hj
      rw [List.mem_range] at hj
      rw [lastIn_cons]
      cases lastIn cs j with
      | some p => rfl
      | none =>
        simp only
        by_cases hid : c.1 = (j : Int)
        · rw [if_pos hid]
          have : c.1.toNat = j := by omega
          rw [this, List.getElem?_set_self (by omega)]
          rfl
        · rw [if_neg hid, List.getElem?_set_ne (by omega)]
    · have e1 : ∃ B', stepPlanes (A ++ B) c = A ++ B' ∧ B' ++ alphasIn cs = B ++ alphasIn (c :: cs) := by
        unfold stepPlanes
        rw [if_neg h0]
        by_cases h1 : c.1 = -1
        · rw [if_pos h1]
          refine ⟨B ++ [c.2.plane], by simp, ?_⟩
          unfold alphasIn
          rw [List.filter_cons_of_pos (by simp [h1])]
          simp
        · rw [if_neg h1]
          refine ⟨B, rfl, ?_⟩
          unfold alphasIn
          rw [List.filter_cons_of_neg (by simp [h1])]
      obtain ⟨B', e1, e2⟩ := e1
      rw [e1, ih A B' hA (fun x hx => h x (by simp [hx])), e2]
      congr 1
      apply List.map_congr_left
      intro j hj
      rw [lastIn_cons]
      cases lastIn cs j with
      | some p => rfl
      | none =>
        simp only
        rw [if_neg (by omega)]

theorem planes_eq (l : Layer) (n : Nat) (h : ∀ c ∈ l.channels, c.1 < n) :
    l.channels.foldl stepPlanes (List.replicate n []) =
      ((List.range n).map fun (j : Nat) => match l.lastChannel j with
        | some p => p.plane
        | none => []) ++ alphasIn l.channels := by
  have := foldl_step n l.channels (List.replicate n []) [] (by simp) h
  rw [List.append_nil, List.nil_append] at this
  rw [this]
  congr 1
  apply List.map_congr_left
  intro j hj
  rw [List.mem_range] at hj
  show (match lastIn l.channels j with | some p => p.plane | none => _) =
    (match lastIn l.channels j with | some p => p.plane | none => [])
  cases lastIn l.channels j with
  | some p => rfl
  | none => simp [hj]

/-! ### Layers with pictures -/

theorem alphasIn_nil_iff (cs : List (Int × Picture)) :
    alphasIn cs = [] ↔ (cs.any fun c => c.1 = -1) = false := by
  unfold alphasIn
  rw [List.map_eq_nil_iff, List.filter_eq_nil_iff]
  simp

theorem channels_eq {mode : Int} {depth : Nat} (h : LayeredMode mode depth) :
    ColorMode.channels mode = ((modeColors mode : Nat) : Int) := by
  unfold LayeredMode at h
  rcases h with ⟨rfl | rfl, -⟩ | ⟨rfl, -⟩ <;> rfl

theorem findPicker_layered {mode : Int} {depth : Nat} (h : LayeredMode mode depth) (alpha : Bool) :
    findPicker depth mode alpha = some (.planes (modeColors mode) (depth / 8) alpha) := by
  unfold LayeredMode at h
  simp only [List.mem_cons, List.not_mem_nil, or_false] at h
  rcases h with ⟨rfl | rfl, rfl | rfl | rfl⟩ | ⟨rfl, rfl | rfl⟩ <;> rfl

theorem layered_depth {mode : Int} {depth : Nat} (h : LayeredMode mode depth) : depth ∈ [1, 8, 16, 32] := by
  unfold LayeredMode at h
  simp only [List.mem_cons, List.not_mem_nil, or_false] at h ⊢
  omega

/-- The picker made from the collected planes. -/
theorem picker_eq {mode : Int} {depth : Nat} (h : LayeredMode mode depth) (l : Layer)
    (hl : ∀ c ∈ l.channels, c.1 < (modeColors mode : Nat)) :
    (match findPicker depth mode
        (decide (ColorMode.channels mode <
          ((l.channels.foldl stepPlanes (List.replicate (modeColors mode) [])).length : Int))) with
      | none => Res.panic .nilDeref
      | some k => k.setSource (rectOf l.rect)
          (l.channels.foldl stepPlanes (List.replicate (modeColors mode) []))) =
      .ok (pictureMeaning (modeColors mode) depth l) := by
  rw [findPicker_layered h, planes_eq l _ hl, channels_eq h]
  generalize hC : ((List.range (modeColors mode)).map fun (j : Nat) => match l.lastChannel j with
    | some p => p.plane
    | none => []) = C
  have hCl : C.length = modeColors mode := by rw [← hC]; simp
  generalize modeColors mode = n at *
  simp only
  have ha := alphasIn_nil_iff l.channels
  have hpm : pictureMeaning n depth l =
      ({ kind := .planes n (depth / 8) (l.channels.any fun c => c.1 = -1), rect := rectOf l.rect,
         src := C ++ (alphasIn l.channels).take 1 } : Picker) := by rw [← hC]; rfl
  rw [hpm]
  unfold PickerKind.setSource
  cases hany : (l.channels.any fun c => decide (c.1 = -1)) with
  | false =>
    rw [hany] at ha
    have h0 := ha.2 rfl
    rw [h0, List.append_nil]
    have : decide ((n : Int) < (C.length : Int)) = false := by simp; omega
    rw [this]
    unfold PickerKind.arity
    simp only [Bool.false_eq_true, if_false]
    rw [if_pos (by omega), List.take_of_length_le (by omega)]
    simp
  | true =>
    rw [hany] at ha
    have h0 : alphasIn l.channels ≠ [] := fun e => by simpa using ha.1 e
    have h1 : 0 < (alphasIn l.channels).length := List.length_pos_iff.2 h0
    have : decide ((n : Int) < ((C ++ alphasIn l.channels).length : Int)) = true := by
      simp only [List.length_append]; exact decide_eq_true (by omega)
    rw [this]
    unfold PickerKind.arity
    simp only [if_true]
    rw [if_pos (by simp only [List.length_append]; omega)]
    rw [List.take_append, List.take_of_length_le (by omega)]
    have : n + 1 - C.length = 1 := by omega
    rw [this]

/-- The layers of a section, numbered from `i`. -/
def layersFrom (f : Nat → Layer → LayerRec) : Nat → List Layer → List LayerRec
  | _, [] => []
  | i, l :: ls => f i l :: layersFrom f (i + 1) ls

/-- The calls of `LayerImageLoaded` for `n` layers, numbered from `i`, of `total`. -/
def eventsFrom (total : Nat) : Nat → Nat → List Event
  | _, 0 => []
  | i, n + 1 => ⟨i, i, total⟩ :: eventsFrom total (i + 1) n

theorem emit_runs (e : Event) : RunsE (P.emit e) [] () [e] := by
  intro s rest _ _ _ _
  rfl

theorem recordsFrom_eq (psb : Bool) : ∀ (ls : List Layer) (i : Nat),
    (∀ l ∈ ls, l.Valid psb ∧ l.RealMaskOnCanvas) →
    (recordsFrom psb i ls).map Prod.fst = layersFrom layerMeaning i ls ∧
    (recordsFrom psb i ls).length = ls.length := by
  intro ls
  induction ls with
  | nil => intro i _; exact ⟨rfl, rfl⟩
  | cons l ls ih =>
    intro i h
    obtain ⟨h1, h2⟩ := ih (i + 1) fun x hx => h x (by simp [hx])
    unfold recordsFrom layersFrom
    rw [List.map_cons, h1, List.length_cons, h2, recordOf_eq i (h l (by simp)).1 (h l (by simp)).2]
    exact ⟨rfl, rfl⟩

theorem runs_layerImages (env : Env) (hp : 1 ≤ env.procs) {cfg : Config} (o : Options) (total : Nat) :
    ∀ (ls : List Layer) (i : Nat), (ls = [] ∨ LayeredMode cfg.colorMode cfg.depth) →
    (∀ l ∈ ls, l.Valid cfg.psb ∧ l.PicturesValid cfg.psb cfg.depth (modeColors cfg.colorMode) ∧
      l.RealMaskOnCanvas) → (∀ l ∈ ls, l.Inflates env.inflate) →
    RunsE (readLayerImages env cfg o total i (recordsFrom cfg.psb i ls))
      (ls.flatMap (Layer.pictures cfg.psb))
      (layersFrom (layerFull (modeColors cfg.colorMode) cfg.depth) i ls,
        ((ls.flatMap (Layer.pictures cfg.psb)).length : Int))
      (if o.layerImageLoaded then eventsFrom total i ls.length else []) := by
  intro ls
  induction ls with
  | nil =>
    intro i _ _ _
    refine (Runs.pure _).toE.congr rfl rfl ?_
    split <;> rfl
  | cons l ls ih =>
    intro i hm h hz
    have hm : LayeredMode cfg.colorMode cfg.depth := by
      rcases hm with h | h
      · cases h
      · exact h
    obtain ⟨hv, hpv, hr⟩ := h l (by simp)
    unfold recordsFrom readLayerImages
    rw [List.flatMap_cons]
    have h4 : modeColors cfg.colorMode ≤ 4 := by
      unfold modeColors; split
      · omega
      · split <;> omega
    refine Runs.bindE' (b₁ := []) (Runs.lift (by rw [channels_eq hm]; exact goMake_nat (by omega))) ?_ rfl
    rw [recordOf_eq i hv hr]
    refine Runs.bindE (runs_channelImages env hp (layered_depth hm) hv i l.channels hpv (hz l (by simp)) GoMap.empty
      (List.replicate (modeColors cfg.colorMode) []) (by simp)) ?_
    simp only
    rw [storeChannels_eq]
    refine Runs.bindE' (b₁ := []) (Runs.lift (picker_eq hm l fun c hc => (hpv c hc).2.2)) ?_ rfl
    refine RunsE.bind' (b₁ := []) (a := ())
      (e₁ := if o.layerImageLoaded then [⟨i, i, total⟩] else [])
      (e₂ := if o.layerImageLoaded then eventsFrom total (i + 1) ls.length else []) ?_ ?_ rfl ?_
    · split
      · exact emit_runs _
      · exact (Runs.pure ()).toE
    · refine RunsE.bind' (ih (i + 1) (.inr hm) (fun x hx => h x (by simp [hx])) fun x hx => hz x (by simp [hx])) (b₂ := []) (e₂ := []) ?_
        (List.append_nil _).symm (List.append_nil _).symm
      refine (Runs.pure _).toE.congr rfl ?_ rfl
      rw [List.length_append]
      push_cast
      rfl
    · split <;> rfl

/-! ### Layer sections -/

/-- The layers of a section, as they are returned. -/
def sectionLayers (skip : Bool) (colors depth : Nat) (ls : List Layer) : List LayerRec :=
  layersFrom (fun i l => if skip then layerMeaning i l else layerFull colors depth i l) 0 ls

theorem layersFrom_congr {f g : Nat → Layer → LayerRec} (h : ∀ i l, f i l = g i l) : ∀ (ls : List Layer) (i : Nat),
    layersFrom f i ls = layersFrom g i ls := by
  intro ls
  induction ls with
  | nil => intro i; rfl
  | cons l ls ih => intro i; unfold layersFrom; rw [h, ih]

/-- The calls of `LayerImageLoaded` for a section of `n` layers. -/
def sectionEvents (o : Options) (n : Nat) : List Event :=
  if o.layerImageLoaded ∧ ¬ o.skipLayerImage then eventsFrom n 0 n else []

theorem get4or8_wide (psb : Bool) : get4or8 psb = wide psb := by cases psb <;> rfl

theorem wide_be_at (psb : Bool) {n : Nat} (h : n < 2 ^ (if psb then 62 else 32)) :
    int64 (beAt (be (wide psb) n) 0 (wide psb)) = (n : Int) ∧ n + wide psb < 2 ^ 63 := by
  cases psb
  · simp only [wide, Bool.false_eq_true, if_false] at h ⊢
    rw [beAt_last, Nat.mod_eq_of_lt (by omega)]
    exact ⟨int64_nat (by omega), by omega⟩
  · simp only [wide, if_true] at h ⊢
    rw [beAt_last, Nat.mod_eq_of_lt (by omega)]
    exact ⟨int64_nat (by omega), by omega⟩

theorem count_field {n : Nat} (h : n < 2 ^ 15) (neg : Bool) :
    (if twos 16 (if neg then -(n : Int) else n) ≥ 0x8000 then
        (0x10000 - twos 16 (if neg then -(n : Int) else n)) % 0x10000
      else twos 16 (if neg then -(n : Int) else n)) = n := by
  unfold twos
  cases neg
  · simp only [Bool.false_eq_true, if_false]
    split <;> omega
  · simp only [if_true]
    split <;> omega

theorem runs_layerInfo (env : Env) (hp : 1 ≤ env.procs) {cfg : Config} (o : Options) (fuel : Nat)
    {s : LayerSection} (hv : s.Valid cfg.psb cfg.depth (modeColors cfg.colorMode))
    (hm : s.layers = [] ∨ LayeredMode cfg.colorMode cfg.depth)
    (hz : ∀ l ∈ s.layers, l.Inflates env.inflate)
    (hf : ∀ l ∈ s.layers, (l.extra cfg.psb).length < fuel + 1) :
    RunsE (readLayerInfo env cfg o (fuel + 2)) (s.bytes cfg.psb)
      (some (sectionLayers o.skipLayerImage (modeColors cfg.colorMode) cfg.depth s.layers),
        ((s.bytes cfg.psb).length : Int)) (sectionEvents o s.layers.length) := by
  obtain ⟨h1, -, h3, h4⟩ := hv
  obtain ⟨hbe, hlt⟩ := wide_be_at cfg.psb h4
  have hadd : readAdditionalLayerInfo env cfg o (fuel + 1) =
      fun n => readAdditionalWith (readLayerInfo env cfg o fuel) cfg.psb n (fuel + 1) := by
    funext n; rw [readAdditionalLayerInfo]
  rw [readLayerInfo, hadd]
  unfold readLayerInfoWith LayerSection.bytes
  simp only [get4or8_wide]
  have hbl : (s.body cfg.psb).length = 2 + (s.layers.flatMap (Layer.record cfg.psb)).length +
      (s.layers.flatMap (Layer.pictures cfg.psb)).length + s.slack.length := by
    unfold LayerSection.body; simp only [List.length_append, be_length]
  generalize hN : (s.body cfg.psb).length = N at *
  refine Runs.bindE (Runs.readFull (by simp)) ?_
  rw [hbe, if_neg (by omega)]
  have hbody : s.body cfg.psb =
      be 2 (twos 16 (if s.negated then -(s.layers.length : Int) else s.layers.length)) ++
      (s.layers.flatMap (Layer.record cfg.psb) ++ (s.layers.flatMap (Layer.pictures cfg.psb) ++ s.slack)) := by
    unfold LayerSection.body; simp only [List.append_assoc]
  rw [hbody]
  refine Runs.bindE (Runs.readFull (by simp)) ?_
  rw [beAt_last, Nat.mod_eq_of_lt (twos_lt 16 _)]
  rw [count_field h1]
  refine Runs.bindE (runs_layerRecords (readLayerInfo env cfg o fuel) cfg.psb (fuel + 1) s.layers 0
    fun l hl => ⟨(h3 l hl).1, hf l hl⟩) ?_
  simp only
  obtain ⟨hr1, hr2⟩ := recordsFrom_eq cfg.psb s.layers 0 fun l hl => ⟨(h3 l hl).1, (h3 l hl).2.2⟩
  rw [wrap64_small (by omega) (by omega)]
  by_cases hsk : o.skipLayerImage
  · simp only [hsk, if_true]
    have hev : sectionEvents o s.layers.length = [] := by unfold sectionEvents; simp [hsk]
    rw [hev]
    refine Runs.bindE' (b₁ := []) (b₂ := s.layers.flatMap (Layer.pictures cfg.psb) ++ s.slack) (Runs.pure _) ?_ rfl
    simp only
    have hXl : (s.layers.flatMap (Layer.pictures cfg.psb) ++ s.slack).length =
        (s.layers.flatMap (Layer.pictures cfg.psb)).length + s.slack.length := List.length_append
    generalize hX : s.layers.flatMap (Layer.pictures cfg.psb) ++ s.slack = X at hXl ⊢
    refine Runs.bindE' (a := (X.length : Int)) (b₁ := X) (b₂ := []) ?_ ?_ (List.append_nil _).symm
    · split
      · exact (Runs.discard (by omega)).congr rfl (by omega)
      · have : X = [] := List.eq_nil_of_length_eq_zero (by omega)
        rw [this]; exact Runs.pure _
    · refine (Runs.pure _).toE.congr rfl ?_ rfl
      have e : (recordsFrom cfg.psb 0 s.layers).map (fun x => x.fst) = sectionLayers true (modeColors cfg.colorMode) cfg.depth s.layers := by
        unfold sectionLayers
        exact hr1
      rw [e]
      simp only [List.length_append, be_length]
      congr 1
      omega
  · simp only [hsk, Bool.false_eq_true, if_false]
    have hev : sectionEvents o s.layers.length =
        (if o.layerImageLoaded then eventsFrom s.layers.length 0 s.layers.length else []) := by
      unfold sectionEvents; simp [hsk]
    rw [hev, hr2]
    refine RunsE.bind' (runs_layerImages env hp o s.layers.length s.layers 0 hm h3 hz) ?_ rfl
      (List.append_nil _).symm
    simp only
    refine Runs.bindE' (a := (s.slack.length : Int)) (b₁ := s.slack) (b₂ := []) ?_ ?_ (List.append_nil _).symm
    · split
      · exact (Runs.discard (by omega)).congr rfl (by omega)
      · have : s.slack = [] := List.eq_nil_of_length_eq_zero (by omega)
        rw [this]; exact Runs.pure _
    · refine (Runs.pure _).toE.congr rfl ?_ rfl
      simp only [List.length_append, be_length]
      unfold sectionLayers
      simp only [Bool.false_eq_true, if_false]
      congr 1
      omega

end Psd
