import Verif.Spec.Paint
import Verif.Lemmas.Renderer

/-!
# Drawing with right caches is painting
-/

namespace Psd

/-- Copying changes nothing, and there is no blend mode `pass`. -/
structure ExactOps {P M : Type} (ops : PicOps P M) : Prop where
  copy_id : ∀ p, ops.copy p = p
  no_pass : ∀ o b x y, ops.draw o passThrough b x ≠ .ok y

section
variable {P M : Type} {ops : PicOps P M}

/-- The picture of every folder that is drawn stands being copied. -/
def Settled (ops : PicOps P M) : Stk P M → (forced : Bool) → Ctx P → Prop
  | .nil, _, _ => True
  | .layer a pic mask kids clips rest, forced, c =>
    (kids.isNil = false → ∀ o, ownCtx ops a forced c = some o → ∀ img, layerPic ops a pic mask kids clips o.1 o.2 = .ok (some img) → ops.copy img = img) ∧
    Settled ops kids false ((ownCtx ops a forced c).map fun c => (kidScale a c.1, kidStart ops a c.2)) ∧
    Settled ops clips true (clipCtx ops a pic mask kids (ownCtx ops a forced c)) ∧
    Settled ops rest forced (nextCtx ops a pic mask kids clips forced c)

theorem ExactOps.settled (ex : ExactOps ops) : ∀ (t : Stk P M) (forced : Bool) (c : Ctx P), Settled ops t forced c := by
  intro t
  induction t with
  | nil => intros; trivial
  | layer a pic mask kids clips rest ihk ihc ihr => intro forced c; exact ⟨fun _ _ _ _ _ => ex.copy_id _, ihk _ _, ihc _ _, ihr _ _⟩

theorem Coh.congr {C C' : Int → Option CacheState} {I I' : Int → Option P} : ∀ (t : Stk P M) (forced : Bool) (c : Ctx P),
    (∀ id ∈ t.ids, C' id = C id ∧ I' id = I id) → Coh ops C I t forced c → Coh ops C' I' t forced c := by
  intro t
  induction t with
  | nil => intros; trivial
  | layer a pic mask kids clips rest ihk ihc ihr =>
    intro forced c h hc
    simp only [Stk.ids, List.mem_cons, List.mem_append] at h
    refine ⟨?_, ihk _ _ (fun id hi => h id (.inr (.inl hi))) hc.2.1, ihc _ _ (fun id hi => h id (.inr (.inr (.inl hi)))) hc.2.2.1,
      ihr _ _ (fun id hi => h id (.inr (.inr (.inr hi)))) hc.2.2.2⟩
    intro hk
    have he := hc.1 hk
    have hs := h a.seqID (.inl rfl)
    generalize ownCtx ops a forced c = oc at he
    cases oc with
    | none => simpa only [EntryAt, EntryQuiet, hs.1] using he
    | some oc => simpa only [EntryAt, EntryOk, hs.1, hs.2] using he

/-- The caches at other tiles and of other layers stay as they were. -/
def Only (pt : TPt) (ids : List Int) (st st' : RState P) : Prop :=
  ∀ id q, (id ∈ ids → q ≠ pt) → st'.cached id q = st.cached id q ∧ st'.image id q = st.image id q

theorem Only.refl (pt : TPt) (ids : List Int) (st : RState P) : Only pt ids st st := fun _ _ _ => ⟨rfl, rfl⟩

theorem Only.trans {pt : TPt} {ids ids1 ids2 : List Int} {st st1 st2 : RState P} (h1 : Only pt ids1 st st1) (h2 : Only pt ids2 st1 st2)
    (s1 : ∀ i ∈ ids1, i ∈ ids) (s2 : ∀ i ∈ ids2, i ∈ ids) : Only pt ids st st2 := by
  intro id q h
  have e1 := h1 id q (fun hi => h (s1 id hi))
  have e2 := h2 id q (fun hi => h (s2 id hi))
  exact ⟨e2.1.trans e1.1, e2.2.trans e1.2⟩

theorem Only.keep {pt : TPt} {ids : List Int} {st st' : RState P} (h : Only pt ids st st') {t : Stk P M} (hd : ∀ id ∈ t.ids, id ∉ ids)
    {forced : Bool} {c : Ctx P} (hc : Coh ops (fun i => st.cached i pt) (fun i => st.image i pt) t forced c) :
    Coh ops (fun i => st'.cached i pt) (fun i => st'.image i pt) t forced c :=
  hc.congr _ _ _ (fun id hi => h id pt (fun h => absurd h (hd id hi)))

theorem updateCache_only (dr : DrawResult) (c : Option Int) (pt : TPt) (buf : P) (st : RState P) (ids : List Int) (h : ∀ id, c = some id → id ∈ ids) :
    Only pt ids st (updateCache ops dr c pt buf st) := by
  intro id q hq
  cases c with
  | none => exact ⟨rfl, rfl⟩
  | some i =>
    have : ¬ (id = i ∧ q = pt) := fun e => hq (by rw [e.1]; exact h i rfl) e.2
    cases dr <;> simp only [updateCache, setAt, this, if_false, and_self]

/-! ### The next layers of an array -/

theorem drawKids_add (inner : RState P → P → Ptr → Nat → List UInt8 → Bool → Res (Drawn P)) (h : CHeap) (arr : Nat) (scale : Nat → Nat) :
    ∀ m n i st b drew, drawKids inner h arr scale (m + n) i st b drew =
      drawKids inner h arr scale m i st b drew >>= fun r => drawKids inner h arr scale n (i + m) r.1 r.2.1 r.2.2 := by
  intro m
  induction m with
  | zero => intro n i st b drew; rw [Nat.zero_add]; simp only [drawKids, Res.ok_bind, Nat.add_zero]
  | succ m ih =>
    intro n i st b drew
    rw [Nat.succ_add]
    simp only [drawKids]
    cases inner st b (arr, i) (scale (h.at_ (arr, i)).attr.opacity) (h.at_ (arr, i)).attr.blendMode false with
    | ok r =>
      obtain ⟨st1, b1, dr⟩ := r
      simp only [Res.ok_bind]
      rw [ih, Nat.add_assoc, Nat.add_comm 1 m]
    | err e => rfl
    | panic e => rfl
    | fuel => rfl

theorem Stk.depth_pos {t : Stk P M} (h : t.isNil = false) : 0 < t.depth := by
  cases t with
  | nil => cases h
  | layer => simp only [Stk.depth]; omega

variable {s : Scene P M} {pt : TPt}

theorem View.le : ∀ (t : Stk P M) (arr i n : Nat), View s pt t arr i n → i ≤ n := by
  intro t
  cases t with
  | nil => intro arr i n h; exact Nat.le_of_eq h
  | layer => intro arr i n h; obtain ⟨j, h1, h2, _⟩ := h; omega

theorem drawLayer_skip (f : Nat) (p : Ptr) (st : RState P) (b : P) (o : Nat) (mode : List UInt8) (hc : (s.h.at_ p).attr.clipping = true) :
    ∃ dr, drawLayer ops s pt (f + 1) st b p o mode false = .ok (st, b, dr) ∧ dr.isDrawn = false := by
  simp only [drawLayer, hc]
  split
  · exact ⟨_, rfl, rfl⟩
  · exact ⟨_, rfl, rfl⟩

theorem drawKids_skip : ∀ (t : Stk P M) (f arr i n : Nat) (scale : Nat → Nat) (st : RState P) (b : P) (drew : Bool), View s pt t arr i n →
    t.allClipping → t.depth ≤ f → drawKids (drawLayer ops s pt f) s.h arr scale (n - i) i st b drew = .ok (st, b, drew) := by
  intro t
  induction t with
  | nil =>
    intro f arr i n scale st b drew hv _ _
    cases hv
    rw [Nat.sub_self]
    rfl
  | layer a pic mask kids clips rest ihk ihc ihr =>
    intro f arr i n scale st b drew hv hac hf
    obtain ⟨j, h1, h2, ha, _, _, _, _, _, hj, _, hr⟩ := hv
    have hj := hj hac.1
    subst hj
    simp only [Stk.depth] at hf
    obtain ⟨f, rfl⟩ : ∃ g, f = g + 1 := ⟨f - 1, by omega⟩
    obtain ⟨m, hm⟩ : ∃ m, n - i = m + 1 := ⟨n - i - 1, by omega⟩
    rw [hm]
    simp only [drawKids]
    obtain ⟨dr, e, hd⟩ := drawLayer_skip (ops := ops) (s := s) (pt := pt) f (arr, i) st b (scale (s.h.at_ (arr, i)).attr.opacity)
      (s.h.at_ (arr, i)).attr.blendMode (by rw [ha]; exact hac.1)
    rw [e]
    simp only [Res.ok_bind, hd, Bool.or_false]
    have := ihr (f + 1) arr (i + 1) n scale st b drew hr hac.2 (by omega)
    rw [show n - (i + 1) = m by omega] at this
    exact this

theorem drawClips_skip : ∀ (t : Stk P M) (f arr i n : Nat) (st : RState P) (b : P), View s pt t arr i n →
    t.allClipping → t.depth ≤ f →
    drawClips (drawLayer ops s pt f) s.h false ((List.range' i (n - i)).map (fun k => some (arr, k))) st b = .ok (st, b) := by
  intro t
  induction t with
  | nil =>
    intro f arr i n st b hv _ _
    cases hv
    rw [Nat.sub_self]
    rfl
  | layer a pic mask kids clips rest ihk ihc ihr =>
    intro f arr i n st b hv hac hf
    obtain ⟨j, h1, h2, ha, _, _, _, _, _, hj, _, hr⟩ := hv
    have hj := hj hac.1
    subst hj
    simp only [Stk.depth] at hf
    obtain ⟨f, rfl⟩ : ∃ g, f = g + 1 := ⟨f - 1, by omega⟩
    obtain ⟨m, hm⟩ : ∃ m, n - i = m + 1 := ⟨n - i - 1, by omega⟩
    rw [hm, List.range'_succ]
    simp only [List.map_cons, drawClips]
    obtain ⟨dr, e, hd⟩ := drawLayer_skip (ops := ops) (s := s) (pt := pt) f (arr, i) st b (s.h.at_ (arr, i)).attr.opacity
      (s.h.at_ (arr, i)).attr.blendMode (by rw [ha]; exact hac.1)
    rw [e]
    simp only [Res.ok_bind]
    have := ihr (f + 1) arr (i + 1) n st b hr hac.2 (by omega)
    rw [show n - (i + 1) = m by omega] at this
    exact this

/-! ### What a layer's own picture depends on -/

theorem applyMask_indep {a : CAttr} (h : a.blendMode ≠ passThrough) (m : Option M) (b b' buf : P) :
    applyMask ops a m a.blendMode b buf = applyMask ops a m a.blendMode b' buf := by
  simp only [applyMask, h, if_false]

theorem kidScale_indep {a : CAttr} (h : a.blendMode ≠ passThrough) (o o' : Nat) : kidScale a o = kidScale a o' := by
  funext x
  simp only [kidScale, h, if_false]

theorem ownPic_indep {a : CAttr} (h : a.blendMode ≠ passThrough) (pic : Option P) (mask : Option M) (leaf : Bool) (K : (Nat → Nat) → P → Res (Bool × P))
    (o o' : Nat) (b b' : P) : ownPic ops a pic mask leaf K o b = ownPic ops a pic mask leaf K o' b' := by
  have e1 : leafPic ops a mask b pic = leafPic ops a mask b' pic := by
    cases pic with
    | none => rfl
    | some p => simp only [leafPic, applyMask_indep h mask b b']
  have e2 : folderPic ops a mask b = folderPic ops a mask b' := by
    funext r
    simp only [folderPic, applyMask_indep h mask b b']
  simp only [ownPic, e1, e2, kidScale_indep h o o', kidStart, h, if_false]

/-- The context of a layer that is drawn. -/
theorem ownCtx_drawn {a : CAttr} {forced : Bool} {scale : Nat → Nat} {b : P} (hs : drawn a forced (scale a.opacity) = true) :
    ∃ c, ownCtx ops a forced (some (scale, b)) = some c ∧ kidScale a c.1 = kidScale a (scale a.opacity) ∧
      kidStart ops a c.2 = kidStart ops a b ∧ ∀ pic (mask : Option M) leaf K, ownPic ops a pic mask leaf K c.1 c.2 = ownPic ops a pic mask leaf K (scale a.opacity) b := by
  have hcl : (a.clipping && !forced) = false := by
    unfold drawn at hs
    cases h1 : a.clipping <;> cases h2 : forced <;> simp_all
  by_cases hp : a.blendMode = passThrough
  · refine ⟨(scale a.opacity, b), ?_, rfl, rfl, fun _ _ _ _ => rfl⟩
    simp only [ownCtx, hcl, hp, if_true, Option.bind_some, hs]
    rfl
  · refine ⟨(255, ops.blank), ?_, ?_, ?_, fun pic mask leaf K => ownPic_indep hp _ _ _ _ _ _ _ _⟩
    · simp only [ownCtx, hcl, hp, if_false]
      rfl
    · exact kidScale_indep hp _ _
    · simp only [kidStart, hp, if_false]

/-! ### One layer -/

/-- Drawing the layers from the bottom up is painting them. -/
def KidsOk (ops : PicOps P M) (s : Scene P M) (pt : TPt) (t : Stk P M) : Prop :=
  ∀ (f arr i n : Nat) (st : RState P) (b : P) (scale : Nat → Nat) (drew d : Bool) (b' : P), View s pt t arr i n → t.depth ≤ f → t.ids.Nodup →
    Settled ops t false (some (scale, b)) → Coh ops (fun i => st.cached i pt) (fun i => st.image i pt) t false (some (scale, b)) → paint ops t false scale b = .ok (d, b') →
    ∃ st', drawKids (drawLayer ops s pt f) s.h arr scale (n - i) i st b drew = .ok (st', b', drew || d) ∧
      Coh ops (fun i => st'.cached i pt) (fun i => st'.image i pt) t false (some (scale, b)) ∧ Only pt t.ids st st'

/-- The same for layers clipped to some layer. -/
def ClipsOk (ops : PicOps P M) (s : Scene P M) (pt : TPt) (t : Stk P M) : Prop :=
  ∀ (f arr i n : Nat) (st : RState P) (b : P) (d : Bool) (b' : P), View s pt t arr i n → t.allClipping → t.depth ≤ f → t.ids.Nodup →
    Settled ops t true (some (id, b)) → Coh ops (fun i => st.cached i pt) (fun i => st.image i pt) t true (some (id, b)) → paint ops t true id b = .ok (d, b') →
    ∃ st', drawClips (drawLayer ops s pt f) s.h true ((List.range' i (n - i)).map (fun k => some (arr, k))) st b = .ok (st', b') ∧
      Coh ops (fun i => st'.cached i pt) (fun i => st'.image i pt) t true (some (id, b)) ∧ Only pt t.ids st st'

theorem Stk.isNil_range {clips : Stk P M} {arr i j : Nat} (hv : View s pt clips arr i j) : clips.isNil = true ↔ j - i = 0 := by
  have := hv.le
  cases clips with
  | nil => cases hv; simp [Stk.isNil]
  | layer =>
    obtain ⟨j', h1, h2, _⟩ := hv
    simp only [Stk.isNil, Bool.false_eq_true, false_iff]
    omega

theorem drawBuf_paint {a : CAttr} {clips : Stk P M} (hcl : ClipsOk ops s pt clips) {f arr i j : Nat} (ha : (s.h.at_ (arr, i)).attr = a)
    (hv : View s pt clips arr (i + 1) j) (hac : clips.allClipping) (hd : clips.depth ≤ f) (hn : clips.ids.Nodup)
    (hclip : (s.h.at_ (arr, i)).clip = (List.range' (i + 1) (j - (i + 1))).map (fun k => some (arr, k)))
    (c : Option Int) (o : Nat) (st : RState P) (b buf pre img b' : P)
    (hpre : applyMask ops a ((s.mask a.seqID).lookup pt) a.blendMode b buf = pre)
    (hst : Settled ops clips true (some (id, ops.removeAlpha (ops.copy pre))))
    (hc : Coh ops (fun i => st.cached i pt) (fun i => st.image i pt) clips true (some (id, ops.removeAlpha (ops.copy pre))))
    (himg : clipPic ops a clips.isNil (paint ops clips true id) (some pre) = .ok (some img)) (hp : place ops a clips.isNil o b img = .ok b') :
    ∃ st', drawBuf ops (drawLayer ops s pt f) s pt (arr, i) c o a.blendMode st b buf = .ok (updateCache ops .drew c pt img st', b', .drew) ∧
      Coh ops (fun i => st'.cached i pt) (fun i => st'.image i pt) clips true (some (id, ops.removeAlpha (ops.copy pre))) ∧ Only pt clips.ids st st' := by
  have hl : (s.h.at_ (arr, i)).clip.length = j - (i + 1) := by rw [hclip, List.length_map, List.length_range']
  have hnil := Stk.isNil_range hv
  simp only [drawBuf, ha, hpre]
  by_cases h0 : clips.isNil = true
  · rw [if_pos (by rw [hl]; exact hnil.1 h0)]
    simp only [clipPic, h0, Bool.true_or, if_true, Res.ok.injEq, Option.some.injEq] at himg
    subst himg
    simp only [place, h0, Bool.true_or, and_true] at hp
    rw [hp]
    exact ⟨st, rfl, hc, Only.refl _ _ _⟩
  · have h0' : clips.isNil = false := by simpa using h0
    rw [if_neg (by rw [hl]; exact fun h => h0 (hnil.2 h))]
    by_cases hb : a.blendClippedElements = true
    · rw [if_pos hb]
      simp only [clipPic, h0', hb, Bool.not_true, Bool.or_self, Bool.false_eq_true, if_false] at himg
      obtain ⟨⟨d, cb⟩, e1, e2⟩ := Res.bind_eq_ok.1 himg
      simp only [Res.ok.injEq, Option.some.injEq] at e2
      obtain ⟨st', e3, hc', ho⟩ := hcl f arr (i + 1) j st _ d cb hv hac hd hn hst hc e1
      rw [hclip, e3]
      simp only [Res.ok_bind, e2]
      simp only [place, h0', hb, Bool.or_true, and_true] at hp
      rw [hp]
      exact ⟨st', rfl, hc', ho⟩
    · have hb' : a.blendClippedElements = false := by simpa using hb
      rw [if_neg hb]
      simp only [clipPic, hb', Bool.not_false, Bool.or_true, if_true, Res.ok.injEq, Option.some.injEq] at himg
      subst himg
      simp only [place, h0', hb', Bool.or_self, Bool.false_eq_true, and_false, if_false] at hp
      rw [hp, hclip]
      simp only [Res.ok_bind]
      rw [drawClips_skip clips f arr (i + 1) j st b' hv hac hd]
      exact ⟨st, rfl, hc, Only.refl _ _ _⟩

theorem drawLayer_paint (np : ∀ o b x y, ops.draw o passThrough b x ≠ .ok y) {a : CAttr} {pic : Option P} {mask : Option M} {kids clips : Stk P M} (hkids : KidsOk ops s pt kids)
    (hcl : ClipsOk ops s pt clips) {f arr i j : Nat} (ha : (s.h.at_ (arr, i)).attr = a) (hpic : s.pic a.seqID pt = pic)
    (hmask : (s.mask a.seqID).lookup pt = mask)
    (hvk : View s pt kids (s.h.at_ (arr, i)).children.arr 0 (s.h.at_ (arr, i)).children.len)
    (hv : View s pt clips arr (i + 1) j) (hac : clips.allClipping) (hd : max kids.depth clips.depth ≤ f)
    (hn : (a.seqID :: (kids.ids ++ clips.ids)).Nodup)
    (hclip : (s.h.at_ (arr, i)).clip = (List.range' (i + 1) (j - (i + 1))).map (fun k => some (arr, k)))
    (forced : Bool) (scale : Nat → Nat) (st : RState P) (b b' : P) (d : Bool)
    (hse : kids.isNil = false → ∀ o, ownCtx ops a forced (some (scale, b)) = some o → ∀ img, layerPic ops a pic mask kids clips o.1 o.2 = .ok (some img) →
      ops.copy img = img)
    (hsk : Settled ops kids false ((ownCtx ops a forced (some (scale, b))).map fun c => (kidScale a c.1, kidStart ops a c.2)))
    (hsc : Settled ops clips true (clipCtx ops a pic mask kids (ownCtx ops a forced (some (scale, b)))))
    (he : kids.isNil = false → EntryAt ops (fun i => st.cached i pt) (fun i => st.image i pt) a pic mask kids clips (ownCtx ops a forced (some (scale, b))))
    (hk : Coh ops (fun i => st.cached i pt) (fun i => st.image i pt) kids false
      ((ownCtx ops a forced (some (scale, b))).map fun c => (kidScale a c.1, kidStart ops a c.2)))
    (hc : Coh ops (fun i => st.cached i pt) (fun i => st.image i pt) clips true (clipCtx ops a pic mask kids (ownCtx ops a forced (some (scale, b)))))
    (hp : paintLayer ops a pic mask kids clips forced (scale a.opacity) b = .ok (d, b')) :
    ∃ st' dr, drawLayer ops s pt (f + 1) st b (arr, i) (scale a.opacity) a.blendMode forced = .ok (st', b', dr) ∧ dr.isDrawn = d ∧
      (kids.isNil = false → EntryAt ops (fun i => st'.cached i pt) (fun i => st'.image i pt) a pic mask kids clips (ownCtx ops a forced (some (scale, b)))) ∧
      Coh ops (fun i => st'.cached i pt) (fun i => st'.image i pt) kids false
        ((ownCtx ops a forced (some (scale, b))).map fun c => (kidScale a c.1, kidStart ops a c.2)) ∧
      Coh ops (fun i => st'.cached i pt) (fun i => st'.image i pt) clips true (clipCtx ops a pic mask kids (ownCtx ops a forced (some (scale, b)))) ∧
      Only pt (a.seqID :: (kids.ids ++ clips.ids)) st st' := by
  unfold paintLayer at hp
  by_cases hs : drawn a forced (scale a.opacity) = true
  rotate_left
  · rw [if_neg hs] at hp
    simp only [Res.ok.injEq, Prod.mk.injEq] at hp
    obtain ⟨rfl, rfl⟩ := hp
    simp only [drawLayer, ha]
    split
    · exact ⟨st, _, rfl, rfl, he, hk, hc, Only.refl _ _ _⟩
    · split
      · exact ⟨st, _, rfl, rfl, he, hk, hc, Only.refl _ _ _⟩
      · rename_i h1 h2
        exfalso
        apply hs
        simp only [drawn]
        cases hvz : a.visible <;> cases hcz : a.clipping <;> cases hfz : forced <;> simp_all
  rw [if_pos hs] at hp
  obtain ⟨c, ec, e1, e2, e3⟩ := ownCtx_drawn (ops := ops) (M := M) (b := b) hs
  have hse : kids.isNil = false → ∀ img, layerPic ops a pic mask kids clips (scale a.opacity) b = .ok (some img) → ops.copy img = img := by
    intro hn img hi
    refine hse hn c ec img ?_
    unfold layerPic at hi ⊢
    rw [e3]
    exact hi
  rw [ec] at he hk hc hsk hsc ⊢
  simp only [Option.map_some, e1, e2] at hk hsk
  simp only [Option.map_some, e1, e2]
  simp only [clipCtx, Option.bind_some, e3] at hc hsc
  simp only [clipCtx, Option.bind_some, e3]
  simp only [EntryAt, layerPic, e3] at he
  simp only [EntryAt, layerPic, e3]
  obtain ⟨fin, efin, eplace⟩ := Res.bind_eq_ok.1 hp
  unfold layerPic at efin
  have hcopy : kids.isNil = false → ∀ img, fin = some img → ops.copy img = img := fun hn img hi => hse hn img (by unfold layerPic; rw [efin, hi])
  rw [efin] at he ⊢
  obtain ⟨own, eown, eclip⟩ := Res.bind_eq_ok.1 efin
  rw [eown] at hc hsc ⊢
  simp only [Res.toOption, Option.bind_some] at hc hsc
  simp only [Res.toOption, Option.bind_some]
  have hnd := List.nodup_cons.1 hn
  have hnd2 := List.nodup_append.1 hnd.2
  have hidk : ∀ id ∈ kids.ids, id ∉ [a.seqID] := by
    intro id h h'
    rw [List.mem_singleton] at h'
    exact hnd.1 (List.mem_append_left _ (h' ▸ h))
  have hidc : ∀ id ∈ clips.ids, id ∉ [a.seqID] := by
    intro id h h'
    rw [List.mem_singleton] at h'
    exact hnd.1 (List.mem_append_right _ (h' ▸ h))
  have h1 : ¬ (a.visible = false ∨ scale a.opacity = 0) := by
    intro h
    simp only [drawn] at hs
    rcases h with h | h <;> rw [h] at hs <;> simp at hs
  have h2 : ¬ (a.clipping = true ∧ forced = false) := by
    intro h
    simp only [drawn, h.1, h.2] at hs
    simp at hs
  have hlen : kids.isNil = true ↔ (s.h.at_ (arr, i)).children.len = 0 := by
    have := Stk.isNil_range hvk
    rw [Nat.sub_zero] at this
    exact this
  simp only [drawLayer, ha]
  rw [if_neg h1, if_neg h2]
  by_cases hleaf : kids.isNil = true
  · rw [if_pos (hlen.1 hleaf), hpic]
    simp only [ownPic, hleaf, if_true, Res.ok.injEq] at eown
    cases pic with
    | none =>
      simp only [leafPic] at eown
      subst eown
      simp only [clipPic, Res.ok.injEq] at eclip
      subst eclip
      simp only [placeOpt, Res.ok.injEq, Prod.mk.injEq] at eplace
      obtain ⟨rfl, rfl⟩ := eplace
      exact ⟨st, _, rfl, rfl, by simp [hleaf], hk, hc, Only.refl _ _ _⟩
    | some p =>
      simp only [leafPic] at eown
      subst eown
      simp only [Option.map_some] at hc hsc
      cases fin with
      | none => simp only [clipPic] at eclip; split at eclip <;> first | cases eclip | (obtain ⟨_, _, h⟩ := Res.bind_eq_ok.1 eclip; cases h)
      | some img =>
        simp only [placeOpt] at eplace
        obtain ⟨b1, ep, e⟩ := Res.bind_eq_ok.1 eplace
        simp only [Res.ok.injEq, Prod.mk.injEq] at e
        obtain ⟨rfl, rfl⟩ := e
        obtain ⟨st', ed, hc', ho⟩ := drawBuf_paint hcl ha hv hac (Nat.le_trans (Nat.le_max_right _ _) hd) hnd2.2.1 hclip none (scale a.opacity) st b (ops.copy p) _ img b1
          (by rw [hmask]) hsc hc eclip ep
        simp only
        rw [ed]
        refine ⟨_, _, rfl, rfl, by simp [hleaf], ?_, ?_, ?_⟩
        · exact ho.keep (fun id h h' => hnd2.2.2 _ h _ h' rfl) hk
        · exact hc'
        · exact ho.trans (Only.refl pt [] _) (fun i hi => List.mem_cons_of_mem _ (List.mem_append_right _ hi)) (fun i hi => by cases hi)
  · have hleaf' : kids.isNil = false := by simpa using hleaf
    rw [if_neg (fun h => hleaf (hlen.2 h))]
    have he := he hleaf'
    simp only [EntryOk] at he
    cases hcs : st.cached a.seqID pt with
    | some cs =>
      rw [hcs] at he
      cases cs with
      | cachedEmpty =>
        simp only [Res.ok.injEq] at he
        subst he
        simp only [placeOpt, Res.ok.injEq, Prod.mk.injEq] at eplace
        obtain ⟨rfl, rfl⟩ := eplace
        refine ⟨st, _, rfl, rfl, ?_, hk, hc, Only.refl _ _ _⟩
        intro _
        simp only [EntryOk, hcs]
      | cached =>
        simp only [Res.ok.injEq] at he
        obtain ⟨img, rfl, hi⟩ := he
        simp only [placeOpt] at eplace
        obtain ⟨b1, ep, e⟩ := Res.bind_eq_ok.1 eplace
        simp only [Res.ok.injEq, Prod.mk.injEq] at e
        obtain ⟨rfl, rfl⟩ := e
        have hcp := hcopy hleaf' img rfl
        rw [hcp] at hi
        simp only [drawCached, hi]
        have : (if a.blendMode = passThrough then Res.ok (ops.copy img) else ops.draw (scale a.opacity) a.blendMode b img) = .ok b1 := by
          simp only [place] at ep
          by_cases hpass : a.blendMode = passThrough
          · rw [if_pos hpass]
            split at ep
            · exact ep
            · rw [hpass] at ep
              exact absurd ep (np _ _ _ _)
          · rw [if_neg hpass]
            rw [if_neg (fun h => hpass h.1)] at ep
            exact ep
        rw [this]
        refine ⟨st, _, rfl, rfl, ?_, hk, hc, Only.refl _ _ _⟩
        intro _
        simp only [EntryOk, hcs]
        exact ⟨img, rfl, by rw [hi, hcp]⟩
    | none =>
      simp only [ownPic, hleaf', Bool.false_eq_true, if_false] at eown
      obtain ⟨⟨drew, buf⟩, ek, ef⟩ := Res.bind_eq_ok.1 eown
      obtain ⟨st1, ed, hk1, ho1⟩ := hkids f _ 0 _ st _ _ false drew buf hvk (by omega) hnd2.1 hsk hk ek
      simp only [Nat.sub_zero, Bool.false_or] at ed
      have hd1 : (if a.blendMode = passThrough then ops.copy b else ops.blank) = kidStart ops a b := rfl
      have hd2 : (fun o => o * (if a.blendMode = passThrough then scale a.opacity * 32897 else 255 * 32897) / 2 ^ 23) = kidScale a (scale a.opacity) := rfl
      simp only [hd1, hd2, ed, Res.ok_bind]
      have hc1 := ho1.keep (fun id h h' => hnd2.2.2 _ h' _ h rfl) hc
      simp only [Res.ok.injEq] at ef
      cases drew with
      | false =>
        simp only [folderPic, Bool.false_eq_true, if_false] at ef
        subst ef
        simp only [clipPic, Res.ok.injEq] at eclip
        subst eclip
        simp only [placeOpt, Res.ok.injEq, Prod.mk.injEq] at eplace
        obtain ⟨rfl, rfl⟩ := eplace
        have hu := updateCache_only (ops := ops) .invisible (some a.seqID) pt buf st1 [a.seqID] (by intro id h; injection h with h; rw [h]; exact List.mem_singleton.2 rfl)
        refine ⟨_, _, rfl, rfl, ?_, hu.keep hidk hk1, hu.keep hidc hc1, ho1.trans hu ?_ ?_⟩
        · intro _
          simp only [EntryOk, updateCache, setAt, and_self, if_true]
        · exact fun i hi => List.mem_cons_of_mem _ (List.mem_append_left _ hi)
        · exact fun i hi => by rw [List.mem_singleton.1 hi]; exact List.mem_cons_self
      | true =>
        simp only [folderPic, if_true] at ef
        subst ef
        simp only [Option.map_some] at hc1 hsc
        cases fin with
        | none => simp only [clipPic] at eclip; split at eclip <;> first | cases eclip | (obtain ⟨_, _, h⟩ := Res.bind_eq_ok.1 eclip; cases h)
        | some img =>
          simp only [placeOpt] at eplace
          obtain ⟨b1, ep, e⟩ := Res.bind_eq_ok.1 eplace
          simp only [Res.ok.injEq, Prod.mk.injEq] at e
          obtain ⟨rfl, rfl⟩ := e
          obtain ⟨st2, ed2, hc2, ho2⟩ := drawBuf_paint hcl ha hv hac (Nat.le_trans (Nat.le_max_right _ _) hd) hnd2.2.1 hclip (some a.seqID) (scale a.opacity) st1 b buf _ img b1
            (by rw [hmask]) hsc hc1 eclip ep
          simp only [if_true]
          rw [ed2]
          have hu := updateCache_only (ops := ops) .drew (some a.seqID) pt img st2 [a.seqID] (by intro id h; injection h with h; rw [h]; exact List.mem_singleton.2 rfl)
          refine ⟨_, _, rfl, rfl, ?_, ?_, hu.keep hidc hc2, ?_⟩
          · intro _
            simp only [EntryOk, updateCache, setAt, and_self, if_true]
            exact ⟨img, rfl, rfl⟩
          · exact hu.keep hidk (ho2.keep (fun id h h' => hnd2.2.2 _ h _ h' rfl) hk1)
          · refine (ho1.trans (ids := kids.ids ++ clips.ids) ho2 ?_ ?_).trans hu ?_ ?_
            · exact fun i hi => List.mem_append_left _ hi
            · exact fun i hi => List.mem_append_right _ hi
            · exact fun i hi => List.mem_cons_of_mem _ hi
            · exact fun i hi => by rw [List.mem_singleton.1 hi]; exact List.mem_cons_self

theorem Coh.layer_ok {C : Int → Option CacheState} {I : Int → Option P} {a : CAttr} {pic : Option P} {mask : Option M} {kids clips rest : Stk P M}
    {forced : Bool} {scale : Nat → Nat} {b : P} {r : Bool × P} (hp : paintLayer ops a pic mask kids clips forced (scale a.opacity) b = .ok r) :
    Coh ops C I (.layer a pic mask kids clips rest) forced (some (scale, b)) ↔
      (kids.isNil = false → EntryAt ops C I a pic mask kids clips (ownCtx ops a forced (some (scale, b)))) ∧
      Coh ops C I kids false ((ownCtx ops a forced (some (scale, b))).map fun c => (kidScale a c.1, kidStart ops a c.2)) ∧
      Coh ops C I clips true (clipCtx ops a pic mask kids (ownCtx ops a forced (some (scale, b)))) ∧
      Coh ops C I rest forced (some (scale, r.2)) := by
  have : nextCtx ops a pic mask kids clips forced (some (scale, b)) = some (scale, r.2) := by
    simp only [nextCtx, Option.bind_some, hp, Res.toOption, Option.map_some]
  rw [← this]
  rfl

theorem Settled.layer_ok {a : CAttr} {pic : Option P} {mask : Option M} {kids clips rest : Stk P M}
    {forced : Bool} {scale : Nat → Nat} {b : P} {r : Bool × P} (hp : paintLayer ops a pic mask kids clips forced (scale a.opacity) b = .ok r)
    (h : Settled ops (.layer a pic mask kids clips rest) forced (some (scale, b))) : Settled ops rest forced (some (scale, r.2)) := by
  have : nextCtx ops a pic mask kids clips forced (some (scale, b)) = some (scale, r.2) := by
    simp only [nextCtx, Option.bind_some, hp, Res.toOption, Option.map_some]
  rw [← this]
  exact h.2.2.2

theorem draw_paint (np : ∀ o b x y, ops.draw o passThrough b x ≠ .ok y) : ∀ t : Stk P M, KidsOk ops s pt t ∧ ClipsOk ops s pt t := by
  intro t
  induction t with
  | nil =>
    refine ⟨?_, ?_⟩
    · intro f arr i n st b scale drew d b' hv hd hn hst hc hp
      cases hv
      simp only [paint, Res.ok.injEq, Prod.mk.injEq] at hp
      obtain ⟨rfl, rfl⟩ := hp
      refine ⟨st, ?_, hc, Only.refl _ _ _⟩
      rw [Nat.sub_self, Bool.or_false]
      rfl
    · intro f arr i n st b d b' hv hac hd hn hst hc hp
      cases hv
      simp only [paint, Res.ok.injEq, Prod.mk.injEq] at hp
      obtain ⟨rfl, rfl⟩ := hp
      refine ⟨st, ?_, hc, Only.refl _ _ _⟩
      rw [Nat.sub_self]
      rfl
  | layer a pic mask kids clips rest ihk ihc ihr =>
    have ids : ∀ {l : List Int}, (a.seqID :: (kids.ids ++ (clips.ids ++ l))).Nodup → (a.seqID :: (kids.ids ++ clips.ids)).Nodup ∧ l.Nodup ∧
        (∀ i ∈ l, i ∉ a.seqID :: (kids.ids ++ clips.ids)) := by
      intro l h
      rw [← List.append_assoc, ← List.cons_append] at h
      obtain ⟨h1, h2, h3⟩ := List.nodup_append.1 h
      exact ⟨h1, h2, fun i hi hi' => h3 i hi' i hi rfl⟩
    have sub1 : ∀ i ∈ a.seqID :: (kids.ids ++ clips.ids), i ∈ (Stk.layer a pic mask kids clips rest).ids := by
      intro i hi
      simp only [Stk.ids, List.mem_cons, List.mem_append] at hi ⊢
      rcases hi with h | h | h
      · exact .inl h
      · exact .inr (.inl h)
      · exact .inr (.inr (.inl h))
    have sub2 : ∀ i ∈ rest.ids, i ∈ (Stk.layer a pic mask kids clips rest).ids := by
      intro i hi
      simp only [Stk.ids, List.mem_cons, List.mem_append]
      exact .inr (.inr (.inr hi))
    refine ⟨?_, ?_⟩
    · intro f arr i n st b scale drew d b' hv hd hn hst hc hp
      obtain ⟨j, h1, h2, ha, hpic, hmask, hvk, hvc, hac, hj, hclip, hvr⟩ := hv
      obtain ⟨hn1, hn2, hn3⟩ := ids hn
      simp only [Stk.depth] at hd
      rw [paint_layer] at hp
      obtain ⟨⟨d1, b1⟩, ep1, ep2⟩ := Res.bind_eq_ok.1 hp
      obtain ⟨⟨d2, b2⟩, ep3, ep4⟩ := Res.bind_eq_ok.1 ep2
      simp only [Res.ok.injEq, Prod.mk.injEq] at ep4
      obtain ⟨rfl, rfl⟩ := ep4
      rw [Coh.layer_ok ep1] at hc
      obtain ⟨f, rfl⟩ : ∃ g, f = g + 1 := ⟨f - 1, by omega⟩
      obtain ⟨st1, dr, e1, hdr, c1, c2, c3, o1⟩ := drawLayer_paint np ihk.1 ihc.2 ha hpic hmask hvk hvc hac (by omega : _ ≤ f) hn1 hclip false scale st b b1 d1
        hst.1 hst.2.1 hst.2.2.1 hc.1 hc.2.1 hc.2.2.1 ep1
      obtain ⟨st2, e2, c4, o2⟩ := ihr.1 (f + 1) arr j n st1 b1 scale (drew || d1) d2 b2 hvr (by omega) hn2 (hst.layer_ok ep1) (o1.keep hn3 hc.2.2.2) ep3
      refine ⟨st2, ?_, ?_, o1.trans o2 sub1 sub2⟩
      · rw [show n - i = ((j - (i + 1)) + (n - j)) + 1 by omega]
        simp only [drawKids, ha, e1, Res.ok_bind, hdr]
        rw [drawKids_add, drawKids_skip clips (f + 1) arr (i + 1) j scale st1 b1 _ hvc hac (by omega)]
        simp only [Res.ok_bind]
        rw [show i + 1 + (j - (i + 1)) = j by omega, e2, Bool.or_assoc]
      · rw [Coh.layer_ok ep1]
        have hk : ∀ id ∈ a.seqID :: (kids.ids ++ clips.ids), id ∉ rest.ids := fun i hi hi' => hn3 i hi' hi
        refine ⟨fun h => ?_, o2.keep (fun i hi => hk i (List.mem_cons_of_mem _ (List.mem_append_left _ hi))) c2,
          o2.keep (fun i hi => hk i (List.mem_cons_of_mem _ (List.mem_append_right _ hi))) c3, c4⟩
        have he := c1 h
        have hs := o2 a.seqID pt (fun h => absurd h (hk _ List.mem_cons_self))
        generalize ownCtx ops a false (some (scale, b)) = oc at he
        cases oc with
        | none => simpa only [EntryAt, EntryQuiet, hs.1] using he
        | some oc => simpa only [EntryAt, EntryOk, hs.1, hs.2] using he
    · intro f arr i n st b d b' hv hall hd hn hst hc hp
      obtain ⟨j, h1, h2, ha, hpic, hmask, hvk, hvc, hac, hj, hclip, hvr⟩ := hv
      have hj := hj hall.1
      obtain ⟨hn1, hn2, hn3⟩ := ids hn
      simp only [Stk.depth] at hd
      rw [paint_layer] at hp
      obtain ⟨⟨d1, b1⟩, ep1, ep2⟩ := Res.bind_eq_ok.1 hp
      obtain ⟨⟨d2, b2⟩, ep3, ep4⟩ := Res.bind_eq_ok.1 ep2
      simp only [Res.ok.injEq, Prod.mk.injEq] at ep4
      obtain ⟨rfl, rfl⟩ := ep4
      rw [Coh.layer_ok ep1] at hc
      obtain ⟨f, rfl⟩ : ∃ g, f = g + 1 := ⟨f - 1, by omega⟩
      obtain ⟨st1, dr, e1, hdr, c1, c2, c3, o1⟩ := drawLayer_paint np ihk.1 ihc.2 ha hpic hmask hvk hvc hac (by omega : _ ≤ f) hn1 hclip true id st b b1 d1
        hst.1 hst.2.1 hst.2.2.1 hc.1 hc.2.1 hc.2.2.1 ep1
      obtain ⟨st2, e2, c4, o2⟩ := ihr.2 (f + 1) arr j n st1 b1 d2 b2 hvr hall.2 (by omega) hn2 (hst.layer_ok ep1) (o1.keep hn3 hc.2.2.2) ep3
      refine ⟨st2, ?_, ?_, o1.trans o2 sub1 sub2⟩
      · rw [show n - i = (n - j) + 1 by omega, List.range'_succ]
        simp only [List.map_cons, drawClips, ha]
        rw [show a.opacity = id a.opacity from rfl, e1]
        simp only [Res.ok_bind]
        rw [← hj]
        exact e2
      · rw [Coh.layer_ok ep1]
        have hk : ∀ id ∈ a.seqID :: (kids.ids ++ clips.ids), id ∉ rest.ids := fun i hi hi' => hn3 i hi' hi
        refine ⟨fun h => ?_, o2.keep (fun i hi => hk i (List.mem_cons_of_mem _ (List.mem_append_left _ hi))) c2,
          o2.keep (fun i hi => hk i (List.mem_cons_of_mem _ (List.mem_append_right _ hi))) c3, c4⟩
        have he := c1 h
        have hs := o2 a.seqID pt (fun h => absurd h (hk _ List.mem_cons_self))
        generalize ownCtx ops a true (some (id, b)) = oc at he
        cases oc with
        | none => simpa only [EntryAt, EntryQuiet, hs.1] using he
        | some oc => simpa only [EntryAt, EntryOk, hs.1, hs.2] using he

/-! ### The whole picture -/

/-- The picture of a tile, in the cache of the root. -/
def RootOk (ops : PicOps P M) (t : Stk P M) (C : Option CacheState) (I : Option P) : Prop :=
  match C with
  | none => True
  | some .cachedEmpty => ∃ b, paint ops t false id ops.blank = .ok (false, b)
  | some .cached => ∃ b, paint ops t false id ops.blank = .ok (true, b) ∧ I = some (ops.copy b)

/-- The layers under the root at a tile. -/
def RootView (s : Scene P M) (pt : TPt) (t : Stk P M) : Prop :=
  View s pt t (s.h.at_ s.root).children.arr 0 (s.h.at_ s.root).children.len ∧ t.ids.Nodup ∧ seqIDRoot ∉ t.ids

/-- All entries at a tile are right. -/
def TileOk (ops : PicOps P M) (t : Stk P M) (pt : TPt) (st : RState P) : Prop :=
  RootOk ops t (st.cached seqIDRoot pt) (st.image seqIDRoot pt) ∧
    Coh ops (fun i => st.cached i pt) (fun i => st.image i pt) t false (some (id, ops.blank))

/-- A tile of the picture, painted without caches; `old` is what was there before. -/
def painted (ops : PicOps P M) (old : P) (r : Bool × P) : P := if r.1 then r.2 else ops.clear old

theorem updateTile_settled (np : ∀ o b x y, ops.draw o passThrough b x ≠ .ok y) {t : Stk P M} {f : Nat} (hv : RootView s pt t) (hf : t.depth ≤ f) {st : RState P} (hok : TileOk ops t pt st)
    (hst : Settled ops t false (some (id, ops.blank))) {d : Bool} {b : P} (hp : paint ops t false id ops.blank = .ok (d, b)) :
    ∃ st' md, updateTile ops s f pt st = .ok (st', md, if d then .cached else .cachedEmpty) ∧ TileOk ops t pt st' ∧
      (d = true → st'.image seqIDRoot pt = some (ops.copy b)) ∧ Only pt (seqIDRoot :: t.ids) st st' ∧ md = (st.cached seqIDRoot pt).isNone := by
  obtain ⟨hr, hc⟩ := hok
  unfold updateTile
  cases hcs : st.cached seqIDRoot pt with
  | some cs =>
    rw [hcs] at hr
    cases cs with
    | cached =>
      obtain ⟨b', e, hi⟩ := hr
      rw [hp] at e
      simp only [Res.ok.injEq, Prod.mk.injEq] at e
      obtain ⟨rfl, rfl⟩ := e
      refine ⟨st, false, rfl, ⟨?_, hc⟩, fun _ => hi, Only.refl _ _ _, rfl⟩
      rw [hcs]
      exact ⟨b, hp, hi⟩
    | cachedEmpty =>
      obtain ⟨b', e⟩ := hr
      rw [hp] at e
      simp only [Res.ok.injEq, Prod.mk.injEq] at e
      obtain ⟨rfl, rfl⟩ := e
      refine ⟨st, false, rfl, ⟨?_, hc⟩, (fun h => by cases h), Only.refl _ _ _, rfl⟩
      rw [hcs]
      exact ⟨b, hp⟩
  | none =>
    obtain ⟨st1, e1, c1, o1⟩ := (draw_paint np t).1 f _ 0 _ st ops.blank id false d b hv.1 hf hv.2.1 hst hc hp
    simp only [Nat.sub_zero, Bool.false_or] at e1
    simp only [e1, Res.ok_bind]
    have hni : ∀ i ∈ t.ids, i ∉ [seqIDRoot] := by
      intro i hi h
      rw [List.mem_singleton] at h
      exact hv.2.2 (h ▸ hi)
    have hu : ∀ dr, Only pt [seqIDRoot] st1 (updateCache ops dr (some seqIDRoot) pt b st1) := fun dr =>
      updateCache_only (ops := ops) dr (some seqIDRoot) pt b st1 [seqIDRoot] (by intro id h; injection h with h; rw [h]; exact List.mem_singleton.2 rfl)
    cases d with
    | true =>
      simp only [if_true]
      refine ⟨_, _, rfl, ⟨?_, (hu .drew).keep hni c1⟩, ?_, o1.trans (hu .drew) ?_ ?_, rfl⟩
      · simp only [updateCache, setAt, and_self, if_true, RootOk]
        exact ⟨b, hp, rfl⟩
      · intro _
        simp only [updateCache, setAt, and_self, if_true]
      · exact fun i hi => List.mem_cons_of_mem _ hi
      · exact fun i hi => by rw [List.mem_singleton.1 hi]; exact List.mem_cons_self
    | false =>
      simp only [Bool.false_eq_true, if_false]
      refine ⟨_, _, rfl, ⟨?_, (hu .invisible).keep hni c1⟩, (fun h => by cases h), o1.trans (hu .invisible) ?_ ?_, rfl⟩
      · simp only [updateCache, setAt, and_self, if_true, RootOk]
        exact ⟨b, hp⟩
      · exact fun i hi => List.mem_cons_of_mem _ hi
      · exact fun i hi => by rw [List.mem_singleton.1 hi]; exact List.mem_cons_self

theorem updateTile_paint (ex : ExactOps ops) {t : Stk P M} {f : Nat} (hv : RootView s pt t) (hf : t.depth ≤ f) {st : RState P} (hok : TileOk ops t pt st)
    {d : Bool} {b : P} (hp : paint ops t false id ops.blank = .ok (d, b)) :
    ∃ st' md, updateTile ops s f pt st = .ok (st', md, if d then .cached else .cachedEmpty) ∧ TileOk ops t pt st' ∧
      (d = true → st'.image seqIDRoot pt = some b) ∧ Only pt (seqIDRoot :: t.ids) st st' ∧ md = (st.cached seqIDRoot pt).isNone := by
  have := updateTile_settled ex.no_pass hv hf hok (ex.settled t _ _) hp
  simp only [ex.copy_id] at this
  exact this

theorem renderTile_settled (np : ∀ o b x y, ops.draw o passThrough b x ≠ .ok y) {t : Stk P M} {f : Nat} (hv : RootView s pt t) (hf : t.depth ≤ f) {st : RState P}
    (hok : TileOk ops t pt st) (hst : Settled ops t false (some (id, ops.blank)))
    {r : Bool × P} (hp : paint ops t false id ops.blank = .ok r) (diff : Bool) (dest : TPt → P) :
    ∃ st', renderTile ops s f diff pt st dest =
        .ok (st', fun q => if q = pt ∧ (diff = false ∨ st.cached seqIDRoot pt = none) then painted ops (dest q) (r.1, ops.copy (ops.copy r.2)) else dest q) ∧
      TileOk ops t pt st' ∧ Only pt (seqIDRoot :: t.ids) st st' := by
  obtain ⟨d, b⟩ := r
  obtain ⟨st', md, e, ok', hi, ho, hmd⟩ := updateTile_settled np hv hf hok hst hp
  refine ⟨st', ?_, ok', ho⟩
  unfold renderTile
  rw [e]
  simp only [Res.ok_bind, hmd]
  have hb : ((st.cached seqIDRoot pt).isNone || !diff) = true ↔ (diff = false ∨ st.cached seqIDRoot pt = none) := by
    cases diff <;> simp
  by_cases h : diff = false ∨ st.cached seqIDRoot pt = none
  · rw [if_pos (hb.2 h)]
    simp only [h, and_true]
    cases d with
    | true => simp only [if_true, hi rfl, painted]
    | false => simp only [Bool.false_eq_true, if_false, painted]
  · rw [if_neg (fun h' => h (hb.1 h'))]
    simp only [h, and_false, if_false]

end
end Psd
