import Verif.Spec.Negative
import Verif.Props.Channels

/-!
# Theorem C131

The negative of a document gives the negative of its picture.
-/

namespace Psd

theorem keep_dest (K a b y : Nat) (hK : 0 < K) : ((K - K) * a + K * y) / K * K / (((K - K) * b + K * K) / K) = y := by
  rw [Nat.sub_self, Nat.zero_mul, Nat.zero_mul, Nat.zero_add, Nat.zero_add, Nat.mul_div_cancel_left _ hK, Nat.mul_div_cancel_left _ hK, Nat.mul_div_cancel _ hK]

theorem keep_src (K y : Nat) (hK : 0 < K) : ((K - 0) * y + K * 0) / K * K / (((K - 0) * K + K * 0) / K) = y := by
  rw [Nat.sub_zero, Nat.mul_zero, Nat.add_zero, Nat.add_zero, Nat.mul_div_cancel_left _ hK, Nat.mul_div_cancel_left _ hK, Nat.mul_div_cancel _ hK]

theorem scale_one (x : Nat) : scale16 (x * 257) (255 * 257) = x * 257 := Nat.mul_div_cancel _ (by decide)

theorem scale_none (x : Nat) : scale16 (x * 257) (0 * 257) = 0 := by
  unfold scale16
  rw [Nat.zero_mul, Nat.mul_zero, Nat.zero_div]

theorem mix_destOver (as ad s d : Nat) : PD.destOver.mix as ad s d = ((65535 - ad) * s + 65535 * d) / 65535 := rfl

theorem pdC_over_opaque (sa s : Nat) {d : Nat} (hd : d ≤ 255) : pdC .destOver sa 255 s d = d := by
  have h := keep_dest 65535 (scale16 (s * 257) (sa * 257)) (sa * 257) (d * 257) (by decide)
  unfold pdC
  rewrite [scale_one, show (255 * 257 : Nat) = 65535 from rfl, mix_destOver, mix_destOver, h]
  clear h
  omega

theorem pdC_under_empty {s : Nat} (d : Nat) (hs : s ≤ 255) : pdC .destOver 255 0 s d = s := by
  have h := keep_src 65535 (s * 257) (by decide)
  unfold pdC
  rewrite [scale_one, scale_none, show (255 * 257 : Nat) = 65535 from rfl, Nat.zero_mul, mix_destOver, mix_destOver, h]
  clear h
  omega

/-- An opaque pixel hides what is below it, and a transparent one does not. -/
theorem destOver_hard (s d e : Px) (hs : s.Crisp) (hd : d.Crisp) : pxOr e (drawPD .destOver .nrgba (.px .nrgba s) d) = if d.a = 255 then d else s := by
  split
  · rename_i h
    have k := fun c => pd_chan .destOver s d e c
    simp only [h, show (255 : UInt8).toNat = 255 from rfl, pdC_over_opaque _ _ (le255 _)] at k
    refine px_ext (k .red) (k .green) (k .blue) ?_
    rw [pd_alpha, read_alpha, readPx_alpha, h]
    rcases hs with hs | hs
    · rw [hs]; rfl
    · rw [hs]; rfl
  · rename_i h
    obtain rfl := hd.resolve_left h
    rcases hs with hs | rfl
    · have k := fun c => pd_chan .destOver s ⟨0, 0, 0, 0⟩ e c
      simp only [hs, show (255 : UInt8).toNat = 255 from rfl, show (0 : UInt8).toNat = 0 from rfl, pdC_under_empty _ (le255 _)] at k
      refine px_ext (k .red) (k .green) (k .blue) ?_
      rw [pd_alpha, read_alpha, readPx_alpha, hs]
      rfl
    · exact pd_zero (by decide) e

theorem Px.NegativeOf.crisp {p q : Px} (h : p.NegativeOf q) : p.Crisp ∧ q.Crisp ∧ p.a = q.a := by
  rcases h with ⟨rfl, rfl⟩ | ⟨h, rfl⟩
  · exact ⟨.inr rfl, .inr rfl, rfl⟩
  · exact ⟨.inl h, .inl h, rfl⟩

/-- Where both are opaque, "add" does what linear dodge does. -/
theorem add_is_dodge {s d : Px} (hs : s.a = 255) (hd : d.a = 255) : drawNN (.sep .add) (255 : UInt8).toUInt32 s d = drawNN (.sep .linearDodge) (255 : UInt8).toUInt32 s d := by
  obtain ⟨p, e, a, r, g, b⟩ := full8 (.sep .add) s d hs hd
  obtain ⟨p', e', a', r', g', b'⟩ := full8 (.sep .linearDodge) s d hs hd
  rw [e, e']
  simp only [blendN, chanN] at r g b r' g' b'
  have := le255 s.r
  rw [px_ext (p := p) (q := p') (by omega) (by omega) (by omega) (by rw [a, a'])]

theorem drawNN_negative {m m' : Sep} (hm : m.dual = some m' ∨ m = .normal ∧ m' = .normal ∨ m = .linearBurn ∧ m' = .add ∨ m = .add ∧ m' = .linearBurn) {s s' d d' p p' : Px} (hs : s.NegativeOf s') (hd : d.NegativeOf d')
    (e : drawNN (.sep m) (255 : UInt8).toUInt32 s d = .ok p) (e' : drawNN (.sep m') (255 : UInt8).toUInt32 s' d' = .ok p') : p.NegativeOf p' := by
  rcases hs with ⟨rfl, rfl⟩ | ⟨hs, rfl⟩
  · rw [C41_transparent_nrgba _ _ _ _ (.inl rfl)] at e e'
    injection e with e
    injection e' with e'
    subst e e'
    exact hd
  rcases hd with ⟨rfl, rfl⟩ | ⟨hd, rfl⟩
  · have key : ∀ (m : Mode) (s p : Px), s.a = 255 → drawNN m (255 : UInt8).toUInt32 s ⟨0, 0, 0, 0⟩ = .ok p → p = s := by
      intro m s p hs e
      rcases C43_onto_transparent m 255 s ⟨0, 0, 0, 0⟩ rfl with ⟨h, -⟩ | h
      · rw [hs] at h
        exact absurd h (by decide)
      · rw [e] at h
        injection h with h
        rw [h, hs]
        obtain ⟨r, g, b, a⟩ := s
        obtain rfl : a = 255 := hs
        rfl
    have k1 := key _ _ _ hs e
    have k2 := key _ _ _ (show s.negative.a = 255 from hs) e'
    rw [k1, k2]
    exact .inr ⟨hs, rfl⟩
  · have dual : ∀ {m m' : Sep}, m.dual = some m' → drawNN (.sep m) (255 : UInt8).toUInt32 s d = .ok p → drawNN (.sep m') (255 : UInt8).toUInt32 s.negative d.negative = .ok p' → p.NegativeOf p' := by
      intro m m' hm e e'
      rw [C113_negatives m m' hm s d p hs hd e] at e'
      injection e' with e'
      subst e'
      refine .inr ⟨?_, rfl⟩
      obtain ⟨q, hq, ha, -⟩ := full8 (.sep m) s d hs hd
      rw [e] at hq
      injection hq with hq
      rw [hq, ha]
    rcases hm with hm | ⟨rfl, rfl⟩ | ⟨rfl, rfl⟩ | ⟨rfl, rfl⟩
    · exact dual hm e e'
    · have key : ∀ (s d p : Px), s.a = 255 → d.a = 255 → drawNN (.sep .normal) (255 : UInt8).toUInt32 s d = .ok p → p = s := by
        intro s d p hs hd e
        obtain ⟨q, hq, ha, hr, hg, hb⟩ := full8 (.sep .normal) s d hs hd
        rw [e] at hq
        injection hq with hq
        subst hq
        simp only [blendN, chanN] at hr hg hb
        have := le255 s.r
        have := le255 s.g
        have := le255 s.b
        exact px_ext (by omega) (by omega) (by omega) (by rw [ha, hs])
      have k1 := key _ _ _ hs hd e
      have k2 := key _ _ _ (show s.negative.a = 255 from hs) (show d.negative.a = 255 from hd) e'
      rw [k1, k2]
      exact .inr ⟨hs, rfl⟩
    · rw [add_is_dodge (show s.negative.a = 255 from hs) (show d.negative.a = 255 from hd)] at e'
      exact dual rfl e e'
    · rw [add_is_dodge hs hd] at e
      exact dual rfl e e'

theorem negative_ops (i : Nat) : RelOps tileOps (fun t t' => (t i).NegativeOf (t' i)) (fun k => k = 255) (fun m => m i = 0 ∨ m i = 255) DualModes := by
  have cp : ∀ {p q : Tile}, (p i).NegativeOf (q i) → tileOps.copy p i = p i ∧ tileOps.copy q i = q i := fun {p q} h => ⟨copy_px h.crisp.1 _, copy_px h.crisp.2.1 _⟩
  have gone : ∀ {op : PD} {s s' : PDSrc} {d d' e e' : Px}, pdAlpha op s.read.a (readPx .nrgba d).a = 0 → pdAlpha op s'.read.a (readPx .nrgba d').a = 0 →
      (pxOr e (drawPD op .nrgba s d)).NegativeOf (pxOr e' (drawPD op .nrgba s' d')) := by
    intro op s s' d d' e e' h h'
    rw [pd_zero h, pd_zero h']
    exact .inl ⟨rfl, rfl⟩
  have zIn : ∀ x : UInt32, Hard x → pdAlpha .destIn x 0 = 0 ∧ pdAlpha .destIn 0 x = 0 ∧ pdAlpha .destOut x 0 = 0 := by
    rintro x (rfl | rfl) <;> decide
  refine ⟨.inl ⟨rfl, rfl⟩, fun {p q} h => ?_, ?_, ?_, ?_, ?_, ?_, ?_, ?_, ?_, rfl, ?_⟩
  · show (tileOps.copy p i).NegativeOf (tileOps.copy q i)
    rw [(cp h).1, (cp h).2]
    exact h
  · rintro k m m' b b' x x' y y' rfl ⟨s, s', h1, h2, hm⟩ hb hx e e'
    obtain ⟨md, g1, e1⟩ := draw_px e i
    obtain ⟨md', g1', e1'⟩ := draw_px e' i
    rw [h1] at g1
    rw [h2] at g1'
    injection g1 with g1
    injection g1' with g1'
    subst g1 g1'
    exact drawNN_negative hm hx hb e1 e1'
  · intro k b x y e
    simp only [tileOps, show blendMode passThrough = none by decide, reduceCtorEq] at e
  · intro p q h
    by_cases hp : (p i).a = 255
    · left
      refine .inr ⟨rfl, ?_⟩
      show ({ tileOps.copy q i with a := 255 } : Px) = ({ tileOps.copy p i with a := 255 } : Px).negative
      rw [(cp h).1, (cp h).2]
      rcases h with ⟨h, -⟩ | ⟨-, h⟩
      · rw [h] at hp
        exact absurd hp (by decide)
      · rw [h]
        rfl
    · right
      intro r r'
      have h0 := h.crisp.1.alpha.resolve_right hp
      have h0' := h.crisp.2.2 ▸ h0
      refine .inl ⟨?_, ?_⟩
      · exact destIn_zero h0
      · exact destIn_zero h0'
  · intro b b' x x' hb hx
    rcases hb.crisp.1 with h1 | h1
    · rcases hx.crisp.1 with h2 | h2
      · show (tileOps.destIn b x i).NegativeOf (tileOps.destIn b' x' i)
        rw [destIn_opaque h1 h2, destIn_opaque (hb.crisp.2.2 ▸ h1) (hx.crisp.2.2 ▸ h2)]
        exact hb
      · refine .inl ⟨destIn_zero (by rw [h2]), destIn_zero (by rw [← hx.crisp.2.2, h2])⟩
    · have h1' : (b' i).a = 0 := by rw [← hb.crisp.2.2, h1]
      refine gone ?_ ?_
      · rw [readPx_alpha, h1]
        exact (zIn _ (read_hard hx.crisp.1.alpha)).1
      · rw [readPx_alpha, h1']
        exact (zIn _ (read_hard hx.crisp.2.1.alpha)).1
  · intro b b' x x' hb hx
    show (pxOr (b i) (drawPD .destOver .nrgba (.px .nrgba (x i)) (b i))).NegativeOf (pxOr (b' i) (drawPD .destOver .nrgba (.px .nrgba (x' i)) (b' i)))
    rw [destOver_hard _ _ _ hx.crisp.1 hb.crisp.1, destOver_hard _ _ _ hx.crisp.2.1 hb.crisp.2.1, ← hb.crisp.2.2]
    split
    · exact hb
    · exact hx
  · intro b b' m hm hb
    rcases hm with hm | hm
    · refine gone ?_ ?_
      · rw [hm]
        exact (zIn _ (readPx_hard hb.crisp.1.alpha)).2.1
      · rw [hm]
        exact (zIn _ (readPx_hard hb.crisp.2.1.alpha)).2.1
    · rcases hb.crisp.1 with h1 | h1
      · show (pxOr (b i) (drawPD .destIn .nrgba (.alpha (m i)) (b i))).NegativeOf (pxOr (b' i) (drawPD .destIn .nrgba (.alpha (m i)) (b' i)))
        rw [pd_full (.inl ⟨rfl, by rw [hm]; decide⟩) h1, pd_full (.inl ⟨rfl, by rw [hm]; decide⟩) (hb.crisp.2.2 ▸ h1)]
        exact hb
      · have h1' : (b' i).a = 0 := by rw [← hb.crisp.2.2, h1]
        refine gone ?_ ?_
        · rw [readPx_alpha, h1]
          exact (zIn _ (readAlpha_hard (.inr hm))).1
        · rw [readPx_alpha, h1']
          exact (zIn _ (readAlpha_hard (.inr hm))).1
  · intro b b' m hm hb
    rcases hb.crisp.1 with h1 | h1
    · rcases hm with hm | hm
      · show (pxOr (b i) (drawPD .destOut .nrgba (.alpha (m i)) (b i))).NegativeOf (pxOr (b' i) (drawPD .destOut .nrgba (.alpha (m i)) (b' i)))
        rw [pd_full (.inr ⟨rfl, by rw [hm]; decide⟩) h1, pd_full (.inr ⟨rfl, by rw [hm]; decide⟩) (hb.crisp.2.2 ▸ h1)]
        exact hb
      · have h1' : (b' i).a = 255 := hb.crisp.2.2 ▸ h1
        refine gone ?_ ?_
        · rw [readPx_alpha, h1, hm]
          decide
        · rw [readPx_alpha, h1', hm]
          decide
    · have h1' : (b' i).a = 0 := by rw [← hb.crisp.2.2, h1]
      refine gone ?_ ?_
      · rw [readPx_alpha, h1]
        exact (zIn _ (readAlpha_hard hm)).2.2
      · rw [readPx_alpha, h1']
        exact (zIn _ (readAlpha_hard hm)).2.2
  · intro b b' _
    rw [clear_px, clear_px]
    exact .inl ⟨rfl, rfl⟩
  · rintro k x rfl rfl
    rfl

theorem DualDoc.rel : ∀ {xs ys : List (LTree LayerRec)}, DualDoc xs ys → DocRel LayerRec.Dual xs ys
  | _, _, .nil => .nil
  | _, _, .cons l l' sub sub' rest rest' h h1 h2 => .cons l l' sub sub' rest rest' h h1.rel h2.rel

theorem DualModes.not_pass {b b' : List UInt8} (h : DualModes b b') : b ≠ ascii "pass" ∧ b' ≠ ascii "pass" := by
  obtain ⟨m, m', h1, h2, -⟩ := h
  constructor
  · rintro rfl
    rw [show blendMode (ascii "pass") = none by decide] at h1
    cases h1
  · rintro rfl
    rw [show blendMode (ascii "pass") = none by decide] at h2
    cases h2

theorem LayerRec.Dual.attr {l l' : LayerRec} (h : l.Dual l') (dec : List UInt8 → Option (List UInt8)) : (attrOf dec l).Rel (fun k => k = 255) DualModes (attrOf dec l') := by
  obtain ⟨h1, h2, h3, h4⟩ := h
  have e : attrOf dec l' = { attrOf dec l with name := (attrOf dec l').name, folderOpen := (attrOf dec l').folderOpen, blendMode := (attrOf dec l').blendMode } := by rw [h1]; rfl
  have ef : l'.folder = l.folder := by rw [h1]; rfl
  have m : ∀ x : LayerRec, (attrOf dec x).blendMode = if x.folder then x.sdBlendMode else if x.blendMode = ascii "pass" then ascii "norm" else x.blendMode := fun _ => rfl
  have hs : (attrOf dec l').seqID = (attrOf dec l).seqID := by rw [e]
  refine ⟨⟨by rw [hs]; exact e, ?_⟩, by show l.opacity.toNat = 255; rw [h2]; rfl, ?_⟩
  · rw [m, m, ef]
    cases hfo : l.folder with
    | true =>
      simp only [if_true]
      rcases h4 hfo with h | h
      · exact ⟨fun h' => absurd h' h.not_pass.1, fun h' => absurd h' h.not_pass.2⟩
      · exact ⟨fun _ => h.2, fun _ => h.1⟩
    | false =>
      have h := h3 hfo
      simp only [Bool.false_eq_true, if_false, if_neg h.not_pass.1, if_neg h.not_pass.2]
      exact ⟨fun h' => absurd h' h.not_pass.1, fun h' => absurd h' h.not_pass.2⟩
  · rw [m, m, ef]
    cases hfo : l.folder with
    | true =>
      simp only [if_true]
      rcases h4 hfo with h | h
      · exact .inl h
      · exact .inr h.1
    | false =>
      have h := h3 hfo
      simp only [Bool.false_eq_true, if_false, if_neg h.not_pass.1, if_neg h.not_pass.2]
      exact .inl h

/-- **C131** The negative of a document gives the negative of its picture: if the layers of two documents are the same but for being in dual blend modes, all at full opacity, and if at a pixel
every layer is opaque and the negative of the other, or fully transparent in both, and every mask is black or white there, then so it is with the pictures, with whatever folders and clipping. -/
theorem C131_negative_document (grow : Nat → Nat) (dec : List UInt8 → Option (List UInt8)) (n : Nat) (doc doc' : List (LTree LayerRec)) (hf : depthAll doc ≤ n) (hf' : depthAll doc' ≤ n)
    (hu : UniqueDoc doc) (hu' : UniqueDoc doc') (hk : KnownModes doc) (hk' : KnownModes doc') (hd : DualDoc doc doc')
    (canvas canvas' : Int → Option (List (TPt × Tile))) (mask : Int → List (TPt × (Nat → UInt8))) (pt : TPt) (i : Nat) (hc : NegativePixels canvas canvas' pt i)
    (hm : ∀ id m, (mask id).lookup pt = some m → m i = 0 ∨ m i = 255)
    (fuel : Nat) (hfu : 2 * n ≤ fuel) (diff aborted : Bool) (visited : List TPt) (hnd : visited.Nodup) (hpt : pt ∈ visited) (dest dest' : TPt → Tile) :
    ∃ st st' d d', render tileOps ⟨newTree grow dec n doc, rootPtr, canvas, mask⟩ fuel diff aborted visited .empty dest = .ok (st, d) ∧
      render tileOps ⟨newTree grow dec n doc', rootPtr, canvas', mask⟩ fuel diff aborted visited .empty dest' = .ok (st', d') ∧ (d pt i).NegativeOf (d' pt i) := by
  obtain ⟨st, st', d, d', e, e', hr⟩ := shown_rel (negative_ops i) hd.rel (fun l l' h => by rw [h.1]) (fun l l' h => by rw [h.1]) grow dec (fun l l' h => h.attr dec) n hf hf' hu hu' hk hk' canvas canvas' mask pt
    (by
      intro l l' _
      have := hc l.seqID
      revert this
      generalize (canvas l.seqID).bind (·.lookup pt) = x
      generalize (canvas' l.seqID).bind (·.lookup pt) = y
      intro this
      cases x with
      | none => cases y with
        | none => trivial
        | some => exact absurd this id
      | some t => cases y with
        | none => exact absurd this id
        | some t' =>
          show (tileOps.copy t i).NegativeOf (tileOps.copy t' i)
          rcases this with ⟨h1, h2⟩ | ⟨h1, h2⟩
          · have z : ∀ u : Tile, (u i).a = 0 → tileOps.copy u i = ⟨0, 0, 0, 0⟩ := fun u hz =>
              pd_zero (op := .copy) (s := .px .nrgba (u i)) (d := ⟨0, 0, 0, 0⟩) (by rw [read_alpha, hz]; rfl) (u i)
            exact .inl ⟨z _ h1, z _ h2⟩
          · rw [copy_opaque h1, copy_opaque (by rw [h2]; exact h1)]
            exact .inr ⟨h1, h2⟩)
    (fun l l' _ x hx => hm _ x hx) fuel hfu diff aborted visited hnd dest dest'
  exact ⟨st, st', d, d', e, e', hr hpt⟩

/-! ### Non-vacuity -/

/-- A background, a layer to be multiplied with it, and one in colour burn clipped to that; and the same in screen and colour dodge. -/
def posDoc (m c : String) : List (LTree LayerRec) :=
  [.node { seqID := 0, blendMode := ascii "norm", opacity := 255, blendClippedElements := true } [],
    .node { seqID := 1, blendMode := ascii m, opacity := 255, blendClippedElements := true } [],
    .node { seqID := 2, blendMode := ascii c, opacity := 255, clipping := true } []]

def posCanvas (id : Int) : Option (List (TPt × Tile)) :=
  if id = 0 then some [((0, 0), plainTile ⟨200, 100, 0, 255⟩)] else if id = 1 then some [((0, 0), plainTile ⟨10, 20, 130, 255⟩)]
  else if id = 2 then some [((0, 0), plainTile ⟨250, 50, 30, 255⟩)] else none

def negCanvas (id : Int) : Option (List (TPt × Tile)) :=
  if id = 0 then some [((0, 0), plainTile ⟨55, 155, 255, 255⟩)] else if id = 1 then some [((0, 0), plainTile ⟨245, 235, 125, 255⟩)]
  else if id = 2 then some [((0, 0), plainTile ⟨5, 205, 225, 255⟩)] else none

theorem posDoc_unique (m c : String) : UniqueDoc (posDoc m c) := by
  refine UniqueDoc.of_list ?_
  simp only [docList, posDoc, LTree.number, List.map, List.nil_append]
  decide

/-- The keys of linear burn and linear dodge are dual. -/
example : DualModes (ascii "lbrn") (ascii "lddg") ∧ DualModes (ascii "lddg") (ascii "lbrn") :=
  ⟨⟨.linearBurn, .add, by decide, by decide, .inr (.inr (.inl ⟨rfl, rfl⟩))⟩, ⟨.add, .linearBurn, by decide, by decide, .inr (.inr (.inr ⟨rfl, rfl⟩))⟩⟩

/-- They meet the hypotheses of `C131_negative_document`. -/
example : depthAll (posDoc "mul " "idiv") ≤ 1 ∧ UniqueDoc (posDoc "mul " "idiv") ∧ KnownModes (posDoc "mul " "idiv") ∧ KnownModes (posDoc "scrn" "div ") ∧
    DualDoc (posDoc "mul " "idiv") (posDoc "scrn" "div ") ∧ NegativePixels posCanvas negCanvas (0, 0) 5 := by
  have known : ∀ m c, (blendMode (ascii m)).isSome = true → (blendMode (ascii c)).isSome = true → KnownModes (posDoc m c) := by
    intro m c hm hc
    refine DocAll.of_list (Q := fun l _ => (l.folder = false → blendMode l.blendMode ≠ none ∨ l.blendMode = ascii "pass") ∧
      (l.folder = true → blendMode l.sdBlendMode ≠ none ∨ l.sdBlendMode = ascii "pass" ∧ l.blendClippedElements = true)) ?_
    intro x hx
    simp only [docList, posDoc, List.map, List.nil_append] at hx
    fin_cases hx
    · exact ⟨fun _ => .inl (by decide), fun h => by cases h⟩
    · exact ⟨fun _ => .inl (fun e => by rw [e] at hm; cases hm), fun h => by cases h⟩
    · exact ⟨fun _ => .inl (fun e => by rw [e] at hc; cases hc), fun h => by cases h⟩
  refine ⟨by decide, posDoc_unique _ _, known _ _ (by decide) (by decide), known _ _ (by decide) (by decide), ?_, fun id => ?_⟩
  · refine .cons _ _ _ _ _ _ ⟨rfl, rfl, fun _ => ⟨.normal, .normal, by decide, by decide, .inr (.inl ⟨rfl, rfl⟩)⟩, fun h => by cases h⟩ .nil
      (.cons _ _ _ _ _ _ ⟨rfl, rfl, fun _ => ⟨.multiply, .screen, by decide, by decide, .inl rfl⟩, fun h => by cases h⟩ .nil
      (.cons _ _ _ _ _ _ ⟨rfl, rfl, fun _ => ⟨.colorBurn, .colorDodge, by decide, by decide, .inl rfl⟩, fun h => by cases h⟩ .nil .nil))
  · unfold posCanvas negCanvas
    by_cases h0 : id = 0
    · simp only [if_pos h0]
      exact .inr ⟨rfl, rfl⟩
    by_cases h1 : id = 1
    · simp only [if_neg h0, if_pos h1]
      exact .inr ⟨rfl, rfl⟩
    by_cases h2 : id = 2
    · simp only [if_neg h0, if_neg h1, if_pos h2]
      exact .inr ⟨rfl, rfl⟩
    · simp only [if_neg h0, if_neg h1, if_neg h2]
      trivial

/-- And the picture is not trivial. -/
example : peekPx (render tileOps ⟨newTree (fun n => n) some 1 (posDoc "mul " "idiv"), rootPtr, posCanvas, fun _ => []⟩ 2 false false [(0, 0)] .empty blank) 5 = .ok ⟨4, 0, 0, 255⟩ ∧
    peekPx (render tileOps ⟨newTree (fun n => n) some 1 (posDoc "scrn" "div "), rootPtr, negCanvas, fun _ => []⟩ 2 false false [(0, 0)] .empty blank) 5 = .ok ⟨251, 255, 255, 255⟩ := by
  constructor <;> decide +kernel

end Psd
