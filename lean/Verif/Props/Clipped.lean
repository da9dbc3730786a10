import Verif.Props.Cover

/-!
# C86: clipped layers are seen like any other
-/

namespace Psd

/-- Layers that are all clipping layers, in a clipping group: lower ones are painted first. -/
theorem clips_append {P M : Type} {ops : PicOps P M} {dec : List UInt8 → Option (List UInt8)} {pic : Int → Option P} {mask : Int → Option M} :
    ∀ (xs ys : List (LTree LayerRec)) (t : Stk P M), IsStack dec pic mask (xs ++ ys) t → (∀ k ∈ xs, k.isClipping = true) →
    ∃ tx ty, IsStack dec pic mask xs tx ∧ IsStack dec pic mask ys ty ∧ ∀ forced scale b, paint ops t forced scale b =
      paint ops tx forced scale b >>= fun r => paint ops ty forced scale r.2 >>= fun r' => .ok (r.1 || r'.1, r'.2) := by
  intro xs
  induction xs with
  | nil =>
    intro ys t h _
    refine ⟨.nil, t, rfl, h, fun forced scale b => ?_⟩
    show _ = paint ops t forced scale b >>= fun r' => .ok (false || r'.1, r'.2)
    cases paint ops t forced scale b <;> rfl
  | cons x xs ih =>
    intro ys t h hc
    cases t with
    | nil => cases (show _ :: _ = [] from h)
    | layer a p m kids clips rest =>
      obtain ⟨l, sub, above, over, e, ha, hp, hm, hk, hcl, hr, h1, h2, h3⟩ := h
      rw [List.cons_append] at e
      injection e with e1 e2
      subst e1
      have hlc : l.clipping = true := hc _ List.mem_cons_self
      obtain rfl := h2 hlc
      obtain rfl : xs ++ ys = over := e2
      obtain ⟨tx, ty, i1, i2, i3⟩ := ih ys rest hr (fun k hk => hc k (List.mem_cons_of_mem _ hk))
      refine ⟨.layer a p m kids clips tx, ty, ⟨l, sub, [], xs, rfl, ha, hp, hm, hk, hcl, i1, h1, h2, fun hl => ?_⟩, i2, fun forced scale b => ?_⟩
      · rw [hlc] at hl
        cases hl
      · rw [paint_layer, paint_layer]
        cases paintLayer ops a p m kids clips forced (scale a.opacity) b with
        | ok r1 =>
          simp only [Res.ok_bind, i3]
          cases paint ops tx forced scale r1.2 with
          | ok r2 =>
            simp only [Res.ok_bind]
            cases paint ops ty forced scale r2.2 with
            | ok r3 => simp only [Res.ok_bind, Bool.or_assoc]
            | _ => rfl
          | _ => rfl
        | _ => rfl

theorem removeAlpha_opaque {p : Tile} {i : Nat} (h : (p i).a = 255) : tileOps.removeAlpha p i = p i := by
  show ({ p i with a := 255 } : Px) = p i
  rw [← h]

theorem Px.Same.opaque {p q : Px} (h : p.Same q) (hp : p.a = 255) : p = q := by
  rcases h with h | ⟨h, -⟩
  · exact h
  · rw [hp] at h
    cases h

/-- Clipping layers of which one is opaque and solid at pixel `i`: those below it do not matter. -/
theorem clipPic_cover {dec : List UInt8 → Option (List UInt8)} {pic : Int → Option Tile} {mask : Int → Option (Nat → UInt8)} {mids tops : List (LTree LayerRec)} {c : LayerRec}
    (hm : ∀ k ∈ mids, k.isClipping = true) (hcs : c.Solid) (hcc : c.clipping = true)
    {clips tt : Stk Tile (Nat → UInt8)} (hs : IsStack dec pic mask (mids ++ .node c [] :: tops) clips) (ht : IsStack dec pic mask tops tt) (hb : clips.bare)
    {p q : Tile} {i : Nat} (hp : (p i).a = 255) (hq : pic c.seqID = some q) (hqi : (q i).a = 255)
    {a a' : CAttr} (ha : a.blendClippedElements = true) (ha' : a'.blendClippedElements = true) {img img' : Tile}
    (e : clipPic tileOps a clips.isNil (paint tileOps clips true id) (some (tileOps.copy p)) = .ok (some img))
    (e' : clipPic tileOps a' tt.isNil (paint tileOps tt true id) (some (tileOps.copy q)) = .ok (some img')) : img i = img' i := by
  obtain ⟨tm, ty, g1, g2, g3⟩ := clips_append (ops := tileOps) mids _ clips hs hm
  have hn : clips.isNil = false := by
    cases clips with
    | nil => cases mids <;> cases (show _ = [] from hs)
    | layer => rfl
  cases ty with
  | nil => cases (show _ :: _ = [] from g2)
  | layer ac q0 mc kids cl rest =>
    obtain ⟨l0, sub, above0, over, e3, hac, hq0, hmc, hk', hc', hr, n1, n2, n3⟩ := g2
    injection e3 with e3 e4
    injection e3 with e5 e6
    subst e5 e6
    obtain rfl := n2 hcc
    obtain rfl : tops = over := e4
    obtain rfl := hk'.nil
    obtain rfl := hc'.nil
    obtain rfl := stack_unique _ _ _ ht hr
    replace hq0 := hq0.trans hq
    subst hq0
    obtain ⟨s1, s2, s3, s4⟩ := hac.solid hcs
    simp only [clipPic, hn, ha, Bool.not_true, Bool.or_self, Bool.false_eq_true, if_false] at e
    obtain ⟨r, e1, e2⟩ := Res.bind_eq_ok.1 e
    injection e2 with e2
    injection e2 with e2
    have hr255 := paint_opaque clips hb true id _ r (show (tileOps.removeAlpha (tileOps.copy (tileOps.copy p)) i).a = 255 from rfl) e1
    have himg : img i = r.2 i := by
      rw [← e2]
      exact destIn_opaque hr255 (by rw [copy_alpha]; exact hp)
    rw [g3] at e1
    obtain ⟨r0, e5, e1⟩ := Res.bind_eq_ok.1 e1
    obtain ⟨ry, e6, e1⟩ := Res.bind_eq_ok.1 e1
    injection e1 with e1
    subst e1
    rw [paint_layer] at e6
    obtain ⟨rc, e7, e8⟩ := Res.bind_eq_ok.1 e6
    obtain ⟨rt, e9, e8⟩ := Res.bind_eq_ok.1 e8
    injection e8 with e8
    subst e8
    obtain ⟨-, img1, f2, f3, f4⟩ := paintLayer_cover (i := i) s1 (.inr rfl) s2 s3 s4 hqi (clips := .nil) trivial e7
    injection f4 with f4
    injection f4 with f4
    subst f4
    rw [copy_opaque hqi] at f3
    simp only at himg hr255
    cases tt with
    | nil =>
      injection e' with e'
      injection e' with e'
      injection e9 with e9
      rw [himg, ← e', copy_opaque hqi, ← e9, f3]
    | layer at' qt mt kt ct rt' =>
      simp only [clipPic, Stk.isNil, ha', Bool.not_true, Bool.or_self, Bool.false_eq_true, if_false] at e'
      obtain ⟨r', e10, e11⟩ := Res.bind_eq_ok.1 e'
      injection e11 with e11
      injection e11 with e11
      have hsame := (paint_same (strict := true) (i := i) _ _ (.refl _ _ _) (.inl rfl) _ _ _ _ rt r' (.inl (by
        rw [f3, removeAlpha_opaque (by rw [copy_alpha, copy_alpha]; exact hqi), copy_opaque (by rw [copy_alpha]; exact hqi), copy_opaque hqi])) e9 e10).1.opaque hr255
      rw [himg, ← e11]
      show rt.2 i = tileOps.destIn r'.2 (tileOps.copy q) i
      rw [destIn_opaque (by rw [← hsame]; exact hr255) (by rw [copy_alpha]; exact hqi), hsame]

theorem UniqueDoc.head {c c' : LayerRec} {k rest : List (LTree LayerRec)} (e : c'.seqID = c.seqID) (h : UniqueDoc (.node c k :: rest)) : UniqueDoc (.node c' k :: rest) := by
  have key : ∀ π l kids, docAt (.node c' k :: rest) π = some (.node l kids) → ∃ l1, docAt (.node c k :: rest) π = some (.node l1 kids) ∧ l1.seqID = l.seqID := by
    intro π l kids h
    match π with
    | [] => cases h
    | [0] =>
      injection h with h
      injection h with h1 h2
      subst h1 h2
      exact ⟨c, rfl, e.symm⟩
    | 0 :: i :: π => exact ⟨l, h, rfl⟩
    | (i + 1) :: π => exact ⟨l, h, rfl⟩
  intro π π' l l' kids kids' h1 h2 e1
  obtain ⟨m, k1, k2⟩ := key π l kids h1
  obtain ⟨m', k1', k2'⟩ := key π' l' kids' h2
  exact h π π' m m' kids kids' k1 k1' (by rw [k2, k2', e1])

theorem DocAll.head {Q : LayerRec → List (LTree LayerRec) → Prop} {c c' : LayerRec} {k rest : List (LTree LayerRec)} (hq : Q c k → Q c' k)
    (h : DocAll Q (.node c k :: rest)) : DocAll Q (.node c' k :: rest) := by
  intro π l kids e
  match π with
  | [] => cases e
  | [0] =>
    injection e with e
    injection e with h1 h2
    subst h1 h2
    exact hq (h [0] c k rfl)
  | 0 :: i :: π => exact h (0 :: i :: π) l kids e
  | (i + 1) :: π => exact h ((i + 1) :: π) l kids e

/-- A layer clipped to another one, where both are opaque, and without the layer it is clipped to and what is below. -/
theorem clip_looks {dec : List UInt8 → Option (List UInt8)} {pic : Int → Option Tile} {mask : Int → Option (Nat → UInt8)} {below mids tops over : List (LTree LayerRec)} {l c c' : LayerRec}
    (hl : l.Solid) (hc : c.Solid) (hs' : c'.Solid) (hid : c'.seqID = c.seqID) (hcl' : c'.clipping = false) (hbce' : c'.blendClippedElements = true)
    (hcl : l.clipping = false) (hcm : ∀ k ∈ mids, k.isClipping = true) (hcc : c.clipping = true) (hct : ∀ k ∈ tops, k.isClipping = true)
    (hco : ∀ k ∈ over.head?, k.isClipping = false) (hbce : l.blendClippedElements = true)
    (hb : FoldersBare (below ++ .node l [] :: (mids ++ .node c [] :: (tops ++ over))) pic) {i : Nat} {p q : Tile} (hp : pic l.seqID = some p) (hpi : (p i).a = 255) (hq : pic c.seqID = some q)
    (hqi : (q i).a = 255) {t t' : Stk Tile (Nat → UInt8)} {r r' : Bool × Tile} (h1 : IsStack dec pic mask (below ++ .node l [] :: (mids ++ .node c [] :: (tops ++ over))) t)
    (h1' : IsStack dec pic mask (.node c' [] :: (tops ++ over)) t') {b b' : Tile} (h2 : paint tileOps t false id b = .ok r) (h2' : paint tileOps t' false id b' = .ok r') :
    (r.2 i).Same (r'.2 i) ∧ r.1 = true ∧ r'.1 = true := by
  have hsplit : below ++ .node l [] :: (mids ++ .node c [] :: (tops ++ over)) = (below ++ .node l [] :: mids) ++ .node c [] :: (tops ++ over) := by simp
  obtain ⟨tb, ty, g1, g2, g3⟩ := stack_append (ops := tileOps) t _ _ h1 (by intro k hk; cases hk; exact hcl)
  rw [g3] at h2
  obtain ⟨rb, e1, h2⟩ := Res.bind_eq_ok.1 h2
  obtain ⟨ry, e2, h2⟩ := Res.bind_eq_ok.1 h2
  injection h2 with h2
  subst h2
  cases ty with
  | nil => cases (show _ :: _ = [] from g2)
  | layer a p0 m kids clips rest =>
    obtain ⟨l0, sub, above0, over0, e3, ha, hp0, hm, hkk, hcs, hr, n1, n2, n3⟩ := g2
    injection e3 with e3 e4
    injection e3 with e5 e6
    subst e5 e6
    replace hp0 := hp0.trans hp
    subst hp0
    obtain rfl := hkk.nil
    obtain ⟨rfl, rfl⟩ := run_unique (mids ++ .node c [] :: tops) over above0 over0 (by rw [← e4]; simp) (by
      intro k hk
      rcases List.mem_append.1 hk with hk | hk
      · exact hcm k hk
      · rcases List.mem_cons.1 hk with rfl | hk
        · exact hcc
        · exact hct k hk) n1 hco (n3 hcl)
    have hbc := stack_bare _ _ hcs fun π l kids e h => by
      obtain ⟨-, -, b3⟩ := DocAll.cons (Q := fun l kids => l.folder = true ∨ kids ≠ [] → pic l.seqID = none) (DocAll.append hb).2
      rw [show mids ++ .node c [] :: (tops ++ over) = (mids ++ .node c [] :: tops) ++ over by simp] at b3
      exact (DocAll.append b3).1 π l kids e h
    cases t' with
    | nil => cases (show _ :: _ = [] from h1')
    | layer a' q0 m' kids' tt rest' =>
      obtain ⟨l1, sub1, above1, over1, e3', ha', hq0, hm', hkk', hcs', hr', n1', n2', n3'⟩ := h1'
      injection e3' with e3' e4'
      injection e3' with e5' e6'
      subst e5' e6'
      replace hq0 := hq0.trans ((by rw [hid] : _ = pic c.seqID).trans hq)
      subst hq0
      obtain rfl := hkk'.nil
      obtain ⟨rfl, rfl⟩ := run_unique tops over above1 over1 e4' hct n1' hco (n3' hcl')
      obtain rfl := stack_unique _ _ _ hr hr'
      have hbt := stack_bare _ _ hcs' fun π l kids e h => by
        have b2 := (DocAll.append (Q := fun l kids => l.folder = true ∨ kids ≠ [] → pic l.seqID = none) (hsplit ▸ hb)).2
        obtain ⟨-, -, b3⟩ := DocAll.cons b2
        exact (DocAll.append b3).1 π l kids e h
      obtain ⟨s1, s2, s3, s4⟩ := ha.solid hl
      obtain ⟨s1', s2', s3', s4'⟩ := ha'.solid hs'
      rw [paint_layer] at e2 h2'
      obtain ⟨r1, k1, k2⟩ := Res.bind_eq_ok.1 e2
      obtain ⟨r1', k1', k2'⟩ := Res.bind_eq_ok.1 h2'
      obtain ⟨f1, img, f2, f3, f4⟩ := paintLayer_cover s1 (.inl (ha.clipping.trans hcl)) s2 s3 s4 hpi hbc k1
      obtain ⟨f1', img', f2', f3', f4'⟩ := paintLayer_cover s1' (.inl (ha'.clipping.trans hcl')) s2' s3' s4' hqi hbt k1'
      have hii := clipPic_cover hcm hc hcc hcs hcs' hbc hpi hq hqi (ha.blendClipped.trans hbce) (ha'.blendClipped.trans hbce') f4 f4'
      obtain ⟨r2, k3, k4⟩ := Res.bind_eq_ok.1 k2
      obtain ⟨r2', k3', k4'⟩ := Res.bind_eq_ok.1 k2'
      injection k4 with k4
      injection k4' with k4'
      subst k4 k4'
      have hfin := (paint_same (strict := true) rest rest (.refl _ _ _) (.inl rfl) _ _ _ _ r2 r2' (.inl ((f3.trans hii).trans f3'.symm)) k3 k3').1
      exact ⟨hfin, by simp only [f1, Bool.true_or, Bool.or_true], by simp only [f1', Bool.true_or]⟩

/-- C86: a layer clipped to another one is seen like an ordinary one, if "Blend Clipped Layers as Group" is on: where both are opaque, the picture is that of the document in which
it is not a clipping layer, and has neither the layer it is clipped to nor anything else below. -/
theorem C86_clip_covers_partial (grow : Nat → Nat) (dec : List UInt8 → Option (List UInt8)) (n : Nat) (below mids tops over : List (LTree LayerRec)) (l c : LayerRec)
    (hf : depthAll (below ++ .node l [] :: (mids ++ .node c [] :: (tops ++ over))) ≤ n) (hu : UniqueDoc (below ++ .node l [] :: (mids ++ .node c [] :: (tops ++ over))))
    (hk : KnownModes (below ++ .node l [] :: (mids ++ .node c [] :: (tops ++ over))))
    (hl : l.Solid) (hc : c.Solid) (hcl : l.clipping = false) (hcm : ∀ k ∈ mids, k.isClipping = true) (hcc : c.clipping = true) (hct : ∀ k ∈ tops, k.isClipping = true)
    (hco : ∀ k ∈ over.head?, k.isClipping = false) (hbce : l.blendClippedElements = true)
    (canvas : Int → Option (List (TPt × Tile))) (mask : Int → List (TPt × (Nat → UInt8))) (hb : FoldersBare (below ++ .node l [] :: (mids ++ .node c [] :: (tops ++ over))) canvas)
    (pt : TPt) (i : Nat) (p q : Tile) (hp : (canvas l.seqID).bind (·.lookup pt) = some p) (hpi : (p i).a = 255) (hq : (canvas c.seqID).bind (·.lookup pt) = some q)
    (hqi : (q i).a = 255) (fuel : Nat) (hfu : 2 * n ≤ fuel) (diff aborted : Bool) (visited : List TPt) (hnd : visited.Nodup) (dest : TPt → Tile) :
    ∃ st st' d d', render tileOps ⟨newTree grow dec n (below ++ .node l [] :: (mids ++ .node c [] :: (tops ++ over))), rootPtr, canvas, mask⟩ fuel diff aborted visited .empty dest = .ok (st, d) ∧
      render tileOps ⟨newTree grow dec n (.node { c with clipping := false, blendClippedElements := true } [] :: (tops ++ over)), rootPtr, canvas, mask⟩ fuel diff aborted visited .empty dest =
        .ok (st', d') ∧ d pt i = d' pt i := by
  obtain ⟨c', ec'⟩ : ∃ c' : LayerRec, ({ c with clipping := false, blendClippedElements := true } : LayerRec) = c' := ⟨_, rfl⟩
  rw [ec']
  have hs' : c'.Solid := by subst ec'; exact ⟨hc.layer, hc.visible, hc.opacity, hc.mode, hc.unmasked⟩
  have hcl' : c'.clipping = false := by subst ec'; rfl
  have hbce' : c'.blendClippedElements = true := by subst ec'; rfl
  have hid : c'.seqID = c.seqID := by subst ec'; rfl
  obtain ⟨st, d, e, h⟩ := C82_render_paints_the_layers grow dec n _ hf hu hk canvas mask fuel hfu diff aborted visited hnd dest
  have hsplit : below ++ .node l [] :: (mids ++ .node c [] :: (tops ++ over)) = (below ++ .node l [] :: mids) ++ .node c [] :: (tops ++ over) := by simp
  have hf' : depthAll (.node c' [] :: (tops ++ over)) ≤ n := by
    rw [hsplit, depthAll_append] at hf
    exact Nat.le_trans (Nat.le_of_eq rfl) (Nat.le_trans (Nat.le_max_right _ _) hf)
  have hu' : UniqueDoc (.node c' [] :: (tops ++ over)) := UniqueDoc.head hid (UniqueDoc.suffix (by rw [← hsplit]; exact hu))
  have hk' : KnownModes (.node c' [] :: (tops ++ over)) := by
    rw [hsplit] at hk
    refine DocAll.head (fun _ => ⟨fun _ => .inl (by rw [hs'.mode]; decide), fun h => ?_⟩) (DocAll.append hk).2
    rw [hs'.layer] at h
    cases h
  obtain ⟨st', d', e', h'⟩ := C82_render_paints_the_layers grow dec n _ hf' hu' hk' canvas mask fuel hfu diff aborted visited hnd dest
  refine ⟨st, st', d, d', e, e', ?_⟩
  obtain ⟨t, r, h1, h2, h3⟩ := h pt
  obtain ⟨t', r', h1', h2', h3'⟩ := h' pt
  rw [h3, h3']
  split
  case isFalse => rfl
  obtain ⟨k1, k2, k3⟩ := clip_looks hl hc hs' hid hcl' hbce' hcl hcm hcc hct hco hbce (fun π l kids e h => by
    show (canvas _).bind _ = none
    rw [hb π l kids e h]
    rfl) hp hpi hq hqi h1 h1' h2 h2'
  unfold tileShown
  simp only [k2, k3, if_true]
  exact copy_same (.inl (copy_same k1))

/-- Other clipping layers, and a layer above them. -/
def midClip : LayerRec := { seqID := 10, blendMode := ascii "mul ", opacity := 77, clipping := true }
def topClip : LayerRec := { seqID := 11, blendMode := ascii "scrn", opacity := 100, clipping := true }
def overLayer : LayerRec := { seqID := 12, blendMode := ascii "diff", opacity := 200 }

/-- A document for `C86_clip_covers_partial`. -/
def clippedDoc : List (LTree LayerRec) := partsDoc ++ .node solidLayer [] :: ([.node midClip []] ++ .node solidClip [] :: ([.node topClip []] ++ [.node overLayer []]))

def clippedCanvas (id : Int) : Option (List (TPt × Tile)) :=
  if id = 10 then some [((0, 0), plainTile ⟨7, 7, 7, 200⟩)] else if id = 11 then some [((0, 0), plainTile ⟨100, 0, 200, 100⟩)]
  else if id = 12 then some [((0, 0), plainTile ⟨0, 40, 80, 90⟩)] else solidCanvas id

/-- The hypotheses are met. -/
example : depthAll clippedDoc ≤ 2 ∧ UniqueDoc clippedDoc ∧ KnownModes clippedDoc ∧ FoldersBare clippedDoc clippedCanvas ∧
    (∃ p, (clippedCanvas 8).bind (·.lookup (0, 0)) = some p ∧ (p 3).a = 255) ∧ ∃ p, (clippedCanvas 9).bind (·.lookup (0, 0)) = some p ∧ (p 3).a = 255 := by
  refine ⟨by decide, UniqueDoc.of_list ?_, DocAll.of_list (Q := fun l _ =>
    (l.folder = false → blendMode l.blendMode ≠ none ∨ l.blendMode = ascii "pass") ∧
    (l.folder = true → blendMode l.sdBlendMode ≠ none ∨ l.sdBlendMode = ascii "pass" ∧ l.blendClippedElements = true)) ?_,
    DocAll.of_list (Q := fun l kids => l.folder = true ∨ kids ≠ [] → clippedCanvas l.seqID = none) ?_, ⟨_, rfl, rfl⟩, ⟨_, rfl, rfl⟩⟩
  · simp only [docList, clippedDoc, partsDoc, LTree.number, List.map, List.nil_append, List.cons_append]
    decide
  · intro x hx
    simp only [docList, clippedDoc, partsDoc, List.map, List.nil_append, List.cons_append] at hx
    fin_cases hx <;> decide
  · intro x hx
    simp only [docList, clippedDoc, partsDoc, List.map, List.nil_append, List.cons_append] at hx
    fin_cases hx
    · exact fun _ => rfl
    all_goals
      intro h
      rcases h with h | h
      · exact absurd h (by decide)
      · exact absurd rfl h

/-- The picture of such a document, and that of the other one. -/
example :
    peekPx (render tileOps ⟨newTree (fun n => n) some 2 clippedDoc, rootPtr, clippedCanvas, fun _ => []⟩ 4 false false [(0, 0)] .empty blank) 3 = .ok ⟨62, 49, 70, 255⟩ ∧
    peekPx (render tileOps ⟨newTree (fun n => n) some 2 [.node { solidClip with clipping := false, blendClippedElements := true } [], .node topClip [], .node overLayer []], rootPtr,
      clippedCanvas, fun _ => []⟩ 4 false false [(0, 0)] .empty blank) 3 = .ok ⟨62, 49, 70, 255⟩ := by
  decide +kernel

end Psd
