import Verif.Lemmas.Composed
import Verif.Props.Cover

/-!
# What is below something that covers it
-/

namespace Psd

section
variable {dec : List UInt8 → Option (List UInt8)} {pic : Int → Option Tile} {mask : Int → Option (Nat → UInt8)} {i : Nat} {O : LayerRec → Prop}

theorem Covering.base {x : LTree LayerRec} (h : Covering O x) : x.isClipping = false := by
  cases h with
  | layer l _ hc _ => exact hc
  | folder f _ _ _ _ hc _ => exact hc

theorem kidScale_255 {a : CAttr} {o : Nat} (h : a.blendMode = passThrough → o = 255) : kidScale a o 255 = 255 := by
  unfold kidScale
  split
  · rename_i hp
    rw [h hp]
  · rfl

theorem kidStart_same {a : CAttr} {b b' : Tile} (h : (b i).Same (b' i)) : (kidStart tileOps a b i).Same (kidStart tileOps a b' i) := by
  unfold kidStart
  split
  · exact .inl (copy_same h)
  · exact .refl _

theorem normal_covers {b img y : Tile} (e : tileOps.draw 255 (ascii "norm") b img = .ok y) (hi : (img i).a = 255) : y i = img i := by
  obtain ⟨md, e5, e6⟩ := draw_px e i
  rw [show blendMode (ascii "norm") = some (.sep .normal) by decide] at e5
  injection e5 with e5
  subst e5
  have := C43_opaque_normal (img i) (b i) hi
  rw [show UInt8.ofNat 255 = 255 from rfl, this] at e6
  injection e6 with e6
  exact e6.symm

theorem clipPic_opaque {a : CAttr} {clips : Stk Tile (Nat → UInt8)} (hb : clips.bare) {buf : Tile} (h : (buf i).a = 255) {w : Option Tile}
    (e : clipPic tileOps a clips.isNil (paint tileOps clips true id) (some buf) = .ok w) : ∃ img, w = some img ∧ (img i).a = 255 := by
  simp only [clipPic] at e
  split at e
  · injection e with e
    exact ⟨_, e.symm, h⟩
  · obtain ⟨c, ec, e⟩ := Res.bind_eq_ok.1 e
    injection e with e
    refine ⟨_, e.symm, ?_⟩
    rw [destIn_alpha (paint_opaque clips hb _ _ _ c rfl ec)]
    exact h

theorem ShowsLayer.solidFolder {f : LayerRec} {a : CAttr} (h : ShowsLayer dec f a) (hs : f.SolidFolder) :
    a.visible = true ∧ a.opacity = 255 ∧ (a.blendMode = ascii "norm" ∨ a.blendMode = passThrough) ∧ a.maskEnabled = false := by
  refine ⟨h.visible.trans hs.visible, by rw [h.opacity, hs.opacity]; rfl, by rw [h.folderMode hs.folder]; exact hs.mode, ?_⟩
  cases hm : a.maskEnabled with
  | false => rfl
  | true => exact absurd (h.mask.1 hm) hs.unmasked

/-- What covers is painted the same on anything. -/
theorem paint_covers {x : LTree LayerRec} (h : Covering O x) (hO : ∀ l, O l → ∃ p, pic l.seqID = some p ∧ (p i).a = 255) : ∀ (above : List (LTree LayerRec)) (t : Stk Tile (Nat → UInt8)),
    IsStack dec pic mask (x :: above) t → FoldersBare (x :: above) pic → ∀ (scale : Nat → Nat) (b b' : Tile) (r r' : Bool × Tile), scale 255 = 255 →
    paint tileOps t false scale b = .ok r → paint tileOps t false scale b' = .ok r' → r.1 = true ∧ r'.1 = true ∧ (r.2 i).a = 255 ∧ (r.2 i).Same (r'.2 i) := by
  induction h with
  | layer l hl hcl ho =>
    intro above t ht hb scale b b' r r' hs e e'
    have hbt := stack_bare _ _ ht hb
    obtain ⟨p, hp, hpi⟩ := hO l ho
    cases t with
    | nil => cases (show _ :: _ = [] from ht)
    | layer a p0 m kids clips rest =>
      obtain ⟨l0, sub, above0, over, e3, ha, hp0, hm, hk', hc, -⟩ := ht
      injection e3 with e3 e4
      injection e3 with e5 e6
      subst e5 e6
      rw [hp] at hp0
      subst hp0
      obtain rfl := hk'.nil
      obtain ⟨s1, s2, s3, s4⟩ := ha.solid hl
      obtain ⟨-, -, hbc, hbr⟩ := hbt
      rw [paint_layer] at e e'
      obtain ⟨r1, e1, e2⟩ := Res.bind_eq_ok.1 e
      obtain ⟨r1', e1', e2'⟩ := Res.bind_eq_ok.1 e'
      rw [s2] at e1 e1'
      obtain ⟨h1, img, h2, h3, h4⟩ := paintLayer_cover s1 (.inl (ha.clipping.trans hcl)) hs s3 s4 hpi hbc e1
      obtain ⟨h1', img', h2', h3', h4'⟩ := paintLayer_cover s1 (.inl (ha.clipping.trans hcl)) hs s3 s4 hpi hbc e1'
      rw [h4] at h4'
      injection h4' with h4'
      injection h4' with h4'
      subst h4'
      obtain ⟨r2, e3, e4⟩ := Res.bind_eq_ok.1 e2
      obtain ⟨r2', e3', e4'⟩ := Res.bind_eq_ok.1 e2'
      injection e4 with e4
      injection e4' with e4'
      subst e4 e4'
      exact ⟨by rw [h1]; rfl, by rw [h1']; rfl, paint_opaque rest hbr _ _ _ r2 (by rw [h3]; exact h2) e3,
        (paint_same (strict := true) rest rest (.refl _ _ _) (.inl rfl) _ _ _ _ r2 r2' (.inl (h3.trans h3'.symm)) e3 e3').1⟩
  | folder f below x above' hf hcl hx ih =>
    intro above t ht hb scale b b' r r' hs e e'
    have hbt := stack_bare _ _ ht hb
    obtain ⟨-, hbk, -⟩ := DocAll.cons (Q := fun l kids => l.folder = true ∨ kids ≠ [] → pic l.seqID = none) hb
    have hbx := (DocAll.append hbk).2
    cases t with
    | nil => cases (show _ :: _ = [] from ht)
    | layer a p0 m kids clips rest =>
      obtain ⟨l0, sub, above0, over, e3, ha, hp0, hm, hk', hc, -⟩ := ht
      injection e3 with e3 e4
      injection e3 with e5 e6
      subst e5 e6
      obtain ⟨s1, s2, s3, s4⟩ := ha.solidFolder hf
      obtain ⟨-, hbk', hbc, hbr⟩ := hbt
      have hn : kids.isNil = false := by
        cases kids with
        | nil => exact absurd (show below ++ x :: above' = [] from hk') (by simp)
        | layer => rfl
      obtain ⟨tb, ty, g1, g2, g3⟩ := stack_append (ops := tileOps) kids _ _ hk' (by intro k hk; cases hk; exact hx.base)
      -- the contents
      have inner : ∀ (scale : Nat → Nat) (b b' : Tile) (r r' : Bool × Tile), scale 255 = 255 → paint tileOps kids false scale b = .ok r → paint tileOps kids false scale b' = .ok r' →
          r.1 = true ∧ r'.1 = true ∧ (r.2 i).a = 255 ∧ (r.2 i).Same (r'.2 i) := by
        intro scale b b' r r' hs e e'
        rw [g3] at e e'
        obtain ⟨rb, e1, e⟩ := Res.bind_eq_ok.1 e
        obtain ⟨ry, e2, e⟩ := Res.bind_eq_ok.1 e
        obtain ⟨rb', e1', e'⟩ := Res.bind_eq_ok.1 e'
        obtain ⟨ry', e2', e'⟩ := Res.bind_eq_ok.1 e'
        injection e with e
        injection e' with e'
        subst e e'
        obtain ⟨k1, k2, k3, k4⟩ := ih above' ty g2 hbx scale _ _ ry ry' hs e2 e2'
        exact ⟨by rw [k1]; simp, by rw [k2]; simp, k3, k4⟩
      rw [paint_layer] at e e'
      obtain ⟨r1, e1, e2⟩ := Res.bind_eq_ok.1 e
      obtain ⟨r1', e1', e2'⟩ := Res.bind_eq_ok.1 e'
      rw [s2, hs] at e1 e1'
      have key : r1.1 = true ∧ r1'.1 = true ∧ (r1.2 i).a = 255 ∧ (r1.2 i).Same (r1'.2 i) := by
        unfold paintLayer drawn at e1 e1'
        rw [if_pos (by simp [s1, ha.clipping, hcl])] at e1 e1'
        obtain ⟨w, e5, e6⟩ := Res.bind_eq_ok.1 e1
        obtain ⟨w', e5', e6'⟩ := Res.bind_eq_ok.1 e1'
        obtain ⟨v, e7, e8⟩ := Res.bind_eq_ok.1 e5
        obtain ⟨v', e7', e8'⟩ := Res.bind_eq_ok.1 e5'
        unfold ownPic at e7 e7'
        rw [if_neg (by rw [hn]; decide)] at e7 e7'
        obtain ⟨k, ek, e7⟩ := Res.bind_eq_ok.1 e7
        obtain ⟨k', ek', e7'⟩ := Res.bind_eq_ok.1 e7'
        obtain ⟨q1, q2, q3, q4⟩ := inner _ _ _ k k' (kidScale_255 fun _ => rfl) ek ek'
        have am : ∀ b x, applyMask tileOps a m a.blendMode b x = x := fun b x => by
          unfold applyMask
          rw [if_neg (by rw [s4]; decide)]
        unfold folderPic at e7 e7'
        rw [if_pos q1, am] at e7
        rw [if_pos q2, am] at e7'
        injection e7 with e7
        injection e7' with e7'
        subst e7 e7'
        have hw : SeenSame true i w w' := clipPic_same (C := paint tileOps clips true id) (show SeenSame true i (some k.2) (some k'.2) from q4)
          (fun b b' c c' h e e' => (paint_same (strict := true) clips clips (.refl _ _ _) (.inl rfl) _ _ _ _ c c' h e e').1) e8 e8'
        obtain ⟨img, rfl, hi⟩ := clipPic_opaque hbc q3 e8
        cases w' with
        | none => cases hw.1
        | some img' =>
          have hw : (img i).Same (img' i) := hw
          have hii : img i = img' i := by
            rcases hw with h | ⟨h, -⟩
            · exact h
            · rw [hi] at h; cases h
          obtain ⟨y, e9, e10⟩ := Res.bind_eq_ok.1 e6
          obtain ⟨y', e9', e10'⟩ := Res.bind_eq_ok.1 e6'
          injection e10 with e10
          injection e10' with e10'
          subst e10 e10'
          have put : ∀ {b img y : Tile}, place tileOps a clips.isNil 255 b img = .ok y → (img i).a = 255 → y i = img i := by
            intro b img y e hi
            unfold place at e
            split at e
            · injection e with e
              subst e
              exact copy_opaque hi
            · rename_i hp
              rcases s3 with s3 | s3
              · rw [s3] at e
                exact normal_covers e hi
              · rw [s3] at e
                obtain ⟨md, hm, -⟩ := draw_px e i
                rw [show blendMode passThrough = none by decide] at hm
                cases hm
          refine ⟨rfl, rfl, ?_, .inl ?_⟩
          · show (y i).a = 255
            rw [put e9 hi]
            exact hi
          · show y i = y' i
            rw [put e9 hi, put e9' (by rw [← hii]; exact hi), hii]
      obtain ⟨k1, k2, k3, k4⟩ := key
      obtain ⟨r2, e3, e4⟩ := Res.bind_eq_ok.1 e2
      obtain ⟨r2', e3', e4'⟩ := Res.bind_eq_ok.1 e2'
      injection e4 with e4
      injection e4' with e4'
      subst e4 e4'
      exact ⟨by rw [k1]; rfl, by rw [k2]; rfl, paint_opaque rest hbr _ _ _ r2 k3 e3,
        (paint_same (strict := true) rest rest (.refl _ _ _) (.inl rfl) _ _ _ _ r2 r2' k4 e3 e3').1⟩

theorem ownPic_kids {a : CAttr} {p : Option Tile} {m : Option (Nat → UInt8)} {kids kids' : Stk Tile (Nat → UInt8)} (hn : kids.isNil = false) (hn' : kids'.isNil = false) {o : Nat} {b b' : Tile}
    (hb : (b i).Same (b' i)) (hk : ∀ (b b' : Tile) (r r' : Bool × Tile), (b i).Same (b' i) → paint tileOps kids false (kidScale a o) b = .ok r →
      paint tileOps kids' false (kidScale a o) b' = .ok r' → (r.2 i).Same (r'.2 i) ∧ r.1 = r'.1) {w w' : Option Tile}
    (e : ownPic tileOps a p m kids.isNil (paint tileOps kids false) o b = .ok w) (e' : ownPic tileOps a p m kids'.isNil (paint tileOps kids' false) o b' = .ok w') : SeenSame true i w w' := by
  unfold ownPic at e e'
  rw [if_neg (by rw [hn]; decide)] at e
  rw [if_neg (by rw [hn']; decide)] at e'
  obtain ⟨k, ek, e⟩ := Res.bind_eq_ok.1 e
  obtain ⟨k', ek', e'⟩ := Res.bind_eq_ok.1 e'
  obtain ⟨q1, q2⟩ := hk _ _ k k' (kidStart_same hb) ek ek'
  injection e with e
  injection e' with e'
  subst e e'
  unfold folderPic
  rw [q2]
  split
  · exact applyMask_same rfl hb q1
  · trivial

/-- A folder whose contents are painted alike. -/
theorem paintLayer_kids {a : CAttr} {p : Option Tile} {m : Option (Nat → UInt8)} {kids kids' clips : Stk Tile (Nat → UInt8)} (hn : kids.isNil = false) (hn' : kids'.isNil = false) {forced : Bool}
    {o : Nat} {b b' : Tile} (hb : (b i).Same (b' i)) (hk : ∀ (b b' : Tile) (r r' : Bool × Tile), (b i).Same (b' i) → paint tileOps kids false (kidScale a o) b = .ok r →
      paint tileOps kids' false (kidScale a o) b' = .ok r' → (r.2 i).Same (r'.2 i) ∧ r.1 = r'.1) {r r' : Bool × Tile}
    (e : paintLayer tileOps a p m kids clips forced o b = .ok r) (e' : paintLayer tileOps a p m kids' clips forced o b' = .ok r') : (r.2 i).Same (r'.2 i) ∧ r.1 = r'.1 := by
  unfold paintLayer at e e'
  by_cases hd : drawn a forced o = true
  swap
  · rw [if_neg hd] at e e'
    injection e with e
    injection e' with e'
    subst e e'
    exact ⟨hb, rfl⟩
  rw [if_pos hd] at e e'
  obtain ⟨w, e5, e6⟩ := Res.bind_eq_ok.1 e
  obtain ⟨w', e5', e6'⟩ := Res.bind_eq_ok.1 e'
  obtain ⟨v, e7, e8⟩ := Res.bind_eq_ok.1 e5
  obtain ⟨v', e7', e8'⟩ := Res.bind_eq_ok.1 e5'
  have hv := ownPic_kids hn hn' hb hk e7 e7'
  have hw : SeenSame true i w w' := clipPic_same hv
    (fun b b' c c' h e e' => (paint_same (strict := true) clips clips (.refl _ _ _) (.inl rfl) _ _ _ _ c c' h e e').1) e8 e8'
  refine ⟨placeOpt_same hb hw (fun h => by cases h) e6 e6', ?_⟩
  cases w with
  | none =>
    cases w' with
    | none =>
      injection e6 with e6
      injection e6' with e6'
      rw [← e6, ← e6']
    | some w' => cases hw.1
  | some w =>
    cases w' with
    | none => cases hw.1
    | some w' =>
      obtain ⟨y, -, e10⟩ := Res.bind_eq_ok.1 e6
      obtain ⟨y', -, e10'⟩ := Res.bind_eq_ok.1 e6'
      injection e10 with e10
      injection e10' with e10'
      rw [← e10, ← e10']

theorem BelowGone.ne {xs ys : List (LTree LayerRec)} (h : BelowGone O xs ys) : xs ≠ [] ∧ ys ≠ [] := by
  cases h <;> simp

theorem paint_gone {xs ys : List (LTree LayerRec)} (h : BelowGone O xs ys) (hO : ∀ l, O l → ∃ p, pic l.seqID = some p ∧ (p i).a = 255) : ∀ (t t' : Stk Tile (Nat → UInt8)),
    IsStack dec pic mask xs t → IsStack dec pic mask ys t' → FoldersBare xs pic → ∀ (scale : Nat → Nat) (b b' : Tile) (r r' : Bool × Tile), scale 255 = 255 → (b i).Same (b' i) →
    paint tileOps t false scale b = .ok r → paint tileOps t' false scale b' = .ok r' → (r.2 i).Same (r'.2 i) ∧ r.1 = r'.1 := by
  induction h with
  | here below x above hx =>
    intro t t' ht ht' hb scale b b' r r' hs hbb e e'
    obtain ⟨tb, ty, g1, g2, g3⟩ := stack_append (ops := tileOps) t _ _ ht (by intro k hk; cases hk; exact hx.base)
    obtain rfl := stack_unique _ _ _ ht' g2
    rw [g3] at e
    obtain ⟨rb, e1, e⟩ := Res.bind_eq_ok.1 e
    obtain ⟨ry, e2, e⟩ := Res.bind_eq_ok.1 e
    injection e with e
    subst e
    obtain ⟨k1, k2, -, k4⟩ := paint_covers hx hO above t' ht' (DocAll.append (Q := fun l kids => l.folder = true ∨ kids ≠ [] → pic l.seqID = none) hb).2 scale _ _ ry r' hs e2 e'
    exact ⟨k4, by rw [k1, k2]; simp⟩
  | inside below f sub sub' above hf hcl ho hsub ih =>
    intro t t' ht ht' hb scale b b' r r' hs hbb e e'
    obtain ⟨tb, ty, g1, g2, g3⟩ := stack_append (ops := tileOps) t _ _ ht (by intro k hk; cases hk; exact hcl)
    obtain ⟨tb', ty', g1', g2', g3'⟩ := stack_append (ops := tileOps) t' _ _ ht' (by intro k hk; cases hk; exact hcl)
    obtain rfl := stack_unique _ _ _ g1 g1'
    obtain ⟨-, hbk, -⟩ := DocAll.cons (DocAll.append (Q := fun l kids => l.folder = true ∨ kids ≠ [] → pic l.seqID = none) hb).2
    rw [g3] at e
    rw [g3'] at e'
    obtain ⟨rb, e1, e⟩ := Res.bind_eq_ok.1 e
    obtain ⟨ry, e2, e⟩ := Res.bind_eq_ok.1 e
    obtain ⟨rb', e1', e'⟩ := Res.bind_eq_ok.1 e'
    obtain ⟨ry', e2', e'⟩ := Res.bind_eq_ok.1 e'
    injection e with e
    injection e' with e'
    subst e e'
    obtain ⟨j1, j2⟩ := paint_same (strict := true) tb tb (.refl _ _ _) (.inl rfl) _ _ _ _ rb rb' hbb e1 e1'
    suffices key : (ry.2 i).Same (ry'.2 i) ∧ ry.1 = ry'.1 from ⟨key.1, by rw [j2 rfl, key.2]⟩
    clear g3 g3' e1 e1' ht ht' g1 g1' j2 hbb
    cases ty with
    | nil => cases (show _ :: _ = [] from g2)
    | layer a p m kids clips rest =>
    cases ty' with
    | nil => cases (show _ :: _ = [] from g2')
    | layer a' p' m' kids' clips' rest' =>
      obtain ⟨l0, sub0, above0, over, e3, ha, rfl, rfl, hk, hc, hr, n1, n2, n3⟩ := g2
      obtain ⟨l0', sub0', above0', over', e3', ha', rfl, rfl, hk', hc', hr', n1', n2', n3'⟩ := g2'
      injection e3 with e3 e4
      injection e3 with e5 e6
      subst e5 e6
      injection e3' with e3' e4'
      injection e3' with e5 e6
      subst e5 e6
      obtain ⟨rfl, rfl⟩ := run_unique above0 over above0' over' (e4.symm.trans e4') n1 n1' (n3 hcl) (n3' hcl)
      obtain rfl := stack_unique _ _ _ hc hc'
      obtain rfl := stack_unique _ _ _ hr hr'
      obtain rfl : a = a' := ha.eq.trans ha'.eq.symm
      have hn : kids.isNil = false := by
        cases kids with
        | nil => exact absurd hk hsub.ne.1
        | layer => rfl
      have hn' : kids'.isNil = false := by
        cases kids' with
        | nil => exact absurd hk' hsub.ne.2
        | layer => rfl
      rw [paint_layer] at e2 e2'
      obtain ⟨r1, e1, e2⟩ := Res.bind_eq_ok.1 e2
      obtain ⟨r1', e1', e2'⟩ := Res.bind_eq_ok.1 e2'
      obtain ⟨r2, e3, e4⟩ := Res.bind_eq_ok.1 e2
      obtain ⟨r2', e3', e4'⟩ := Res.bind_eq_ok.1 e2'
      injection e4 with e4
      injection e4' with e4'
      subst e4 e4'
      have hks : kidScale a (scale a.opacity) 255 = 255 := kidScale_255 fun hp => by
        rw [ha.opacity, ho ((ha.folderMode hf).symm.trans hp)]
        exact hs
      have key := paintLayer_kids hn hn' j1 (fun b b' r r' h e e' => ih kids kids' hk hk' hbk _ b b' r r' hks h e e') e1 e1'
      obtain ⟨k1, k2⟩ := paint_same (strict := true) rest rest (.refl _ _ _) (.inl rfl) _ _ _ _ r2 r2' key.1 e3 e3'
      exact ⟨k1, by rw [key.2, k2 rfl]⟩

theorem paint_nil_rest {a : CAttr} {p : Option Tile} {m : Option (Nat → UInt8)} {kids clips : Stk Tile (Nat → UInt8)} {forced : Bool} {scale : Nat → Nat} {b : Tile} {r : Bool × Tile}
    (e : paint tileOps (.layer a p m kids clips .nil) forced scale b = .ok r) : paintLayer tileOps a p m kids clips forced (scale a.opacity) b = .ok r := by
  rw [paint_layer] at e
  obtain ⟨r1, e1, e2⟩ := Res.bind_eq_ok.1 e
  injection e2 with e2
  subst e2
  rw [e1]
  simp

/-- The topmost layer is seen. -/
theorem paint_top {l : LayerRec} {xs : List (LTree LayerRec)} (h : Topmost l xs) {p : Tile} (hp : pic l.seqID = some p) (hpi : (p i).a = 255) : ∀ (t : Stk Tile (Nat → UInt8)),
    IsStack dec pic mask xs t → ∀ (scale : Nat → Nat) (b : Tile) (r : Bool × Tile), scale 255 = 255 →
    paint tileOps t false scale b = .ok r → r.1 = true ∧ r.2 i = p i := by
  have last : ∀ {a : CAttr} {p0 : Option Tile} {m : Option (Nat → UInt8)} {kids clips rest : Stk Tile (Nat → UInt8)} {f : LayerRec} {sub : List (LTree LayerRec)},
      IsStack dec pic mask [.node f sub] (.layer a p0 m kids clips rest) → ShowsLayer dec f a ∧ p0 = pic f.seqID ∧ IsStack dec pic mask sub kids ∧ clips = .nil ∧ rest = .nil := by
    intro a p0 m kids clips rest f sub h
    obtain ⟨l0, sub0, above0, over, e3, ha, hp0, hm, hk, hc, hr, -⟩ := h
    injection e3 with e3 e4
    injection e3 with e5 e6
    subst e5 e6
    obtain ⟨rfl, rfl⟩ := List.append_eq_nil_iff.1 e4.symm
    exact ⟨ha, hp0, hk, hc.nil, hr.nil⟩
  induction h with
  | layer below hl hcl =>
    intro t ht scale b r hs e
    obtain ⟨tb, ty, g1, g2, g3⟩ := stack_append (ops := tileOps) t _ _ ht (by intro k hk; cases hk; exact hcl)
    rw [g3] at e
    obtain ⟨rb, e1, e⟩ := Res.bind_eq_ok.1 e
    obtain ⟨ry, e2, e⟩ := Res.bind_eq_ok.1 e
    injection e with e
    subst e
    cases ty with
    | nil => cases (show _ :: _ = [] from g2)
    | layer a p0 m kids clips rest =>
      obtain ⟨ha, hp0, hk, rfl, rfl⟩ := last g2
      obtain rfl := hk.nil
      rw [hp] at hp0
      subst hp0
      obtain ⟨s1, s2, s3, s4⟩ := ha.solid hl
      have e3 := paint_nil_rest e2
      rw [s2] at e3
      obtain ⟨h1, img, h2, h3, h4⟩ := paintLayer_cover s1 (.inl (ha.clipping.trans hcl)) hs s3 s4 hpi (clips := .nil) trivial e3
      injection h4 with h4
      injection h4 with h4
      exact ⟨by rw [h1]; simp, by show ry.2 i = _; rw [h3, ← h4, copy_opaque hpi]⟩
  | folder below f sub hf hcl hsub ih =>
    intro t ht scale b r hs e
    obtain ⟨tb, ty, g1, g2, g3⟩ := stack_append (ops := tileOps) t _ _ ht (by intro k hk; cases hk; exact hcl)
    rw [g3] at e
    obtain ⟨rb, e1, e⟩ := Res.bind_eq_ok.1 e
    obtain ⟨ry, e2, e⟩ := Res.bind_eq_ok.1 e
    injection e with e
    subst e
    cases ty with
    | nil => cases (show _ :: _ = [] from g2)
    | layer a p0 m kids clips rest =>
      obtain ⟨ha, hp0, hk, rfl, rfl⟩ := last g2
      obtain ⟨s1, s2, s3, s4⟩ := ha.solidFolder hf
      have hn : kids.isNil = false := by
        cases kids with
        | nil => cases hsub <;> exact absurd (show _ ++ _ = [] from hk) (by simp)
        | layer => rfl
      have e3 := paint_nil_rest e2
      rw [s2, hs] at e3
      unfold paintLayer drawn at e3
      rw [if_pos (by simp [s1, ha.clipping, hcl])] at e3
      obtain ⟨w, e5, e6⟩ := Res.bind_eq_ok.1 e3
      obtain ⟨v, e7, e8⟩ := Res.bind_eq_ok.1 e5
      unfold ownPic at e7
      rw [if_neg (by rw [hn]; decide)] at e7
      obtain ⟨k, ek, e7⟩ := Res.bind_eq_ok.1 e7
      obtain ⟨q1, q2⟩ := ih kids hk _ _ k (kidScale_255 fun _ => rfl) ek
      unfold folderPic applyMask at e7
      rw [if_pos q1, if_neg (by rw [s4]; decide)] at e7
      injection e7 with e7
      subst e7
      injection e8 with e8
      subst e8
      obtain ⟨y, e9, e10⟩ := Res.bind_eq_ok.1 e6
      injection e10 with e10
      subst e10
      refine ⟨by simp, ?_⟩
      show y i = p i
      rw [← q2]
      have hk2 : (k.2 i).a = 255 := by rw [q2]; exact hpi
      unfold place at e9
      split at e9
      · injection e9 with e9
        subst e9
        exact copy_opaque hk2
      · rcases s3 with s3 | s3
        · rw [s3] at e9
          exact normal_covers e9 hk2
        · rw [s3] at e9
          obtain ⟨md, hm, -⟩ := draw_px e9 i
          rw [show blendMode passThrough = none by decide] at hm
          cases hm

theorem gone_looks {xs ys : List (LTree LayerRec)} (h : BelowGone O xs ys) (hO : ∀ l, O l → ∃ p, pic l.seqID = some p ∧ (p i).a = 255) (hb : FoldersBare xs pic) :
    LooksAlike dec pic mask i xs ys := fun t t' r r' ht ht' e e' => (paint_gone h hO t t' ht ht' hb id _ _ r r' rfl (.refl _) e e').1

end

end Psd
