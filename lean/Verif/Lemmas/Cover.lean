import Verif.Lemmas.ClipAlpha
import Verif.Lemmas.Crisp

/-!
# Opaque layers cover what is below
-/

namespace Psd

theorem copy_opaque {p : Tile} {i : Nat} (h : (p i).a = 255) : tileOps.copy p i = p i := copy_px (.inl h) _

theorem widen_full (c : UInt8) : hi8 (0xffff * (c.toUInt32 * 0x0101) / 0xffff) = c := by
  have : ∀ x : Fin 256, hi8 (0xffff * ((UInt8.ofNat x.val).toUInt32 * 0x0101) / 0xffff) = UInt8.ofNat x.val := by decide +kernel
  have := this ⟨c.toNat, c.toNat_lt⟩
  simpa using this

/-- Where all is let through, an opaque pixel stays. -/
theorem pd_full {op : PD} {s : PDSrc} {d : Px} (h : op = .destIn ∧ s.read.a = 0xffff ∨ op = .destOut ∧ s.read.a = 0) (hd : d.a = 255) (e : Px) :
    pxOr e (drawPD op .nrgba s d) = d := by
  obtain ⟨r, g, b, a⟩ := d
  obtain rfl : a = 255 := hd
  have hr : readPx .nrgba ⟨r, g, b, 255⟩ = ⟨r.toUInt32 * 0x0101, g.toUInt32 * 0x0101, b.toUInt32 * 0x0101, 0xffff⟩ := by
    unfold readPx toPremul widen
    rw [show (255 : UInt8).toUInt32 * 0x0101 = 0xffff by decide]
    simp
  have key : pdOp op s.read (readPx .nrgba ⟨r, g, b, 255⟩) = ⟨0xffff * (r.toUInt32 * 0x0101) / 0xffff, 0xffff * (g.toUInt32 * 0x0101) / 0xffff,
      0xffff * (b.toUInt32 * 0x0101) / 0xffff, 0xffff⟩ := by
    rw [hr]
    rcases h with ⟨rfl, h⟩ | ⟨rfl, h⟩
    · simp only [pdOp, pdChan, pdAlpha, h]
      rfl
    · simp only [pdOp, pdChan, pdAlpha, h]
      rfl
  unfold drawPD storePx
  rw [key]
  simp only [if_true, pxOr, widen_full]
  rfl

theorem destIn_opaque {p q : Tile} {i : Nat} (hp : (p i).a = 255) (hq : (q i).a = 255) : tileOps.destIn p q i = p i :=
  pd_full (.inl ⟨rfl, by rw [read_alpha, hq]; decide⟩) hp _

section
variable {P M : Type} {ops : PicOps P M} {dec : List UInt8 → Option (List UInt8)} {pic : Int → Option P} {mask : Int → Option M}

/-- Lower layers are painted first. -/
theorem stack_append : ∀ (t : Stk P M) (below ys : List (LTree LayerRec)), IsStack dec pic mask (below ++ ys) t → (∀ k ∈ ys.head?, k.isClipping = false) →
    ∃ tb ty, IsStack dec pic mask below tb ∧ IsStack dec pic mask ys ty ∧ ∀ forced scale b, paint ops t forced scale b =
      paint ops tb forced scale b >>= fun r => paint ops ty forced scale r.2 >>= fun r' => .ok (r.1 || r'.1, r'.2) := by
  intro t
  induction t with
  | nil =>
    intro below ys h hy
    obtain ⟨rfl, rfl⟩ := List.append_eq_nil_iff.1 (show below ++ ys = [] from h)
    exact ⟨.nil, .nil, rfl, rfl, fun _ _ _ => rfl⟩
  | layer a p m kids clips rest ihk ihc ihr =>
    intro below ys h hy
    cases below with
    | nil =>
      refine ⟨.nil, _, rfl, h, fun forced scale b => ?_⟩
      show _ = paint ops _ forced scale b >>= fun r' => .ok (false || r'.1, r'.2)
      cases paint ops (.layer a p m kids clips rest) forced scale b <;> rfl
    | cons x bs =>
      obtain ⟨l, sub, above, over, e, ha, hp, hm, hk, hc, hr, h1, h2, h3⟩ := h
      rw [List.cons_append] at e
      injection e with e1 e2
      subst e1
      have : ∃ bs', bs = above ++ bs' ∧ over = bs' ++ ys := by
        rcases List.append_eq_append_iff.1 e2 with ⟨c, e3, e4⟩ | ⟨c, e3, e4⟩
        · cases c with
          | nil => exact ⟨[], by simpa using e3.symm, by simpa using e4.symm⟩
          | cons k c =>
            have h5 := hy k (by rw [e4]; rfl)
            rw [h1 k (by rw [e3]; simp)] at h5
            cases h5
        · exact ⟨c, e3, e4⟩
      obtain ⟨bs', rfl, rfl⟩ := this
      obtain ⟨tb, ty, i1, i2, i3⟩ := ihr bs' ys hr hy
      refine ⟨.layer a p m kids clips tb, ty, ⟨l, sub, above, bs', rfl, ha, hp, hm, hk, hc, i1, h1, h2, fun hl k hk => h3 hl k ?_⟩, i2, fun forced scale b => ?_⟩
      · cases bs' with
        | nil => cases hk
        | cons => exact hk
      · rw [paint_layer, paint_layer]
        cases paintLayer ops a p m kids clips forced (scale a.opacity) b with
        | ok r1 =>
          simp only [Res.ok_bind, i3]
          cases paint ops tb forced scale r1.2 with
          | ok r2 =>
            simp only [Res.ok_bind]
            cases paint ops ty forced scale r2.2 with
            | ok r3 => simp only [Res.ok_bind, Bool.or_assoc]
            | _ => rfl
          | _ => rfl
        | _ => rfl

end

/-- A layer in normal mode at full opacity, unmasked, opaque at pixel `i`. -/
theorem paintLayer_cover {a : CAttr} {p : Tile} {m : Option (Nat → UInt8)} {clips : Stk Tile (Nat → UInt8)} {forced : Bool} {o i : Nat} (hv : a.visible = true) (hc : a.clipping = false ∨ forced = true)
    (ho : o = 255) (hm : a.blendMode = ascii "norm") (hk : a.maskEnabled = false) (hp : (p i).a = 255) (hb : clips.bare) {b : Tile} {r : Bool × Tile}
    (e : paintLayer tileOps a (some p) m .nil clips forced o b = .ok r) :
    r.1 = true ∧ ∃ img : Tile, (img i).a = 255 ∧ r.2 i = img i ∧ clipPic tileOps a clips.isNil (paint tileOps clips true id) (some (tileOps.copy p)) = .ok (some img) := by
  subst ho
  unfold paintLayer drawn at e
  rw [if_pos (by rcases hc with hc | hc <;> simp [hv, hc])] at e
  obtain ⟨w, e1, e2⟩ := Res.bind_eq_ok.1 e
  have own : ownPic tileOps a (some p) m true (paint tileOps .nil false) 255 b = .ok (some (tileOps.copy p)) := by
    unfold ownPic leafPic applyMask
    rw [if_pos rfl]
    simp only
    rw [if_neg (by rw [hk]; simp)]
  unfold layerPic at e1
  rw [show (Stk.nil : Stk Tile (Nat → UInt8)).isNil = true from rfl, own, Res.ok_bind] at e1
  have hw : ∃ img, w = some img ∧ (img i).a = 255 := by
    simp only [clipPic] at e1
    split at e1
    · injection e1 with e1
      exact ⟨_, e1.symm, by rw [copy_alpha]; exact hp⟩
    · obtain ⟨c, ec, e1⟩ := Res.bind_eq_ok.1 e1
      injection e1 with e1
      refine ⟨_, e1.symm, ?_⟩
      rw [destIn_alpha (paint_opaque clips hb _ _ _ c rfl ec), copy_alpha]
      exact hp
  obtain ⟨img, rfl, hi⟩ := hw
  obtain ⟨y, e3, e4⟩ := Res.bind_eq_ok.1 e2
  injection e4 with e4
  subst e4
  refine ⟨rfl, img, hi, ?_, e1⟩
  unfold place at e3
  rw [if_neg (fun h => absurd (hm.symm.trans h.1) (by decide))] at e3
  obtain ⟨md, e5, e6⟩ := draw_px e3 i
  rw [hm, show blendMode (ascii "norm") = some (.sep .normal) by decide] at e5
  injection e5 with e5
  subst e5
  have := C43_opaque_normal (img i) (b i) hi
  rw [show UInt8.ofNat 255 = 255 from rfl] at e6
  rw [this] at e6
  injection e6 with e6
  exact e6.symm

/-- What is on the layer covers what is below. -/
theorem paint_cover {a : CAttr} {p : Tile} {m : Option (Nat → UInt8)} {clips rest : Stk Tile (Nat → UInt8)} {i : Nat} (hv : a.visible = true) (hc : a.clipping = false)
    (ho : a.opacity = 255) (hm : a.blendMode = ascii "norm") (hk : a.maskEnabled = false) (hp : (p i).a = 255) (hb : clips.bare) {b b' : Tile} {r r' : Bool × Tile}
    (e : paint tileOps (.layer a (some p) m .nil clips rest) false id b = .ok r) (e' : paint tileOps (.layer a (some p) m .nil clips rest) false id b' = .ok r') :
    r.1 = true ∧ r'.1 = true ∧ (r.2 i).Same (r'.2 i) := by
  rw [paint_layer] at e e'
  obtain ⟨r1, e1, e2⟩ := Res.bind_eq_ok.1 e
  obtain ⟨r1', e1', e2'⟩ := Res.bind_eq_ok.1 e'
  obtain ⟨h1, img, h2, h3, h4⟩ := paintLayer_cover hv (.inl hc) ho hm hk hp hb e1
  obtain ⟨h1', img', h2', h3', h4'⟩ := paintLayer_cover hv (.inl hc) ho hm hk hp hb e1'
  rw [h4] at h4'
  injection h4' with h4'
  injection h4' with h4'
  subst h4'
  obtain ⟨r2, e3, e4⟩ := Res.bind_eq_ok.1 e2
  obtain ⟨r2', e3', e4'⟩ := Res.bind_eq_ok.1 e2'
  injection e4 with e4
  injection e4' with e4'
  subst e4 e4'
  refine ⟨by rw [h1]; rfl, by rw [h1']; rfl, ?_⟩
  exact (paint_same (strict := true) rest rest (.refl _ _ _) (.inl rfl) _ _ _ _ r2 r2' (.inl (h3.trans h3'.symm)) e3 e3').1

end Psd
