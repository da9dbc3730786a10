import Verif.Lemmas.History
import Verif.Props.PorterDuff
import Verif.Props.Blend

/-!
# Pictures with hard edges

Where every pixel is opaque or fully transparent the operations of package blend round nothing.
-/

namespace Psd

def Px.Crisp (p : Px) : Prop := p.a = 255 ∨ p = ⟨0, 0, 0, 0⟩

theorem Px.Crisp.alpha {p : Px} (h : p.Crisp) : p.a = 0 ∨ p.a = 255 := by
  rcases h with h | h
  · exact .inr h
  · rw [h]; exact .inl rfl

def Hard (a : UInt32) : Prop := a = 0 ∨ a = 0xffff

theorem pdAlpha_hard (op : PD) (sa da : UInt32) (hs : Hard sa) (hd : Hard da) : Hard (pdAlpha op sa da) := by
  rcases hs with rfl | rfl <;> rcases hd with rfl | rfl <;> cases op <;> first | exact .inl (by decide) | exact .inr (by decide)

theorem toPremul_a (v : RGBA32) : (toPremul v).a = v.a := by
  unfold toPremul
  split
  · rfl
  · split <;> rfl

theorem readPx_hard {p : Px} (h : p.a = 0 ∨ p.a = 255) : Hard (readPx .nrgba p).a := by
  unfold readPx
  rw [toPremul_a]
  simp only [widen]
  rcases h with h | h <;> rw [h]
  · exact .inl (by decide)
  · exact .inr (by decide)

theorem read_hard {p : Px} (h : p.a = 0 ∨ p.a = 255) : Hard (PDSrc.px .nrgba p).read.a := by
  unfold PDSrc.read
  rw [toPremul_a]
  simp only [widenSrc]
  rcases h with h | h <;> rw [h]
  · exact .inl (by decide)
  · exact .inr (by decide)

theorem readAlpha_hard {a : UInt8} (h : a = 0 ∨ a = 255) : Hard (PDSrc.alpha a).read.a := by
  unfold PDSrc.read
  rcases h with h | h <;> rw [h]
  · exact .inl (by decide)
  · exact .inr (by decide)

theorem pd_crisp (op : PD) (s : PDSrc) (d e : Px) (hs : Hard s.read.a) (hd : d.a = 0 ∨ d.a = 255) : (pxOr e (drawPD op .nrgba s d)).Crisp := by
  have h : Hard (pdOp op s.read (readPx .nrgba d)).a := pdAlpha_hard op _ _ hs (readPx_hard hd)
  unfold drawPD storePx
  generalize pdOp op s.read (readPx .nrgba d) = v at h
  rcases h with h | h
  · simp only [h]
    exact .inr rfl
  · simp only [h]
    exact .inl (by simp only [if_true, pxOr]; decide)

theorem copy_px {p : Px} (h : p.Crisp) (e : Px) : pxOr e (drawPD .copy .nrgba (.px .nrgba p) ⟨0, 0, 0, 0⟩) = p := by
  obtain ⟨q, eq, ha, h0, h1⟩ := (C46_copy_partial p ⟨0, 0, 0, 0⟩).1
  rw [eq]
  simp only [pxOr]
  rcases h with h | h
  · have := h1 (by rw [h]; decide)
    have e255 : (255 : UInt8).toNat = 255 := rfl
    have key : ∀ x y, (x, y) ∈ [(p.r, q.r), (p.g, q.g), (p.b, q.b)] → y = x := by
      intro x y hm
      refine (this x y hm).2.2 ?_
      by_cases hx : x = 0
      · exact .inl hx
      · have : 0 < x.toNat := Nat.pos_of_ne_zero fun e => hx (UInt8.toNat_inj.1 e)
        rw [h, e255]
        omega
    obtain ⟨r, g, b, a⟩ := q
    obtain ⟨r', g', b', a'⟩ := p
    simp only [Px.mk.injEq]
    exact ⟨key _ _ (by simp), key _ _ (by simp), key _ _ (by simp), ha⟩
  · subst h
    exact h0 rfl

/-- Copying a transparent pixel forgets its colour. -/
def crispPx (p : Px) : Px := if p.a = 255 then p else ⟨0, 0, 0, 0⟩

theorem crispPx_crisp (p : Px) : (crispPx p).Crisp := by
  unfold crispPx
  split
  · exact .inl ‹_›
  · exact .inr rfl

theorem copy_crispPx {p : Px} (h : p.a = 0 ∨ p.a = 255) (e e' : Px) :
    pxOr e (drawPD .copy .nrgba (.px .nrgba (crispPx p)) ⟨0, 0, 0, 0⟩) = pxOr e' (drawPD .copy .nrgba (.px .nrgba p) ⟨0, 0, 0, 0⟩) := by
  rw [copy_px (crispPx_crisp p)]
  rcases h with h | h
  · obtain ⟨q, eq, ha, h0, h1⟩ := (C46_copy_partial p ⟨0, 0, 0, 0⟩).1
    rw [eq]
    simp only [pxOr, h0 h, crispPx]
    rw [if_neg (by rw [h]; decide)]
  · rw [copy_px (.inl h)]
    simp only [crispPx]
    rw [if_pos h]

theorem drawNN_crisp (m : Mode) {s d : Px} (hs : s.Crisp) (hd : d.Crisp) (e : Px) : (pxOr e (drawNN m (UInt32.ofNat (255 % 256)) s d)).Crisp := by
  obtain ⟨p, ep, hc⟩ := drawNN_exact m (UInt32.ofNat (255 % 256)) (by decide) s d
  rw [ep]
  simp only [pxOr]
  have e255 : (UInt32.ofNat (255 % 256)).toNat = 255 := by decide
  unfold Composite at hc
  simp only [e255] at hc
  have n255 : (255 : UInt8).toNat = 255 := rfl
  have n0 : (0 : UInt8).toNat = 0 := rfl
  rcases hs with hs | hs
  · have hda : d.a.toNat = 0 ∨ d.a.toNat = 255 := by
      rcases hd.alpha with h | h <;> rw [h]
      · exact .inl rfl
      · exact .inr rfl
    rw [hs, n255] at hc
    rw [if_neg (by rcases hda with h | h <;> rw [h] <;> decide)] at hc
    left
    apply UInt8.toNat_inj.1
    rw [hc.1, n255]
    rcases hda with h | h <;> rw [h]
  · rw [hs] at hc
    simp only [n0, Nat.zero_mul, Nat.zero_div, true_or, if_true] at hc
    rw [hc]
    exact hd

/-! ### Pictures -/

abbrev CrispTile := { t : Tile // ∀ i, (t i).Crisp }
abbrev CrispMask := { m : Nat → UInt8 // ∀ i, m i = 0 ∨ m i = 255 }

/-- The operations of `tileOps` on pictures with hard edges; drawing is for opacity 255. -/
def crispOps : PicOps CrispTile CrispMask where
  blank := ⟨tileOps.blank, fun _ => .inr rfl⟩
  copy p := p
  draw o bm b x :=
    match o, blendMode bm with
    | 255, some m => .ok ⟨fun i => pxOr (b.1 i) (drawNN m (UInt32.ofNat (255 % 256)) (x.1 i) (b.1 i)), fun i => drawNN_crisp m (x.2 i) (b.2 i) _⟩
    | _, _ => .panic .nilDeref
  destIn b x := ⟨tileOps.destIn b.1 x.1, fun i => pd_crisp .destIn _ _ _ (read_hard (x.2 i).alpha) (b.2 i).alpha⟩
  destOver b x := ⟨tileOps.destOver b.1 x.1, fun i => pd_crisp .destOver _ _ _ (read_hard (x.2 i).alpha) (b.2 i).alpha⟩
  maskIn b x := ⟨tileOps.maskIn b.1 x.1, fun i => pd_crisp .destIn _ _ _ (readAlpha_hard (x.2 i)) (b.2 i).alpha⟩
  maskOut b x := ⟨tileOps.maskOut b.1 x.1, fun i => pd_crisp .destOut _ _ _ (readAlpha_hard (x.2 i)) (b.2 i).alpha⟩
  clear b := ⟨tileOps.clear b.1, fun i => pd_crisp .clear (.uniform ⟨0, 0, 0, 0⟩) (b.1 i) (b.1 i) (.inl rfl) (b.2 i).alpha⟩
  removeAlpha b := ⟨tileOps.removeAlpha b.1, fun _ => .inl rfl⟩

theorem crisp_sim : PicSim crispOps tileOps Subtype.val Subtype.val where
  blank := rfl
  copy p := by
    funext i
    exact (copy_px (p.2 i) _).symm
  draw o m b x y e := by
    simp only [crispOps] at e
    simp only [tileOps]
    split at e
    · rename_i m' hm
      rw [hm]
      simp only [Res.ok.injEq] at e
      rw [← e]
    · cases e
  destIn _ _ := rfl
  destOver _ _ := rfl
  maskIn _ _ := rfl
  maskOut _ _ := rfl
  clear _ := rfl
  removeAlpha _ := rfl

theorem crisp_exact : ExactOps crispOps where
  copy_id _ := rfl
  no_pass o b x y e := by
    simp only [crispOps] at e
    split at e
    · rename_i m' hm
      rw [show blendMode passThrough = none by decide] at hm
      cases hm
    · cases e

theorem crisp_draws : Draws crispOps (fun o => o = 0 ∨ o = 255) (fun m => blendMode m ≠ none) where
  full := .inr rfl
  scale o o' h h' := by rcases h with rfl | rfl <;> rcases h' with rfl | rfl <;> decide
  draw o m b x h h0 hm := by
    have : o = 255 := h.resolve_left h0
    subst this
    obtain ⟨m', e⟩ := Option.ne_none_iff_exists'.1 hm
    simp only [crispOps, e]
    exact ⟨_, rfl⟩

/-! ### Scenes -/

section
variable {P M : Type} {ops : PicOps P M}

/-- Another scene with other pixels that are copied to the same. -/
structure Plain (ops : PicOps P M) (c : P → P) (d : M → M) (s : Scene P M) : Prop where
  pics : ∀ id l, s.canvas id = some l → ∀ x ∈ l, ops.copy (c x.2) = ops.copy x.2
  masks : ∀ id, ∀ x ∈ s.mask id, d x.2 = x.2

theorem lookup_mem {α β : Type} [BEq α] [LawfulBEq α] {a : α} {b : β} : ∀ {l : List (α × β)}, l.lookup a = some b → (a, b) ∈ l := by
  intro l
  induction l with
  | nil => intro h; cases h
  | cons x xs ih =>
    intro h
    obtain ⟨k, v⟩ := x
    simp only [List.lookup] at h
    split at h
    · rename_i heq
      cases h
      rw [eq_of_beq heq]
      exact List.mem_cons_self
    · exact List.mem_cons_of_mem _ (ih h)

variable {c : P → P} {d : M → M} {s : Scene P M}

theorem Plain.pic (h : Plain ops c d s) (id : Int) (pt : TPt) : ((s.map c d).pic id pt).map ops.copy = (s.pic id pt).map ops.copy := by
  rw [pic_map]
  cases e : s.pic id pt with
  | none => rfl
  | some p =>
    simp only [Option.map_some]
    unfold Scene.pic at e
    cases hc : s.canvas id with
    | none => rw [hc] at e; cases e
    | some l =>
      rw [hc] at e
      rw [h.pics id l hc (pt, p) (lookup_mem e)]

theorem Plain.mask_eq (h : Plain ops c d s) : (s.map c d).mask = s.mask := by
  funext id
  simp only [Scene.map]
  have : ∀ x ∈ s.mask id, (x.1, d x.2) = x := fun x hx => by rw [h.masks id x hx]
  rw [List.map_congr_left this, List.map_id']

theorem drawLayer_plain (h : Plain ops c d s) (pt : TPt) : ∀ n, drawLayer ops (s.map c d) pt n = drawLayer ops s pt n := by
  intro n
  induction n with
  | zero => rfl
  | succ n ih =>
    funext st b p o mode force
    have hb : ∀ p c' o mode st b buf, drawBuf ops (drawLayer ops s pt n) (s.map c d) pt p c' o mode st b buf =
        drawBuf ops (drawLayer ops s pt n) s pt p c' o mode st b buf := by
      intro p c' o mode st b buf
      unfold drawBuf
      rw [h.mask_eq]
      rfl
    rw [drawLayer, drawLayer, ih]
    have hp := h.pic (s.h.at_ p).attr.seqID pt
    simp only [hb, show (s.map c d).h = s.h from rfl]
    revert hp
    cases (s.map c d).pic (s.h.at_ p).attr.seqID pt with
    | none =>
      cases s.pic (s.h.at_ p).attr.seqID pt with
      | none => intro _; rfl
      | some q => intro h; cases h
    | some q' =>
      cases s.pic (s.h.at_ p).attr.seqID pt with
      | none => intro h; cases h
      | some q =>
        intro h
        simp only [Option.map_some, Option.some.injEq] at h
        simp only [h]

theorem renderTile_plain (h : Plain ops c d s) (n : Nat) (diff : Bool) (pt : TPt) (st : RState P) (dest : TPt → P) :
    renderTile ops (s.map c d) n diff pt st dest = renderTile ops s n diff pt st dest := by
  unfold renderTile updateTile
  rw [drawLayer_plain h]
  rfl

theorem renderTiles_plain (h : Plain ops c d s) (n : Nat) (diff : Bool) : ∀ pts st dest,
    renderTiles ops (s.map c d) n diff pts st dest = renderTiles ops s n diff pts st dest := by
  intro pts
  induction pts with
  | nil => intros; rfl
  | cons pt pts ih =>
    intro st dest
    simp only [renderTiles, renderTile_plain h, ih]

theorem render_plain (h : Plain ops c d s) (n : Nat) (diff ab : Bool) (pts : List TPt) (st : RState P) (dest : TPt → P) :
    render ops (s.map c d) n diff ab pts st dest = render ops s n diff ab pts st dest := by
  unfold render
  rw [renderTiles_plain h]

theorem setDirty_map (s : Scene P M) (n : Nat) (p : Ptr) (st : RState P) : setDirty (s.map c d) n p st = setDirty s n p st := by
  unfold setDirty
  rw [areaMap_map]
  rfl

def RSys.norm (c : P → P) (d : M → M) (y : RSys P M) : RSys P M := { y with scene := y.scene.map c d }

theorem step_plain {y y' : RSys P M} (h : Plain ops c d y.scene) {n : Nat} {ev : REvent P} (hev : ∀ h, ev ≠ .change h) (e : y.step ops n ev = .ok y') :
    (y.norm c d).step ops n ev = .ok (y'.norm c d) ∧ y'.scene = y.scene := by
  obtain ⟨scene, st, dest, diff, pending⟩ := y
  cases ev with
  | change h => exact absurd rfl (hev h)
  | start d b =>
    cases pending with
    | some ps => simp only [RSys.step, reduceCtorEq] at e
    | none =>
      simp only [RSys.step, Res.ok.injEq] at e
      subst e
      exact ⟨rfl, rfl⟩
  | tile pt =>
    cases pending with
    | none => simp only [RSys.step, reduceCtorEq] at e
    | some ps =>
      simp only [RSys.step] at e
      obtain ⟨r, e1, e2⟩ := Res.bind_eq_ok.1 e
      simp only [Res.ok.injEq] at e2
      subst e2
      simp only [RSys.step, RSys.norm, renderTile_plain h, e1, Res.ok_bind]
      trivial
  | dirty p =>
    cases pending with
    | none =>
      simp only [RSys.step, Res.ok.injEq] at e
      subst e
      simp only [RSys.step, RSys.norm, setDirty_map]
      trivial
    | some ps =>
      simp only [RSys.step, Res.ok.injEq] at e
      subst e
      exact ⟨rfl, rfl⟩
  | finish ab =>
    cases pending with
    | none => simp only [RSys.step, reduceCtorEq] at e
    | some ps =>
      simp only [RSys.step, Res.ok.injEq] at e
      subst e
      simp only [RSys.step, RSys.norm, setDirty_map]
      trivial

theorem run_dirties_ok (fuel : Nat) : ∀ (ps : List Ptr) (y : RSys P M), y.pending = none →
    RSys.run ops fuel (ps.map .dirty) y = .ok { y with st := setDirties y.scene fuel ps y.st } := by
  intro ps
  induction ps with
  | nil => intro y h; rfl
  | cons p ps ih =>
    intro y h
    obtain ⟨scene, st, dest, diff, pending⟩ := y
    simp only at h
    subst h
    simp only [List.map_cons, RSys.run, RSys.step, Res.ok_bind]
    exact ih _ rfl

theorem edit_plain {y y' : RSys P M} {n : Nat} {h' : CHeap} {ps : List Ptr} (hp : y.pending = none)
    (e : RSys.run ops n (.change h' :: ps.map .dirty) y = .ok y') :
    RSys.run ops n (.change h' :: ps.map .dirty) (y.norm c d) = .ok (y'.norm c d) ∧ y'.scene = { y.scene with h := h' } := by
  obtain ⟨scene, st, dest, diff, pending⟩ := y
  simp only at hp
  subst hp
  simp only [RSys.run, RSys.step, Res.ok_bind] at e
  have := run_dirties n ps _ _ rfl e
  subst this
  refine ⟨?_, rfl⟩
  simp only [RSys.run, RSys.step, RSys.norm, Res.ok_bind]
  rw [run_dirties_ok n ps _ rfl]
  have : ∀ (s : Scene P M) ps st, setDirties (s.map c d) n ps st = setDirties s n ps st := by
    intro s ps
    induction ps with
    | nil => intro st; rfl
    | cons p ps ih =>
      intro st
      show setDirties (s.map c d) n ps (setDirty (s.map c d) n p st) = setDirties s n ps (setDirty s n p st)
      rw [setDirty_map, ih]
  have := this { scene with h := h' } ps st
  simp only [Scene.map] at this ⊢
  rw [this]

end

/-! ### Scenes with hard edges -/

def crispTile (t : Tile) : CrispTile := ⟨fun i => crispPx (t i), fun i => crispPx_crisp (t i)⟩

def crispMask (m : Nat → UInt8) : CrispMask := ⟨fun i => if m i = 0 then 0 else 255, fun i => by by_cases h : m i = 0 <;> simp [h]⟩

def tileC (t : Tile) : Tile := (crispTile t).1
def maskC (m : Nat → UInt8) : Nat → UInt8 := (crispMask m).1

theorem HardEdged.plain {s : Scene Tile (Nat → UInt8)} (h : HardEdged s) : Plain tileOps tileC maskC s where
  pics id l e x hx := by
    funext i
    exact copy_crispPx (h.pics id l e x hx i) _ _
  masks id x hx := by
    funext i
    have := h.masks id x hx i
    simp only [maskC, crispMask]
    rcases this with h | h <;> rw [h] <;> decide

theorem crisp_map (s : Scene Tile (Nat → UInt8)) : s.map tileC maskC = (s.map crispTile crispMask).map Subtype.val Subtype.val := by
  simp only [Scene.map, Scene.mk.injEq, true_and]
  constructor
  · funext id
    cases s.canvas id with
    | none => rfl
    | some l => simp only [Option.map_some, List.map_map]; rfl
  · funext id
    simp only [List.map_map]
    rfl

end Psd
