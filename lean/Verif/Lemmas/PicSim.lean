import Verif.Lemmas.Coherent

/-!
# Pictures of a smaller kind

If the operations on some pictures agree with those on a kind of pictures without surprises, so does the renderer.
-/

namespace Psd

section
variable {Q N P M : Type}

/-- The operations on pictures of the smaller kind `Q` agree with those on all pictures `P`. -/
structure PicSim (opsQ : PicOps Q N) (opsP : PicOps P M) (f : Q → P) (g : N → M) : Prop where
  blank : f opsQ.blank = opsP.blank
  copy : ∀ p, f (opsQ.copy p) = opsP.copy (f p)
  draw : ∀ o m b x y, opsQ.draw o m b x = .ok y → opsP.draw o m (f b) (f x) = .ok (f y)
  destIn : ∀ b x, f (opsQ.destIn b x) = opsP.destIn (f b) (f x)
  destOver : ∀ b x, f (opsQ.destOver b x) = opsP.destOver (f b) (f x)
  maskIn : ∀ b x, f (opsQ.maskIn b x) = opsP.maskIn (f b) (g x)
  maskOut : ∀ b x, f (opsQ.maskOut b x) = opsP.maskOut (f b) (g x)
  clear : ∀ b, f (opsQ.clear b) = opsP.clear (f b)
  removeAlpha : ∀ b, f (opsQ.removeAlpha b) = opsP.removeAlpha (f b)

def Scene.map (f : Q → P) (g : N → M) (s : Scene Q N) : Scene P M where
  h := s.h
  root := s.root
  canvas id := (s.canvas id).map (List.map fun x => (x.1, f x.2))
  mask id := (s.mask id).map fun x => (x.1, g x.2)

/-- The same entries, and the same pictures. -/
def SameState (f : Q → P) (q : RState Q) (p : RState P) : Prop :=
  p.cached = q.cached ∧ p.changes = q.changes ∧ p.image = fun i pt => (q.image i pt).map f

theorem lookup_map {α β γ : Type} [BEq α] (f : β → γ) (a : α) : ∀ l : List (α × β), (l.map fun x => (x.1, f x.2)).lookup a = (l.lookup a).map f := by
  intro l
  induction l with
  | nil => rfl
  | cons x xs ih =>
    simp only [List.map_cons, List.lookup]
    split
    · rfl
    · exact ih

variable {opsQ : PicOps Q N} {opsP : PicOps P M} {f : Q → P} {g : N → M}

theorem pic_map (s : Scene Q N) (id : Int) (pt : TPt) : (s.map f g).pic id pt = (s.pic id pt).map f := by
  simp only [Scene.pic, Scene.map]
  cases s.canvas id with
  | none => rfl
  | some c => exact lookup_map f pt c

theorem updateCache_sim (sim : PicSim opsQ opsP f g) (dr : DrawResult) (c : Option Int) (pt : TPt) (buf : Q) {q : RState Q} {p : RState P} (h : SameState f q p) :
    SameState f (updateCache opsQ dr c pt buf q) (updateCache opsP dr c pt (f buf) p) := by
  obtain ⟨h1, h2, h3⟩ := h
  cases c with
  | none => exact ⟨h1, h2, h3⟩
  | some id =>
    have e : ∀ v : Option Q, setAt p.image id pt (v.map f) = fun i q' => (setAt q.image id pt v i q').map f := by
      intro v
      funext i q'
      simp only [setAt, h3]
      split <;> rfl
    have e1 := e (some (opsQ.copy buf))
    have e2 := e none
    simp only [Option.map_some, Option.map_none, sim.copy] at e1 e2
    cases dr <;> first | exact ⟨h1, h2, h3⟩ | (refine ⟨?_, ?_, ?_⟩ <;> simp only [updateCache, h1, h2, e1, e2])

theorem applyMask_sim (sim : PicSim opsQ opsP f g) (l : CAttr) (m : Option N) (mode : List UInt8) (b buf : Q) :
    f (applyMask opsQ l m mode b buf) = applyMask opsP l (m.map g) mode (f b) (f buf) := by
  unfold applyMask
  split
  · cases m with
    | none =>
      simp only [Option.map_none]
      split <;> split <;> simp only [sim.destOver, sim.clear]
    | some m =>
      simp only [Option.map_some]
      split <;> split <;> simp only [sim.destOver, sim.maskIn, sim.maskOut]
  · rfl

/-- What is assumed of the recursive call. -/
def InnerSim (f : Q → P) (innerQ : RState Q → Q → Ptr → Nat → List UInt8 → Bool → Res (Drawn Q))
    (innerP : RState P → P → Ptr → Nat → List UInt8 → Bool → Res (Drawn P)) : Prop :=
  ∀ q p b ptr o m fc q' b' dr, SameState f q p → innerQ q b ptr o m fc = .ok (q', b', dr) →
    ∃ p', innerP p (f b) ptr o m fc = .ok (p', f b', dr) ∧ SameState f q' p'

theorem drawKids_sim {innerQ : RState Q → Q → Ptr → Nat → List UInt8 → Bool → Res (Drawn Q)}
    {innerP : RState P → P → Ptr → Nat → List UInt8 → Bool → Res (Drawn P)} (hi : InnerSim f innerQ innerP) (h : CHeap) (arr : Nat) (scale : Nat → Nat) :
    ∀ n i q p b drew q' b' drew', SameState f q p → drawKids innerQ h arr scale n i q b drew = .ok (q', b', drew') →
      ∃ p', drawKids innerP h arr scale n i p (f b) drew = .ok (p', f b', drew') ∧ SameState f q' p' := by
  intro n
  induction n with
  | zero =>
    intro i q p b drew q' b' drew' hs e
    simp only [drawKids, Res.ok.injEq, Prod.mk.injEq] at e
    obtain ⟨rfl, rfl, rfl⟩ := e
    exact ⟨p, rfl, hs⟩
  | succ n ih =>
    intro i q p b drew q' b' drew' hs e
    simp only [drawKids] at e
    obtain ⟨⟨q1, b1, dr1⟩, e1, e2⟩ := Res.bind_eq_ok.1 e
    obtain ⟨p1, e3, hs1⟩ := hi _ _ _ _ _ _ _ _ _ _ hs e1
    obtain ⟨p2, e4, hs2⟩ := ih _ _ _ _ _ _ _ _ hs1 e2
    refine ⟨p2, ?_, hs2⟩
    simp only [drawKids, e3, Res.ok_bind]
    exact e4

theorem drawClips_sim {innerQ : RState Q → Q → Ptr → Nat → List UInt8 → Bool → Res (Drawn Q)}
    {innerP : RState P → P → Ptr → Nat → List UInt8 → Bool → Res (Drawn P)} (hi : InnerSim f innerQ innerP) (h : CHeap) (force : Bool) :
    ∀ cs q p b q' b', SameState f q p → drawClips innerQ h force cs q b = .ok (q', b') →
      ∃ p', drawClips innerP h force cs p (f b) = .ok (p', f b') ∧ SameState f q' p' := by
  intro cs
  induction cs with
  | nil =>
    intro q p b q' b' hs e
    simp only [drawClips, Res.ok.injEq, Prod.mk.injEq] at e
    obtain ⟨rfl, rfl⟩ := e
    exact ⟨p, rfl, hs⟩
  | cons c cs ih =>
    intro q p b q' b' hs e
    cases c with
    | none => simp only [drawClips] at e; cases e
    | some ptr =>
      simp only [drawClips] at e
      obtain ⟨⟨q1, b1, dr1⟩, e1, e2⟩ := Res.bind_eq_ok.1 e
      obtain ⟨p1, e3, hs1⟩ := hi _ _ _ _ _ _ _ _ _ _ hs e1
      obtain ⟨p2, e4, hs2⟩ := ih _ _ _ _ _ hs1 e2
      refine ⟨p2, ?_, hs2⟩
      simp only [drawClips, e3, Res.ok_bind]
      exact e4

theorem put_sim (sim : PicSim opsQ opsP f g) {o : Nat} {mode : List UInt8} {b img b' : Q}
    (e : (if mode = passThrough then .ok (opsQ.copy img) else opsQ.draw o mode b img) = .ok b') :
    (if mode = passThrough then .ok (opsP.copy (f img)) else opsP.draw o mode (f b) (f img)) = .ok (f b') := by
  split at e
  · rename_i h
    rw [if_pos h]
    simp only [Res.ok.injEq] at e
    rw [← e, sim.copy]
  · rename_i h
    rw [if_neg h]
    exact sim.draw _ _ _ _ _ e

theorem drawBuf_sim (sim : PicSim opsQ opsP f g) {innerQ : RState Q → Q → Ptr → Nat → List UInt8 → Bool → Res (Drawn Q)}
    {innerP : RState P → P → Ptr → Nat → List UInt8 → Bool → Res (Drawn P)} (hi : InnerSim f innerQ innerP) (s : Scene Q N) (pt : TPt) (ptr : Ptr) (c : Option Int)
    (o : Nat) (mode : List UInt8) (q : RState Q) (p : RState P) (b buf : Q) (q' : RState Q) (b' : Q) (dr : DrawResult) (hs : SameState f q p)
    (e : drawBuf opsQ innerQ s pt ptr c o mode q b buf = .ok (q', b', dr)) :
    ∃ p', drawBuf opsP innerP (s.map f g) pt ptr c o mode p (f b) (f buf) = .ok (p', f b', dr) ∧ SameState f q' p' := by
  have hm : ∀ id, ((s.map f g).mask id).lookup pt = ((s.mask id).lookup pt).map g := fun id => lookup_map g pt _
  have hh : (s.map f g).h = s.h := rfl
  simp only [drawBuf] at e ⊢
  rw [hm, hh, ← applyMask_sim sim]
  generalize applyMask opsQ (s.h.at_ ptr).attr ((s.mask (s.h.at_ ptr).attr.seqID).lookup pt) mode b buf = buf at e
  split at e
  · rename_i h0
    rw [if_pos h0]
    obtain ⟨b1, e1, e2⟩ := Res.bind_eq_ok.1 e
    simp only [Res.ok.injEq, Prod.mk.injEq] at e2
    obtain ⟨rfl, rfl, rfl⟩ := e2
    rw [put_sim sim e1]
    exact ⟨_, rfl, updateCache_sim sim _ _ _ _ hs⟩
  · rename_i h0
    rw [if_neg h0]
    split at e
    · rename_i hb
      rw [if_pos hb]
      obtain ⟨⟨q1, b1⟩, e1, e2⟩ := Res.bind_eq_ok.1 e
      obtain ⟨b2, e3, e4⟩ := Res.bind_eq_ok.1 e2
      simp only [Res.ok.injEq, Prod.mk.injEq] at e4
      obtain ⟨rfl, rfl, rfl⟩ := e4
      obtain ⟨p1, e5, hs1⟩ := drawClips_sim hi _ _ _ _ _ _ _ _ hs e1
      rw [sim.removeAlpha, sim.copy] at e5
      simp only [e5, Res.ok_bind]
      rw [← sim.destIn, put_sim sim e3]
      exact ⟨_, rfl, updateCache_sim sim _ _ _ _ hs1⟩
    · rename_i hb
      rw [if_neg hb]
      obtain ⟨b1, e1, e2⟩ := Res.bind_eq_ok.1 e
      obtain ⟨⟨q1, b2⟩, e3, e4⟩ := Res.bind_eq_ok.1 e2
      simp only [Res.ok.injEq, Prod.mk.injEq] at e4
      obtain ⟨rfl, rfl, rfl⟩ := e4
      rw [sim.draw _ _ _ _ _ e1]
      simp only [Res.ok_bind]
      obtain ⟨p1, e5, hs1⟩ := drawClips_sim hi _ _ _ _ _ _ _ _ hs e3
      rw [e5]
      exact ⟨_, rfl, updateCache_sim sim _ _ _ _ hs1⟩

theorem drawLayer_sim (sim : PicSim opsQ opsP f g) (s : Scene Q N) (pt : TPt) :
    ∀ n, InnerSim f (drawLayer opsQ s pt n) (drawLayer opsP (s.map f g) pt n) := by
  intro n
  induction n with
  | zero => intro q p b ptr o m fc q' b' dr hs e; cases e
  | succ n ih =>
    intro q p b ptr o m fc q' b' dr hs e
    have hh : (s.map f g).h = s.h := rfl
    simp only [drawLayer, pic_map, hh] at e ⊢
    split at e
    · rename_i h1
      rw [if_pos h1]
      simp only [Res.ok.injEq, Prod.mk.injEq] at e
      obtain ⟨rfl, rfl, rfl⟩ := e
      exact ⟨p, rfl, hs⟩
    rename_i h1
    rw [if_neg h1]
    split at e
    · rename_i h2
      rw [if_pos h2]
      simp only [Res.ok.injEq, Prod.mk.injEq] at e
      obtain ⟨rfl, rfl, rfl⟩ := e
      exact ⟨p, rfl, hs⟩
    rename_i h2
    rw [if_neg h2]
    split at e
    · rename_i h3
      rw [if_pos h3]
      split at e
      · rename_i hp
        rw [hp]
        simp only [Res.ok.injEq, Prod.mk.injEq] at e
        obtain ⟨rfl, rfl, rfl⟩ := e
        exact ⟨p, rfl, hs⟩
      · rename_i pic hp
        rw [hp]
        simp only [Option.map_some]
        rw [← sim.copy]
        exact drawBuf_sim sim ih s pt ptr none o m q p b _ q' b' dr hs e
    · rename_i h3
      rw [if_neg h3, hs.1]
      split at e
      · rename_i cs hcs
        cases cs with
        | cachedEmpty =>
          simp only [drawCached, Res.ok.injEq, Prod.mk.injEq] at e
          obtain ⟨rfl, rfl, rfl⟩ := e
          exact ⟨p, rfl, hs⟩
        | cached =>
          simp only [drawCached] at e ⊢
          rw [hs.2.2]
          split at e
          · cases e
          · rename_i ci hci
            simp only [hci, Option.map_some]
            obtain ⟨b1, e1, e2⟩ := Res.bind_eq_ok.1 e
            simp only [Res.ok.injEq, Prod.mk.injEq] at e2
            obtain ⟨rfl, rfl, rfl⟩ := e2
            rw [put_sim sim e1]
            exact ⟨p, rfl, hs⟩
      · rename_i hcs
        obtain ⟨⟨q1, b1, drew⟩, e1, e2⟩ := Res.bind_eq_ok.1 e
        obtain ⟨p1, e3, hs1⟩ := drawKids_sim ih _ _ _ _ _ _ _ _ _ _ _ _ hs e1
        have hst : f (if m = passThrough then opsQ.copy b else opsQ.blank) = if m = passThrough then opsP.copy (f b) else opsP.blank := by
          split
          · exact sim.copy b
          · exact sim.blank
        rw [hst] at e3
        rw [e3]
        simp only [Res.ok_bind]
        simp only at e2
        split at e2
        · rename_i hd
          rw [if_pos hd]
          exact drawBuf_sim sim ih s pt ptr _ o m q1 p1 b _ q' b' dr hs1 e2
        · rename_i hd
          rw [if_neg hd]
          simp only [Res.ok.injEq, Prod.mk.injEq] at e2
          obtain ⟨rfl, rfl, rfl⟩ := e2
          exact ⟨_, rfl, updateCache_sim sim _ _ _ _ hs1⟩

theorem updateTile_sim (sim : PicSim opsQ opsP f g) (s : Scene Q N) (fuel : Nat) (pt : TPt) {q q' : RState Q} {p : RState P} {md : Bool} {cs : CacheState}
    (hs : SameState f q p) (e : updateTile opsQ s fuel pt q = .ok (q', md, cs)) :
    ∃ p', updateTile opsP (s.map f g) fuel pt p = .ok (p', md, cs) ∧ SameState f q' p' := by
  have hh : (s.map f g).h = s.h := rfl
  have hr : (s.map f g).root = s.root := rfl
  unfold updateTile at e ⊢
  rw [hs.1, hh, hr]
  split at e
  · rename_i cs' hcs
    simp only [Res.ok.injEq, Prod.mk.injEq] at e
    obtain ⟨rfl, rfl, rfl⟩ := e
    exact ⟨p, rfl, hs⟩
  · rename_i hcs
    obtain ⟨⟨q1, b1, drew⟩, e1, e2⟩ := Res.bind_eq_ok.1 e
    obtain ⟨p1, e3, hs1⟩ := drawKids_sim (drawLayer_sim sim s pt fuel) _ _ _ _ _ _ _ _ _ _ _ _ hs e1
    rw [sim.blank] at e3
    simp only [e3, Res.ok_bind]
    simp only at e2
    split at e2
    · rename_i hd
      rw [if_pos hd]
      simp only [Res.ok.injEq, Prod.mk.injEq] at e2
      obtain ⟨rfl, rfl, rfl⟩ := e2
      exact ⟨_, rfl, updateCache_sim sim _ _ _ _ hs1⟩
    · rename_i hd
      rw [if_neg hd]
      simp only [Res.ok.injEq, Prod.mk.injEq] at e2
      obtain ⟨rfl, rfl, rfl⟩ := e2
      exact ⟨_, rfl, updateCache_sim sim _ _ _ _ hs1⟩

end
end Psd
