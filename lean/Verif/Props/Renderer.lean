import Verif.Lemmas.Renderer

/-!
# Theorems C58 and C59: renders that are cancelled, dirty marks during renders
-/

namespace Psd

section
variable {P M : Type} {ops : PicOps P M}

theorem renderTiles_grows (s : Scene P M) (fuel : Nat) (diff : Bool) : ∀ (pts : List TPt) (st : RState P) (dest : TPt → P) (st' : RState P) (dest' : TPt → P),
    renderTiles ops s fuel diff pts st dest = .ok (st', dest') → Grows st st' := by
  intro pts
  induction pts with
  | nil =>
    intro st dest st' dest' e
    simp only [renderTiles, Res.ok.injEq, Prod.mk.injEq] at e
    rw [← e.1]
    exact Grows.refl st
  | cons pt pts ih =>
    intro st dest st' dest' e
    simp only [renderTiles] at e
    obtain ⟨⟨st1, d1⟩, e1, e2⟩ := Res.bind_eq_ok.1 e
    obtain ⟨md, cs, e3⟩ := renderTile_update s fuel diff pt st dest st1 d1 e1
    exact (updateTile_rel (grows_rel pt) s fuel st st1 md cs e3).trans (ih _ _ _ _ e2)

/-- C58: a render that is cancelled, whichever tiles it got to in whichever order, leaves exactly the entries there were before it,
each with the picture it had. It holds for every tree, also for one with layers that share a number, and for every way of drawing
pixels. -/
theorem C58_abort_restores (s : Scene P M) (fuel : Nat) (diff : Bool) (visited : List TPt) (st : RState P) (dest : TPt → P) (st' : RState P)
    (dest' : TPt → P) (e : render ops s fuel diff true visited st dest = .ok (st', dest')) :
    ∀ id pt, st'.cached id pt = st.cached id pt ∧ (st.cached id pt ≠ none → st'.image id pt = st.image id pt) := by
  unfold render at e
  obtain ⟨⟨st1, d1⟩, e1, e2⟩ := Res.bind_eq_ok.1 e
  have hg := renderTiles_grows s fuel diff visited _ dest st1 d1 e1
  simp only [if_true, Res.ok.injEq, Prod.mk.injEq] at e2
  intro id pt
  rw [← e2.1]
  constructor
  · simp only [revert]
    split
    · rename_i hm
      rcases hg.fresh id pt hm with h | h
      · cases h
      · exact h.symm
    · rename_i hm
      by_cases h : st1.cached id pt = st.cached id pt
      · exact h
      · exact absurd (hg.listed id pt h) hm
  · intro hc
    exact (hg.keep id pt hc).2

/-- A render that is not cancelled keeps every entry there was. -/
theorem C58_render_keeps (s : Scene P M) (fuel : Nat) (diff : Bool) (visited : List TPt) (st : RState P) (dest : TPt → P) (st' : RState P)
    (dest' : TPt → P) (e : render ops s fuel diff false visited st dest = .ok (st', dest')) :
    ∀ id pt, st.cached id pt ≠ none → st'.cached id pt = st.cached id pt ∧ st'.image id pt = st.image id pt := by
  unfold render at e
  obtain ⟨⟨st1, d1⟩, e1, e2⟩ := Res.bind_eq_ok.1 e
  have hg := renderTiles_grows s fuel diff visited _ dest st1 d1 e1
  simp only [Bool.false_eq_true, if_false, Res.ok.injEq, Prod.mk.injEq] at e2
  intro id pt hc
  rw [← e2.1]
  exact hg.keep id pt hc

/-! ## C59 -/

theorem RSys.run_append (fuel : Nat) : ∀ (a b : List (REvent P)) (y : RSys P M),
    RSys.run ops fuel (a ++ b) y = RSys.run ops fuel a y >>= RSys.run ops fuel b := by
  intro a
  induction a with
  | nil => intro b y; rfl
  | cons ev a ih =>
    intro b y
    simp only [List.cons_append, RSys.run]
    cases y.step ops fuel ev with
    | ok y' => simp only [Res.ok_bind]; exact ih b y'
    | _ => rfl

/-- The layers marked dirty by a list of events. -/
def marks : List (REvent P) → List Ptr
  | [] => []
  | .dirty p :: evs => p :: marks evs
  | _ :: evs => marks evs

/-- Events in the middle of a render. -/
def REvent.inside : REvent P → Bool
  | .tile _ => true
  | .dirty _ => true
  | .change _ => true
  | _ => false

def REvent.isDirty : REvent P → Bool
  | .dirty _ => true
  | _ => false

theorem RSys.run_inside (fuel : Nat) : ∀ (evs : List (REvent P)), (∀ ev ∈ evs, ev.inside = true) → ∀ (y : RSys P M) (ps : List Ptr),
    y.pending = some ps →
    RSys.run ops fuel evs y =
      RSys.run ops fuel (evs.filter fun ev => !ev.isDirty) y >>= fun y' => .ok { y' with pending := some (ps ++ marks evs) } := by
  intro evs
  induction evs with
  | nil =>
    intro _ y ps hp
    simp only [RSys.run, List.filter_nil, Res.ok_bind, marks, List.append_nil, ← hp]
  | cons ev evs ih =>
    intro hi y ps hp
    have hev := hi ev (List.mem_cons_self ..)
    have ih := ih (fun e he => hi e (List.mem_cons_of_mem _ he))
    cases ev with
    | start d df => cases hev
    | finish a => cases hev
    | tile pt =>
      rw [List.filter_cons_of_pos (by rfl)]
      simp only [RSys.run, RSys.step, hp, marks]
      cases renderTile ops y.scene fuel y.diffOnly pt y.st y.dest with
      | ok r => simp only [Res.ok_bind]; exact ih _ ps rfl
      | _ => rfl
    | change h =>
      rw [List.filter_cons_of_pos (by rfl)]
      simp only [RSys.run, RSys.step, marks, Res.ok_bind]
      exact ih _ ps hp
    | dirty p =>
      rw [List.filter_cons_of_neg (by simp [REvent.isDirty])]
      simp only [RSys.run, RSys.step, hp, marks, Res.ok_bind]
      rw [ih _ (ps ++ [p]) rfl]
      -- the run does not look at the marks
      have key : ∀ (evs : List (REvent P)) (y : RSys P M) (qs : List Ptr), (∀ ev ∈ evs, ev.inside = true ∧ ev.isDirty = false) → y.pending = some ps →
          RSys.run ops fuel evs { y with pending := some qs } =
            RSys.run ops fuel evs y >>= fun y' => .ok { y' with pending := some qs } := by
        intro evs
        induction evs with
        | nil => intro y qs _ _; rfl
        | cons ev evs ih =>
          intro y qs hh hp
          have h0 := hh ev (List.mem_cons_self ..)
          have hh' := fun e he => hh e (List.mem_cons_of_mem _ he)
          cases ev with
          | start d df => cases h0.1
          | finish a => cases h0.1
          | dirty p => cases h0.2
          | tile pt =>
            simp only [RSys.run, RSys.step, hp]
            cases renderTile ops y.scene fuel y.diffOnly pt y.st y.dest with
            | ok r => simp only [Res.ok_bind]; exact ih ⟨y.scene, r.1, r.2, y.diffOnly, some ps⟩ qs hh' rfl
            | _ => rfl
          | change h =>
            simp only [RSys.run, RSys.step, Res.ok_bind]
            exact ih { y with scene := { y.scene with h := h } } qs hh' hp
      rw [key _ y (ps ++ [p]) (fun e he => by
        rw [List.mem_filter] at he
        exact ⟨hi e (List.mem_cons_of_mem _ he.1), by simpa using he.2⟩) hp]
      cases RSys.run ops fuel (evs.filter fun ev => !ev.isDirty) y with
      | ok y' => simp only [Res.ok_bind, List.append_assoc, List.singleton_append]
      | _ => rfl

theorem RSys.run_dirty (fuel : Nat) : ∀ (ps : List Ptr) (y : RSys P M), y.pending = none →
    RSys.run ops fuel (ps.map .dirty) y = .ok { y with st := ps.foldl (fun st p => setDirty y.scene fuel p st) y.st } := by
  intro ps
  induction ps with
  | nil => intro y _; rfl
  | cons p ps ih =>
    intro y hp
    simp only [List.map_cons, RSys.run, RSys.step, hp, Res.ok_bind, List.foldl_cons]
    rw [ih]
    rfl

/-- C59: `SetDirtyByLayer` called while a render is going on does exactly what the same call does after the render has returned. Whatever
happens during the render (tiles, changes to layers, dirty marks, in any order), cancelled or not, everything comes out as if all the
marks had been made, in the same order, after its end: the caches, the picture, and whether anything panics. So no mark is lost, and none
has an effect before. -/
theorem C59_marks_wait (fuel : Nat) (y : RSys P M) (dest : TPt → P) (diff aborted : Bool) (evs : List (REvent P))
    (hi : ∀ ev ∈ evs, ev.inside = true) :
    RSys.run ops fuel (.start dest diff :: evs ++ [.finish aborted]) y =
      RSys.run ops fuel (.start dest diff :: (evs.filter fun ev => !ev.isDirty) ++ [.finish aborted] ++ (marks evs).map .dirty) y := by
  simp only [List.cons_append, RSys.run]
  cases hs : y.step ops fuel (.start dest diff) with
  | ok y0 =>
    have hp : y0.pending = some [] := by
      cases hpp : y.pending with
      | none =>
        simp only [RSys.step, hpp, Res.ok.injEq] at hs
        rw [← hs]
      | some ps =>
        simp only [RSys.step, hpp] at hs
        cases hs
    simp only [Res.ok_bind]
    rw [RSys.run_append, RSys.run_append, RSys.run_append, RSys.run_inside fuel evs hi y0 [] hp]
    have hpres : ∀ (evs : List (REvent P)) (y y' : RSys P M), (∀ ev ∈ evs, ev.inside = true ∧ ev.isDirty = false) → RSys.run ops fuel evs y = .ok y' →
        y'.pending = y.pending := by
      intro evs
      induction evs with
      | nil =>
        intro y y' _ e
        simp only [RSys.run, Res.ok.injEq] at e
        rw [e]
      | cons ev evs ih =>
        intro y y' hh e
        have h0 := hh ev (List.mem_cons_self ..)
        have hh' := fun e he => hh e (List.mem_cons_of_mem _ he)
        simp only [RSys.run] at e
        obtain ⟨y1, e1, e2⟩ := Res.bind_eq_ok.1 e
        rw [ih y1 y' hh' e2]
        cases ev with
        | start d df => cases h0.1
        | finish a => cases h0.1
        | dirty p => cases h0.2
        | change h =>
          simp only [RSys.step, Res.ok.injEq] at e1
          rw [← e1]
        | tile pt =>
          cases hpp : y.pending with
          | none =>
            simp only [RSys.step, hpp] at e1
            cases e1
          | some ps =>
            simp only [RSys.step, hpp] at e1
            obtain ⟨r, _, e4⟩ := Res.bind_eq_ok.1 e1
            simp only [Res.ok.injEq] at e4
            rw [← e4]
    cases hr : RSys.run ops fuel (evs.filter fun ev => !ev.isDirty) y0 with
    | ok y1 =>
      have hp1 := hpres _ y0 y1 (fun e he => by
        rw [List.mem_filter] at he
        exact ⟨hi e he.1, by simpa using he.2⟩) hr
      rw [hp] at hp1
      simp only [Res.ok_bind, RSys.run, RSys.step, hp1, List.nil_append, List.foldl_nil]
      rw [RSys.run_dirty _ _ _ rfl]
    | _ => rfl
  | _ => rfl

end

/-! ## A concrete tree -/

/-- A tile of one colour. -/
def plainTile (p : Px) : Tile := fun _ => p

/-- The root's children are a folder with one layer in it, and a layer above. -/
def exRHeap : CHeap where
  next := 4
  at_ := fun p =>
    if p = (1, 0) then { attr := rootAttr, children := ⟨2, 2, 2⟩ }
    else if p = (2, 0) then
      { attr := { seqID := 0, folder := true, visible := true, blendMode := ascii "norm", opacity := 255 }, parent := some (1, 0), children := ⟨3, 1, 1⟩ }
    else if p = (2, 1) then { attr := { seqID := 2, visible := true, blendMode := ascii "mul ", opacity := 255 }, parent := some (1, 0) }
    else if p = (3, 0) then { attr := { seqID := 1, visible := true, blendMode := ascii "norm", opacity := 255 }, parent := some (2, 0) }
    else {}

/-- The lower layer has a red tile, the upper one a half transparent grey tile and another. -/
def exScene : Scene Tile (Nat → UInt8) where
  h := exRHeap
  root := (1, 0)
  canvas := fun id =>
    if id = 1 then some [((0, 0), plainTile ⟨255, 0, 0, 255⟩)]
    else if id = 2 then some [((0, 0), plainTile ⟨100, 100, 100, 128⟩), ((64, 0), plainTile ⟨9, 9, 9, 255⟩)]
    else none
  mask := fun _ => []

/-- What a render leaves: the entries of the root's and the folder's cache at the first tile, and a pixel. -/
def peek (r : Res (RState Tile × (TPt → Tile))) : Res (Option CacheState × Option CacheState × Px) :=
  r.map fun r => (r.1.cached (-1) (0, 0), r.1.cached 0 (0, 0), r.2 (0, 0) 5)

/-- A render of both tiles, and one that is cancelled after both. -/
example : peek (render tileOps exScene 3 false false [(0, 0), (64, 0)] .empty fun _ => plainTile ⟨1, 2, 3, 4⟩) = .ok (some .cached, some .cached, ⟨177, 0, 0, 255⟩) ∧
    peek (render tileOps exScene 3 false true [(64, 0), (0, 0)] .empty fun _ => plainTile ⟨1, 2, 3, 4⟩) = .ok (none, none, ⟨177, 0, 0, 255⟩) := by
  decide +kernel

/-- A render with a mark in the middle: the entries of the first tile are deleted when it ends, and not before. -/
def exEvents : List (REvent Tile) := [.tile (0, 0), .dirty (3, 0), .tile (64, 0)]

def peekSys (r : Res (RSys Tile (Nat → UInt8))) : Res (Option CacheState × Option CacheState × Option CacheState) :=
  r.map fun y => (y.st.cached (-1) (0, 0), y.st.cached 0 (0, 0), y.st.cached (-1) (64, 0))

example : (∀ ev ∈ exEvents, ev.inside = true) ∧
    peekSys (RSys.run tileOps 3 (.start (fun _ => plainTile ⟨0, 0, 0, 0⟩) false :: exEvents) ⟨exScene, .empty, fun _ => plainTile ⟨0, 0, 0, 0⟩, false, none⟩) =
      .ok (some .cached, some .cached, some .cached) ∧
    peekSys (RSys.run tileOps 3 (.start (fun _ => plainTile ⟨0, 0, 0, 0⟩) false :: exEvents ++ [.finish false])
      ⟨exScene, .empty, fun _ => plainTile ⟨0, 0, 0, 0⟩, false, none⟩) = .ok (none, none, some .cached) := by
  decide +kernel

end Psd
