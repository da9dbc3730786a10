import Verif.Spec.Rendered

/-!
# Histories without marks where one looks
-/

namespace Psd

/-- Neither the layer `p` nor a layer in it has pixels in the tile `pt`. -/
def NothingAt {P M : Type} (s : Scene P M) (pt : TPt) (p : Ptr) : Prop := ∀ π q, slotAt s.h p π = some q → s.pic (s.h.at_ q).attr.seqID pt = none

/-- What can become of a new renderer of the tree `s` while its tree is not changed and no layer is marked dirty that has pixels in the tile
`pt`: renders, cancelled or not, and other dirty marks at any time. -/
inductive QuietAt {P M : Type} (ops : PicOps P M) (fuel : Nat) (s : Scene P M) (pt : TPt) : RSys P M → Prop
  | new (dest : TPt → P) (diff : Bool) : QuietAt ops fuel s pt ⟨s, .empty, dest, diff, none⟩
  | step (y y' : RSys P M) (ev : REvent P) : QuietAt ops fuel s pt y → NoChange y ev → (∀ p, ev = .dirty p → NothingAt s pt p) →
      y.step ops fuel ev = .ok y' → QuietAt ops fuel s pt y'

end Psd
