import Verif.Props.PorterDuff
import Verif.Props.Blend16
import Verif.Model.Draw

/-!
# Porter-Duff operators on images of any type (C47)
-/

namespace Psd

/-- **C47** On images that are neither RGBA nor NRGBA, whose pixels are read and written through `color.Color`, each operator stores exactly `Fs * S + Fd * D` too, for every pair of premultiplied
colours: the result fits the 16 bits of each component it is stored in. -/
theorem C47_any_image (op : PD) (s d : RGBA32) (hs : Premultiplied s) (hd : Premultiplied d) :
    ∃ V, (pdDrawer op).fallback 0xffff s d = .ok (some V) ∧ PorterDuff op s d V ∧ Premultiplied V := by
  obtain ⟨h1, h2⟩ := C47_operators op s d hs hd
  refine ⟨_, ?_, h1, h2⟩
  obtain ⟨a1, a2, a3, a4⟩ := h2
  simp only [pdDrawer, trunc16]
  rw [if_neg (by decide), low16 _ (by omega), low16 _ (by omega), low16 _ (by omega), low16 _ (by omega)]

/-- A half transparent red over an opaque green. -/
example : (pdDrawer .srcOver).fallback 0xffff ⟨30000, 0, 0, 32768⟩ ⟨0, 60000, 0, 65535⟩ = .ok (some ⟨30000, 29999, 0, 65535⟩) ∧
    Premultiplied ⟨30000, 0, 0, 32768⟩ ∧ Premultiplied ⟨0, 60000, 0, 65535⟩ := by
  refine ⟨by decide +kernel, ?_, ?_⟩ <;> (unfold Premultiplied; decide)

end Psd
