import Verif.Model.Blend
import Mathlib.Analysis.Real.Sqrt

/-
The documented formula of each separable blend mode, on colours scaled to [0, 1]: `s` is the source channel, `d` the
backdrop channel. Sources: ISO 32000 (PDF) 11.3.5 for the modes it lists; the usual formulas of the application the file
format comes from for the rest (linear burn, vivid light, pin light, divide, ...).
-/

namespace Psd

noncomputable def formula : Sep → ℝ → ℝ → ℝ
  | .normal, s, _ => s
  | .darken, s, d => min s d
  | .multiply, s, d => s * d
  | .colorBurn, s, d => if d = 1 then 1 else if s = 0 then 0 else 1 - min 1 ((1 - d) / s)
  | .linearBurn, s, d => max 0 (s + d - 1)
  | .lighten, s, d => max s d
  | .screen, s, d => s + d - s * d
  | .colorDodge, s, d => if d = 0 then 0 else if s = 1 then 1 else min 1 (d / (1 - s))
  | .linearDodge, s, d => min 1 (s + d)
  | .add, s, d => s + d
  | .overlay, s, d => if d ≤ 1 / 2 then 2 * s * d else 1 - 2 * (1 - s) * (1 - d)
  | .softLight, s, d =>
    if s ≤ 1 / 2 then d - (1 - 2 * s) * d * (1 - d)
    else d + (2 * s - 1) * ((if d ≤ 1 / 4 then ((16 * d - 12) * d + 4) * d else Real.sqrt d) - d)
  | .hardLight, s, d => if s ≤ 1 / 2 then 2 * s * d else 1 - 2 * (1 - s) * (1 - d)
  | .linearLight, s, d => max 0 (min 1 (d + 2 * s - 1))
  | .vividLight, s, d =>
    if s ≤ 1 / 2 then (if s = 0 then 0 else 1 - min 1 ((1 - d) / (2 * s)))
    else if s = 1 then 1 else min 1 (d / (2 * (1 - s)))
  | .pinLight, s, d => if s ≤ 1 / 2 then min d (2 * s) else max d (2 * s - 1)
  | .hardMix, s, d => if s + d < 1 then 0 else 1
  | .difference, s, d => |s - d|
  | .exclusion, s, d => s + d - 2 * s * d
  | .subtract, s, d => max 0 (d - s)
  | .divide, s, d => if d = 0 then 0 else if s = 0 then 1 else min 1 (d / s)

end Psd
