import Verif.Spec.BlendLaws

/-
The groups that blend modes come in: those that darken, those that lighten, and those that do the one where the source is
dark and the other where it is bright.
-/

namespace Psd

/-- The modes that darken. -/
def Sep.darkening : Sep → Bool
  | .darken | .multiply | .colorBurn | .linearBurn | .subtract => true
  | _ => false

/-- The modes that lighten. -/
def Sep.lightening : Sep → Bool
  | .lighten | .screen | .colorDodge | .linearDodge | .add | .divide => true
  | _ => false

/-- The modes that raise the contrast: they darken where the source is darker than 50% grey and lighten where it is brighter. -/
def Sep.contrast : Sep → Bool
  | .overlay | .softLight | .hardLight | .linearLight | .vividLight | .pinLight => true
  | _ => false

end Psd
