import Verif.Model.Image
import Verif.Props.Document
import Verif.Props.Color
import Verif.Props.Config

/-!
# C74: the package as a decoder of package image
-/

namespace Psd
open Spec (Doc)

/-- What `Decode` yields, taken apart. -/
theorem decode_config {env : Env} {o : Options} {s : St} {r : PSD × Int} {s' : St} (h : decode env o s = .ok (r, s')) :
    ∃ cfg n s₁, decodeConfig s = .ok ((cfg, n), s₁) ∧
      (o.skipMergedImage = false → ∃ k pal planes, cfg.makePicker = .ok (k, pal) ∧ r.1.picker = some ⟨k, cfg.rect, planes, pal⟩) := by
  unfold decode at h
  obtain ⟨⟨cfg, n⟩, s₁, e, h⟩ := P.bind_eq_ok.1 h
  refine ⟨cfg, n, s₁, e, fun ho => ?_⟩
  dsimp only at h
  split at h
  · cases h
  · obtain ⟨⟨psd, l⟩, s₂, -, h⟩ := P.bind_eq_ok.1 h
    dsimp only at h
    rw [ho] at h
    simp only [Bool.false_eq_true, if_false] at h
    obtain ⟨⟨psd', l'⟩, s₃, e3, h⟩ := P.bind_eq_ok.1 h
    cases h
    unfold readMerged at e3
    obtain ⟨gk, s₄, -, e3⟩ := P.bind_eq_ok.1 e3
    obtain ⟨⟨k, pal⟩, s₅, e5, e3⟩ := P.bind_eq_ok.1 e3
    obtain ⟨_, s₆, -, e3⟩ := P.bind_eq_ok.1 e3
    obtain ⟨b, s₇, -, e3⟩ := P.bind_eq_ok.1 e3
    obtain ⟨⟨data, l''⟩, s₈, -, e3⟩ := P.bind_eq_ok.1 e3
    cases e3
    exact ⟨k, pal, _, (P.lift_eq_ok.1 e5).1, rfl⟩

theorem config_sniffs {s : St} {cfg : Config} {n : Int} {s' : St} (hpos : s.pos = 0) (h : decodeConfig s = .ok ((cfg, n), s')) : sniffs s = true := by
  obtain ⟨⟨h1, h2, h3, -⟩, h4, -⟩ := (C02_only_valid_headers s hpos).1 cfg n s' h
  have ha : s.avail = s.data := by simp [St.avail, hpos]
  unfold sniffs
  rw [List.any_eq_true]
  match hd : s.data with
  | a :: b :: c :: d :: e :: f :: rest =>
    rw [hd] at h2 h3
    simp only [Spec.field, List.drop_zero, List.take_succ_cons, List.take_zero, List.drop_succ_cons, Spec.num, List.foldl_cons, List.foldl_nil] at h2 h3
    have hf := f.toNat_lt
    have h0 : (0 : UInt8).toNat = 0 := rfl
    refine ⟨[56, 66, 80, 83, 0, f], ?_, ?_⟩
    · have hf' : f = 1 ∨ f = 2 := by
        rcases h3 with h3 | h3
        · exact .inl (UInt8.toNat_inj.1 (by show _ = 1; omega))
        · exact .inr (UInt8.toNat_inj.1 (by show _ = 2; omega))
      rcases hf' with rfl | rfl <;> decide
    · have he : e = 0 := UInt8.toNat_inj.1 (by show _ = 0; omega)
      rw [ha, hd]
      simp only [List.cons.injEq, and_true] at h2
      obtain ⟨rfl, rfl, rfl, rfl⟩ := h2
      rw [he]
      exact decide_eq_true rfl
  | [] | [_] | [_, _] | [_, _, _] | [_, _, _, _] | [_, _, _, _, _] => rw [hd] at h1; simp at h1

/-- **C74** Package image recognises every document that `Decode` accepts, with any options, and hands it to this package: `image.Decode` returns the picture
that `Decode` with `SkipLayerImage` does. -/
theorem C74_recognised {env : Env} {o : Options} {s : St} {r : PSD × Int} {s' : St} (hpos : s.pos = 0) (h : decode env o s = .ok (r, s')) :
    sniffs s = true ∧ (o = { skipLayerImage := true } → ∃ p, r.1.picker = some p ∧ imageDecode env s = .ok p) := by
  obtain ⟨cfg, n, s₁, e, hp⟩ := decode_config h
  have hs := config_sniffs hpos e
  refine ⟨hs, ?_⟩
  rintro rfl
  obtain ⟨k, pal, planes, -, e2⟩ := hp rfl
  refine ⟨_, e2, ?_⟩
  unfold imageDecode
  rw [if_pos hs, h]
  dsimp only
  rw [e2]

/-- **C74** If `image.Decode` returns a picture, `image.DecodeConfig` on the same file returns its width, height and colour model, and its bounds begin
at the origin and are those in the header. -/
theorem C74_config_agrees {env : Env} {s : St} {p : Picker} (hpos : s.pos = 0) (h : imageDecode env s = .ok p) :
    imageDecodeConfig s = .ok ⟨p.rect.dx, p.rect.dy, p.colorModel⟩ ∧
    p.rect = ⟨0, 0, Spec.num (Spec.field s.data 18 4), Spec.num (Spec.field s.data 14 4)⟩ := by
  unfold imageDecode at h
  split at h
  · rename_i hs
    split at h
    · rename_i psd n s' e
      split at h
      · rename_i q eq
        cases h
        obtain ⟨cfg, n, s₁, e1, hp⟩ := decode_config e
        obtain ⟨k, pal, planes, e2, e3⟩ := hp rfl
        cases eq.symm.trans e3
        refine ⟨?_, ((C02_only_valid_headers s hpos).1 cfg n s₁ e1).2.2.2.1⟩
        unfold imageDecodeConfig
        rw [if_pos hs, e1]
        dsimp only
        rw [e2]
        rfl
      · cases h
    all_goals cases h
  · cases h

/-- **C74** (in part) Converting the colour of a pixel of a bitmap, opaque grey or 8-bit CMYK picture to the picture's colour model gives this colour.

Missing: translucent grey and 16-bit CMYK pictures, for which it is false (`C74_colour_changes`); the colour types of the standard library and those with floating
point components. -/
theorem C74_colours_partial (conv : FloatKind → RGBA32 → RGBA32) (p : Picker) (v : PixelVal) (c : Col) (m : ColorModel)
    (hc : p.colour v = some c) (hm : p.colorModel = .own m)
    (h : p.kind = .gray1 ∨ (∃ sz y, p.kind = .planes 1 sz false ∧ v = .samples [y]) ∨ ∃ alpha, p.kind = .planes 4 1 alpha) : m.convert conv c = .ok c := by
  obtain ⟨k, rect, src, pal⟩ := p
  rcases h with h | ⟨sz, y, h, rfl⟩ | ⟨alpha, h⟩
  · obtain rfl : k = .gray1 := h
    cases hm
    cases v with
    | bit w => cases hc; rfl
    | entry _ => cases hc
    | samples _ => cases hc
  · obtain rfl : k = .planes 1 sz false := h
    match sz, hc, hm with
    | 1, hc, hm =>
      cases hc
      cases hm
      have hy := (UInt8.ofNat y).toNat_lt
      have hw : ((UInt8.ofNat y).toUInt32 * 0x101).toNat = (UInt8.ofNat y).toNat * 257 := wide8 _
      show nGrayAModel (.nGrayA (UInt8.ofNat y) 0xff) = _
      have e : (Col.nGrayA (UInt8.ofNat y) 0xff).rgba = ⟨(UInt8.ofNat y).toUInt32 * 0x101, (UInt8.ofNat y).toUInt32 * 0x101,
          (UInt8.ofNat y).toUInt32 * 0x101, 0xffff⟩ := rfl
      unfold nGrayAModel
      simp only [e]
      rw [if_neg (by decide), if_pos trivial, grayY_gray _ (by omega)]
      have : (shr ((UInt8.ofNat y).toUInt32 * 0x101) 8).toUInt8 = UInt8.ofNat y := by
        apply UInt8.toNat_inj.1
        have : (UInt8.ofNat y).toNat * 257 / 256 = (UInt8.ofNat y).toNat := by omega
        rw [UInt32.toNat_toUInt8, shr8, hw, this]
        exact Nat.mod_eq_of_lt hy
      rw [this]
    | 2, hc, hm =>
      cases hc
      cases hm
      have hy := (UInt16.ofNat y).toNat_lt
      show nGrayA32Model (.nGrayA32 (UInt16.ofNat y) 0xffff) = _
      have e : (Col.nGrayA32 (UInt16.ofNat y) 0xffff).rgba = ⟨(UInt16.ofNat y).toUInt32, (UInt16.ofNat y).toUInt32, (UInt16.ofNat y).toUInt32, 0xffff⟩ := rfl
      unfold nGrayA32Model
      simp only [e]
      rw [if_neg (by decide), if_pos trivial, grayY_gray _ (by rw [UInt16.toNat_toUInt32]; omega)]
      have : (UInt16.ofNat y).toUInt32.toUInt16 = UInt16.ofNat y := by
        apply UInt16.toNat_inj.1
        rw [UInt32.toNat_toUInt16, UInt16.toNat_toUInt32]
        omega
      rw [this]
    | 0, hc, _ => cases hc
    | _ + 3, hc, _ => cases hc
  · obtain rfl : k = .planes 4 1 alpha := h
    cases hm
    unfold Picker.colour at hc
    simp only at hc
    split at hc <;> first | cases hc | skip
    all_goals first | rfl | (rename_i h; cases h)

/-- **C74** is false of colours: in translucent grey and in CMYK pictures with 16 bits, converting the colour of a pixel to the colour model of the picture changes the
colour. -/
theorem C74_colour_changes (conv : FloatKind → RGBA32 → RGBA32) (rect : Rect) (src : List (List UInt8)) :
    (∃ v c x m, Picker.colour ⟨.planes 1 1 true, rect, src, []⟩ v = some c ∧ Picker.colorModel ⟨.planes 1 1 true, rect, src, []⟩ = .own m ∧
      m.convert conv c = .ok x ∧ x ≠ c) ∧
    (∃ v c x m, Picker.colour ⟨.planes 1 2 true, rect, src, []⟩ v = some c ∧ Picker.colorModel ⟨.planes 1 2 true, rect, src, []⟩ = .own m ∧
      m.convert conv c = .ok x ∧ x ≠ c) ∧
    ∃ v c x m, Picker.colour ⟨.planes 4 2 false, rect, src, []⟩ v = some c ∧ Picker.colorModel ⟨.planes 4 2 false, rect, src, []⟩ = .own m ∧
      m.convert conv c = .ok x ∧ x ≠ c :=
  ⟨⟨.samples [1, 1], .nGrayA 1 1, .nGrayA 0 1, .nGrayA, rfl, rfl, rfl, by decide⟩,
   ⟨.samples [100, 100], .nGrayA32 100 100, .nGrayA32 0 100, .nGrayA32, rfl, rfl, rfl, by decide⟩,
   ⟨.samples [0x8000, 0x8000, 0x8000, 0xffff], .nCMYKA80 0x8000 0x8000 0x8000 0xffff 0xffff, .nCMYKA80 0xffff 0xffff 0xffff 0x8000 0xffff, .nCMYKA80, rfl, rfl, rfl,
    by decide⟩⟩

/-- The components of a colour of package color, and its alpha. -/
def Col.components : Col → List Nat × Nat
  | .nGrayA y a => ([y.toNat], a.toNat)
  | .nGrayA32 y a => ([y.toNat], a.toNat)
  | .nCMYKA c m y k a => ([c.toNat, m.toNat, y.toNat, k.toNat], a.toNat)
  | .nCMYKA80 c m y k a => ([c.toNat, m.toNat, y.toNat, k.toNat], a.toNat)
  | _ => ([], 0)

/-- **C74** The colour of a pixel of a grey or CMYK picture with 8 or 16 bits has the values of the planes as components, in their order, and the last value, if there is one more, as
alpha; without it, the pixel is opaque. -/
theorem C74_components (n sz : Nat) (alpha : Bool) (rect : Rect) (src : List (List UInt8)) (pal : List (UInt8 × UInt8 × UInt8 × UInt8)) (vs : List Nat) (c : Col)
    (hv : ∀ v ∈ vs, v < 256 ^ sz) (h : Picker.colour ⟨.planes n sz alpha, rect, src, pal⟩ (.samples vs) = some c) :
    c.components.1.length = n ∧ (vs = c.components.1 ∧ c.components.2 = 256 ^ sz - 1 ∨ vs = c.components.1 ++ [c.components.2]) := by
  have e8 : ∀ {v : Nat}, v < 256 ^ 1 → (UInt8.ofNat v).toNat = v := fun h => by rw [UInt8.toNat_ofNat']; omega
  have e16 : ∀ {v : Nat}, v < 256 ^ 2 → (UInt16.ofNat v).toNat = v := fun h => by rw [UInt16.toNat_ofNat']; omega
  unfold Picker.colour at h
  simp only at h
  split at h <;> first | cases h | skip
  all_goals rename_i e1 e2
  all_goals first | (injection e1 with e1 e3 e4; subst e1 e3 e4) | cases e1
  all_goals injection e2 with e2; subst e2
  all_goals first
    | (have := hv _ (List.mem_cons_self ..))
  all_goals simp only [List.mem_cons, List.not_mem_nil, or_false, forall_eq_or_imp, forall_eq] at hv
  · exact ⟨rfl, .inl ⟨by simp only [Col.components, e8 hv], rfl⟩⟩
  · exact ⟨rfl, .inr (by simp only [Col.components, e8 hv.1, e8 hv.2, List.cons_append, List.nil_append])⟩
  · exact ⟨rfl, .inl ⟨by simp only [Col.components, e16 hv], rfl⟩⟩
  · exact ⟨rfl, .inr (by simp only [Col.components, e16 hv.1, e16 hv.2, List.cons_append, List.nil_append])⟩
  · exact ⟨rfl, .inl ⟨by simp only [Col.components, e8 hv.1, e8 hv.2.1, e8 hv.2.2.1, e8 hv.2.2.2], rfl⟩⟩
  · exact ⟨rfl, .inr (by simp only [Col.components, e8 hv.1, e8 hv.2.1, e8 hv.2.2.1, e8 hv.2.2.2.1, e8 hv.2.2.2.2, List.cons_append, List.nil_append])⟩
  · exact ⟨rfl, .inl ⟨by simp only [Col.components, e16 hv.1, e16 hv.2.1, e16 hv.2.2.1, e16 hv.2.2.2], rfl⟩⟩
  · exact ⟨rfl, .inr (by simp only [Col.components, e16 hv.1, e16 hv.2.1, e16 hv.2.2.1, e16 hv.2.2.2.1, e16 hv.2.2.2.2, List.cons_append, List.nil_append])⟩

/-- Its hypotheses, with and without alpha. -/
example : Picker.colour ⟨.planes 4 1 true, Rect.zero, [], []⟩ (.samples [1, 2, 3, 4, 5]) = some (.nCMYKA 1 2 3 4 5) ∧
    Picker.colour ⟨.planes 1 2 false, Rect.zero, [], []⟩ (.samples [300]) = some (.nGrayA32 300 0xffff) := by decide

/-- A grey document with an alpha channel, of one pixel. -/
def exGrayDoc : Doc where
  header := { version := 1, channels := 2, height := 1, width := 1, depth := 8, mode := 1, colorData := [] }
  resources := []
  layerMask := none
  merged := .raw [1, 1] []

/-- It is well-formed; `image.Decode` returns a picture of it whose pixel is the colour above; and the picture of the example document. -/
example : exGrayDoc.Valid ∧ (imageDecode exEnv { data := exGrayDoc.bytes }).bind (fun p => (p.at 0 0).map fun v => (p.colour v, p.colorModel)) =
      .ok (some (.nGrayA 1 1), .own .nGrayA) ∧
    (imageDecode exEnv (exReader exDoc)).map (fun p => (p.rect, p.colorModel)) = .ok (⟨0, 0, 2, 1⟩, .nrgba) ∧
    imageDecodeConfig (exReader exDoc) = .ok ⟨2, 1, .nrgba⟩ := by decide +kernel

end Psd
