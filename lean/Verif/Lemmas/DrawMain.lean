import Verif.Lemmas.DrawRun
import Mathlib.Tactic.Convert

/-!
# Every draw, every schedule

`draw_runs`: if no goroutine reads what another one writes, nor what an earlier step of its own wrote, `drawMask` does
what `DrawCall.Drawn` says.
-/

namespace Psd

theorem allRuns_nil {A V : Type} [DecidableEq A] (m : Mem A V) (post : Mem A V → Prop) (h : post m) : AllRuns m [] post := by
  have := allRuns_ops (P := Unit) m m (fun _ k => k) (fun _ _ => False) (fun _ _ => False) [] (by simp) (by simp) (by simp) post
    (fun m' _ h2 => by
      have : m' = m := funext fun a => h2 a (by simp)
      rw [this]; exact h)
  exact this

theorem acts_direct (m0 : Mem Addr UInt8) (px : List UInt8 → Px → Res Px) (sc dc : Int × Int → List Addr) (p : Int × Int) (t : Addr → UInt8)
    (q : Px) (hq : px ((sc p).map m0) (Px.ofBytes ((dc p).map m0)) = .ok q) (ht : (dc p).map t = q.bytes) :
    Acts m0 (directOp px sc dc p) (fun a => a ∈ dc p) (fun a => a ∈ sc p) t := by
  intro W' R' hW hR k m o n hm hF
  have e1 : (sc p).map m = (sc p).map m0 := List.map_congr_left fun a ha => hm a (Or.inr ha)
  have e2 : (dc p).map m = (dc p).map m0 := List.map_congr_left fun a ha => hm a (Or.inl ha)
  obtain ⟨n1, h1⟩ := fin_writeAll (W := W') (R := R') t (dc p) k m o n hW (by convert hF)
  unfold directOp
  obtain ⟨n2, h2⟩ := fin_readAll (W := W') (R := R') (dc p) (fun dv =>
    match px ((sc p).map m) (Px.ofBytes dv) with
    | .ok q => writeAll (dc p) q.bytes k
    | _ => .panic) m o n1 (fun a ha => Or.inl (hW a ha)) (by
      rw [e1, e2, hq]
      show Fin W' R' (writeAll (dc p) q.bytes k) m o n1
      rw [← ht]
      exact h1)
  exact fin_readAll (W := W') (R := R') (sc p) _ m o n2 (fun a ha => hR a ha) h2

namespace DrawCall

/-- The bytes read for the pixel at (x, y), besides the destination's. -/
def Reads (c : DrawCall) (x y : Int) (a : Addr) : Prop :=
  a ∈ c.src.cells (c.srcX x) (c.srcY y) ∨ ∃ mi, c.mask = some mi ∧ a ∈ mi.cells (c.maskX x) (c.maskY y)

end DrawCall

theorem acts_fallback (c : DrawCall) (D : Drawer) (m0 : Mem Addr UInt8) (sdx sdy mdx mdy : Int) (p : Int × Int) (t : Addr → UInt8)
    (hsx : p.1 + sdx = c.srcX p.1) (hsy : p.2 + sdy = c.srcY p.2) (hmx : p.1 + mdx = c.maskX p.1) (hmy : p.2 + mdy = c.maskY p.2)
    (bs : List UInt8) (hbs : c.general D m0 p.1 p.2 = .ok bs) (ht : (c.dst.cells p.1 p.2).map t = bs) :
    Acts m0 (fallbackOp D c.dst c.src c.mask sdx sdy mdx mdy p) (fun a => a ∈ c.dst.cells p.1 p.2) (c.Reads p.1 p.2) t := by
  intro W' R' hW hR k m o n hm hF
  have e1 : (c.src.cells (c.srcX p.1) (c.srcY p.2)).map m = c.sBytes m0 p.1 p.2 :=
    List.map_congr_left fun a ha => hm a (Or.inr (Or.inl ha))
  have e2 : (c.dst.cells p.1 p.2).map m = c.dBytes m0 p.1 p.2 := List.map_congr_left fun a ha => hm a (Or.inl ha)
  -- an untouched pixel
  have hsame : bs = c.dBytes m0 p.1 p.2 → ∃ n', Fin W' R' k m o n' := by
    intro e
    rw [e] at ht
    refine ⟨n, ?_⟩
    convert hF using 1
    funext a
    split
    · rename_i ha
      have : t a = m0 a := by
        have h := List.map_inj_left.1 ht a ha
        exact h
      rw [this]
      exact hm a (Or.inl ha)
    · rfl
  -- everything after the mask
  have hgo : ∃ n', Fin W' R' (if c.maskAlpha m0 p.1 p.2 = 0 then k
      else
        readAll (c.src.cells (c.srcX p.1) (c.srcY p.2)) fun sv => readAll (c.dst.cells p.1 p.2) fun dv =>
          match D.fallback (c.maskAlpha m0 p.1 p.2) (c.src.dec sv) (c.dst.dec dv) with
          | .ok none => k
          | .ok (some v) => writeAll (c.dst.cells p.1 p.2) (c.dst.enc v) k
          | _ => .panic) m o n' := by
    unfold DrawCall.general at hbs
    by_cases h0 : c.maskAlpha m0 p.1 p.2 = 0
    · rw [if_pos h0] at hbs
      rw [if_pos h0]
      exact hsame (by cases hbs; rfl)
    · rw [if_neg h0] at hbs
      rw [if_neg h0]
      have inner : ∃ n', Fin W' R' (match D.fallback (c.maskAlpha m0 p.1 p.2) (c.src.dec (c.sBytes m0 p.1 p.2)) (c.dst.dec (c.dBytes m0 p.1 p.2)) with
          | .ok none => k
          | .ok (some v) => writeAll (c.dst.cells p.1 p.2) (c.dst.enc v) k
          | _ => .panic) m o n' := by
        cases hf : D.fallback (c.maskAlpha m0 p.1 p.2) (c.src.dec (c.sBytes m0 p.1 p.2)) (c.dst.dec (c.dBytes m0 p.1 p.2)) with
        | ok v =>
          rw [hf] at hbs
          cases v with
          | none => exact hsame (by cases hbs; rfl)
          | some v =>
            simp only at hbs ⊢
            cases hbs
            rw [← ht]
            exact fin_writeAll (W := W') (R := R') t _ k m o n hW (by convert hF)
        | err e => rw [hf] at hbs; cases hbs
        | panic e => rw [hf] at hbs; cases hbs
        | fuel => rw [hf] at hbs; cases hbs
      obtain ⟨n1, h1⟩ := inner
      obtain ⟨n2, h2⟩ := fin_readAll (W := W') (R := R') (c.dst.cells p.1 p.2) (fun dv =>
          match D.fallback (c.maskAlpha m0 p.1 p.2) (c.src.dec (c.sBytes m0 p.1 p.2)) (c.dst.dec dv) with
          | .ok none => k
          | .ok (some v) => writeAll (c.dst.cells p.1 p.2) (c.dst.enc v) k
          | _ => .panic) m o n1 (fun a ha => Or.inl (hW a ha)) (by rw [e2]; exact h1)
      apply fin_readAll (W := W') (R := R') (c.src.cells (c.srcX p.1) (c.srcY p.2)) _ m o n2 (fun a ha => hR a (Or.inl ha))
      rw [e1]
      exact h2
  unfold fallbackOp fallbackPixel
  rw [hsx, hsy, hmx, hmy]
  cases hmask : c.mask with
  | none =>
    have : c.maskAlpha m0 p.1 p.2 = 0xffff := by unfold DrawCall.maskAlpha; rw [hmask]
    rw [this] at hgo
    exact hgo
  | some mi =>
    have em : (mi.cells (c.maskX p.1) (c.maskY p.2)).map m = c.mBytes m0 p.1 p.2 := by
      unfold DrawCall.mBytes
      rw [hmask]
      exact List.map_congr_left fun a ha => hm a (Or.inr (Or.inr ⟨mi, hmask, ha⟩))
    have : c.maskAlpha m0 p.1 p.2 = (mi.dec (c.mBytes m0 p.1 p.2)).a := by unfold DrawCall.maskAlpha; rw [hmask]
    rw [this] at hgo
    obtain ⟨n', h'⟩ := hgo
    apply fin_readAll (W := W') (R := R') (mi.cells (c.maskX p.1) (c.maskY p.2)) _ m o n' (fun a ha => hR a (Or.inr ⟨mi, hmask, ha⟩))
    rw [em]
    exact h'

/-- One operation per covered point, in the order of `chunk`, spread over goroutines by `chs`. -/
theorem runs_of_ops (c : DrawCall) (D : Drawer) (m : Mem Addr UInt8) (hdst : c.dst.Ok) (hcomp : c.Computes D m)
    (hlen : ∀ x y bs, c.Covers x y → c.pixel D m x y = .ok bs → bs.length = (c.dst.cells x y).length)
    (r : Rect) (hr : ∀ x y, r.Mem x y ↔ c.Covers x y)
    (op : Int × Int → DProg → DProg) (R : Int × Int → Addr → Prop) (b : Bool) (chs : List (Nat × Nat))
    (hmem : ∀ ch ∈ chs, ch.1 + ch.2 ≤ r.dy.toNat) (hcov : ∀ t, t < r.dy.toNat → ∃ ch ∈ chs, ch.1 ≤ t ∧ t < ch.1 + ch.2)
    (hpw : chs.Pairwise fun ch ch' => ch.1 + ch.2 ≤ ch'.1)
    (hacts : ∀ p bs t, c.Covers p.1 p.2 → c.pixel D m p.1 p.2 = .ok bs → (c.dst.cells p.1 p.2).map t = bs →
      Acts m (op p) (fun a => a ∈ c.dst.cells p.1 p.2) (R p) t)
    (hin : ∀ p q, c.Covers p.1 p.2 → c.Covers q.1 q.2 → Before b p q → ∀ a ∈ c.dst.cells p.1 p.2, ¬ R q a)
    (hac : chs.length ≤ 1 ∨ ∀ p q : Int × Int, c.Covers p.1 p.2 → c.Covers q.1 q.2 → p.2 ≠ q.2 → ∀ a ∈ c.dst.cells p.1 p.2, ¬ R q a) :
    AllRuns m (chs.map fun ch => (chunk b r ch.1 ch.2).foldr op .done) (c.Drawn D m) := by
  classical
  unfold DrawCall.Computes at hcomp
  choose! bs hbs using hcomp
  obtain ⟨t, ht⟩ := exists_target (fun p : Int × Int => c.Covers p.1 p.2) (fun p => c.dst.cells p.1 p.2) (fun p => bs p.1 p.2) m
    (fun p hp => hdst.nodup hp.2.1) (fun p hp => hlen _ _ _ hp (hbs _ _ hp))
    (fun p q hp hq hne => hdst.disjoint hp.2.1 hq.2.1 (by simpa [Prod.ext_iff] using hne))
  have hcm : ∀ ch ∈ chs, ∀ p ∈ chunk b r ch.1 ch.2, c.Covers p.1 p.2 := by
    intro ch hch p hp
    obtain ⟨tt, h1, h2, u, h3, rfl⟩ := mem_chunk.1 hp
    exact (hr _ _).1 (pt_mem h3 (by have := hmem ch hch; omega))
  have hne : ∀ p q : Int × Int, p ≠ q → (p.1, p.2) ≠ (q.1, q.2) := fun p q h => by simpa [Prod.ext_iff] using h
  have emap : (chs.map fun ch => (chunk b r ch.1 ch.2).foldr op .done) =
      (chs.map fun ch => chunk b r ch.1 ch.2).map fun l => l.foldr op .done := by
    rw [List.map_map]; rfl
  rw [emap]
  apply allRuns_ops m t op (fun p a => a ∈ c.dst.cells p.1 p.2) R
  · intro l hl p hp
    obtain ⟨ch, hch, rfl⟩ := List.mem_map.1 hl
    have hc := hcm ch hch p hp
    exact hacts p _ t hc (hbs _ _ hc) (ht p hc)
  · intro l hl
    obtain ⟨ch, hch, rfl⟩ := List.mem_map.1 hl
    apply List.Pairwise.imp_of_mem _ (chunk_pairwise b r ch.1 ch.2)
    intro p q hp hq hb a ha haq
    have hcp := hcm ch hch p hp
    have hcq := hcm ch hch q hq
    rcases haq with haq | haq
    · exact hdst.disjoint hcp.2.1 hcq.2.1 (hne _ _ hb.ne) a ha haq
    · exact hin p q hcp hcq hb a ha haq
  · rw [List.pairwise_map]
    rcases hac with hac | hac
    · match chs, hac with
      | [], _ => exact List.Pairwise.nil
      | [x], _ => exact List.pairwise_singleton _ _
    · apply List.Pairwise.imp_of_mem _ hpw
      intro ch ch' hch hch' hle p hp q hq
      have hcp := hcm ch hch p hp
      have hcq := hcm ch' hch' q hq
      have hy : p.2 ≠ q.2 := by
        obtain ⟨t1, h1, h2, u1, h3, rfl⟩ := mem_chunk.1 hp
        obtain ⟨t2, h4, h5, u2, h6, rfl⟩ := mem_chunk.1 hq
        unfold pt
        cases b <;> simp <;> omega
      have hpq : p ≠ q := fun e => hy (by rw [e])
      constructor
      · rintro a ha (h | h)
        · exact hdst.disjoint hcp.2.1 hcq.2.1 (hne _ _ hpq) a ha h
        · exact hac p q hcp hcq hy a ha h
      · rintro a ha (h | h)
        · exact hdst.disjoint hcq.2.1 hcp.2.1 (hne _ _ hpq.symm) a ha h
        · exact hac q p hcq hcp hy.symm a ha h
  · intro m' h1 h2
    have mem_of : ∀ x y, c.Covers x y → ∃ ch ∈ chs, (x, y) ∈ chunk b r ch.1 ch.2 := by
      intro x y hc
      obtain ⟨u, tt, h3, h4, h5⟩ := pt_surj b ((hr x y).2 hc)
      obtain ⟨ch, hch, h6, h7⟩ := hcov tt h4
      exact ⟨ch, hch, mem_chunk.2 ⟨tt, h6, h7, u, h3, h5⟩⟩
    constructor
    · intro x y hc
      obtain ⟨ch, hch, hp⟩ := mem_of x y hc
      rw [hbs x y hc, ← ht (x, y) hc]
      congr 1
      apply List.map_congr_left
      intro a ha
      exact (h1 _ (List.mem_map.2 ⟨ch, hch, rfl⟩) (x, y) hp a ha).symm
    · intro a ha
      apply h2
      intro l hl p hp
      obtain ⟨ch, hch, rfl⟩ := List.mem_map.1 hl
      exact ha _ _ (hcm ch hch p hp)

theorem special_length (c : DrawCall) (px : UInt32 → Px → Res Px) (alpha : UInt32) (m : Mem Addr UInt8) (x y : Int) (bs : List UInt8)
    (h4 : (c.dst.cells x y).length = 4) (h : c.special px alpha m x y = .ok bs) : bs.length = (c.dst.cells x y).length := by
  unfold DrawCall.special at h
  split at h
  · cases h; simp [DrawCall.dBytes]
  · split at h
    · cases h; rw [h4]; rfl
    all_goals cases h

theorem general_length (c : DrawCall) (D : Drawer) (hok : c.dst.Ok) (m : Mem Addr UInt8) (x y : Int) (bs : List UInt8)
    (hb : c.dst.bounds.Mem x y) (h : c.general D m x y = .ok bs) : bs.length = (c.dst.cells x y).length := by
  unfold DrawCall.general at h
  split at h
  · cases h; simp [DrawCall.dBytes]
  · split at h
    · cases h; simp [DrawCall.dBytes]
    · cases h; exact hok.encLength hb _
    all_goals cases h

theorem pixel_length (c : DrawCall) (D : Drawer) (hok : c.dst.Ok) (m : Mem Addr UInt8) (x y : Int) (bs : List UInt8)
    (hc : c.Covers x y) (h : c.pixel D m x y = .ok bs) : bs.length = (c.dst.cells x y).length := by
  have hb := hc.2.1
  have h4 : ∀ k im, c.dst = .four k im → (c.dst.cells x y).length = 4 := by
    intro k im e
    rw [e] at hb ⊢
    rw [four_cells hb, raw_length]
  unfold DrawCall.pixel at h
  split at h
  · rename_i e _; exact special_length c _ _ m x y bs (h4 _ _ e) h
  · rename_i e _
    split at h
    · exact special_length c _ _ m x y bs (h4 _ _ e) h
    · exact general_length c D hok m x y bs hb h
  · rename_i e _
    split at h
    · exact special_length c _ _ m x y bs (h4 _ _ e) h
    · exact general_length c D hok m x y bs hb h
  · exact general_length c D hok m x y bs hb h

end Psd
