import Verif.Lemmas.Run
import Verif.Lemmas.Count

/-
The relations of `Sim.lean` for the whole decoder.
-/

namespace Psd

/-! ### Chunking -/

/-- The same result as seen through `g`, on readers related by `R`. -/
def SimG (R : St → St → Prop) {α β : Type} (g : α × St → β) (p q : P α) : Prop :=
  ∀ s t, R s t → (p s).map g = (q t).map g

theorem Sim.bindG {R : St → St → Prop} {α β γ : Type} {g : β × St → γ} {p q : P α} {f f' : α → P β}
    (h1 : Sim R p q) (h2 : ∀ a, SimG R g (f a) (f' a)) : SimG R g (p >>= f) (q >>= f') := by
  intro s t h
  have h3 := h1 s t h
  simp only [P.bind_apply]
  cases hp : p s <;> cases hq : q t <;> rw [hp, hq] at h3 <;> simp only at h3 <;> try exact h3.elim
  · rename_i a b
    obtain ⟨a, s'⟩ := a
    obtain ⟨b, t'⟩ := b
    obtain ⟨h5, h4⟩ := h3
    cases h5
    exact h2 _ _ _ h4
  · subst h3; rfl
  · subst h3; rfl

theorem Sim.toG {R : St → St → Prop} {α β : Type} {g : α × St → β} {p q : P α} (h : Sim R p q)
    (hg : ∀ a s t, R s t → g (a, s) = g (a, t)) : SimG R g p q := by
  intro s t hR
  have h3 := h s t hR
  cases hp : p s <;> cases hq : q t <;> rw [hp, hq] at h3 <;> simp only at h3 <;> try exact h3.elim
  · obtain ⟨h5, h4⟩ := h3
    rename_i a b
    obtain ⟨a, s'⟩ := a
    obtain ⟨b, t'⟩ := b
    cases h5
    show Res.ok _ = Res.ok _
    rw [hg a _ _ h4]
  · subst h3; rfl
  · subst h3; rfl

/-- The document and the callbacks made. -/
def docAndCalls (r : (PSD × Int) × St) : PSD × List Event := (r.1.1, r.2.log)


theorem simG_merged {m : Nat} (hm : 1 ≤ m) (env : Env) (cfg : Config) (psd : PSD) (read : Int) :
    SimG (SameBytes m) docAndCalls
      (do let (psd, l) ← readMerged env cfg psd; pure (psd, read + l) : P (PSD × Int))
      (do let (psd, l) ← readMerged env cfg psd; pure (psd, read + l) : P (PSD × Int)) := by
  unfold readMerged
  simp only [P.bind_assoc', P.pure_bind']
  refine Sim.bindG (Sim.lift _) fun gk => Sim.bindG (Sim.lift _) fun ⟨k, pal⟩ => Sim.bindG (Sim.lift _) fun _ =>
    Sim.bindG (sim_readFull m 2) fun b => ?_
  by_cases hz : int16 (beAt b 0 2) = 2 ∨ int16 (beAt b 0 2) = 3
  · intro s t h
    have ha := h.avail
    have hlog : t.log = s.log := by rw [h.1]
    rcases hz with hz | hz <;> rw [hz]
    · rw [cmDecode_two]
      simp only [P.bind_apply, decodeZLIB, ha]
      cases env.inflate _ _ with
      | none => rfl
      | some out =>
        by_cases hl : out.length = (List.replicate ((cfg.rect.dx.toNat * cfg.depth + 7) / 8 *
            cfg.rect.dy.toNat * cfg.channels) (0 : UInt8)).length
        · simp [hl, docAndCalls, P.pure_apply, Res.map, hlog]
        · simp only [hl, if_false]
    · rw [cmDecode_three]
      simp only [P.bind_apply, decodeZLIB, ha]
      cases env.inflate _ _ with
      | none => rfl
      | some out =>
        by_cases hl : out.length = (List.replicate ((cfg.rect.dx.toNat * cfg.depth + 7) / 8 *
            cfg.rect.dy.toNat * cfg.channels) (0 : UInt8)).length
        · cases hd : decodeDelta out cfg.rect.dx.toNat cfg.depth <;>
            simp [hl, hd, docAndCalls, P.pure_apply, Res.map, hlog, P.lift]
        · simp only [hl, if_false]
  · refine Sim.toG ?_ fun a s t h => by unfold docAndCalls; rw [h.1]
    exact (sim_clo hm).bind (sim_cmDecode hm env (fun h => hz (.inl h)) (fun h => hz (.inr h)) _ _ _ _ _ _)
      fun ⟨d, l⟩ => sim_pure m _

theorem simG_decode {m : Nat} (hm : 3 ≤ m) (env : Env) (o : Options) (n n' : Nat) :
    SimG (SameBytes m) docAndCalls (decodeF env o n n') (decodeF env o n n') := by
  unfold decodeF
  refine Sim.bindG (sim_decodeConfig (by omega) n) fun ⟨cfg, read⟩ => ?_
  simp only
  split
  · intro s t h; rfl
  · refine Sim.bindG (sim_layerAndMask hm env cfg o n') fun ⟨psd, l⟩ => ?_
    simp only
    split
    · exact Sim.toG (sim_pure m _) fun a s t h => by unfold docAndCalls; rw [h.1]
    · exact simG_merged (by omega) env cfg psd _

/-- The count too, if nothing depends on how many bytes inflating the merged picture takes. -/
theorem sim_decode {m : Nat} (hm : 3 ≤ m) (env : Env) (o : Options)
    (h : o.skipMergedImage = true ∨ ∀ w n a b, env.pulled w n a = env.pulled w n b) (n n' : Nat) :
    Sim (SameBytes m) (decodeF env o n n') (decodeF env o n n') := by
  have C := @sim_clo m (by omega)
  unfold decodeF
  refine C.bind (sim_decodeConfig (by omega) n) fun ⟨cfg, read⟩ => Clo.ite (fun _ => C.fail _) fun _ => ?_
  refine C.bind (sim_layerAndMask hm env cfg o n') fun ⟨psd, l⟩ => Clo.ite (fun _ => C.pure _) fun hs => ?_
  refine C.bind (C.merged cfg psd Sim.lift fun method => ?_) fun _ => C.pure _
  have hp := h.resolve_left hs
  refine C.cmDecode Sim.lift env ?_ _ _ _ _ _ _ _
  intro w k s t h
  have ha := h.avail
  simp only [decodeZLIB, ha]
  cases env.inflate _ w with
  | none => rfl
  | some out =>
    rw [hp _ _ t.sched s.sched]
    by_cases hl : out.length = w
    · simp only [hl, if_true]
      exact ⟨trivial, h.pos _ (fun _ h => h) (fun _ h => h)⟩
    · simp only [hl, if_false]

/-! ### Kinds of readers -/

theorem kind_decode {k k' : Kind} (hk : k ≠ .seeker) (env : Env) (o : Options) (n n' : Nat) :
    SimOk (SameButKind k k') (decodeF env o n n') (decodeF env o n n') := by
  have C := @kind_clo k k' hk
  have hf : ∀ n, FuelOk (@SimOk (SameButKind k k')) n n := fun n => .inl ⟨rfl, by intro α s t h a s' e; cases e⟩
  unfold decodeF
  refine C.bind (C.decodeConfig (hf n)) fun ⟨cfg, read⟩ => Clo.ite (fun _ => C.fail _) fun _ => ?_
  refine C.bind (C.layerAndMaskInfo (fun h layer => C.extraData kind_align4 h layer)
    (C.channelImage (C.channelDataAll SimOk.lift env (kind_zlib env)) cfg) o (kind_lmFinish hk cfg) (hf n'))
    fun ⟨psd, l⟩ => Clo.ite (fun _ => C.pure _) fun _ => ?_
  refine C.bind (C.merged cfg psd SimOk.lift fun method => ?_) fun _ => C.pure _
  exact C.cmDecode SimOk.lift env (kind_zlib env) _ _ _ _ _ _ _

end Psd
