import Verif.Lemmas.Locality

/-
Readers that report the end of the data along with the last bytes, and readers that report it by a further
`Read`: the decoder does the same on both, unless it pads at the very end of the data.
-/

namespace Psd

/-- The same reader, reporting the end along with the last bytes (`b = true`) or afterwards. -/
def St.ends (s : St) (b : Bool) : St := { s with eager := b }

@[simp] theorem St.ends_pos (s : St) (b : Bool) : (s.ends b).pos = s.pos := rfl
@[simp] theorem St.ends_kind (s : St) (b : Bool) : (s.ends b).kind = s.kind := rfl
@[simp] theorem St.ends_data (s : St) (b : Bool) : (s.ends b).data = s.data := rfl
@[simp] theorem St.ends_sched (s : St) (b : Bool) : (s.ends b).sched = s.sched := rfl
@[simp] theorem St.ends_eager (s : St) (b : Bool) : (s.ends b).eager = b := rfl
@[simp] theorem St.ends_tail (s : St) (b : Bool) : (s.ends b).tail = s.tail := rfl
@[simp] theorem St.ends_avail (s : St) (b : Bool) : (s.ends b).avail = s.avail := rfl
theorem St.ends_self (s : St) : s.ends s.eager = s := rfl
theorem St.ends_ends (s : St) (b c : Bool) : (s.ends b).ends c = s.ends c := rfl

/-- A complete read that succeeds leaves the same schedule, however the end is reported. -/
theorem readLoop_eager (tail : Err) (e e' : Bool) : ∀ (sched : List Nat) (need got avail : Nat) {r : List Nat},
    readLoop tail e sched need got avail = .ok r → readLoop tail e' sched need got avail = .ok r := by
  intro sched
  induction sched with
  | nil =>
    intro need got avail r h
    cases need with
    | zero => simpa [readLoop] using h
    | succ n => rw [readLoop] at h ⊢; exact h
  | cons c cs ih =>
    intro need got avail r h
    cases need with
    | zero => simpa [readLoop] using h
    | succ n =>
      have hle : n + 1 ≤ avail := by
        by_cases hn : n + 1 ≤ avail
        · exact hn
        · rw [readLoop_err tail e _ _ _ _ (by omega)] at h; cases h
      rw [readLoop] at h ⊢
      rw [if_neg (by omega)] at h ⊢
      simp only at h ⊢
      rw [if_neg (by omega)] at h ⊢
      exact ih _ _ _ h

/-- A run that succeeds and stops before the end of the data is the same if the end is reported otherwise;
if it is to be reported afterwards, this holds for every run that succeeds. -/
def EndSame (b : Bool) {α : Type} (p _q : P α) : Prop := ∀ s : St, (s.kind ≠ .seeker ∨ b = false) → s.data.length < 2 ^ 63 →
  ∀ a s', p s = .ok (a, s') →
    (s'.data = s.data ∧ s'.kind = s.kind ∧ (s.kind ≠ .seeker → s.pos ≤ s'.pos)) ∧
    (s'.pos < s.data.length ∨ b = false → p (s.ends b) = .ok (a, s'.ends b))

section
variable {b : Bool}

theorem ends_lift : LiftOk (@EndSame b) := by
  intro α x s _ _ a s' e
  obtain ⟨h1, rfl⟩ := P.lift_eq_ok.1 e
  exact ⟨⟨rfl, rfl, fun _ => Nat.le_refl _⟩, fun _ => P.lift_eq_ok.2 ⟨h1, rfl⟩⟩

theorem ends_readFull {k : Nat} {s s' : St} {a : List UInt8} (h : readFull k s = .ok (a, s')) (b : Bool) :
    readFull k (s.ends b) = .ok (a, s'.ends b) := by
  unfold readFull at h ⊢
  simp only [St.ends_tail, St.ends_eager, St.ends_sched, St.ends_avail, St.ends_pos]
  cases hr : readLoop s.tail s.eager s.sched k 0 s.avail.length with
  | ok sc =>
    rw [hr] at h
    cases h
    rw [readLoop_eager _ _ b _ _ _ _ hr]
    rfl
  | _ => rw [hr] at h; cases h

theorem ends_cloR : CloR (@EndSame b) where
  pure a := by
    intro s _ _ c s' e
    cases e
    exact ⟨⟨rfl, rfl, fun _ => Nat.le_refl _⟩, fun _ => rfl⟩
  bind := by
    intro α β p q f g h1 h2 s hk hn c s' e
    obtain ⟨a, s₁, e1, e2⟩ := P.bind_eq_ok.1 e
    obtain ⟨⟨a1, a2, a3⟩, a4⟩ := h1 s hk hn _ _ e1
    obtain ⟨⟨b1, b2, b3⟩, b4⟩ := h2 a s₁ (by rw [a2]; exact hk) (by rw [a1]; exact hn) _ _ e2
    refine ⟨⟨b1.trans a1, b2.trans a2, fun h => ?_⟩, fun hp => ?_⟩
    · have := a3 h
      have := b3 (by rw [a2]; exact h)
      omega
    · refine P.bind_eq_ok.2 ⟨a, _, a4 ?_, b4 (by rw [a1]; exact hp)⟩
      rcases hp with hp | hp
      · rcases hk with hk | hk
        · have := b3 (by rw [a2]; exact hk)
          exact .inl (by omega)
        · exact .inr hk
      · exact .inr hp
  fail e := by intro s _ _ c s' e; cases e
  readFull k := by
    intro s _ _ c s' e
    obtain ⟨h1, h2, h3, sched, rfl, hs⟩ := readFull_eq_ok e
    exact ⟨⟨rfl, rfl, fun _ => by simp only; omega⟩, fun _ => ends_readFull e b⟩

theorem ends_bareRead (k : Nat) : EndSame b (bareRead k) (bareRead k) := by
  intro s _ _ c s' e
  obtain ⟨h1, m, rfl, h2, h3, h4, rfl, h5⟩ := bareRead_eq_ok e
  refine ⟨⟨rfl, rfl, fun _ => by simp only; omega⟩, fun hp => ?_⟩
  have ha := s.avail_length
  have hm : readAmount k (s.ends b) = m := by rw [h4]; rfl
  rw [bareRead_val, hm, if_neg]
  · rfl
  · rintro (h | ⟨h, h'⟩)
    · exact h1 h
    · simp only [St.ends_eager, St.ends_avail] at h h'
      rcases hp with hp | hp
      · simp only at hp; omega
      · rw [h] at hp; cases hp

theorem ends_discard (n : Int) : EndSame b (discard n) (discard n) := by
  intro s _ _ c s' e
  have h := frame_discard n s _ _ e
  refine ⟨⟨h.1, h.2.1, fun hk => ?_⟩, fun _ => ?_⟩
  · unfold discard at e
    cases hkk : s.kind <;> simp only [hkk] at e <;> (repeat' split at e) <;> cases e <;> simp_all
  · unfold discard at e ⊢
    simp only [St.ends_kind, St.ends_avail, St.ends_pos, St.ends_tail]
    cases hkk : s.kind <;> simp only [hkk] at e ⊢ <;> (repeat' split at e) <;> cases e <;> simp_all [St.ends]
    omega

theorem ends_zlib (env : Env) (w : Nat) (k : Int) : EndSame b (decodeZLIB env w k) (decodeZLIB env w k) := by
  intro s _ _ c s' e
  unfold decodeZLIB at e ⊢
  simp only [St.ends_avail, St.ends_sched, St.ends_pos] at e ⊢
  split at e
  · cases e
  · rename_i out ho
    split at e
    · rename_i hl
      cases e
      refine ⟨⟨rfl, rfl, fun _ => by simp only; omega⟩, fun _ => ?_⟩
      rw [if_pos hl]
      rfl
    · cases e

theorem ends_clo : Clo (@EndSame b) where
  toCloR := ends_cloR
  lift x _ := ends_lift x
  align2 l := by
    unfold adjustAlign2
    split
    · exact ends_bareRead 1
    · exact ends_cloR.pure _
  discard n _ := ends_discard n
  emit ev := by
    intro s _ _ c s' e
    cases e
    exact ⟨⟨rfl, rfl, fun _ => Nat.le_refl _⟩, fun _ => rfl⟩

theorem ends_align4 (l : Int) : EndSame b (adjustAlign4 l) (adjustAlign4 l) := by
  unfold adjustAlign4
  simp only
  split
  · exact ends_bareRead _
  · exact ends_cloR.pure _

theorem ends_fuel (n : Nat) : FuelOk (@EndSame b) n n :=
  .inl ⟨rfl, by intro α s _ _ c s' e; cases e⟩

theorem ends_pre (env : Env) (o : Options) (m n : Nat) : EndSame b (preF env o m n) (preF env o m n) := by
  have C := @ends_clo b
  unfold preF
  refine C.bind (C.decodeConfig (ends_fuel m)) fun ⟨cfg, read⟩ => Clo.ite (fun _ => C.fail _) fun _ => ?_
  refine C.bind (C.layerAndMaskInfo (fun h layer => C.extraData ends_align4 h layer)
    (C.channelImage (C.channelDataAll ends_lift env (ends_zlib env)) cfg) o (fun total read tree infos => ?_) (ends_fuel n))
    fun ⟨psd, l⟩ => C.pure _
  unfold lmFinish
  refine C.bind (Clo.ite (fun _ => ends_discard _) fun _ => C.pure _) fun _ => ?_
  exact Clo.ite (fun _ => C.fail _) fun _ => C.pure _

end

/-- The same, without any condition: nothing but complete reads, and a ZIP stream. -/
def EndsR {α : Type} (p _q : P α) : Prop := ∀ (s : St) a s' (b : Bool), p s = .ok (a, s') →
  p (s.ends b) = .ok (a, s'.ends b)

theorem endsR_lift : LiftOk (@EndsR) := by
  intro α x s a s' b e
  obtain ⟨h1, rfl⟩ := P.lift_eq_ok.1 e
  exact P.lift_eq_ok.2 ⟨h1, rfl⟩

theorem endsR_cloR : CloR (@EndsR) where
  pure a := by intro s c s' b e; cases e; rfl
  bind := by
    intro α β p q f g h1 h2 s c s' b e
    obtain ⟨a, s₁, e1, e2⟩ := P.bind_eq_ok.1 e
    exact P.bind_eq_ok.2 ⟨a, _, h1 _ _ _ _ e1, h2 a _ _ _ _ e2⟩
  fail e := by intro s c s' b e; cases e
  readFull k := fun s a s' b e => ends_readFull e b

theorem endsR_zlib (env : Env) (w : Nat) (k : Int) : EndsR (decodeZLIB env w k) (decodeZLIB env w k) := by
  intro s c s' b e
  unfold decodeZLIB at e ⊢
  simp only [St.ends_avail, St.ends_sched, St.ends_pos] at e ⊢
  split at e
  · cases e
  · split at e
    · cases e
      rename_i hl
      rw [if_pos hl]
      rfl
    · cases e

theorem endsR_cmDecode (env : Env) (method : Int) (dest : List UInt8) (hint : Int) (rect : Rect) (depth ch : Nat)
    (large : Bool) : EndsR (cmDecode env method dest hint rect depth ch large)
      (cmDecode env method dest hint rect depth ch large) := by
  by_cases h2 : method = 2
  · subst h2; rw [cmDecode_two]; exact endsR_zlib _ _ _
  by_cases h3 : method = 3
  · subst h3; rw [cmDecode_three]
    exact endsR_cloR.bind (endsR_zlib _ _ _) fun _ => endsR_cloR.bind (endsR_lift _) fun _ => endsR_cloR.pure _
  · exact endsR_cloR.cmDecodeNoZip endsR_lift env h2 h3 _ _ _ _ _ _

theorem endsR_merged (env : Env) (cfg : Config) (psd : PSD) : EndsR (readMerged env cfg psd) (readMerged env cfg psd) := by
  have C := endsR_cloR
  unfold readMerged
  exact C.bind (endsR_lift _) fun gk => C.bind (endsR_lift _) fun ⟨k, pal⟩ => C.bind (endsR_lift _) fun _ =>
    C.bind (C.readFull _) fun _ => C.bind (endsR_cmDecode _ _ _ _ _ _ _ _) fun _ => C.pure _

/-- The merged picture begins with two bytes that must be there. -/
theorem readMerged_reads {env : Env} {cfg : Config} {psd : PSD} {s s' : St} {a : PSD × Int}
    (h : readMerged env cfg psd s = .ok (a, s')) : 2 ≤ s.avail.length := by
  unfold readMerged at h
  obtain ⟨_, _, e, h⟩ := P.bind_eq_ok.1 h
  obtain ⟨-, rfl⟩ := P.lift_eq_ok.1 e
  obtain ⟨⟨_, _⟩, _, e, h⟩ := P.bind_eq_ok.1 h
  obtain ⟨-, rfl⟩ := P.lift_eq_ok.1 e
  obtain ⟨_, _, e, h⟩ := P.bind_eq_ok.1 h
  obtain ⟨-, rfl⟩ := P.lift_eq_ok.1 e
  obtain ⟨_, _, e, h⟩ := P.bind_eq_ok.1 h
  exact (readFull_eq_ok e).1

/-- The whole decoder. -/
theorem ends_decode (env : Env) (o : Options) {s s' : St} {r : PSD × Int} (b : Bool) (hk : s.kind ≠ .seeker ∨ b = false)
    (hsize : s.data.length < 2 ^ 63) (h : decode env o s = .ok (r, s'))
    (hp : o.skipMergedImage = false ∨ s'.pos < s.data.length ∨ b = false) :
    decode env o (s.ends b) = .ok (r, s'.ends b) := by
  rw [decode_eq env o s (Nat.lt_succ_self _) (Nat.lt_succ_self _), decodeF_split] at h
  rw [decode_eq env o (s.ends b) (Nat.lt_succ_self _) (Nat.lt_succ_self _), decodeF_split, St.ends_data]
  obtain ⟨a, t, e1, e2⟩ := P.bind_eq_ok.1 h
  obtain ⟨⟨d1, d2, d3⟩, g⟩ := ends_pre (b := b) env o _ _ s hk hsize _ _ e1
  unfold postF at e2 ⊢
  cases ho : o.skipMergedImage with
  | false =>
    rw [ho] at e2
    simp only [Bool.false_eq_true, if_false] at e2 ⊢
    obtain ⟨x, u, e3, e4⟩ := P.bind_eq_ok.1 e2
    cases e4
    have h2 := readMerged_reads e3
    rw [St.avail_length, d1] at h2
    refine P.bind_eq_ok.2 ⟨a, _, g (.inl (by omega)), ?_⟩
    exact P.bind_eq_ok.2 ⟨x, _, endsR_merged env a.1 a.2.1 _ _ _ b e3, rfl⟩
  | true =>
    rw [ho] at e2 hp
    simp only [if_true] at e2 ⊢
    cases e2
    refine P.bind_eq_ok.2 ⟨a, _, g ?_, rfl⟩
    rcases hp with hp | hp
    · cases hp
    · exact hp

/-- The header. -/
theorem ends_decodeConfig {s s' : St} {r : Config × Int} (b : Bool) (hk : s.kind ≠ .seeker ∨ b = false)
    (hsize : s.data.length < 2 ^ 63) (h : decodeConfig s = .ok (r, s')) (hp : s'.pos < s.data.length ∨ b = false) :
    decodeConfig (s.ends b) = .ok (r, s'.ends b) := by
  rw [decodeConfig_eq s (Nat.lt_succ_self _)] at h
  rw [decodeConfig_eq (s.ends b) (Nat.lt_succ_self _), St.ends_data]
  exact (ends_clo.decodeConfig (ends_fuel _) s hk hsize _ _ h).2 hp

/-- What a reader of no special kind decodes, that reports the end afterwards, every reader decodes. -/
theorem decode_any_reader (env : Env) (o : Options) {s s' : St} {r : PSD × Int} (hle : s.pos ≤ s.data.length)
    (hsize : s.data.length < 2 ^ 63)
    (h : decode env o { s with kind := .plain, eager := false } = .ok (r, s'))
    (hp : o.skipMergedImage = false ∨ s'.pos < s.data.length ∨ s.eager = false) :
    decode env o s = .ok (r, { s' with kind := s.kind, eager := s.eager }) := by
  have h1 := ends_decode env o (s := { s with kind := .plain, eager := false }) s.eager
    (.inl (by simp)) hsize h hp
  rw [decode_eq env o _ (Nat.lt_succ_self _) (Nat.lt_succ_self _)] at h1
  rw [decode_eq env o _ (Nat.lt_succ_self _) (Nat.lt_succ_self _)]
  obtain ⟨t, e, -, ht, -⟩ := kind_decode (k := .plain) (k' := s.kind) (by decide) env o _ _
    (St.ends { s with kind := .plain, eager := false } s.eager) s
    ⟨rfl, rfl, hle, hsize⟩ _ _ h1
  rw [ht] at e
  exact e

theorem decodeConfig_any_reader {s s' : St} {r : Config × Int} (hle : s.pos ≤ s.data.length)
    (hsize : s.data.length < 2 ^ 63)
    (h : decodeConfig { s with kind := .plain, eager := false } = .ok (r, s'))
    (hp : s'.pos < s.data.length ∨ s.eager = false) :
    decodeConfig s = .ok (r, { s' with kind := s.kind, eager := s.eager }) := by
  have h1 := ends_decodeConfig (s := { s with kind := .plain, eager := false }) s.eager
    (.inl (by simp)) hsize h hp
  rw [decodeConfig_eq _ (Nat.lt_succ_self _)] at h1
  rw [decodeConfig_eq _ (Nat.lt_succ_self _)]
  have hf : ∀ n, FuelOk (@SimOk (SameButKind .plain s.kind)) n n := fun n => .inl ⟨rfl, by intro α s t h a s' e; cases e⟩
  obtain ⟨t, e, -, ht, -⟩ := (kind_clo (k := .plain) (k' := s.kind) (by decide)).decodeConfig (hf _)
    (St.ends { s with kind := .plain, eager := false } s.eager) s
    ⟨rfl, rfl, hle, hsize⟩ _ _ h1
  rw [ht] at e
  exact e

end Psd
