import Verif.Lemmas.Fuel

/-
Simulations between runs of the decoder on different readers.
-/

namespace Psd

/-! ### ZIP-compressed channels -/

/-- The samples of a ZIP channel as a function of its compressed bytes. -/
def zipOut (env : Env) (method : Int) (w : List UInt8) (n : Nat) (rect : Rect) (depth : Nat) :
    Res (List UInt8) :=
  match env.inflate w n with
  | none => .err .zlib
  | some out =>
    if out.length = n then
      if method = 2 then .ok out else decodeDelta out rect.dx.toNat depth
    else .err .zlib

/-- What reading a ZIP channel amounts to: decode its declared bytes and skip them. -/
def zipChannel (env : Env) (method : Int) (n : Nat) (dataLen : Int) (rect : Rect) (depth : Nat) :
    P (List UInt8 × Int) := fun s =>
  (do
    let d ← P.lift (zipOut env method (s.avail.take (dataLen - 2).toNat) n rect depth)
    let _ ← discard (dataLen - 2)
    pure (d, dataLen) : P _) s

/-- The reader after skipping `n` bytes. -/
def skipRes (n : Nat) (s : St) : Res St :=
  if s.kind = .seeker then
    if s.pos + n ≥ 2 ^ 63 then .err .seek else .ok { s with pos := s.pos + n }
  else if n ≤ s.avail.length then .ok { s with pos := s.pos + n }
  else .err s.tail

theorem discard_bind {n : Int} (hn : 0 ≤ n) {α : Type} (f : Int → P α) (s : St) :
    (discard n >>= f) s = match skipRes n.toNat s with
      | .ok s' => f n s'
      | .err e => .err e
      | .panic e => .panic e
      | .fuel => .fuel := by
  rw [P.bind_apply]
  unfold discard skipRes
  cases hk : s.kind with
  | plain =>
    simp only
    rw [if_neg (show ¬ n < 0 by omega), if_neg (show ¬ Kind.plain = Kind.seeker by decide)]
    by_cases h : n.toNat ≤ s.avail.length
    · rw [if_pos h, if_pos h]
    · rw [if_neg h, if_neg h]
  | discarder =>
    simp only
    rw [if_neg (show ¬ n < 0 by omega), if_neg (show ¬ Kind.discarder = Kind.seeker by decide)]
    by_cases h : n.toNat ≤ s.avail.length
    · rw [if_pos h, if_pos h]
    · rw [if_neg h, if_neg h]
  | seeker =>
    simp only
    rw [if_pos True.intro]
    have e : ((s.pos : Int) + n).toNat = s.pos + n.toNat := by omega
    by_cases h : s.pos + n.toNat ≥ 2 ^ 63
    · rw [if_pos (by omega), if_pos h]
    · rw [if_neg (by omega), if_neg h, e]

/-- A partial advance followed by skipping the rest is one skip. -/
theorem skipRes_split {s : St} {k n : Nat} (hk : k ≤ n) (hav : k ≤ s.avail.length) :
    skipRes (n - k) { s with pos := s.pos + k } = skipRes n s := by
  have ha : ({ s with pos := s.pos + k } : St).avail.length = s.avail.length - k := by
    rw [St.avail_length, St.avail_length]; simp only; omega
  have e : s.pos + k + (n - k) = s.pos + n := by omega
  unfold skipRes
  rw [ha]
  simp only [e]
  by_cases h : s.kind = .seeker
  · rw [if_pos h, if_pos h]
  · rw [if_neg h, if_neg h]
    by_cases h1 : n ≤ s.avail.length
    · rw [if_pos h1, if_pos (by omega)]
    · rw [if_neg h1, if_neg (by omega)]

theorem skipRes_self {s : St} {n : Nat} (h : n ≤ s.avail.length) (h0 : 0 < n)
    (hd : s.pos + n < 2 ^ 63) : skipRes n s = .ok { s with pos := s.pos + n } := by
  unfold skipRes
  rw [if_neg (show ¬ s.pos + n ≥ 2 ^ 63 by omega), if_pos h]
  simp

theorem cmDecode_two (env : Env) (dest : List UInt8) (hint : Int) (rect : Rect) (depth ch : Nat)
    (large : Bool) : cmDecode env 2 dest hint rect depth ch large =
      decodeZLIB env dest.length hint := rfl

theorem cmDecode_three (env : Env) (dest : List UInt8) (hint : Int) (rect : Rect) (depth ch : Nat)
    (large : Bool) : cmDecode env 3 dest hint rect depth ch large = (do
      let (d, read) ← decodeZLIB env dest.length hint
      let d' ← P.lift (decodeDelta d rect.dx.toNat depth)
      pure (d', read)) := rfl

theorem readChannelData_zip' (env : Env) {method : Int} (hm : method = 2 ∨ method = 3) (n : Nat)
    {dataLen : Int} (hlen : dataLen > 2) (rect : Rect) (depth : Nat) (psb : Bool) (s : St)
    (hd : s.pos + (dataLen - 2).toNat < 2 ^ 63 ∨ s.data.length < 2 ^ 63) :
    readChannelData env method n dataLen 2 rect depth psb s =
      zipChannel env method n dataLen rect depth s := by
  have tail : ∀ (k : Nat) (d : List UInt8), k ≤ s.avail.length → (k : Int) ≤ dataLen - 2 →
      (do
        let readCh : Int := 2 + (k : Int)
        let l ← (if readCh < dataLen then discard (dataLen - readCh) else pure 0)
        pure (d, readCh + l) : P (List UInt8 × Int)) { s with pos := s.pos + k } =
      (do
        let _ ← discard (dataLen - 2)
        pure (d, dataLen) : P (List UInt8 × Int)) s := by
    intro k d h1 h2
    simp only
    rw [discard_bind (by omega)]
    by_cases h : 2 + (k : Int) < dataLen
    · rw [if_pos h, discard_bind (by omega)]
      have e : (dataLen - (2 + (k : Int))).toNat = (dataLen - 2).toNat - k := by omega
      rw [e, skipRes_split (by omega) h1]
      cases skipRes (dataLen - 2).toNat s with
      | ok s' =>
        simp only [P.pure_apply]
        have : 2 + (k : Int) + (dataLen - (2 + (k : Int))) = dataLen := by omega
        rw [this]
      | _ => rfl
    · rw [if_neg h]
      have e : (dataLen - 2).toNat = k := by omega
      have := s.avail_length
      rw [e, skipRes_self h1 (by omega) (by omega)]
      simp only [P.pure_bind', P.pure_apply]
      have : 2 + (k : Int) + 0 = dataLen := by omega
      rw [this]
  have hz : ¬ (dataLen - 2 = 0) := by omega
  unfold readChannelData zipChannel zipOut
  rw [if_pos hlen]
  have hlr : (List.replicate n (0 : UInt8)).length = n := by simp
  rcases hm with rfl | rfl
  · rw [cmDecode_two, hlr]
    rw [P.bind_apply]
    simp only [decodeZLIB, hz, if_false]
    cases h1 : env.inflate (s.avail.take (dataLen - 2).toNat) n with
    | none => rfl
    | some out =>
      simp only
      by_cases h2 : out.length = n
      · rw [if_pos h2, if_pos h2]
        simp only [P.bind_apply, P.lift_ok, if_true]
        rw [← P.bind_apply, ← P.bind_apply]
        refine tail _ _ ?_ ?_
        · simp [List.length_take]; omega
        · simp [List.length_take]; omega
      · rw [if_neg h2, if_neg h2]; rfl
  · rw [cmDecode_three, hlr]
    rw [P.bind_assoc', P.bind_apply]
    simp only [decodeZLIB, hz, if_false]
    cases h1 : env.inflate (s.avail.take (dataLen - 2).toNat) n with
    | none => rfl
    | some out =>
      simp only
      by_cases h2 : out.length = n
      · rw [if_pos h2, if_pos h2, if_neg (by decide)]
        simp only
        cases h3 : decodeDelta out rect.dx.toNat depth with
        | ok d =>
          rw [P.bind_apply, P.bind_apply]
          simp only [P.lift_ok, P.bind_apply, P.pure_apply]
          simp only [P.bind_apply, P.pure_apply] at tail
          refine tail _ _ ?_ ?_
          · simp [List.length_take]; omega
          · simp [List.length_take]; omega
        | _ => rfl
      · rw [if_neg h2, if_neg h2]; rfl

/-! ### Chunking -/

/-- Two readers over the same bytes that differ only in how they split them, every `Read`
delivering at least `m` bytes if they are asked for and there. -/
def SameBytes (m : Nat) (s t : St) : Prop :=
  t = { s with sched := t.sched } ∧ (∀ c ∈ s.sched, m ≤ c) ∧ (∀ c ∈ t.sched, m ≤ c) ∧
  s.data.length < 2 ^ 63

theorem readChannelData_zip (env : Env) {method : Int} (hm : method = 2 ∨ method = 3) (n : Nat)
    {dataLen : Int} (hlen : dataLen > 2) (rect : Rect) (depth : Nat) (psb : Bool) (s : St)
    (hd : s.data.length < 2 ^ 63) :
    readChannelData env method n dataLen 2 rect depth psb s =
      zipChannel env method n dataLen rect depth s :=
  readChannelData_zip' env hm n hlen rect depth psb s (.inr hd)

/-- The same outcome, from and to readers that are related by `R`. -/
def Sim (R : St → St → Prop) {α : Type} (p q : P α) : Prop := ∀ s t, R s t →
  match p s, q t with
  | .ok (a, s'), .ok (b, t') => a = b ∧ R s' t'
  | .err e, .err e' => e = e'
  | .panic x, .panic y => x = y
  | .fuel, .fuel => True
  | _, _ => False

theorem Sim.bind {R : St → St → Prop} {α β : Type} {p q : P α} {f g : α → P β} (h1 : Sim R p q)
    (h2 : ∀ a, Sim R (f a) (g a)) : Sim R (p >>= f) (q >>= g) := by
  intro s t h
  have h3 := h1 s t h
  simp only [P.bind_apply]
  cases hp : p s with
  | ok r =>
    obtain ⟨a, s'⟩ := r
    cases hq : q t with
    | ok r =>
      obtain ⟨b, t'⟩ := r
      rw [hp, hq] at h3
      obtain ⟨rfl, h4⟩ := h3
      exact h2 a s' t' h4
    | _ => rw [hp, hq] at h3; exact h3.elim
  | err e =>
    cases hq : q t with
    | err e' => rw [hp, hq] at h3; exact h3
    | _ => rw [hp, hq] at h3; exact h3.elim
  | panic e =>
    cases hq : q t with
    | panic e' => rw [hp, hq] at h3; exact h3
    | _ => rw [hp, hq] at h3; exact h3.elim
  | fuel =>
    cases hq : q t with
    | fuel => trivial
    | _ => rw [hp, hq] at h3; exact h3.elim

theorem Sim.lift {R : St → St → Prop} : LiftOk (@Sim R) := by
  intro α x s t h
  cases x <;> simp [P.lift]
  exact h

theorem SameBytes.avail {m : Nat} {s t : St} (h : SameBytes m s t) : t.avail = s.avail := by
  rw [h.1]; rfl

theorem SameBytes.pos {m : Nat} {s t : St} (h : SameBytes m s t) (k : Nat) {s' t' : List Nat}
    (hs : ∀ c ∈ s', c ∈ s.sched) (ht : ∀ c ∈ t', c ∈ t.sched) :
    SameBytes m { s with pos := s.pos + k, sched := s' } { t with pos := t.pos + k, sched := t' } := by
  obtain ⟨h1, h2, h3, h4⟩ := h
  refine ⟨?_, fun c hc => h2 c (hs c hc), fun c hc => h3 c (ht c hc), h4⟩
  rw [h1]

theorem sim_readFull (m k : Nat) : Sim (SameBytes m) (readFull k) (readFull k) := by
  intro s t h
  have ha := h.avail
  by_cases hk : k ≤ s.avail.length
  · obtain ⟨s', e1, hs⟩ := readFull_ok hk
    obtain ⟨t', e2, ht⟩ := readFull_ok (s := t) (by rw [ha]; exact hk)
    rw [e1, e2, ha]
    exact ⟨rfl, h.pos k hs ht⟩
  · rw [readFull_err (by omega), readFull_err (s := t) (by rw [ha]; omega), ha]
    show shortErr _ s.tail = shortErr _ t.tail
    rw [h.1]

theorem readAmount_big {k : Nat} {s : St} (h : ∀ c ∈ s.sched, k ≤ c) :
    readAmount k s = min k s.avail.length := by
  unfold readAmount
  split
  · rfl
  · rename_i c cs e
    have := h c (by rw [e]; simp)
    omega

theorem bareRead_val (k : Nat) (s : St) : bareRead k s =
    if s.avail = [] ∨ (s.eager = true ∧ readAmount k s = s.avail.length) then .err s.tail
    else .ok ((readAmount k s : Int), { s with pos := s.pos + readAmount k s, sched := s.sched.tail }) := by
  unfold bareRead readOnce
  by_cases h : s.avail = []
  · simp [h]
  · rw [if_neg h]
    have hle : readAmount k s ≤ s.avail.length := by unfold readAmount; split <;> omega
    by_cases he : s.eager = true ∧ readAmount k s = s.avail.length
    · rw [if_pos (.inr he)]; simp [he]
    · rw [if_neg (by simp [h]; simpa using he)]
      have : (s.eager && readAmount k s == s.avail.length) = false := by
        simp only [Bool.and_eq_false_imp, beq_eq_false_iff_ne]
        intro h1 h2; exact he ⟨h1, h2⟩
      simp only [this]
      simp [List.length_take, Nat.min_eq_left hle]

theorem sim_bareRead {m k : Nat} (hk : k ≤ m) : Sim (SameBytes m) (bareRead k) (bareRead k) := by
  intro s t h
  have ha := h.avail
  have es : t.eager = s.eager := by rw [h.1]
  have et : t.tail = s.tail := by rw [h.1]
  rw [bareRead_val, bareRead_val, readAmount_big (fun c hc => Nat.le_trans hk (h.2.1 c hc)),
    readAmount_big (fun c hc => Nat.le_trans hk (h.2.2.1 c hc)), ha, es, et]
  by_cases hc : s.avail = [] ∨ s.eager = true ∧ min k s.avail.length = s.avail.length
  · rw [if_pos hc, if_pos hc]
  · rw [if_neg hc, if_neg hc]
    refine ⟨rfl, ?_⟩
    have := h.pos (min k s.avail.length) (s' := s.sched.tail) (t' := t.sched.tail)
      (fun c hc => List.mem_of_mem_tail hc) fun c hc => List.mem_of_mem_tail hc
    rw [es, et] at this
    exact this

theorem sim_pure (m : Nat) {α : Type} (a : α) : Sim (SameBytes m) (pure a) (pure a) :=
  fun _ _ h => ⟨rfl, h⟩

theorem sim_skipRes {m : Nat} {s t : St} (h : SameBytes m s t) (n : Nat) :
    match skipRes n s, skipRes n t with
    | .ok s', .ok t' => SameBytes m s' t'
    | .err e, .err e' => e = e'
    | _, _ => False := by
  have ha := h.avail
  unfold skipRes
  rw [ha]
  have e1 : t.kind = s.kind := by rw [h.1]
  have e2 : t.pos = s.pos := by rw [h.1]
  have e3 : t.tail = s.tail := by rw [h.1]
  have h' := h.pos n (s' := s.sched) (t' := t.sched) (fun _ h => h) (fun _ h => h)
  rw [e1, e2, e3]
  rw [e1, e2, e3] at h'
  by_cases hk : s.kind = .seeker
  · rw [if_pos hk, if_pos hk]
    by_cases hc : s.pos + n ≥ 2 ^ 63
    · rw [if_pos hc, if_pos hc]
    · rw [if_neg hc, if_neg hc]; exact h'
  · rw [if_neg hk, if_neg hk]
    by_cases hc : n ≤ s.avail.length
    · rw [if_pos hc, if_pos hc]; exact h'
    · rw [if_neg hc, if_neg hc]

theorem sim_discard (m : Nat) (n : Int) : Sim (SameBytes m) (discard n) (discard n) := by
  intro s t h
  by_cases hn : 0 ≤ n
  · have e : ∀ s, discard n s = (discard n >>= pure) s := by
      intro s; rw [P.bind_apply]; cases discard n s <;> rfl
    rw [e s, e t, discard_bind hn, discard_bind hn]
    have := sim_skipRes h n.toNat
    split at this
    · rename_i h1 h2
      rw [h1, h2]; exact ⟨rfl, this⟩
    · rename_i h1 h2
      rw [h1, h2]; exact this
    · exact this.elim
  · unfold discard
    have e1 : t.kind = s.kind := by rw [h.1]
    have e2 : t.pos = s.pos := by rw [h.1]
    have hh : ∀ p, SameBytes m { s with pos := p } { t with pos := p } := by
      intro p
      obtain ⟨h1, h2, h3, h4⟩ := h
      exact ⟨by rw [h1], h2, h3, h4⟩
    rw [e1, e2]
    have hg := hh ((s.pos : Int) + n).toNat
    rw [e1] at hg
    cases hk : s.kind with
    | plain => simp only; rw [if_pos (by omega), if_pos (by omega)]; exact ⟨rfl, h⟩
    | discarder => simp only; rw [if_pos (by omega), if_pos (by omega)]
    | seeker =>
      simp only
      by_cases hc : (s.pos : Int) + n < 0 ∨ (s.pos : Int) + n ≥ 2 ^ 63
      · rw [if_pos hc, if_pos hc]
      · rw [hk] at hg; rw [if_neg hc, if_neg hc]; exact ⟨rfl, hg⟩

theorem sim_clo {m : Nat} (hm : 1 ≤ m) : Clo (@Sim (SameBytes m)) where
  pure a := sim_pure m a
  bind := Sim.bind
  fail e := fun _ _ _ => rfl
  lift x _ := Sim.lift x
  emit e := by
    intro s t h
    obtain ⟨h1, h2, h3, h4⟩ := h
    exact ⟨rfl, by rw [h1], h2, h3, h4⟩
  readFull k := sim_readFull m k
  align2 l := by
    unfold adjustAlign2
    split
    · exact sim_bareRead hm
    · exact sim_pure m _
  discard n _ := sim_discard m n

theorem sim_fuel (m n : Nat) : FuelOk (@Sim (SameBytes m)) n n :=
  .inl ⟨rfl, fun _ _ _ => trivial⟩

theorem sim_align4 {m : Nat} (hm : 3 ≤ m) (l : Int) :
    Sim (SameBytes m) (adjustAlign4 l) (adjustAlign4 l) := by
  unfold adjustAlign4
  simp only
  split
  · exact sim_bareRead (by omega)
  · exact sim_pure m _

theorem sim_extra {m : Nat} (hm : 3 ≤ m) : ExtraOk (@Sim (SameBytes m)) := fun h layer =>
  (sim_clo (by omega)).extraData (sim_align4 hm) h layer

theorem sim_channelData {m : Nat} (hm : 1 ≤ m) (env : Env) : ChannelDataOk (@Sim (SameBytes m)) env := by
  intro method n dataLen read0 rect depth psb h0 _ _
  by_cases hl : dataLen > 2
  · by_cases hz : method = 2 ∨ method = 3
    · intro s t h
      have hd : t.data.length < 2 ^ 63 := by rw [h.1]; exact h.2.2.2
      rw [h0 hl, readChannelData_zip env hz n hl rect depth psb s h.2.2.2,
        readChannelData_zip env hz n hl rect depth psb t hd]
      unfold zipChannel
      rw [h.avail]
      exact (sim_clo hm).bind (Sim.lift _) (fun d => (sim_clo hm).bind (sim_discard m _)
        fun _ => sim_pure m _) s t h
    · exact (sim_clo hm).channelDataNoZip Sim.lift env (fun h => hz (.inl h)) (fun h => hz (.inr h))
        n dataLen read0 rect depth psb
  · exact (sim_clo hm).channelDataShort env method n hl read0 rect depth psb

theorem sim_lmFinish {m : Nat} (hm : 1 ≤ m) (cfg : Config) (total read : Int)
    (tree : List (LTree LayerRec)) (infos : Infos) :
    Sim (SameBytes m) (lmFinish cfg total read tree infos) (lmFinish cfg total read tree infos) := by
  have C := sim_clo hm
  unfold lmFinish
  refine C.bind (Clo.ite (fun _ => sim_discard m _) fun _ => C.pure _) fun _ => ?_
  exact Clo.ite (fun _ => C.fail _) fun _ => C.pure _

theorem sim_layerAndMask {m : Nat} (hm : 3 ≤ m) (env : Env) (cfg : Config) (o : Options) (n : Nat) :
    Sim (SameBytes m) (readLayerAndMaskInfo env cfg o n) (readLayerAndMaskInfo env cfg o n) :=
  have h1 : 1 ≤ m := by omega
  (sim_clo h1).layerAndMaskInfo (sim_extra hm) ((sim_clo h1).channelImage (sim_channelData h1 env) cfg)
    o (sim_lmFinish h1 cfg) (sim_fuel m n)

theorem sim_decodeConfig {m : Nat} (hm : 1 ≤ m) (n : Nat) :
    Sim (SameBytes m) (decodeConfigF n) (decodeConfigF n) :=
  (sim_clo hm).decodeConfig (sim_fuel m n)

/-! ### Readers of different kinds -/

/-- The same reader but for its kind. -/
def SameButKind (k k' : Kind) (s t : St) : Prop :=
  s.kind = k ∧ t = { s with kind := k' } ∧ s.pos ≤ s.data.length ∧ s.data.length < 2 ^ 63

/-- Wherever `p` succeeds, `q` succeeds with the same result. -/
def SimOk (R : St → St → Prop) {α : Type} (p q : P α) : Prop := ∀ s t, R s t →
  ∀ a s', p s = .ok (a, s') → ∃ t', q t = .ok (a, t') ∧ R s' t'

theorem SimOk.bind {R : St → St → Prop} {α β : Type} {p q : P α} {f g : α → P β} (h1 : SimOk R p q)
    (h2 : ∀ a, SimOk R (f a) (g a)) : SimOk R (p >>= f) (q >>= g) := by
  intro s t h b s' e
  obtain ⟨a, s₁, e1, e2⟩ := P.bind_eq_ok.1 e
  obtain ⟨t₁, e3, h3⟩ := h1 s t h a s₁ e1
  obtain ⟨t', e4, h4⟩ := h2 a s₁ t₁ h3 b s' e2
  exact ⟨t', by rw [P.bind_ok e3, e4], h4⟩

theorem SimOk.lift {R : St → St → Prop} : LiftOk (@SimOk R) := by
  intro α x s t h a s' e
  obtain ⟨rfl, rfl⟩ := P.lift_eq_ok.1 e
  exact ⟨t, rfl, h⟩

theorem SimOk.pure {R : St → St → Prop} {α : Type} (a : α) : SimOk R (Pure.pure a) (Pure.pure a) := by
  intro s t h b s' e
  cases e; exact ⟨t, rfl, h⟩

section
variable {k k' : Kind}

theorem kind_readFull (n : Nat) : SimOk (SameButKind k k') (readFull n) (readFull n) := by
  intro s t ⟨h1, h2, h3, h4⟩ a s' e
  obtain ⟨e1, e2, _⟩ := readFull_eq_ok e
  have hl := s.avail_length
  subst h2
  simp only [readFull] at e ⊢
  have : ({ s with kind := k' } : St).avail = s.avail := rfl
  rw [this]
  split at e
  · cases e; exact ⟨_, rfl, h1, rfl, by simp only; omega, h4⟩
  all_goals cases e

theorem kind_bareRead (n : Nat) : SimOk (SameButKind k k') (bareRead n) (bareRead n) := by
  intro s t ⟨h1, h2, h3, h4⟩ a s' e
  have hl := s.avail_length
  subst h2
  have ha : ({ s with kind := k' } : St).avail = s.avail := rfl
  have hr : readAmount n ({ s with kind := k' } : St) = readAmount n s := rfl
  rw [bareRead_val] at e ⊢
  rw [ha, hr]
  have hle : readAmount n s ≤ s.avail.length := by unfold readAmount; split <;> omega
  split at e
  · cases e
  · rename_i h5
    rw [if_neg h5]
    cases e
    exact ⟨_, rfl, h1, rfl, by simp only; omega, h4⟩

theorem kind_discard (hk : k ≠ .seeker) {n : Int} (hn : 0 ≤ n) :
    SimOk (SameButKind k k') (discard n) (discard n) := by
  intro s t ⟨h1, h2, h3, h4⟩ a s' e
  obtain ⟨rfl, rfl, h5, _⟩ := discard_eq_ok hn e
  have h6 := h5 (by rw [h1]; exact hk)
  have hl := s.avail_length
  subst h2
  refine ⟨{ s with kind := k', pos := s.pos + a.toNat }, ?_, h1, rfl, by simp only; omega, h4⟩
  have ha : ({ s with kind := k' } : St).avail = s.avail := rfl
  unfold discard
  rw [ha]
  cases k' with
  | plain => simp only; rw [if_neg (by omega), if_pos h6]
  | discarder => simp only; rw [if_neg (by omega), if_pos h6]
  | seeker =>
    simp only
    rw [if_neg (by omega)]
    have : ((s.pos : Int) + a).toNat = s.pos + a.toNat := by omega
    rw [this]

theorem kind_clo (hk : k ≠ .seeker) : Clo (@SimOk (SameButKind k k')) where
  pure a := SimOk.pure a
  bind := SimOk.bind
  fail e := by intro s t h a s' e; cases e
  lift x _ := SimOk.lift x
  emit e := by
    intro s t ⟨h1, h2, h3, h4⟩ a s' e
    cases e
    exact ⟨_, rfl, h1, by rw [h2], h3, h4⟩
  readFull n := kind_readFull n
  align2 l := by
    unfold adjustAlign2
    split
    · exact kind_bareRead _
    · exact SimOk.pure _
  discard n hn := kind_discard hk hn

theorem kind_align4 (l : Int) : SimOk (SameButKind k k') (adjustAlign4 l) (adjustAlign4 l) := by
  unfold adjustAlign4
  simp only
  split
  · exact kind_bareRead _
  · exact SimOk.pure _

theorem kind_zlib (env : Env) (w : Nat) (l : Int) :
    SimOk (SameButKind k k') (decodeZLIB env w l) (decodeZLIB env w l) := by
  intro s t ⟨h1, h2, h3, h4⟩ a s' e
  obtain ⟨n, hn, _, hs', _⟩ := decodeZLIB_eq_ok e
  have hl := s.avail_length
  subst h2
  have ha : ({ s with kind := k' } : St).avail = s.avail := rfl
  refine ⟨{ s' with kind := k' }, ?_, by rw [hs']; exact h1, rfl, by rw [hs']; simp only; omega,
    by rw [hs']; exact h4⟩
  unfold decodeZLIB at e ⊢
  simp only at e ⊢
  rw [ha]
  split at e
  · cases e
  · split at e
    · rename_i h5
      rw [if_pos h5]
      cases e; rfl
    · cases e

theorem kind_lmFinish (hk : k ≠ .seeker) (cfg : Config) (total read : Int)
    (tree : List (LTree LayerRec)) (infos : Infos) :
    SimOk (SameButKind k k') (lmFinish cfg total read tree infos) (lmFinish cfg total read tree infos) := by
  have C := @kind_clo k k' hk
  unfold lmFinish
  simp only
  by_cases hneg : wrap64 (total - read) < 0
  · -- a negative rest makes the non-seeking reader fail
    intro s t h a s' e
    exfalso
    rw [if_pos (by have := get4or8_pos cfg.psb; omega)] at e
    obtain ⟨l, s₁, e1, e2⟩ := P.bind_eq_ok.1 e
    unfold discard at e1
    rw [h.1] at e1
    cases k with
    | plain =>
      simp only at e1
      rw [if_pos hneg] at e1
      cases e1
      rw [P.ite_app] at e2
      split at e2
      · cases e2
      · rename_i h1
        have : total - read = 0 := by omega
        rw [this] at hneg
        simp [wrap64] at hneg
    | discarder =>
      simp only at e1
      rw [if_pos hneg] at e1; cases e1
    | seeker => exact hk rfl
  · refine C.bind (Clo.ite (fun _ => kind_discard hk (by omega)) fun _ => C.pure _) fun _ => ?_
    exact Clo.ite (fun _ => C.fail _) fun _ => C.pure _

end

end Psd
