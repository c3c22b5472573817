import Verif.Utf.Lemmas

namespace Verif.Utf

open Spec

/-- Observation of one call, `u` bytes having been absorbed by earlier calls. -/
def obs (u : Nat) (o : MbOut) : Obs :=
  if o.ret = INC then .more o.state
  else if o.ret = ERR then .invalid
  else .char (o.wc.getD 0) (u + o.ret)

theorem obs_fail (u s : Nat) : obs u (fail_ s) = .invalid := by simp [obs, fail_, ERR, INC]

theorem obs_ok (u k v : Nat) (hk : k < 100) : obs u ⟨k, some v, 0, false⟩ = .char v (u + k) := by
  unfold obs INC ERR
  rw [if_neg (by simp; omega), if_neg (by simp; omega)]
  rfl

theorem obs_finish (s s' T code u j k : Nat) (hT : T = 2 ∨ T = 3 ∨ T = 4) (hk : k + j < 100) :
    obs u (finish s T code (k + j)) = obs (u + j) (finish s' T code k) := by
  rcases hT with rfl | rfl | rfl
  · rw [finish2, finish2]; split
    · rw [obs_fail, obs_fail]
    · rw [obs_ok _ _ _ hk, obs_ok _ _ _ (by omega)]; congr 1; omega
  · rw [finish3, finish3]; split
    · rw [obs_fail, obs_fail]
    · rw [obs_ok _ _ _ hk, obs_ok _ _ _ (by omega)]; congr 1; omega
  · rw [finish4, finish4]; split
    · rw [obs_fail, obs_fail]
    · rw [obs_ok _ _ _ hk, obs_ok _ _ _ (by omega)]; congr 1; omega

/-- Loop state of `absorb`. -/
def Loop (T a code : Nat) : Prop :=
  (T = 2 ∨ T = 3 ∨ T = 4) ∧ 1 ≤ a ∧ a ≤ T ∧ code < 32 * 64 ^ (a - 1)

theorem Loop.lt {T a code : Nat} (h : Loop T a code) (ha : a < T) : code < 16777216 := by
  obtain ⟨h1, h2, h3, h4⟩ := h
  have : a = 1 ∨ a = 2 ∨ a = 3 := by omega
  rcases this with rfl | rfl | rfl <;> simp at h4 <;> omega

theorem Loop.step {T a code b : Nat} (h : Loop T a code) (ha : a < T) (hb : b ≤ 0xBF) :
    Loop T (a + 1) (code * 64 + (b - 0x80)) := by
  obtain ⟨h1, h2, h3, h4⟩ := h
  refine ⟨h1, by omega, by omega, ?_⟩
  have : a + 1 - 1 = (a - 1) + 1 := by omega
  rw [this, Nat.pow_succ]
  omega

theorem obs_absorb (s s' T : Nat) (p : List Nat) (hp : Bytes p) : ∀ (a code k j u : Nat), Loop T a code →
    k + j + (T - a) < 100 →
    obs u (absorb s T a code (k + j) p) = obs (u + j) (absorb s' T a code k p) := by
  induction p with
  | nil =>
    intro a code k j u hl hk
    by_cases ha : a < T
    · rw [absorb_nil _ _ _ _ _ ha (by have := hl.1; omega) (hl.lt ha),
        absorb_nil _ _ _ _ _ ha (by have := hl.1; omega) (hl.lt ha)]
      simp [obs]
    · have : a = T := by have := hl.2.2.1; omega
      subst this
      rw [absorb_done, absorb_done, obs_finish _ s' _ _ _ _ _ hl.1 (by omega)]
  | cons b p ih =>
    intro a code k j u hl hk
    by_cases ha : a < T
    · have hc := hl.lt ha
      rw [absorb_cons _ _ _ _ _ _ _ (hp b (by simp)) (by omega) ha,
        absorb_cons _ _ _ _ _ _ _ (hp b (by simp)) (by omega) ha]
      split
      · next hb =>
        have := ih (fun x hx => hp x (by simp [hx])) (a + 1) (code * 64 + (b - 0x80)) (k + 1) j u
          (hl.step ha hb.2) (by omega)
        rw [← this]
        congr 2; omega
      · rw [obs_fail, obs_fail]
    · have : a = T := by have := hl.2.2.1; omega
      subst this
      rw [absorb_done, absorb_done, obs_finish _ s' _ _ _ _ _ hl.1 (by omega)]

theorem absorb_append (s T : Nat) (c1 c2 : List Nat) (h1 : Bytes c1) (h2 : Bytes c2) :
    ∀ (a code k : Nat), Loop T a code → k + (T - a) < 50 →
    ((absorb s T a code k c1).ret = INC →
      ∃ a' code', Mid (absorb s T a code k c1).state T a' code' ∧ k + c1.length < 50 ∧
        ∀ u s', obs u (absorb s T a code k (c1 ++ c2)) = obs (u + k + c1.length) (absorb s' T a' code' 0 c2)) ∧
    ((absorb s T a code k c1).ret ≠ INC →
      absorb s T a code k (c1 ++ c2) = absorb s T a code k c1) := by
  induction c1 with
  | nil =>
    intro a code k hl hk
    by_cases ha : a < T
    · have e := absorb_nil s T a code k ha (by have := hl.1; omega) (hl.lt ha)
      rw [e]
      refine ⟨fun _ => ⟨a, code, ⟨rfl, by have := hl.1; omega, by have := hl.1; omega, hl.2.1, ha, hl.2.2.2⟩,
        by simp; omega, ?_⟩, fun h => absurd rfl h⟩
      intro u s'
      have := obs_absorb s s' T c2 h2 a code 0 k u hl (by omega)
      simpa using this
    · have : a = T := by have := hl.2.2.1; omega
      subst this
      simp only [List.nil_append]
      rw [absorb_done, absorb_done]
      refine ⟨fun h => ?_, fun _ => rfl⟩
      exfalso
      rcases hl.1 with rfl | rfl | rfl
      · rw [finish2] at h; split at h <;> simp [fail_, INC, ERR] at h; omega
      · rw [finish3] at h; split at h <;> simp [fail_, INC, ERR] at h; omega
      · rw [finish4] at h; split at h <;> simp [fail_, INC, ERR] at h; omega
  | cons b c1 ih =>
    intro a code k hl hk
    by_cases ha : a < T
    · have hc := hl.lt ha
      simp only [List.cons_append]
      rw [absorb_cons _ _ _ _ _ _ _ (h1 b (by simp)) (by omega) ha,
        absorb_cons _ _ _ _ _ _ _ (h1 b (by simp)) (by omega) ha]
      split
      · next hb =>
        have := ih (fun x hx => h1 x (by simp [hx])) (a + 1) (code * 64 + (b - 0x80)) (k + 1)
          (hl.step ha hb.2) (by omega)
        refine ⟨fun h => ?_, this.2⟩
        obtain ⟨a', code', hm, hk', ho⟩ := this.1 h
        refine ⟨a', code', hm, by simp; omega, fun u s' => ?_⟩
        rw [ho u s']
        congr 1; simp; omega
      · exact ⟨fun h => by simp [fail_, INC, ERR] at h, fun _ => rfl⟩
    · have : a = T := by have := hl.2.2.1; omega
      subst this
      simp only [List.cons_append]
      rw [absorb_done, absorb_done]
      refine ⟨fun h => ?_, fun _ => rfl⟩
      exfalso
      rcases hl.1 with rfl | rfl | rfl
      · rw [finish2] at h; split at h <;> simp [fail_, INC, ERR] at h; omega
      · rw [finish3] at h; split at h <;> simp [fail_, INC, ERR] at h; omega
      · rw [finish4] at h; split at h <;> simp [fail_, INC, ERR] at h; omega

/-- States reachable by `mbrtowc` from the initial one. -/
def Valid (st : Nat) : Prop := st = 0 ∨ ∃ T a code, Mid st T a code

theorem Mid.loop {st T a code : Nat} (h : Mid st T a code) : Loop T a code := by
  obtain ⟨_, h1, h2, h3, h4, h5⟩ := h
  exact ⟨by omega, h3, by omega, h5⟩

theorem obs_absorb_append (s T a code : Nat) (k : Nat) (c1 c2 : List Nat) (h1 : Bytes c1) (h2 : Bytes c2)
    (hl : Loop T a code) (hk : k + (T - a) < 50) (h2' : c2 ≠ []) :
    ((absorb s T a code k c1).ret = INC → Valid (absorb s T a code k c1).state ∧
      ∀ u, obs u (absorb s T a code k (c1 ++ c2)) =
        obs (u + k + c1.length) (mbrtowc (absorb s T a code k c1).state c2)) ∧
    ((absorb s T a code k c1).ret ≠ INC →
      absorb s T a code k (c1 ++ c2) = absorb s T a code k c1) := by
  have := absorb_append s T c1 c2 h1 h2 a code k hl hk
  refine ⟨fun h => ?_, this.2⟩
  obtain ⟨a', code', hm, _, ho⟩ := this.1 h
  refine ⟨Or.inr ⟨T, a', code', hm⟩, fun u => ?_⟩
  rw [mbrtowc_mid _ _ _ _ _ h2' hm, ho u]

theorem mbrtowc_append (st : Nat) (c1 c2 : List Nat) (hv : Valid st) (h1 : Bytes c1) (h2 : Bytes c2)
    (hc1 : c1 ≠ []) (hc2 : c2 ≠ []) :
    ((mbrtowc st c1).ret = INC → Valid (mbrtowc st c1).state ∧
      ∀ u, obs u (mbrtowc st (c1 ++ c2)) = obs (u + c1.length) (mbrtowc (mbrtowc st c1).state c2)) ∧
    ((mbrtowc st c1).ret ≠ INC → mbrtowc st (c1 ++ c2) = mbrtowc st c1) := by
  rcases hv with rfl | ⟨T, a, code, hm⟩
  · cases c1 with
    | nil => exact absurd rfl hc1
    | cons lead rest =>
      have hlead : lead < 256 := h1 lead (by simp)
      have hrest : Bytes rest := fun x hx => h1 x (by simp [hx])
      simp only [List.cons_append]
      rw [mbrtowc_zero lead rest hlead, mbrtowc_zero lead (rest ++ c2) hlead]
      have fin : ∀ T code, Loop T 1 code →
          ((absorb 0 T 1 code 1 rest).ret = INC → Valid (absorb 0 T 1 code 1 rest).state ∧
            ∀ u, obs u (absorb 0 T 1 code 1 (rest ++ c2)) =
              obs (u + (lead :: rest).length) (mbrtowc (absorb 0 T 1 code 1 rest).state c2)) ∧
          ((absorb 0 T 1 code 1 rest).ret ≠ INC →
            absorb 0 T 1 code 1 (rest ++ c2) = absorb 0 T 1 code 1 rest) := by
        intro T code hl
        have := obs_absorb_append 0 T 1 code 1 rest c2 hrest h2 hl (by have := hl.1; omega) hc2
        refine ⟨fun h => ⟨(this.1 h).1, fun u => ?_⟩, this.2⟩
        rw [(this.1 h).2 u]
        congr 1; simp; omega
      split
      · refine ⟨fun h => ?_, fun _ => rfl⟩
        simp only [INC] at h
        split at h <;> omega
      · split
        · exact ⟨fun h => by simp [fail_, INC, ERR] at h, fun _ => rfl⟩
        · split
          · exact fin 2 _ ⟨by omega, by omega, by omega, by simp; omega⟩
          · split
            · exact fin 3 _ ⟨by omega, by omega, by omega, by simp; omega⟩
            · exact fin 4 _ ⟨by omega, by omega, by omega, by simp; omega⟩
  · rw [mbrtowc_mid _ _ _ _ _ hc1 hm, mbrtowc_mid _ _ _ _ _ (by simp [hc1]) hm]
    have := obs_absorb_append st T a code 0 c1 c2 h1 h2 hm.loop (by have := hm.loop.1; omega) hc2
    refine ⟨fun h => ⟨(this.1 h).1, fun u => ?_⟩, this.2⟩
    rw [(this.1 h).2 u]
    congr 1

/-- A program that feeds the decoder chunk by chunk: it calls `mbrtowc` on the next chunk as long
as the answer is `(size_t)-2`. -/
def feed (st u : Nat) : List (List Nat) → Obs
  | [] => .more st
  | c :: cs =>
    let o := mbrtowc st c
    if o.ret = INC then feed o.state (u + c.length) cs else obs u o

theorem feed_eq (cs : List (List Nat)) : ∀ (st u : Nat), Valid st → (∀ c ∈ cs, Bytes c) →
    feed st u cs = feed st u [cs.flatten] := by
  induction cs with
  | nil => intro st u _ _; simp [feed, mbrtowc_nil]
  | cons c cs ih =>
    intro st u hv hb
    have hbc : Bytes c := hb c (by simp)
    have hbf : Bytes cs.flatten := by
      intro x hx
      obtain ⟨l, hl, hx⟩ := List.mem_flatten.1 hx
      exact hb l (by simp [hl]) x hx
    by_cases hc : c = []
    · subst hc
      simp only [List.flatten_cons, List.nil_append, feed, mbrtowc_nil, if_true, List.length_nil, Nat.add_zero]
      rw [ih st u hv (fun c hc => hb c (by simp [hc]))]
      rfl
    · by_cases hf : cs.flatten = []
      · simp only [List.flatten_cons, hf, List.append_nil]
        show (if (mbrtowc st c).ret = INC then _ else _) = (if (mbrtowc st c).ret = INC then _ else _)
        by_cases hi : (mbrtowc st c).ret = INC
        · simp only [hi, if_true, feed]
          have hvalid : Valid (mbrtowc st c).state :=
            ((mbrtowc_append st c [0] hv hbc (by intro x hx; simp at hx; omega) hc (by simp)).1 hi).1
          rw [ih _ _ hvalid (fun c hc => hb c (by simp [hc])), hf]
          simp [feed, mbrtowc_nil]
        · simp only [hi, if_false]
      · have key := mbrtowc_append st c cs.flatten hv hbc hbf hc hf
        show (if (mbrtowc st c).ret = INC then _ else _) = feed st u [c ++ cs.flatten]
        have e : ∀ st u p, feed st u [p] = obs u (mbrtowc st p) := by
          intro st u p
          simp only [feed]
          by_cases h : (mbrtowc st p).ret = INC <;> simp [h, obs]
        rw [e]
        by_cases hi : (mbrtowc st c).ret = INC
        · obtain ⟨hv', ho⟩ := key.1 hi
          rw [if_pos hi, ih _ _ hv' (fun c hc => hb c (by simp [hc])), e, ho u]
        · rw [if_neg hi, key.2 hi]

end Verif.Utf
