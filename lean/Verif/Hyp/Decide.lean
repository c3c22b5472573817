import Verif.Hyp.Lemmas

/-! # The exact decision of `hypotf`, continued -/

namespace Verif.Hyp
open Verif.Float Verif.Math
open Verif.Cplx
open Verif.Decimal (mid nearest_iff mid_form)

variable {F G : Fmt} {D k : Nat}

theorem mid_bounds {n : Nat} : 2 * F.mag n < mid F n ∧ mid F n < 2 * F.mag (n + 1) := by
  have := F.mag_strictMono (show n < n + 1 by omega)
  unfold mid; omega

theorem sq_mono {a b : Nat} : a < b ↔ a * a < b * b := Nat.mul_self_lt_mul_self_iff.symm

/-- The result is the pattern itself. -/
theorem near_self {S r : Nat} (h : r ≤ F.inf) (hi : r < F.inf → 4 * S ≤ mid F r * mid F r ∧ (4 * S = mid F r * mid F r → r % 2 = 0))
    (lo : 0 < r → mid F (r - 1) * mid F (r - 1) ≤ 4 * S ∧ (mid F (r - 1) * mid F (r - 1) = 4 * S → r % 2 = 0)) : NearSq F S r := by
  refine ⟨h, hi, fun h0 => ?_⟩
  have := lo h0
  unfold mid at this
  rw [show r - 1 + 1 = r by omega] at this
  exact this

/-- The root is near the pattern, and above it. -/
theorem near_up (W : Wide F G D k) {S r : Nat} (hS : S ≤ 2 * (F.mag F.inf * F.mag F.inf)) (hr : r < F.inf)
    (hhi : G.mag (rootOf G k S) ≤ mid F r * 2 ^ (D - 1)) (hQ : F.mag r * F.mag r < S) :
    (4 * S < mid F r * mid F r → NearSq F S r) ∧ (mid F r * mid F r < 4 * S → NearSq F S (r + 1)) ∧
    (mid F r * mid F r = 4 * S → NearSq F S (if r % 2 = 1 then r + 1 else r)) := by
  have b := mid_bounds (F := F) (n := r)
  have c := mid_bounds (F := F) (n := r + 1)
  have hlo : 0 < r → mid F (r - 1) * mid F (r - 1) < 4 * S := by
    intro h0
    have d := mid_bounds (F := F) (n := r - 1)
    rw [show r - 1 + 1 = r by omega] at d
    have := sq_mono.1 d.2
    have e : 2 * F.mag r * (2 * F.mag r) = 4 * (F.mag r * F.mag r) := by ring
    omega
  have hup : r + 1 < F.inf → 4 * S < mid F (r + 1) * mid F (r + 1) := by
    intro h
    refine (W.mid_lt hS (n := r + 1) h).1 (Nat.lt_of_le_of_lt hhi ?_)
    exact Nat.mul_lt_mul_of_pos_right (by omega) (Nat.two_pow_pos _)
  have self : 4 * S ≤ mid F r * mid F r → (4 * S = mid F r * mid F r → r % 2 = 0) → NearSq F S r := fun h1 h2 =>
    near_self (Nat.le_of_lt hr) (fun _ => ⟨h1, h2⟩) fun h0 => ⟨Nat.le_of_lt (hlo h0), fun e => by have := hlo h0; omega⟩
  have succ : mid F r * mid F r ≤ 4 * S → (mid F r * mid F r = 4 * S → (r + 1) % 2 = 0) → NearSq F S (r + 1) := fun h1 h2 =>
    near_self hr (fun h => ⟨Nat.le_of_lt (hup h), fun e => by have := hup h; omega⟩) fun _ => ⟨h1, h2⟩
  refine ⟨fun h => self (Nat.le_of_lt h) (fun e => by omega), fun h => succ (Nat.le_of_lt h) (fun e => by omega), fun h => ?_⟩
  by_cases ho : r % 2 = 1
  · rw [if_pos ho]; exact succ (Nat.le_of_eq h) (fun _ => by omega)
  · rw [if_neg ho]; exact self (Nat.le_of_eq h.symm) (fun _ => by omega)

/-- The root is near the pattern, and below it. -/
theorem near_down (W : Wide F G D k) {S r : Nat} (hS : S ≤ 2 * (F.mag F.inf * F.mag F.inf)) (hr : r < F.inf) (h0 : 0 < r)
    (hlo : mid F (r - 1) * 2 ^ (D - 1) ≤ G.mag (rootOf G k S)) (hQ : S < F.mag r * F.mag r) :
    (4 * S < mid F (r - 1) * mid F (r - 1) → NearSq F S (r - 1)) ∧ (mid F (r - 1) * mid F (r - 1) < 4 * S → NearSq F S r) ∧
    (mid F (r - 1) * mid F (r - 1) = 4 * S → NearSq F S (if r % 2 = 1 then r - 1 else r)) := by
  have b := mid_bounds (F := F) (n := r)
  have hhi : 4 * S < mid F r * mid F r := by
    have := sq_mono.1 b.1
    have e : 2 * F.mag r * (2 * F.mag r) = 4 * (F.mag r * F.mag r) := by ring
    omega
  have hdn : 0 < r - 1 → mid F (r - 1 - 1) * mid F (r - 1 - 1) < 4 * S := by
    intro h
    have c := mid_bounds (F := F) (n := r - 1 - 1)
    rw [show r - 1 - 1 + 1 = r - 1 by omega] at c
    have d := mid_bounds (F := F) (n := r - 1)
    refine (W.mid_lt hS (n := r - 1 - 1) (by omega)).2 (Nat.lt_of_lt_of_le ?_ hlo)
    exact Nat.mul_lt_mul_of_pos_right (by omega) (Nat.two_pow_pos _)
  have self : mid F (r - 1) * mid F (r - 1) ≤ 4 * S → (mid F (r - 1) * mid F (r - 1) = 4 * S → r % 2 = 0) → NearSq F S r := fun h1 h2 =>
    near_self (Nat.le_of_lt hr) (fun _ => ⟨Nat.le_of_lt hhi, fun e => by omega⟩) fun _ => ⟨h1, h2⟩
  have pred : 4 * S ≤ mid F (r - 1) * mid F (r - 1) → (4 * S = mid F (r - 1) * mid F (r - 1) → (r - 1) % 2 = 0) → NearSq F S (r - 1) := fun h1 h2 =>
    near_self (by omega) (fun h => ⟨h1, h2⟩) fun h => ⟨Nat.le_of_lt (hdn h), fun e => by have := hdn h; omega⟩
  refine ⟨fun h => pred (Nat.le_of_lt h) (fun e => by omega), fun h => self (Nat.le_of_lt h) (fun e => by omega), fun h => ?_⟩
  by_cases ho : r % 2 = 1
  · rw [if_pos ho]; exact pred (Nat.le_of_eq h.symm) (fun _ => by omega)
  · rw [if_neg ho]; exact self (Nat.le_of_eq h) (fun _ => by omega)

/-- What `Nearest` says about the rounded root. -/
theorem Wide.mids (W : Wide F G D k) {S r : Nat} (hr : Nearest F (G.mag (rootOf G k S) * 2 ^ F.unit) (2 ^ G.unit) r) :
    r ≤ F.inf ∧ (r < F.inf → G.mag (rootOf G k S) ≤ mid F r * 2 ^ (D - 1)) ∧ (0 < r → mid F (r - 1) * 2 ^ (D - 1) ≤ G.mag (rootOf G k S)) := by
  rw [nearest_iff (Nat.two_pow_pos _)] at hr
  obtain ⟨h0, h1, h2⟩ := hr
  have h4 := W.four
  have hscale : 2 ^ G.unit = 2 * (2 ^ F.unit * 2 ^ (D - 1)) := by
    rw [← Nat.pow_add, Nat.mul_comm 2, ← Nat.pow_succ, W.unit]; congr 1; omega
  have hpos := Nat.two_pow_pos F.unit
  refine ⟨h0, fun h => ?_, fun h => ?_⟩
  · have := (h1 r h rfl).1
    rw [show 2 ^ G.unit * mid F r = 2 * (mid F r * 2 ^ (D - 1) * 2 ^ F.unit) by rw [hscale]; ring] at this
    exact Nat.le_of_mul_le_mul_right (by omega) hpos
  · have := (h2 (r - 1) (by omega) (by omega)).1
    rw [show 2 ^ G.unit * mid F (r - 1) = 2 * (mid F (r - 1) * 2 ^ (D - 1) * 2 ^ F.unit) by rw [hscale]; ring] at this
    exact Nat.le_of_mul_le_mul_right (by omega) hpos

/-- Comparisons with zero. -/
theorem zero_tests {t : Nat} (h : b64.abs t ≤ b64.inf) :
    (b64.lt 0 t = true ↔ 0 < b64.val t) ∧ (b64.le 0 t = true ↔ 0 ≤ b64.val t) ∧ (b64.eq t 0 = true ↔ b64.val t = 0) := by
  have z : b64.abs 0 ≤ b64.inf := by rw [Fmt.abs_of_lt Fmt.signBit_pos]; omega
  have v : b64.val 0 = 0 := by rw [Fmt.val_of_lt Fmt.signBit_pos, b64.mag_zero]; rfl
  rw [Fmt.lt_iff z h, Fmt.le_iff z h, Fmt.eq_iff h z, v]
  exact ⟨Iff.rfl, Iff.rfl, Iff.rfl⟩

theorem eq_max {r : Nat} (hr : r < b32.inf) : b32.eq r 0x7F7FFFFF = true ↔ r = 0x7F7FFFFF := by
  have h1 : 0x7F7FFFFF < b32.inf := by decide +kernel
  have hil := Fmt.inf_lt (F := b32)
  rw [Fmt.eq_iff (by rw [Fmt.abs_of_lt (by omega)]; omega) (by rw [Fmt.abs_of_lt (by omega)]; omega), Fmt.val_of_lt (by omega), Fmt.val_of_lt (by omega)]
  constructor
  · intro h
    have : b32.mag r = b32.mag 0x7F7FFFFF := by exact_mod_cast h
    rcases Nat.lt_trichotomy r 0x7F7FFFFF with c | c | c
    · have := b32.mag_strictMono c; omega
    · exact c
    · have := b32.mag_strictMono c; omega
  · intro h; rw [h]

theorem decide32_spec (W : Wide b32 b64 D k) {S bb ss rf : Nat} (hba : ss ≤ bb) (eS : b64.mag bb + b64.mag ss = S * 2 ^ k)
    (hS : S ≤ 2 * (b32.mag b32.inf * b32.mag b32.inf)) (hn : Nearest b32 (b64.mag (rootOf b64 k S) * 2 ^ b32.unit) (2 ^ b64.unit) rf)
    (hrf : rf < b32.inf) (h0 : 0 < rf) (h1 : rf = 1 → S = 2) (hm : b64.mag 0x47EFFFFFF0000000 = mid b32 0x7F7FFFFF * 2 ^ (D - 1)) :
    ∃ r, decide32 bb ss (b64.add bb ss) rf = some r ∧ NearSq b32 S r := by
  obtain ⟨-, hhi, hlo⟩ := W.mids hn
  replace hhi := hhi hrf
  replace hlo := hlo h0
  obtain ⟨hfin, hr2⟩ := W.sum_fin hS
  obtain ⟨ha, e, he, hef, hev⟩ := fast2sum W.og hba (by rw [eS]; exact hfin) (by rw [eS]; exact hr2)
  rw [eS] at ha hev
  rw [ha] at he
  have hev' : b64.val e = (S * 2 ^ k : Nat) - (b64.mag (b64.rnd (S * 2 ^ k) 1) : Int) := by
    rw [hev, ← eS, Int.natCast_add]
  obtain ⟨q1, q2⟩ := square_up W hrf
  have hP : 0 < 2 ^ k := Nat.two_pow_pos k
  have hk2 := W.two
  have hk : 2 ^ k = 4 * 2 ^ (k - 2) := by
    have := W.four_k 1
    rwa [Nat.one_mul, Nat.mul_one] at this
  have q2' : b64.mag (b64.mul (up rf) (up rf)) = 2 * b32.mag rf * (2 * b32.mag rf) * 2 ^ (k - 2) := by rw [q2, hk]; ring
  have hone : rf = 1 → b32.mag rf = 1 ∧ b64.mag (b64.rnd (S * 2 ^ k) 1) = 2 * 2 ^ k := by
    intro h
    have hS2 := h1 h
    have i1 : b32.mag 1 = 1 := Fmt.mag_tiny (by have := Nat.two_pow_pos (b32.f + 1); omega)
    have hb := W.og.f
    obtain ⟨p, hp, ep⟩ := rep_lt (F := b64) (m := 2) (e := k) (by
      rw [Nat.pow_succ]; have := Nat.two_pow_pos b64.f; omega) (by have := hfin; rwa [hS2] at this)
    refine ⟨by rw [h, i1], ?_⟩
    rw [hS2, ← ep, rnd_mag (Nat.le_of_lt hp)]
  have hclose : b64.mag (b64.rnd (S * 2 ^ k) 1) ≤ 2 * (b32.mag rf * b32.mag rf * 2 ^ k) ∧ b32.mag rf * b32.mag rf * 2 ^ k ≤ 2 * b64.mag (b64.rnd (S * 2 ^ k) 1) := by
    by_cases h : rf = 1
    · obtain ⟨a, b⟩ := hone h
      rw [a, b]; omega
    · exact W.close hS hrf (by omega) hhi hlo
  obtain ⟨t1, t2, t3⟩ := W.residual hS q1 q2' hef hev' (by rw [q2]; exact hclose.1) (by rw [q2]; exact hclose.2)
  have f4 : 2 * b32.mag rf * (2 * b32.mag rf) = 4 * (b32.mag rf * b32.mag rf) := by ring
  rw [f4] at t2 t3
  have bup := mid_bounds (F := b32) (n := rf)
  have bdn := mid_bounds (F := b32) (n := rf - 1)
  rw [show rf - 1 + 1 = rf by omega] at bdn
  -- the square of the upper midpoint is close to the sum
  have cup : b32.mag rf * b32.mag rf < S → b64.mag (b64.rnd (S * 2 ^ k) 1) ≤ 2 * (mid b32 rf * mid b32 rf * 2 ^ (k - 2)) ∧
      mid b32 rf * mid b32 rf * 2 ^ (k - 2) ≤ 2 * b64.mag (b64.rnd (S * 2 ^ k) 1) := by
    intro hc
    constructor
    · have s1 := sq_mono.1 bup.1
      rw [f4] at s1
      have := Nat.mul_le_mul_right (2 ^ (k - 2)) (Nat.le_of_lt s1)
      have e2 : b32.mag rf * b32.mag rf * 2 ^ k = 4 * (b32.mag rf * b32.mag rf) * 2 ^ (k - 2) := by rw [hk]; ring
      omega
    · by_cases h : rf = 1
      · obtain ⟨a, b⟩ := hone h
        have i1 : b32.mag 2 = 2 := Fmt.mag_tiny (by have := W.of.f; have := Nat.pow_le_pow_right (n := 2) (by omega) (show 1 ≤ b32.f by omega); rw [Nat.pow_succ]; omega)
        have i2 : mid b32 rf = 3 := by unfold mid; rw [a, h, i1]
        rw [b, i2, hk]; omega
      · obtain ⟨n1, -⟩ := neighbours W.of (show 2 ≤ rf by omega)
        have s1 := Nat.mul_le_mul n1 n1
        have e1 : 2 * mid b32 rf * (2 * mid b32 rf) = 4 * (mid b32 rf * mid b32 rf) := by ring
        have e2 : 5 * b32.mag rf * (5 * b32.mag rf) = 25 * (b32.mag rf * b32.mag rf) := by ring
        rw [e1, e2] at s1
        have s2 : 4 * (mid b32 rf * mid b32 rf) ≤ 32 * (b32.mag rf * b32.mag rf) := by omega
        have s3 := Nat.mul_le_mul_right (2 ^ (k - 2)) s2
        have s4 : b32.mag rf * b32.mag rf * 2 ^ k ≤ b64.mag (b64.rnd (S * 2 ^ k) 1) := by
          rw [← q2]
          have := rnd_mono (F := b64) (den := 1) (by omega) (show b64.mag (b64.mul (up rf) (up rf)) ≤ S * 2 ^ k by
            rw [q2]; exact Nat.mul_le_mul_right _ (Nat.le_of_lt hc))
          rw [rnd_mag (Nat.le_of_lt q1)] at this
          exact b64.mag_mono this
        have e3 : b32.mag rf * b32.mag rf * 2 ^ k = 4 * ((b32.mag rf * b32.mag rf) * 2 ^ (k - 2)) := by rw [hk]; ring
        rw [Nat.mul_assoc, Nat.mul_assoc 32] at s3
        omega
  have cdn : rf ≠ 1 → S < b32.mag rf * b32.mag rf → b64.mag (b64.rnd (S * 2 ^ k) 1) ≤ 2 * (mid b32 (rf - 1) * mid b32 (rf - 1) * 2 ^ (k - 2)) ∧
      mid b32 (rf - 1) * mid b32 (rf - 1) * 2 ^ (k - 2) ≤ 2 * b64.mag (b64.rnd (S * 2 ^ k) 1) := by
    intro h hc
    constructor
    · obtain ⟨-, n1⟩ := neighbours W.of (show 2 ≤ rf by omega)
      have s1 := Nat.mul_le_mul n1 n1
      have e1 : 2 * mid b32 (rf - 1) * (2 * mid b32 (rf - 1)) = 4 * (mid b32 (rf - 1) * mid b32 (rf - 1)) := by ring
      have e2 : 3 * b32.mag rf * (3 * b32.mag rf) = 9 * (b32.mag rf * b32.mag rf) := by ring
      rw [e1, e2] at s1
      have s2 : 8 * (b32.mag rf * b32.mag rf) ≤ 4 * (mid b32 (rf - 1) * mid b32 (rf - 1)) := by omega
      have s3 := Nat.mul_le_mul_right (2 ^ (k - 2)) s2
      have s4 : b64.mag (b64.rnd (S * 2 ^ k) 1) ≤ b32.mag rf * b32.mag rf * 2 ^ k := by
        rw [← q2]
        have := rnd_mono (F := b64) (den := 1) (by omega) (show S * 2 ^ k ≤ b64.mag (b64.mul (up rf) (up rf)) by
          rw [q2]; exact Nat.mul_le_mul_right _ (Nat.le_of_lt hc))
        rw [rnd_mag (Nat.le_of_lt q1)] at this
        exact b64.mag_mono this
      have e3 : b32.mag rf * b32.mag rf * 2 ^ k = 4 * ((b32.mag rf * b32.mag rf) * 2 ^ (k - 2)) := by rw [hk]; ring
      rw [Nat.mul_assoc, Nat.mul_assoc 4] at s3
      omega
    · have s1 := sq_mono.1 bdn.2
      rw [f4] at s1
      have := Nat.mul_le_mul_right (2 ^ (k - 2)) (Nat.le_of_lt s1)
      have e2 : b32.mag rf * b32.mag rf * 2 ^ k = 4 * (b32.mag rf * b32.mag rf) * 2 ^ (k - 2) := by rw [hk]; ring
      omega
  unfold decide32
  rw [ha]
  simp only [he]
  obtain ⟨z1, -, z3⟩ := zero_tests t1
  rw [t2] at z1
  rw [t3] at z3
  generalize b64.add (b64.sub (b64.rnd (S * 2 ^ k) 1) (b64.mul (up rf) (up rf))) e = resid at z1 z3 ⊢
  by_cases hz : b32.mag rf * b32.mag rf = S
  · rw [if_pos (z3.2 (by omega))]
    refine ⟨rf, rfl, near_self (Nat.le_of_lt hrf) (fun _ => ?_) (fun _ => ?_)⟩
    · have := sq_mono.1 bup.1
      rw [f4] at this
      exact ⟨by omega, fun e => by omega⟩
    · have := sq_mono.1 bdn.2
      rw [f4] at this
      exact ⟨by omega, fun e => by omega⟩
  rw [if_neg (fun h => hz (by have := z3.1 h; omega))]
  rcases Nat.lt_or_gt_of_ne hz with hc | hc
  · -- above
    have hpos := z1.2 (by omega)
    obtain ⟨u1, u2, u3⟩ := near_up W hS hrf hhi hc
    obtain ⟨c1, c2⟩ := cup hc
    by_cases hmax : rf = 0x7F7FFFFF
    · rw [if_pos ⟨(eq_max hrf).2 hmax, hpos⟩]
      obtain ⟨μ, E, hμ, -, hμl⟩ := mid_form b32 rf
      have hI : mid b32 rf ≤ 2 * b32.mag b32.inf := by
        have h2 := b32.mag_strictMono hrf
        have h3 := b32.mag_mono (show rf + 1 ≤ b32.inf from hrf)
        unfold mid; omega
      rw [← hmax, hμ] at hm
      rw [hμ] at hI
      obtain ⟨s1, s2⟩ := square_mul W (Nat.le_of_lt hμl) (Nat.le_trans hI (by omega)) (a := 0x47EFFFFFF0000000) (by decide +kernel) hm
      rw [← hμ] at s2
      obtain ⟨v1, v2, v3⟩ := W.residual hS s1 s2 hef hev' (by rw [s2]; exact c1) (by rw [s2]; exact c2)
      obtain ⟨-, w2, -⟩ := zero_tests v1
      have hsucc : rf + 1 = b32.inf := by rw [hmax]; decide +kernel
      by_cases hle : mid b32 rf * mid b32 rf ≤ 4 * S
      · refine ⟨b32.inf, ?_, ?_⟩
        · rw [if_pos]
          rw [w2]
          rcases Nat.lt_or_eq_of_le hle with q | q
          · exact Int.le_of_lt (v2.2 q)
          · exact Int.le_of_eq (v3.2 q).symm
        · rcases Nat.lt_or_eq_of_le hle with q | q
          · rw [← hsucc]; exact u2 q
          · have := u3 q
            rwa [if_pos (by rw [hmax]), hsucc] at this
      · refine ⟨rf, ?_, u1 (by omega)⟩
        rw [if_neg]
        rw [w2]
        intro hcon
        rcases Int.lt_or_eq_of_le hcon with q | q
        · have := v2.1 q; omega
        · have := v3.1 q.symm; omega
    · rw [if_neg (fun h => hmax ((eq_max hrf).1 h.1)), if_pos hpos, next_up h0 hrf]
      have hb : rf + 1 < b32.inf := by
        have : b32.inf = 0x7F7FFFFF + 1 := by decide +kernel
        omega
      obtain ⟨s1, s2⟩ := middle W hb (a := rf) (b := rf + 1) (Or.inl ⟨rfl, rfl⟩)
      obtain ⟨v1, v2, v3⟩ := W.residual hS s1 s2 hef hev' (by rw [s2]; exact c1) (by rw [s2]; exact c2)
      obtain ⟨w1, -, w3⟩ := zero_tests v1
      rw [v2] at w1
      rw [v3] at w3
      simp only [Option.bind_eq_bind, Option.bind_some]
      generalize b64.add (b64.sub (b64.rnd (S * 2 ^ k) 1) (b64.mul (b64.mul 0x3FE0000000000000 (b64.add (up rf) (up (rf + 1)))) (b64.mul 0x3FE0000000000000 (b64.add (up rf) (up (rf + 1)))))) e = rm at w1 w3 ⊢
      rcases Nat.lt_trichotomy (mid b32 rf * mid b32 rf) (4 * S) with q | q | q
      · rw [if_neg (fun h => by have := w3.1 h; omega), hpos, if_pos (w1.2 q)]
        exact ⟨_, rfl, u2 q⟩
      · rw [if_pos (w3.2 q)]
        exact ⟨_, rfl, u3 q⟩
      · rw [if_neg (fun h => by have := w3.1 h; omega), hpos, if_neg (fun h => by have := w1.1 h; omega)]
        exact ⟨_, rfl, u1 q⟩
  · -- below
    have hneg : ¬ b64.lt 0 resid = true := fun h => by have := z1.1 h; omega
    have hne1 : rf ≠ 1 := by
      intro h
      have := h1 h
      rw [(hone h).1] at hc
      omega
    obtain ⟨u1, u2, u3⟩ := near_down W hS hrf h0 hlo hc
    obtain ⟨c1, c2⟩ := cdn hne1 hc
    rw [if_neg (fun h => hneg h.2), if_neg hneg, next_down (by omega) hrf]
    obtain ⟨s1, s2⟩ := middle W (n := rf - 1) (by omega) (a := rf) (b := rf - 1) (Or.inr ⟨by omega, rfl⟩)
    obtain ⟨v1, v2, v3⟩ := W.residual hS s1 s2 hef hev' (by rw [s2]; exact c1) (by rw [s2]; exact c2)
    obtain ⟨w1, -, w3⟩ := zero_tests v1
    rw [v2] at w1
    rw [v3] at w3
    simp only [Option.bind_eq_bind, Option.bind_some]
    generalize b64.add (b64.sub (b64.rnd (S * 2 ^ k) 1) (b64.mul (b64.mul 0x3FE0000000000000 (b64.add (up rf) (up (rf - 1)))) (b64.mul 0x3FE0000000000000 (b64.add (up rf) (up (rf - 1)))))) e = rm at w1 w3 ⊢
    have hf : b64.lt 0 resid = false := by simpa using hneg
    rw [hf]
    rcases Nat.lt_trichotomy (mid b32 (rf - 1) * mid b32 (rf - 1)) (4 * S) with q | q | q
    · rw [if_neg (fun h => by have := w3.1 h; omega), if_neg (by rw [w1.2 q]; decide)]
      exact ⟨_, rfl, u2 q⟩
    · rw [if_pos (w3.2 q)]
      exact ⟨_, rfl, u3 q⟩
    · rw [if_neg (fun h => by have := w3.1 h; omega), if_pos (by
        cases hh : b64.lt 0 rm
        · rfl
        · have := w1.1 hh; omega)]
      exact ⟨_, rfl, u1 q⟩

end Verif.Hyp
