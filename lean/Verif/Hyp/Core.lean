import Verif.Hyp.Real
import Verif.Hyp.Ops
import Verif.Decimal.Near

/-! # The sum of two squares and its root, in a wider format -/

namespace Verif.Hyp
open Verif.Float Verif.Math
open Verif.Cplx
open Verif.Decimal (mid nearest_iff mid_form)

/-- `G` is wide enough for the squares of the numbers of `F`, which keep `2^k` units of `G`. -/
structure Wide (F G : Fmt) (D k : Nat) : Prop where
  of : F.Ok
  og : G.Ok
  unit : G.unit = F.unit + D
  sq : D + D = G.unit + k
  two : 2 ≤ k
  four : 5 ≤ D
  bits : 2 * (F.f + 2) ≤ G.f + 1
  more : F.f + 2 + 5 ≤ G.f + 1
  room : 16 * (F.mag F.inf * F.mag F.inf * 2 ^ k) ≤ G.mag G.inf
  room' : 16 * (F.mag F.inf * 2 ^ D) ≤ G.mag G.inf
  root : G.f + 2 * G.bias + G.unit ≤ 2 ^ G.w + 2 ^ G.w

variable {F G : Fmt} {D k : Nat}

theorem Wide.pattern (W : Wide F G D k) {m e : Nat} (hm : m ≤ 2 ^ (F.f + 2)) (hM : m * 2 ^ e ≤ 4 * F.mag F.inf) :
    ∃ p, p < G.inf ∧ G.mag p = m * 2 ^ e * 2 ^ (D - 1) := by
  have h4 := W.four
  have hD : 2 ^ D = 2 * 2 ^ (D - 1) := by rw [Nat.mul_comm, ← Nat.pow_succ]; congr 1; omega
  have hI := Fmt.mag_pos (F := F) (Fmt.inf_pos W.of)
  have hb := W.more
  have hr := W.room'
  have hpos : 0 < F.mag F.inf * 2 ^ D := Nat.mul_pos hI (Nat.two_pow_pos _)
  have hle := Nat.mul_le_mul_right (2 ^ (D - 1)) hM
  rw [Nat.mul_assoc, ← Nat.pow_add]
  refine rep_lt (F := G) (Nat.le_trans hm (Nat.pow_le_pow_right (by omega) (by omega))) ?_
  rw [Nat.pow_add, ← Nat.mul_assoc]
  rw [show 4 * F.mag F.inf * 2 ^ (D - 1) = 2 * (F.mag F.inf * (2 * 2 ^ (D - 1))) by ring, ← hD] at hle
  omega

theorem Wide.square (W : Wide F G D k) {m e : Nat} (hm : m ≤ 2 ^ (F.f + 2)) (hM : m * 2 ^ e ≤ 4 * F.mag F.inf) :
    ∃ p, p < G.inf ∧ G.mag p = (m * 2 ^ e) * (m * 2 ^ e) * 2 ^ (k - 2) := by
  have h2 := W.two
  have hk : 2 ^ k = 4 * 2 ^ (k - 2) := by
    rw [show (4 : Nat) = 2 ^ 2 from rfl, ← Nat.pow_add]; congr 1; omega
  have hI := Fmt.mag_pos (F := F) (Fmt.inf_pos W.of)
  have hr := W.room
  have hpos : 0 < F.mag F.inf * F.mag F.inf * 2 ^ k := Nat.mul_pos (Nat.mul_pos hI hI) (Nat.two_pow_pos _)
  have hle := Nat.mul_le_mul_right (2 ^ (k - 2)) (Nat.mul_le_mul hM hM)
  have e1 : m * 2 ^ e * (m * 2 ^ e) * 2 ^ (k - 2) = (m * m) * 2 ^ (e + e + (k - 2)) := by
    rw [Nat.pow_add, Nat.pow_add]; ring
  rw [show 4 * F.mag F.inf * (4 * F.mag F.inf) * 2 ^ (k - 2) = 4 * (F.mag F.inf * F.mag F.inf * (4 * 2 ^ (k - 2))) by ring, ← hk, e1] at hle
  rw [e1]
  refine rep_lt (F := G) ?_ (by omega)
  refine Nat.le_trans (Nat.mul_le_mul hm hm) ?_
  rw [← Nat.pow_add]
  have := W.bits
  exact Nat.pow_le_pow_right (by omega) (by omega)

/-- The rounded sum of squares. -/
theorem Wide.sum_fin (W : Wide F G D k) {S : Nat} (hS : S ≤ 2 * (F.mag F.inf * F.mag F.inf)) :
    S * 2 ^ k < G.mag G.inf ∧ G.rnd (S * 2 ^ k) 1 < G.inf := by
  have hI := Fmt.mag_pos (F := F) (Fmt.inf_pos W.of)
  have hr := W.room
  have hpos : 0 < F.mag F.inf * F.mag F.inf * 2 ^ k := Nat.mul_pos (Nat.mul_pos hI hI) (Nat.two_pow_pos _)
  have hle := Nat.mul_le_mul_right (2 ^ k) hS
  rw [Nat.mul_assoc] at hle
  refine ⟨by omega, ?_⟩
  have hform : F.mag F.inf * F.mag F.inf * 2 ^ k = 1 * 2 ^ (F.f + 2 * F.bias + (F.f + 2 * F.bias) + k) := by
    rw [Fmt.mag_inf W.of, ← Nat.pow_add, ← Nat.pow_add, Nat.one_mul]
  obtain ⟨p, hp, e⟩ := rep_lt (F := G) (m := 2) (e := F.f + 2 * F.bias + (F.f + 2 * F.bias) + k) (by
      rw [Nat.pow_succ]; have := Nat.two_pow_pos G.f; omega) (by
      rw [Nat.one_mul] at hform
      rw [← hform]; omega)
  rw [Nat.one_mul] at hform
  have := rnd_mono (F := G) (den := 1) (by omega) (show S * 2 ^ k ≤ G.mag p by rw [e, ← hform]; omega)
  rw [rnd_mag (Nat.le_of_lt hp)] at this
  omega

/-- The rounded root of the rounded sum of squares. -/
def rootOf (G : Fmt) (k S : Nat) : Nat := rootPat G (G.mag (G.rnd (S * 2 ^ k) 1) * 2 ^ G.unit)

theorem Wide.root_le (W : Wide F G D k) {S p : Nat} (hS : S ≤ 2 * (F.mag F.inf * F.mag F.inf))
    (h : G.mag (G.rnd (S * 2 ^ k) 1) * 2 ^ G.unit ≤ G.mag p * G.mag p) : rootOf G k S ≤ p :=
  Hyp.root_le (root_fin W.og W.root (W.sum_fin hS).2) h

theorem Wide.le_root (W : Wide F G D k) {S p : Nat} (hS : S ≤ 2 * (F.mag F.inf * F.mag F.inf))
    (h : G.mag p * G.mag p ≤ G.mag (G.rnd (S * 2 ^ k) 1) * 2 ^ G.unit) : p ≤ rootOf G k S :=
  Hyp.le_root (root_fin W.og W.root (W.sum_fin hS).2) h

theorem Wide.exps (W : Wide F G D k) (M : Nat) : M * 2 ^ (D - 1) * (M * 2 ^ (D - 1)) = M * M * 2 ^ (k - 2) * 2 ^ G.unit := by
  have h1 := W.sq
  have h2 := W.two
  have h4 := W.four
  rw [Nat.mul_assoc (M * M), ← Nat.pow_add, show k - 2 + G.unit = (D - 1) + (D - 1) by omega, Nat.pow_add]
  ring

theorem Wide.four_k (W : Wide F G D k) (S : Nat) : S * 2 ^ k = 4 * S * 2 ^ (k - 2) := by
  have h2 := W.two
  have hk : 2 ^ k = 4 * 2 ^ (k - 2) := by
    rw [show (4 : Nat) = 2 ^ 2 from rfl, ← Nat.pow_add]; congr 1; omega
  rw [hk]; ring

/-- Comparisons of the sum of squares with the square of a short number carry over to the rounded root. -/
theorem Wide.upper (W : Wide F G D k) {S m e : Nat} (hS : S ≤ 2 * (F.mag F.inf * F.mag F.inf)) (hm : m ≤ 2 ^ (F.f + 2))
    (hM : m * 2 ^ e ≤ 2 * F.mag F.inf) (h : 4 * S ≤ m * 2 ^ e * (m * 2 ^ e)) : G.mag (rootOf G k S) ≤ m * 2 ^ e * 2 ^ (D - 1) := by
  obtain ⟨p, hp, ep⟩ := W.pattern hm (Nat.le_trans hM (by omega))
  obtain ⟨q, hq, eq⟩ := W.square hm (Nat.le_trans hM (by omega))
  have h1 := rnd_mono (F := G) (den := 1) (by omega) (show S * 2 ^ k ≤ G.mag q by
    rw [W.four_k, eq]; exact Nat.mul_le_mul_right _ h)
  rw [rnd_mag (Nat.le_of_lt hq)] at h1
  rw [← ep]
  refine G.mag_mono (W.root_le hS ?_)
  rw [ep, W.exps, ← eq]
  exact Nat.mul_le_mul_right _ (G.mag_mono h1)

theorem Wide.lower (W : Wide F G D k) {S m e : Nat} (hS : S ≤ 2 * (F.mag F.inf * F.mag F.inf)) (hm : m ≤ 2 ^ (F.f + 2))
    (hM : m * 2 ^ e ≤ 2 * F.mag F.inf) (h : m * 2 ^ e * (m * 2 ^ e) ≤ 4 * S) : m * 2 ^ e * 2 ^ (D - 1) ≤ G.mag (rootOf G k S) := by
  obtain ⟨p, hp, ep⟩ := W.pattern hm (Nat.le_trans hM (by omega))
  obtain ⟨q, hq, eq⟩ := W.square hm (Nat.le_trans hM (by omega))
  have h1 := rnd_mono (F := G) (den := 1) (by omega) (show G.mag q ≤ S * 2 ^ k by
    rw [W.four_k, eq]; exact Nat.mul_le_mul_right _ h)
  rw [rnd_mag (Nat.le_of_lt hq)] at h1
  rw [← ep]
  refine G.mag_mono (W.le_root hS ?_)
  rw [ep, W.exps, ← eq]
  exact Nat.mul_le_mul_right _ (G.mag_mono h1)

/-- The same for midpoints between neighbours. -/
theorem Wide.mid_lt (W : Wide F G D k) {S n : Nat} (hS : S ≤ 2 * (F.mag F.inf * F.mag F.inf)) (hn : n + 1 ≤ F.inf) :
    (G.mag (rootOf G k S) < mid F n * 2 ^ (D - 1) → 4 * S < mid F n * mid F n) ∧
    (mid F n * 2 ^ (D - 1) < G.mag (rootOf G k S) → mid F n * mid F n < 4 * S) := by
  obtain ⟨m, e, hm, -, hml⟩ := mid_form F n
  have hI : mid F n ≤ 2 * F.mag F.inf := by
    have h1 := F.mag_mono hn
    have h2 := F.mag_mono (show n ≤ F.inf by omega)
    unfold mid; omega
  rw [hm] at hI ⊢
  refine ⟨fun h => ?_, fun h => ?_⟩
  · by_contra hc
    have := W.lower hS (Nat.le_of_lt hml) hI (by omega)
    omega
  · by_contra hc
    have := W.upper hS (Nat.le_of_lt hml) hI (by omega)
    omega

/-- A root rounded to the narrow format: the result is right unless the root lies on a midpoint; then it has to be right. -/
theorem Wide.finish (W : Wide F G D k) {S r : Nat} (hS : S ≤ 2 * (F.mag F.inf * F.mag F.inf))
    (hr : Nearest F (G.mag (rootOf G k S) * 2 ^ F.unit) (2 ^ G.unit) r)
    (hhi : r < F.inf → G.mag (rootOf G k S) = mid F r * 2 ^ (D - 1) → 4 * S ≤ mid F r * mid F r)
    (hlo : 0 < r → G.mag (rootOf G k S) = mid F (r - 1) * 2 ^ (D - 1) → mid F (r - 1) * mid F (r - 1) ≤ 4 * S) : NearSq F S r := by
  rw [nearest_iff (Nat.two_pow_pos _)] at hr
  obtain ⟨h0, h1, h2⟩ := hr
  have h4 := W.four
  have hscale : 2 ^ G.unit = 2 * (2 ^ F.unit * 2 ^ (D - 1)) := by
    rw [← Nat.pow_add, Nat.mul_comm 2, ← Nat.pow_succ, W.unit]; congr 1; omega
  have hpos := Nat.two_pow_pos F.unit
  have cmp : ∀ R M : Nat, (2 * (R * 2 ^ F.unit) ≤ 2 ^ G.unit * M ↔ R ≤ M * 2 ^ (D - 1)) ∧ (2 ^ G.unit * M ≤ 2 * (R * 2 ^ F.unit) ↔ M * 2 ^ (D - 1) ≤ R) := by
    intro R M
    have e : 2 ^ G.unit * M = 2 * (M * 2 ^ (D - 1) * 2 ^ F.unit) := by rw [hscale]; ring
    rw [e]
    refine ⟨⟨fun h => Nat.le_of_mul_le_mul_right (by omega) hpos, fun h => ?_⟩, ⟨fun h => Nat.le_of_mul_le_mul_right (by omega) hpos, fun h => ?_⟩⟩
    · have := Nat.mul_le_mul_right (2 ^ F.unit) h; omega
    · have := Nat.mul_le_mul_right (2 ^ F.unit) h; omega
  refine ⟨h0, fun hi => ?_, fun lo => ?_⟩
  · have g := h1 r hi rfl
    rw [(cmp _ _).1] at g
    have t := (W.mid_lt hS hi).1
    rcases Nat.lt_or_eq_of_le g.1 with q | q
    · have := t q
      unfold mid at this
      exact ⟨by omega, fun e => by omega⟩
    · refine ⟨hhi hi q, fun _ => g.2 ?_⟩
      exact Nat.le_antisymm ((cmp _ _).1.2 (Nat.le_of_eq q)) ((cmp _ _).2.2 (Nat.le_of_eq q.symm))
  · have g := h2 (r - 1) (by omega) (by omega)
    rw [(cmp _ _).2] at g
    have t := (W.mid_lt hS (n := r - 1) (by omega)).2
    have er : r - 1 + 1 = r := by omega
    rcases Nat.lt_or_eq_of_le g.1 with q | q
    · have := t q
      unfold mid at this
      rw [er] at this
      exact ⟨by omega, fun e => by omega⟩
    · have := hlo lo q.symm
      unfold mid at this
      rw [er] at this
      refine ⟨this, fun _ => g.2 ?_⟩
      exact Nat.le_antisymm ((cmp _ _).1.2 (Nat.le_of_eq q.symm)) ((cmp _ _).2.2 (Nat.le_of_eq q))

/-- A midpoint has many trailing zeros. -/
theorem trailing {n r j : Nat} (hj : F.f + 2 + j ≤ G.f + 1) (hr : 2 ^ G.f ≤ r) (h : G.mag r = mid F n * 2 ^ (D - 1)) : r % 2 ^ j = 0 := by
  obtain ⟨m, e, hm, -, hml⟩ := mid_form F n
  rw [hm, Nat.mul_assoc, ← Nat.pow_add, G.mag_normal hr] at h
  generalize r / 2 ^ G.f - 1 = E at h
  generalize e + (D - 1) = c at h
  have hc : E + j ≤ c := by
    by_contra hcon
    have h1 : m * 2 ^ c < 2 ^ (F.f + 2) * 2 ^ c := Nat.mul_lt_mul_of_pos_right hml (Nat.two_pow_pos _)
    have h2 : 2 ^ G.f * 2 ^ E ≤ (2 ^ G.f + r % 2 ^ G.f) * 2 ^ E := Nat.mul_le_mul_right _ (by omega)
    rw [h, ← Nat.pow_add] at h2
    rw [← Nat.pow_add] at h1
    have := (Nat.pow_lt_pow_iff_right (a := 2) (by omega)).1 (Nat.lt_of_le_of_lt h2 h1)
    omega
  obtain ⟨i, rfl⟩ : ∃ i, c = E + j + i := ⟨c - (E + j), by omega⟩
  have h3 : 2 ^ G.f + r % 2 ^ G.f = 2 ^ j * (m * 2 ^ i) := by
    refine Nat.eq_of_mul_eq_mul_right (Nat.two_pow_pos E) ?_
    rw [h, Nat.pow_add, Nat.pow_add]; ring
  have hd : 2 ^ j ∣ 2 ^ G.f := Nat.pow_dvd_pow 2 (by omega)
  have hdvd : 2 ^ j ∣ r := by
    have h5 : 2 ^ j ∣ r % 2 ^ G.f := (Nat.dvd_add_right hd).1 ⟨_, h3⟩
    have := Nat.div_add_mod r (2 ^ G.f)
    rw [← this]
    exact Nat.dvd_add (Nat.dvd_trans hd ⟨_, rfl⟩) h5
  exact Nat.mod_eq_zero_of_dvd hdvd

end Verif.Hyp
