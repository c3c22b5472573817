import Verif.Wide.Lemmas

namespace Verif.Wide

/-! ## wcstok -/

theorem wcstok_spec (L : Nat) (m : Mem) (q : Nat) (seps : List Int) (hq : WStr m q seps)
    (hqL : q + seps.length < L) (s : Nat) (bs : List Int) (h : WStr m s bs) (hL : s + bs.length < L)
    (string state : Option Nat) (hstr : string = some s ∨ string = none ∧ state = some s) :
    (bs.dropWhile (· ∈ seps) = [] → wcstok L m string q state = some (m, none, none)) ∧
    (∀ c r, bs.dropWhile (· ∈ seps) = c :: r → r.dropWhile (· ∉ seps) = [] →
      wcstok L m string q state = some (m, none, some (s + (bs.takeWhile (· ∈ seps)).length))) ∧
    (∀ c r e r', bs.dropWhile (· ∈ seps) = c :: r → r.dropWhile (· ∉ seps) = e :: r' →
      wcstok L m string q state =
        some (put m (s + (bs.takeWhile (· ∈ seps)).length + (r.takeWhile (· ∉ seps)).length + 1) 0,
          some (s + (bs.takeWhile (· ∈ seps)).length + (r.takeWhile (· ∉ seps)).length + 2),
          some (s + (bs.takeWhile (· ∈ seps)).length))) := by
  have hst : wcstok L m string q state = wcstok L m (some s) q state := by
    rcases hstr with rfl | ⟨rfl, rfl⟩ <;> rfl
  rw [hst]
  unfold wcstok
  simp only [wcsspn, spanFrom_true L m q seps hq hqL s bs h hL, Option.map_some, Option.bind_eq_bind, Option.bind_some,
    Nat.add_sub_cancel_left]
  have hlen : (bs.takeWhile (· ∈ seps)).length + (bs.dropWhile (· ∈ seps)).length = bs.length := by
    rw [← List.length_append, List.takeWhile_append_dropWhile]
  have hdrop : bs.drop (bs.takeWhile (· ∈ seps)).length = bs.dropWhile (· ∈ seps) := by
    conv => lhs; arg 2; rw [← List.takeWhile_append_dropWhile (p := (fun x => decide (x ∈ seps))) (l := bs)]
    rw [List.drop_left]
  have hd := h.drop (bs.takeWhile (· ∈ seps)).length (by omega)
  rw [hdrop] at hd
  generalize (bs.takeWhile (· ∈ seps)).length = k at *
  refine ⟨fun hr => ?_, ?_⟩
  · rw [hr] at hd
    rw [if_pos (by omega), if_pos hd.nil]
  have key : ∀ c r, bs.dropWhile (· ∈ seps) = c :: r → c ∉ seps := by
    intro c r hr
    have := List.head_dropWhile_not (fun x => decide (x ∈ seps)) (l := bs) (by rw [hr]; simp)
    simpa [hr] using this
  have main : ∀ c r, bs.dropWhile (· ∈ seps) = c :: r → s + k < L ∧ m (s + k) ≠ 0 ∧ r.length < bs.length - k ∧ k ≤ bs.length ∧
      wcspbrk L m (s + k) q = some (if m (s + k + ((r.takeWhile (· ∉ seps)).length + 1)) ≠ 0
        then some (s + k + ((r.takeWhile (· ∉ seps)).length + 1)) else none) ∧
      WStr m (s + k + ((r.takeWhile (· ∉ seps)).length + 1)) (r.dropWhile (· ∉ seps)) ∧
      (r.takeWhile (· ∉ seps)).length + (r.dropWhile (· ∉ seps)).length = r.length := by
    intro c r hr
    have hcs := key c r hr
    rw [hr] at hd hlen
    simp only [List.length_cons] at hlen
    obtain ⟨hc, hc0⟩ := hd.head
    have hlen2 : (r.takeWhile (· ∉ seps)).length + (r.dropWhile (· ∉ seps)).length = r.length := by
      rw [← List.length_append, List.takeWhile_append_dropWhile]
    have hdrop2 : r.drop (r.takeWhile (· ∉ seps)).length = r.dropWhile (· ∉ seps) := by
      conv => lhs; arg 2; rw [← List.takeWhile_append_dropWhile (p := (fun x => decide (x ∉ seps))) (l := r)]
      rw [List.drop_left]
    have hd2 := hd.drop ((r.takeWhile (· ∉ seps)).length + 1) (by simp only [List.length_cons]; omega)
    rw [List.drop_succ_cons, hdrop2] at hd2
    refine ⟨by omega, by rw [hc]; exact hc0, by omega, by omega, ?_, hd2, hlen2⟩
    simp only [wcspbrk, spanFrom_false L m q seps hq hqL (s + k) (c :: r) hd (by simp; omega), Option.map_some]
    rw [List.takeWhile_cons_of_pos (by simpa using hcs)]
    simp only [List.length_cons]
  refine ⟨fun c r hr hr2 => ?_, fun c r e r' hr hr2 => ?_⟩
  · obtain ⟨h1, h2, h3, h4, h5, h6, h7⟩ := main c r hr
    rw [hr2] at h6
    rw [if_pos h1, if_neg h2, h5, if_neg (by simpa using h6.nil)]
    rfl
  · obtain ⟨h1, h2, h3, h4, h5, h6, h7⟩ := main c r hr
    rw [hr2] at h6 h7
    simp only [List.length_cons] at h7
    obtain ⟨he, he0⟩ := h6.head
    rw [if_pos h1, if_neg h2, h5, if_pos (by rw [he]; exact he0)]
    simp only [Option.bind_some]
    rw [if_pos (by omega)]
    rfl

theorem tokens_nil (seps bs : List Int) (h : bs.dropWhile (· ∈ seps) = []) : tokens seps bs = [] := by
  unfold tokens
  split
  · rfl
  · next c r h' => rw [h] at h'; simp at h'

theorem tokens_cons (seps bs : List Int) (c : Int) (r : List Int) (h : bs.dropWhile (· ∈ seps) = c :: r) :
    tokens seps bs = (c :: r.takeWhile (· ∉ seps)) :: tokens seps (r.dropWhile (· ∉ seps)) := by
  rw [tokens]
  split
  · next h' => rw [h] at h'; simp at h'
  · next c' r' h' =>
    rw [h] at h'
    injection h' with h1 h2
    subst h1 h2
    rfl

theorem tokens_sep (seps : List Int) (e : Int) (r : List Int) (h : e ∈ seps) : tokens seps (e :: r) = tokens seps r := by
  have hd : (e :: r).dropWhile (· ∈ seps) = r.dropWhile (· ∈ seps) := List.dropWhile_cons_of_pos (by simpa using h)
  cases hr : r.dropWhile (· ∈ seps) with
  | nil => rw [tokens_nil seps r hr, tokens_nil seps _ (by rw [hd, hr])]
  | cons c r' => rw [tokens_cons seps r c r' hr, tokens_cons seps _ c r' (by rw [hd, hr])]

theorem wcstokCalls_none (L : Nat) (m : Mem) (q n : Nat) :
    wcstokCalls L m none q none n = some (m, List.replicate n none) := by
  induction n with
  | zero => rfl
  | succ n ih =>
    unfold wcstokCalls
    simp only [wcstok, Option.bind_eq_bind, Option.bind_some, ih]
    rfl

/-- The results of `n` calls, token by token. -/
theorem wcstokCalls_spec (L : Nat) (q : Nat) (seps : List Int) (n : Nat) (m : Mem) (hq : WStr m q seps)
    (hqL : q + seps.length < L) (s : Nat) (bs : List Int) (h : WStr m s bs) (hL : s + bs.length < L)
    (hov : q + seps.length < s ∨ s + bs.length < q)
    (string state : Option Nat) (hstr : string = some s ∨ string = none ∧ state = some s) :
    ∃ m' rs, wcstokCalls L m string q state n = some (m', rs) ∧ rs.length = n ∧
      (∀ i, (hi : i < rs.length) → match (tokens seps bs)[i]? with
        | some t => ∃ p, rs[i] = some p ∧ s ≤ p ∧ p + t.length ≤ s + bs.length ∧ WStr m' p t
        | none => rs[i] = none) ∧
      (∀ a, ¬ (s ≤ a ∧ a < s + bs.length) → m' a = m a) := by
  induction n generalizing m s bs string state with
  | zero => exact ⟨m, [], rfl, rfl, fun i hi => by simp at hi, fun a _ => rfl⟩
  | succ n ih =>
    unfold wcstokCalls
    obtain ⟨hs1, hs2, hs3⟩ := wcstok_spec L m q seps hq hqL s bs h hL string state hstr
    have hlen : (bs.takeWhile (· ∈ seps)).length + (bs.dropWhile (· ∈ seps)).length = bs.length := by
      rw [← List.length_append, List.takeWhile_append_dropWhile]
    have hdrop : bs.drop (bs.takeWhile (· ∈ seps)).length = bs.dropWhile (· ∈ seps) := by
      conv => lhs; arg 2; rw [← List.takeWhile_append_dropWhile (p := (fun x => decide (x ∈ seps))) (l := bs)]
      rw [List.drop_left]
    have hd := h.drop (bs.takeWhile (· ∈ seps)).length (by omega)
    rw [hdrop] at hd
    cases hr : bs.dropWhile (· ∈ seps) with
    | nil =>
      rw [hs1 hr]
      simp only [Option.bind_eq_bind, Option.bind_some, wcstokCalls_none]
      refine ⟨m, _, rfl, by simp, fun i hi => ?_, fun a _ => rfl⟩
      rw [tokens_nil seps bs hr]
      cases i <;> simp
    | cons c r =>
      rw [hr] at hd hlen
      generalize (bs.takeWhile (· ∈ seps)).length = k at *
      simp only [List.length_cons] at hlen
      have hlen2 : (r.takeWhile (· ∉ seps)).length + (r.dropWhile (· ∉ seps)).length = r.length := by
        rw [← List.length_append, List.takeWhile_append_dropWhile]
      have hdrop2 : r.drop (r.takeWhile (· ∉ seps)).length = r.dropWhile (· ∉ seps) := by
        conv => lhs; arg 2; rw [← List.takeWhile_append_dropWhile (p := (fun x => decide (x ∉ seps))) (l := r)]
        rw [List.drop_left]
      have htake2 : r.take (r.takeWhile (· ∉ seps)).length = r.takeWhile (· ∉ seps) := by
        conv => lhs; arg 2; rw [← List.takeWhile_append_dropWhile (p := (fun x => decide (x ∉ seps))) (l := r)]
        rw [List.take_left]
      have hd2 := hd.drop ((r.takeWhile (· ∉ seps)).length + 1) (by simp only [List.length_cons]; omega)
      rw [List.drop_succ_cons, hdrop2] at hd2
      rw [tokens_cons seps bs c r hr]
      cases hr2 : r.dropWhile (· ∉ seps) with
      | nil =>
        rw [hs2 c r hr hr2]
        simp only [Option.bind_eq_bind, Option.bind_some, wcstokCalls_none]
        refine ⟨m, _, rfl, by simp, fun i hi => ?_, fun a _ => rfl⟩
        have htw : r.takeWhile (· ∉ seps) = r := by
          have := List.takeWhile_append_dropWhile (p := (fun x => decide (x ∉ seps))) (l := r)
          rw [hr2, List.append_nil] at this
          exact this
        cases i with
        | zero =>
          simp only [List.getElem?_cons_zero, List.getElem_cons_zero]
          refine ⟨s + k, rfl, by omega, ?_, ?_⟩
          · rw [htw]; simp; omega
          · rw [htw]; exact hd
        | succ i =>
          rw [tokens_nil seps [] rfl]
          simp
      | cons e r' =>
        rw [hs3 c r e r' hr hr2]
        have hes : e ∈ seps := by
          have := List.head_dropWhile_not (fun x => decide (x ∉ seps)) (l := r) (by rw [hr2]; simp)
          simp only [hr2, List.head_cons, decide_eq_false_iff_not, Classical.not_not] at this
          exact this
        rw [hr2] at hd2 hlen2
        simp only [List.length_cons] at hlen2
        generalize hj : (r.takeWhile (· ∉ seps)).length = j at *
        have hd3 := hd2.tail
        have hfr : ∀ a, a ≠ s + k + j + 1 → put m (s + k + j + 1) 0 a = m a := fun a ha => by rw [put_get, if_neg ha]
        obtain ⟨m', rs, e1, e2, e3, e4⟩ := ih (put m (s + k + j + 1) 0) 
          (hq.congr fun a h1 h2 => hfr a (by omega)) (s + k + j + 2) r'
          ((show s + k + (j + 1) + 1 = s + k + j + 2 by omega) ▸ hd3.congr fun a h1 h2 => hfr a (by omega)) (by omega) (by omega)
          none (some (s + k + j + 2)) (.inr ⟨rfl, rfl⟩)
        simp only [Option.bind_eq_bind, Option.bind_some, e1]
        refine ⟨m', some (s + k) :: rs, rfl, by simp [e2], fun i hi => ?_, fun a ha => ?_⟩
        · cases i with
          | zero =>
            simp only [List.getElem?_cons_zero, List.getElem_cons_zero]
            refine ⟨s + k, rfl, by omega, by simp only [List.length_cons, hj]; omega, ?_⟩
            refine ⟨fun b hb => hd.1 b ?_, fun i hi => ?_⟩
            · rw [← htake2] at hb
              rcases List.mem_cons.mp hb with rfl | hb
              · simp
              · exact List.mem_cons_of_mem _ (List.mem_of_mem_take hb)
            · simp only [List.length_append, List.length_cons, List.length_nil, hj] at hi
              rw [e4 _ (by omega)]
              by_cases hij : i = j + 1
              · subst hij
                rw [put_get, if_pos (by omega)]
                have : ((c :: r.takeWhile (· ∉ seps)) ++ [0])[j + 1]'(by simp only [List.length_append, List.length_cons, List.length_nil, hj]; omega) = 0 := by
                  rw [List.getElem_append_right (by simp only [List.length_cons, hj]; omega)]
                  simp
                exact this.symm
              · rw [hfr _ (by omega), hd.get i (by simp; omega)]
                rw [List.getElem_append_left (by simp only [List.length_cons, hj]; omega)]
                cases i with
                | zero => simp
                | succ i =>
                  simp only [List.getElem_cons_succ]
                  have : (r.takeWhile (· ∉ seps))[i]'(by omega) = (r.take j)[i]'(by simp; omega) := by
                    congr 1; exact htake2.symm
                  rw [this, List.getElem_take]
          | succ i =>
            simp only [List.getElem?_cons_succ, List.getElem_cons_succ]
            have := e3 i (by simpa using hi)
            rw [tokens_sep seps e r' hes]
            cases ht : (tokens seps r')[i]? with
            | none => rw [ht] at this; exact this
            | some t =>
              rw [ht] at this
              obtain ⟨p, hp1, hp2, hp3, hp4⟩ := this
              exact ⟨p, hp1, by omega, by omega, hp4⟩
        · rw [e4 a (by omega), hfr a (by omega)]

end Verif.Wide
