import Verif.Str.Lemmas

namespace Verif.Str

theorem CStr.drop {m : Mem} {s : Nat} {bs : List Nat} (h : CStr m s bs) (k : Nat) (hk : k ≤ bs.length) :
    CStr m (s + k) (bs.drop k) := by
  refine ⟨fun b hb => h.1 b (List.mem_of_mem_drop hb), fun i hi => ?_⟩
  simp only [List.length_append, List.length_drop, List.length_cons, List.length_nil] at hi
  by_cases h1 : i < bs.length - k
  · rw [List.getElem_append_left (by simpa using h1), List.getElem_drop, Nat.add_assoc]
    exact h.get (k + i) (by omega)
  · have : s + k + i = s + bs.length := by omega
    rw [this, h.end_zero, List.getElem_append_right (by simpa using h1)]
    simp

theorem idxOf?_some {l : List Nat} {c i : Nat} (h : l.idxOf? c = some i) :
    ∃ hi : i < l.length, l[i] = c ∧ ∀ j (hj : j < i), l[j] ≠ c := by
  unfold List.idxOf? at h
  rw [List.findIdx?_eq_some_iff_getElem] at h
  obtain ⟨hi, h1, h2⟩ := h
  exact ⟨hi, by simpa using h1, fun j hj => by simpa using h2 j hj⟩

theorem idxOf?_none {l : List Nat} {c : Nat} (h : l.idxOf? c = none) : c ∉ l := by
  unfold List.idxOf? at h
  rw [List.findIdx?_eq_none_iff] at h
  intro hc
  simpa using h c hc

theorem strrchrLoop_spec (L : Nat) (h8 : L % 8 = 0) (m : Mem) (hm : ∀ a, m a < 256) (c : Int) (hc : uchar c ≠ 0)
    (fuel s : Nat) (bs : List Nat) (found : Option Nat) (h : CStr m s bs) (hL : s + bs.length < L) (hf : bs.length < fuel) :
    ∃ r, strrchrLoop L m c fuel s found = some r ∧ ((uchar c ∉ bs ∧ r = found) ∨
      ∃ i, ∃ hi : i < bs.length, bs[i] = uchar c ∧ (∀ j, i < j → ∀ hj : j < bs.length, bs[j] ≠ uchar c) ∧ r = some (s + i)) := by
  induction fuel generalizing s bs found with
  | zero => omega
  | succ fuel ih =>
    unfold strrchrLoop
    rw [strchr_spec L h8 m hm s bs h hL c]
    cases hi : (bs ++ [0]).idxOf? (uchar c) with
    | none =>
      have := idxOf?_none hi
      exact ⟨found, rfl, .inl ⟨fun hx => this (by simp [hx]), rfl⟩⟩
    | some i =>
      obtain ⟨hlt, h1, h2⟩ := idxOf?_some hi
      have hib : i < bs.length := by
        simp only [List.length_append, List.length_cons, List.length_nil] at hlt
        rcases Nat.lt_or_ge i bs.length with h' | h'
        · exact h'
        · exfalso
          rw [List.getElem_append_right h'] at h1
          simp at h1
          exact hc h1.symm
      rw [List.getElem_append_left hib] at h1
      have hd := h.drop (i + 1) (by omega)
      obtain ⟨r, e, hr⟩ := ih (s + (i + 1)) (bs.drop (i + 1)) (some (s + i)) hd (by simp; omega) (by simp; omega)
      refine ⟨r, e, .inr ?_⟩
      rcases hr with ⟨hr1, hr2⟩ | ⟨k, hk, hr1, hr2, hr3⟩
      · refine ⟨i, hib, h1, fun j hj1 hj2 hx => hr1 ?_, hr2⟩
        rw [← hx]
        have : bs[j] = (bs.drop (i + 1))[j - (i + 1)]'(by simp; omega) := by
          rw [List.getElem_drop]; congr 1; omega
        rw [this]
        exact List.getElem_mem _
      · simp only [List.length_drop] at hk
        refine ⟨i + 1 + k, by omega, ?_, fun j hj1 hj2 => ?_, by rw [hr3]; congr 1; omega⟩
        · rw [List.getElem_drop] at hr1; exact hr1
        · have := hr2 (j - (i + 1)) (by omega) (by simp; omega)
          rw [List.getElem_drop] at this
          simpa [show i + 1 + (j - (i + 1)) = j by omega] using this

/-! ## Spans -/

theorem spnFind_spec (L : Nat) (m : Mem) (c a : Nat) (as : List Nat) (h : CStr m a as) (hL : a + as.length < L) :
    spnFind L m c a = some (decide (c ∈ as)) := by
  induction as generalizing a with
  | nil =>
    unfold spnFind
    simp only [List.length_nil, Nat.add_zero] at hL
    rw [dif_pos hL, if_pos h.nil]; simp
  | cons b as ih =>
    obtain ⟨hb, hb0⟩ := h.head
    simp only [List.length_cons] at hL
    unfold spnFind
    rw [dif_pos (by omega), if_neg (by rw [hb]; exact hb0), hb]
    by_cases hbc : b = c
    · rw [if_pos hbc]; simp [hbc]
    · rw [if_neg hbc, ih (a + 1) h.tail (by omega)]
      have : ¬ c = b := fun e => hbc e.symm
      simp [this]

theorem strspnFrom_spec (L : Nat) (m : Mem) (q : Nat) (as : List Nat) (hq : CStr m q as) (hqL : q + as.length < L)
    (s : Nat) (bs : List Nat) (h : CStr m s bs) (hL : s + bs.length < L) :
    strspnFrom L m q s = some (s + (bs.takeWhile (· ∈ as)).length) := by
  induction bs generalizing s with
  | nil =>
    unfold strspnFrom
    simp only [List.length_nil, Nat.add_zero] at hL
    rw [dif_pos hL, h.nil, spnFind_spec L m 0 q as hq hqL]
    have : 0 ∉ as := fun h0 => hq.1 0 h0 rfl
    simp [this]
  | cons b bs ih =>
    obtain ⟨hb, hb0⟩ := h.head
    simp only [List.length_cons] at hL
    unfold strspnFrom
    rw [dif_pos (by omega), hb, spnFind_spec L m b q as hq hqL]
    by_cases hbc : b ∈ as
    · rw [decide_eq_true hbc]
      simp only
      rw [ih (s + 1) h.tail (by omega), List.takeWhile_cons_of_pos (by simpa using hbc)]
      simp; omega
    · rw [decide_eq_false hbc, List.takeWhile_cons_of_neg (by simpa using hbc)]
      simp

theorem uchar_of_lt (b : Nat) (hb : b < 256) : uchar (b : Int) = b := by unfold uchar; omega

theorem strcspnFrom_spec (L : Nat) (h8 : L % 8 = 0) (m : Mem) (hm : ∀ a, m a < 256) (q : Nat) (rs : List Nat) (hq : CStr m q rs)
    (hqL : q + rs.length < L) (s : Nat) (bs : List Nat) (h : CStr m s bs) (hL : s + bs.length < L) :
    strcspnFrom L m q s = some (s + (bs.takeWhile (· ∉ rs)).length) := by
  induction bs generalizing s with
  | nil =>
    unfold strcspnFrom
    simp only [List.length_nil, Nat.add_zero] at hL
    rw [dif_pos hL, strchr_spec L h8 m hm q rs hq hqL, uchar_of_lt _ (hm s), h.nil]
    cases hi : (rs ++ [0]).idxOf? 0 with
    | none => exact absurd (by simp) (idxOf?_none hi)
    | some i => simp
  | cons b bs ih =>
    obtain ⟨hb, hb0⟩ := h.head
    simp only [List.length_cons] at hL
    unfold strcspnFrom
    rw [dif_pos (by omega), strchr_spec L h8 m hm q rs hq hqL, uchar_of_lt _ (hm s), hb]
    by_cases hbc : b ∈ rs
    · rw [List.takeWhile_cons_of_neg (by simpa using hbc)]
      cases hi : (rs ++ [0]).idxOf? b with
      | none => exact absurd (by simp [hbc]) (idxOf?_none hi)
      | some i => simp
    · rw [List.takeWhile_cons_of_pos (by simpa using hbc)]
      cases hi : (rs ++ [0]).idxOf? b with
      | none =>
        simp only [Option.map_none]
        rw [ih (s + 1) h.tail (by omega)]
        simp; omega
      | some i =>
        exfalso
        obtain ⟨hlt, h1, _⟩ := idxOf?_some hi
        have : b ∈ rs ++ [0] := h1 ▸ List.getElem_mem _
        simp [hbc, hb0] at this

/-! ## strtok_r -/

theorem strtokR_spec (L : Nat) (h8 : L % 8 = 0) (m : Mem) (hm : ∀ a, m a < 256) (q : Nat) (seps : List Nat) (hq : CStr m q seps)
    (hqL : q + seps.length < L) (s : Nat) (bs : List Nat) (h : CStr m s bs) (hL : s + bs.length < L)
    (string state : Option Nat) (hstr : string = some s ∨ string = none ∧ state = some s) :
    (bs.dropWhile (· ∈ seps) = [] → strtokR L m string q state = some (m, none, none)) ∧
    (∀ c r, bs.dropWhile (· ∈ seps) = c :: r → r.dropWhile (· ∉ seps) = [] →
      strtokR L m string q state = some (m, none, some (s + (bs.takeWhile (· ∈ seps)).length))) ∧
    (∀ c r e r', bs.dropWhile (· ∈ seps) = c :: r → r.dropWhile (· ∉ seps) = e :: r' →
      strtokR L m string q state =
        some (put m (s + (bs.takeWhile (· ∈ seps)).length + (r.takeWhile (· ∉ seps)).length + 1) 0,
          some (s + (bs.takeWhile (· ∈ seps)).length + (r.takeWhile (· ∉ seps)).length + 2),
          some (s + (bs.takeWhile (· ∈ seps)).length))) := by
  have hst : strtokR L m string q state = strtokR L m (some s) q state := by
    rcases hstr with rfl | ⟨rfl, rfl⟩ <;> rfl
  rw [hst]
  unfold strtokR
  simp only [strspn, strspnFrom_spec L m q seps hq hqL s bs h hL, Option.map_some, Option.bind_eq_bind, Option.bind_some,
    Nat.add_sub_cancel_left]
  have hlen : (bs.takeWhile (· ∈ seps)).length + (bs.dropWhile (· ∈ seps)).length = bs.length := by
    rw [← List.length_append, List.takeWhile_append_dropWhile]
  have hdrop : bs.drop (bs.takeWhile (· ∈ seps)).length = bs.dropWhile (· ∈ seps) := by
    conv => lhs; arg 2; rw [← List.takeWhile_append_dropWhile (p := (fun x => decide (x ∈ seps))) (l := bs)]
    rw [List.drop_left]
  have hd := h.drop (bs.takeWhile (· ∈ seps)).length (by omega)
  rw [hdrop] at hd
  generalize (bs.takeWhile (· ∈ seps)).length = k at *
  refine ⟨fun hr => ?_, ?_⟩
  · rw [hr] at hd
    rw [if_pos (by omega), if_pos hd.nil]
  have key : ∀ c r, bs.dropWhile (· ∈ seps) = c :: r → c ∉ seps := by
    intro c r hr
    have := List.head_dropWhile_not (fun x => decide (x ∈ seps)) (l := bs) (by rw [hr]; simp)
    simpa [hr] using this
  have main : ∀ c r, bs.dropWhile (· ∈ seps) = c :: r → s + k < L ∧ m (s + k) ≠ 0 ∧ r.length < bs.length - k ∧ k ≤ bs.length ∧
      strpbrk L m (s + k) q = some (if m (s + k + ((r.takeWhile (· ∉ seps)).length + 1)) ≠ 0
        then some (s + k + ((r.takeWhile (· ∉ seps)).length + 1)) else none) ∧
      CStr m (s + k + ((r.takeWhile (· ∉ seps)).length + 1)) (r.dropWhile (· ∉ seps)) ∧
      (r.takeWhile (· ∉ seps)).length + (r.dropWhile (· ∉ seps)).length = r.length := by
    intro c r hr
    have hcs := key c r hr
    rw [hr] at hd hlen
    simp only [List.length_cons] at hlen
    obtain ⟨hc, hc0⟩ := hd.head
    have hlen2 : (r.takeWhile (· ∉ seps)).length + (r.dropWhile (· ∉ seps)).length = r.length := by
      rw [← List.length_append, List.takeWhile_append_dropWhile]
    have hdrop2 : r.drop (r.takeWhile (· ∉ seps)).length = r.dropWhile (· ∉ seps) := by
      conv => lhs; arg 2; rw [← List.takeWhile_append_dropWhile (p := (fun x => decide (x ∉ seps))) (l := r)]
      rw [List.drop_left]
    have hd2 := hd.drop ((r.takeWhile (· ∉ seps)).length + 1) (by simp only [List.length_cons]; omega)
    rw [List.drop_succ_cons, hdrop2] at hd2
    refine ⟨by omega, by rw [hc]; exact hc0, by omega, by omega, ?_, hd2, hlen2⟩
    simp only [strpbrk, strcspnFrom_spec L h8 m hm q seps hq hqL (s + k) (c :: r) hd (by simp; omega), Option.map_some]
    rw [List.takeWhile_cons_of_pos (by simpa using hcs)]
    simp only [List.length_cons]
  refine ⟨fun c r hr hr2 => ?_, fun c r e r' hr hr2 => ?_⟩
  · obtain ⟨h1, h2, h3, h4, h5, h6, h7⟩ := main c r hr
    rw [hr2] at h6
    rw [if_pos h1, if_neg h2, h5, if_neg (by simpa using h6.nil)]
    rfl
  · obtain ⟨h1, h2, h3, h4, h5, h6, h7⟩ := main c r hr
    rw [hr2] at h6 h7
    simp only [List.length_cons] at h7
    obtain ⟨he, he0⟩ := h6.head
    rw [if_pos h1, if_neg h2, h5, if_pos (by rw [he]; exact he0)]
    simp only [Option.bind_some]
    rw [if_pos (by omega)]
    rfl

theorem tokens_nil (seps bs : List Nat) (h : bs.dropWhile (· ∈ seps) = []) : tokens seps bs = [] := by
  unfold tokens
  split
  · rfl
  · next c r h' => rw [h] at h'; simp at h'

theorem tokens_cons (seps bs : List Nat) (c : Nat) (r : List Nat) (h : bs.dropWhile (· ∈ seps) = c :: r) :
    tokens seps bs = (c :: r.takeWhile (· ∉ seps)) :: tokens seps (r.dropWhile (· ∉ seps)) := by
  rw [tokens]
  split
  · next h' => rw [h] at h'; simp at h'
  · next c' r' h' =>
    rw [h] at h'
    injection h' with h1 h2
    subst h1 h2
    rfl

theorem tokens_sep (seps : List Nat) (e : Nat) (r : List Nat) (h : e ∈ seps) : tokens seps (e :: r) = tokens seps r := by
  have hd : (e :: r).dropWhile (· ∈ seps) = r.dropWhile (· ∈ seps) := List.dropWhile_cons_of_pos (by simpa using h)
  cases hr : r.dropWhile (· ∈ seps) with
  | nil => rw [tokens_nil seps r hr, tokens_nil seps _ (by rw [hd, hr])]
  | cons c r' => rw [tokens_cons seps r c r' hr, tokens_cons seps _ c r' (by rw [hd, hr])]

theorem strtokCalls_none (L : Nat) (m : Mem) (q n : Nat) :
    strtokCalls L m none q none n = some (m, List.replicate n none) := by
  induction n with
  | zero => rfl
  | succ n ih =>
    unfold strtokCalls
    simp only [strtokR, Option.bind_eq_bind, Option.bind_some, ih]
    rfl

/-- The results of `n` calls, token by token. -/
theorem strtokCalls_spec (L : Nat) (h8 : L % 8 = 0) (q : Nat) (seps : List Nat) (n : Nat) (m : Mem) (hm : ∀ a, m a < 256) (hq : CStr m q seps)
    (hqL : q + seps.length < L) (s : Nat) (bs : List Nat) (h : CStr m s bs) (hL : s + bs.length < L)
    (hov : q + seps.length < s ∨ s + bs.length < q)
    (string state : Option Nat) (hstr : string = some s ∨ string = none ∧ state = some s) :
    ∃ m' rs, strtokCalls L m string q state n = some (m', rs) ∧ rs.length = n ∧
      (∀ i, (hi : i < rs.length) → match (tokens seps bs)[i]? with
        | some t => ∃ p, rs[i] = some p ∧ s ≤ p ∧ p + t.length ≤ s + bs.length ∧ CStr m' p t
        | none => rs[i] = none) ∧
      (∀ a, ¬ (s ≤ a ∧ a < s + bs.length) → m' a = m a) := by
  induction n generalizing m s bs string state with
  | zero => exact ⟨m, [], rfl, rfl, fun i hi => by simp at hi, fun a _ => rfl⟩
  | succ n ih =>
    unfold strtokCalls
    obtain ⟨hs1, hs2, hs3⟩ := strtokR_spec L h8 m hm q seps hq hqL s bs h hL string state hstr
    have hlen : (bs.takeWhile (· ∈ seps)).length + (bs.dropWhile (· ∈ seps)).length = bs.length := by
      rw [← List.length_append, List.takeWhile_append_dropWhile]
    have hdrop : bs.drop (bs.takeWhile (· ∈ seps)).length = bs.dropWhile (· ∈ seps) := by
      conv => lhs; arg 2; rw [← List.takeWhile_append_dropWhile (p := (fun x => decide (x ∈ seps))) (l := bs)]
      rw [List.drop_left]
    have hd := h.drop (bs.takeWhile (· ∈ seps)).length (by omega)
    rw [hdrop] at hd
    cases hr : bs.dropWhile (· ∈ seps) with
    | nil =>
      rw [hs1 hr]
      simp only [Option.bind_eq_bind, Option.bind_some, strtokCalls_none]
      refine ⟨m, _, rfl, by simp, fun i hi => ?_, fun a _ => rfl⟩
      rw [tokens_nil seps bs hr]
      cases i <;> simp
    | cons c r =>
      rw [hr] at hd hlen
      generalize (bs.takeWhile (· ∈ seps)).length = k at *
      simp only [List.length_cons] at hlen
      have hlen2 : (r.takeWhile (· ∉ seps)).length + (r.dropWhile (· ∉ seps)).length = r.length := by
        rw [← List.length_append, List.takeWhile_append_dropWhile]
      have hdrop2 : r.drop (r.takeWhile (· ∉ seps)).length = r.dropWhile (· ∉ seps) := by
        conv => lhs; arg 2; rw [← List.takeWhile_append_dropWhile (p := (fun x => decide (x ∉ seps))) (l := r)]
        rw [List.drop_left]
      have htake2 : r.take (r.takeWhile (· ∉ seps)).length = r.takeWhile (· ∉ seps) := by
        conv => lhs; arg 2; rw [← List.takeWhile_append_dropWhile (p := (fun x => decide (x ∉ seps))) (l := r)]
        rw [List.take_left]
      have hd2 := hd.drop ((r.takeWhile (· ∉ seps)).length + 1) (by simp only [List.length_cons]; omega)
      rw [List.drop_succ_cons, hdrop2] at hd2
      rw [tokens_cons seps bs c r hr]
      cases hr2 : r.dropWhile (· ∉ seps) with
      | nil =>
        rw [hs2 c r hr hr2]
        simp only [Option.bind_eq_bind, Option.bind_some, strtokCalls_none]
        refine ⟨m, _, rfl, by simp, fun i hi => ?_, fun a _ => rfl⟩
        have htw : r.takeWhile (· ∉ seps) = r := by
          have := List.takeWhile_append_dropWhile (p := (fun x => decide (x ∉ seps))) (l := r)
          rw [hr2, List.append_nil] at this
          exact this
        cases i with
        | zero =>
          simp only [List.getElem?_cons_zero, List.getElem_cons_zero]
          refine ⟨s + k, rfl, by omega, ?_, ?_⟩
          · rw [htw]; simp; omega
          · rw [htw]; exact hd
        | succ i =>
          rw [tokens_nil seps [] rfl]
          simp
      | cons e r' =>
        rw [hs3 c r e r' hr hr2]
        have hes : e ∈ seps := by
          have := List.head_dropWhile_not (fun x => decide (x ∉ seps)) (l := r) (by rw [hr2]; simp)
          simp only [hr2, List.head_cons, decide_eq_false_iff_not, Classical.not_not] at this
          exact this
        rw [hr2] at hd2 hlen2
        simp only [List.length_cons] at hlen2
        generalize hj : (r.takeWhile (· ∉ seps)).length = j at *
        have hd3 := hd2.tail
        have hfr : ∀ a, a ≠ s + k + j + 1 → put m (s + k + j + 1) 0 a = m a := fun a ha => by rw [put_get, if_neg ha]
        obtain ⟨m', rs, e1, e2, e3, e4⟩ := ih (put m (s + k + j + 1) 0) (fun a => by rw [put_get]; split <;> simp [hm a])
          (hq.congr fun a h1 h2 => hfr a (by omega)) (s + k + j + 2) r'
          ((show s + k + (j + 1) + 1 = s + k + j + 2 by omega) ▸ hd3.congr fun a h1 h2 => hfr a (by omega)) (by omega) (by omega)
          none (some (s + k + j + 2)) (.inr ⟨rfl, rfl⟩)
        simp only [Option.bind_eq_bind, Option.bind_some, e1]
        refine ⟨m', some (s + k) :: rs, rfl, by simp [e2], fun i hi => ?_, fun a ha => ?_⟩
        · cases i with
          | zero =>
            simp only [List.getElem?_cons_zero, List.getElem_cons_zero]
            refine ⟨s + k, rfl, by omega, by simp only [List.length_cons, hj]; omega, ?_⟩
            refine ⟨fun b hb => hd.1 b ?_, fun i hi => ?_⟩
            · rw [← htake2] at hb
              rcases List.mem_cons.mp hb with rfl | hb
              · simp
              · exact List.mem_cons_of_mem _ (List.mem_of_mem_take hb)
            · simp only [List.length_append, List.length_cons, List.length_nil, hj] at hi
              rw [e4 _ (by omega)]
              by_cases hij : i = j + 1
              · subst hij
                rw [put_get, if_pos (by omega)]
                have : ((c :: r.takeWhile (· ∉ seps)) ++ [0])[j + 1]'(by simp only [List.length_append, List.length_cons, List.length_nil, hj]; omega) = 0 := by
                  rw [List.getElem_append_right (by simp only [List.length_cons, hj]; omega)]
                  simp
                exact this.symm
              · rw [hfr _ (by omega), hd.get i (by simp; omega)]
                rw [List.getElem_append_left (by simp only [List.length_cons, hj]; omega)]
                cases i with
                | zero => simp
                | succ i =>
                  simp only [List.getElem_cons_succ]
                  have : (r.takeWhile (· ∉ seps))[i]'(by omega) = (r.take j)[i]'(by simp; omega) := by
                    congr 1; exact htake2.symm
                  rw [this, List.getElem_take]
          | succ i =>
            simp only [List.getElem?_cons_succ, List.getElem_cons_succ]
            have := e3 i (by simpa using hi)
            rw [tokens_sep seps e r' hes]
            cases ht : (tokens seps r')[i]? with
            | none => rw [ht] at this; exact this
            | some t =>
              rw [ht] at this
              obtain ⟨p, hp1, hp2, hp3, hp4⟩ := this
              exact ⟨p, hp1, by omega, by omega, hp4⟩
        · rw [e4 a (by omega), hfr a (by omega)]

end Verif.Str
