import Verif.Wide.Model
import Verif.Wide.Spec

namespace Verif.Wide

theorem WStr.end_zero {m : Mem} {s : Nat} {bs : List Int} (h : WStr m s bs) : m (s + bs.length) = 0 := by
  have := h.2 bs.length (by simp)
  simpa using this

theorem WStr.get {m : Mem} {s : Nat} {bs : List Int} (h : WStr m s bs) (i : Nat) (hi : i < bs.length) : m (s + i) = bs[i] := by
  have := h.2 i (by simp; omega)
  rwa [List.getElem_append_left hi] at this

theorem WStr.tail {m : Mem} {s : Nat} {b : Int} {bs : List Int} (h : WStr m s (b :: bs)) : WStr m (s + 1) bs := by
  refine ⟨fun x hx => h.1 x (by simp [hx]), fun i hi => ?_⟩
  have := h.2 (i + 1) (by simp at hi ⊢; omega)
  rw [show s + 1 + i = s + (i + 1) by omega, this]
  simp

theorem WStr.head {m : Mem} {s : Nat} {b : Int} {bs : List Int} (h : WStr m s (b :: bs)) : m s = b ∧ b ≠ 0 := by
  have := h.get 0 (by simp)
  exact ⟨by simpa using this, h.1 b (by simp)⟩

theorem WStr.nil {m : Mem} {s : Nat} (h : WStr m s []) : m s = 0 := by simpa using h.end_zero

/-- The string survives changes outside it. -/
theorem WStr.congr {m m' : Mem} {s : Nat} {bs : List Int} (h : WStr m s bs)
    (e : ∀ a, s ≤ a → a ≤ s + bs.length → m' a = m a) : WStr m' s bs := by
  refine ⟨h.1, fun i hi => ?_⟩
  rw [e _ (by omega) (by simp at hi; omega)]
  exact h.2 i hi

theorem WStr.drop {m : Mem} {s : Nat} {bs : List Int} (h : WStr m s bs) (k : Nat) (hk : k ≤ bs.length) :
    WStr m (s + k) (bs.drop k) := by
  refine ⟨fun b hb => h.1 b (List.mem_of_mem_drop hb), fun i hi => ?_⟩
  simp only [List.length_append, List.length_drop, List.length_cons, List.length_nil] at hi
  by_cases h1 : i < bs.length - k
  · rw [List.getElem_append_left (by simpa using h1), List.getElem_drop, Nat.add_assoc]
    exact h.get (k + i) (by omega)
  · have : s + k + i = s + bs.length := by omega
    rw [this, h.end_zero, List.getElem_append_right (by simpa using h1)]
    simp

theorem Holds.cons {m : Mem} {s : Nat} {b : Int} {bs : List Int} : Holds m s (b :: bs) ↔ m s = b ∧ Holds m (s + 1) bs := by
  constructor
  · intro h
    refine ⟨h 0 (by simp), fun i hi => ?_⟩
    have := h (i + 1) (by simp; omega)
    rw [show s + 1 + i = s + (i + 1) by omega, this]; simp
  · rintro ⟨h0, h1⟩ i hi
    cases i with
    | zero => simpa using h0
    | succ i =>
      have := h1 i (by simp at hi; omega)
      rw [show s + (i + 1) = s + 1 + i by omega, this]; simp

theorem Holds.nil {m : Mem} {s : Nat} : Holds m s [] := fun i hi => by simp at hi

theorem Holds.congr {m m' : Mem} {s : Nat} {bs : List Int} (h : Holds m s bs)
    (e : ∀ a, s ≤ a → a < s + bs.length → m' a = m a) : Holds m' s bs := fun i hi => by
  rw [e _ (by omega) (by omega)]; exact h i hi

theorem put_get (m : Mem) (a : Nat) (b : Int) (x : Nat) : put m a b x = if x = a then b else m x := rfl

/-! ## Searches -/

theorem wcslenFrom_spec (L : Nat) (m : Mem) (s : Nat) (bs : List Int) (h : WStr m s bs) (hL : s + bs.length < L) :
    wcslenFrom L m s = some (s + bs.length) := by
  induction bs generalizing s with
  | nil =>
    simp only [List.length_nil, Nat.add_zero] at hL
    unfold wcslenFrom
    rw [dif_pos hL, if_neg (by simp [h.nil])]; rfl
  | cons b bs ih =>
    obtain ⟨hb, hb0⟩ := h.head
    simp only [List.length_cons] at hL
    unfold wcslenFrom
    rw [dif_pos (by omega), if_pos (by rw [hb]; exact hb0), ih (s + 1) h.tail (by omega), List.length_cons]
    congr 1; omega

theorem wcslen_spec (L : Nat) (m : Mem) (s : Nat) (bs : List Int) (h : WStr m s bs) (hL : s + bs.length < L) :
    wcslen L m s = some bs.length := by
  unfold wcslen; rw [wcslenFrom_spec L m s bs h hL]; simp

theorem wcschr_spec (L : Nat) (m : Mem) (c : Int) (s : Nat) (bs : List Int) (h : WStr m s bs) (hL : s + bs.length < L) :
    ∃ r, wcschr L m s c = some r ∧ FirstAt (bs ++ [0]) c s r := by
  induction bs generalizing s with
  | nil =>
    simp only [List.length_nil, Nat.add_zero] at hL
    unfold wcschr
    rw [dif_pos hL, if_neg (by simp [h.nil])]
    by_cases hc : c = 0
    · subst hc
      exact ⟨_, rfl, 0, by simp, by simp, by simp, fun j hj => by omega⟩
    · refine ⟨_, rfl, ?_⟩
      rw [if_pos hc]
      simpa [FirstAt] using hc
  | cons b bs ih =>
    obtain ⟨hb, hb0⟩ := h.head
    simp only [List.length_cons] at hL
    unfold wcschr
    rw [dif_pos (by omega), if_pos (by rw [hb]; exact hb0), hb]
    by_cases hc : b = c
    · rw [if_pos hc]
      exact ⟨_, rfl, 0, by simp, by simp, by simpa using hc, fun j hj => by omega⟩
    · rw [if_neg hc]
      obtain ⟨r, e, hr⟩ := ih (s + 1) h.tail (by omega)
      refine ⟨r, e, ?_⟩
      cases r with
      | none => simp only [FirstAt, List.cons_append, List.mem_cons, not_or] at hr ⊢; exact ⟨fun e => hc e.symm, hr⟩
      | some p =>
        obtain ⟨i, hi, hp, h1, h2⟩ := hr
        refine ⟨i + 1, by simp at hi ⊢; omega, by omega, by simpa using h1, fun j hj => ?_⟩
        cases j with
        | zero => simpa using hc
        | succ j => simpa using h2 j (by omega)

theorem wcschr_isSome (L : Nat) (m : Mem) (c : Int) (hc : c ≠ 0) (s : Nat) (bs : List Int) (h : WStr m s bs)
    (hL : s + bs.length < L) : ∃ r, wcschr L m s c = some r ∧ r.isSome = decide (c ∈ bs) := by
  obtain ⟨r, e, hr⟩ := wcschr_spec L m c s bs h hL
  refine ⟨r, e, ?_⟩
  cases r with
  | none =>
    simp only [FirstAt, List.mem_append, List.mem_singleton, not_or] at hr
    simp [hr.1]
  | some p =>
    obtain ⟨i, hi, _, h1, _⟩ := hr
    have : c ∈ bs ++ [0] := h1 ▸ List.getElem_mem _
    simp only [List.mem_append, List.mem_singleton, hc, or_false] at this
    simp [this]

theorem wcsrchrFrom_spec (L : Nat) (m : Mem) (c : Int) (hc : c ≠ 0) (s : Nat) (bs : List Int) (h : WStr m s bs)
    (hL : s + bs.length < L) (found : Option Nat) :
    ∃ r, wcsrchrFrom L m s c found = some r ∧ ((c ∉ bs ∧ r = found) ∨ ∃ p, r = some p ∧ LastAt bs c s r) := by
  induction bs generalizing s found with
  | nil =>
    simp only [List.length_nil, Nat.add_zero] at hL
    unfold wcsrchrFrom
    rw [dif_pos hL, if_neg (by simp [h.nil]), if_neg hc]
    exact ⟨_, rfl, .inl ⟨by simp, rfl⟩⟩
  | cons b bs ih =>
    obtain ⟨hb, hb0⟩ := h.head
    simp only [List.length_cons] at hL
    unfold wcsrchrFrom
    rw [dif_pos (by omega), if_pos (by rw [hb]; exact hb0), hb]
    obtain ⟨r, e, hr⟩ := ih (s + 1) h.tail (by omega) (if b = c then some s else found)
    refine ⟨r, e, ?_⟩
    rcases hr with ⟨h1, h2⟩ | ⟨p, hp, hr⟩
    · by_cases hbc : b = c
      · rw [if_pos hbc] at h2
        subst h2
        refine .inr ⟨s, rfl, 0, by simp, by simp, by simpa using hbc, fun j hj hj2 => ?_⟩
        cases j with
        | zero => omega
        | succ j =>
          simp only [List.getElem_cons_succ]
          intro e
          exact h1 (e ▸ List.getElem_mem _)
      · rw [if_neg hbc] at h2
        exact .inl ⟨by simp only [List.mem_cons, not_or]; exact ⟨fun e => hbc e.symm, h1⟩, h2⟩
    · subst hp
      obtain ⟨i, hi, hp, h1, h2⟩ := hr
      refine .inr ⟨p, rfl, i + 1, by simp; omega, by omega, by simpa using h1, fun j hj hj2 => ?_⟩
      cases j with
      | zero => omega
      | succ j => simpa using h2 j (by omega) (by simpa using hj2)

theorem wcsrchr_spec (L : Nat) (m : Mem) (c : Int) (s : Nat) (bs : List Int) (h : WStr m s bs)
    (hL : s + bs.length < L) : ∃ r, wcsrchr L m s c = some r ∧ LastAt (bs ++ [0]) c s r := by
  unfold wcsrchr
  by_cases hc : c = 0
  · subst hc
    suffices ∀ found, wcsrchrFrom L m s 0 found = some (some (s + bs.length)) from
      ⟨_, this none, bs.length, by simp, rfl, by simp, fun j hj hj2 => by simp at hj2; omega⟩
    induction bs generalizing s with
    | nil =>
      intro found
      simp only [List.length_nil, Nat.add_zero] at hL
      unfold wcsrchrFrom
      rw [dif_pos hL, if_neg (by simp [h.nil]), if_pos rfl]; rfl
    | cons b bs ih =>
      intro found
      obtain ⟨hb, hb0⟩ := h.head
      simp only [List.length_cons] at hL
      unfold wcsrchrFrom
      rw [dif_pos (by omega), if_pos (by rw [hb]; exact hb0), ih (s + 1) h.tail (by omega), List.length_cons]
      congr 2; omega
  · obtain ⟨r, e, hr⟩ := wcsrchrFrom_spec L m c hc s bs h hL none
    refine ⟨r, e, ?_⟩
    rcases hr with ⟨h1, rfl⟩ | ⟨p, rfl, i, hi, hp, h1, h2⟩
    · simp only [LastAt, List.mem_append, List.mem_singleton, not_or]; exact ⟨h1, hc⟩
    · refine ⟨i, by simp; omega, hp, by rw [List.getElem_append_left hi]; exact h1, fun j hj hj2 => ?_⟩
      by_cases hjb : j < bs.length
      · rw [List.getElem_append_left hjb]; exact h2 j hj hjb
      · rw [List.getElem_append_right (by omega)]
        simp only [List.getElem_singleton]
        exact fun e => hc e.symm

theorem wmemchr_spec (L : Nat) (m : Mem) (c : Int) (n s : Nat) (bs : List Int) (h : Holds m s bs) (hn : bs.length ≤ n)
    (hL : s + bs.length ≤ L) (hc : bs.length = n ∨ c ∈ bs) :
    ∃ r, wmemchr L m s c n = some r ∧ FirstAt bs c s r := by
  induction n generalizing s bs with
  | zero =>
    obtain rfl : bs = [] := by cases bs <;> simp_all
    exact ⟨none, rfl, by simp [FirstAt]⟩
  | succ n ih =>
    cases bs with
    | nil => simp at hc
    | cons b bs =>
      rw [Holds.cons] at h
      simp only [List.length_cons] at hL hn hc
      unfold wmemchr
      rw [if_pos (by omega), h.1]
      by_cases hbc : b = c
      · rw [if_pos hbc]
        exact ⟨_, rfl, 0, by simp, by simp, by simpa using hbc, fun j hj => by omega⟩
      · rw [if_neg hbc]
        obtain ⟨r, e, hr⟩ := ih (s + 1) bs h.2 (by omega) (by omega) (by
          rcases hc with hc | hc
          · exact .inl (by omega)
          · simp only [List.mem_cons] at hc
            rcases hc with rfl | hc
            · exact absurd rfl hbc
            · exact .inr hc)
        refine ⟨r, e, ?_⟩
        cases r with
        | none => simp only [FirstAt, List.mem_cons, not_or] at hr ⊢; exact ⟨fun e => hbc e.symm, hr⟩
        | some p =>
          obtain ⟨i, hi, hp, h1, h2⟩ := hr
          refine ⟨i + 1, by simp; omega, by omega, by simpa using h1, fun j hj => ?_⟩
          cases j with
          | zero => simpa using hbc
          | succ j => simpa using h2 j (by omega)

theorem spanFrom_spec (L : Nat) (m : Mem) (q : Nat) (as : List Int) (hq : WStr m q as) (hqL : q + as.length < L)
    (want : Bool) (s : Nat) (bs : List Int) (h : WStr m s bs) (hL : s + bs.length < L) :
    spanFrom L m q want s = some (s + (bs.takeWhile (fun x => decide (x ∈ as) = want)).length) := by
  induction bs generalizing s with
  | nil =>
    unfold spanFrom
    simp only [List.length_nil, Nat.add_zero] at hL
    rw [dif_pos hL, if_neg (by simp [h.nil])]; simp
  | cons b bs ih =>
    obtain ⟨hb, hb0⟩ := h.head
    simp only [List.length_cons] at hL
    unfold spanFrom
    rw [dif_pos (by omega), if_pos (by rw [hb]; exact hb0), hb]
    obtain ⟨r, e, hr⟩ := wcschr_isSome L m b hb0 q as hq hqL
    rw [e]
    simp only [hr]
    by_cases hw : decide (b ∈ as) = want
    · rw [if_pos hw, ih (s + 1) h.tail (by omega), List.takeWhile_cons_of_pos (by simpa using hw)]
      simp only [List.length_cons]; congr 1; omega
    · rw [if_neg hw, List.takeWhile_cons_of_neg (by simpa using hw)]; simp

theorem spanFrom_true (L : Nat) (m : Mem) (q : Nat) (as : List Int) (hq : WStr m q as) (hqL : q + as.length < L)
    (s : Nat) (bs : List Int) (h : WStr m s bs) (hL : s + bs.length < L) :
    spanFrom L m q true s = some (s + (bs.takeWhile (· ∈ as)).length) := by
  rw [spanFrom_spec L m q as hq hqL true s bs h hL]
  simp

theorem spanFrom_false (L : Nat) (m : Mem) (q : Nat) (as : List Int) (hq : WStr m q as) (hqL : q + as.length < L)
    (s : Nat) (bs : List Int) (h : WStr m s bs) (hL : s + bs.length < L) :
    spanFrom L m q false s = some (s + (bs.takeWhile (· ∉ as)).length) := by
  rw [spanFrom_spec L m q as hq hqL false s bs h hL]
  simp

theorem takeWhile_end {m : Mem} {s : Nat} {bs : List Int} (h : WStr m s bs) (p : Int → Bool) :
    (m (s + (bs.takeWhile p).length) = 0 ↔ bs.dropWhile p = []) := by
  have hl := List.takeWhile_append_dropWhile (p := p) (l := bs)
  have hdr : WStr m (s + (bs.takeWhile p).length) (bs.dropWhile p) := by
    have := h.drop (bs.takeWhile p).length (by rw [← congrArg List.length hl, List.length_append]; omega)
    have e : bs.drop (bs.takeWhile p).length = bs.dropWhile p := by
      conv => lhs; arg 2; rw [← hl]
      rw [List.drop_left]
    rwa [e] at this
  cases hd : bs.dropWhile p with
  | nil => rw [hd] at hdr; simp [hdr.nil]
  | cons b r => rw [hd] at hdr; have := hdr.head; simp [this.1, this.2]

theorem takeWhile_nil_iff (p : Int → Bool) (l : List Int) : (∀ x ∈ l, p x = true) ↔ l.dropWhile p = [] := by
  induction l with
  | nil => simp
  | cons b l ih =>
    by_cases h : p b = true
    · rw [List.dropWhile_cons_of_pos h, ← ih]; simp [h]
    · rw [List.dropWhile_cons_of_neg h]; simp [h]

theorem wcspbrk_spec (L : Nat) (m : Mem) (q : Nat) (as : List Int) (hq : WStr m q as) (hqL : q + as.length < L)
    (s : Nat) (bs : List Int) (h : WStr m s bs) (hL : s + bs.length < L) :
    wcspbrk L m s q = some (if ∃ x ∈ bs, x ∈ as then some (s + (bs.takeWhile (· ∉ as)).length) else none) := by
  unfold wcspbrk
  rw [spanFrom_false L m q as hq hqL s bs h hL]
  simp only [Option.map_some]
  have := takeWhile_end h (fun x => decide (x ∉ as))
  congr 1
  have hd : bs.dropWhile (fun x => decide (x ∉ as)) = [] ↔ ¬ ∃ x ∈ bs, x ∈ as := by
    rw [← takeWhile_nil_iff]
    simp
  rw [hd] at this
  by_cases hx : ∃ x ∈ bs, x ∈ as
  · rw [if_pos hx, if_pos (fun e => this.mp e hx)]
  · rw [if_neg hx, if_neg (fun e => e (this.mpr hx))]

theorem matchFrom_spec (L : Nat) (m : Mem) (h : Nat) (hs : List Int) (hh : WStr m h hs) (hL : h + hs.length < L)
    (n : Nat) (ns : List Int) (hn : WStr m n ns) (nL : n + ns.length < L) :
    matchFrom L m h n = some (decide (ns <+: hs)) := by
  induction hs generalizing h n ns with
  | nil =>
    unfold matchFrom
    simp only [List.length_nil, Nat.add_zero] at hL
    rw [dif_pos (by omega), if_neg (by simp [hh.nil])]
    cases ns with
    | nil => simp [hn.nil]
    | cons b ns => obtain ⟨hb, hb0⟩ := hn.head; simp [hb, hb0]
  | cons a hs ih =>
    obtain ⟨ha, ha0⟩ := hh.head
    simp only [List.length_cons] at hL
    unfold matchFrom
    rw [dif_pos (by omega), ha]
    cases ns with
    | nil => rw [hn.nil, if_neg (by simp)]; simp
    | cons b ns =>
      obtain ⟨hb, hb0⟩ := hn.head
      simp only [List.length_cons] at nL
      rw [hb]
      by_cases hab : a = b
      · subst hab
        rw [if_pos ⟨ha0, ha0, rfl⟩, ih (h + 1) hh.tail (by omega) (n + 1) ns hn.tail (by omega)]
        simp [List.cons_prefix_cons]
      · rw [if_neg (by simp [hab])]
        have : ¬ b = a := fun e => hab e.symm
        simp [List.cons_prefix_cons, hb0, this]

theorem wcsstrFrom_spec (L : Nat) (m : Mem) (n : Nat) (ns : List Int) (hn : WStr m n ns) (nL : n + ns.length < L) (n0 : ns ≠ [])
    (h : Nat) (hs : List Int) (hh : WStr m h hs) (hL : h + hs.length < L) :
    ∃ r, wcsstrFrom L m n h = some r ∧ FirstOccurrence hs ns h r := by
  induction hs generalizing h with
  | nil =>
    simp only [List.length_nil, Nat.add_zero] at hL
    unfold wcsstrFrom
    rw [dif_pos hL, if_neg (by simp [hh.nil])]
    exact ⟨_, rfl, by simp [FirstOccurrence, n0]⟩
  | cons a hs ih =>
    obtain ⟨ha, ha0⟩ := hh.head
    simp only [List.length_cons] at hL
    unfold wcsstrFrom
    rw [dif_pos (by omega), if_pos (by rw [ha]; exact ha0),
      matchFrom_spec L m h (a :: hs) hh (by simp; omega) n ns hn nL]
    by_cases hp : ns <+: a :: hs
    · rw [decide_eq_true hp]
      exact ⟨_, rfl, 0, by simp, by simp, by simpa using hp, fun j hj => by omega⟩
    · rw [decide_eq_false hp]
      obtain ⟨r, e, hr⟩ := ih (h + 1) hh.tail (by omega)
      refine ⟨r, e, ?_⟩
      cases r with
      | none =>
        intro i
        cases i with
        | zero => simpa using hp
        | succ i => simpa using hr i
      | some p =>
        obtain ⟨i, hp', hi, h1, h2⟩ := hr
        refine ⟨i + 1, by omega, by simp; omega, by simpa using h1, fun j hj => ?_⟩
        cases j with
        | zero => simpa using hp
        | succ j => simpa using h2 j (by omega)

theorem wcsstr_spec (L : Nat) (m : Mem) (n : Nat) (ns : List Int) (hn : WStr m n ns) (nL : n + ns.length < L)
    (h : Nat) (hs : List Int) (hh : WStr m h hs) (hL : h + hs.length < L) :
    ∃ r, wcsstr L m h n = some r ∧ FirstOccurrence hs ns h r := by
  unfold wcsstr
  rw [if_pos (by omega)]
  cases ns with
  | nil =>
    rw [if_pos hn.nil]
    exact ⟨_, rfl, 0, by simp, by simp, by simp, fun j hj => by omega⟩
  | cons b ns =>
    obtain ⟨hb, hb0⟩ := hn.head
    rw [if_neg (by rw [hb]; exact hb0)]
    exact wcsstrFrom_spec L m n _ hn nL (by simp) h hs hh hL

/-! ## Writes -/

theorem wcscpy_spec (L : Nat) (m : Mem) (d s : Nat) (bs : List Int) (h : WStr m s bs) (hs : s + bs.length < L)
    (hd : d + bs.length < L) (hov : d + bs.length < s ∨ s + bs.length < d) :
    ∃ m', wcscpy L m d s = some m' ∧ Written m m' d (bs ++ [0]) := by
  induction bs generalizing m d s with
  | nil =>
    unfold wcscpy
    have h0 := h.nil
    simp only [List.length_nil, Nat.add_zero] at hs hd
    rw [dif_pos ⟨hs, hd⟩, if_neg (by simp [h0])]
    refine ⟨_, rfl, ?_, fun a ha => ?_⟩
    · rw [List.nil_append, Holds.cons]
      exact ⟨by rw [put_get, if_pos rfl, h0], fun i hi => by simp at hi⟩
    · rw [put_get, if_neg]; simp at ha; omega
  | cons b bs ih =>
    obtain ⟨hb, hb0⟩ := h.head
    simp only [List.length_cons] at hs hd hov
    unfold wcscpy
    rw [dif_pos (by omega), if_pos (by rw [hb]; exact hb0)]
    obtain ⟨m', e, h1, h2⟩ := ih (put m d (m s)) (d + 1) (s + 1)
      (h.tail.congr fun a ha1 ha2 => by rw [put_get, if_neg (by omega)]) (by omega) (by omega) (by omega)
    refine ⟨m', e, ?_, fun a ha => ?_⟩
    · rw [List.cons_append, Holds.cons]
      refine ⟨?_, h1⟩
      rw [h2 d (by omega), put_get, if_pos rfl, hb]
    · simp only [List.length_append, List.length_cons, List.length_nil] at ha h2
      rw [h2 a (by omega), put_get, if_neg (by omega)]

/-- The first step of `Upto`. -/
theorem Upto.step {m : Mem} {s n : Nat} {ws : List Int} (h : Upto m s (n + 1) ws) :
    (ws = [] ∧ m s = 0) ∨ ∃ b bs, ws = b :: bs ∧ m s = b ∧ b ≠ 0 ∧ Upto m (s + 1) n bs := by
  obtain ⟨h0, h⟩ := h
  cases ws with
  | nil =>
    rcases h with ⟨h1, _⟩ | ⟨_, h1⟩
    · simp at h1
    · left; exact ⟨rfl, by simpa using h1 0 (by simp)⟩
  | cons b bs =>
    right
    refine ⟨b, bs, rfl, ?_, h0 b (by simp), fun w hw => h0 w (by simp [hw]), ?_⟩
    · rcases h with ⟨_, h1⟩ | ⟨_, h1⟩
      · exact (Holds.cons.mp h1).1
      · rw [List.cons_append] at h1; exact (Holds.cons.mp h1).1
    · rcases h with ⟨h2, h1⟩ | ⟨h2, h1⟩
      · exact .inl ⟨by simpa using h2, (Holds.cons.mp h1).2⟩
      · rw [List.cons_append] at h1; exact .inr ⟨by simpa using h2, (Holds.cons.mp h1).2⟩

theorem Upto.le {m : Mem} {s n : Nat} {ws : List Int} (h : Upto m s n ws) : ws.length ≤ n := by
  rcases h.2 with ⟨h, _⟩ | ⟨h, _⟩ <;> omega

theorem Upto.congr {m m' : Mem} {s n : Nat} {ws : List Int} (h : Upto m s n ws)
    (e : ∀ a, s ≤ a → a ≤ s + ws.length → a < s + n → m' a = m a) : Upto m' s n ws := by
  refine ⟨h.1, ?_⟩
  rcases h.2 with ⟨h1, h2⟩ | ⟨h1, h2⟩
  · exact .inl ⟨h1, h2.congr fun a ha hb => e a ha (by omega) (by omega)⟩
  · refine .inr ⟨h1, h2.congr fun a ha hb => e a ha ?_ ?_⟩ <;> simp at hb <;> omega

/-- Where `Upto` reads. -/
theorem copyLoop_spec (L n : Nat) (m : Mem) (d s : Nat) (ws : List Int) (h : Upto m s n ws)
    (hs : s + ws.length < L ∨ ws.length = n ∧ s + n ≤ L) (hd : d + ws.length ≤ L)
    (hov : d + ws.length ≤ s ∨ s + ws.length < d ∨ ws.length = n ∧ s + ws.length ≤ d) :
    ∃ m', copyLoop L n d s m = some (m', d + ws.length, n - ws.length) ∧ Written m m' d ws := by
  induction n generalizing m d s ws with
  | zero =>
    obtain rfl : ws = [] := by have := h.le; cases ws <;> simp_all
    exact ⟨m, rfl, Holds.nil, fun a _ => rfl⟩
  | succ n ih =>
    rcases h.step with ⟨rfl, h0⟩ | ⟨b, bs, rfl, hb, hb0, hu⟩
    · unfold copyLoop
      rw [if_pos (by simp at hs; omega), if_neg (by simp [h0])]
      exact ⟨m, rfl, Holds.nil, fun a _ => rfl⟩
    · simp only [List.length_cons] at hs hd hov
      unfold copyLoop
      rw [if_pos (by omega), if_pos (by rw [hb]; exact hb0), if_pos (by omega)]
      have hle := hu.le
      obtain ⟨m', e, h1, h2⟩ := ih (put m d (m s)) (d + 1) (s + 1) bs
        (hu.congr fun a ha1 ha2 ha3 => by rw [put_get, if_neg]; omega) (by omega) (by omega) (by omega)
      refine ⟨m', ?_, ?_, fun a ha => ?_⟩
      · rw [e, List.length_cons]
        simp only [Option.some.injEq, Prod.mk.injEq, true_and]
        omega
      · rw [Holds.cons]
        refine ⟨?_, h1⟩
        rw [h2 d (by omega), put_get, if_pos rfl, hb]
      · simp only [List.length_cons] at ha
        rw [h2 a (by omega), put_get, if_neg (by omega)]

theorem fill_spec (L : Nat) (c : Int) (n d : Nat) (m : Mem) (hd : d + n ≤ L) :
    ∃ m', fill L c n d m = some m' ∧ Written m m' d (List.replicate n c) := by
  induction n generalizing d m with
  | zero => exact ⟨m, rfl, Holds.nil, fun a _ => rfl⟩
  | succ n ih =>
    unfold fill
    rw [if_pos (by omega)]
    obtain ⟨m', e, h1, h2⟩ := ih (d + 1) (put m d c) (by omega)
    simp only [List.length_replicate] at h2
    refine ⟨m', e, ?_, fun a ha => ?_⟩
    · rw [List.replicate_succ, Holds.cons]
      exact ⟨by rw [h2 d (by omega), put_get, if_pos rfl], h1⟩
    · simp only [List.length_replicate] at ha
      rw [h2 a (by omega), put_get, if_neg (by omega)]

theorem Holds.append {m : Mem} {s : Nat} {x y : List Int} : Holds m s (x ++ y) ↔ Holds m s x ∧ Holds m (s + x.length) y := by
  induction x generalizing s with
  | nil => simp [Holds.nil]
  | cons b x ih =>
    rw [List.cons_append, Holds.cons, Holds.cons, ih, List.length_cons, and_assoc,
      show s + 1 + x.length = s + (x.length + 1) by omega]

/-- Two adjacent writes. -/
theorem Written.trans {m m' m'' : Mem} {d : Nat} {x y : List Int} (h : Written m m' d x) (h' : Written m' m'' (d + x.length) y) :
    Written m m'' d (x ++ y) := by
  refine ⟨Holds.append.mpr ⟨h.1.congr fun a _ hb => h'.2 a (by omega), h'.1⟩, fun a ha => ?_⟩
  simp only [List.length_append] at ha
  rw [h'.2 a (by omega), h.2 a (by omega)]

theorem written_put (m : Mem) (d : Nat) (c : Int) : Written m (put m d c) d [c] :=
  ⟨Holds.cons.mpr ⟨by rw [put_get, if_pos rfl], Holds.nil⟩, fun a ha => by rw [put_get, if_neg]; simp at ha; omega⟩

theorem xfrmLoop_spec (L d s : Nat) (k i : Nat) (m : Mem) (ws : List Int) (h : Holds m (s + i) ws) (hk : ws.length = k)
    (hs : s + i + k ≤ L) (hd : d + i + k ≤ L) (hov : d + i + k ≤ s + i ∨ s + i + k ≤ d + i) :
    ∃ m', xfrmLoop L d s k i m = some m' ∧ Written m m' (d + i) ws := by
  induction k generalizing i m ws with
  | zero =>
    obtain rfl : ws = [] := by cases ws <;> simp_all
    exact ⟨m, rfl, Holds.nil, fun a _ => rfl⟩
  | succ k ih =>
    cases ws with
    | nil => simp at hk
    | cons b ws =>
      rw [Holds.cons] at h
      simp only [List.length_cons] at hk
      unfold xfrmLoop
      rw [if_pos (by omega), h.1]
      obtain ⟨m', e, h1⟩ := ih (i + 1) (put m (d + i) b) ws
        ((show s + i + 1 = s + (i + 1) by omega) ▸ h.2.congr fun a h1 h2 => by rw [put_get, if_neg (by omega)])
        (by omega) (by omega) (by omega) (by omega)
      refine ⟨m', e, ?_⟩
      exact (written_put m (d + i) b).trans (y := ws) ((show d + (i + 1) = d + i + [b].length by simp; omega) ▸ h1)

theorem wcsxfrm_spec (L : Nat) (m : Mem) (d s n : Nat) (ws : List Int) (h : WStr m s ws) (hs : s + ws.length < L)
    (hd : d + n ≤ L) (hov : d + n ≤ s ∨ s + ws.length < d) :
    ∃ m', wcsxfrm L m d s n = some (m', ws.length) ∧
      Written m m' d (if n = 0 then [] else ws.take (n - 1) ++ [0]) := by
  unfold wcsxfrm
  rw [wcslen_spec L m s ws h hs]
  simp only [Option.bind_eq_bind, Option.bind_some]
  by_cases hn : n = 0
  · subst hn
    exact ⟨m, by simp, Holds.nil, fun a _ => rfl⟩
  · rw [if_pos hn, if_neg hn]
    have hc : (if ws.length < n then ws.length else n - 1) = (ws.take (n - 1)).length := by
      rw [List.length_take]; split <;> omega
    rw [hc]
    have hl : (ws.take (n - 1)).length ≤ ws.length := by rw [List.length_take]; omega
    have hl2 : (ws.take (n - 1)).length ≤ n - 1 := by rw [List.length_take]; omega
    obtain ⟨m', e, h1⟩ := xfrmLoop_spec L d s (ws.take (n - 1)).length 0 m (ws.take (n - 1))
      (fun i hi => by rw [List.getElem_take]; exact h.get i (by omega)) rfl (by omega) (by omega) (by omega)
    rw [e]
    simp only [Option.bind_some]
    rw [if_pos (by omega)]
    exact ⟨_, rfl, h1.trans (written_put m' _ 0)⟩

/-! ## Comparisons -/

theorem orders_cons_eq (r : Int) (b : Int) (x y : List Int) : Orders r (b :: x) (b :: y) ↔ Orders r x y := by
  unfold Orders
  simp

theorem orders_cons_ne (a b : Int) (x y : List Int) (h : a ≠ b) : Orders (sign a b) (a :: x) (b :: y) := by
  unfold Orders sign
  simp only [List.cons_lt_cons_iff, List.cons.injEq]
  split <;> refine ⟨by omega, by omega, by omega⟩

theorem orders_nil : Orders 0 [] [] := by
  unfold Orders; simp

theorem wmemcmp_spec (L : Nat) (m : Mem) (x y : Nat) (xs ys : List Int) (hlen : xs.length = ys.length) (hx : Holds m x xs) (hy : Holds m y ys)
    (hxL : x + xs.length ≤ L) (hyL : y + xs.length ≤ L) : ∃ r, wmemcmp L m x y xs.length = some r ∧ Orders r xs ys := by
  induction xs generalizing x y ys with
  | nil =>
    obtain rfl : ys = [] := by cases ys <;> simp_all
    exact ⟨0, rfl, orders_nil⟩
  | cons a xs ih =>
    cases ys with
    | nil => simp at hlen
    | cons b ys =>
      rw [Holds.cons] at hx hy
      simp only [List.length_cons] at hlen hxL hyL
      rw [List.length_cons]
      unfold wmemcmp
      rw [if_pos (by omega), hx.1, hy.1]
      by_cases hab : a = b
      · subst hab
        rw [if_neg (by simp)]
        obtain ⟨r, e, h⟩ := ih (x + 1) (y + 1) ys (by omega) hx.2 hy.2 (by omega) (by omega)
        exact ⟨r, e, (orders_cons_eq r a xs ys).mpr h⟩
      · rw [if_pos hab]
        exact ⟨_, rfl, orders_cons_ne a b xs ys hab⟩

/-- The code orders the strings with their terminators. -/
theorem wcscmp_spec (L : Nat) (m : Mem) (x y : Nat) (xs ys : List Int) (hx : WStr m x xs) (hy : WStr m y ys)
    (hxL : x + xs.length < L) (hyL : y + ys.length < L) : ∃ r, wcscmp L m x y = some r ∧ Orders r (xs ++ [0]) (ys ++ [0]) := by
  induction xs generalizing x y ys with
  | nil =>
    have h0 := hx.nil
    unfold wcscmp
    simp only [List.length_nil] at hxL
    rw [dif_pos (by omega), if_neg (by simp [h0]), h0]
    cases ys with
    | nil => rw [hy.nil, if_pos rfl]; exact ⟨_, rfl, by unfold Orders; simp⟩
    | cons b ys =>
      obtain ⟨hb, hb0⟩ := hy.head
      rw [hb, if_neg (fun e => hb0 e.symm)]
      exact ⟨_, rfl, orders_cons_ne 0 b _ _ (fun e => hb0 e.symm)⟩
  | cons a xs ih =>
    obtain ⟨ha, ha0⟩ := hx.head
    simp only [List.length_cons] at hxL
    unfold wcscmp
    rw [dif_pos (by omega), ha]
    cases ys with
    | nil =>
      rw [hy.nil, if_neg (by omega), if_neg ha0]
      exact ⟨_, rfl, orders_cons_ne a 0 _ _ ha0⟩
    | cons b ys =>
      obtain ⟨hb, hb0⟩ := hy.head
      simp only [List.length_cons] at hyL
      rw [hb]
      by_cases hab : a = b
      · subst hab
        rw [if_pos ⟨rfl, ha0⟩]
        obtain ⟨r, e, h⟩ := ih (x + 1) (y + 1) ys hx.tail hy.tail (by omega) (by omega)
        exact ⟨r, e, (orders_cons_eq r a _ _).mpr h⟩
      · rw [if_neg (fun h => hab h.1), if_neg hab]
        exact ⟨_, rfl, orders_cons_ne a b _ _ hab⟩

/-- What wcsncmp compares: the characters before the null character, and that one if it is among the first `n`. -/
def keyOf (n : Nat) (ws : List Int) : List Int := if ws.length < n then ws ++ [0] else ws

theorem wcsncmp_spec (L : Nat) (m : Mem) (n x y : Nat) (xs ys : List Int) (hx : Upto m x n xs) (hy : Upto m y n ys)
    (hxL : x + xs.length < L ∨ xs.length = n ∧ x + n ≤ L) (hyL : y + ys.length < L ∨ ys.length = n ∧ y + n ≤ L) :
    ∃ r, wcsncmp L m x y n = some r ∧ Orders r (keyOf n xs) (keyOf n ys) := by
  induction n generalizing x y xs ys with
  | zero =>
    obtain rfl : xs = [] := by have := hx.le; cases xs <;> simp_all
    obtain rfl : ys = [] := by have := hy.le; cases ys <;> simp_all
    exact ⟨0, rfl, by simpa [keyOf] using orders_nil⟩
  | succ n ih =>
    have hk : ∀ (a : Int) (l : List Int), keyOf (n + 1) (a :: l) = a :: keyOf n l := by
      intro a l
      unfold keyOf
      simp only [List.length_cons, Nat.add_lt_add_iff_right]
      split <;> rfl
    have hk0 : keyOf (n + 1) [] = [0] := by simp [keyOf]
    unfold wcsncmp
    rcases hx.step with ⟨rfl, h0⟩ | ⟨a, xs, rfl, ha, ha0, hu⟩ <;>
    rcases hy.step with ⟨rfl, h0'⟩ | ⟨b, ys, rfl, hb, hb0, hv⟩
    · simp only [List.length_nil] at hxL hyL
      rw [if_pos (by omega), h0, h0', if_neg (by simp), if_pos rfl]
      exact ⟨_, rfl, by unfold Orders; simp⟩
    · simp only [List.length_nil, List.length_cons] at hxL hyL
      rw [if_pos (by omega), h0, hb, if_pos (fun e => hb0 e.symm), hk, hk0]
      exact ⟨_, rfl, orders_cons_ne 0 b _ _ (fun e => hb0 e.symm)⟩
    · simp only [List.length_nil, List.length_cons] at hxL hyL
      rw [if_pos (by omega), h0', ha, if_pos ha0, hk, hk0]
      exact ⟨_, rfl, orders_cons_ne a 0 _ _ ha0⟩
    · simp only [List.length_cons] at hxL hyL
      rw [if_pos (by omega), ha, hb, hk, hk]
      by_cases hab : a = b
      · subst hab
        rw [if_neg (by simp), if_neg ha0]
        obtain ⟨r, e, h⟩ := ih (x + 1) (y + 1) xs ys hu hv (by omega) (by omega)
        exact ⟨r, e, (orders_cons_eq r a _ _).mpr h⟩
      · rw [if_pos hab]
        exact ⟨_, rfl, orders_cons_ne a b _ _ hab⟩

end Verif.Wide
