import Verif.Str.Copy
import Verif.Str.Scan

namespace Verif.Str

theorem CStr.end_zero {m : Mem} {s : Nat} {bs : List Nat} (h : CStr m s bs) : m (s + bs.length) = 0 := by
  have := h.2 bs.length (by simp)
  simpa using this

theorem CStr.get {m : Mem} {s : Nat} {bs : List Nat} (h : CStr m s bs) (i : Nat) (hi : i < bs.length) : m (s + i) = bs[i] := by
  have := h.2 i (by simp; omega)
  rwa [List.getElem_append_left hi] at this

theorem CStr.ne_zero {m : Mem} {s : Nat} {bs : List Nat} (h : CStr m s bs) (a : Nat) (h1 : s ≤ a) (h2 : a < s + bs.length) :
    m a ≠ 0 := by
  have := h.get (a - s) (by omega)
  rw [Nat.add_sub_cancel' h1] at this
  rw [this]
  exact h.1 _ (List.getElem_mem _)

theorem CStr.tail {m : Mem} {s : Nat} {b : Nat} {bs : List Nat} (h : CStr m s (b :: bs)) : CStr m (s + 1) bs := by
  refine ⟨fun x hx => h.1 x (by simp [hx]), fun i hi => ?_⟩
  have := h.2 (i + 1) (by simp at hi ⊢; omega)
  rw [show s + 1 + i = s + (i + 1) by omega, this]
  simp

theorem CStr.head {m : Mem} {s : Nat} {b : Nat} {bs : List Nat} (h : CStr m s (b :: bs)) : m s = b ∧ b ≠ 0 := by
  have := h.get 0 (by simp)
  exact ⟨by simpa using this, h.1 b (by simp)⟩

theorem CStr.nil {m : Mem} {s : Nat} (h : CStr m s []) : m s = 0 := by simpa using h.end_zero

/-- The string survives changes outside it. -/
theorem CStr.congr {m m' : Mem} {s : Nat} {bs : List Nat} (h : CStr m s bs)
    (e : ∀ a, s ≤ a → a ≤ s + bs.length → m' a = m a) : CStr m' s bs := by
  refine ⟨h.1, fun i hi => ?_⟩
  rw [e _ (by omega) (by simp at hi; omega)]
  exact h.2 i hi

theorem strlen_spec (L : Nat) (h8 : L % 8 = 0) (m : Mem) (hm : ∀ a, m a < 256) (s : Nat) (bs : List Nat) (h : CStr m s bs)
    (hL : s + bs.length < L) : strlen L m s = some bs.length := by
  unfold strlen
  rw [strlenFrom_spec L h8 m hm (s + bs.length) s (by omega) hL h.end_zero (fun b h1 h2 => h.ne_zero b h1 h2)]
  simp

/-- `strchr` in terms of the index of the character in the string. -/
theorem strchr_spec (L : Nat) (h8 : L % 8 = 0) (m : Mem) (hm : ∀ a, m a < 256) (s : Nat) (bs : List Nat) (h : CStr m s bs)
    (hL : s + bs.length < L) (c : Int) :
    strchr L m s c = some (((bs ++ [0]).idxOf? (uchar c)).map (s + ·)) := by
  have hc : uchar c < 256 := by unfold uchar; omega
  unfold strchr
  generalize uchar c = c at *
  induction bs generalizing s with
  | nil =>
    have h0 := h.nil
    rw [strchrFrom_spec L h8 m hm c hc s s (by omega) (by simpa using hL) (.inr h0) (fun b h1 h2 => by omega)]
    rw [h0]
    by_cases hc0 : c = 0
    · subst hc0; simp
    · have : ¬ (0 = c) := fun e => hc0 e.symm
      simp [List.idxOf?, List.findIdx?_cons, this]
  | cons b bs ih =>
    obtain ⟨hb, hb0⟩ := h.head
    by_cases hbc : b = c
    · subst hbc
      rw [strchrFrom_spec L h8 m hm b hc s s (by omega) (by omega) (.inl hb) (fun b h1 h2 => by omega), if_pos hb]
      simp [List.idxOf?, List.findIdx?_cons]
    · have := ih (s + 1) h.tail (by simp at hL; omega)
      -- the search from `s` is the search from `s + 1`
      have hstep : strchrFrom L m c s = strchrFrom L m c (s + 1) := by
        -- the address where both end
        have hex : ∃ t, s + 1 ≤ t ∧ t < L ∧ (m t = c ∨ m t = 0) ∧ ∀ b, s + 1 ≤ b → b < t → m b ≠ c ∧ m b ≠ 0 := by
          have hz : ∃ t, s + 1 ≤ t ∧ (m t = c ∨ m t = 0) ∧ t ≤ s + (bs.length + 1) :=
            ⟨s + (bs.length + 1), by omega, .inr (by simpa using h.end_zero), by omega⟩
          obtain ⟨t, ht, hmin⟩ : ∃ t, (s + 1 ≤ t ∧ (m t = c ∨ m t = 0) ∧ t ≤ s + (bs.length + 1)) ∧
              ∀ b, b < t → ¬ (s + 1 ≤ b ∧ (m b = c ∨ m b = 0) ∧ b ≤ s + (bs.length + 1)) := by
            classical
            obtain ⟨t0, ht0⟩ := hz
            induction t0 using Nat.strongRecOn with
            | ind t0 iht =>
              by_cases hx : ∃ b, b < t0 ∧ (s + 1 ≤ b ∧ (m b = c ∨ m b = 0) ∧ b ≤ s + (bs.length + 1))
              · obtain ⟨b, hb1, hb2⟩ := hx
                exact iht b hb1 hb2
              · exact ⟨t0, ht0, fun b hb1 hb2 => hx ⟨b, hb1, hb2⟩⟩
          refine ⟨t, ht.1, by simp at hL; omega, ht.2.1, fun b h1 h2 => ?_⟩
          have := hmin b h2
          constructor <;> intro e <;> exact this ⟨h1, by simp [e], by omega⟩
        obtain ⟨t, h1, h2, h3, h4⟩ := hex
        rw [strchrFrom_spec L h8 m hm c hc t (s + 1) h1 h2 h3 h4,
          strchrFrom_spec L h8 m hm c hc t s (by omega) h2 h3 (fun x hx1 hx2 => ?_)]
        by_cases hxs : x = s
        · subst hxs; exact ⟨by rw [hb]; exact hbc, by rw [hb]; exact hb0⟩
        · exact h4 x (by omega) hx2
      rw [hstep, this]
      simp only [List.cons_append, List.idxOf?, List.findIdx?_cons]
      have : (b == c) = false := by simpa using hbc
      rw [this]
      simp only [Bool.false_eq_true, if_false, Option.map_map]
      congr 2
      funext i
      simp; omega

theorem Holds.cons {m : Mem} {s b : Nat} {bs : List Nat} : Holds m s (b :: bs) ↔ m s = b ∧ Holds m (s + 1) bs := by
  constructor
  · intro h
    refine ⟨h 0 (by simp), fun i hi => ?_⟩
    have := h (i + 1) (by simp; omega)
    rw [show s + 1 + i = s + (i + 1) by omega, this]; simp
  · rintro ⟨h0, h1⟩ i hi
    cases i with
    | zero => simpa using h0
    | succ i =>
      have := h1 i (by simp at hi; omega)
      rw [show s + (i + 1) = s + 1 + i by omega, this]; simp

theorem put_get (m : Mem) (a b x : Nat) : put m a b x = if x = a then b else m x := rfl

theorem strcpy_spec (L : Nat) (m : Mem) (d s : Nat) (bs : List Nat) (h : CStr m s bs) (hs : s + bs.length < L)
    (hd : d + bs.length < L) (hov : d + bs.length < s ∨ s + bs.length < d) :
    ∃ m', strcpy L m d s = some m' ∧ Written m m' d (bs ++ [0]) := by
  induction bs generalizing m d s with
  | nil =>
    unfold strcpy
    have h0 := h.nil
    simp only [List.length_nil, Nat.add_zero] at hs hd
    rw [dif_pos ⟨hs, hd⟩, if_pos h0]
    refine ⟨_, rfl, ?_, fun a ha => ?_⟩
    · rw [List.nil_append, Holds.cons]
      exact ⟨by rw [put_get, if_pos rfl, h0], fun i hi => by simp at hi⟩
    · rw [put_get, if_neg]; simp at ha; omega
  | cons b bs ih =>
    obtain ⟨hb, hb0⟩ := h.head
    simp only [List.length_cons] at hs hd hov
    unfold strcpy
    rw [dif_pos (by omega), if_neg (by rw [hb]; exact hb0)]
    obtain ⟨m', e, h1, h2⟩ := ih (put m d (m s)) (d + 1) (s + 1)
      (h.tail.congr fun a ha1 ha2 => by rw [put_get, if_neg (by omega)]) (by omega) (by omega) (by omega)
    refine ⟨m', e, ?_, fun a ha => ?_⟩
    · rw [List.cons_append, Holds.cons]
      refine ⟨?_, h1⟩
      rw [h2 d (by omega), put_get, if_pos rfl, hb]
    · simp only [List.length_append, List.length_cons, List.length_nil] at ha h2
      rw [h2 a (by omega), put_get, if_neg (by omega)]

theorem strncatLoop_spec (L : Nat) (m : Mem) (n d s : Nat) (bs : List Nat) (h : CStr m s bs) (hs : s + bs.length < L)
    (hd : d + bs.length < L) (hov : d + bs.length < s ∨ s + bs.length < d) :
    ∃ m', strncatLoop L n d s m = some m' ∧ Written m m' d ((bs ++ [0]).take n) := by
  induction n generalizing m d s bs with
  | zero => exact ⟨m, rfl, fun i hi => by simp at hi, fun a _ => rfl⟩
  | succ n ih =>
    unfold strncatLoop
    cases bs with
    | nil =>
      have h0 := h.nil
      simp only [List.length_nil, Nat.add_zero] at hs hd
      rw [if_pos ⟨hs, hd⟩, if_pos h0]
      refine ⟨_, rfl, ?_, fun a ha => ?_⟩
      · simp only [List.nil_append, List.take_succ_cons, List.take_nil]
        rw [Holds.cons]
        exact ⟨by rw [put_get, if_pos rfl, h0], fun i hi => by simp at hi⟩
      · rw [put_get, if_neg]; simp at ha; omega
    | cons b bs =>
      obtain ⟨hb, hb0⟩ := h.head
      simp only [List.length_cons] at hs hd hov
      rw [if_pos (by omega), if_neg (by rw [hb]; exact hb0)]
      obtain ⟨m', e, h1, h2⟩ := ih (put m d (m s)) (d + 1) (s + 1) bs
        (h.tail.congr fun a ha1 ha2 => by rw [put_get, if_neg (by omega)]) (by omega) (by omega) (by omega)
      refine ⟨m', e, ?_, fun a ha => ?_⟩
      · rw [List.cons_append, List.take_succ_cons, Holds.cons]
        refine ⟨?_, h1⟩
        rw [h2 d (by omega), put_get, if_pos rfl, hb]
      · simp only [List.cons_append, List.take_succ_cons, List.length_cons] at ha
        rw [h2 a (by omega), put_get, if_neg (by omega)]

theorem filled_written (m m' : Mem) (d n c : Nat) : Filled m m' d n c ↔ Written m m' d (List.replicate n c) := by
  unfold Filled Written Holds
  constructor
  · intro h
    refine ⟨fun i hi => ?_, fun a ha => ?_⟩
    · simp at hi
      rw [h, if_pos (by omega)]; simp
    · simp at ha
      rw [h, if_neg (by omega)]
  · rintro ⟨h1, h2⟩ a
    split
    · next ha =>
      have := h1 (a - d) (by simp; omega)
      rw [Nat.add_sub_cancel' ha.1] at this
      rw [this]; simp
    · next ha => exact h2 a (by simp; omega)

/-- `strncpy`, with the condition under which its call of `memset` is right. -/
theorem strncpy_spec (L : Nat) (m : Mem) (n d s : Nat) (bs : List Nat) (h : CStr m s bs) (hs : s + bs.length < L)
    (hd : d + n ≤ L) (hov : d + n ≤ s ∨ s + bs.length < d)
    (ha : n ≤ bs.length ∨ (d + bs.length) % 8 = 0 ∨ 8 ≤ (d + bs.length) % 8 + (n - bs.length)) :
    ∃ m', strncpy L n d s m = some m' ∧ Written m m' d (bs.take n ++ List.replicate (n - bs.length) 0) := by
  induction n generalizing m d s bs with
  | zero => exact ⟨m, rfl, fun i hi => by simp at hi, fun a _ => rfl⟩
  | succ n ih =>
    unfold strncpy
    cases bs with
    | nil =>
      have h0 := h.nil
      simp only [List.length_nil, Nat.add_zero] at hs
      rw [if_pos hs]
      rw [if_neg (by simp [h0])]
      obtain ⟨m', e, h1⟩ := memsetFrom_spec L 0 (n + 1) d m hd (by simp at ha; omega)
      refine ⟨m', e, ?_⟩
      rw [filled_written] at h1
      simpa using h1
    | cons b bs =>
      obtain ⟨hb, hb0⟩ := h.head
      simp only [List.length_cons] at hs ha hov
      rw [if_pos (by omega), if_pos (by rw [hb]; exact hb0), if_pos (by omega)]
      obtain ⟨m', e, h1, h2⟩ := ih (put m d (m s)) (d + 1) (s + 1) bs
        (h.tail.congr fun a ha1 ha2 => by rw [put_get, if_neg (by omega)]) (by omega) (by omega) (by omega)
        (by rw [show d + 1 + bs.length = d + (bs.length + 1) by omega]; omega)
      simp only [List.length_append, List.length_take, List.length_replicate] at h2
      refine ⟨m', e, ?_, fun a ha => ?_⟩
      · rw [List.take_succ_cons, List.cons_append, Holds.cons, List.length_cons, Nat.add_sub_add_right]
        refine ⟨?_, h1⟩
        rw [h2 d (by omega), put_get, if_pos rfl, hb]
      · simp only [List.take_succ_cons, List.cons_append, List.length_cons, List.length_append, List.length_take,
          List.length_replicate, Nat.add_sub_add_right] at ha
        rw [h2 a (by omega), put_get, if_neg (by omega)]

/-! ## Comparisons -/

theorem orders_cons_eq (r : Int) (b : Nat) (x y : List Nat) : Orders r (b :: x) (b :: y) ↔ Orders r x y := by
  unfold Orders
  simp [List.cons_lt_cons_iff]

theorem orders_cons_ne (a b : Nat) (x y : List Nat) (h : a ≠ b) : Orders ((a : Int) - b) (a :: x) (b :: y) := by
  unfold Orders
  simp only [List.cons_lt_cons_iff, List.cons.injEq]
  refine ⟨by omega, by omega, by omega⟩

theorem orders_nil : Orders 0 [] [] := by
  unfold Orders; simp

theorem memcmp_spec (L : Nat) (m : Mem) (x y : Nat) (xs ys : List Nat) (hlen : xs.length = ys.length) (hx : Holds m x xs) (hy : Holds m y ys)
    (hxL : x + xs.length ≤ L) (hyL : y + xs.length ≤ L) : ∃ r, memcmp L m x y xs.length = some r ∧ Orders r xs ys := by
  induction xs generalizing x y ys with
  | nil =>
    obtain rfl : ys = [] := by cases ys <;> simp_all
    exact ⟨0, rfl, orders_nil⟩
  | cons a xs ih =>
    cases ys with
    | nil => simp at hlen
    | cons b ys =>
      rw [Holds.cons] at hx hy
      simp only [List.length_cons] at hlen hxL hyL
      rw [List.length_cons]
      unfold memcmp
      rw [if_pos (by omega), hx.1, hy.1]
      by_cases hab : a = b
      · subst hab
        rw [if_neg (by simp)]
        obtain ⟨r, e, h⟩ := ih (x + 1) (y + 1) ys (by omega) hx.2 hy.2 (by omega) (by omega)
        exact ⟨r, e, (orders_cons_eq r a xs ys).mpr h⟩
      · rw [if_pos hab]
        exact ⟨_, rfl, orders_cons_ne a b xs ys hab⟩

theorem strcmp_spec (L : Nat) (m : Mem) (x y : Nat) (xs ys : List Nat) (hx : CStr m x xs) (hy : CStr m y ys)
    (hxL : x + xs.length < L) (hyL : y + ys.length < L) : ∃ r, strcmp L m x y = some r ∧ Orders r xs ys := by
  induction xs generalizing x y ys with
  | nil =>
    have h0 := hx.nil
    unfold strcmp
    simp only [List.length_nil] at hxL
    rw [dif_pos (by omega), if_neg (by simp [h0])]
    refine ⟨_, rfl, ?_⟩
    rw [h0]
    cases ys with
    | nil => rw [hy.nil]; exact orders_nil
    | cons b ys =>
      obtain ⟨hb, hb0⟩ := hy.head
      rw [hb]
      unfold Orders
      simp; omega
  | cons a xs ih =>
    obtain ⟨ha, ha0⟩ := hx.head
    simp only [List.length_cons] at hxL
    unfold strcmp
    rw [dif_pos (by omega), ha]
    cases ys with
    | nil =>
      rw [hy.nil, if_neg (by omega)]
      refine ⟨_, rfl, ?_⟩
      unfold Orders
      simp; omega
    | cons b ys =>
      obtain ⟨hb, hb0⟩ := hy.head
      simp only [List.length_cons] at hyL
      rw [hb]
      by_cases hab : a = b
      · subst hab
        rw [if_pos ⟨rfl, ha0⟩]
        obtain ⟨r, e, h⟩ := ih (x + 1) (y + 1) ys hx.tail hy.tail (by omega) (by omega)
        exact ⟨r, e, (orders_cons_eq r a xs ys).mpr h⟩
      · rw [if_neg (fun h => hab h.1)]
        exact ⟨_, rfl, orders_cons_ne a b xs ys hab⟩

theorem strncmp_spec (L : Nat) (m : Mem) (n x y : Nat) (xs ys : List Nat) (hx : CStr m x xs) (hy : CStr m y ys)
    (hxL : x + xs.length < L) (hyL : y + ys.length < L) :
    ∃ r, strncmp L m x y n = some r ∧ Orders r (xs.take n) (ys.take n) := by
  induction n generalizing x y xs ys with
  | zero => exact ⟨0, rfl, by simpa using orders_nil⟩
  | succ n ih =>
    unfold strncmp
    rw [if_pos (by omega)]
    cases xs with
    | nil =>
      have h0 := hx.nil
      rw [h0, if_pos (by simp)]
      refine ⟨_, rfl, ?_⟩
      cases ys with
      | nil => rw [hy.nil]; simpa using orders_nil
      | cons b ys =>
        obtain ⟨hb, hb0⟩ := hy.head
        rw [hb]
        unfold Orders
        simp; omega
    | cons a xs =>
      obtain ⟨ha, ha0⟩ := hx.head
      simp only [List.length_cons] at hxL
      rw [ha]
      cases ys with
      | nil =>
        rw [hy.nil, if_pos (by omega)]
        refine ⟨_, rfl, ?_⟩
        unfold Orders
        simp; omega
      | cons b ys =>
        obtain ⟨hb, hb0⟩ := hy.head
        simp only [List.length_cons] at hyL
        rw [hb, List.take_succ_cons, List.take_succ_cons]
        by_cases hab : a = b
        · subst hab
          rw [if_neg (by simp [ha0])]
          obtain ⟨r, e, h⟩ := ih (x + 1) (y + 1) xs ys hx.tail hy.tail (by omega) (by omega)
          exact ⟨r, e, (orders_cons_eq r a _ _).mpr h⟩
        · rw [if_pos (.inl hab)]
          exact ⟨_, rfl, orders_cons_ne a b _ _ hab⟩

end Verif.Str
