import Verif.Stdio.Spec

namespace Verif.Stdio

variable {σ : Type}

theorem pending_length (f : File σ) : (pending f).length = f.avail := by
  simp [pending]

theorem pending_zero {f : File σ} (h : f.avail = 0) : pending f = [] := by
  simp [pending, h]

theorem pending_pop {f : File σ} (hs : Sound f) (h : f.avail ≠ 0) :
    pending f = f.cache (16 - f.avail) :: pending { f with avail := f.avail - 1 } := by
  obtain ⟨k, hk⟩ : ∃ k, f.avail = k + 1 := ⟨f.avail - 1, by omega⟩
  have h16 := hs.1
  unfold pending
  simp only [hk, Nat.add_sub_cancel]
  rw [List.range_succ_eq_map, List.map_cons, List.map_map]
  congr 1
  apply List.map_congr_left
  intro i _
  simp only [Function.comp_apply]
  congr 1
  omega

theorem getc_pop {R : Reader σ} {f : File σ} (h : f.avail ≠ 0) :
    getc R f = (Int.ofNat (f.cache (16 - f.avail)), { f with avail := f.avail - 1 }) := by
  simp [getc, h]

theorem getc_host {R : Reader σ} {f : File σ} (h : f.avail = 0) :
    getc R f = match stdioRead R f 1 with
      | (b :: _, f') => (Int.ofNat b, f')
      | ([], f') => (EOF, f') := by
  rw [getc, if_neg (by omega)]
  rfl

theorem stdioRead_cache {R : Reader σ} {f : File σ} {n : Nat} :
    (stdioRead R f n).2.avail = f.avail ∧ (stdioRead R f n).2.cache = f.cache := by
  unfold stdioRead
  split <;> simp

theorem getc_sound {R : Reader σ} {f : File σ} (hs : Sound f) : Sound (getc R f).2 := by
  unfold getc
  split
  · exact ⟨by have := hs.1; simp; omega, hs.2⟩
  · have := @stdioRead_cache σ R f 1
    split <;> rename_i e <;> rw [e] at this <;> simp only at this ⊢ <;>
      exact ⟨by rw [this.1]; exact hs.1, by rw [this.2]; exact hs.2⟩

theorem stdioRead_byte {R : Reader σ} (hR : Honest R) {f : File σ} {n : Nat} :
    (stdioRead R f n).1.length ≤ n ∧ ∀ b ∈ (stdioRead R f n).1, b < 256 := by
  unfold stdioRead
  split
  · simp
  · rename_i e
    exact hR _ _ _ _ e

/-- `getc` returns a byte or `EOF`. -/
theorem getc_cases {R : Reader σ} (hR : Honest R) {f : File σ} (hs : Sound f) :
    (getc R f).1 = EOF ∨ ∃ b : Nat, b < 256 ∧ (getc R f).1 = (b : Int) := by
  unfold getc
  split
  · exact .inr ⟨_, hs.2 _, rfl⟩
  · have := @stdioRead_byte σ R hR f 1
    split
    · rename_i e
      rw [e] at this
      exact .inr ⟨_, this.2 _ (by simp), rfl⟩
    · exact .inl rfl

theorem Reads.append {R : Reader σ} {f g h : File σ} {xs ys : List Nat} (a : Reads R f xs g)
    (b : Reads R g ys h) : Reads R f (xs ++ ys) h := by
  induction a with
  | nil => exact b
  | cons e l _ ih => exact .cons e l (ih b)

theorem Reads.snoc {R : Reader σ} {f g h : File σ} {xs : List Nat} {b : Nat} (a : Reads R f xs g)
    (e : getc R g = (Int.ofNat b, h)) (l : b < 256) : Reads R f (xs ++ [b]) h :=
  a.append (.cons e l (.nil _))

theorem Reads.bytes {R : Reader σ} {f g : File σ} {xs : List Nat} (a : Reads R f xs g) :
    ∀ b ∈ xs, b < 256 := by
  induction a with
  | nil => simp
  | cons e l _ ih => simpa using ⟨l, ih⟩

theorem Reads.sound {R : Reader σ} {f g : File σ} {xs : List Nat} (a : Reads R f xs g)
    (hs : Sound f) : Sound g := by
  induction a with
  | nil => exact hs
  | cons e _ _ ih =>
    apply ih
    have := getc_sound (R := R) hs
    rwa [e] at this

/-! ### The reference machine -/

theorem step_get {R : Reader σ} {f : File σ} (hs : Sound f) :
    let r := refStep R .get (pending f, f.host)
    (getc R f).1 = (match r.1 with | some b => (b : Int) | none => EOF) ∧
      (pending (getc R f).2, (getc R f).2.host) = r.2 := by
  by_cases h : f.avail = 0
  · rw [pending_zero h, getc_host h]
    unfold stdioRead
    simp only [refStep]
    generalize R f.host 1 = r
    match r with
    | (.fail e, h') => exact ⟨rfl, by simp [pending, h]⟩
    | (.give [], h') => exact ⟨rfl, by simp [pending, h]⟩
    | (.give (b :: bs), h') => exact ⟨rfl, by simp [pending, h]⟩
  · rw [pending_pop hs h, getc_pop h]
    simp [refStep]

theorem step_unget {R : Reader σ} {f : File σ} (hs : Sound f) (c : Int) :
    let r := refStep R (.unget c) (pending f, f.host)
    ((ungetc c f).1 = EOF ↔ r.1 = none) ∧
      (pending (ungetc c f).2, (ungetc c f).2.host) = r.2 ∧ Sound (ungetc c f).2 := by
  simp only [refStep, pending_length, ungetc]
  by_cases hc : c = EOF
  · simp [hc, hs]
  by_cases h : f.avail < 16
  · rw [if_pos ⟨h, hc⟩, if_neg (by omega)]
    refine ⟨by simpa using hc, ?_, ?_, ?_⟩
    · simp only [Prod.mk.injEq, and_true]
      rw [pending_pop (f := { f with
        avail := f.avail + 1
        cache := fun i => if i = 16 - (f.avail + 1) then (c % 256).toNat else f.cache i
        eof := false })
        ⟨by simp only; omega, fun i => by simp only; split; omega; exact hs.2 i⟩ (by simp)]
      simp only [if_true, Nat.add_sub_cancel]
      congr 1
      unfold pending
      apply List.map_congr_left
      intro i hi
      rw [List.mem_range] at hi
      simp only at hi ⊢
      rw [if_neg (by omega)]
    · simp only; omega
    · intro i
      simp only
      split
      · omega
      · exact hs.2 i
  · rw [if_neg (by omega), if_pos (by omega)]
    simp [hs]

/-! ### `fgets` -/

theorem fgetsLoop_spec {R : Reader σ} (hR : Honest R) (s : Nat) (m0 : Nat → Nat) (f0 : File σ)
    (k i : Nat) (m : Nat → Nat) (f : File σ) (pre : List Nat)
    (hp : Reads R f0 pre f) (hs : Sound f0) (hi : pre.length = i) (h10 : 10 ∉ pre)
    (hm : Str.Written m0 m s pre) :
    ∃ bs g, Reads R f0 bs g ∧ pre.length ≤ bs.length ∧ bs.length ≤ i + k ∧ 10 ∉ bs.dropLast ∧
      ((fgetsLoop R s k i m f = (some bs.length, (fgetsLoop R s k i m f).2.1, g) ∧
          (bs.length = i + k ∨ bs.getLast? = some 10)) ∨
        (10 ∉ bs ∧ bs.length < i + k ∧
          getc R g = (EOF, (fgetsLoop R s k i m f).2.2) ∧
          (fgetsLoop R s k i m f).1 = (if bs = [] then none else some bs.length))) ∧
      Str.Written m0 (fgetsLoop R s k i m f).2.1 s bs := by
  induction k generalizing i m f pre with
  | zero =>
    refine ⟨pre, f, hp, by omega, by omega, fun h => h10 ((List.dropLast_subset _) h), .inl ⟨?_, .inl ?_⟩, ?_⟩
    · simp [fgetsLoop, hi]
    · omega
    · simpa [fgetsLoop] using hm
  | succ k ih =>
    have hsf := hp.sound hs
    rw [fgetsLoop]
    generalize hg : getc R f = r
    obtain ⟨c, f'⟩ := r
    have hcs := getc_cases hR hsf
    rw [hg] at hcs
    simp only at hcs ⊢
    rcases hcs with hc | ⟨b, hb, hc⟩
    · rw [if_pos hc]
      refine ⟨pre, f, hp, by omega, by omega, fun h => h10 ((List.dropLast_subset _) h), .inr ⟨h10, by omega, ?_, ?_⟩, hm⟩
      · rw [hg, hc]
      · simp only
        by_cases h0 : i = 0
        · have : pre = [] := List.length_eq_zero_iff.1 (by omega)
          simp [h0, this]
        · have : pre ≠ [] := by rintro rfl; simp at hi; omega
          simp [h0, this, hi]
    · have hne : c ≠ EOF := by unfold EOF; omega
      rw [if_neg hne]
      have hbv : (c % 256).toNat = b := by omega
      rw [hbv]
      have hr' : Reads R f0 (pre ++ [b]) f' := hp.snoc (by rw [hg, hc]; rfl) hb
      have hm' : Str.Written m0 (fun a => if a = s + i then b else m a) s (pre ++ [b]) := by
        refine ⟨fun j hj => ?_, fun a ha => ?_⟩
        · simp only [List.length_append, List.length_singleton] at hj
          by_cases hji : j = i
          · subst hji
            simp [← hi]
          · have : j < pre.length := by omega
            simp only
            rw [if_neg (by omega), List.getElem_append_left this]
            exact hm.1 j this
        · simp only [List.length_append, List.length_singleton] at ha
          simp only
          rw [if_neg (by omega)]
          exact hm.2 a (by omega)
      by_cases hn : c = 10
      · rw [if_pos hn]
        have hb10 : b = 10 := by omega
        refine ⟨pre ++ [b], f', hr', by simp, by simp; omega, by simpa using h10, .inl ⟨?_, .inr ?_⟩, hm'⟩
        · simp [hi]
        · simp [hb10]
      · rw [if_neg hn]
        obtain ⟨bs, g, h1, h2, h3, h4, h5, h6⟩ := ih (i + 1) _ f' (pre ++ [b]) hr'
          (by simp [hi]) (by simp [h10]; omega) hm'
        refine ⟨bs, g, h1, by simp at h2; omega, by omega, h4, ?_, h6⟩
        rcases h5 with ⟨ha, hb⟩ | ⟨ha, hb, hc, hd⟩
        · exact .inl ⟨ha, hb.imp (by omega) id⟩
        · exact .inr ⟨ha, by omega, hc, hd⟩

theorem written_zero {m0 m : Nat → Nat} {s : Nat} {bs : List Nat} (h : Str.Written m0 m s bs) :
    Str.Written m0 (fun a => if a = s + bs.length then 0 else m a) s (bs ++ [0]) := by
  refine ⟨fun j hj => ?_, fun a ha => ?_⟩
  · simp only [List.length_append, List.length_singleton] at hj
    by_cases hji : j = bs.length
    · subst hji; simp
    · have : j < bs.length := by omega
      simp only
      rw [if_neg (by omega), List.getElem_append_left this]
      exact h.1 j this
  · simp only [List.length_append, List.length_singleton] at ha
    simp only
    rw [if_neg (by omega)]
    exact h.2 a (by omega)

/-! ### Streams on a disk file -/

theorem disk_honest : Honest disk := by
  intro h n bs h' e
  simp only [disk, Prod.mk.injEq, Reply.give.injEq] at e
  rw [← e.1, List.length_map, List.length_take]
  refine ⟨by omega, fun b hb => ?_⟩
  rw [List.mem_map] at hb
  obtain ⟨x, _, rfl⟩ := hb
  exact x.2

theorem Unread.get_nil {f : File (List (Fin 256))} (h : Unread f []) :
    (getc disk f).1 = EOF ∧ Unread (getc disk f).2 [] := by
  obtain ⟨hs, ht⟩ := h
  have hl := congrArg List.length ht
  rw [List.length_append, List.length_map, pending_length, List.length_nil,
    Nat.add_eq_zero_iff] at hl
  have hh : f.host = [] := List.length_eq_zero_iff.1 hl.2
  rw [getc_host hl.1]
  simp only [stdioRead, disk, hh, List.take_nil, List.drop_nil, List.map_nil]
  refine ⟨trivial, ⟨hs.1, hs.2⟩, ?_⟩
  simp [pending, hl.1]

theorem Unread.get_cons {f : File (List (Fin 256))} {b : Nat} {t : List Nat}
    (h : Unread f (b :: t)) : (getc disk f).1 = (b : Int) ∧ Unread (getc disk f).2 t := by
  obtain ⟨hs, ht⟩ := h
  by_cases h0 : f.avail = 0
  · have hh : f.host.map Fin.val = b :: t := by simpa [pending, h0] using ht
    obtain ⟨x, xs, hx⟩ : ∃ x xs, f.host = x :: xs := by
      cases hf : f.host with
      | nil => rw [hf] at hh; simp at hh
      | cons x xs => exact ⟨x, xs, rfl⟩
    rw [hx, List.map_cons, List.cons.injEq] at hh
    rw [getc_host h0]
    simp only [stdioRead, disk, hx, List.take_succ_cons, List.take_zero, List.drop_succ_cons,
      List.drop_zero, List.map_cons, List.map_nil]
    refine ⟨by rw [hh.1]; rfl, ⟨hs.1, hs.2⟩, ?_⟩
    simp [pending, h0, hh.2]
  · have hp := pending_pop hs h0
    rw [hp] at ht
    simp only [List.cons_append, List.cons.injEq] at ht
    rw [getc_pop h0]
    exact ⟨by rw [ht.1]; rfl, ⟨by have := hs.1; simp only; omega, hs.2⟩, ht.2⟩

theorem Unread.reads {f g : File (List (Fin 256))} {t bs : List Nat} (h : Unread f t)
    (r : Reads disk f bs g) : ∃ t', t = bs ++ t' ∧ Unread g t' := by
  induction r generalizing t with
  | nil => exact ⟨t, rfl, h⟩
  | cons e hl _ ih =>
    cases t with
    | nil =>
      have := h.get_nil.1
      rw [e] at this
      simp [EOF] at this
    | cons x t =>
      have := h.get_cons
      rw [e] at this
      obtain ⟨t', h1, h2⟩ := ih this.2
      have h3 := this.1
      simp only [Int.ofNat_eq_natCast, Int.natCast_inj] at h3
      exact ⟨t', by rw [h1, h3]; simp, h2⟩

theorem upTo_eq {d : Nat} {bs t : List Nat} (h : d ∉ bs.dropLast) :
    (bs.getLast? = some d → upTo d (bs ++ t) = bs) ∧
    (d ∉ bs → upTo d (bs ++ t) = bs ++ upTo d t) := by
  induction bs with
  | nil => simp
  | cons b bs ih =>
    cases bs with
    | nil =>
      simp only [List.getLast?_singleton, Option.some.injEq, List.mem_singleton, List.cons_append,
        List.nil_append, upTo]
      refine ⟨fun e => by simp [e], fun e => ?_⟩
      rw [if_neg (by omega)]
    | cons c bs =>
      simp only [List.dropLast_cons₂, List.mem_cons, not_or] at h
      have h2 := ih (by simpa using h.2)
      have hbd : ¬ ((b : Int) = (d : Int)) := by omega
      refine ⟨fun e => ?_, fun e => ?_⟩
      · rw [List.getLast?_cons_cons] at e
        rw [List.cons_append, upTo, if_neg hbd, h2.1 e]
      · rw [List.cons_append, upTo, if_neg hbd, h2.2 (fun hm => e (List.mem_cons_of_mem _ hm))]
        rfl

/-! ### Writing and seeking -/

theorem stdioWrite_count (W : Writer σ) (f : File σ) (bs : List Nat) (n : Nat) (h0 : n ≠ 0) :
    (stdioWrite W f bs).1 = n ↔ ∃ h, W f.host bs = (.inr n, h) := by
  unfold stdioWrite
  generalize W f.host bs = r
  match r with
  | (.inl e, h) => simpa using fun e => h0 e.symm
  | (.inr k, h) => simp

theorem seek_regular (f : File Regular) (off : Int) (whence : Nat) (target : Int)
    (h : (if whence = 0 then (0 : Int) else if whence = 1 then f.host.pos
      else f.host.data.length) + off = target) :
    (0 ≤ target ∧ target ≤ 0x7FFFFFFF → stdioSeek Regular.seeker f off whence =
      (target, { f with eof := false, host := { f.host with pos := target.toNat } })) ∧
    (¬ (0 ≤ target ∧ target ≤ 0x7FFFFFFF) → (stdioSeek Regular.seeker f off whence).1 = -1) := by
  unfold stdioSeek Regular.seeker
  simp only [h]
  by_cases h1 : target < 0
  · rw [if_pos h1]
    exact ⟨fun h => by omega, fun _ => rfl⟩
  · rw [if_neg h1]
    by_cases h2 : target.toNat > 0x7FFFFFFF
    · simp only
      rw [if_pos h2]
      exact ⟨fun h => by omega, fun _ => rfl⟩
    · simp only
      rw [if_neg h2]
      have : (target.toNat : Int) = target := by omega
      rw [this]
      exact ⟨fun _ => rfl, fun h => by omega⟩

/-! ### `getdelim` -/

theorem stored_snoc {l : Line} {bs : List Nat} {b : Nat} (h : Stored l bs) :
    Stored { l with data := fun i => if i = bs.length then b else l.data i } (bs ++ [b]) := by
  intro i hi
  simp only [List.length_append, List.length_singleton] at hi
  by_cases e : i = bs.length
  · subst e; simp
  · simp only
    rw [if_neg e, List.getElem_append_left (by omega)]
    exact h i (by omega)

theorem getdelimLoop_spec {R : Reader σ} (hR : Honest R) (grow : Nat → Bool) (delim : Int)
    (f0 : File σ) (hs : Sound f0) (fuel : Nat) (l : Line) (f : File σ)
    (pre : List Nat) (hp : Reads R f0 pre f) (hst : Stored l pre) (hcap : pre.length < l.cap)
    (hd : ∀ b ∈ pre, (b : Int) ≠ delim) (hf : pre.length + fuel < 2 ^ 31) :
    GotSpec R grow delim f0 (getdelimLoop R grow delim fuel pre.length l f) := by
  induction fuel generalizing l f pre with
  | zero => simp [getdelimLoop, GotSpec]
  | succ fuel ih =>
    have hsf := hp.sound hs
    rw [getdelimLoop]
    generalize hg : getc R f = r
    obtain ⟨c, f'⟩ := r
    have hcs := getc_cases hR hsf
    rw [hg] at hcs
    simp only at hcs ⊢
    have hdl : ∀ b ∈ pre.dropLast, (b : Int) ≠ delim := fun b hb => hd b (List.dropLast_subset _ hb)
    rcases hcs with hc | ⟨b, hb, hc⟩
    · rw [if_pos hc]
      by_cases h0 : pre.length = 0
      · rw [if_pos h0]
        have : pre = [] := List.length_eq_zero_iff.1 h0
        exact ⟨pre, f, hp, hdl, .inl ⟨this, by rw [hg, hc]⟩⟩
      · rw [if_neg h0, finish, if_pos hcap]
        refine ⟨pre, f, hp, ?_, rfl, hcap, stored_snoc hst, hdl, .inr ⟨hd, by rw [hg, hc]⟩⟩
        rintro rfl
        simp at h0
    · have hne : c ≠ EOF := by unfold EOF; omega
      rw [if_neg hne]
      have hbv : (c % 256).toNat = b := by omega
      rw [hbv]
      have hr' : Reads R f0 (pre ++ [b]) f' := hp.snoc (by rw [hg, hc]; rfl) hb
      generalize hneed : l.cap * 2 % 2 ^ 32 = need
      by_cases hgr : pre.length + 1 ≥ l.cap ∧ grow need = false
      · rw [if_pos hgr]
        exact ⟨pre ++ [b], f', hr', by simpa using hd, .inr ⟨rfl, by simp, _, hgr.2⟩⟩
      · rw [if_neg hgr]
        generalize hl' : (if pre.length + 1 ≥ l.cap then { l with cap := need } else l) = l'
        have hl'd : l'.data = l.data := by rw [← hl']; split <;> rfl
        have hl'c : pre.length + 1 < l'.cap := by
          rw [← hl']
          split
          · simp only [Nat.reducePow] at hneed hf ⊢
            omega
          · omega
        rw [if_pos (by omega)]
        have hst' : Stored l' pre := by intro i hi; rw [hl'd]; exact hst i hi
        have hst2 := stored_snoc (b := b) hst'
        by_cases hdc : c = delim
        · rw [if_pos hdc, finish, if_pos hl'c]
          refine ⟨pre ++ [b], f', hr', by simp, by simp, hl'c, ?_, by simpa using hd, .inl ⟨b, ?_⟩⟩
          · have := stored_snoc (b := 0) hst2
            simpa only [List.length_append, List.length_singleton] using this
          · exact ⟨by simp, by omega, rfl⟩
        · rw [if_neg hdc]
          have := ih { l' with data := fun i => if i = pre.length then b else l'.data i } f'
            (pre ++ [b]) hr' hst2 (by simpa using hl'c)
            (by
              intro x hx
              rw [List.mem_append, List.mem_singleton] at hx
              rcases hx with hx | hx
              · exact hd x hx
              · omega)
            (by simp only [List.length_append, List.length_singleton]; omega)
          simpa only [List.length_append, List.length_singleton] using this

/-- On a disk file the loop ends. -/
theorem getdelimLoop_disk (grow : Nat → Bool) (delim : Int) (fuel n : Nat) (l : Line)
    (f : File (List (Fin 256))) (t : List Nat) (h : Unread f t) (hf : t.length < fuel) :
    getdelimLoop disk grow delim fuel n l f ≠ .more := by
  induction fuel generalizing n l f t with
  | zero => omega
  | succ fuel ih =>
    rw [getdelimLoop]
    have hfin : ∀ n (l : Line) (f : File (List (Fin 256))), finish n l f ≠ .more := by
      intro n l f
      unfold finish
      split <;> simp
    cases t with
    | nil =>
      have := h.get_nil
      generalize hg : getc disk f = r at this ⊢
      obtain ⟨c, f'⟩ := r
      simp only at this ⊢
      rw [if_pos this.1]
      split
      · simp
      · exact hfin _ _ _
    | cons x t =>
      have := h.get_cons
      generalize hg : getc disk f = r at this ⊢
      obtain ⟨c, f'⟩ := r
      simp only at this ⊢
      rw [if_neg (by rw [this.1]; unfold EOF; omega)]
      split
      · simp
      · generalize (if n + 1 ≥ l.cap then { l with cap := l.cap * 2 % 2 ^ 32 } else l) = l'
        by_cases h1 : n < l'.cap
        · rw [if_pos h1]
          by_cases h2 : c = delim
          · rw [if_pos h2]
            exact hfin _ _ _
          · rw [if_neg h2]
            exact ih _ _ _ t this.2 (by simp at hf; omega)
        · rw [if_neg h1]
          simp

/-! ### `fread` -/

theorem freadBytes_reads {R : Reader σ} (size : Nat) (f : File σ) :
    (freadBytes R size f).1 = (pending f).take size ++
      (if size ≤ f.avail then [] else (stdioRead R { f with avail := 0 } (size - f.avail)).1) ∧
    (size ≤ f.avail → (freadBytes R size f).2 = { f with avail := f.avail - size }) ∧
    (f.avail < size → (freadBytes R size f).2 =
      (stdioRead R { f with avail := 0 } (size - f.avail)).2) := by
  unfold freadBytes
  by_cases h : size ≤ f.avail
  · have e : (if f.avail < size then f.avail else size) = size := if_neg (by omega)
    simp only [e]
    rw [if_neg (by omega), if_pos h]
    refine ⟨?_, fun _ => rfl, fun h' => by omega⟩
    simp only [List.append_nil]
    unfold pending
    rw [← List.map_take]
    rw [List.take_range, Nat.min_eq_left h]
  · have e : (if f.avail < size then f.avail else size) = f.avail := if_pos (by omega)
    simp only [e, Nat.sub_self]
    rw [if_pos (by omega), if_neg h]
    refine ⟨?_, fun h' => by omega, fun _ => rfl⟩
    rw [List.take_of_length_le (by rw [pending_length]; omega)]
    rfl

theorem getc_eof_ne {b : Nat} : (Int.ofNat b) ≠ EOF := by
  unfold EOF
  simp

theorem pushAll_spec (R : Reader σ) (cs : List Nat) (f : File σ) (hs : Sound f)
    (hl : f.avail + cs.length ≤ 16) (hb : ∀ c ∈ cs, c < 256) :
    ∃ g, Reads R (pushAll cs f) cs.reverse g ∧ g.host = f.host ∧ g.err = f.err ∧
      pending g = pending f ∧ Sound g ∧ (∀ n, n < f.avail → g.avail = f.avail) ∧ g.avail = f.avail := by
  induction cs generalizing f with
  | nil => exact ⟨f, .nil f, rfl, rfl, rfl, hs, fun _ _ => rfl, rfl⟩
  | cons c cs ih =>
    simp only [List.length_cons] at hl
    have hc : c < 256 := hb c (by simp)
    have hcE : (c : Int) ≠ EOF := by unfold EOF; omega
    have hst := step_unget (R := R) hs (c : Int)
    simp only [refStep, pending_length] at hst
    rw [if_neg (by omega)] at hst
    have hav : (ungetc (c : Int) f).2.avail = f.avail + 1 := by
      rw [ungetc, if_pos ⟨by omega, hcE⟩]
    have herr : (ungetc (c : Int) f).2.err = f.err := by
      rw [ungetc, if_pos ⟨by omega, hcE⟩]
    obtain ⟨_, h2, h3⟩ := hst
    simp only [Prod.mk.injEq] at h2
    obtain ⟨g, h4, h5, h6, h7, h8, h9, h10⟩ := ih (ungetc (c : Int) f).2 h3 (by omega)
      (fun x hx => hb x (by simp [hx]))
    have hga : g.avail ≠ 0 := by omega
    have hbv : Str.byteOf (c : Int) = c := by unfold Str.byteOf; omega
    have hp := pending_pop h8 hga
    rw [h7, h2.1, hbv, List.cons.injEq] at hp
    refine ⟨{ g with avail := g.avail - 1 }, ?_, by simp [h5, h2.2], by simp [h6, herr], hp.2.symm,
      ⟨by have := h8.1; simp only; omega, h8.2⟩, ?_, ?_⟩
    · rw [List.reverse_cons]
      refine h4.snoc ?_ hc
      rw [getc_pop hga, ← hp.1]
    · intro n _; simp only; omega
    · simp only; omega

end Verif.Stdio
