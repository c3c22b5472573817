import Verif.Wasi.Spec

namespace Verif.Wasi

theorem covers_iff (name p : List Nat) : Covers name p ↔
    name.length ≤ p.length ∧ p.take name.length = name ∧
      (name.length < p.length → p[name.length]? = some 47) := by
  constructor
  · rintro (rfl | ⟨r, rfl⟩)
    · simp
    · simp
  · rintro ⟨h1, h2, h3⟩
    by_cases h : name.length < p.length
    · right
      refine ⟨p.drop (name.length + 1), ?_⟩
      have h4 := h3 h
      rw [List.getElem?_eq_getElem h, Option.some.injEq] at h4
      conv => lhs; rw [← List.take_append_drop name.length p]
      rw [h2, List.drop_eq_getElem_cons h, h4]
    · left
      rw [List.take_of_length_le (by omega)] at h2
      exact h2

theorem universal_iff {name : List Nat} (h : name ≠ [46, 47]) : universal name = true ↔ Here name := by
  simp [universal, Here, h]

theorem consider_no {absolute : Bool} {p : List Nat} {e : Entry} {best : Option (Entry × Nat)}
    (habs : absolute = decide (p.head? = some 47)) (hn : e.name ≠ [46, 47])
    (h : ∀ len, ¬ Fits e p len) : consider absolute p best e = best := by
  unfold consider
  by_cases hu : universal e.name = true
  · rw [if_pos hu]
    have hh := (universal_iff hn).1 hu
    by_cases ha : p.head? = some 47
    · rw [if_pos (by rw [habs]; simpa using ha)]
    · exact absurd (.inl ⟨hh, ha, rfl⟩) (h 0)
  · rw [if_neg hu]
    have hh : ¬ Here e.name := fun x => hu ((universal_iff hn).2 x)
    have hc : ¬ Covers e.name p := fun x => h _ (.inr ⟨hh, x, rfl⟩)
    rw [covers_iff] at hc
    simp only
    split
    · rfl
    split
    · rfl
    split
    · rfl
    split
    · rfl
    rename_i h1 h2 h3 h4
    exfalso
    refine hc ⟨by omega, by simpa using h3, fun h5 => ?_⟩
    exact Classical.not_not.1 fun h6 => h4 ⟨h5, h6⟩

theorem consider_yes {absolute : Bool} {p : List Nat} {e : Entry} {best : Option (Entry × Nat)}
    {len : Nat} (habs : absolute = decide (p.head? = some 47)) (hn : e.name ≠ [46, 47])
    (h : Fits e p len) : consider absolute p best e =
      match best with
      | none => some (e, len)
      | some (b, l) => if len > l then some (e, len) else some (b, l) := by
  unfold consider
  rcases h with ⟨hh, ha, rfl⟩ | ⟨hh, hc, rfl⟩
  · rw [if_pos ((universal_iff hn).2 hh), if_neg (by rw [habs]; simpa using ha)]
    match best with
    | none => rfl
    | some (b, l) => simp
  · rw [if_neg (fun x => hh ((universal_iff hn).1 x))]
    have hc' := (covers_iff _ _).1 hc
    have hne : e.name ≠ [] := fun x => hh (.inl x)
    have hhead : p.head? = e.name.head? := by
      rw [← hc'.2.1, List.head?_take, if_neg]
      intro h0
      exact hne (List.length_eq_zero_iff.1 h0)
    have hlen : 0 < e.name.length := List.length_pos_iff.2 hne
    simp only
    have ha : ¬ (absolute ≠ decide (0 < e.name.length ∧ e.name.head? = some 47)) := by
      rw [habs, hhead]
      simp [hlen]
    rw [if_neg ha, if_neg (by omega), if_neg (by simpa using hc'.2.1),
      if_neg (fun x => x.2 (hc'.2.2 x.1))]
    rfl

/-- What the search has found among the entries `pre`. -/
def Best (p : List Nat) (pre : List Entry) : Option (Entry × Nat) → Prop
  | none => ∀ e ∈ pre, ∀ len, ¬ Fits e p len
  | some (e, len) => Fits e p len ∧ ∃ l r, pre = l ++ e :: r ∧
      (∀ e' ∈ l, ∀ len', Fits e' p len' → len' < len) ∧
      (∀ e' ∈ r, ∀ len', Fits e' p len' → len' ≤ len)

theorem fits_unique {e : Entry} {p : List Nat} {a b : Nat} (h1 : Fits e p a) (h2 : Fits e p b) :
    a = b := by
  rcases h1 with ⟨x, _, rfl⟩ | ⟨x, _, rfl⟩ <;> rcases h2 with ⟨y, _, rfl⟩ | ⟨y, _, rfl⟩ <;>
    first | rfl | contradiction

theorem best_step {absolute : Bool} {p : List Nat} {pre : List Entry}
    {best : Option (Entry × Nat)} (habs : absolute = decide (p.head? = some 47)) {e : Entry}
    (hn : e.name ≠ [46, 47]) (h : Best p pre best) :
    Best p (pre ++ [e]) (consider absolute p best e) := by
  by_cases hf : ∃ len, Fits e p len
  · obtain ⟨len, hf⟩ := hf
    rw [consider_yes habs hn hf]
    match best, h with
    | none, h =>
      refine ⟨hf, pre, [], rfl, fun e' he' len' hf' => absurd hf' (h e' he' len'), by simp⟩
    | some (b, l), ⟨h1, x, y, h2, h3, h4⟩ =>
      simp only
      subst h2
      by_cases hl : len > l
      · rw [if_pos hl]
        refine ⟨hf, _, [], rfl, fun e' he' len' hf' => ?_, by simp⟩
        rw [List.mem_append, List.mem_cons] at he'
        rcases he' with he' | rfl | he'
        · have := h3 e' he' len' hf'; omega
        · have := fits_unique h1 hf'; omega
        · have := h4 e' he' len' hf'; omega
      · rw [if_neg hl]
        refine ⟨h1, x, y ++ [e], by simp, h3, fun e' he' len' hf' => ?_⟩
        rw [List.mem_append, List.mem_singleton] at he'
        rcases he' with he' | rfl
        · exact h4 e' he' len' hf'
        · have := fits_unique hf hf'; omega
  · have hf' : ∀ len, ¬ Fits e p len := fun len h => hf ⟨len, h⟩
    rw [consider_no habs hn hf']
    match best, h with
    | none, h =>
      intro e' he' len
      rw [List.mem_append, List.mem_singleton] at he'
      rcases he' with he' | rfl
      · exact h e' he' len
      · exact hf' len
    | some (b, l), ⟨h1, x, y, h2, h3, h4⟩ =>
      refine ⟨h1, x, y ++ [e], by simp [h2], h3, fun e' he' len' hfit => ?_⟩
      rw [List.mem_append, List.mem_singleton] at he'
      rcases he' with he' | rfl
      · exact h4 e' he' len' hfit
      · exact absurd hfit (hf' len')

theorem best_fold {absolute : Bool} {p : List Nat} (habs : absolute = decide (p.head? = some 47))
    (es pre : List Entry) (best : Option (Entry × Nat)) (hn : ∀ e ∈ es, e.name ≠ [46, 47])
    (h : Best p pre best) : Best p (pre ++ es) (es.foldl (consider absolute p) best) := by
  induction es generalizing pre best with
  | nil => simpa using h
  | cons e es ih =>
    rw [List.foldl_cons]
    have := ih (pre ++ [e]) _ (fun x hx => hn x (by simp [hx])) (best_step habs (hn e (by simp)) h)
    simpa using this

theorem plain_strip (path q : List Nat) (h : Plain path q) : stripDotSlash path = q := by
  induction h with
  | dot _ ih => rw [stripDotSlash]; exact ih
  | done h => rw [stripDotSlash]; exact h

theorem plain_head (path q : List Nat) (h : Plain path q) (ha : path.head? ≠ some 47) :
    q.head? ≠ some 47 := by
  induction h with
  | @dot r q _ ih =>
    apply ih
    intro h2
    have := List.head?_dropWhile_not (fun x : Nat => decide (x = 47)) r
    rw [h2] at this
    simp at this
  | done => exact ha

theorem dropWhile_slashes (l : List Nat) :
    ∃ k, l = List.replicate k 47 ++ l.dropWhile (· = 47) ∧ (l.dropWhile (· = 47)).head? ≠ some 47 := by
  refine ⟨(l.takeWhile (· = 47)).length, ?_, ?_⟩
  · have h1 : l.takeWhile (fun x => decide (x = 47)) =
        List.replicate (l.takeWhile (fun x => decide (x = 47))).length 47 := by
      rw [List.eq_replicate_iff]
      refine ⟨rfl, fun b hb => ?_⟩
      have := List.all_takeWhile (p := fun x : Nat => decide (x = 47)) (l := l)
      rw [List.all_eq_true] at this
      simpa using this b hb
    rw [← h1, List.takeWhile_append_dropWhile]
  · intro h2
    have := List.head?_dropWhile_not (fun x : Nat => decide (x = 47)) l
    rw [h2] at this
    simp at this

theorem trim_ne (name : List Nat) : trim name ≠ [46, 47] := by
  intro h
  have h2 := congrArg List.reverse h
  rw [trim, List.reverse_reverse] at h2
  have := List.head?_dropWhile_not (fun x : Nat => decide (x = 47)) name.reverse
  rw [h2] at this
  simp at this

theorem initLoop_names (ps : List Prestat) (fd n used : Nat) :
    ∀ e ∈ initLoop ps fd n used, e.name ≠ [46, 47] := by
  induction ps generalizing fd n used with
  | nil => simp [initLoop]
  | cons p ps ih =>
    unfold initLoop
    split
    · split
      · exact ih _ _ _
      · exact ih _ _ _
      · split
        · exact ih _ _ _
        · simp only
          split
          · simp
          · intro e he
            rw [List.mem_cons] at he
            rcases he with rfl | he
            · exact trim_ne _
            · exact ih _ _ _ e he
    · simp

theorem modeLoop_eq : ∀ (rest : List Nat) (access base : Nat) (x e : Bool),
    modeLoop rest access (base ||| (if x then 0o200 else 0) ||| (if e then 0o2000000 else 0)) =
    (if 43 ∈ rest then 2 else access) |||
      (base ||| (if x || decide (120 ∈ rest) then 0o200 else 0) |||
        (if e || decide (101 ∈ rest) then 0o2000000 else 0)) := by
  intro rest
  induction rest with
  | nil => intro access base x e; simp [modeLoop]
  | cons c cs ih =>
    intro access base x e
    rw [modeLoop]
    by_cases hc1 : c = 43
    · rw [if_pos hc1, ih]
      subst hc1
      simp
    · rw [if_neg hc1]
      by_cases hc2 : c = 120
      · rw [if_pos hc2]
        have := ih access base true e
        subst hc2
        have e2 : base ||| (if x = true then 128 else 0) ||| (if e = true then 524288 else 0) ||| 128
            = base ||| 128 ||| (if e = true then 524288 else 0) := by
          cases x <;> cases e <;> simp [Nat.or_assoc, Nat.or_comm 524288 128] <;>
            rw [← Nat.or_assoc, ← Nat.or_assoc] <;> simp
        rw [e2]
        simp only [if_true] at this
        rw [this]
        simp
      · rw [if_neg hc2]
        by_cases hc3 : c = 101
        · rw [if_pos hc3]
          have := ih access base x true
          subst hc3
          have e2 : base ||| (if x = true then 128 else 0) ||| (if e = true then 524288 else 0) ||| 524288
              = base ||| (if x = true then 128 else 0) ||| 524288 := by
            cases e <;> simp [Nat.or_assoc]
          rw [e2]
          simp only [if_true] at this
          rw [this]
          simp
        · rw [if_neg hc3, ih]
          have a1 : ¬ 43 = c := fun h => hc1 h.symm
          have a2 : ¬ 120 = c := fun h => hc2 h.symm
          have a3 : ¬ 101 = c := fun h => hc3 h.symm
          simp [a1, a2, a3]

theorem takeWhile_slashes (l : List Nat) : l.takeWhile (· = 47) = List.replicate (l.takeWhile (· = 47)).length 47 := by
  rw [List.eq_replicate_iff]
  refine ⟨rfl, fun b hb => ?_⟩
  have : ∀ l : List Nat, ∀ b ∈ l.takeWhile (· = 47), b = 47 := by
    intro l
    induction l with
    | nil => simp
    | cons x l ih =>
      intro b hb
      rw [List.takeWhile_cons] at hb
      split at hb
      · next h =>
        rcases List.mem_cons.mp hb with rfl | hb
        · simpa using h
        · exact ih b hb
      · simp at hb
  exact this l b hb

theorem trim_trimmed (name : List Nat) : Trimmed name (trim name) := by
  constructor
  · refine ⟨(name.reverse.takeWhile (· = 47)).length, ?_⟩
    have h1 := List.takeWhile_append_dropWhile (p := fun x : Nat => decide (x = 47)) (l := name.reverse)
    have h2 := congrArg List.reverse h1
    rw [List.reverse_append, List.reverse_reverse] at h2
    rw [takeWhile_slashes, List.reverse_replicate] at h2
    exact h2.symm
  · unfold trim
    rw [List.getLast?_reverse]
    intro h
    have := List.head?_dropWhile_not (fun x : Nat => decide (x = 47)) name.reverse
    rw [h] at this
    simp at this

theorem trim_length (name : List Nat) : (trim name).length ≤ name.length := by
  obtain ⟨k, h⟩ := (trim_trimmed name).1
  have := congrArg List.length h
  rw [List.length_append] at this
  omega

theorem initLoop_dirs (ps : List Prestat) (fd n used : Nat) (h16 : n + (dirs fd ps).length ≤ 16)
    (hlen : ∀ d ∈ dirs fd ps, d.2.length ≤ 256)
    (hpool : used + ((dirs fd ps).map fun d => d.2.length + 1).sum ≤ 1024) (hn : n < 16 ∨ dirs fd ps = []) :
    initLoop ps fd n used = (dirs fd ps).map fun d => ⟨d.1, trim d.2⟩ := by
  induction ps generalizing fd n used with
  | nil => rfl
  | cons p ps ih =>
    by_cases h : n < 16
    · cases p with
      | error => rw [initLoop, if_pos h]; exact ih (fd + 1) n used h16 hlen hpool (.inl h)
      | other => rw [initLoop, if_pos h]; exact ih (fd + 1) n used h16 hlen hpool (.inl h)
      | dir name short =>
        rw [initLoop, if_pos h]
        have hx := hlen (fd, name) (List.mem_cons_self ..)
        simp only [dirs, List.length_cons, List.map_cons, List.sum_cons] at h16 hpool hx ⊢
        have ht := trim_length name
        rw [if_neg (by omega), List.take_of_length_le hx, if_neg (by omega)]
        congr 1
        refine ih (fd + 1) (n + 1) (used + (trim name).length + 1) (by omega)
          (fun d hd => hlen d (List.mem_cons_of_mem _ hd)) (by omega) ?_
        by_cases h' : n + 1 < 16
        · exact .inl h'
        · exact .inr (List.length_eq_zero_iff.mp (by omega))
    · rw [hn.resolve_left h]
      cases p <;> rw [initLoop, if_neg h] <;> rfl

end Verif.Wasi
