import Verif.Time.FormatConv

/-!
# `strftime` stays inside its buffer for arbitrary fields
-/

namespace Verif.Time

/-- `f` outputs some text. -/
def Out (max : Nat) (f : Buf → Option (Bool × Buf)) : Prop := ∃ T, Emits max f T

/-- The three additions in `emit_one` do not overflow. -/
structure NoOverflow (tm : Tm) : Prop where
  year : InInt (tm.year + 1900)
  mon : InInt (tm.mon + 1)
  yday : InInt (tm.yday + 1)

theorem out_name (max : Nat) (table : List String) (i last : Int) (h : last < table.length) :
    Out max (fun b => appendName max b table i last) := by
  by_cases hi : i < 0 ∨ i > last
  · refine ⟨[], ?_⟩
    have e : (fun b => appendName max b table i last) = fun b => some (false, b) := by
      funext b; unfold appendName; rw [if_pos hi]
    rw [e]; exact emits_nil max
  · have hlt : i.toNat < table.length := by omega
    exact ⟨_, emits_name (by omega) (by omega) (by rw [List.getElem?_eq_getElem hlt]; rfl)⟩

/-- Any format outputs some text if its conversions do. -/
theorem out_format (emit : Buf → Char → Option (Bool × Buf)) (max : Nat)
    (h : ∀ c, Out max (fun b => emit b c)) (fmt : List Char) :
    Out max (fun b => format emit max b fmt) := by
  induction hn : fmt.length using Nat.strongRecOn generalizing fmt with
  | _ n ih =>
    subst hn
    match fmt with
    | [] => rw [format_nil]; exact ⟨_, emits_nil max⟩
    | c :: s =>
      by_cases hc : c = '%'
      · subst hc
        match s with
        | [] => rw [format_bare]; exact ⟨_, emits_char max '%'⟩
        | m :: s =>
          by_cases hm : m = 'E' ∨ m = 'O'
          · match s with
            | [] => rw [format_bareMod _ _ _ hm]; exact ⟨_, emits_char max '%'⟩
            | c :: s =>
              rw [format_mod _ _ _ _ _ hm]
              obtain ⟨T, hT⟩ := h c
              obtain ⟨U, hU⟩ := ih s.length (by simp; omega) s rfl
              exact ⟨_, emits_seq hT hU⟩
          · rw [format_conv _ _ _ _ (fun e => hm (.inl e)) (fun e => hm (.inr e))]
            obtain ⟨T, hT⟩ := h m
            obtain ⟨U, hU⟩ := ih s.length (by simp; omega) s rfl
            exact ⟨_, emits_seq hT hU⟩
      · rw [format_lit _ _ _ _ hc]
        obtain ⟨U, hU⟩ := ih s.length (by simp) s rfl
        exact ⟨_, emits_seq (emits_char max c) hU⟩

theorem out_conv {tm : Tm} (ho : NoOverflow tm) (max : Nat) (rec : Buf → Char → Option (Bool × Buf)) (c : Char)
    (hsub : c ∈ composite → ∀ fmt : String, (∀ c ∈ fmt.toList, c ∉ composite) → Out max (fun b => format rec max b fmt.toList)) :
    Out max (fun b => emitConv tm max rec b c) := by
  have hy := chk32_ok ho.year
  have hm := chk32_ok ho.mon
  have hyd := chk32_ok ho.yday
  have ou : ∀ n w p, Out max (fun b => some (appendUint max b n w p)) := fun n w p => ⟨_, emits_uint max n w p⟩
  have oc : ∀ c, Out max (fun b => some (appendChar max b c)) := fun c => ⟨_, emits_char max c⟩
  unfold emitConv
  simp only [hy, hm, hyd, Option.bind_eq_bind, Option.bind_some, pure]
  by_cases k : c = 'Y'
  · simp only [if_pos k]; exact ou _ _ _
  simp only [if_neg k]
  clear k
  by_cases k : c = 'y'
  · simp only [if_pos k]; exact ou _ _ _
  simp only [if_neg k]
  clear k
  by_cases k : c = 'C'
  · simp only [if_pos k]; exact ou _ _ _
  simp only [if_neg k]
  clear k
  by_cases k : c = 'm'
  · simp only [if_pos k]; exact ou _ _ _
  simp only [if_neg k]
  clear k
  by_cases k : c = 'd'
  · simp only [if_pos k]; exact ou _ _ _
  simp only [if_neg k]
  clear k
  by_cases k : c = 'e'
  · simp only [if_pos k]; exact ou _ _ _
  simp only [if_neg k]
  clear k
  by_cases k : c = 'H'
  · simp only [if_pos k]; exact ou _ _ _
  simp only [if_neg k]
  clear k
  by_cases k : c = 'I'
  · simp only [if_pos k]; exact ou _ _ _
  simp only [if_neg k]
  clear k
  by_cases k : c = 'M'
  · simp only [if_pos k]; exact ou _ _ _
  simp only [if_neg k]
  clear k
  by_cases k : c = 'S'
  · simp only [if_pos k]; exact ou _ _ _
  simp only [if_neg k]
  clear k
  by_cases k : c = 'j'
  · simp only [if_pos k]; exact ou _ _ _
  simp only [if_neg k]
  clear k
  by_cases k : c = 'p'
  · simp only [if_pos k]; exact ⟨_, emits_str max _⟩
  simp only [if_neg k]
  clear k
  by_cases k : c = 'A'
  · simp only [if_pos k]; exact out_name max _ _ _ (by decide)
  simp only [if_neg k]
  clear k
  by_cases k : c = 'a'
  · simp only [if_pos k]; exact out_name max _ _ _ (by decide)
  simp only [if_neg k]
  clear k
  by_cases k : c = 'B'
  · simp only [if_pos k]; exact out_name max _ _ _ (by decide)
  simp only [if_neg k]
  clear k
  by_cases k : c = 'b' ∨ c = 'h'
  · simp only [if_pos k]; exact out_name max _ _ _ (by decide)
  simp only [if_neg k]
  clear k
  by_cases k : c = 'c'
  · simp only [if_pos k]; exact hsub (by rw [k]; decide) _ (by decide)
  simp only [if_neg k]
  clear k
  by_cases k : c = 'x'
  · simp only [if_pos k]; exact hsub (by rw [k]; decide) _ (by decide)
  simp only [if_neg k]
  clear k
  by_cases k : c = 'X'
  · simp only [if_pos k]; exact hsub (by rw [k]; decide) _ (by decide)
  simp only [if_neg k]
  clear k
  by_cases k : c = 'F'
  · simp only [if_pos k]; exact hsub (by rw [k]; decide) _ (by decide)
  simp only [if_neg k]
  clear k
  by_cases k : c = 'T'
  · simp only [if_pos k]; exact hsub (by rw [k]; decide) _ (by decide)
  simp only [if_neg k]
  clear k
  by_cases k : c = 'R'
  · simp only [if_pos k]; exact hsub (by rw [k]; decide) _ (by decide)
  simp only [if_neg k]
  clear k
  by_cases k : c = 'D'
  · simp only [if_pos k]; exact hsub (by rw [k]; decide) _ (by decide)
  simp only [if_neg k]
  clear k
  by_cases k : c = 'r'
  · simp only [if_pos k]; exact hsub (by rw [k]; decide) _ (by decide)
  simp only [if_neg k]
  clear k
  by_cases k : c = 'u'
  · simp only [if_pos k]; exact ou _ _ _
  simp only [if_neg k]
  clear k
  by_cases k : c = 'w'
  · simp only [if_pos k]; exact ou _ _ _
  simp only [if_neg k]
  clear k
  by_cases k : c = 'Z'
  · simp only [if_pos k]; exact ⟨_, emits_nil max⟩
  simp only [if_neg k]
  clear k
  by_cases k : c = 'n'
  · simp only [if_pos k]; exact oc _
  simp only [if_neg k]
  clear k
  by_cases k : c = 't'
  · simp only [if_pos k]; exact oc _
  simp only [if_neg k]
  clear k
  by_cases k : c = '%'
  · simp only [if_pos k]; exact oc _
  simp only [if_neg k]
  clear k
  refine Eq.subst (motive := fun f => Out max f) (Eq.symm ?_)
    ⟨_, emits_seq (emits_char max '%') (emits_char max c)⟩
  funext b
  show _ = match some (appendChar max b '%') with
    | none => none | some (true, b') => some (true, b') | some (false, b') => some (appendChar max b' c)
  rcases appendChar max b '%' with ⟨_ | _, b'⟩ <;> rfl

theorem out_simple {tm : Tm} (ho : NoOverflow tm) (max d : Nat) (c : Char) (hc : c ∉ composite) :
    Out max (fun b => emitOne tm max (d + 1) b c) :=
  out_conv ho max (emitOne tm max d) c (fun h => absurd h hc)

/-- A format without composite conversions only needs them not to occur. -/
theorem out_format_simple (emit : Buf → Char → Option (Bool × Buf)) (max : Nat)
    (h : ∀ c, c ∉ composite → Out max (fun b => emit b c)) (fmt : List Char) (hf : ∀ c ∈ fmt, c ∉ composite) :
    Out max (fun b => format emit max b fmt) := by
  have h2 := out_format (fun b c => if c ∈ composite then some (false, b) else emit b c) max (by
    intro c
    by_cases hc : c ∈ composite
    · simp only [if_pos hc]; exact ⟨_, emits_nil max⟩
    · simp only [if_neg hc]; exact h c hc) fmt
  have e : ∀ fmt : List Char, (∀ c ∈ fmt, c ∉ composite) → ∀ b,
      format (fun b c => if c ∈ composite then some (false, b) else emit b c) max b fmt = format emit max b fmt := by
    intro fmt
    induction hn : fmt.length using Nat.strongRecOn generalizing fmt with
    | _ n ih =>
      subst hn
      intro hf b
      have cong : ∀ (f f' g g' : Buf → Option (Bool × Buf)), (∀ b, f b = f' b) → (∀ b, g b = g' b) →
          andThen f g b = andThen f' g' b := by
        intro f f' g g' h1 h2
        rw [funext h1, funext h2]
      match fmt with
      | [] => rw [congrFun (format_nil _ max) b, congrFun (format_nil _ max) b]
      | c :: s =>
        by_cases hc : c = '%'
        · subst hc
          match s with
          | [] => rw [congrFun (format_bare _ max) b, congrFun (format_bare _ max) b]
          | m :: s =>
            by_cases hm : m = 'E' ∨ m = 'O'
            · match s with
              | [] => rw [congrFun (format_bareMod _ max _ hm) b, congrFun (format_bareMod _ max _ hm) b]
              | c :: s =>
                rw [congrFun (format_mod _ max _ _ _ hm) b, congrFun (format_mod _ max _ _ _ hm) b]
                apply cong
                · intro b; exact if_neg (hf c (by simp))
                · intro b; exact ih s.length (by simp; omega) s rfl (fun c hc => hf c (by simp [hc])) b
            · have n1 : m ≠ 'E' := fun e => hm (.inl e)
              have n2 : m ≠ 'O' := fun e => hm (.inr e)
              rw [congrFun (format_conv _ max _ _ n1 n2) b, congrFun (format_conv _ max _ _ n1 n2) b]
              apply cong
              · intro b; exact if_neg (hf m (by simp))
              · intro b; exact ih s.length (by simp; omega) s rfl (fun c hc => hf c (by simp [hc])) b
        · rw [congrFun (format_lit _ max _ _ hc) b, congrFun (format_lit _ max _ _ hc) b]
          apply cong
          · intro b; rfl
          · intro b; exact ih s.length (by simp) s rfl (fun c hc => hf c (by simp [hc])) b
  rw [funext (e fmt hf)] at h2
  exact h2

theorem out_all {tm : Tm} (ho : NoOverflow tm) (max d : Nat) (c : Char) :
    Out max (fun b => emitOne tm max (d + 2) b c) :=
  out_conv ho max (emitOne tm max (d + 1)) c (fun _ fmt hf =>
    out_format_simple _ max (fun c hc => out_simple ho max d c hc) fmt.toList hf)

end Verif.Time
