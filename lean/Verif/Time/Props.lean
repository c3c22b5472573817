import Verif.Time.FormatSafe

/-!
# Properties C28–C31, C73: broken-down time and its text
-/

namespace Verif.Time

/-- The specification is well defined: every day has exactly one date. -/
theorem C28_calendar (n : Int) : ∃ x, DateOfDay n x ∧ ∀ x', DateOfDay n x' → x' = x := by
  obtain ⟨Y, mo, dm, _, _, _, _, _, _, hv, hdn⟩ := civil_date n
  refine ⟨_, date_of_dn n _ hv hdn, fun x' h' => ?_⟩
  obtain ⟨a, b⟩ := date_inv h'
  exact dn_inj _ _ a hv (by rw [b, hdn])

/-- ... and so every time has at most one broken-down form. -/
theorem C28_unique (t : Int) (a b : Tm) (ha : Denotes a t) (hb : Denotes b t) : a = b := by
  obtain ⟨a1, a2, a3, a4, a5, a6, a7, a8, a9, a10, a11, n, e, d, w, yd⟩ := ha
  obtain ⟨b1, b2, b3, b4, b5, b6, b7, b8, b9, b10, b11, n', e', d', w', yd'⟩ := hb
  have hn : n = n' := by omega
  subst hn
  obtain ⟨x, -, hx⟩ := C28_calendar n
  have hd := (hx _ d).trans (hx _ d').symm
  have i1 := (date_inv yd).2
  have i2 := (date_inv yd').2
  simp only [Date.mk.injEq] at hd
  obtain ⟨h1, h2, h3⟩ := hd
  have hy : a.year = b.year := by omega
  rw [hy] at i1
  cases a; cases b
  simp only at *
  rw [Tm.mk.injEq]
  refine ⟨?_, ?_, ?_, ?_, ?_, ?_, ?_, ?_, ?_⟩ <;> omega

/-- C28: for every `time_t` whose calendar year (and year minus 1900) is an `int`, `gmtime` and
`localtime` yield the broken-down form of that time. -/
theorem C28_gmtime (t : Int) (ht : InTime t) (x : Date) (hx : DateOfDay (t / 86400) x)
    (hy : InInt x.y) (hy' : InInt (x.y - 1900)) :
    ∃ tm, gmtime t = some tm ∧ localtime t = some tm ∧ Denotes tm t := by
  obtain ⟨tm, h1, -, h3, -⟩ := gmtime_eq t ht x hx ⟨by have := hy'.1; omega, hy.2⟩
  exact ⟨tm, h1, h1, h3⟩

/-- One second before the epoch: 1969-12-31T23:59:59Z, a Wednesday. -/
example : gmtime (-1) = some ⟨59, 59, 23, 31, 11, 69, 3, 364, 0⟩ := by decide +kernel

/-- The leap day of 2000. -/
example : gmtime 951782400 = some ⟨0, 0, 0, 29, 1, 100, 2, 59, 0⟩ ∧
    DateOfDay (-1) ⟨1969, 12, 31⟩ ∧ InTime 951782400 := by
  refine ⟨by decide +kernel, ?_, by unfold InTime; decide⟩
  exact .before (by unfold Date.Valid; decide) .epoch

/-- C29: `mktime` of the broken-down form of `t` returns `t` and leaves the structure unchanged;
in particular `mktime(gmtime(&t)) == t`. -/
theorem C29_mktime_gmtime (t : Int) (ht : InTime t) (x : Date) (hx : DateOfDay (t / 86400) x)
    (hy : InInt x.y) (hy' : InInt (x.y - 1900)) :
    ∃ tm, gmtime t = some tm ∧ mktime tm = some (t, tm) := by
  have hyy : -2147481748 ≤ x.y ∧ x.y ≤ 2147483647 := ⟨by have := hy'.1; omega, hy.2⟩
  obtain ⟨tm, h1, h2, h3, e1, e2, e3⟩ := gmtime_eq t ht x hx hyy
  refine ⟨tm, h1, ?_⟩
  obtain ⟨s1, s2, s3, s4, s5, s6, s7, s8, s9, s10, s11, n, e, d, w, yd⟩ := h3
  obtain ⟨hv, hdn⟩ := date_inv d
  obtain ⟨hxv, -⟩ := date_inv hx
  obtain ⟨v1, v2, v3, v4⟩ := hv
  simp only at v1 v2 v3 v4
  have hd31 : tm.mday ≤ 31 := by
    refine Int.le_trans v4 ?_
    unfold monthLen; split <;> (try split) <;> omega
  have hsec := seconds_eq tm (by unfold InInt; omega) (by omega) (by unfold InInt; omega)
    (by unfold InInt; omega) (by unfold InInt; omega) (by unfold InInt; omega)
  have q1 : tm.mon / 12 = 0 := by omega
  have q2 : tm.mon % 12 = tm.mon := by omega
  have q3 : dn ⟨tm.year + 1900, tm.mon + 1, 1⟩ + (tm.mday - 1) = n := by
    rw [← hdn]; unfold dn cycle; simp only; omega
  have q4 : 0 ≤ inCycle (tm.year + 1900 + tm.mon / 12) (tm.mon % 12 + 1) := by
    unfold inCycle; omega
  rw [if_neg (by omega), q1, q2, Int.add_zero (tm.year + 1900), q3] at hsec
  unfold mktime
  rw [hsec]
  simp only [Option.bind_eq_bind, Option.bind_some]
  have hte : (n + 0) * 86400 + tm.hour * 3600 + tm.min * 60 + tm.sec = t := by omega
  rw [hte, h2]
  rfl

/-- C30, partial: `mktime` of arbitrary fields is plain calendar arithmetic (months carried into
years, then days, hours, minutes, seconds added to the first of that month), and it rewrites the
structure to the broken-down form of the result.

The property fails for some nonpositive `tm_mday` (next theorem). The extra hypothesis `hc`
excludes exactly those: the requested day may not precede the last March 1 of a year divisible by
400 (719468 days before 1970-01-01 is 0000-03-01 and the cycle has 146097 days). Every
`tm_mday ≥ 1` satisfies it. -/
theorem C30_normalize_partial (tm : Tm) (first : Int) (t : Int) (x : Date)
    (hi : InInt (tm.year + 1900) ∧ InInt (tm.year + 1900 + tm.mon / 12) ∧
      InInt (tm.year + 1900 + tm.mon / 12 - 400))
    (hd : InInt tm.mday) (hh : InInt tm.hour) (hmi : InInt tm.min) (hs : InInt tm.sec)
    (hfirst : DateOfDay first ⟨tm.year + 1900 + tm.mon / 12, tm.mon % 12 + 1, 1⟩)
    (hc : 0 ≤ (first + 719468) % 146097 + (tm.mday - 1))
    (ht : t = (first + (tm.mday - 1)) * 86400 + tm.hour * 3600 + tm.min * 60 + tm.sec)
    (hx : DateOfDay (t / 86400) x) (hy : InInt x.y) (hy' : InInt (x.y - 1900)) :
    ∃ tm', mktime tm = some (t, tm') ∧ Denotes tm' t := by
  obtain ⟨hi1, hi2, hi3⟩ := hi
  have hdn := (date_inv hfirst).2
  have hr : -2147483248 ≤ tm.year + 1900 + tm.mon / 12 ∧ tm.year + 1900 + tm.mon / 12 ≤ 2147483647 :=
    ⟨by have := hi3.1; omega, hi2.2⟩
  have hsec := seconds_eq tm hi1 hr hd hh hmi hs
  unfold inCycle at hsec
  rw [hdn, if_neg (by omega)] at hsec
  have hte : (first + (tm.mday - 1) + 0) * 86400 + tm.hour * 3600 + tm.min * 60 + tm.sec = t := by omega
  rw [hte] at hsec
  have hb : -800000000000 ≤ first ∧ first ≤ 800000000000 := by
    rw [← hdn]
    unfold dn cycle
    simp only
    generalize tm.year + 1900 + tm.mon / 12 = y at *
    have : 0 ≤ tm.mon % 12 ∧ tm.mon % 12 < 12 := by omega
    generalize tm.mon % 12 = mm at *
    split <;> omega
  have hT : InTime t := by unfold InTime; unfold InInt at *; omega
  obtain ⟨tm', h1, h2, h3, -⟩ := gmtime_eq t hT x hx ⟨by have := hy'.1; omega, hy.2⟩
  refine ⟨tm', ?_, h3⟩
  unfold mktime
  rw [hsec]
  simp only [Option.bind_eq_bind, Option.bind_some, h2]
  rfl

/-- C30 is violated: March 0, 2000 is February 29, 2000 (day 11016), but `mktime` answers a time
2^32 days later, in the year 11761221. -/
theorem C30_nonpositive_day_wrong :
    mktime ⟨0, 0, 0, 0, 2, 100, 0, 0, 0⟩ =
      some ((11016 + 4294967296) * 86400, ⟨0, 0, 0, 20, 2, 11759321, 6, 78, 0⟩) ∧
    gmtime (11016 * 86400) = some ⟨0, 0, 0, 29, 1, 100, 2, 59, 0⟩ := by decide +kernel

/-- The hypotheses of `C30_normalize_partial` hold for "January 2026 plus -7 months and 40 days". -/
example : mktime ⟨-5, 61, 25, 40, -7, 126, 0, 0, 0⟩ = some (1752199255, ⟨55, 0, 2, 11, 6, 125, 5, 191, 0⟩) ∧
    (1752199255 : Int) = (20240 + (40 - 1)) * 86400 + 25 * 3600 + 61 * 60 + (-5) ∧
    0 ≤ ((20240 + 719468 : Int)) % 146097 + (40 - 1) := by decide +kernel

/-- C31: the specified text exists for every format, and is unique. -/
theorem C31_text_exists (tm : Tm) (fmt : List Char) : ∃ T, Text tm fmt T ∧ ∀ T', Text tm fmt T' → T' = T := by
  have key : ∀ n, ∀ fmt : List Char, fmt.length = n → ∃ T, Text tm fmt T ∧ ∀ T', Text tm fmt T' → T' = T := by
    intro n
    induction n using Nat.strongRecOn with
    | _ n ih =>
      intro fmt hn
      subst hn
      match fmt with
      | [] => exact ⟨_, .nil, fun T' h => by cases h; rfl⟩
      | c :: s =>
        by_cases hc : c = '%'
        · subst hc
          match s with
          | [] => exact ⟨_, .bare, fun T' h => by
              cases h with
              | lit h => exact absurd rfl h
              | bare => rfl⟩
          | m :: s =>
            by_cases hm : m = 'E' ∨ m = 'O'
            · match s with
              | [] => exact ⟨_, .bareModified hm, fun T' h => by
                  cases h with
                  | lit h => exact absurd rfl h
                  | conv h1 h2 => exact absurd hm (by simp [h1, h2])
                  | bareModified => rfl⟩
              | c :: s =>
                obtain ⟨T, h1, h2⟩ := ih s.length (by simp; omega) s rfl
                exact ⟨_, .modified hm h1, fun T' h => by
                  cases h with
                  | lit h => exact absurd rfl h
                  | conv h1 h2 => exact absurd hm (by simp [h1, h2])
                  | modified _ h => rw [h2 _ h]⟩
            · obtain ⟨T, h1, h2⟩ := ih s.length (by simp; omega) s rfl
              exact ⟨_, .conv (fun e => hm (.inl e)) (fun e => hm (.inr e)) h1, fun T' h => by
                cases h with
                | lit h => exact absurd rfl h
                | conv _ _ h => rw [h2 _ h]
                | modified h => exact absurd h hm
                | bareModified h => exact absurd h hm⟩
        · obtain ⟨T, h1, h2⟩ := ih s.length (by simp) s rfl
          exact ⟨_, .lit hc h1, fun T' h => by
            cases h with
            | lit _ h => rw [h2 _ h]
            | conv => exact absurd rfl hc
            | modified => exact absurd rfl hc
            | bare => exact absurd rfl hc
            | bareModified => exact absurd rfl hc⟩
  exact key _ fmt rfl

/-- C31: if the text and its terminator fit, `strftime` stores exactly them and returns the length
of the text; nothing else in memory changes. -/
theorem C31_fits (tm : Tm) (hs : Std tm) (fmt T : List Char) (hT : Text tm fmt T) (mem : Nat → Char) (max : Nat)
    (h : T.length < max) :
    ∃ mem', strftime mem max fmt tm = some (T.length, mem') ∧ (∀ i (hi : i < T.length), mem' i = T[i]) ∧
      mem' T.length = '\x00' ∧ ∀ j, T.length < j → mem' j = mem j := by
  have hE := emits_format hT (emit := emitOne tm (max - 1) 2) (max := max - 1) fun c _ => emit_all hs (max - 1) 0 c
  obtain ⟨b, hk, hb⟩ := hE ⟨mem, 0⟩ (Nat.zero_le _)
  simp only [Nat.zero_add] at hb
  rcases hb with ⟨_, he, hp, ha, ht⟩ | ⟨hlt, _⟩
  · refine ⟨(b.set b.pos '\x00').mem, ?_, ?_, ?_, ?_⟩
    · unfold strftime; rw [if_neg (by omega), he]; simp only [hp]
    · intro i hi; simp only [Buf.set, hp]; rw [if_neg (by omega)]; exact ht i hi
    · simp only [Buf.set, hp, if_pos]
    · intro j hj; simp only [Buf.set, hp]; rw [if_neg (by omega)]; exact ha j (by omega)
  · omega

/-- C31: otherwise it returns 0 and has not touched anything outside the buffer. -/
theorem C31_too_long (tm : Tm) (hs : Std tm) (fmt T : List Char) (hT : Text tm fmt T) (mem : Nat → Char) (max : Nat)
    (h : max ≤ T.length) :
    ∃ mem', strftime mem max fmt tm = some (0, mem') ∧ ∀ j, max ≤ j → mem' j = mem j := by
  by_cases h0 : max = 0
  · exact ⟨mem, by unfold strftime; rw [if_pos h0], fun _ _ => rfl⟩
  have hE := emits_format hT (emit := emitOne tm (max - 1) 2) (max := max - 1) fun c _ => emit_all hs (max - 1) 0 c
  obtain ⟨b, hk, hb⟩ := hE ⟨mem, 0⟩ (Nat.zero_le _)
  simp only [Nat.zero_add] at hb
  rcases hb with ⟨hle, _⟩ | ⟨_, he⟩
  · omega
  · exact ⟨b.mem, by unfold strftime; rw [if_neg h0, he], fun j hj => hk j (.inr (by omega))⟩

/-- C31: whatever the fields are (as long as adding 1900 or 1 to them does not overflow), any call
stays inside the buffer, and a nonzero result is the offset of a terminator inside it. -/
theorem C31_bounds (tm : Tm) (hy : InInt (tm.year + 1900)) (hm : InInt (tm.mon + 1)) (hd : InInt (tm.yday + 1))
    (fmt : List Char) (mem : Nat → Char) (max : Nat) :
    ∃ r mem', strftime mem max fmt tm = some (r, mem') ∧ (∀ j, max ≤ j → mem' j = mem j) ∧
      (r ≠ 0 → r < max ∧ mem' r = '\x00') := by
  by_cases h0 : max = 0
  · exact ⟨0, mem, by unfold strftime; rw [if_pos h0], fun _ _ => rfl, fun h => absurd rfl h⟩
  obtain ⟨T, hE⟩ := out_format (emitOne tm (max - 1) 2) (max - 1) (fun c => out_all ⟨hy, hm, hd⟩ (max - 1) 0 c) fmt
  obtain ⟨b, hk, hb⟩ := hE ⟨mem, 0⟩ (Nat.zero_le _)
  simp only [Nat.zero_add] at hb
  rcases hb with ⟨hle, he, hp, ha, ht⟩ | ⟨_, he⟩
  · refine ⟨T.length, (b.set b.pos '\x00').mem, ?_, ?_, fun _ => ⟨by omega, by simp only [Buf.set, hp, if_pos]⟩⟩
    · unfold strftime; rw [if_neg h0, he]; simp only [hp]
    · intro j hj; simp only [Buf.set, hp]; rw [if_neg (by omega)]; exact ha j (by omega)
  · exact ⟨0, b.mem, by unfold strftime; rw [if_neg h0, he], fun j hj => hk j (.inr (by omega)), fun h => absurd rfl h⟩

/-- The last two theorems are about something: "%F %T" of the Unix epoch. -/
example : Std ⟨0, 0, 0, 1, 0, 70, 4, 0, 0⟩ ∧
    Text ⟨0, 0, 0, 1, 0, 70, 4, 0, 0⟩ "%F %T".toList "1970-01-01 00:00:00".toList ∧
    (strftime (fun _ => 'x') 20 "%F %T".toList ⟨0, 0, 0, 1, 0, 70, 4, 0, 0⟩).map (fun r => (r.1, (List.range 21).map r.2)) =
      some (19, "1970-01-01 00:00:00\x00x".toList) := by
  refine ⟨by constructor <;> decide, ?_, by decide +kernel⟩
  have e : conv ⟨0, 0, 0, 1, 0, 70, 4, 0, 0⟩ 'F' ++ ' ' :: (conv ⟨0, 0, 0, 1, 0, 70, 4, 0, 0⟩ 'T' ++ []) =
      "1970-01-01 00:00:00".toList := by decide +kernel
  have e' : "%F %T".toList = ['%', 'F', ' ', '%', 'T'] := by decide
  rw [← e, e']
  exact .conv (by decide) (by decide) (.lit (by decide) (.conv (by decide) (by decide) .nil))

/-- C73: `asctime` never writes outside its 26-byte static buffer and always leaves a terminated
string in it, for any fields (the static buffer starts zeroed, and this is preserved). -/
theorem C73_asctime_bounds (tm : Tm) (hy : InInt (tm.year + 1900)) (hm : InInt (tm.mon + 1))
    (hd : InInt (tm.yday + 1)) (mem : Nat → Char) (h0 : mem 25 = '\x00') :
    ∃ mem', asctime mem tm = some mem' ∧ (∀ j, 26 ≤ j → mem' j = mem j) ∧ ∃ k, k < 26 ∧ mem' k = '\x00' := by
  obtain ⟨T, hE⟩ := out_format (emitOne tm 25 2) 25 (fun c => out_all ⟨hy, hm, hd⟩ 25 0 c) "%a %b %e %H:%M:%S %Y\n".toList
  obtain ⟨b, hk, hb⟩ := hE ⟨mem, 0⟩ (Nat.zero_le _)
  simp only [Nat.zero_add] at hb
  rcases hb with ⟨hle, he, hp, ha, ht⟩ | ⟨_, he⟩
  · refine ⟨(b.set b.pos '\x00').mem, ?_, ?_, T.length, by omega, by simp only [Buf.set, hp, if_pos]⟩
    · unfold asctime strftime; rw [if_neg (by decide), he]; rfl
    · intro j hj; simp only [Buf.set, hp]; rw [if_neg (by omega)]; exact ha j (by omega)
  · refine ⟨b.mem, ?_, fun j hj => hk j (.inr (by omega)), 25, by decide, ?_⟩
    · unfold asctime strftime; rw [if_neg (by decide), he]; rfl
    · rw [hk 25 (.inr (by decide))]; exact h0

/-- C73: for years 0 to 9999 it is the 25-character line of C11 7.27.3.1. -/
theorem C73_asctime_text (tm : Tm) (hs : Std tm) (hy : tm.year + 1900 ≤ 9999) (mem : Nat → Char) :
    ∃ mem', asctime mem tm = some mem' ∧
      (List.range 26).map mem' = (weekday tm).take 3 ++ [' '] ++ (monthName tm).take 3 ++ [' '] ++ dec 2 ' ' tm.mday ++
        [' '] ++ hms tm ++ [' '] ++ dec 4 '0' (tm.year + 1900) ++ ['\n', '\x00'] := by
  have hfmt : "%a %b %e %H:%M:%S %Y\n".toList = ['%', 'a', ' ', '%', 'b', ' ', '%', 'e', ' ', '%', 'H', ':', '%', 'M', ':', '%', 'S', ' ', '%', 'Y', '\n'] := by decide
  have hT : Text tm ['%', 'a', ' ', '%', 'b', ' ', '%', 'e', ' ', '%', 'H', ':', '%', 'M', ':', '%', 'S', ' ', '%', 'Y', '\n']
      (conv tm 'a' ++ (' ' :: (conv tm 'b' ++ (' ' :: (conv tm 'e' ++ (' ' :: (conv tm 'H' ++ (':' :: (conv tm 'M' ++ (':' :: (conv tm 'S' ++ (' ' :: (conv tm 'Y' ++ ('\n' :: ([]))))))))))))))) :=
    (.conv (by decide) (by decide) (.lit (by decide) (.conv (by decide) (by decide) (.lit (by decide) (.conv (by decide)
    (by decide) (.lit (by decide) (.conv (by decide) (by decide) (.lit (by decide) (.conv (by decide) (by decide)
    (.lit (by decide) (.conv (by decide) (by decide) (.lit (by decide) (.conv (by decide) (by decide) (.lit (by decide)
    .nil))))))))))))))
  rw [← hfmt] at hT
  have hlen2 : ∀ n : Int, 0 ≤ n → n ≤ 99 → ∀ p, (dec 2 p n).length = 2 := by
    intro n h0 h1 p
    obtain ⟨k, rfl⟩ := Int.eq_ofNat_of_zero_le h0
    have : ∀ k < 100, (Nat.toDigits 10 k).length ≤ 2 := by decide +kernel
    have := this k (by omega)
    simp only [dec, Int.toNat_natCast, List.length_append, List.length_replicate]
    omega
  have hlen4 : (dec 4 '0' (tm.year + 1900)).length = 4 := by
    have h0 := hs.year.1
    obtain ⟨k, hk⟩ := Int.eq_ofNat_of_zero_le h0
    rw [hk]
    have h3 : ∀ k < 1000, (Nat.toDigits 10 k).length ≤ 3 := by decide +kernel
    have : (Nat.toDigits 10 k).length ≤ 4 := by
      rw [Nat.toDigits_eq_if (by decide)]
      split
      · simp
      · have := h3 (k / 10) (by omega)
        simp; omega
    simp only [dec, Int.toNat_natCast, List.length_append, List.length_replicate]
    omega
  have hw : ((weekday tm).take 3).length = 3 := by
    have h7 := hs.wday
    have hw : tm.wday = 0 ∨ tm.wday = 1 ∨ tm.wday = 2 ∨ tm.wday = 3 ∨ tm.wday = 4 ∨ tm.wday = 5 ∨ tm.wday = 6 := by omega
    unfold weekday
    rcases hw with h | h | h | h | h | h | h <;> rw [h] <;> decide
  have hmn : ((monthName tm).take 3).length = 3 := by
    have h5 := hs.mon
    have hw : tm.mon = 0 ∨ tm.mon = 1 ∨ tm.mon = 2 ∨ tm.mon = 3 ∨ tm.mon = 4 ∨ tm.mon = 5 ∨ tm.mon = 6 ∨ tm.mon = 7 ∨
      tm.mon = 8 ∨ tm.mon = 9 ∨ tm.mon = 10 ∨ tm.mon = 11 := by omega
    unfold monthName
    rcases hw with h | h | h | h | h | h | h | h | h | h | h | h <;> rw [h] <;> decide
  have d1 := hlen2 tm.mday (by have := hs.mday; omega) (by have := hs.mday; omega) ' '
  have d2 := hlen2 tm.hour (by have := hs.hour; omega) (by have := hs.hour; omega) '0'
  have d3 := hlen2 tm.min (by have := hs.min; omega) (by have := hs.min; omega) '0'
  have d4 := hlen2 tm.sec (by have := hs.sec; omega) (by have := hs.sec; omega) '0'
  simp only [conv] at hT
  revert hT
  generalize (weekday tm).take 3 = W at *
  generalize (monthName tm).take 3 = M at *
  unfold hms
  generalize dec 2 ' ' tm.mday = D at *
  generalize dec 2 '0' tm.hour = H at *
  generalize dec 2 '0' tm.min = N at *
  generalize dec 2 '0' tm.sec = S at *
  generalize dec 4 '0' (tm.year + 1900) = Y at *
  intro hT
  obtain ⟨mem', h1, h2, h3, h4⟩ := C31_fits tm hs _ _ hT mem 26 (by simp; omega)
  refine ⟨mem', by unfold asctime; rw [h1]; rfl, ?_⟩
  generalize hU : (W ++ ' ' :: (M ++ ' ' :: (D ++ ' ' :: (H ++ ':' :: (N ++ ':' :: (S ++ ' ' :: (Y ++ ['\n']))))))) = U at *
  have hUl : U.length = 25 := by rw [← hU]; simp; omega
  have : W ++ [' '] ++ M ++ [' '] ++ D ++ [' '] ++ (H ++ [':'] ++ N ++ [':'] ++ S) ++ [' '] ++ Y ++ ['\n', '\x00'] =
      U ++ ['\x00'] := by rw [← hU]; simp
  rw [this]
  apply List.ext_getElem
  · simp [hUl]
  · intro i hi1 hi2
    simp at hi1
    simp only [List.getElem_map, List.getElem_range]
    by_cases hi : i < 25
    · rw [List.getElem_append_left (by omega)]; exact h2 i (by omega)
    · have : i = U.length := by omega
      subst this
      rw [h3]; simp

example : (asctime (fun _ => '\x00') ⟨4, 3, 2, 2, 0, 80, 3, 1, 0⟩).map (fun m => (List.range 26).map m) =
    some "Wed Jan  2 02:03:04 1980\n\x00".toList := by decide +kernel

end Verif.Time
