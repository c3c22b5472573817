import Verif.Wscan.Lemmas

/-! # A scan of code points and the scan of the bytes -/

namespace Verif.Wscan

open Verif.Scanf Verif.Utf.Spec
open Verif.Utf (wcrtomb wcrtomb_scalar)
open Verif.Strtol (White Blank)

/-- A directive of the wide format as directives of the byte format. -/
def encDir : Dir → List Dir
  | .lit c => (u8 c).map .lit
  | d => [d]

/-- A completed conversion in the scan of the bytes. -/
def encEvent (e : Event) : Event :=
  if e.v.kind = .s then ⟨e.v, utf8 e.item, .text (utf8 e.item)⟩ else e

theorem encEvent_v (e : Event) : (encEvent e).v = e.v := by unfold encEvent; split <;> rfl

theorem scan_lits {ds : List Dir} {t : List Int} {o : Outcome} : ∀ (bs : List Int) (n : Nat), (∀ n, ∃ o', Scan ds t n o' ∧ o'.ending = o.ending ∧
    o'.events = o.events.map encEvent) → ∃ o', Scan (bs.map Dir.lit ++ ds) (bs ++ t) n o' ∧ o'.ending = o.ending ∧ o'.events = o.events.map encEvent
  | [], n, h => h n
  | b :: bs, n, h => by
    obtain ⟨o', h1, h2⟩ := scan_lits bs (n + 1) h
    exact ⟨o', .lit h1, h2⟩

/-- Two byte sequences that differ before either ends. -/
theorem scan_differ {ds : List Dir} : ∀ (bs xs t : List Int) (n : Nat), ¬ bs <+: xs → ¬ xs <+: bs →
    ∃ o', Scan (bs.map Dir.lit ++ ds) (xs ++ t) n o' ∧ o'.ending = .literal ∧ o'.events = []
  | [], xs, t, n, h, _ => absurd List.nil_prefix h
  | b :: bs, [], t, n, _, h => absurd List.nil_prefix h
  | b :: bs, x :: xs, t, n, h1, h2 => by
    rcases Decidable.em (x = b) with rfl | hx
    · obtain ⟨o', h3, h4⟩ := scan_differ (ds := ds) bs xs t (n + 1) (fun h => h1 (by rw [List.cons_prefix_cons]; exact ⟨rfl, h⟩))
        (fun h => h2 (by rw [List.cons_prefix_cons]; exact ⟨rfl, h⟩))
      exact ⟨o', .lit h3, h4⟩
    · exact ⟨_, .litOther hx, rfl, rfl⟩

/-- The encoding of a character is not a prefix of that of another. -/
theorem u8_prefix {c x : Int} (hc : 1 ≤ c ∧ Scalar c.toNat) (hx : 1 ≤ x ∧ Scalar x.toNat) (h : u8 c <+: u8 x) : c = x := by
  have hp : (wcrtomb c.toNat).2 <+: (wcrtomb x.toNat).2 := by
    unfold u8 at h
    obtain ⟨r, hr⟩ := h
    refine ⟨r.map Int.toNat, ?_⟩
    have := congrArg (List.map Int.toNat) hr
    rw [List.map_append, List.map_map, List.map_map] at this
    have e : (Int.toNat ∘ Int.ofNat) = id := rfl
    rw [e, List.map_id, List.map_id] at this
    exact this
  have h1 := (wcrtomb_scalar c.toNat hc.2).2
  have h2 := (wcrtomb_scalar x.toNat hx.2).2
  generalize (wcrtomb c.toNat).2 = a at *
  generalize (wcrtomb x.toNat).2 = b at *
  have key : ∀ {a b u v}, WF a u → WF b v → a <+: b → u = v := by
    intro a b u v ha hb hab
    cases ha <;> cases hb <;> simp only [List.cons_prefix_cons, B] at * <;> omega
  have := key h1 h2 hp
  omega

/-- The bytes are scanned as the code points are, if all directives are plain. -/
theorem scan_utf8 {ds : List Dir} {t : List Int} {n : Nat} {o : Outcome} (h : Scan ds t n o) (hok : ∀ d ∈ ds, DirOk d ∧ Plain d)
    (hu : Uni t) : ∀ n', ∃ o', Scan (ds.flatMap encDir) (utf8 t) n' o' ∧ o'.ending = o.ending ∧ o'.events = o.events.map encEvent := by
  have tl : ∀ {d : Dir} {ds : List Dir}, (∀ x ∈ d :: ds, DirOk x ∧ Plain x) → ∀ x ∈ ds, DirOk x ∧ Plain x :=
    fun h x hx => h x (List.mem_cons_of_mem _ hx)
  have numeric : ∀ {v : Conv}, Plain (.conv v) → v.kind = .s ∨ Numeric v := by
    rintro v ⟨h1, h2, h3, _⟩
    rcases Decidable.em (v.kind = .s) with h | h
    · exact .inl h
    · exact .inr ⟨h, h1, h2, h3⟩
  induction h with
  | nil => exact fun n' => ⟨_, .nil, rfl, rfl⟩
  | @white c ds b t n o hb ht _ ih =>
    intro n'
    obtain ⟨hu1, hu2⟩ := uni_append.1 hu
    obtain ⟨o', h1, h2⟩ := ih (tl hok) hu2 (n' + b.length)
    rw [utf8_append, utf8_low (low_blank hb)]
    exact ⟨o', .white hb (utf8_head hu2 ht) h1, h2⟩
  | @lit c ds t n o _ ih =>
    intro n'
    rw [utf8_cons]
    exact scan_lits _ n' (ih (tl hok) fun x hx => hu x (List.mem_cons_of_mem _ hx))
  | @litOther c x ds t n hx =>
    intro n'
    have hc : 1 ≤ c ∧ Scalar c.toNat := (hok _ (List.mem_cons_self ..)).1.2.2
    have hx' := hu x (List.mem_cons_self ..)
    rw [utf8_cons]
    exact scan_differ _ _ _ _ (fun h => hx (u8_prefix hc hx' h).symm) (fun h => hx (u8_prefix hx' hc h))
  | @litEnd c ds n =>
    intro n'
    have hc : 1 ≤ c ∧ Scalar c.toNat := (hok _ (List.mem_cons_self ..)).1.2.2
    obtain ⟨b, bs, e, _⟩ := u8_head hc
    rw [List.flatMap_cons]
    show ∃ o', Scan ((u8 c).map Dir.lit ++ _) _ _ _ ∧ _
    rw [e]
    exact ⟨_, .litEnd, rfl, rfl⟩
  | count hk _ _ => exact absurd hk (hok _ (List.mem_cons_self ..)).2.2.1
  | @done v ds b item t n o obj hn hb hsk hh hne hi hm hst _ ih =>
    intro n'
    obtain ⟨hu1, hu2⟩ := uni_append.1 hu
    obtain ⟨hub, hui⟩ := uni_append.1 hu1
    have hit : Uni (item ++ t) := uni_append.2 ⟨hui, hu2⟩
    have hp := (hok _ (List.mem_cons_self ..)).2
    rw [utf8_append, utf8_append, utf8_low (low_blank hb)]
    rcases numeric hp with hs | hnum
    · obtain ⟨o', h1, h2, h3⟩ := ih (tl hok) hu2 (n' + b.length + (utf8 item).length)
      have hitem := item_string hs (hp.2.2.2 hs) hit hi
      have hi' := utf8_head hit
      have hne' := utf8_ne hit hne
      rw [utf8_append] at hitem hi' hne'
      have hm' : v.Match (utf8 item) := by
        unfold Conv.Match at hm ⊢
        rw [hs] at hm ⊢
        exact ⟨utf8_ne hui hm.1, utf8_nonwhite hui hm.2⟩
      refine ⟨_, .done hn hb hsk (fun h => hi' (hh h)) hne' hitem hm' (.str hs) h1, h2, ?_⟩
      unfold Outcome.cons
      rw [List.map_cons, h3]
      congr 1
      unfold encEvent
      rw [if_pos hs]
    · obtain ⟨o', h1, h2, h3⟩ := ih (tl hok) hu2 (n' + b.length + item.length)
      obtain ⟨hl, hitem⟩ := item_numeric hnum hit hi
      have hi' := utf8_head hit
      have hne' := utf8_ne hit hne
      rw [utf8_append, utf8_low hl] at hitem hi' hne'
      rw [utf8_low hl]
      refine ⟨_, .done hn hb hsk (fun h => hi' (hh h)) hne' hitem hm hst h1, h2, ?_⟩
      unfold Outcome.cons
      rw [List.map_cons, h3]
      congr 1
      unfold encEvent
      rw [if_neg hnum.1]
  | @mismatch v ds b item t n hn hb hsk hh hne hi hm =>
    intro n'
    obtain ⟨hu1, hu2⟩ := uni_append.1 hu
    obtain ⟨hub, hui⟩ := uni_append.1 hu1
    have hit : Uni (item ++ t) := uni_append.2 ⟨hui, hu2⟩
    have hp := (hok _ (List.mem_cons_self ..)).2
    rw [utf8_append, utf8_append, utf8_low (low_blank hb)]
    rcases numeric hp with hs | hnum
    · exfalso
      obtain ⟨_, h2, h3⟩ := hi
      have hv := fun w => viable_s hs (hp.2.2.2 hs) w
      apply hm
      unfold Conv.Match
      rw [hs]
      refine ⟨?_, (hv _).1 h2⟩
      rintro rfl
      cases t with
      | nil => exact hne rfl
      | cons c t =>
        have hc : ¬ White c := hh (by unfold Conv.skips; rw [hs]; trivial) c (by simp)
        have := h3 [c] (by simp) ((hv _).2 (by intro x hx; rw [List.mem_singleton.1 hx]; exact hc))
        simp at this
    · obtain ⟨hl, hitem⟩ := item_numeric hnum hit hi
      have hi' := utf8_head hit
      have hne' := utf8_ne hit hne
      rw [utf8_append, utf8_low hl] at hitem hi' hne'
      rw [utf8_low hl]
      exact ⟨_, .mismatch hn hb hsk (fun h => hi' (hh h)) hne' hitem hm, rfl, rfl⟩
  | @empty v ds b n hn hb hsk =>
    intro n'
    rw [utf8_low (low_blank hb)]
    exact ⟨_, .empty hn hb hsk, rfl, rfl⟩

end Verif.Wscan
