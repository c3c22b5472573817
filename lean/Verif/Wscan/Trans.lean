import Verif.Wscan.Scan
import Verif.Scanf.Props

/-! # From wide strings to bytes -/

namespace Verif.Wscan

open Verif.Scanf Verif.Utf.Spec
open Verif.Utf (wcrtomb wcrtomb_scalar)
open Verif.Strtol (White Blank)

theorem utf8_codes (t : List Char) : utf8 (codes t) = (Host.bytes t).map Int.ofNat := by
  unfold utf8 codes Host.bytes u8
  rw [List.map_flatMap, List.flatMap_map]
  simp only [Int.toNat_natCast]

theorem produced_codes (t : List Char) : produced (t.map Char.toNat) = utf8 (codes t) := by
  unfold utf8 codes produced u8
  rw [List.flatMap_map, List.flatMap_map]
  simp only [Int.toNat_natCast]

theorem uni_codes {t : List Char} (h : Str t) : Uni (codes t) := by
  intro c hc
  obtain ⟨d, hd, rfl⟩ := List.mem_map.1 hc
  have := h d hd
  rw [Int.toNat_natCast]
  exact ⟨by omega, Host.char_scalar d⟩

theorem codes_length (t : List Char) : (codes t).length = t.length := by unfold codes; rw [List.length_map]

theorem utf8_length (t : List Char) : (utf8 (codes t)).length ≤ 4 * t.length := by
  rw [utf8_codes, List.length_map]
  exact (Host.bytes_length t).2

theorem utf8_bytes (t : List Char) : Bytes (utf8 (codes t)) := by
  rw [utf8_codes]
  intro c hc
  obtain ⟨b, hb, rfl⟩ := List.mem_map.1 hc
  have := Host.bytes_lt t b hb
  simp only [Int.ofNat_eq_natCast]
  omega

theorem transcode_str {t : List Char} (h : Str t) (junk : List Nat) (ha : (Host.bytes t).length < Utf.ERR) (a : Bool) :
    transcode (wstr t junk) a = some (if a then some (utf8 (codes t)) else none) := by
  unfold transcode wstr
  rw [Host.count_bytes junk t 0 h, Option.bind_some, Nat.zero_add, if_neg (by omega)]
  obtain ⟨o, e1, e2⟩ := Host.format_bytes junk t h
  cases a with
  | false => rfl
  | true => rw [if_neg (by simp), e1, Option.bind_some, cstr, e2, utf8_codes]; rfl

theorem transcode_bad {t : List Char} (h : Str t) {bad : Nat} (hb : bad < 2 ^ 32) (hs : ¬ Scalar bad) (more : List Nat) (a : Bool) :
    transcode (t.map Char.toNat ++ bad :: more) a = some none := by
  unfold transcode
  rw [Host.count_bad hb hs more t 0 h, Option.bind_some, if_pos rfl]

/-! ## Formats -/

theorem pointers_enc : ∀ ds : List Dir, pointers (ds.flatMap encDir) = pointers ds
  | [] => rfl
  | d :: ds => by
    have ih := pointers_enc ds
    unfold pointers at *
    rw [List.flatMap_cons, List.filter_append, List.length_append, ih]
    cases d with
    | white c => rw [List.filter_cons]; simp [encDir]
    | lit c =>
      rw [List.filter_cons]
      have : ((encDir (.lit c)).filter fun d => match d with | .conv v => decide (v.suppress = false) | _ => decide False) = [] := by
        rw [List.filter_eq_nil_iff]
        intro x hx
        obtain ⟨b, _, rfl⟩ := List.mem_map.1 hx
        simp
      simp at this ⊢
      exact this
    | conv v =>
      rw [List.filter_cons]
      simp only [encDir, List.filter_cons, List.filter_nil]
      split <;> simp <;> omega

theorem low_of {l : List Int} (h : l.all fun c => decide (0 ≤ c ∧ c < 128) := by decide) : Low l := by
  intro c hc
  simpa using List.all_eq_true.1 h c hc

theorem conv_low {v : Conv} (hok : DirOk (.conv v)) (hp : Plain (.conv v)) : Low v.text := by
  obtain ⟨h1, _, h3⟩ := hok
  unfold Conv.text
  refine low_append.2 ⟨low_append.2 ⟨low_append.2 ⟨low_append.2 ⟨low_of, ?_⟩, ?_⟩, ?_⟩, ?_⟩
  · split
    · exact low_of
    · exact low_of
  · intro c hc
    have := h1 c hc
    omega
  · cases v.len <;> exact low_of
  · cases hk : v.kind with
    | f c =>
      rw [hk] at h3
      have := h3.2
      intro x hx
      rw [List.mem_singleton.1 hx]
      simp only [List.mem_cons, List.not_mem_nil, or_false] at this
      omega
    | set neg es => exact absurd hk (hp.2.2.1 neg es)
    | _ => exact low_of

theorem render_enc : ∀ ds : List Dir, (∀ d ∈ ds, DirOk d ∧ Plain d) → render (ds.flatMap encDir) = utf8 (render ds)
  | [], _ => rfl
  | d :: ds, h => by
    have ih := render_enc ds fun x hx => h x (List.mem_cons_of_mem _ hx)
    obtain ⟨hok, hp⟩ := h d (List.mem_cons_self ..)
    unfold render at *
    rw [List.flatMap_cons, List.flatMap_append, List.flatMap_cons, utf8_append, ih]
    congr 1
    cases d with
    | white c =>
      have : Low [c] := low_blank (by intro x hx; rw [List.mem_singleton.1 hx]; exact hok)
      rw [show (Dir.white c).text = [c] from rfl, utf8_low this]
      rfl
    | lit c =>
      show ((u8 c).map Dir.lit).flatMap Dir.text = utf8 [c]
      rw [List.flatMap_map, utf8_cons]
      show (u8 c).flatMap (fun x => [x]) = _
      simp [utf8]
    | conv v =>
      rw [show (Dir.conv v).text = v.text from rfl, utf8_low (conv_low hok hp)]
      show [Dir.conv v].flatMap Dir.text = _
      rw [List.flatMap_cons]
      exact List.append_nil _

theorem ok_enc {ds : List Dir} (h : ∀ d ∈ ds, DirOk d) : ∀ d ∈ ds.flatMap encDir, d.Ok := by
  intro x hx
  obtain ⟨d, hd, hx⟩ := List.mem_flatMap.1 hx
  have hok := h d hd
  cases d with
  | lit c =>
    obtain ⟨b, hb, rfl⟩ := List.mem_map.1 hx
    obtain ⟨h1, h2, h3⟩ := hok
    rcases u8_cases h3 with ⟨h4, e⟩ | ⟨h4, b', bs, e, hb'⟩
    · rw [e] at hb
      rw [List.mem_singleton.1 hb]
      exact ⟨h1, h2, h3.1, by omega⟩
    · rw [e] at hb
      have := hb' b hb
      exact ⟨white_high this.1, by omega, by omega, by omega⟩
  | white c => rw [List.mem_singleton.1 hx]; exact hok
  | conv v => rw [List.mem_singleton.1 hx]; exact hok

theorem fine_enc {e : Event} (h : e.Fine) : (encEvent e).Fine := by
  unfold encEvent
  split
  · rename_i hs
    refine ⟨fun c hc => ?_, fun b hb => ?_⟩
    · simp only at hc; rw [hs] at hc; exact absurd hc (by simp)
    · simp only at hb; rw [hs] at hb; exact absurd hb (by simp [Kind.base])
  · exact h

theorem filter_enc (p : Conv → Bool) (es : List Event) :
    ((es.map encEvent).filter fun e => p e.v) = (es.filter fun e => p e.v).map encEvent := by
  rw [List.filter_map]
  have : ((fun e => p e.v) ∘ encEvent) = fun e : Event => p e.v := by
    funext e; show p (encEvent e).v = _; rw [encEvent_v]
  rw [this]

theorem enc_utf8 : ∀ {t : List Int}, Uni t → Utf8 (utf8 t) t
  | [], _ => ⟨[], [], .nil, rfl, rfl⟩
  | c :: t, h => by
    obtain ⟨b, cs, he, e1, e2⟩ := enc_utf8 (t := t) fun x hx => h x (List.mem_cons_of_mem _ hx)
    have hc := h c (List.mem_cons_self ..)
    refine ⟨(wcrtomb c.toNat).2 ++ b, c.toNat :: cs, .cons (wcrtomb_scalar c.toNat hc.2).2 he, ?_, ?_⟩
    · rw [utf8_cons, e1, List.map_append]; rfl
    · rw [List.map_cons, ← e2]
      congr 1
      simp only [Int.ofNat_eq_natCast]
      omega

/-- The events of a scan without `%c`, `%n` and `%[` have items from the text. -/
theorem scan_events {ds : List Dir} {t : List Int} {n : Nat} {o : Outcome} (h : Scan ds t n o) (hp : ∀ d ∈ ds, Plain d) (hu : Uni t) :
    ∀ e ∈ o.events, Multi e.obj (encEvent e).obj := by
  have tl : ∀ {d : Dir} {ds : List Dir}, (∀ x ∈ d :: ds, Plain x) → ∀ x ∈ ds, Plain x :=
    fun h x hx => h x (List.mem_cons_of_mem _ hx)
  induction h with
  | nil => intro e he; simp at he
  | white _ _ _ ih => exact ih (tl hp) (uni_append.1 hu).2
  | lit _ ih => exact ih (tl hp) fun x hx => hu x (List.mem_cons_of_mem _ hx)
  | litOther _ => intro e he; simp at he
  | litEnd => intro e he; simp at he
  | count hk _ _ => exact absurd hk (hp _ (List.mem_cons_self ..)).2.1
  | @done v ds b item t n o obj hn hb hsk hh hne hi hm hst _ ih =>
    obtain ⟨hu1, hu2⟩ := uni_append.1 hu
    obtain ⟨hub, hui⟩ := uni_append.1 hu1
    obtain ⟨p1, p2, p3, p4⟩ := hp _ (List.mem_cons_self ..)
    intro e he
    rcases List.mem_cons.1 he with rfl | he
    · unfold encEvent
      simp only
      cases hst with
      | str hk => rw [if_pos hk]; exact .text (enc_utf8 hui)
      | set hk => exact absurd hk (p3 _ _)
      | chars hk => exact absurd hk p1
      | real hk => rw [if_neg (by rw [hk]; simp)]; exact .real
      | int size hk _ _ =>
        rw [if_neg (by intro h; rw [h] at hk; simp [Kind.base] at hk)]; exact .int
    · exact ih (tl hp) hu2 e he
  | mismatch => intro e he; simp at he
  | empty => intro e he; simp at he

theorem each_map {es : List Event} (h : ∀ e ∈ es, Multi e.obj (encEvent e).obj) : Each (es.map Event.obj) ((es.map encEvent).map Event.obj) := by
  induction es with
  | nil => exact .nil
  | cons e es ih =>
    exact .cons (h e (List.mem_cons_self ..)) (ih fun x hx => h x (List.mem_cons_of_mem _ hx))

/-- What `vfscanf` makes of the bytes. -/
theorem scan_bytes (ds : List Dir) (t : List Char) (o : Outcome) (nargs : Nat) (hok : ∀ d ∈ ds, DirOk d) (hpl : ∀ d ∈ ds, Plain d)
    (ht : Str t) (hlen : t.length < 536870911) (hargs : pointers ds ≤ nargs) (h : Scan ds (codes t) 0 o)
    (hev : ∀ e ∈ o.events, e.Fine) (hend : o.ending.Fine) (hsup : o.ending = .input → o.done = 0 ∨ o.assigned ≠ 0) :
    ∃ r out, vfscanf (utf8 (codes t)) (utf8 (render ds)) nargs = some r ∧ r.value = o.value ∧ r.state.out = number 0 out ∧
      Each o.objects out := by
  have hu := uni_codes ht
  obtain ⟨o', h1, h2, h3⟩ := scan_utf8 h (fun d hd => ⟨hok d hd, hpl d hd⟩) hu 0
  have hd : o'.done = o.done := by
    unfold Outcome.done
    rw [h3, filter_enc (fun v => decide (v.kind ≠ .n)), List.length_map]
  have ha : o'.assigned = o.assigned := by
    unfold Outcome.assigned
    rw [h3, filter_enc (fun v => decide (v.kind ≠ .n ∧ v.suppress = false)), List.length_map]
  obtain ⟨r, e1, e2, e3⟩ := C103_scanf_partial (ds.flatMap encDir) _ o' nargs (ok_enc hok) (utf8_bytes t)
    (by have := utf8_length t; omega) (by rw [pointers_enc]; exact hargs) h1
    (by rw [h3]; intro e he; obtain ⟨x, hx, rfl⟩ := List.mem_map.1 he; exact fine_enc (hev x hx)) (by rw [h2]; exact hend)
    (by rw [h2, hd, ha]; exact hsup)
  rw [render_enc ds fun d hd => ⟨hok d hd, hpl d hd⟩] at e1
  refine ⟨r, _, e1, ?_, e3, ?_⟩
  · rw [e2]; unfold Outcome.value; rw [h2, hd, ha]
  · unfold Outcome.objects
    rw [h3, filter_enc (fun v => decide (v.suppress = false))]
    exact each_map fun e he => scan_events h hpl hu e (List.mem_filter.1 he).1

end Verif.Wscan
