import Verif.Wscan.Spec
import Verif.Wscan.Model
import Verif.Host.Wide

/-! # Scanning commutes with encoding in UTF-8 -/

namespace Verif.Wscan

open Verif.Scanf Verif.Utf.Spec
open Verif.Utf (wcrtomb wcrtomb_scalar)
open Verif.Strtol (White Blank)

/-- The bytes of a code point. -/
def u8 (c : Int) : List Int := (wcrtomb c.toNat).2.map Int.ofNat

/-- The bytes of a text. -/
def utf8 (t : List Int) : List Int := t.flatMap u8

/-- Code points other than 0. -/
def Uni (t : List Int) : Prop := ∀ c ∈ t, 1 ≤ c ∧ Scalar c.toNat

/-- ASCII characters. -/
def Low (t : List Int) : Prop := ∀ c ∈ t, 0 ≤ c ∧ c < 128

theorem u8_low {c : Int} (h : 0 ≤ c ∧ c < 128) : u8 c = [c] := by
  unfold u8 wcrtomb
  rw [if_pos (by omega)]
  simp only [List.map_cons, List.map_nil, List.cons.injEq, and_true, Int.ofNat_eq_natCast]
  omega

theorem u8_high {c : Int} (h : 128 ≤ c) (hs : Scalar c.toNat) : ∃ b bs, u8 c = b :: bs ∧ ∀ x ∈ b :: bs, 128 ≤ x ∧ x ≤ 255 := by
  obtain ⟨_, hw⟩ := wcrtomb_scalar c.toNat hs
  have key : ∀ l v, WF l v → 128 ≤ v → (∃ b bs, l = b :: bs) ∧ ∀ x ∈ l, 128 ≤ x ∧ x ≤ 255 := by
    intro l v hl hv
    cases hl <;> simp only [B] at * <;> refine ⟨⟨_, _, rfl⟩, ?_⟩ <;> simp <;> omega
  obtain ⟨⟨b, bs, e⟩, hx⟩ := key _ _ hw (by omega)
  refine ⟨Int.ofNat b, bs.map Int.ofNat, by unfold u8; rw [e]; rfl, ?_⟩
  intro x hx'
  rw [← List.map_cons] at hx'
  obtain ⟨y, hy, rfl⟩ := List.mem_map.1 hx'
  rw [e] at hx
  have := hx y hy
  simp only [Int.ofNat_eq_natCast]
  omega

theorem u8_cases {c : Int} (h : 1 ≤ c ∧ Scalar c.toNat) :
    (c < 128 ∧ u8 c = [c]) ∨ (128 ≤ c ∧ ∃ b bs, u8 c = b :: bs ∧ ∀ x ∈ b :: bs, 128 ≤ x ∧ x ≤ 255) := by
  rcases Int.lt_or_le c 128 with h1 | h1
  · exact .inl ⟨h1, u8_low ⟨by omega, h1⟩⟩
  · exact .inr ⟨h1, u8_high h1 h.2⟩

theorem white_high {x : Int} (h : 128 ≤ x) : ¬ White x := by unfold White; omega

/-- The first byte of a character is white space if the character is. -/
theorem u8_head {c : Int} (h : 1 ≤ c ∧ Scalar c.toNat) : ∃ b bs, u8 c = b :: bs ∧ (White b ↔ White c) := by
  rcases u8_cases h with ⟨_, e⟩ | ⟨h1, b, bs, e, hb⟩
  · exact ⟨c, [], e, Iff.rfl⟩
  · exact ⟨b, bs, e, fun hw => absurd hw (white_high (hb b (List.mem_cons_self ..)).1), fun hw => absurd hw (white_high h1)⟩

theorem u8_nonwhite {c : Int} (h : 1 ≤ c ∧ Scalar c.toNat) (hw : ¬ White c) : ∀ x ∈ u8 c, ¬ White x := by
  rcases u8_cases h with ⟨_, e⟩ | ⟨h1, b, bs, e, hb⟩
  · rw [e]; intro x hx; rw [List.mem_singleton.1 hx]; exact hw
  · rw [e]; exact fun x hx => white_high (hb x hx).1

theorem utf8_append (a b : List Int) : utf8 (a ++ b) = utf8 a ++ utf8 b := by unfold utf8; rw [List.flatMap_append]

theorem utf8_cons (c : Int) (t : List Int) : utf8 (c :: t) = u8 c ++ utf8 t := by unfold utf8; rw [List.flatMap_cons]

theorem utf8_low {t : List Int} (h : Low t) : utf8 t = t := by
  induction t with
  | nil => rfl
  | cons c t ih =>
    rw [utf8_cons, ih fun x hx => h x (List.mem_cons_of_mem _ hx), u8_low (h c (List.mem_cons_self ..))]
    rfl

theorem low_blank {t : List Int} (h : Blank t) : Low t := by
  intro c hc
  have := h c hc
  unfold White at this
  omega

theorem utf8_head {t : List Int} (hu : Uni t) (h : ∀ x ∈ t.head?, ¬ White x) : ∀ x ∈ (utf8 t).head?, ¬ White x := by
  cases t with
  | nil => intro x hx; simp [utf8] at hx
  | cons c t =>
    obtain ⟨b, bs, e, hb⟩ := u8_head (hu c (List.mem_cons_self ..))
    intro x hx
    rw [utf8_cons, e, List.cons_append, List.head?_cons] at hx
    obtain rfl := Option.some.inj hx
    exact fun hw => h c (by simp) (hb.1 hw)

theorem utf8_ne {t : List Int} (hu : Uni t) (h : t ≠ []) : utf8 t ≠ [] := by
  cases t with
  | nil => exact absurd rfl h
  | cons c t =>
    obtain ⟨b, bs, e, hb⟩ := u8_head (hu c (List.mem_cons_self ..))
    rw [utf8_cons, e]
    simp

theorem utf8_nonwhite {t : List Int} (hu : Uni t) (h : ∀ c ∈ t, ¬ White c) : ∀ x ∈ utf8 t, ¬ White x := by
  intro x hx
  obtain ⟨c, hc, hx⟩ := List.mem_flatMap.1 hx
  exact u8_nonwhite (hu c hc) (h c hc) x hx

theorem uni_append {a b : List Int} : Uni (a ++ b) ↔ Uni a ∧ Uni b := by
  constructor
  · exact fun h => ⟨fun c hc => h c (List.mem_append_left _ hc), fun c hc => h c (List.mem_append_right _ hc)⟩
  · rintro ⟨h1, h2⟩ c hc
    rcases List.mem_append.1 hc with h | h
    · exact h1 c h
    · exact h2 c h

/-- An ASCII prefix of the bytes is a prefix of the text. -/
theorem prefix_low : ∀ {w t : List Int}, Low w → Uni t → w <+: utf8 t → w <+: t
  | [], _, _, _, _ => List.nil_prefix
  | x :: w, [], _, _, h => by simp [utf8] at h
  | x :: w, c :: t, hw, hu, h => by
    rw [utf8_cons] at h
    rcases u8_cases (hu c (List.mem_cons_self ..)) with ⟨_, e⟩ | ⟨h1, b, bs, e, hb⟩
    · rw [e, List.cons_append, List.nil_append, List.cons_prefix_cons] at h
      obtain ⟨rfl, h⟩ := h
      rw [List.cons_prefix_cons]
      exact ⟨rfl, prefix_low (fun x hx => hw x (List.mem_cons_of_mem _ hx)) (fun x hx => hu x (List.mem_cons_of_mem _ hx)) h⟩
    · rw [e, List.cons_append, List.cons_prefix_cons] at h
      have h1 := (hb b (List.mem_cons_self ..)).1
      have h2 := (hw x (List.mem_cons_self ..)).2
      omega

/-! ## Numbers are ASCII -/

theorem low_append {a b : List Int} : Low (a ++ b) ↔ Low a ∧ Low b := by
  constructor
  · exact fun h => ⟨fun c hc => h c (List.mem_append_left _ hc), fun c hc => h c (List.mem_append_right _ hc)⟩
  · rintro ⟨h1, h2⟩ c hc
    rcases List.mem_append.1 hc with h | h
    · exact h1 c h
    · exact h2 c h

theorem low_digit {r : Nat} {c : Int} (h : Strtol.IsDigit r c) : 0 ≤ c ∧ c < 128 := by
  obtain ⟨d, h, _⟩ := h
  unfold Strtol.digitVal at h
  split at h
  · omega
  · split at h
    · omega
    · split at h
      · omega
      · exact absurd h (by simp)

theorem low_figures {hex : Bool} {s : List Int} (h : Figures hex s) : Low s := fun c hc => low_digit (h c hc)

theorem low_sign {s : List Int} {neg : Bool} (h : Decimal.Spec.Sign s neg) : Low s := by
  rcases h with ⟨rfl, _⟩ | ⟨rfl, _⟩ | ⟨rfl, _⟩ <;> intro c hc <;> simp at hc <;> omega

theorem low_subject {base : Nat} {w : List Int} {neg radix digits} (h : Strtol.Subject base w neg radix digits) : Low w := by
  obtain ⟨sign, pre, digits, neg, radix, hs, hp, hr, hne, hd⟩ := h
  refine low_append.2 ⟨low_append.2 ⟨low_sign hs, ?_⟩, fun c hc => low_digit (hd c hc)⟩
  rcases hp with rfl | ⟨_, rfl | rfl⟩ <;> intro c hc <;> simp at hc <;> omega

theorem low_lower {v l : List Int} (h : v.map Decimal.Spec.lower = l) (hl : ∀ c ∈ l, 97 ≤ c ∧ c ≤ 122) : Low v := by
  intro c hc
  have := hl _ (h ▸ List.mem_map_of_mem hc)
  unfold Decimal.Spec.lower at this
  split at this <;> omega

theorem low_real {w : List Int} (h : Real w) : Low w := by
  cases h with
  | num sign pre ip point fp ex neg hex h1 h2 h3 h4 h5 h6 h7 =>
    refine low_append.2 ⟨low_sign h1, low_append.2 ⟨?_, low_append.2 ⟨low_figures h3, low_append.2 ⟨?_, low_append.2 ⟨low_figures h5, ?_⟩⟩⟩⟩⟩
    · unfold Scanf.Prefix at h2
      split at h2
      · rcases h2 with rfl | rfl <;> intro c hc <;> simp at hc <;> omega
      · subst h2; intro c hc; simp at hc
    · rcases h4 with ⟨rfl, _⟩ | rfl <;> intro c hc <;> simp at hc; omega
    · rcases h7 with rfl | ⟨c, sg, ds, ng, rfl, hc, hs, _, hf⟩
      · intro c hc; simp at hc
      · have := low_append.2 ⟨low_sign hs, low_figures hf⟩
        intro x hx
        rcases List.mem_cons.1 hx with rfl | hx
        · rcases hc with rfl | rfl <;> split <;> omega
        · exact this x hx
  | inf h =>
    obtain ⟨sign, v, h1, rfl, h2⟩ := h
    refine low_append.2 ⟨low_sign h1, ?_⟩
    rcases h2 with h2 | h2 <;> exact low_lower h2 (by decide)
  | @nan w neg tag h =>
    obtain ⟨sign, v, tail, h1, rfl, h2, h3⟩ := h
    refine low_append.2 ⟨low_sign h1, low_append.2 ⟨low_lower h2 (by decide), ?_⟩⟩
    cases tag with
    | none => simp only at h3; subst h3; intro c hc; simp at hc
    | some cs =>
      obtain ⟨rfl, h4⟩ := h3
      intro c hc
      rcases List.mem_cons.1 hc with rfl | hc
      · decide
      · rcases List.mem_append.1 hc with hc | hc
        · have := h4 c hc
          unfold Decimal.Spec.TagChar at this
          omega
        · rw [List.mem_singleton.1 hc]; decide

/-- Conversions of numbers. -/
def Numeric (v : Conv) : Prop := v.kind ≠ .s ∧ v.kind ≠ .c ∧ v.kind ≠ .n ∧ ∀ neg es, v.kind ≠ .set neg es

theorem low_match {v : Conv} (hv : Numeric v) {w : List Int} (h : v.Match w) : Low w := by
  obtain ⟨h1, h2, h3, h4⟩ := hv
  unfold Conv.Match at h
  split at h
  · contradiction
  · contradiction
  · rename_i neg es hk; exact absurd hk (h4 neg es)
  · exact low_real h
  · obtain ⟨_, _, _, _, _, hs⟩ := h
    exact low_subject hs

theorem low_viable {v : Conv} (hv : Numeric v) {w : List Int} (h : v.Viable w) : Low w := by
  obtain ⟨⟨z, hz⟩, _⟩ := h
  exact (low_append.1 (low_match hv hz)).1

/-- The input item of a number is the same in the bytes. -/
theorem item_numeric {v : Conv} (hv : Numeric v) {item t : List Int} (hu : Uni (item ++ t)) (h : v.Item (item ++ t) item) :
    Low item ∧ v.Item (utf8 (item ++ t)) item := by
  obtain ⟨_, h2, h3⟩ := h
  have hl := low_viable hv h2
  refine ⟨hl, ?_, h2, ?_⟩
  · rw [utf8_append, utf8_low hl]; exact List.prefix_append ..
  · intro w hw hvi
    exact h3 w (prefix_low (low_viable hv hvi) hu hw) hvi

theorem viable_s {v : Conv} (hs : v.kind = .s) (hd : v.digits = []) (w : List Int) : v.Viable w ↔ ∀ c ∈ w, ¬ White c := by
  unfold Conv.Viable Conv.Match Conv.limit
  rw [hs, if_pos hd]
  constructor
  · rintro ⟨⟨z, _, h⟩, _⟩ c hc
    exact h c (List.mem_append_left _ hc)
  · intro h
    refine ⟨⟨[65], by simp, ?_⟩, fun k hk => nomatch hk⟩
    intro c hc
    rcases List.mem_append.1 hc with hc | hc
    · exact h c hc
    · rw [List.mem_singleton.1 hc]; decide

/-- The input item of `%s` is encoded. -/
theorem item_string {v : Conv} (hs : v.kind = .s) (hd : v.digits = []) {item t : List Int} (hu : Uni (item ++ t))
    (h : v.Item (item ++ t) item) : v.Item (utf8 (item ++ t)) (utf8 item) := by
  obtain ⟨_, h2, h3⟩ := h
  have hn := (viable_s hs hd item).1 h2
  obtain ⟨hu1, hu2⟩ := uni_append.1 hu
  refine ⟨?_, (viable_s hs hd _).2 (utf8_nonwhite hu1 hn), ?_⟩
  · rw [utf8_append]; exact List.prefix_append ..
  · intro w hw hvi
    have hwn := (viable_s hs hd w).1 hvi
    cases t with
    | nil => rw [List.append_nil] at hw; exact hw.length_le
    | cons c t =>
      have hc : White c := by
        rcases Decidable.em (White c) with hc | hc
        · exact hc
        · have := h3 (item ++ [c]) (by rw [List.prefix_append_right_inj]; simp) ((viable_s hs hd _).2 (by
            intro x hx
            rcases List.mem_append.1 hx with hx | hx
            · exact hn x hx
            · rw [List.mem_singleton.1 hx]; exact hc))
          simp at this
          omega
      obtain ⟨b, bs, e, hb⟩ := u8_head (hu2 c (List.mem_cons_self ..))
      rcases Nat.lt_or_ge (utf8 item).length w.length with hlt | hge
      · exfalso
        obtain ⟨r, hr⟩ := hw
        rw [utf8_append, utf8_cons, e] at hr
        have hm : b ∈ w := by
          have h1 : w[(utf8 item).length]? = some b := by
            have := congrArg (fun l => l[(utf8 item).length]?) hr
            rw [List.getElem?_append_left hlt, List.getElem?_append_right (Nat.le_refl _), Nat.sub_self] at this
            rw [this]; rfl
          exact List.mem_of_getElem? h1
        exact hwn b hm (hb.2 hc)
      · exact hge

end Verif.Wscan
