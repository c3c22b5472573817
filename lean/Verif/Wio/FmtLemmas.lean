import Verif.Wio.FmtModel
import Verif.Wio.Lemmas
import Verif.Printf.Props

namespace Verif.Wio

open Utf.Spec
open Utf (mbrtowc wcrtomb ERR INC)
open Printf (Out emit)

theorem Enc_bytes {t cs : List Nat} (h : Enc t cs) : Bytes t := by
  induction h with
  | nil => intro c hc; cases hc
  | cons hw _ ih =>
    intro c hc
    rcases List.mem_append.1 hc with hc | hc
    · exact hw.bytes c hc
    · exact ih c hc

theorem Enc_scalar {t cs : List Nat} (h : Enc t cs) : ∀ c ∈ cs, Scalar c := by
  induction h with
  | nil => intro c hc; cases hc
  | cons hw _ ih =>
    intro c hc
    rcases List.mem_cons.1 hc with rfl | hc
    · exact hw.scalar
    · exact ih c hc

theorem Enc_length {t cs : List Nat} (h : Enc t cs) : cs.length ≤ t.length := h.length_le

theorem Enc_unique {t u cs : List Nat} (h : Enc t cs) (g : Enc u cs) : t = u := by
  induction h generalizing u with
  | nil => cases g; rfl
  | cons hw _ ih =>
    cases g with
    | cons hv g =>
      rw [ih g, hw.unique hv]

theorem Enc_snoc {e p cs : List Nat} {v : Nat} (h : Enc e cs) (hw : WF p v) : Enc (e ++ p) (cs ++ [v]) := by
  have := h.append (.cons hw .nil)
  rwa [List.append_nil] at this

theorem finish_state {saved T code k : Nat} (h : (Utf.finish saved T code k).ret ≠ ERR) : (Utf.finish saved T code k).state = 0 := by
  unfold Utf.finish at h ⊢
  simp only at h ⊢
  generalize (if T = 2 then decide (code < 128) else if T = 3 then decide (code < 2048 ∨ code ≥ 55296 ∧ code ≤ 57343) else decide (code < 65536 ∨ code > 1114111)) = b at h ⊢
  cases b
  · rfl
  · simp [Utf.fail_] at h

theorem absorb_state {saved T : Nat} (rest : List Nat) : ∀ (a code k : Nat), (Utf.absorb saved T a code k rest).ret ≠ ERR →
    (Utf.absorb saved T a code k rest).ret ≠ INC → (Utf.absorb saved T a code k rest).state = 0 := by
  induction rest with
  | nil =>
    intro a code k h1 h2
    unfold Utf.absorb at h1 h2 ⊢
    by_cases ha : a < T
    · rw [if_pos ha] at h2; exact absurd rfl h2
    · rw [if_neg ha] at h1 ⊢; exact finish_state h1
  | cons b rest ih =>
    intro a code k h1 h2
    unfold Utf.absorb at h1 h2 ⊢
    by_cases ha : a < T
    · rw [if_pos ha] at h1 h2 ⊢
      simp only at h1 h2 ⊢
      by_cases hb : (b &&& 0xC0) ≠ 0x80
      · rw [if_pos hb] at h1; exact absurd rfl h1
      · rw [if_neg hb] at h1 h2 ⊢
        exact ih _ _ _ h1 h2
    · rw [if_neg ha] at h1 ⊢; exact finish_state h1

theorem mbrtowc_state {st : Nat} {p : List Nat} (h1 : (mbrtowc st p).ret ≠ ERR) (h2 : (mbrtowc st p).ret ≠ INC) : (mbrtowc st p).state = 0 := by
  cases p with
  | nil => exact absurd rfl h2
  | cons l rest =>
    unfold mbrtowc at h1 h2 ⊢
    simp only at h1 h2 ⊢
    by_cases c1 : st >>> 28 = 0
    · rw [if_pos c1] at h1 h2 ⊢
      by_cases c2 : l < 0x80
      · rw [if_pos c2]
      · rw [if_neg c2] at h1 h2 ⊢
        by_cases c3 : l < 0xC2 ∨ l > 0xF4
        · rw [if_pos c3] at h1; exact absurd rfl h1
        · rw [if_neg c3] at h1 h2 ⊢
          by_cases c4 : l < 0xE0
          · rw [if_pos c4] at h1 h2 ⊢; exact absorb_state _ _ _ _ h1 h2
          · rw [if_neg c4] at h1 h2 ⊢
            by_cases c5 : l < 0xF0
            · rw [if_pos c5] at h1 h2 ⊢; exact absorb_state _ _ _ _ h1 h2
            · rw [if_neg c5] at h1 h2 ⊢; exact absorb_state _ _ _ _ h1 h2
    · rw [if_neg c1] at h1 h2 ⊢; exact absorb_state _ _ _ _ h1 h2

/-- What is in a sink after the bytes `t`. -/
structure Holding (m : Wide.Mem) (buf cap : Nat) (t : List Nat) (s : WSink) (cs p : List Nat) : Prop where
  bytes : Bytes t
  text : ∃ e, t = e ++ p ∧ Enc e cs
  begun : Begun p s.st
  count : s.n = min cs.length (cap - 1)
  mem : Wide.Written m s.mem buf ((cs.take (cap - 1)).map wchar)

theorem wsinkLoop_spec (m : Wide.Mem) (buf cap : Nat) (bs : List Nat) : ∀ (t : List Nat) (s : WSink) (cs p : List Nat),
    Bytes bs → Holding m buf cap t s cs p →
    ((wsinkLoop buf cap bs s).1 = true ∧ ∃ cs' p', Holding m buf cap (t ++ bs) (wsinkLoop buf cap bs s).2 cs' p') ∨
    ((wsinkLoop buf cap bs s).1 = false ∧ bs ≠ [] ∧ ∃ e w rest cs', t ++ bs = e ++ (w ++ rest) ∧ Enc e cs' ∧ Wrong w ∧
      Wide.Written m (wsinkLoop buf cap bs s).2.mem buf ((cs'.take (cap - 1)).map wchar)) := by
  induction bs with
  | nil => intro t s cs p _ h; exact .inl ⟨rfl, cs, p, by rw [List.append_nil]; exact h⟩
  | cons b bs ih =>
    intro t s cs p hb h
    have hbyte : b < 256 := hb b (List.mem_cons_self ..)
    have hbs : Bytes bs := fun x hx => hb x (List.mem_cons_of_mem _ hx)
    have hb1 : Bytes [b] := by intro x hx; simp at hx; omega
    obtain ⟨e, rfl, he⟩ := h.text
    have hpb : Bytes p := fun x hx => h.bytes x (List.mem_append_right _ hx)
    have htb : Bytes (e ++ p ++ [b]) := by
      intro x hx
      rcases List.mem_append.1 hx with hx | hx
      · exact h.bytes x hx
      · exact hb1 x hx
    have eapp : e ++ p ++ b :: bs = e ++ p ++ [b] ++ bs := by simp
    unfold wsinkLoop
    simp only
    rcases h.begun.step hpb hbyte with ⟨h1, h2⟩ | ⟨h1, h2⟩ | ⟨v, h1, h2, h3, h4⟩
    · right
      rw [if_pos h1]
      refine ⟨rfl, by simp, e, p ++ [b], bs, cs, by simp, he, error_wrong ?_ h2, h.mem⟩
      intro x hx
      rcases List.mem_append.1 hx with hx | hx
      · exact hpb x hx
      · exact hb1 x hx
    · rw [if_neg (by rw [h1]; decide), if_pos h1, eapp]
      have hn : Holding m buf cap (e ++ p ++ [b]) { s with st := (mbrtowc s.st [b]).state } cs (p ++ [b]) :=
        ⟨htb, ⟨e, by simp, he⟩, h2, h.count, h.mem⟩
      rcases ih _ _ _ _ hbs hn with hh | ⟨hx, hne, hy⟩
      · exact .inl hh
      · exact .inr ⟨hx, by simp, hy⟩
    · have hst := mbrtowc_state h1 h2
      rw [if_neg h1, if_neg h2, eapp, h3, hst]
      have hec : Enc (e ++ p ++ [b]) (cs ++ [v]) := by rw [List.append_assoc]; exact Enc_snoc he h4
      by_cases hc : s.n + 1 < cap
      · rw [if_pos hc]
        have hlen : cs.length < cap - 1 := by have := h.count; omega
        have hn : Holding m buf cap (e ++ p ++ [b])
            { s with st := 0, mem := Wide.put s.mem (buf + s.n) (wchar ((some v).getD 0)), n := s.n + 1 } (cs ++ [v]) [] := by
          refine ⟨htb, ⟨_, by simp, hec⟩, .inl ⟨rfl, rfl⟩, ?_, ?_⟩
          · have := h.count
            simp only [List.length_append, List.length_singleton]; omega
          · have := put_written h.mem (wchar v)
            rw [List.length_map, List.take_of_length_le (by omega)] at this
            rw [List.take_of_length_le (by simp; omega), List.map_append]
            have hn : s.n = cs.length := by have := h.count; omega
            rw [hn]
            exact this
        rcases ih _ _ _ _ hbs hn with hh | ⟨hx, hne, hy⟩
        · exact .inl hh
        · exact .inr ⟨hx, by simp, hy⟩
      · rw [if_neg hc]
        have hlen : cap - 1 ≤ cs.length := by have := h.count; omega
        have hn : Holding m buf cap (e ++ p ++ [b]) { s with st := 0 } (cs ++ [v]) [] := by
          refine ⟨htb, ⟨_, by simp, hec⟩, .inl ⟨rfl, rfl⟩, ?_, ?_⟩
          · have := h.count
            simp only [List.length_append, List.length_singleton]; omega
          · rw [List.take_append_of_le_length hlen]
            exact h.mem
        rcases ih _ _ _ _ hbs hn with hh | ⟨hx, hne, hy⟩
        · exact .inl hh
        · exact .inr ⟨hx, by simp, hy⟩

theorem emit_wsink (m : Wide.Mem) (buf cap : Nat) (chunks : List (List Nat)) (ret : Int) : ∀ (t : List Nat) (s : WSink) (cs p : List Nat),
    Bytes chunks.flatten → Holding m buf cap t s cs p →
    ((emit (wsinkWrite buf cap) chunks ret s).1 = ret ∧
      ∃ cs' p', Holding m buf cap (t ++ chunks.flatten) (emit (wsinkWrite buf cap) chunks ret s).2 cs' p') ∨
    ((emit (wsinkWrite buf cap) chunks ret s).1 = -1 ∧ ∃ e w rest cs', t ++ chunks.flatten = e ++ (w ++ rest) ∧ Enc e cs' ∧ Wrong w ∧
      Wide.Written m (emit (wsinkWrite buf cap) chunks ret s).2.mem buf ((cs'.take (cap - 1)).map wchar)) := by
  induction chunks with
  | nil => intro t s cs p _ h; exact .inl ⟨rfl, cs, p, by simpa [emit] using h⟩
  | cons c chunks ih =>
    intro t s cs p hb h
    rw [List.flatten_cons] at hb
    have hc : Bytes c := fun x hx => hb x (List.mem_append_left _ hx)
    have hcs : Bytes chunks.flatten := fun x hx => hb x (List.mem_append_right _ hx)
    rw [List.flatten_cons, ← List.append_assoc]
    unfold emit wsinkWrite
    rcases wsinkLoop_spec m buf cap c t s cs p hc h with ⟨h1, cs', p', h2⟩ | ⟨h1, h2, e, w, rest, cs', h3, h4, h5, h6⟩
    · rcases hl : wsinkLoop buf cap c s with ⟨ok, s'⟩
      rw [hl] at h1 h2
      simp only at h1 h2 ⊢
      subst h1
      rw [if_neg (by simp)]
      exact ih _ _ _ _ hcs h2
    · rcases hl : wsinkLoop buf cap c s with ⟨ok, s'⟩
      rw [hl] at h1 h6
      simp only at h1 h6 ⊢
      subst h1
      have : 0 < c.length := List.length_pos_iff.2 h2
      rw [if_pos (by simp; omega)]
      exact .inr ⟨rfl, e, w, rest ++ chunks.flatten, cs', by rw [h3]; simp, h4, h5, h6⟩

/-- The format as `vfprintf` gets it. -/
theorem count_spec (junk : List Nat) (cs : List Nat) (hs : ∀ c ∈ cs, Scalar c ∧ c ≠ 0) : ∀ (bs : List Nat) (k : Nat), Enc bs cs →
    Utf.wcsrtombsCount (cs ++ 0 :: junk) k = some (k + bs.length) := by
  induction cs with
  | nil => intro bs k h; cases h; rfl
  | cons c cs ih =>
    intro bs k h
    obtain ⟨p, u, rfl, hw, he⟩ := Enc_cons h
    have hc := hs c (List.mem_cons_self ..)
    obtain ⟨hr, hw'⟩ := Utf.wcrtomb_scalar c hc.1
    have hl := hw'.length_le
    rw [List.cons_append, Utf.wcsrtombsCount]
    simp only
    rw [if_neg hc.2, if_neg (by rw [hr]; unfold ERR; omega), ih (fun x hx => hs x (List.mem_cons_of_mem _ hx)) u _ he, hr, hw'.unique hw]
    simp; omega

theorem WF_zero {p : List Nat} {v : Nat} (h : WF p v) (h0 : v ≠ 0) : 0 ∉ p := by
  cases h <;> simp <;> omega

theorem Enc_zero {t cs : List Nat} (h : Enc t cs) (h0 : ∀ c ∈ cs, c ≠ 0) : 0 ∉ t := by
  induction h with
  | nil => simp
  | cons hw _ ih =>
    rw [List.mem_append, not_or]
    exact ⟨WF_zero hw (h0 _ (List.mem_cons_self ..)), ih fun c hc => h0 c (List.mem_cons_of_mem _ hc)⟩

theorem takeWhile_zero {t : List Nat} (h : 0 ∉ t) : (t ++ [0]).takeWhile (fun x => decide (x ≠ 0)) = t := by
  induction t with
  | nil => rfl
  | cons x t ih =>
    rw [List.mem_cons, not_or] at h
    rw [List.cons_append, List.takeWhile_cons, if_pos (by simpa using fun e => h.1 e.symm), ih h.2]

theorem transcode_spec (alloc : Nat → Bool) (cs junk fmt : List Nat) (he : Enc fmt cs) (h0 : ∀ c ∈ cs, c ≠ 0)
    (hl : fmt.length < ERR) : transcode alloc (cs ++ 0 :: junk) = some (if alloc (fmt.length + 1) then some fmt else none) := by
  have hs : ∀ c ∈ cs, Scalar c ∧ c ≠ 0 := fun c hc => ⟨Enc_scalar he c hc, h0 c hc⟩
  unfold transcode
  rw [count_spec junk cs hs fmt 0 he, Nat.zero_add]
  simp only
  rw [if_neg (by omega)]
  by_cases ha : alloc (fmt.length + 1)
  · rw [if_pos ha, if_pos ha]
    obtain ⟨k, e, h1, h2, h3, h4⟩ := Utf.C72_wcsrtombs (fmt.length + 1) cs junk hs
    have hpre : ∀ j, j ≤ cs.length → ∀ a, Enc a (cs.take j) → ∃ b, fmt = a ++ b ∧ Enc b (cs.drop j) := by
      intro j hj a ha
      obtain ⟨b, hb⟩ := Enc.exists (cs := cs.drop j) (fun c hc => (hs c (List.mem_of_mem_drop hc)).1)
      have := ha.append hb
      rw [List.take_append_drop] at this
      exact ⟨b, Enc_unique he this, hb⟩
    obtain ⟨b, hb, hbe⟩ := hpre k h1 e h2
    rcases h4 with ⟨hk, _, h5⟩ | ⟨hk, _⟩
    · rw [h5]
      simp only
      have : e = fmt := by
        rw [hk, List.take_length] at h2
        exact Enc_unique h2 he
      subst this
      rw [if_pos (by simp), takeWhile_zero (Enc_zero he h0)]
    · exfalso
      rcases hk with ⟨_, hk⟩ | ⟨c, hc, hk⟩
      · rw [hb] at hk; simp at hk; omega
      · have hkl : k < cs.length := (List.getElem?_eq_some_iff.1 hc).1
        rw [List.drop_eq_getElem_cons hkl] at hbe
        obtain ⟨p, u, rfl, hw, _⟩ := Enc_cons hbe
        have : cs[k] = c := (List.getElem?_eq_some_iff.1 hc).2
        rw [this] at hw
        have hcs := (hs c (this ▸ List.getElem_mem hkl)).1
        have := (Utf.wcrtomb_scalar c hcs).2.unique hw
        rw [this, hb] at hk
        simp at hk
        omega
  · rw [if_neg ha, if_neg ha]

theorem transcode_bad (alloc : Nat → Bool) (cs junk : List Nat) (c : Nat) (hs : ∀ c ∈ cs, Scalar c ∧ c ≠ 0) (hc : c < 2 ^ 32)
    (hn : ¬ Scalar c) : transcode alloc (cs ++ c :: junk) = some none := by
  have : ∀ k, Utf.wcsrtombsCount (cs ++ c :: junk) k = some ERR := by
    induction cs with
    | nil =>
      intro k
      have h0 : c ≠ 0 := by rintro rfl; exact hn (.inl (by decide))
      rw [List.nil_append, Utf.wcsrtombsCount, if_neg h0, if_pos (by rw [Utf.wcrtomb_nonscalar c hc hn])]
    | cons x cs ih =>
      intro k
      have hx := hs x (List.mem_cons_self ..)
      obtain ⟨hr, hw'⟩ := Utf.wcrtomb_scalar x hx.1
      have hl := hw'.length_le
      rw [List.cons_append, Utf.wcsrtombsCount]
      simp only
      rw [if_neg hx.2, if_neg (by rw [hr]; unfold ERR; omega)]
      exact ih (fun x hx => hs x (List.mem_cons_of_mem _ hx)) _
  unfold transcode
  rw [this]
  simp only
  rw [if_pos trivial]

/-- A text divides into whole characters and a rest in one way. -/
theorem peel {e cs : List Nat} (h : Enc e cs) : ∀ {e' cs' x y : List Nat}, Enc e' cs' → e ++ x = e' ++ y → Unfinished x → Unfinished y →
    cs = cs' ∧ x = y := by
  induction h with
  | nil =>
    intro e' cs' x y h' e hx hy
    cases h' with
    | nil => exact ⟨rfl, e⟩
    | cons hw _ => rw [List.nil_append, List.append_assoc] at e; exact absurd e (hx _ _ _ hw)
  | cons hw _ ih =>
    intro e' cs' x y h' e hx hy
    cases h' with
    | nil => rw [List.nil_append, List.append_assoc] at e; exact absurd e.symm (hy _ _ _ hw)
    | cons hw' h' =>
      rw [List.append_assoc, List.append_assoc] at e
      obtain ⟨rfl, rfl⟩ := WF_prefix hw hw' e
      obtain ⟨rfl, rfl⟩ := ih h' (List.append_cancel_left e) hx hy
      exact ⟨rfl, rfl⟩

theorem Unfinished_nil : Unfinished [] := fun _ _ _ hw e => hw.ne_nil (List.append_eq_nil_iff.1 e.symm).1

theorem Wrong.unfinished {w rest : List Nat} (h : Wrong w) (hb : Bytes rest) : Unfinished (w ++ rest) :=
  fun p r v hw e => h rest p r v hb hw e

theorem Wrong.ne_nil {w : List Nat} (h : Wrong w) : w ≠ [] := by
  rintro rfl
  exact h [0x41] [0x41] [] 0x41 (by intro x hx; simp at hx; omega) (.r1 (by decide)) rfl

theorem cut_unfinished {p q : List Nat} {v : Nat} (hw : WF (p ++ q) v) (hq : q ≠ []) : Unfinished p := by
  intro a r u ha e
  subst e
  obtain ⟨h1, _⟩ := WF_prefix (t := r ++ q) (u := []) ha hw (by simp)
  have h2 := congrArg List.length h1
  have h3 := List.length_pos_iff.2 hq
  rw [List.length_append, List.length_append] at h2
  omega

theorem wchar_scalar {c : Nat} (h : Scalar c) : wchar c = c := by
  unfold Scalar at h
  unfold wchar
  rw [if_pos (by omega)]

/-- `vswprintf` when the conversions do `o`. -/
theorem vswprintf_eq (alloc : Nat → Bool) (conv : List Nat → Option Out) (m : Wide.Mem) (buf cap : Nat) (ws junk fmt : List Nat) (o : Out)
    (hf : Enc fmt ws) (h0 : ∀ c ∈ ws, c ≠ 0) (hl : fmt.length < ERR) (ha : alloc (fmt.length + 1) = true) (ho : conv fmt = some o) (hc : 0 < cap) :
    vswprintf alloc conv m buf cap (ws ++ 0 :: junk) =
      some (if (emit (wsinkWrite buf cap) o.chunks o.ret ⟨m, 0, 0⟩).1 < 0 then
          (-1, Wide.put (emit (wsinkWrite buf cap) o.chunks o.ret ⟨m, 0, 0⟩).2.mem buf 0)
        else (s32 ((emit (wsinkWrite buf cap) o.chunks o.ret ⟨m, 0, 0⟩).2.n % 2 ^ 32),
          Wide.put (emit (wsinkWrite buf cap) o.chunks o.ret ⟨m, 0, 0⟩).2.mem
            (buf + (emit (wsinkWrite buf cap) o.chunks o.ret ⟨m, 0, 0⟩).2.n) 0)) := by
  unfold vswprintf vfwprintf
  rw [if_neg (by omega), transcode_spec alloc ws junk fmt hf h0 hl, if_pos ha]
  simp only [ho, Option.map_some]

theorem start_holding (m : Wide.Mem) (buf cap : Nat) : Holding m buf cap [] ⟨m, 0, 0⟩ [] [] :=
  ⟨(fun x hx => nomatch hx), ⟨[], rfl, .nil⟩, .inl ⟨rfl, rfl⟩, by simp, ⟨fun i h => by simp at h, fun a _ => rfl⟩⟩

/-- The sink after a text cut in pieces in any way, when no byte of it is rejected. -/
theorem sink_text (m : Wide.Mem) (buf cap : Nat) (o : Out) (e p cs : List Nat) (he : Enc e cs) (ht : o.chunks.flatten = e ++ p)
    (hp : p = [] ∨ ∃ q v, q ≠ [] ∧ WF (p ++ q) v) (hr : 0 ≤ o.ret) (hc : 0 < cap) (hcap : cap ≤ 2 ^ 31) :
    ∃ m', (if (emit (wsinkWrite buf cap) o.chunks o.ret ⟨m, 0, 0⟩).1 < 0 then
          (-1, Wide.put (emit (wsinkWrite buf cap) o.chunks o.ret ⟨m, 0, 0⟩).2.mem buf 0)
        else (s32 ((emit (wsinkWrite buf cap) o.chunks o.ret ⟨m, 0, 0⟩).2.n % 2 ^ 32),
          Wide.put (emit (wsinkWrite buf cap) o.chunks o.ret ⟨m, 0, 0⟩).2.mem
            (buf + (emit (wsinkWrite buf cap) o.chunks o.ret ⟨m, 0, 0⟩).2.n) 0)) = (((min cs.length (cap - 1) : Nat) : Int), m') ∧
      Wide.Written m m' buf ((cs.take (cap - 1)).map Int.ofNat ++ [0]) := by
  have hpb : Bytes p := by
    rcases hp with rfl | ⟨q, v, _, hw⟩
    · intro x hx; cases hx
    · exact fun x hx => hw.bytes x (List.mem_append_left _ hx)
  have hpu : Unfinished p := by
    rcases hp with rfl | ⟨q, v, hq, hw⟩
    · exact Unfinished_nil
    · exact cut_unfinished hw hq
  have hb : Bytes o.chunks.flatten := by
    rw [ht]
    intro x hx
    rcases List.mem_append.1 hx with hx | hx
    · exact Enc_bytes he x hx
    · exact hpb x hx
  have hx : (cs.take (cap - 1)).map wchar = (cs.take (cap - 1)).map Int.ofNat :=
    List.map_congr_left fun c hc => wchar_scalar (Enc_scalar he c (List.mem_of_mem_take hc))
  rcases emit_wsink m buf cap o.chunks o.ret [] _ [] [] hb (start_holding m buf cap) with ⟨h1, cs', p', h2⟩ | ⟨_, e', w, rest, cs', h3, h4, h5, _⟩
  · obtain ⟨e', h3, h4⟩ := h2.text
    rw [List.nil_append, ht] at h3
    have hp' : Bytes p' := by
      have := h2.bytes
      rw [List.nil_append, ht, h3] at this
      exact fun x hx => this x (List.mem_append_right _ hx)
    obtain ⟨rfl, rfl⟩ := peel he h4 h3 hpu (h2.begun.unfinished hp')
    rw [if_neg (by omega), h2.count]
    have hn : s32 (min cs.length (cap - 1) % 2 ^ 32) = ((min cs.length (cap - 1) : Nat) : Int) := by unfold s32; omega
    rw [hn]
    refine ⟨_, rfl, ?_⟩
    · have := put_written h2.mem 0
      rw [List.length_map, List.length_take, hx] at this
      rw [Nat.min_comm]
      exact this
  · exfalso
    rw [List.nil_append, ht] at h3
    have hrb : Bytes rest := by
      rw [ht, h3] at hb
      exact fun x hx => hb x (List.mem_append_right _ (List.mem_append_right _ hx))
    obtain ⟨rfl, h⟩ := peel he h4 h3 hpu (h5.unfinished hrb)
    rcases hp with rfl | ⟨q, v, hq, hw⟩
    · exact h5.ne_nil (List.append_eq_nil_iff.1 h.symm).1
    · subst h
      refine h5 (rest ++ q) (w ++ rest ++ q) [] v ?_ hw (by simp)
      intro x hx
      exact hw.bytes x (by rw [List.append_assoc]; exact List.mem_append_right _ hx)

/-- The sink after a text with a malformed part. -/
theorem sink_wrong (m : Wide.Mem) (buf cap : Nat) (o : Out) (e w rest cs : List Nat) (he : Enc e cs) (ht : o.chunks.flatten = e ++ (w ++ rest))
    (hb : Bytes o.chunks.flatten) (hw : Wrong w) (hl : 4 ≤ (w ++ rest).length) :
    (emit (wsinkWrite buf cap) o.chunks o.ret ⟨m, 0, 0⟩).1 = -1 ∧
      Wide.Written m (emit (wsinkWrite buf cap) o.chunks o.ret ⟨m, 0, 0⟩).2.mem buf ((cs.take (cap - 1)).map wchar) := by
  have hrb : Bytes rest := by
    rw [ht] at hb
    exact fun x hx => hb x (List.mem_append_right _ (List.mem_append_right _ hx))
  rcases emit_wsink m buf cap o.chunks o.ret [] _ [] [] hb (start_holding m buf cap) with ⟨_, cs', p', h2⟩ | ⟨h1, e', w', rest', cs', h3, h4, h5, h6⟩
  · exfalso
    obtain ⟨e', h3, h4⟩ := h2.text
    rw [List.nil_append, ht] at h3
    have hp' : Bytes p' := by
      have := h2.bytes
      rw [List.nil_append, ht, h3] at this
      exact fun x hx => this x (List.mem_append_right _ hx)
    obtain ⟨_, h⟩ := peel he h4 h3 (hw.unfinished hrb) (h2.begun.unfinished hp')
    have := h2.begun.short hp'
    rw [← h] at this
    omega
  · rw [List.nil_append, ht] at h3
    have hrb' : Bytes rest' := by
      rw [ht, h3] at hb
      exact fun x hx => hb x (List.mem_append_right _ (List.mem_append_right _ hx))
    obtain ⟨rfl, _⟩ := peel he h4 h3 (hw.unfinished hrb) (h5.unfinished hrb')
    exact ⟨h1, h6⟩

end Verif.Wio
