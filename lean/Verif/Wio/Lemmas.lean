import Verif.Wio.Spec
import Verif.Stdio.Lemmas
import Verif.Utf.Props

namespace Verif.Wio

open Utf.Spec
open Utf (mbrtowc wcrtomb ERR INC obs)

variable {σ : Type}

theorem absorb_inc (s T : Nat) (rest : List Nat) : ∀ (a code k : Nat), k + (T - a) < 100 →
    (Utf.absorb s T a code k rest).ret = INC → rest.length < T - a := by
  induction rest with
  | nil =>
    intro a code k hk h
    by_cases ha : a < T
    · simp only [List.length_nil]; omega
    · have e : a ≥ T := by omega
      unfold Utf.absorb at h
      rw [if_neg ha] at h
      exfalso
      unfold Utf.finish Utf.fail_ INC ERR at h
      simp only at h
      generalize hb : (if T = 2 then decide (code < 128) else if T = 3 then decide (code < 2048 ∨ code ≥ 55296 ∧ code ≤ 57343) else decide (code < 65536 ∨ code > 1114111)) = b at h
      cases b
      · simp only [Bool.false_eq_true, if_false] at h
        by_cases hc : code ≠ 0
        · rw [if_pos hc] at h; omega
        · rw [if_neg hc] at h; omega
      · simp at h
  | cons b rest ih =>
    intro a code k hk h
    by_cases ha : a < T
    · unfold Utf.absorb at h
      rw [if_pos ha] at h
      simp only at h
      by_cases hb : (b &&& 0xC0) ≠ 0x80
      · rw [if_pos hb] at h
        simp [Utf.fail_, INC, ERR] at h
      · rw [if_neg hb] at h
        have := ih (a + 1) _ (k + 1) (by omega) h
        simp only [List.length_cons]; omega
    · exfalso
      unfold Utf.absorb at h
      rw [if_neg ha] at h
      unfold Utf.finish Utf.fail_ INC ERR at h
      simp only at h
      generalize hb : (if T = 2 then decide (code < 128) else if T = 3 then decide (code < 2048 ∨ code ≥ 55296 ∧ code ≤ 57343) else decide (code < 65536 ∨ code > 1114111)) = c at h
      cases c
      · simp only [Bool.false_eq_true, if_false] at h
        by_cases hc : code ≠ 0
        · rw [if_pos hc] at h; omega
        · rw [if_neg hc] at h; omega
      · simp at h

theorem inc_short {bs : List Nat} (hb : Bytes bs) (h : (mbrtowc 0 bs).ret = INC) : bs.length ≤ 3 := by
  cases bs with
  | nil => simp
  | cons l rest =>
    rw [Utf.mbrtowc_zero l rest (hb l (by simp))] at h
    simp only [List.length_cons]
    split at h
    · simp only [INC] at h
      split at h <;> omega
    · split at h
      · simp [Utf.fail_, INC, ERR] at h
      · split at h
        · have := absorb_inc _ _ _ _ _ _ (by omega) h; omega
        · split at h
          · have := absorb_inc _ _ _ _ _ _ (by omega) h; omega
          · have := absorb_inc _ _ _ _ _ _ (by omega) h; omega

/-- Nothing read yet, or the beginning of a character with its conversion state. -/
def Begun (bs : List Nat) (st : Nat) : Prop :=
  (bs = [] ∧ st = 0) ∨ bs ≠ [] ∧ (mbrtowc 0 bs).ret = INC ∧ (mbrtowc 0 bs).state = st

theorem Begun.short {bs : List Nat} {st : Nat} (hb : Bytes bs) (h : Begun bs st) : bs.length ≤ 3 := by
  rcases h with ⟨rfl, _⟩ | ⟨_, h, _⟩
  · simp
  · exact inc_short hb h

theorem Begun.unfinished {bs : List Nat} {st : Nat} (hb : Bytes bs) (h : Begun bs st) : Unfinished bs := by
  rcases h with ⟨rfl, _⟩ | ⟨_, h, _⟩
  · intro p rest v hw e
    have := hw.ne_nil
    exact this (List.append_eq_nil_iff.1 e.symm).1
  · exact (Utf.C23_incomplete_partial bs hb h).2

theorem shape_st {bs : List Nat} {st b : Nat} (h : Begun bs st) (hb : Bytes bs) (hb1 : Bytes [b]) :
    Utf.Shape (mbrtowc st [b]) := by
  rcases h with ⟨_, rfl⟩ | ⟨hne, h1, h2⟩
  · exact Utf.shape_mbrtowc _ hb1
  · have := ((Utf.mbrtowc_append 0 bs [b] (Or.inl rfl) hb hb1 hne (by simp)).1 h1).1
    rw [h2] at this
    rcases this with rfl | ⟨T, a, code, hm⟩
    · exact Utf.shape_mbrtowc _ hb1
    · rw [Utf.mbrtowc_mid _ _ _ _ _ (by simp) hm]
      exact Utf.shape_absorb _ _ _ _ _ _ (by obtain ⟨_, _, _, _⟩ := hm; omega)

/-- One more byte. -/
theorem Begun.step {bs : List Nat} {st b : Nat} (hb : Bytes bs) (h : Begun bs st) (hbyte : b < 256) :
    ((mbrtowc st [b]).ret = ERR ∧ (mbrtowc 0 (bs ++ [b])).ret = ERR) ∨
    ((mbrtowc st [b]).ret = INC ∧ Begun (bs ++ [b]) (mbrtowc st [b]).state) ∨
    ∃ v, (mbrtowc st [b]).ret ≠ ERR ∧ (mbrtowc st [b]).ret ≠ INC ∧ (mbrtowc st [b]).wc = some v ∧ WF (bs ++ [b]) v := by
  have hb1 : Bytes [b] := by intro x hx; simp at hx; omega
  have hall : Bytes (bs ++ [b]) := by
    intro x hx
    rcases List.mem_append.1 hx with hx | hx
    · exact hb x hx
    · exact hb1 x hx
  have key : obs 0 (mbrtowc 0 (bs ++ [b])) = obs bs.length (mbrtowc st [b]) := by
    rcases h with ⟨rfl, rfl⟩ | ⟨hne, h1, h2⟩
    · simp
    · have := ((Utf.mbrtowc_append 0 bs [b] (Or.inl rfl) hb hb1 hne (by simp)).1 h1).2 0
      rw [this, h2, Nat.zero_add]
  have hshape := Utf.shape_mbrtowc (bs ++ [b]) hall
  have huf := h.unfinished hb
  by_cases hE : (mbrtowc st [b]).ret = ERR
  · left
    refine ⟨hE, ?_⟩
    have e : obs bs.length (mbrtowc st [b]) = .invalid := by
      unfold obs; rw [if_neg (by rw [hE]; decide), if_pos hE]
    rw [e] at key
    unfold obs at key
    by_cases h1 : (mbrtowc 0 (bs ++ [b])).ret = INC
    · rw [if_pos h1] at key; cases key
    · rw [if_neg h1] at key
      by_cases h2 : (mbrtowc 0 (bs ++ [b])).ret = ERR
      · exact h2
      · rw [if_neg h2] at key; cases key
  · by_cases hI : (mbrtowc st [b]).ret = INC
    · right; left
      refine ⟨hI, .inr ⟨by simp, ?_⟩⟩
      have e : obs bs.length (mbrtowc st [b]) = .more (mbrtowc st [b]).state := by
        unfold obs; rw [if_pos hI]
      rw [e] at key
      unfold obs at key
      by_cases h1 : (mbrtowc 0 (bs ++ [b])).ret = INC
      · rw [if_pos h1] at key
        injection key with key
        exact ⟨h1, key⟩
      · rw [if_neg h1] at key
        by_cases h2 : (mbrtowc 0 (bs ++ [b])).ret = ERR
        · rw [if_pos h2] at key; cases key
        · rw [if_neg h2] at key; cases key
    · right; right
      have e : obs bs.length (mbrtowc st [b]) = .char ((mbrtowc st [b]).wc.getD 0) (bs.length + (mbrtowc st [b]).ret) := by
        unfold obs; rw [if_neg hI, if_neg hE]
      rw [e] at key
      unfold obs at key
      by_cases h1 : (mbrtowc 0 (bs ++ [b])).ret = INC
      · rw [if_pos h1] at key; cases key
      · rw [if_neg h1] at key
        by_cases h2 : (mbrtowc 0 (bs ++ [b])).ret = ERR
        · rw [if_pos h2] at key; cases key
        · rw [if_neg h2] at key
          injection key with key1 key2
          rcases hshape with ⟨h3, _⟩ | ⟨h3, _⟩ | ⟨v, hv, _⟩
          · exact absurd h3 h2
          · exact absurd h3 h1
          · rcases shape_st h hb hb1 with ⟨h3, _⟩ | ⟨h3, _⟩ | ⟨w, hw, _⟩
            · exact absurd h3 hE
            · exact absurd h3 hI
            · rw [hv, hw] at key1
              simp only [Option.getD_some] at key1
              subst key1
              refine ⟨v, hE, hI, hw, ?_⟩
              obtain ⟨pre, rest, e1, hwf⟩ := Utf.decode_sound hall hv
              rcases List.eq_nil_or_concat rest with rfl | ⟨r, x, rfl⟩
              · rw [List.append_nil] at e1; rw [e1]; exact hwf
              · exfalso
                rw [List.concat_eq_append, ← List.append_assoc] at e1
                exact huf pre r v hwf (List.append_inj_left' e1 rfl)
/-- The loop of `fgetwc`. -/
theorem getLoop_spec {R : Stdio.Reader σ} (hR : Stdio.Honest R) (f0 : Stdio.File σ) (hs : Stdio.Sound f0) (fuel : Nat) :
    ∀ (pre : List Nat) (st : Nat) (f : Stdio.File σ), Stdio.Reads R f0 pre f → Begun pre st → 5 ≤ pre.length + fuel →
    ∃ bs g r f', getLoop R fuel st f = some (r, f') ∧ Stdio.Reads R f0 bs g ∧ bs.length ≤ 4 ∧
      ((WF bs r ∧ f' = g) ∨
        (bs ≠ [] ∧ (mbrtowc 0 bs).ret = ERR ∧ (∃ st', Begun bs.dropLast st') ∧ r = WEOF ∧ f' = { g with err := true }) ∨
        ((∃ st', Begun bs st') ∧ r = WEOF ∧ ∃ g', Stdio.getc R g = (Stdio.EOF, g') ∧ f' = { g' with eof := true })) := by
  induction fuel with
  | zero =>
    intro pre st f hr hbg h5
    have := hbg.short hr.bytes
    omega
  | succ fuel ih =>
    intro pre st f hr hbg h5
    have hpre := hbg.short hr.bytes
    unfold getLoop
    have hc := Stdio.getc_cases hR (hr.sound hs)
    rcases hg : Stdio.getc R f with ⟨c, f1⟩
    rw [hg] at hc
    simp only at hc ⊢
    rcases hc with rfl | ⟨b, hb, rfl⟩
    · rw [if_pos rfl]
      exact ⟨pre, f, WEOF, _, rfl, hr, by omega, .inr (.inr ⟨⟨st, hbg⟩, rfl, f1, hg, rfl⟩)⟩
    · rw [if_neg (by unfold Stdio.EOF; omega)]
      have eb : ((b : Int) % 256).toNat = b := by omega
      rw [eb]
      have hr' : Stdio.Reads R f0 (pre ++ [b]) f1 := hr.snoc hg hb
      rcases hbg.step hr.bytes hb with ⟨h1, h2⟩ | ⟨h1, h2⟩ | ⟨v, h1, h2, h3, h4⟩
      · rw [if_pos h1]
        exact ⟨pre ++ [b], f1, WEOF, _, rfl, hr', by simp; omega,
          .inr (.inl ⟨by simp, h2, ⟨st, by rw [List.dropLast_concat]; exact hbg⟩, rfl, rfl⟩)⟩
      · rw [if_neg (by rw [h1]; decide), if_pos h1]
        exact ih _ _ _ hr' h2 (by simp; omega)
      · rw [if_neg h1, if_neg h2, h3]
        exact ⟨pre ++ [b], f1, v, f1, rfl, hr', by simp; omega, .inl ⟨h4, rfl⟩⟩

theorem widen_file (f : WFile σ) : (widen f).file = f.file := by unfold widen; split <;> rfl

theorem widen_push (f : WFile σ) : (widen f).push = f.push := by unfold widen; split <;> rfl

theorem widen_orient (f : WFile σ) : (widen f).orient = if f.orient = 0 then 1 else f.orient := by
  unfold widen; split <;> rfl

theorem error_wrong {bs : List Nat} (hb : Bytes bs) (h : (mbrtowc 0 bs).ret = ERR) : Wrong bs :=
  (Utf.C23_error_is_definite bs hb h).2

/-- `fgetwc` on a stream with nothing pushed back. -/
theorem fgetwc_spec {R : Stdio.Reader σ} (hR : Stdio.Honest R) (f : WFile σ) (hs : Stdio.Sound f.file) (hp : f.push = none) :
    ∃ bs g r f', fgetwc R f = some (r, { widen f with file := f' }) ∧ Stdio.Reads R f.file bs g ∧ bs.length ≤ 4 ∧
      ((WF bs r ∧ f' = g) ∨
        (bs ≠ [] ∧ Wrong bs ∧ Unfinished bs.dropLast ∧ r = WEOF ∧ f' = { g with err := true }) ∨
        (Unfinished bs ∧ r = WEOF ∧ ∃ g', Stdio.getc R g = (Stdio.EOF, g') ∧ f' = { g' with eof := true })) := by
  obtain ⟨bs, g, r, f', h1, h2, h3, h4⟩ := getLoop_spec hR f.file hs 5 [] 0 f.file (.nil _) (.inl ⟨rfl, rfl⟩) (by simp)
  refine ⟨bs, g, r, f', ?_, h2, h3, ?_⟩
  · unfold fgetwc
    simp only [widen_push, hp, widen_file, h1, Option.map_some]
  · have hb : Bytes bs := h2.bytes
    rcases h4 with h | ⟨a, b, ⟨_, c⟩, d⟩ | ⟨⟨_, c⟩, d⟩
    · exact .inl h
    · exact .inr (.inl ⟨a, error_wrong hb b, c.unfinished (fun x hx => hb x (List.dropLast_subset _ hx)), d⟩)
    · exact .inr (.inr ⟨c.unfinished hb, d⟩)

theorem WF_prefix {p q t u : List Nat} {v w : Nat} (hp : WF p v) (hq : WF q w) (e : p ++ t = q ++ u) : p = q ∧ v = w := by
  have h1 := Utf.decode_accept hp t
  have h2 := Utf.decode_accept hq u
  rw [e, h2] at h1
  injection h1 with _ h1
  injection h1 with h1
  subst h1
  exact ⟨hp.unique hq, rfl⟩

theorem unread_bytes {f : Stdio.File (List (Fin 256))} {t : List Nat} (h : Stdio.Unread f t) : Bytes t := by
  obtain ⟨hs, rfl⟩ := h
  intro x hx
  rcases List.mem_append.1 hx with hx | hx
  · unfold Stdio.pending at hx
    obtain ⟨i, _, rfl⟩ := List.mem_map.1 hx
    exact hs.2 _
  · obtain ⟨y, _, rfl⟩ := List.mem_map.1 hx
    exact y.2

theorem disk_err (f : Stdio.File (List (Fin 256))) : (Stdio.getc Stdio.disk f).2.err = f.err := by
  by_cases h : f.avail = 0
  · rw [Stdio.getc_host h]
    unfold Stdio.stdioRead Stdio.disk
    simp only
    split <;> rename_i e <;> simp only [Prod.mk.injEq] at e <;> rw [← e.2]
  · rw [Stdio.getc_pop h]

theorem disk_eof {f : Stdio.File (List (Fin 256))} {b : Nat} {t : List Nat} (h : Stdio.Unread f (b :: t)) :
    (Stdio.getc Stdio.disk f).2.eof = f.eof := by
  by_cases h0 : f.avail = 0
  · obtain ⟨hs, ht⟩ := h
    have hh : f.host.map Fin.val = b :: t := by simpa [Stdio.pending, h0] using ht
    obtain ⟨x, xs, hx⟩ : ∃ x xs, f.host = x :: xs := by
      cases hf : f.host with
      | nil => rw [hf] at hh; simp at hh
      | cons x xs => exact ⟨x, xs, rfl⟩
    rw [Stdio.getc_host h0]
    simp [Stdio.stdioRead, Stdio.disk, hx]
  · rw [Stdio.getc_pop h0]

theorem disk_reads {f g : Stdio.File (List (Fin 256))} {bs t : List Nat} (r : Stdio.Reads Stdio.disk f bs g)
    (h : Stdio.Unread f t) : g.eof = f.eof ∧ g.err = f.err := by
  induction r generalizing t with
  | nil => exact ⟨rfl, rfl⟩
  | @cons f b g bs h' e hl hr ih =>
    have h0 := h
    cases t with
    | nil =>
      have := h.get_nil.1
      rw [e] at this
      simp [Stdio.EOF] at this
    | cons x t =>
      have h2 := h.get_cons.2
      have h3 := disk_eof h
      have h4 := disk_err f
      rw [e] at h2 h3 h4
      have := ih h2
      exact ⟨this.1.trans h3, this.2.trans h4⟩

/-- `fgetwc` on a disk file at a well-formed sequence. -/
theorem fgetwc_disk (f : WFile (List (Fin 256))) (p t : List Nat) (v : Nat) (hw : WF p v) (hu : Stdio.Unread f.file (p ++ t))
    (hp : f.push = none) : ∃ g, fgetwc Stdio.disk f = some (v, g) ∧ Stdio.Unread g.file t ∧ g.push = none ∧ marks g = marks f := by
  obtain ⟨bs, g, r, f', h1, h2, h3, h4⟩ := fgetwc_spec Stdio.disk_honest f hu.1 hp
  obtain ⟨t', e, hu'⟩ := hu.reads h2
  rcases h4 with ⟨h, rfl⟩ | ⟨_, h, _⟩ | ⟨h, _, g', hg, _⟩
  · obtain ⟨rfl, rfl⟩ := WF_prefix hw h e
    refine ⟨_, h1, ?_, (widen_push f).trans hp, ?_⟩
    · rw [List.append_cancel_left e]; exact hu'
    · have := disk_reads h2 hu
      unfold marks
      simp only [this.1, this.2]
  · exact absurd e.symm (h t' p t v (unread_bytes hu') hw)
  · exfalso
    cases t' with
    | nil => rw [List.append_nil] at e; exact h p t v hw e.symm
    | cons x t' =>
      have := hu'.get_cons.1
      rw [hg] at this
      simp only [Stdio.EOF] at this
      omega

/-- `fgetwc` at the end of a disk file. -/
theorem fgetwc_end (f : WFile (List (Fin 256))) (p : List Nat) (hp : f.push = none) (hu : Stdio.Unread f.file p)
    (hun : p = [] ∨ ∃ q v, q ≠ [] ∧ WF (p ++ q) v) :
    ∃ g, fgetwc Stdio.disk f = some (WEOF, g) ∧ Stdio.Unread g.file [] ∧ g.push = none ∧ marks g = (true, (marks f).2) := by
  obtain ⟨bs, g, r, f', h1, h2, h3, h4⟩ := fgetwc_spec Stdio.disk_honest f hu.1 hp
  obtain ⟨t', e, hu'⟩ := hu.reads h2
  have hm := disk_reads h2 hu
  rcases h4 with ⟨h, rfl⟩ | ⟨hne, h, _⟩ | ⟨h, rfl, g', hg, rfl⟩
  · exfalso
    rcases hun with rfl | ⟨q, v, hq, hw⟩
    · exact h.ne_nil (List.append_eq_nil_iff.1 e.symm).1
    · have := WF_prefix (t := []) (u := t' ++ q) hw h (by rw [e]; simp)
      have hl := congrArg List.length this.1
      rw [e] at hl
      simp only [List.length_append] at hl
      exact hq (List.length_eq_zero_iff.1 (by omega))
  · exfalso
    rcases hun with rfl | ⟨q, v, hq, hw⟩
    · exact hne (List.append_eq_nil_iff.1 e.symm).1
    · refine h (t' ++ q) (p ++ q) [] v (fun x hx => ?_) hw (by rw [e]; simp)
      rcases List.mem_append.1 hx with hx | hx
      · exact unread_bytes hu' x hx
      · exact hw.bytes x (List.mem_append_right _ hx)
  · have ht : t' = [] := by
      cases t' with
      | nil => rfl
      | cons x t' =>
        have := hu'.get_cons.1
        rw [hg] at this
        simp only [Stdio.EOF] at this
        omega
    subst ht
    have h5 := hu'.get_nil.2
    have h6 := disk_err g
    rw [hg] at h5 h6
    refine ⟨_, h1, ⟨h5.1, h5.2⟩, (widen_push f).trans hp, ?_⟩
    unfold marks
    simp only at h6 ⊢
    rw [h6, hm.2]

theorem Enc_cons {t : List Nat} {c : Nat} {cs : List Nat} (h : Enc t (c :: cs)) : ∃ p u, t = p ++ u ∧ WF p c ∧ Enc u cs := by
  cases h with
  | cons hw he => exact ⟨_, _, rfl, hw, he⟩

theorem WF_ne_weof {p : List Nat} {v : Nat} (h : WF p v) : v ≠ WEOF := by
  have := h.scalar
  unfold Scalar at this
  unfold WEOF
  omega

/-- Reading what `cs` is encoded as. -/
theorem reads_enc (cs : List Nat) : ∀ (f : WFile (List (Fin 256))) (p t : List Nat), Enc p cs → Stdio.Unread f.file (p ++ t) →
    f.push = none → ∃ g, Reads Stdio.disk f cs g ∧ Stdio.Unread g.file t ∧ g.push = none ∧ marks g = marks f := by
  induction cs with
  | nil =>
    intro f p t he hu hp
    cases he
    exact ⟨f, .nil f, hu, hp, rfl⟩
  | cons c cs ih =>
    intro f p t he hu hp
    obtain ⟨q, u, rfl, hw, he'⟩ := Enc_cons he
    rw [List.append_assoc] at hu
    obtain ⟨g, h1, h2, h3, h4⟩ := fgetwc_disk f q (u ++ t) c hw hu hp
    obtain ⟨g', h5, h6, h7, h8⟩ := ih g u t he' h2 h3
    exact ⟨g', .cons h1 (WF_ne_weof hw) h5, h6, h7, h8.trans h4⟩

/-- What successive calls can have read. -/
theorem reads_disk {f g : WFile (List (Fin 256))} {xs : List Nat} (r : Reads Stdio.disk f xs g) :
    ∀ (t cs : List Nat), Enc t cs → Stdio.Unread f.file t → f.push = none →
    ∃ t' cs', cs = xs ++ cs' ∧ Enc t' cs' ∧ Stdio.Unread g.file t' ∧ g.push = none ∧ marks g = marks f := by
  induction r with
  | nil f => intro t cs he hu hp; exact ⟨t, cs, rfl, he, hu, hp, rfl⟩
  | @cons f c g xs h e hc _ ih =>
    intro t cs he hu hp
    cases cs with
    | nil =>
      cases he
      obtain ⟨g', h1, _⟩ := fgetwc_end f [] hp hu (.inl rfl)
      rw [e] at h1
      injection h1 with h1
      injection h1 with h1
      exact absurd h1 hc
    | cons d cs =>
      obtain ⟨q, u, rfl, hw, he'⟩ := Enc_cons he
      obtain ⟨g', h1, h2, h3, h4⟩ := fgetwc_disk f q u d hw hu hp
      rw [e] at h1
      injection h1 with h1
      injection h1 with h1 h1'
      subst h1 h1'
      obtain ⟨t', cs', h5, h6, h7, h8, h9⟩ := ih u cs he' h2 h3
      exact ⟨t', cs', by rw [h5]; rfl, h6, h7, h8, h9.trans h4⟩

theorem Reads.snoc {R : Stdio.Reader σ} {f g h : WFile σ} {xs : List Nat} {c : Nat} (a : Reads R f xs g)
    (e : fgetwc R g = some (c, h)) (hc : c ≠ WEOF) : Reads R f (xs ++ [c]) h := by
  induction a with
  | nil => exact .cons e hc (.nil _)
  | cons e' l _ ih => exact .cons e' l (ih e)

/-- `fgetwc` always ends, in a sound stream. -/
theorem fgetwc_total {R : Stdio.Reader σ} (hR : Stdio.Honest R) (f : WFile σ) (hs : Stdio.Sound f.file) :
    ∃ r g, fgetwc R f = some (r, g) ∧ Stdio.Sound g.file := by
  cases hp : f.push with
  | some c =>
    refine ⟨c, { widen f with push := none }, ?_, ?_⟩
    · unfold fgetwc
      simp only [widen_push, hp]
    · simp only [widen_file]; exact hs
  | none =>
    obtain ⟨bs, g, r, f', h1, h2, _, h4⟩ := fgetwc_spec hR f hs hp
    refine ⟨r, _, h1, ?_⟩
    have hg := h2.sound hs
    rcases h4 with ⟨_, rfl⟩ | ⟨_, _, _, _, rfl⟩ | ⟨_, _, g', hg', rfl⟩
    · exact hg
    · exact ⟨hg.1, hg.2⟩
    · have := Stdio.getc_sound (R := R) hg
      rw [hg'] at this
      exact ⟨this.1, this.2⟩

theorem Reads.sound {R : Stdio.Reader σ} (hR : Stdio.Honest R) {f g : WFile σ} {xs : List Nat} (a : Reads R f xs g)
    (hs : Stdio.Sound f.file) : Stdio.Sound g.file := by
  induction a with
  | nil => exact hs
  | @cons f _ _ _ _ e _ _ ih =>
    obtain ⟨r, g', h1, h2⟩ := fgetwc_total hR f hs
    rw [e] at h1
    injection h1 with h1
    injection h1 with _ h1
    subst h1
    exact ih h2

theorem put_written {m0 m : Wide.Mem} {s : Nat} {ws : List Int} (h : Wide.Written m0 m s ws) (w : Int) :
    Wide.Written m0 (Wide.put m (s + ws.length) w) s (ws ++ [w]) := by
  refine ⟨fun j hj => ?_, fun a ha => ?_⟩
  · simp only [List.length_append, List.length_singleton] at hj
    unfold Wide.put
    by_cases hji : j = ws.length
    · subst hji; simp
    · have : j < ws.length := by omega
      rw [if_neg (by omega), List.getElem_append_left this]
      exact h.1 j this
  · simp only [List.length_append, List.length_singleton] at ha
    unfold Wide.put
    rw [if_neg (by omega)]
    exact h.2 a (by omega)

theorem fgetwsLoop_spec {R : Stdio.Reader σ} (hR : Stdio.Honest R) (s : Nat) (m0 : Wide.Mem) (f0 : WFile σ)
    (hs : Stdio.Sound f0.file) (k : Nat) : ∀ (i : Nat) (m : Wide.Mem) (f : WFile σ) (pre : List Nat),
    Reads R f0 pre f → pre.length = i → 10 ∉ pre → Wide.Written m0 m s (pre.map wchar) →
    ∃ cs g o m' f', fgetwsLoop R s k i m f = some (o, m', f') ∧ Reads R f0 cs g ∧ cs.length ≤ i + k ∧ 10 ∉ cs.dropLast ∧
      Wide.Written m0 m' s (cs.map wchar) ∧
      ((o = some cs.length ∧ f' = g ∧ (cs.length = i + k ∨ cs.getLast? = some 10)) ∨
        (10 ∉ cs ∧ cs.length < i + k ∧ fgetwc R g = some (WEOF, f') ∧ o = if cs = [] then none else some cs.length)) := by
  induction k with
  | zero =>
    intro i m f pre hr hi h10 hm
    exact ⟨pre, f, some i, m, f, rfl, hr, by omega, fun h => h10 (List.dropLast_subset _ h), hm, .inl ⟨by rw [hi], rfl, .inl (by omega)⟩⟩
  | succ k ih =>
    intro i m f pre hr hi h10 hm
    obtain ⟨c, f1, hg, _⟩ := fgetwc_total hR f (hr.sound hR hs)
    unfold fgetwsLoop
    rw [hg]
    simp only
    by_cases hc : c = WEOF
    · rw [if_pos hc]
      subst hc
      refine ⟨pre, f, _, m, f1, rfl, hr, by omega, fun h => h10 (List.dropLast_subset _ h), hm, .inr ⟨h10, by omega, hg, ?_⟩⟩
      by_cases h0 : i = 0
      · have : pre = [] := List.length_eq_zero_iff.1 (by omega)
        simp [h0, this]
      · have : pre ≠ [] := by rintro rfl; simp at hi; omega
        simp [h0, this, hi]
    · rw [if_neg hc]
      have hr' := hr.snoc hg hc
      have hm' := put_written hm (wchar c)
      rw [List.length_map, hi] at hm'
      by_cases hn : c = 10
      · rw [if_pos hn]
        subst hn
        refine ⟨pre ++ [10], f1, _, _, f1, rfl, hr', by simp; omega, by rw [List.dropLast_concat]; exact h10, by simpa using hm',
          .inl ⟨by simp [hi], rfl, .inr (by simp)⟩⟩
      · rw [if_neg hn]
        obtain ⟨cs, g, o, m', f', h1, h2, h3, h4, h5, h6⟩ := ih (i + 1) _ f1 (pre ++ [c]) hr' (by simp [hi])
          (by simp only [List.mem_append, List.mem_singleton, not_or]; exact ⟨h10, fun h => hn h.symm⟩) (by simpa using hm')
        refine ⟨cs, g, o, m', f', h1, h2, by omega, h4, h5, ?_⟩
        rcases h6 with ⟨a, b, c⟩ | ⟨a, b, c, d⟩
        · exact .inl ⟨a, b, c.imp (by omega) id⟩
        · exact .inr ⟨a, by omega, c, d⟩

/-! ### Writing -/

theorem fputwc_scalar (W : Stdio.Writer σ) (hW : ∀ h bs n h', W h bs = (.inr n, h') → n ≤ bs.length) (f : WFile σ) (p : List Nat)
    (c : Nat) (hw : WF p c) :
    ∃ u, Took W f.file.host u (fputwc W c f).2.file.host ∧
      (((fputwc W c f).1 = c ∧ u = p ∧ marks (fputwc W c f).2 = marks f) ∨
        ((fputwc W c f).1 = WEOF ∧ (fputwc W c f).2.file.err = true ∧ u <+: p ∧ u ≠ p)) := by
  obtain ⟨h1, h2⟩ := Utf.wcrtomb_scalar c hw.scalar
  have hp := h2.unique hw
  have hpos := hw.length_pos
  have hle := hw.length_le
  have e : wcrtomb c = (p.length, p) := Prod.ext (by rw [h1, hp]) hp
  unfold fputwc
  simp only [e, widen_file]
  rw [if_neg (by unfold ERR; omega)]
  unfold Stdio.stdioWrite
  rcases hr : W f.file.host p with ⟨x | n, h⟩
  · simp only
    rw [if_pos (by omega)]
    exact ⟨[], .fail hr .nil, .inr ⟨rfl, rfl, List.nil_prefix, hw.ne_nil.symm⟩⟩
  · simp only
    have hn := hW _ _ _ _ hr
    by_cases hnp : n = p.length
    · rw [if_neg (by omega)]
      refine ⟨p.take n ++ [], .write hr .nil, .inl ⟨rfl, by rw [hnp]; simp, ?_⟩⟩
      unfold marks
      simp only [decide_eq_false (show ¬ n < p.length by omega), Bool.or_false]
    · rw [if_pos hnp]
      refine ⟨p.take n ++ [], .write hr .nil, .inr ⟨rfl, rfl, ?_, ?_⟩⟩
      · rw [List.append_nil]; exact List.take_prefix _ _
      · rw [List.append_nil]
        intro e
        have := congrArg List.length e
        rw [List.length_take] at this
        omega

theorem fputwc_other (W : Stdio.Writer σ) (f : WFile σ) (c : Nat) (hc : c < 2 ^ 32) (hn : ¬ Scalar c) :
    (fputwc W c f).1 = WEOF ∧ (fputwc W c f).2.file = { f.file with err := true } := by
  unfold fputwc
  simp only [Utf.wcrtomb_nonscalar c hc hn, widen_file]
  rw [if_pos trivial]
  exact ⟨rfl, rfl⟩

theorem Took.append {W : Stdio.Writer σ} {a b c : σ} {x y : List Nat} (h : Took W a x b) (g : Took W b y c) : Took W a (x ++ y) c := by
  induction h with
  | nil => exact g
  | write e _ ih => rw [List.append_assoc]; exact .write e (ih g)
  | fail e _ ih => exact .fail e (ih g)

theorem fputws_spec (W : Stdio.Writer σ) (hW : ∀ h bs n h', W h bs = (.inr n, h') → n ≤ bs.length) (good : List Nat) :
    ∀ (f : WFile σ) (bs tail : List Nat), Enc bs good →
    (tail = [] ∨ ∃ c cs, tail = c :: cs ∧ c < 2 ^ 32 ∧ ¬ Scalar c) →
    ∃ u, Took W f.file.host u (fputws W (good ++ tail) f).2.file.host ∧
      (((fputws W (good ++ tail) f).1 = 0 ∧ tail = [] ∧ u = bs ∧ marks (fputws W (good ++ tail) f).2 = marks f) ∨
        ((fputws W (good ++ tail) f).1 = -1 ∧ (fputws W (good ++ tail) f).2.file.err = true ∧ u <+: bs ∧ (u = bs → tail ≠ []))) := by
  induction good with
  | nil =>
    intro f bs tail he ht
    cases he
    rcases ht with rfl | ⟨c, cs, rfl, hc, hn⟩
    · exact ⟨[], .nil, .inl ⟨rfl, rfl, rfl, rfl⟩⟩
    · obtain ⟨h1, h2⟩ := fputwc_other W f c hc hn
      have e : fputws W (c :: cs) f = (-1, (fputwc W c f).2) := by
        rw [fputws]; simp only [h1, if_true]
      rw [List.nil_append, e]
      refine ⟨[], ?_, .inr ⟨rfl, ?_, List.nil_prefix, fun _ => by simp⟩⟩
      · simp only [h2]; exact .nil
      · simp only [h2]
  | cons c good ih =>
    intro f bs tail he ht
    obtain ⟨p, b, rfl, hw, he'⟩ := Enc_cons he
    obtain ⟨u, h1, h2⟩ := fputwc_scalar W hW f p c hw
    rw [List.cons_append, fputws]
    rcases h2 with ⟨h2, rfl, h3⟩ | ⟨h2, h3, h4, h5⟩
    · simp only [h2]
      rw [if_neg (WF_ne_weof hw)]
      obtain ⟨u', h6, h7⟩ := ih (fputwc W c f).2 b tail he' ht
      refine ⟨u ++ u', h1.append h6, ?_⟩
      rcases h7 with ⟨a, b, c, d⟩ | ⟨a, b, c, d⟩
      · exact .inl ⟨a, b, by rw [c], d.trans h3⟩
      · exact .inr ⟨a, b, (List.prefix_append_right_inj _).2 c, fun e => d (List.append_cancel_left e)⟩
    · simp only [h2, if_true]
      refine ⟨u, h1, .inr ⟨trivial, h3, h4.trans (List.prefix_append _ _), fun e => ?_⟩⟩
      exfalso
      have l := h4.length_le
      have e' := congrArg List.length e
      rw [List.length_append] at e'
      exact h5 (h4.eq_of_length (by omega))

theorem tape_honest : ∀ h bs n h', tape h bs = (.inr n, h') → n ≤ bs.length := by
  intro h bs n h' e
  simp only [tape, Prod.mk.injEq, Sum.inr.injEq] at e
  omega

theorem tape_took {a b : List (Fin 256)} {u : List Nat} (h : Took tape a u b) (hu : Bytes u) :
    b.map Fin.val = a.map Fin.val ++ u := by
  induction h with
  | nil => simp
  | @write h h' h'' bs n t e _ ih =>
    simp only [tape, Prod.mk.injEq, Sum.inr.injEq] at e
    rw [ih (fun x hx => hu x (List.mem_append_right _ hx)), ← e.2, ← e.1, List.take_length, List.map_append, List.map_map, List.append_assoc]
    congr 2
    rw [← e.1, List.take_length] at hu
    have : ∀ x ∈ bs, (Fin.val ∘ fun b : Nat => (⟨b % 256, Nat.mod_lt _ (by decide)⟩ : Fin 256)) x = x := by
      intro x hx
      have := hu x (List.mem_append_left _ hx)
      simp only [Function.comp]
      omega
    rw [List.map_congr_left this, List.map_id']
  | fail e _ _ => simp [tape] at e

/-! ### Orientation -/

theorem orient_fgetwc {R : Stdio.Reader σ} {f g : WFile σ} {c : Nat} (h : fgetwc R f = some (c, g)) :
    g.orient = if f.orient = 0 then 1 else f.orient := by
  rw [← widen_orient]
  unfold fgetwc at h
  simp only at h
  split at h
  · injection h with h; injection h with _ h; subst h; rfl
  · rcases hl : getLoop R 5 0 (widen f).file with _ | ⟨r, f'⟩
    · rw [hl] at h; cases h
    · rw [hl] at h; injection h with h; injection h with _ h; subst h; rfl

theorem orient_fputwc (W : Stdio.Writer σ) (c : Nat) (f : WFile σ) :
    (fputwc W c f).2.orient = if f.orient = 0 then 1 else f.orient := by
  rw [← widen_orient]
  unfold fputwc
  simp only
  split
  · rfl
  · split <;> rfl

theorem orient_loop {R : Stdio.Reader σ} (s k : Nat) : ∀ (i : Nat) (m : Wide.Mem) (f : WFile σ) (o : Option Nat) (m' : Wide.Mem) (g : WFile σ),
    fgetwsLoop R s k i m f = some (o, m', g) →
    (f.orient ≠ 0 → g.orient = f.orient) ∧ (f.orient = 0 → k ≠ 0 → g.orient = 1) ∧ (f.orient = 0 → k = 0 → g.orient = 0) := by
  induction k with
  | zero =>
    intro i m f o m' g h
    simp only [fgetwsLoop, Option.some.injEq, Prod.mk.injEq] at h
    rw [← h.2.2]
    exact ⟨fun _ => rfl, fun _ h => absurd rfl h, fun h _ => h⟩
  | succ k ih =>
    intro i m f o m' g h
    unfold fgetwsLoop at h
    rcases hg : fgetwc R f with _ | ⟨c, f1⟩
    · rw [hg] at h; cases h
    · rw [hg] at h
      have ho := orient_fgetwc hg
      have hgo : g.orient = f1.orient := by
        simp only at h
        by_cases hc : c = WEOF
        · rw [if_pos hc] at h
          simp only [Option.some.injEq, Prod.mk.injEq] at h
          rw [← h.2.2]
        · rw [if_neg hc] at h
          by_cases hn : c = 10
          · rw [if_pos hn] at h
            simp only [Option.some.injEq, Prod.mk.injEq] at h
            rw [← h.2.2]
          · rw [if_neg hn] at h
            refine (ih _ _ _ _ _ _ h).1 ?_
            rw [ho]; split <;> omega
      rw [hgo, ho]
      exact ⟨fun h => if_neg h, fun h _ => if_pos h, fun _ h => absurd h (by omega)⟩

theorem orient_fputws (W : Stdio.Writer σ) (cs : List Nat) : ∀ (f : WFile σ),
    (f.orient ≠ 0 → (fputws W cs f).2.orient = f.orient) ∧ (f.orient = 0 → cs ≠ [] → (fputws W cs f).2.orient = 1) := by
  induction cs with
  | nil => intro f; exact ⟨fun _ => rfl, fun _ h => absurd rfl h⟩
  | cons c cs ih =>
    intro f
    have ho := orient_fputwc W c f
    have : (fputws W (c :: cs) f).2.orient = (fputwc W c f).2.orient := by
      rw [fputws]
      simp only
      by_cases hc : (fputwc W c f).1 = WEOF
      · rw [if_pos hc]
      · rw [if_neg hc]
        refine (ih _).1 ?_
        rw [ho]; split <;> omega
    rw [this, ho]
    exact ⟨fun h => if_neg h, fun h _ => if_pos h⟩

end Verif.Wio
