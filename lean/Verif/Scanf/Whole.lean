import Verif.Scanf.Texts
import Verif.Scanf.Floats

/-!
# A whole format
-/

namespace Verif.Scanf

open Verif.Strtol (White Blank Subject IsDigit denoted value digitVal)

/-- The letter of a specifier and what follows it. -/
def Kind.code : Kind → Int
  | .d => 100 | .i => 105 | .u => 117 | .o => 111 | .x => 120 | .X => 88 | .p => 112
  | .s => 115 | .c => 99 | .n => 110 | .f a => a | .set _ _ => 91

def Kind.more : Kind → List Int
  | .set neg es => (if neg then [94] else []) ++ es.flatMap Elem.text ++ [93]
  | _ => []

theorem kind_text (k : Kind) : k.text = k.code :: k.more := by
  cases k <;> simp [Kind.text, Kind.code, Kind.more]

/-- What `length_` makes of a modifier. -/
def Len.code : Len → Int × Nat
  | .none => (0, 0) | .hh => (104, 2) | .h => (104, 1) | .l => (108, 1) | .ll => (108, 2)
  | .j => (106, 1) | .z => (122, 1) | .t => (116, 1) | .L => (76, 1)

theorem letters {c : Int} (h : c ∈ [97, 101, 102, 103, 65, 69, 70, 71]) :
    c = 97 ∨ c = 101 ∨ c = 102 ∨ c = 103 ∨ c = 65 ∨ c = 69 ∨ c = 70 ∨ c = 71 := by simpa using h

theorem ok_letter {v : Conv} (hv : (Dir.conv v).Ok) {c : Int} (hk : v.kind = .f c) : c ∈ [97, 101, 102, 103, 65, 69, 70, 71] := by
  have := hv.2.2
  rw [hk] at this
  exact this.2

theorem length_eq (m : Len) (k : Kind) (rest : List Int) (hk : ∀ c, k = .f c → c ∈ [97, 101, 102, 103, 65, 69, 70, 71]) :
    length (m.text ++ k.code :: rest) = m.code ∧ m.code.2 = m.text.length := by
  cases k with
  | f a =>
    rcases letters (hk a rfl) with rfl | rfl | rfl | rfl | rfl | rfl | rfl | rfl <;>
      cases m <;> simp [Len.text, Kind.code, length, Len.code]
  | _ => cases m <;> simp [Len.text, Kind.code, length, Len.code]

theorem width_eq (m : Len) (h : m ≠ .L) : width m.code = m.size := by
  cases m <;> first | exact absurd rfl h | decide

theorem mark_eq (m : Len) : m.mark = m.code := by cases m <;> rfl

theorem digit_val_dec {c : Int} (h : 48 ≤ c ∧ c ≤ 57) : ((digitVal c).getD 0 : Int) = c - 48 := by
  unfold digitVal
  rw [if_pos h]
  simp only [Option.getD_some]
  omega

theorem foldl_ge (ds : List Int) : ∀ a : Nat, a ≤ ds.foldl (fun v c => v * 10 + (digitVal c).getD 0) a := by
  induction ds with
  | nil => intro a; exact Nat.le_refl _
  | cons c ds ih =>
    intro a
    simp only [List.foldl_cons]
    exact Nat.le_trans (by omega) (ih _)

theorem widthLoop_eq (ds : List Int) : ∀ (a : Nat) (rest : List Int), (∀ c ∈ ds, 48 ≤ c ∧ c ≤ 57) →
    (∀ c ∈ rest.head?, ¬ (48 ≤ c ∧ c ≤ 57)) → ds.foldl (fun v c => v * 10 + (digitVal c).getD 0) a ≤ 2147483647 →
    widthLoop (ds ++ rest) a = some (((ds.foldl (fun v c => v * 10 + (digitVal c).getD 0) a : Nat) : Int), rest) := by
  induction ds with
  | nil =>
    intro a rest _ hr _
    cases rest with
    | nil => rfl
    | cons c rest =>
      simp only [List.nil_append, widthLoop]
      rw [if_neg (hr c (by simp))]
      rfl
  | cons c ds ih =>
    intro a rest hd hr hle
    simp only [List.foldl_cons] at hle
    have h1 := foldl_ge ds (a * 10 + (digitVal c).getD 0)
    have hc := hd c (by simp)
    have hv := digit_val_dec hc
    simp only [List.cons_append, widthLoop, List.foldl_cons]
    rw [if_pos hc]
    have e1 : chk32 ((a : Int) * 10) = some ((a : Int) * 10) := by
      unfold chk32; rw [if_pos (show IsI32 _ from ⟨by omega, by omega⟩)]
    have e2 : chk32 ((a : Int) * 10 + (c - 48)) = some ((a * 10 + (digitVal c).getD 0 : Nat) : Int) := by
      unfold chk32; rw [if_pos (show IsI32 _ from ⟨by omega, by omega⟩)]
      congr 1
      omega
    simp only [e1, Option.bind_eq_bind, Option.bind_some, e2]
    exact ih _ rest (fun y hy => hd y (by simp [hy])) hr hle

/-- The width as the code has it. -/
def Conv.code (v : Conv) : Int := match v.limit with | none => 2147483647 | some k => k

/-- How a conversion specification is read. -/
theorem loop_conv (nargs k : Nat) (v : Conv) (hv : (Dir.conv v).Ok) (rest : List Int) (st : State)
    (harg : v.suppress = false → st.arg < nargs) :
    loop nargs (k + 1) (v.text ++ rest) st =
      (convert st.s v.kind.code v.code v.len.code (if v.suppress then none else some st.arg) (v.kind.more ++ rest)).bind
        fun ((r, s, out), p) =>
          let st := { st with s := s, arg := if v.suppress then st.arg else st.arg + 1, out := st.out ++ out }
          if r = -1 then some ⟨orEof st.assigned, st⟩
          else if r = 0 then some ⟨st.assigned, st⟩
          else if r = 1 ∧ v.suppress = false then loop nargs k p { st with assigned := st.assigned + 1 }
          else loop nargs k p st := by
  have hlet := fun c => ok_letter hv (c := c)
  obtain ⟨hd, hlim, -⟩ := hv
  have hhead : ∀ c ∈ (v.len.text ++ v.kind.code :: (v.kind.more ++ rest)).head?, ¬ (48 ≤ c ∧ c ≤ 57) ∧ c ≠ 42 := by
    intro c hc
    cases hl : v.len <;> rw [hl] at hc <;> simp only [Len.text, List.nil_append, List.cons_append, List.head?_cons,
      Option.mem_def, Option.some.injEq] at hc <;> subst hc
    · cases hk : v.kind with
      | f a =>
        rcases letters (hlet a hk) with rfl | rfl | rfl | rfl | rfl | rfl | rfl | rfl <;> simp [Kind.code]
      | _ => simp [Kind.code]
    all_goals decide
  have hw : widthLoop (v.digits ++ (v.len.text ++ v.kind.code :: (v.kind.more ++ rest))) 0 =
      some (((value 10 v.digits : Nat) : Int), v.len.text ++ v.kind.code :: (v.kind.more ++ rest)) := by
    have := widthLoop_eq v.digits 0 (v.len.text ++ v.kind.code :: (v.kind.more ++ rest)) hd (fun c hc => (hhead c hc).1)
      (by
        by_cases h : v.digits = []
        · rw [h]; simp
        · have := (hlim h).2; unfold value at this; omega)
    exact this
  have hcode : (if ((value 10 v.digits : Nat) : Int) = 0 then 2147483647 else ((value 10 v.digits : Nat) : Int)) = v.code := by
    unfold Conv.code Conv.limit
    by_cases h : v.digits = []
    · rw [if_pos h, h]; rfl
    · rw [if_neg h, if_neg (by have := hlim h; omega)]
  have htext : v.text ++ rest = 37 :: ((if v.suppress then [42] else []) ++
      (v.digits ++ (v.len.text ++ v.kind.code :: (v.kind.more ++ rest)))) := by
    unfold Conv.text
    rw [kind_text]
    simp
  obtain ⟨hlen, hlen2⟩ := length_eq v.len v.kind (v.kind.more ++ rest) hlet
  have hdrop : (v.len.text ++ v.kind.code :: (v.kind.more ++ rest)).drop v.len.code.2 = v.kind.code :: (v.kind.more ++ rest) := by
    rw [hlen2, List.drop_left]
  rw [htext]
  conv => lhs; unfold loop
  rw [if_neg (by decide), if_neg (by decide)]
  cases hs : v.suppress with
  | true =>
    simp only [if_true, List.cons_append, List.nil_append, List.head?_cons, decide_true, List.tail_cons, hw,
      Option.bind_eq_bind, Option.bind_some, hcode, hlen, hdrop, Bool.not_true, Bool.false_and, Bool.false_eq_true,
      if_false, Option.getD_some]
  | false =>
    have hh : (v.digits ++ (v.len.text ++ v.kind.code :: (v.kind.more ++ rest))).head? ≠ some 42 := by
      cases hdg : v.digits with
      | nil => exact fun h => (hhead 42 h).2 rfl
      | cons c ds =>
        have := hd c (by rw [hdg]; simp)
        simp; omega
    have hlt : ¬ nargs ≤ st.arg := by have := harg hs; omega
    simp only [Bool.false_eq_true, if_false, List.nil_append, hh, decide_false, hw,
      Option.bind_eq_bind, Option.bind_some, hcode, hlen, hdrop, Bool.not_false, Bool.true_and, hlt,
      Option.getD_some, List.head?_cons, List.tail_cons]

theorem item_stop {v : Conv} {item t : List Int} (h : v.Item (item ++ t) item) :
    v.limit = some item.length ∨ ∀ x ∈ t.head?, ¬ ∃ z, v.Match (item ++ [x] ++ z) := by
  by_cases hl : v.limit = some item.length
  · exact .inl hl
  · refine .inr fun x hx hz => ?_
    cases t with
    | nil => simp at hx
    | cons y t =>
      simp at hx
      subst hx
      have := h.2.2 (item ++ [y]) ⟨t, by simp⟩ ⟨hz, fun k hk => by
        have h1 := h.2.1.2 k hk
        have h2 : k ≠ item.length := fun h => hl (h ▸ hk)
        simp only [List.length_append, List.length_cons, List.length_nil]
        omega⟩
      simp at this
      omega

/-- The width and the field width. -/
theorem code_le {v : Conv} {item t : List Int} (h : v.Item (item ++ t) item) (hlen : (item ++ t).length < 2147483647) :
    (item.length : Int) ≤ v.code ∧ ((item.length : Int) = v.code ↔ v.limit = some item.length) := by
  simp only [List.length_append] at hlen
  unfold Conv.code
  cases hl : v.limit with
  | none => simp; omega
  | some k =>
    have := h.2.1.2 k hl
    simp
    omega

theorem code_pos {v : Conv} (hv : (Dir.conv v).Ok) : 0 < v.code := by
  unfold Conv.code Conv.limit
  by_cases h : v.digits = []
  · simp [h]
  · have := (hv.2.1 h).1
    simp [h]
    omega

theorem match_int {v : Conv} {base : Nat} (hb : v.kind.base = some base) (w : List Int) :
    v.Match w ↔ ∃ neg radix digits, Subject base w neg radix digits := by
  have : v.Match w ↔ ∃ base neg radix digits, v.kind.base = some base ∧ Subject base w neg radix digits := by
    unfold Conv.Match
    cases hk : v.kind <;> rw [hk] at hb <;> first | exact Iff.rfl | exact absurd hb (by simp [Kind.base])
  rw [this]
  constructor
  · rintro ⟨b, neg, radix, digits, h1, h2⟩
    rw [hb] at h1
    obtain rfl := Option.some.inj h1
    exact ⟨neg, radix, digits, h2⟩
  · rintro ⟨neg, radix, digits, h⟩
    exact ⟨base, neg, radix, digits, hb, h⟩

/-- Integer conversions: the base, the sign and the size. -/
theorem convert_int {v : Conv} {base : Nat} (hv : (Dir.conv v).Ok) (hb : v.kind.base = some base) :
    (base = 0 ∨ (2 ≤ base ∧ base ≤ 16)) ∧ v.skips ∧ v.kind.more = [] ∧ ∃ len,
      width len = (if v.kind = .p then 4 else v.len.size) ∧ ∀ s w arg rest,
      convert s v.kind.code w v.len.code arg rest = (scanInt s w base (decide v.kind.signed) len arg).map (·, rest) := by
  have hL := hv.2.2
  unfold Conv.skips
  cases hk : v.kind <;> rw [hk] at hb hL <;> simp only [Kind.base, Option.some.injEq, reduceCtorEq] at hb <;> subst hb
  all_goals refine ⟨by omega, trivial, rfl, ?_⟩
  all_goals first
    | exact ⟨(108, 1), by rw [if_pos rfl]; decide, fun s w arg rest => by simp [convert, Kind.code, Kind.signed]⟩
    | exact ⟨v.len.code, by simpa using width_eq v.len hL, fun s w arg rest => by simp [convert, Kind.code, Kind.signed]⟩

theorem size_dvd (m : Len) (k : Kind) :
    (2 : Int) ^ (8 * (if k = .p then 4 else m.size)) ∣ 18446744073709551616 := by
  split
  · decide
  · cases m <;> decide

theorem stored_eq {v : Conv} {base : Nat} {item : List Int} {neg radix digits obj} (hb : v.kind.base = some base)
    (hb0 : base = 0 ∨ (2 ≤ base ∧ base ≤ 16)) {len : Int × Nat}
    (hlen : width len = (if v.kind = .p then 4 else v.len.size))
    (hf : Event.Fine ⟨v, item, obj⟩) (hs : Subject base item neg radix digits) (arg : Option Nat) (s : Scanner) :
    stored (decide v.kind.signed) item radix len arg s = some (1, s, store arg (.int (if v.kind = .p then 4 else v.len.size)
      (denoted neg radix digits % 2 ^ (8 * (if v.kind = .p then 4 else v.len.size))).toNat)) := by
  have hr := (hf.2 base hb).2.2 neg radix digits hs
  unfold stored
  rw [hlen]
  by_cases hsg : v.kind.signed
  · simp only at hr
    rw [if_pos hsg] at hr
    obtain ⟨r, e, he⟩ := signed_value hs (by omega) hr.1 hr.2
    simp only [hsg, decide_true, if_true, e, Option.bind_some, he]
  · simp only at hr
    rw [if_neg hsg] at hr
    obtain ⟨r, e, he⟩ := unsigned_value hs (by omega) hr
    simp only [hsg, decide_false, Bool.false_eq_true, if_false, e, Option.bind_some, he]
    rw [Int.emod_emod_of_dvd _ (size_dvd v.len v.kind)]

/-- Floating-point conversions. -/
theorem convert_float {v : Conv} {a : Int} (hv : (Dir.conv v).Ok) (hk : v.kind = .f a) (s : Scanner) (w : Int) (arg : Option Nat)
    (rest : List Int) : convert s v.kind.code w v.len.code arg (v.kind.more ++ rest) = (scanFloat s w v.len.code arg).map (·, rest) := by
  have hl := letters (ok_letter hv hk)
  rw [hk]
  rcases hl with rfl | rfl | rfl | rfl | rfl | rfl | rfl | rfl <;> simp [convert, Kind.code, Kind.more]

/-- A completed conversion. -/
theorem convert_done {v : Conv} {b item t rest : List Int} {n : Nat} {obj : Obj} {s : Scanner} (hv : (Dir.conv v).Ok)
    (hby : Bytes (b ++ item ++ t)) (hlen : (b ++ item ++ t).length < 2147483647) (h : At s (b ++ item ++ t) n 1)
    (hbl : Blank b) (hsk : ¬ v.skips → b = []) (hwh : v.skips → ∀ x ∈ (item ++ t).head?, ¬ White x)
    (hit : v.Item (item ++ t) item) (hm : v.Match item)
    (hst : v.Stores item obj) (hf : Event.Fine ⟨v, item, obj⟩) (arg : Option Nat) :
    ∃ s', At s' t (n + b.length + item.length) 1 ∧ (v.kind = .c → s'.peek = []) ∧
      convert s v.kind.code v.code v.len.code arg (v.kind.more ++ rest) = some ((1, s', store arg obj), rest) := by
  have hl : (item ++ t).length < 2147483647 := by
    simp only [List.length_append] at hlen ⊢; omega
  obtain ⟨hw, hweq⟩ := code_le hit hl
  have hstop := item_stop hit
  rw [List.append_assoc] at hby h
  cases hst with
  | int size hb hs hsize =>
    rename_i base neg radix digits
    obtain ⟨hb0, hskips, hmore, len, hsz, hconv⟩ := convert_int hv hb
    have hfe := hf.2 base hb
    obtain ⟨s', hat, e⟩ := scanInt_done (w := v.code) hb0 hby h hbl hs (decide v.kind.signed) len arg hfe.1 hw
      (fun he => hfe.2.1 (hweq.mp he))
      (hstop.imp hweq.mpr fun hx x hx' => by
        rintro ⟨z, neg, radix, digits, hs'⟩
        exact hx x hx' ⟨z, (match_int hb _).mpr ⟨neg, radix, digits, hs'⟩⟩)
    refine ⟨s', hat, fun hc => ?_, ?_⟩
    · rw [hc] at hb; exact absurd hb (by simp [Kind.base])
    · rw [hmore, hconv, List.nil_append, e, stored_eq hb hb0 hsz hf hs, hsize]
      rfl
  | str hk =>
    have hm' : ∀ w, v.Match w ↔ w ≠ [] ∧ ∀ c ∈ w, ¬ White c := by
      intro w; unfold Conv.Match; rw [hk]
    obtain ⟨s', hat, e⟩ := scanStr_done (w := v.code) hby h hbl ((hm' _).mp hm).1 ((hm' _).mp hm).2 arg hw
      (hstop.imp hweq.mpr fun hx x hx' => by
        by_cases hw : White x
        · exact hw
        · refine absurd ⟨[], (hm' _).mpr ⟨by simp, fun c hc => ?_⟩⟩ (hx x hx')
          simp only [List.append_nil, List.mem_append, List.mem_singleton] at hc
          rcases hc with hc | rfl
          · exact ((hm' _).mp hm).2 c hc
          · exact hw)
    refine ⟨s', hat, fun hc => ?_, ?_⟩
    · rw [hk] at hc; exact absurd hc (by simp)
    · rw [hk]
      simp only [Kind.more, Kind.code, convert, List.nil_append]
      simp [e]
  | @set neg es hk =>
    have hb' : b = [] := hsk (by unfold Conv.skips; rw [hk]; simp)
    subst hb'
    have hm' : ∀ w, v.Match w ↔ w ≠ [] ∧ ∀ c ∈ w, ((∃ e ∈ es, e.Has c) ↔ neg = false) := by
      intro w; unfold Conv.Match; rw [hk]
    have hok := hv.2.2
    rw [hk] at hok
    obtain ⟨map, emap, hmap⟩ := parseSet_eq (neg := neg) (es := es) rest hok.2.1 hok.2.2.1 hok.2.2.2
    have hin : ∀ c, ((∃ e ∈ es, e.Has c) ↔ neg = false) ↔ map c = !neg := by
      intro c
      rw [← hmap c]
      cases map c <;> cases neg <;> simp
    simp only [List.nil_append] at hby h
    obtain ⟨s', hat, e⟩ := scanSet_done (w := v.code) (map := map) (neg := neg) hby h ((hm' _).mp hm).1
      (fun c hc => (hin c).mp (((hm' _).mp hm).2 c hc)) arg hw
      (hstop.imp hweq.mpr fun hx x hx' => by
        by_cases hw : map x = neg
        · exact hw
        · refine absurd ⟨[], (hm' _).mpr ⟨by simp, fun c hc => ?_⟩⟩ (hx x hx')
          simp only [List.append_nil, List.mem_append, List.mem_singleton] at hc
          rcases hc with hc | rfl
          · exact ((hm' _).mp hm).2 c hc
          · rw [hin]
            revert hw
            cases map c <;> cases neg <;> simp)
    refine ⟨s', hat, fun hc => ?_, ?_⟩
    · rw [hk] at hc; exact absurd hc (by simp)
    · rw [hk]
      simp only [Kind.more, Kind.code, convert, List.append_assoc, List.cons_append, List.nil_append] at emap ⊢
      simp [emap, e]
  | @real a hk =>
    have hm' : ∀ w, v.Match w ↔ Real w := by
      intro w; unfold Conv.Match; rw [hk]
    have hskips : v.skips := by unfold Conv.skips; rw [hk]; trivial
    obtain ⟨s', hat, e⟩ := scanFloat_done (w := v.code) hby h hbl (hwh hskips) ((hm' _).mp hm) (hf.1 a hk) hw
      (hstop.imp hweq.mpr fun hx x hx' z hr => hx x hx' ⟨z, (hm' _).mpr (by simpa using hr)⟩) v.len.code arg
    refine ⟨s', hat, fun hc => ?_, ?_⟩
    · rw [hk] at hc; exact absurd hc (by simp)
    · rw [convert_float hv hk, e, mark_eq]
      rfl
  | chars hk =>
    have hb' : b = [] := hsk (by unfold Conv.skips; rw [hk]; simp)
    subst hb'
    have hm' : item.length = v.limit.getD 1 := by
      have := hm; unfold Conv.Match at this; rw [hk] at this; exact this
    have hw1 : (if v.code = 2147483647 then 1 else v.code) = (item.length : Int) := by
      rw [hm']
      unfold Conv.code Conv.limit
      by_cases hd : v.digits = []
      · simp [hd]
      · have := (hv.2.1 hd)
        simp [hd]
        omega
    have hne : item ≠ [] := by
      rintro rfl
      have := code_pos hv
      split at hw1 <;> simp at hw1
      omega
    simp only [List.nil_append] at hby h
    obtain ⟨s', hat, e⟩ := scanChars_done hby h hne arg
    refine ⟨s', (hat.mono (by omega)).cast (by simp), fun hc => ?_, ?_⟩
    · exact List.length_eq_zero_iff.mp (Nat.le_zero.mp hat.room)
    · rw [hk]
      simp only [Kind.more, Kind.code, convert, List.nil_append]
      simp [e, hw1]

/-- A matching failure. -/
theorem convert_mismatch {v : Conv} {b item t rest : List Int} {n : Nat} {s : Scanner} (hv : (Dir.conv v).Ok)
    (hby : Bytes (b ++ item ++ t)) (hlen : (b ++ item ++ t).length < 2147483647) (h : At s (b ++ item ++ t) n 1)
    (hn : v.kind ≠ .n) (hbl : Blank b) (hsk : ¬ v.skips → b = []) (hwh : v.skips → ∀ x ∈ (item ++ t).head?, ¬ White x)
    (hne : item ++ t ≠ []) (hit : v.Item (item ++ t) item) (hm : ¬ v.Match item) (hc : v.kind ≠ .c)
    (hf : v.kind.base ≠ none → v.limit ≠ some item.length)
    (hfl : ∀ c, v.kind = .f c → item = [] ∨ item = [43] ∨ item = [45] ∨ item = [46] ∨ item = [43, 46] ∨ item = [45, 46])
    (arg : Option Nat) :
    ∃ s' m, At s' t m 1 ∧
      convert s v.kind.code v.code v.len.code arg (v.kind.more ++ rest) = some ((0, s', []), rest) := by
  have hl : (item ++ t).length < 2147483647 := by
    simp only [List.length_append] at hlen ⊢; omega
  obtain ⟨hw, hweq⟩ := code_le hit hl
  have hstop := item_stop hit
  rw [List.append_assoc] at hby h
  cases hb : v.kind.base with
  | some base =>
    obtain ⟨hb0, hskips, hmore, len, hsz, hconv⟩ := convert_int hv hb
    have hlim := hf (by rw [hb]; simp)
    obtain ⟨z, hz⟩ := hit.2.1.1
    obtain ⟨s', hat, e⟩ := scanInt_fail (w := v.code) hb0 hby h hbl hne (hwh hskips)
      ⟨z, (match_int hb _).mp hz⟩ (fun hs => hm ((match_int hb _).mpr hs)) (decide v.kind.signed) len arg
      (by have := mt hweq.mp hlim; omega)
      (fun x hx => by
        rintro ⟨z, neg, radix, digits, hs'⟩
        exact (hstop.resolve_left hlim) x hx ⟨z, (match_int hb _).mpr ⟨neg, radix, digits, hs'⟩⟩)
    exact ⟨s', _, hat, by rw [hmore, hconv, List.nil_append, e]; rfl⟩
  | none =>
    cases hk : v.kind with
    | s =>
      exfalso
      have hm' : ∀ w, v.Match w ↔ w ≠ [] ∧ ∀ c ∈ w, ¬ White c := by
        intro w; unfold Conv.Match; rw [hk]
      have hskips : v.skips := by unfold Conv.skips; rw [hk]; trivial
      obtain ⟨z, hz⟩ := hit.2.1.1
      rw [hm'] at hz hm
      have hi : item = [] := by
        by_cases hi : item = []
        · exact hi
        · exact absurd ⟨hi, fun c hc => hz.2 c (by simp [hc])⟩ hm
      subst hi
      cases t with
      | nil => exact absurd rfl hne
      | cons x t =>
        have hx := hwh hskips x (by simp)
        rcases hstop with hs | hs
        · have := code_pos hv
          have := hweq.mpr hs
          simp at this
          omega
        · exact hs x (by simp) ⟨[], (hm' _).mpr ⟨by simp, by simpa using hx⟩⟩
    | set neg es =>
      have hb' : b = [] := hsk (by unfold Conv.skips; rw [hk]; simp)
      subst hb'
      have hm' : ∀ w, v.Match w ↔ w ≠ [] ∧ ∀ c ∈ w, ((∃ e ∈ es, e.Has c) ↔ neg = false) := by
        intro w; unfold Conv.Match; rw [hk]
      have hok := hv.2.2
      rw [hk] at hok
      obtain ⟨map, emap, hmap⟩ := parseSet_eq (neg := neg) (es := es) rest hok.2.1 hok.2.2.1 hok.2.2.2
      have hin : ∀ c, ((∃ e ∈ es, e.Has c) ↔ neg = false) ↔ map c = !neg := by
        intro c
        rw [← hmap c]
        cases map c <;> cases neg <;> simp
      obtain ⟨z, hz⟩ := hit.2.1.1
      rw [hm'] at hz hm
      have hi : item = [] := by
        by_cases hi : item = []
        · exact hi
        · exact absurd ⟨hi, fun c hc => hz.2 c (by simp [hc])⟩ hm
      subst hi
      simp only [List.nil_append] at hby h hne
      have hpos := code_pos hv
      have hs := hstop.resolve_left (fun hs => by
        have := hweq.mpr hs
        simp at this
        omega)
      obtain ⟨s', hat, e⟩ := scanSet_fail (w := v.code) (map := map) (neg := neg) hby h hne arg hpos
        (fun x hx => by
          by_cases hw : map x = neg
          · exact hw
          · refine absurd ⟨[], (hm' _).mpr ⟨by simp, fun c hc => ?_⟩⟩ (hs x hx)
            simp at hc
            subst hc
            rw [hin]
            revert hw
            cases map c <;> cases neg <;> simp)
      refine ⟨s', _, hat, ?_⟩
      simp only [Kind.more, Kind.code, convert, List.append_assoc, List.cons_append, List.nil_append] at emap ⊢
      simp [emap, e]
    | f a =>
      have hm' : ∀ w, v.Match w ↔ Real w := by
        intro w; unfold Conv.Match; rw [hk]
      have hskips : v.skips := by unfold Conv.skips; rw [hk]; trivial
      have hpos := code_pos hv
      obtain ⟨sign, dot, neg, rfl, hs, hd⟩ : ∃ sign dot neg, item = sign ++ dot ∧ Decimal.Spec.Sign sign neg ∧ (dot = [] ∨ dot = [46]) := by
        rcases hfl a hk with rfl | rfl | rfl | rfl | rfl | rfl
        · exact ⟨[], [], false, rfl, .inl ⟨rfl, rfl⟩, .inl rfl⟩
        · exact ⟨[43], [], false, rfl, .inr (.inl ⟨rfl, rfl⟩), .inl rfl⟩
        · exact ⟨[45], [], true, rfl, .inr (.inr ⟨rfl, rfl⟩), .inl rfl⟩
        · exact ⟨[], [46], false, rfl, .inl ⟨rfl, rfl⟩, .inr rfl⟩
        · exact ⟨[43], [46], false, rfl, .inr (.inl ⟨rfl, rfl⟩), .inr rfl⟩
        · exact ⟨[45], [46], true, rfl, .inr (.inr ⟨rfl, rfl⟩), .inr rfl⟩
      obtain ⟨s', m, hat, e⟩ := scanFloat_fail (w := v.code) hby h hbl (hwh hskips) hs hd hne (by omega) hw
        (hstop.imp hweq.mpr fun hx x hx' z hr => hx x hx' ⟨z, (hm' _).mpr (by simpa using hr)⟩) v.len.code arg
      refine ⟨s', m, hat, ?_⟩
      rw [← hk, convert_float hv hk, e]
      rfl
    | c => exact absurd hk hc
    | n => exact absurd hk hn
    | d => rw [hk] at hb; exact absurd hb (by simp [Kind.base])
    | i => rw [hk] at hb; exact absurd hb (by simp [Kind.base])
    | u => rw [hk] at hb; exact absurd hb (by simp [Kind.base])
    | o => rw [hk] at hb; exact absurd hb (by simp [Kind.base])
    | x => rw [hk] at hb; exact absurd hb (by simp [Kind.base])
    | X => rw [hk] at hb; exact absurd hb (by simp [Kind.base])
    | p => rw [hk] at hb; exact absurd hb (by simp [Kind.base])

/-- An input failure. -/
theorem convert_empty {v : Conv} {b rest : List Int} {n : Nat} {s : Scanner} (hv : (Dir.conv v).Ok)
    (hby : Bytes b) (h : At s b n 1) (hn : v.kind ≠ .n) (hbl : Blank b) (hsk : ¬ v.skips → b = []) (arg : Option Nat) :
    ∃ s' m, At s' [] m 1 ∧
      convert s v.kind.code v.code v.len.code arg (v.kind.more ++ rest) = some ((-1, s', []), rest) := by
  cases hb : v.kind.base with
  | some base =>
    obtain ⟨hb0, hskips, hmore, len, hsz, hconv⟩ := convert_int hv hb
    obtain ⟨s', m, hat, e⟩ := scanInt_eof (w := v.code) (base := base) hby h hbl (decide v.kind.signed) len arg
    exact ⟨s', m, hat, by rw [hmore, hconv, List.nil_append, e]; rfl⟩
  | none =>
    cases hk : v.kind with
    | s =>
      obtain ⟨s', m, hat, e⟩ := scanStr_eof (w := v.code) hby h hbl arg
      refine ⟨s', m, hat, ?_⟩
      simp only [Kind.more, Kind.code, convert, List.nil_append]
      simp [e]
    | set neg es =>
      have hb' : b = [] := hsk (by unfold Conv.skips; rw [hk]; simp)
      subst hb'
      have hok := hv.2.2
      rw [hk] at hok
      obtain ⟨map, emap, hmap⟩ := parseSet_eq (neg := neg) (es := es) rest hok.2.1 hok.2.2.1 hok.2.2.2
      obtain ⟨s', hat, e⟩ := scanSet_eof (w := v.code) (map := map) (neg := neg) h arg
      refine ⟨s', _, hat, ?_⟩
      simp only [Kind.more, Kind.code, convert, List.append_assoc, List.cons_append, List.nil_append] at emap ⊢
      simp [emap, e]
    | f a =>
      obtain ⟨s', m, hat, e⟩ := scanFloat_eof (w := v.code) hby h hbl v.len.code arg
      refine ⟨s', m, hat, ?_⟩
      rw [← hk, convert_float hv hk, e]
      rfl
    | c =>
      have hb' : b = [] := hsk (by unfold Conv.skips; rw [hk]; simp)
      subst hb'
      obtain ⟨s', hat, e⟩ := scanChars_eof (w := if v.code = 2147483647 then 1 else v.code) h arg
      refine ⟨s', _, hat, ?_⟩
      simp only [Kind.more, Kind.code, convert, List.nil_append]
      simp [e]
    | n => exact absurd hk hn
    | d => rw [hk] at hb; exact absurd hb (by simp [Kind.base])
    | i => rw [hk] at hb; exact absurd hb (by simp [Kind.base])
    | u => rw [hk] at hb; exact absurd hb (by simp [Kind.base])
    | o => rw [hk] at hb; exact absurd hb (by simp [Kind.base])
    | x => rw [hk] at hb; exact absurd hb (by simp [Kind.base])
    | X => rw [hk] at hb; exact absurd hb (by simp [Kind.base])
    | p => rw [hk] at hb; exact absurd hb (by simp [Kind.base])

theorem cons_assigned (e : Event) (o : Outcome) :
    (o.cons e).assigned = (if e.v.kind ≠ .n ∧ e.v.suppress = false then 1 else 0) + o.assigned := by
  unfold Outcome.cons Outcome.assigned
  by_cases h : e.v.kind ≠ .n ∧ e.v.suppress = false
  · rw [if_pos h, List.filter_cons_of_pos (by simpa using h)]
    simp; omega
  · rw [if_neg h, List.filter_cons_of_neg (by simpa using h)]
    simp

theorem cons_objects (e : Event) (o : Outcome) :
    (o.cons e).objects = (if e.v.suppress = false then [e.obj] else []) ++ o.objects := by
  unfold Outcome.cons Outcome.objects
  by_cases h : e.v.suppress = false
  · simp [h]
  · simp [h]

theorem pointers_cons (d : Dir) (ds : List Dir) : pointers (d :: ds) =
    (match d with | .conv v => if v.suppress = false then 1 else 0 | _ => 0) + pointers ds := by
  unfold pointers
  cases d with
  | white c => simp
  | lit c => simp
  | conv v =>
    cases h : v.suppress with
    | true => simp [h]
    | false => simp [h]; omega

theorem loop_scan {ds : List Dir} {t : List Int} {n : Nat} {o : Outcome} (h : Scan ds t n o) :
    ∀ (nargs k : Nat) (st : State), (∀ d ∈ ds, d.Ok) → Bytes t → n + t.length < 2147483647 → At st.s t n 1 → ds.length < k →
    st.arg + pointers ds ≤ nargs → (∀ e ∈ o.events, e.Fine) → o.ending.Fine →
    ∃ r m, loop nargs k (render ds) st = some r ∧ At r.state.s o.rest m 1 ∧
      r.state.out = st.out ++ number st.arg o.objects ∧
      r.value = (if o.ending = .input then orEof (st.assigned + o.assigned) else ((st.assigned + o.assigned : Nat) : Int)) ∧
      ∀ b, o.ending = .complete → (b = true → st.s.peek = []) → tight b ds = true → r.state.s.peek = [] := by
  induction h with
  | @nil t n =>
    intro nargs k st _ _ _ hat hk _ _ _
    obtain ⟨k, rfl⟩ : ∃ j, k = j + 1 := ⟨k - 1, by simp at hk; omega⟩
    exact ⟨_, n, rfl, hat, by simp [Outcome.objects, number], by simp [Outcome.assigned], fun b _ h1 h2 => h1 h2⟩
  | @white c ds b t n o hbl hwh _ ih =>
    intro nargs k st hok hby hlen hat hk harg hev hend
    obtain ⟨k, rfl⟩ : ∃ j, k = j + 1 := ⟨k - 1, by simp at hk; omega⟩
    simp only [List.length_append] at hlen
    obtain ⟨s', e, hat'⟩ := skipWs_eq hby hat hbl hwh
    have hc : White c := hok (.white c) (by simp)
    obtain ⟨r, m, e2, h1, h2, h3, h4⟩ := ih nargs k { st with s := s' } (fun d hd => hok d (by simp [hd])) hby.right (by omega)
      hat' (by simp at hk; omega) (by rw [pointers_cons] at harg; simpa using harg) hev hend
    refine ⟨r, m, ?_, h1, h2, h3, fun b' hcm _ ht => h4 false hcm (by simp) ht⟩
    show loop nargs (k + 1) (c :: render ds) st = _
    conv => lhs; unfold loop
    rw [if_pos ((space_eq c (by unfold White at hc; omega)).mpr hc), e]
    exact e2
  | @lit c ds t n o _ ih =>
    intro nargs k st hok hby hlen hat hk harg hev hend
    obtain ⟨k, rfl⟩ : ∃ j, k = j + 1 := ⟨k - 1, by simp at hk; omega⟩
    simp only [List.length_cons] at hlen
    obtain ⟨c', s', e, hh⟩ := sgetc_at hby hat
    obtain ⟨rfl, hc, hat'⟩ := held_cons hh
    have hc' : ¬ White c' ∧ c' ≠ 37 ∧ 1 ≤ c' ∧ c' ≤ 255 := hok (.lit c') (by simp)
    obtain ⟨r, m, e2, h1, h2, h3, h4⟩ := ih nargs k { st with s := s' } (fun d hd => hok d (by simp [hd])) hby.tail (by omega)
      (hat'.mono (by omega)) (by simp at hk; omega) (by rw [pointers_cons] at harg; simpa using harg) hev hend
    refine ⟨r, m, ?_, h1, h2, h3, fun b' hcm _ ht => h4 true hcm
      (fun _ => List.length_eq_zero_iff.mp (Nat.le_zero.mp hat'.room)) ht⟩
    show loop nargs (k + 1) (c' :: render ds) st = _
    conv => lhs; unfold loop
    rw [if_neg (fun h => hc'.1 ((space_eq c' ⟨by omega, by omega⟩).mp h)), if_pos hc'.2.1, e]
    simp only
    rw [if_neg hc, if_neg (by simp)]
    exact e2
  | @litOther c x ds t n hx =>
    intro nargs k st hok hby hlen hat hk harg hev hend
    obtain ⟨k, rfl⟩ : ∃ j, k = j + 1 := ⟨k - 1, by simp at hk; omega⟩
    obtain ⟨c', s', e, hh⟩ := sgetc_at hby hat
    have hcx := held_cons hh
    obtain ⟨s2, e2, hat2⟩ := sungetc_held hh
    have hc' : ¬ White c ∧ c ≠ 37 ∧ 1 ≤ c ∧ c ≤ 255 := hok (.lit c) (by simp)
    refine ⟨⟨st.assigned, { st with s := s2 }⟩, n, ?_, hat2, by simp [Outcome.objects, number], by simp [Outcome.assigned],
      fun b' hcm => nomatch hcm⟩
    show loop nargs (k + 1) (c :: render ds) st = _
    conv => lhs; unfold loop
    rw [if_neg (fun h => hc'.1 ((space_eq c ⟨by omega, by omega⟩).mp h)), if_pos hc'.2.1, e]
    simp only
    rw [if_neg hcx.2.1, if_pos (by rw [hcx.1]; exact hx), e2]
    rfl
  | @litEnd c ds n =>
    intro nargs k st hok hby hlen hat hk harg hev hend
    obtain ⟨k, rfl⟩ : ∃ j, k = j + 1 := ⟨k - 1, by simp at hk; omega⟩
    obtain ⟨c', s', e, hh⟩ := sgetc_at hby hat
    obtain ⟨rfl, hat2⟩ := held_nil hh
    have hc' : ¬ White c ∧ c ≠ 37 ∧ 1 ≤ c ∧ c ≤ 255 := hok (.lit c) (by simp)
    refine ⟨⟨orEof st.assigned, { st with s := s' }⟩, n, ?_, hat2.mono (by omega), by simp [Outcome.objects, number],
      by simp [Outcome.assigned], fun b' hcm => nomatch hcm⟩
    show loop nargs (k + 1) (c :: render ds) st = _
    conv => lhs; unfold loop
    rw [if_neg (fun h => hc'.1 ((space_eq c ⟨by omega, by omega⟩).mp h)), if_pos hc'.2.1, e]
    rfl
  | @count v ds t n o hn _ ih =>
    intro nargs k st hok hby hlen hat hk harg hev hend
    obtain ⟨k, rfl⟩ : ∃ j, k = j + 1 := ⟨k - 1, by simp at hk; omega⟩
    have hv := hok (.conv v) (by simp)
    rw [pointers_cons] at harg
    simp only at harg
    have hL : v.len ≠ .L := by have := hv.2.2; rw [hn] at this; exact this
    have hcount : st.s.count = n := by rw [hat.pos]; exact Nat.mod_eq_of_lt (by omega)
    obtain ⟨r, m, e2, h1, h2, h3, h4⟩ := ih nargs k
      ⟨st.s, st.assigned, if v.suppress then st.arg else st.arg + 1,
        st.out ++ store (if v.suppress then none else some st.arg) (.int v.len.size (n % 2 ^ (8 * v.len.size)))⟩
      (fun d hd => hok d (by simp [hd])) hby hlen hat (by simp at hk; omega)
      (by cases hs : v.suppress <;> simp [hs] at harg ⊢ <;> omega)
      (fun e he => hev e (by simp [Outcome.cons, he])) hend
    refine ⟨r, m, ?_, h1, ?_, ?_, fun b' hcm hb' ht => h4 b' hcm hb' (by simpa [tight, hn] using ht)⟩
    · show loop nargs (k + 1) (v.text ++ render ds) st = _
      rw [loop_conv nargs k v hv _ st (fun hs => by simp [hs] at harg; omega)]
      have : convert st.s v.kind.code v.code v.len.code (if v.suppress then none else some st.arg) (v.kind.more ++ render ds) =
          some ((-2, st.s, store (if v.suppress then none else some st.arg) (.int v.len.size (n % 2 ^ (8 * v.len.size)))),
            render ds) := by
        rw [hn]
        simp [Kind.code, Kind.more, convert, width_eq _ hL, hcount]
      rw [this]
      simp only [Option.bind_some]
      rw [if_neg (by decide), if_neg (by decide), if_neg (by simp)]
      exact e2
    · rw [h2, cons_objects]
      cases hs : v.suppress <;> simp [store, number]
    · rw [h3, cons_assigned]
      simp [hn, Outcome.cons]
  | @done v ds b item t n o obj hn hbl hsk hwh hne hit hm hst _ ih =>
    intro nargs k st hok hby hlen hat hk harg hev hend
    obtain ⟨k, rfl⟩ : ∃ j, k = j + 1 := ⟨k - 1, by simp at hk; omega⟩
    have hv := hok (.conv v) (by simp)
    rw [pointers_cons] at harg
    simp only at harg
    simp only [List.length_append] at hlen
    obtain ⟨s', hat', hc, e⟩ := convert_done (rest := render ds) hv hby (by simp only [List.length_append]; omega) hat hbl hsk hwh hit hm
      hst (hev _ (by simp [Outcome.cons])) (if v.suppress then none else some st.arg)
    obtain ⟨r, m, e2, h1, h2, h3, h4⟩ := ih nargs k
      ⟨s', st.assigned + (if v.suppress = false then 1 else 0), if v.suppress then st.arg else st.arg + 1,
        st.out ++ store (if v.suppress then none else some st.arg) obj⟩
      (fun d hd => hok d (by simp [hd])) hby.right (by omega) hat' (by simp at hk; omega)
      (by cases hs : v.suppress <;> simp [hs] at harg ⊢ <;> omega)
      (fun e he => hev e (by simp [Outcome.cons, he])) hend
    refine ⟨r, m, ?_, h1, ?_, ?_, fun b' hcm hb' ht => h4 (decide (v.kind = .c)) hcm (fun h => hc (by simpa using h))
      (by simpa [tight, hn] using ht)⟩
    · show loop nargs (k + 1) (v.text ++ render ds) st = _
      rw [loop_conv nargs k v hv _ st (fun hs => by simp [hs] at harg; omega), e]
      simp only [Option.bind_some]
      rw [if_neg (by decide), if_neg (by decide)]
      cases hs : v.suppress with
      | true => simpa [hs] using e2
      | false => simpa [hs] using e2
    · rw [h2, cons_objects]
      cases hs : v.suppress <;> simp [store, number]
    · rw [h3, cons_assigned]
      simp only [Outcome.cons, hn, ne_eq, not_false_eq_true, true_and, Nat.add_assoc]
  | @mismatch v ds b item t n hn hbl hsk hwh hne hit hm =>
    intro nargs k st hok hby hlen hat hk harg hev hend
    obtain ⟨k, rfl⟩ : ∃ j, k = j + 1 := ⟨k - 1, by simp at hk; omega⟩
    have hv := hok (.conv v) (by simp)
    rw [pointers_cons] at harg
    simp only at harg
    simp only [List.length_append] at hlen
    obtain ⟨s', m, hat', e⟩ := convert_mismatch (rest := render ds) hv hby (by simp only [List.length_append]; omega) hat hn hbl
      hsk hwh hne hit hm hend.1 hend.2.1 hend.2.2 (if v.suppress then none else some st.arg)
    refine ⟨⟨st.assigned, ⟨s', st.assigned, if v.suppress then st.arg else st.arg + 1, st.out ++ []⟩⟩, m, ?_, hat',
      by simp [Outcome.objects, number], by simp [Outcome.assigned], fun b' hcm => nomatch hcm⟩
    show loop nargs (k + 1) (v.text ++ render ds) st = _
    rw [loop_conv nargs k v hv _ st (fun hs => by simp [hs] at harg; omega), e]
    simp only [Option.bind_some]
    rw [if_neg (by decide), if_pos trivial]
  | @empty v ds b n hn hbl hsk =>
    intro nargs k st hok hby hlen hat hk harg hev hend
    obtain ⟨k, rfl⟩ : ∃ j, k = j + 1 := ⟨k - 1, by simp at hk; omega⟩
    have hv := hok (.conv v) (by simp)
    rw [pointers_cons] at harg
    simp only at harg
    obtain ⟨s', m, hat', e⟩ := convert_empty (rest := render ds) hv hby hat hn hbl hsk (if v.suppress then none else some st.arg)
    refine ⟨⟨orEof st.assigned, ⟨s', st.assigned, if v.suppress then st.arg else st.arg + 1, st.out ++ []⟩⟩, m, ?_, hat',
      by simp [Outcome.objects, number], by simp [Outcome.assigned], fun b' hcm => nomatch hcm⟩
    show loop nargs (k + 1) (v.text ++ render ds) st = _
    rw [loop_conv nargs k v hv _ st (fun hs => by simp [hs] at harg; omega), e]
    simp only [Option.bind_some]
    rw [if_pos trivial]

theorem exists_item (v : Conv) (t : List Int) (h0 : v.Viable []) : ∃ item, v.Item t item := by
  suffices h : ∀ k, k ≤ t.length → (∀ w, w <+: t → v.Viable w → w.length ≤ k) → ∃ item, v.Item t item from
    h t.length (Nat.le_refl _) fun w hw _ => hw.length_le
  intro k
  induction k with
  | zero => intro _ h; exact ⟨[], List.nil_prefix, h0, fun w hw hv => h w hw hv⟩
  | succ k ih =>
    intro hk h
    by_cases hv : v.Viable (t.take (k + 1))
    · refine ⟨_, List.take_prefix _ _, hv, fun w hw hv' => ?_⟩
      rw [List.length_take_of_le hk]
      exact h w hw hv'
    · refine ih (by omega) fun w hw hv' => ?_
      have := h w hw hv'
      by_cases he : w.length = k + 1
      · rw [← he, ← List.prefix_iff_eq_take.mp hw] at hv
        exact absurd hv' hv
      · omega

theorem elems_high {first es} (h : elemsOk first es) : ∀ e ∈ es, ¬ e.Has 256 ∧ ∃ c, e.Has c := by
  induction es generalizing first with
  | nil => simp
  | cons e es ih =>
    intro e' he'
    cases e with
    | one c =>
      obtain ⟨h1, -, -, h2⟩ := h
      simp only [List.mem_cons] at he'
      rcases he' with rfl | he'
      · exact ⟨fun h => by simp only [Elem.Has] at h; omega, c, rfl⟩
      · exact ih h2 e' he'
    | range lo hi =>
      obtain ⟨h1, h3, -, -, h2⟩ := h
      simp only [List.mem_cons] at he'
      rcases he' with rfl | he'
      · exact ⟨fun h => by simp only [Elem.Has] at h; omega, lo, by simp only [Elem.Has]; omega⟩
      · exact ih h2 e' he'

theorem viable_nil {v : Conv} (hv : (Dir.conv v).Ok) (hn : v.kind ≠ .n) : v.Viable [] := by
  refine ⟨?_, fun k _ => by simp⟩
  cases hb : v.kind.base with
  | some base =>
    have hb0 := (convert_int hv hb).1
    obtain ⟨radix, hp⟩ := body_zero (base := base) (by omega) (.inl rfl)
    obtain ⟨neg, digits, h⟩ := parts_subject (by omega) hp (.inl rfl)
    exact ⟨_, (match_int hb _).mpr ⟨neg, radix, digits, h⟩⟩
  | none =>
    unfold Conv.Match
    cases hk : v.kind with
    | s => exact ⟨[97], by simp, by simp [White]⟩
    | f a => exact ⟨[105, 110, 102], .inf ⟨[], [105, 110, 102], .inl ⟨rfl, rfl⟩, rfl, .inl (by decide)⟩⟩
    | c => exact ⟨List.replicate (v.limit.getD 1) 0, by simp⟩
    | set neg es =>
      have hok := hv.2.2
      rw [hk] at hok
      obtain ⟨-, hne, hel, -⟩ := hok
      cases neg with
      | true =>
        refine ⟨[256], by simp, ?_⟩
        intro c hc
        simp at hc
        subst hc
        simp only [reduceCtorEq, iff_false, not_exists, not_and]
        exact fun e he => (elems_high hel e he).1
      | false =>
        cases es with
        | nil => exact absurd rfl hne
        | cons e es =>
          obtain ⟨c, hc⟩ := (elems_high hel e (by simp)).2
          refine ⟨[c], by simp, ?_⟩
          intro x hx
          simp at hx
          subst hx
          simp only [iff_true]
          exact ⟨e, by simp, hc⟩
    | n => exact absurd hk hn
    | d => rw [hk] at hb; exact absurd hb (by simp [Kind.base])
    | i => rw [hk] at hb; exact absurd hb (by simp [Kind.base])
    | u => rw [hk] at hb; exact absurd hb (by simp [Kind.base])
    | o => rw [hk] at hb; exact absurd hb (by simp [Kind.base])
    | x => rw [hk] at hb; exact absurd hb (by simp [Kind.base])
    | X => rw [hk] at hb; exact absurd hb (by simp [Kind.base])
    | p => rw [hk] at hb; exact absurd hb (by simp [Kind.base])

theorem exists_stores {v : Conv} {item : List Int} (hn : v.kind ≠ .n) (hm : v.Match item) : ∃ obj, v.Stores item obj := by
  cases hb : v.kind.base with
  | some base =>
    obtain ⟨neg, radix, digits, h⟩ := (match_int hb _).mp hm
    exact ⟨_, .int _ hb h rfl⟩
  | none =>
    cases hk : v.kind with
    | s => exact ⟨_, .str hk⟩
    | f a => exact ⟨_, .real hk⟩
    | c => exact ⟨_, .chars hk⟩
    | set neg es => exact ⟨_, .set hk⟩
    | n => exact absurd hk hn
    | d => rw [hk] at hb; exact absurd hb (by simp [Kind.base])
    | i => rw [hk] at hb; exact absurd hb (by simp [Kind.base])
    | u => rw [hk] at hb; exact absurd hb (by simp [Kind.base])
    | o => rw [hk] at hb; exact absurd hb (by simp [Kind.base])
    | x => rw [hk] at hb; exact absurd hb (by simp [Kind.base])
    | X => rw [hk] at hb; exact absurd hb (by simp [Kind.base])
    | p => rw [hk] at hb; exact absurd hb (by simp [Kind.base])

theorem split_blank (t : List Int) : ∃ b r, t = b ++ r ∧ Blank b ∧ ∀ x ∈ r.head?, ¬ White x := by
  induction t with
  | nil => exact ⟨[], [], rfl, by simp [Blank], by simp⟩
  | cons c t ih =>
    by_cases hc : White c
    · obtain ⟨b, r, rfl, hb, hr⟩ := ih
      refine ⟨c :: b, r, rfl, ?_, hr⟩
      intro x hx
      simp only [List.mem_cons] at hx
      rcases hx with rfl | hx
      · exact hc
      · exact hb x hx
    · exact ⟨[], c :: t, rfl, by simp [Blank], by simpa using hc⟩

/-- Every format has an outcome on every text. -/
theorem scan_total (ds : List Dir) : ∀ (t : List Int) (n : Nat), (∀ d ∈ ds, d.Ok) → ∃ o, Scan ds t n o := by
  induction ds with
  | nil => intro t n _; exact ⟨_, .nil⟩
  | cons d ds ih =>
    intro t n hok
    have hok' : ∀ d ∈ ds, d.Ok := fun d hd => hok d (by simp [hd])
    cases d with
    | white c =>
      obtain ⟨b, r, rfl, hb, hr⟩ := split_blank t
      obtain ⟨o, ho⟩ := ih r (n + b.length) hok'
      exact ⟨o, .white hb hr ho⟩
    | lit c =>
      cases t with
      | nil => exact ⟨_, .litEnd⟩
      | cons x t =>
        by_cases hx : x = c
        · subst hx
          obtain ⟨o, ho⟩ := ih t (n + 1) hok'
          exact ⟨o, .lit ho⟩
        · exact ⟨_, .litOther hx⟩
    | conv v =>
      have hv := hok (.conv v) (by simp)
      by_cases hn : v.kind = .n
      · obtain ⟨o, ho⟩ := ih t n hok'
        exact ⟨_, .count hn ho⟩
      · obtain ⟨b, r, rfl, hb, hsk, hwh⟩ : ∃ b r, t = b ++ r ∧ Blank b ∧ (¬ v.skips → b = []) ∧
            (v.skips → ∀ x ∈ r.head?, ¬ White x) := by
          by_cases hs : v.skips
          · obtain ⟨b, r, e, h1, h2⟩ := split_blank t
            exact ⟨b, r, e, h1, fun h => absurd hs h, fun _ => h2⟩
          · exact ⟨[], t, rfl, by simp [Blank], fun _ => rfl, fun h => absurd h hs⟩
        by_cases hr : r = []
        · subst hr
          rw [List.append_nil]
          exact ⟨_, .empty hn hb hsk⟩
        · obtain ⟨item, hit⟩ := exists_item v r (viable_nil hv hn)
          obtain ⟨t, rfl⟩ := hit.1
          rw [← List.append_assoc]
          by_cases hm : v.Match item
          · obtain ⟨obj, hst⟩ := exists_stores hn hm
            obtain ⟨o, ho⟩ := ih t (n + b.length + item.length) hok'
            exact ⟨_, .done hn hb hsk hwh hr hit hm hst ho⟩
          · exact ⟨_, .mismatch hn hb hsk hwh hr hit hm⟩

theorem filter_le {α} (p q : α → Bool) (h : ∀ x, p x = true → q x = true) (l : List α) :
    (l.filter p).length ≤ (l.filter q).length := by
  induction l with
  | nil => simp
  | cons x l ih =>
    by_cases hp : p x = true
    · rw [List.filter_cons_of_pos hp, List.filter_cons_of_pos (h x hp)]
      simp only [List.length_cons]
      omega
    · rw [List.filter_cons_of_neg hp]
      by_cases hq : q x = true
      · rw [List.filter_cons_of_pos hq]
        simp only [List.length_cons]
        omega
      · rw [List.filter_cons_of_neg hq]
        exact ih

theorem render_length (ds : List Dir) : ds.length < (render ds).length.succ := by
  suffices ds.length ≤ (render ds).length by omega
  induction ds with
  | nil => simp
  | cons d ds ih =>
    have : 1 ≤ d.text.length := by
      cases d with
      | white c => simp [Dir.text]
      | lit c => simp [Dir.text]
      | conv v => simp [Dir.text, Conv.text]
    have e : render (d :: ds) = d.text ++ render ds := by simp [render]
    rw [e]
    simp only [List.length_cons, List.length_append]
    omega

end Verif.Scanf
