import Verif.Life.Lemmas
import Verif.Stdio.Props
import Verif.Wio.Props

/-!
# Properties C132 to C136
-/

namespace Verif.Life
open Verif.Wasi

/-! ## C132: `fclose` -/

/-- C132: closing a stream that came from `fopen` asks the host once to close its descriptor, releases the object and no other,
and returns 0 if the host reported success and `EOF` otherwise.  What is missing: the error number, see `C132_errno_lost`, and the
standard streams, see `C132_standard`. -/
theorem C132_fclose_partial {σ : Type} (H : Host σ) (p : Nat) (w : World σ) (s : Stream) (hs : w.file p = some s)
    (hp : p ∈ w.heap) (he : (H.fdClose w.host s.fd).1 < 77) :
    ∃ r w', fclose H p w = some (r, w') ∧ w'.host = (H.fdClose w.host s.fd).2 ∧
      r = (if (H.fdClose w.host s.fd).1 = 0 then 0 else Stdio.EOF) ∧
      w'.heap = w.heap.erase p ∧ w'.file p = none ∧ ∀ q, q ≠ p → w'.file q = w.file q := by
  unfold fclose
  simp only [hs, Option.bind_eq_bind, Option.bind_some]
  cases hc : H.fdClose w.host s.fd with
  | mk e h =>
    rw [hc] at he
    unfold stdioClose free
    simp only [hc]
    by_cases h0 : e = 0
    · simp only [h0, if_pos, Option.bind_some, if_pos hp]
      exact ⟨_, _, rfl, rfl, rfl, rfl, by simp [World.store], fun q hq => by simp [World.store, hq]⟩
    · have hn : ∃ n, seterrno e = some n := by
        unfold seterrno
        exact ⟨_, List.getElem?_eq_getElem (by exact he)⟩
      obtain ⟨n, hn⟩ := hn
      simp only [if_neg h0, hn, Option.map_some, Option.bind_some, if_pos hp]
      exact ⟨_, _, rfl, rfl, rfl, rfl, by simp [World.store], fun q hq => by simp [World.store, hq]⟩

/-- C132 is violated: whatever went wrong, `errno` says that the operation is not permitted.  For `wasi_seterrno` has set it and
returned -1, whose negation `fclose` then stores. -/
theorem C132_errno_lost {σ : Type} (H : Host σ) (p : Nat) (w w' : World σ) (r : Int) (s : Stream) (hs : w.file p = some s)
    (he : (H.fdClose w.host s.fd).1 ≠ 0) (h : fclose H p w = some (r, w')) : w'.errno = E.EPERM := by
  unfold fclose at h
  simp only [hs, Option.bind_eq_bind, Option.bind_some] at h
  cases hc : stdioClose H s.fd w with
  | none => rw [hc] at h; cases h
  | some rw1 =>
    obtain ⟨r1, w1⟩ := rw1
    obtain ⟨_, _, _, h4⟩ := stdioClose_some hc
    have hr : r1 = -1 := by
      rcases h4 with h4 | h4
      · exact absurd h4.1 he
      · exact h4.2
    subst hr
    simp only [hc, Option.bind_some] at h
    cases hf : free p w1 with
    | none => rw [hf] at h; cases h
    | some w2 =>
      simp only [hf, Option.bind_some] at h
      rw [if_neg (by decide)] at h
      injection h with h
      injection h with _ h2
      rw [← h2]
      rfl

/-- C132 is violated by the standard streams, and by any other stream not allocated by `fopen`: it is passed to `free`, which is
undefined. -/
theorem C132_standard {σ : Type} (H : Host σ) (p : Nat) (w : World σ) (hp : p ∉ w.heap) : fclose H p w = none := by
  unfold fclose
  cases hs : w.file p with
  | none => rfl
  | some s =>
    simp only [Option.bind_eq_bind, Option.bind_some]
    cases hc : stdioClose H s.fd w with
    | none => rfl
    | some rw1 =>
      obtain ⟨r1, w1⟩ := rw1
      obtain ⟨_, h2, _⟩ := stdioClose_some hc
      simp only [Option.bind_some]
      unfold free
      rw [if_neg (by rw [h2]; exact hp)]
      rfl

/-- A host for the examples: its state is the list of open descriptors; it opens any path, up to a limit, and reports `ENOSPC`
when descriptor 9 is closed. -/
def tableHost : Host (List Nat) where
  pathOpen s _ := let fd := s.foldr max 3 + 1; if fd < 2 ^ 31 then ((0, fd), fd :: s) else ((33, 0), s)
  fdClose s fd := (if fd = 9 then 51 else 0, s.erase fd)
  setFlags s _ _ := (0, s)
  unlink s _ _ := (52, s)
  rmdir s _ _ := (52, s)
  rename s _ _ _ _ := (52, s)

/-- A stream with descriptor 5 at address 100, one with descriptor 9 at 200, and standard output at 16. -/
def someWorld : World (List Nat) :=
  ⟨[5, 9, 1], 0, [100, 200], fun p =>
    if p = 100 then some (FILE_ 5 false) else if p = 200 then some (FILE_ 9 false)
    else if p = 16 then some (FILE_ 1 false) else none⟩

example : (fclose tableHost 100 someWorld).map (fun r => (r.1, r.2.host, r.2.heap)) = some (0, [9, 1], [200]) := by decide
example : (fclose tableHost 200 someWorld).map (fun r => (r.1, r.2.errno, r.2.heap)) = some (-1, 1, [100]) := by decide
example : (fclose tableHost 16 someWorld).map (fun r => r.1) = none := by decide
example : someWorld.file 100 = some (FILE_ 5 false) ∧ 100 ∈ someWorld.heap ∧ (tableHost.fdClose someWorld.host 5).1 < 77 := by decide

/-! ## C133: no descriptor is leaked or closed twice -/

theorem foldr_max_le : ∀ (l : List Nat) (x : Nat), x ∈ l → x ≤ l.foldr max 3
  | y :: l, x, h => by
    simp only [List.foldr_cons]
    rcases List.mem_cons.1 h with h | h
    · omega
    · have := foldr_max_le l x h
      omega

/-- The host of the examples keeps a table of descriptors. -/
theorem tableHost_ok : Descriptors tableHost id where
  opened s r fd s' h := by
    simp only [tableHost] at h
    split at h
    · rename_i hlt
      injection h with h1 h2
      injection h1 with _ h1
      subst h1 h2
      refine ⟨fun hm => ?_, hlt, rfl⟩
      have := foldr_max_le s _ hm
      omega
    · injection h with h1 _
      injection h1 with h1 _
      cases h1
  notOpened s r e fd s' h he := by
    simp only [tableHost] at h
    split at h
    · injection h with h1 _
      injection h1 with h1 _
      exact absurd h1.symm he
    · injection h with _ h2
      rw [h2]
  closed s fd e s' _ h := by
    injection h with _ h2
    exact h2.symm
  kept s fd f e s' h := by
    injection h with _ h2
    rw [h2]

/-- C133: one call of `fopen`, `fclose` or `freopen`, whether it succeeds or fails, keeps the descriptors balanced. -/
theorem C133_step {σ : Type} (H : Host σ) (fds : σ → List Nat) (hH : Descriptors H fds) (malloc : List Nat → Option Nat)
    (es : List Entry) (base own : List Nat) (hm : Fresh malloc own) (c : Call) (w w' : World σ)
    (hb : Balanced fds base own w) (h : call H malloc es c w = some w') : Balanced fds base own w' := by
  cases c with
  | fopen path mode =>
    simp only [call, fopen, Option.bind_eq_bind] at h
    cases ho : openFd H es path (modeflags mode) w with
    | none => rw [ho] at h; cases h
    | some x =>
      obtain ⟨r, w1⟩ := x
      obtain ⟨h1, h2, h3⟩ := openFd_some hH ho
      simp only [ho, Option.bind_some] at h
      rcases h3 with ⟨h3, h4⟩ | ⟨h3, h4, h5⟩
      · rw [if_pos h3] at h
        simp only [Option.map_some, Option.some.injEq] at h
        subst h
        refine ⟨by rw [h1]; exact hb.distinct, by rw [h1, h2]; exact hb.streams, ?_, by rw [h4]; exact hb.single⟩
        rw [h4, h1]
        have : fdOf w1 = fdOf w := by funext q; unfold fdOf; rw [h2]
        rw [this]
        exact hb.table
      · rw [if_neg (by omega)] at h
        cases hp : malloc w1.heap with
        | none => rw [hp] at h; cases h
        | some p =>
          simp only [hp, Option.bind_some, Option.map_some, Option.some.injEq] at h
          obtain ⟨h6, h7⟩ := hm _ _ hp
          rw [h1] at h6
          subst h
          have hnew : p ∉ own ++ w.heap := by simp [h6, h7]
          have hperm : (own ++ p :: w1.heap).Perm (p :: (own ++ w.heap)) := by rw [h1]; exact List.perm_middle
          refine ⟨?_, ?_, ?_, ?_⟩
          · exact hperm.nodup_iff.2 (List.nodup_cons.2 ⟨hnew, hb.distinct⟩)
          · intro q
            show (if q = p then some _ else w1.file q).isSome = true ↔ q ∈ own ++ p :: w1.heap
            rw [hperm.mem_iff, List.mem_cons, h2]
            by_cases hq : q = p
            · simp [hq]
            · rw [if_neg hq, hb.streams]
              simp [hq]
          · show (fds w1.host).Perm (base ++ (own ++ p :: w1.heap).map _)
            rw [h5]
            refine (hb.table.cons _).trans ?_
            refine List.perm_middle.symm.trans (List.Perm.append_left base ?_)
            refine List.Perm.trans ?_ (hperm.map _).symm
            rw [List.map_cons]
            have e1 : ∀ x : World σ, x.file p = some (FILE_ r.toNat (modeflags mode &&& 0o2000 ≠ 0)) → fdOf x p = r.toNat :=
              fun x hx => fdOf_some hx
            rw [e1 _ (by simp [World.store])]
            refine List.Perm.cons _ ?_
            rw [map_congr' (f := fdOf w)]
            intro q hq
            have hqp : q ≠ p := fun e => hnew (e ▸ hq)
            simp [fdOf, World.store, hqp, h2]
          · show (fds w1.host).Nodup
            rw [h5]
            exact List.nodup_cons.2 ⟨h4, hb.single⟩
  | fclose p =>
    simp only [call, fclose, Option.bind_eq_bind] at h
    cases hs : w.file p with
    | none => rw [hs] at h; cases h
    | some s =>
      simp only [hs, Option.bind_some] at h
      cases hc : stdioClose H s.fd w with
      | none => rw [hc] at h; cases h
      | some x =>
        obtain ⟨r, w1⟩ := x
        obtain ⟨h1, h2, h3, _⟩ := stdioClose_some hc
        simp only [hc, Option.bind_some] at h
        cases hf : free p w1 with
        | none => rw [hf] at h; cases h
        | some w2 =>
          obtain ⟨g1, g2, g3, _, g5⟩ := free_some hf
          simp only [hf, Option.bind_some] at h
          have hh : w'.host = w2.host ∧ w'.heap = w2.heap ∧ w'.file = w2.file := by
            split at h <;> simp only [Option.map_some, Option.some.injEq] at h <;> subst h <;> exact ⟨rfl, rfl, rfl⟩
          obtain ⟨k1, k2, k3⟩ := hh
          obtain ⟨_, t2, _, _⟩ := take_out hb hs
          refine close_free hb hs (by rw [← h2]; exact g1) (by rw [k2, g2, h2]) (by intro q; rw [k3, g5, h3]) ?_
          rw [k1, g3, h1]
          exact hH.closed _ _ _ _ t2 rfl
  | freopen path mode p =>
    simp only [call, freopen, Option.bind_eq_bind] at h
    cases hs : w.file p with
    | none => rw [hs] at h; cases h
    | some s =>
      obtain ⟨_, t2, t3, _⟩ := take_out hb hs
      simp only [hs, Option.bind_some] at h
      cases path with
      | some path =>
        simp only at h
        cases hc : stdioClose H s.fd w with
        | none => rw [hc] at h; cases h
        | some x =>
          obtain ⟨r, w1⟩ := x
          obtain ⟨h1, h2, h3, _⟩ := stdioClose_some hc
          have hcl : fds w1.host = (fds w.host).erase s.fd := by rw [h1]; exact hH.closed _ _ _ _ t2 rfl
          simp only [hc, Option.bind_some] at h
          cases ho : openFd H es path (modeflags mode) w1 with
          | none => rw [ho] at h; cases h
          | some y =>
            obtain ⟨r2, w2⟩ := y
            obtain ⟨g1, g2, g3⟩ := openFd_some hH ho
            simp only [ho, Option.bind_some] at h
            rcases g3 with ⟨g3, g4⟩ | ⟨g3, g4, g5⟩
            · rw [if_neg (by omega)] at h
              cases hf : free p w2 with
              | none => rw [hf] at h; cases h
              | some w3 =>
                obtain ⟨f1, f2, f3, _, f5⟩ := free_some hf
                simp only [hf, Option.bind_some, Option.map_some, Option.some.injEq] at h
                subst h
                refine close_free hb hs (by rw [← h2, ← g1]; exact f1) (by rw [f2, g1, h2]) (by intro q; rw [f5, g2, h3]) ?_
                rw [f3, g4, hcl]
            · rw [if_pos g3] at h
              simp only [Option.map_some, Option.some.injEq] at h
              subst h
              refine replace (t := FILE_ r2.toNat (modeflags mode &&& 0o2000 ≠ 0)) hb hs (by
                show w2.heap = w.heap
                rw [g1, h2]) (by
                intro q
                show (if q = p then _ else w2.file q) = _
                rw [g2, h3]) ?_ ?_
              · show (fds w2.host).Perm (r2.toNat :: _)
                rw [g5, hcl]
              · show (fds w2.host).Nodup
                rw [g5]
                exact List.nodup_cons.2 ⟨g4, by rw [hcl]; exact t3⟩
      | none =>
        simp only at h
        cases hf : H.setFlags w.host s.fd (if modeflags mode &&& 0o2000 ≠ 0 then 1 else 0) with
        | mk e hh =>
          have hk := hH.kept _ _ _ _ _ hf
          simp only [hf] at h
          by_cases he : e = 0
          · rw [if_pos he] at h
            simp only [Option.map_some, Option.some.injEq] at h
            subst h
            refine replace (t := FILE_ s.fd false) hb hs rfl (by intro q; rfl) ?_ ?_
            · show (fds hh).Perm (s.fd :: _)
              rw [hk]
              exact List.perm_cons_erase t2
            · show (fds hh).Nodup
              rw [hk]
              exact hb.single
          · rw [if_neg he] at h
            cases hn : seterrno e with
            | none => rw [hn] at h; cases h
            | some n =>
              simp only [hn, Option.bind_some] at h
              cases hc : stdioClose H s.fd { w with host := hh, errno := n } with
              | none => rw [hc] at h; cases h
              | some x =>
                obtain ⟨r, w1⟩ := x
                obtain ⟨h1, h2, h3, _⟩ := stdioClose_some hc
                simp only [hc, Option.bind_some] at h
                cases hfr : free p w1 with
                | none => rw [hfr] at h; cases h
                | some w3 =>
                  obtain ⟨f1, f2, f3, _, f5⟩ := free_some hfr
                  simp only [hfr, Option.bind_some, Option.map_some, Option.some.injEq] at h
                  subst h
                  refine close_free hb hs (by have := f1; rw [h2] at this; exact this) (by rw [f2, h2]) (by
                    intro q; rw [f5, h3]) ?_
                  rw [f3, h1]
                  have := hH.closed hh s.fd _ _ (by rw [hk]; exact t2) rfl
                  rw [this, hk]

/-- C133: after any program of such calls the open descriptors are those not belonging to streams and one for each stream: none is
leaked, whatever failed on the way, and none belongs to two streams. -/
theorem C133_balance {σ : Type} (H : Host σ) (fds : σ → List Nat) (hH : Descriptors H fds) (malloc : List Nat → Option Nat)
    (es : List Entry) (base own : List Nat) (hm : Fresh malloc own) :
    ∀ (cs : List Call) (w w' : World σ), Balanced fds base own w → calls H malloc es cs w = some w' → Balanced fds base own w'
  | [], w, w', hb, h => by
    injection h with h
    rw [← h]; exact hb
  | c :: cs, w, w', hb, h => by
    unfold calls at h
    cases hc : call H malloc es c w with
    | none => rw [hc] at h; cases h
    | some w1 =>
      rw [hc] at h
      exact C133_balance H fds hH malloc es base own hm cs w1 w' (C133_step H fds hH malloc es base own hm c w w1 hb hc) h

/-- C133: once every stream obtained from `fopen` has been closed, the open descriptors are again those of the program's own
streams and of no stream. -/
theorem C133_all_closed {σ : Type} (H : Host σ) (fds : σ → List Nat) (hH : Descriptors H fds) (malloc : List Nat → Option Nat)
    (es : List Entry) (base own : List Nat) (hm : Fresh malloc own) (cs : List Call) (w w' : World σ)
    (hb : Balanced fds base own w) (h : calls H malloc es cs w = some w') (hc : w'.heap = []) :
    (fds w'.host).Perm (base ++ own.map (fdOf w')) := by
  have := (C133_balance H fds hH malloc es base own hm cs w w' hb h).table
  rw [hc, List.append_nil] at this
  exact this

/-- C133 is violated when memory runs out: the result of `malloc` is used unchecked, after the file has been opened. -/
theorem C133_no_memory {σ : Type} (H : Host σ) (malloc : List Nat → Option Nat) (es : List Entry) (path mode : List Nat)
    (w w1 : World σ) (fd : Int) (hfd : 0 ≤ fd) (ho : openFd H es path (modeflags mode) w = some (fd, w1))
    (hm : malloc w1.heap = none) : fopen H malloc es path mode w = none := by
  simp only [fopen, Option.bind_eq_bind, ho, Option.bind_some]
  rw [if_neg (by omega), hm]
  rfl

/-- C133 is violated by `freopen` of a standard stream to a file that cannot be opened: the stream is passed to `free`. -/
theorem C133_freopen_standard {σ : Type} (H : Host σ) (es : List Entry) (path mode : List Nat) (p : Nat) (w w1 w2 : World σ)
    (s : Stream) (r fd : Int) (hs : w.file p = some s) (hp : p ∉ w.heap) (hc : stdioClose H s.fd w = some (r, w1))
    (ho : openFd H es path (modeflags mode) w1 = some (fd, w2)) (hfd : fd < 0) :
    freopen H es (some path) mode p w = none := by
  simp only [freopen, Option.bind_eq_bind, hs, Option.bind_some, hc, ho]
  rw [if_neg (by omega)]
  unfold free
  rw [if_neg (by rw [openFd_heap ho, (stdioClose_some hc).2.1]; exact hp)]
  rfl

/-- C133 is violated by `freopen` without a path: the new stream does not know that it appends, so `ftell` reports the position
of the descriptor instead of the end. -/
theorem C133_append_forgotten {σ : Type} (H : Host σ) (es : List Entry) (mode : List Nat) (p : Nat) (w : World σ)
    (s : Stream) (hs : w.file p = some s)
    (hok : (H.setFlags w.host s.fd (if modeflags mode &&& 0o2000 ≠ 0 then 1 else 0)).1 = 0) :
    ∃ w', freopen H es none mode p w = some (some p, w') ∧ w'.file p = some (FILE_ s.fd false) := by
  simp only [freopen, Option.bind_eq_bind, hs, Option.bind_some]
  rw [if_pos hok]
  exact ⟨_, rfl, by simp [World.store]⟩

example : Balanced (σ := List Nat) id [] [16] someWorld := by
  refine ⟨by decide, ?_, by decide, by decide⟩
  intro p
  simp only [someWorld, List.cons_append, List.nil_append, List.mem_cons, List.not_mem_nil, or_false]
  by_cases h1 : p = 100
  · simp [h1]
  · by_cases h2 : p = 200
    · simp [h2]
    · by_cases h3 : p = 16
      · simp [h3]
      · simp [h1, h2, h3]

example : Fresh (fun live => some (live.foldr max 16 + 1)) [16] := by
  intro live p h
  injection h with h
  have hge : ∀ (l : List Nat), 16 ≤ l.foldr max 16 ∧ ∀ x ∈ l, x ≤ l.foldr max 16 := by
    intro l
    induction l with
    | nil => exact ⟨Nat.le_refl _, fun x hx => by cases hx⟩
    | cons a l ih =>
      simp only [List.foldr_cons]
      refine ⟨by omega, fun x hx => ?_⟩
      rcases List.mem_cons.1 hx with hx | hx
      · omega
      · have := ih.2 x hx; omega
  obtain ⟨h1, h2⟩ := hge live
  refine ⟨fun hm => ?_, fun hm => ?_⟩
  · have := h2 p hm; omega
  · simp at hm; omega

/-- Opening `/d/a`, sending standard output to `/d/b`, and closing the first. -/
example : (calls tableHost (fun live => some (live.foldr max 16 + 1)) [⟨3, [47, 100]⟩]
    [.fopen [47, 100, 47, 97] [114], .freopen (some [47, 100, 47, 98]) [119] 16, .fclose 201] someWorld).map
      (fun w => (w.host, w.heap, (w.file 16).map Stream.fd)) = some ([11, 5, 9], [100, 200], some 11) := by decide

example : fopen tableHost (fun _ => none) [⟨3, [47, 100]⟩] [47, 100, 47, 97] [114] someWorld = none := by decide
example : (freopen tableHost [] (some [47, 100]) [114] 16 someWorld).map (·.1) = none := by decide

/-! ## C134: `fgetpos` and `fsetpos` -/

/-- C134: `fgetpos` succeeds on a regular file not opened for appending and stores the offset of the next byte; after any other
use of the file that leaves its contents, `fsetpos` to it succeeds, forgets bytes pushed back, clears the end-of-file indicator, and
what is read next is the file from that offset.  What is missing: streams opened for appending, the end-of-file indicator at
`fgetpos`, characters pushed back by `ungetwc`, and offsets from 2 GiB on. -/
theorem C134_roundtrip_partial (f g : Stdio.File Stdio.Regular) (happ : f.app = false) (hpos : f.host.pos ≤ 0x7FFFFFFF)
    (hav : f.avail ≤ f.host.pos) (hdata : g.host.data = f.host.data) :
    (fgetpos Stdio.Regular.seeker f).1 = 0 ∧
      (fgetpos Stdio.Regular.seeker f).2.1 = (f.host.pos : Int) - f.avail ∧
      Stdio.next (fgetpos Stdio.Regular.seeker f).2.2 = Stdio.next f ∧
      (fsetpos Stdio.Regular.seeker g (fgetpos Stdio.Regular.seeker f).2.1).1 = 0 ∧
      (fsetpos Stdio.Regular.seeker g (fgetpos Stdio.Regular.seeker f).2.1).2.eof = false ∧
      Stdio.next (fsetpos Stdio.Regular.seeker g (fgetpos Stdio.Regular.seeker f).2.1).2 =
        (f.host.data.drop (f.host.pos - f.avail)).map Fin.val := by
  obtain ⟨h1, h2, h3⟩ := Stdio.C79_ftell_partial f happ hpos
  have e1 : (fgetpos Stdio.Regular.seeker f).2.1 = (f.host.pos : Int) - f.avail := h1
  have e2 : (fgetpos Stdio.Regular.seeker f).2.2 = (Stdio.ftell Stdio.Regular.seeker f).2 := rfl
  have e3 : (fgetpos Stdio.Regular.seeker f).1 = 0 := by
    show (if (Stdio.ftell Stdio.Regular.seeker f).1 = -1 then (1 : Int) else 0) = 0
    rw [h1, if_neg (by omega)]
  rw [e1, e2, e3]
  have hk := (Stdio.C79_fseek g ((f.host.pos : Int) - f.avail) 0 (by omega)).1
  simp only [if_true, Int.add_zero] at hk
  obtain ⟨k1, k2, k3⟩ := hk (by omega)
  refine ⟨rfl, rfl, h2, k1, k3, ?_⟩
  rw [show (fsetpos Stdio.Regular.seeker g ((f.host.pos : Int) - f.avail)).2 =
    (Stdio.fseek Stdio.Regular.seeker g ((f.host.pos : Int) - f.avail) 0).2 from rfl, k2, hdata]
  congr 2
  omega

/-- C134 is violated in files of 2 GiB and more: `fpos_t` has 64 bits, but neither function gets past the limit of `long`. -/
theorem C134_large (f : Stdio.File Stdio.Regular) (happ : f.app = false) (off : Int) (hoff : 0x7FFFFFFF < off)
    (hpos : 0x7FFFFFFF < f.host.pos) :
    (fgetpos Stdio.Regular.seeker f).1 = 1 ∧ (fsetpos Stdio.Regular.seeker f off).1 = 1 := by
  constructor
  · have h := (Stdio.seek_regular f 0 1 f.host.pos (by simp)).2 (by omega)
    unfold fgetpos Stdio.ftell
    simp only [happ, Bool.false_eq_true, if_false]
    rw [h]
    rfl
  · have h := (Stdio.seek_regular { f with avail := 0 } off 0 off (by simp)).2 (by omega)
    show (if (Stdio.stdioSeek Stdio.Regular.seeker { f with avail := 0 } off 0).1 = -1 then (1 : Int) else 0) = 1
    rw [h]
    rfl

/-- C134 is violated on streams opened for appending: asking for the position skips what was still to be read. -/
theorem C134_append_skips :
    ∃ f : Stdio.File Stdio.Regular, f.app = true ∧ Stdio.next f = [104, 105] ∧
      Stdio.next (fgetpos Stdio.Regular.seeker f).2.2 = [] :=
  ⟨{ Stdio.fresh ⟨[104, 105], 0⟩ with app := true }, by decide, by decide, by decide⟩

/-- C134 is violated by `ungetwc`: whatever the position set, the character pushed back is still returned first. -/
theorem C134_pushback_kept {σ : Type} (R : Stdio.Reader σ) (S : Stdio.Seeker σ) (f : Wio.WFile σ) (c : Nat)
    (hp : f.push = some c) (off : Int) :
    (Wio.fgetwc R (fsetposWide S f off).2).map (·.1) = some c := by
  unfold Wio.fgetwc Wio.widen fsetposWide
  by_cases ho : f.orient = 0
  · simp [ho, hp]
  · simp [ho, hp]

example : ∃ f : Stdio.File Stdio.Regular, f.app = false ∧ f.host.pos ≤ 0x7FFFFFFF ∧ f.avail ≤ f.host.pos ∧
    (fgetpos Stdio.Regular.seeker f).2.1 = 2 ∧
    Stdio.next (fsetpos Stdio.Regular.seeker f 2).2 = [106] :=
  ⟨Stdio.fresh ⟨[104, 105, 106], 2⟩, by decide, by decide, by decide, by decide, by decide⟩
example : (⟨Stdio.fresh (), 0, some 66⟩ : Wio.WFile Unit).push = some 66 := rfl

/-! ## C135: `remove` and `rename` -/

/-- C135: on a host that removes files and empty directories by separate calls, `remove` removes either, and only the named one;
otherwise it changes nothing and says why. -/
theorem C135_remove {σ : Type} (H : Host σ) (fs : σ → FS) (hH : Removes H fs) (es : List Entry) (path rel : List Nat) (fd : Nat)
    (hl : lookup es path = some (fd, rel)) (s : σ) :
    (∀ d, fs s (fd, rel) = some (.file d) →
      ∃ s', remove H es path s = some (0, none, s') ∧ fs s' = (fs s).without (fd, rel)) ∧
    (fs s (fd, rel) = some .dir → Empty (fs s) fd rel →
      ∃ s', remove H es path s = some (0, none, s') ∧ fs s' = (fs s).without (fd, rel)) ∧
    (fs s (fd, rel) = some .dir → ¬ Empty (fs s) fd rel →
      ∃ s', remove H es path s = some (-1, some E.ENOTEMPTY, s') ∧ fs s' = fs s) ∧
    (fs s (fd, rel) = none → ∃ s', remove H es path s = some (-1, some E.ENOENT, s') ∧ fs s' = fs s) := by
  have e0 : seterrno 0 = some 0 := rfl
  have e31 : seterrno 31 = some E.EISDIR := rfl
  have e44 : seterrno 44 = some E.ENOENT := rfl
  have e55 : seterrno 55 = some E.ENOTEMPTY := rfl
  refine ⟨fun d hf => ?_, fun hf he => ?_, fun hf he => ?_, fun hf => ?_⟩
  · obtain ⟨s', h1, h2⟩ := hH.unlinkFile s fd rel d hf
    refine ⟨s', ?_, h2⟩
    simp only [remove, hl, h1, e0, Option.bind_eq_bind, Option.bind_some]
    rfl
  · obtain ⟨s1, h1, h2⟩ := hH.unlinkDir s fd rel hf
    obtain ⟨s', h3, h4⟩ := hH.rmdirEmpty s1 fd rel (by rw [h2]; exact hf) (by rw [h2]; exact he)
    refine ⟨s', ?_, by rw [h4, h2]⟩
    simp only [remove, hl, h1, e31, Option.bind_eq_bind, Option.bind_some, if_true, h3]
  · obtain ⟨s1, h1, h2⟩ := hH.unlinkDir s fd rel hf
    obtain ⟨s', h3, h4⟩ := hH.rmdirFull s1 fd rel (by rw [h2]; exact hf) (by rw [h2]; exact he)
    refine ⟨s', ?_, by rw [h4, h2]⟩
    simp only [remove, hl, h1, e31, Option.bind_eq_bind, Option.bind_some, if_true, h3, e55]
    rfl
  · obtain ⟨s', h1, h2⟩ := hH.unlinkNone s fd rel hf
    refine ⟨s', ?_, h2⟩
    simp only [remove, hl, h1, e44, Option.bind_eq_bind, Option.bind_some]
    rfl

/-- C135: `rename` hands both names to the host in one call, in this order, and reports what the host says. -/
theorem C135_rename {σ : Type} (H : Host σ) (es : List Entry) (src dst srel drel : List Nat) (sfd dfd : Nat) (s : σ)
    (hs : lookup es src = some (sfd, srel)) (hd : lookup es dst = some (dfd, drel))
    (he : (H.rename s sfd srel dfd drel).1 < 77) :
    ∃ r n, rename H es src dst s = some (r, n, (H.rename s sfd srel dfd drel).2) ∧
      (r = 0 ↔ (H.rename s sfd srel dfd drel).1 = 0) ∧ (r = 0 ∨ r = -1) ∧
      (r = -1 → n = seterrno (H.rename s sfd srel dfd drel).1) := by
  simp only [rename, hs, hd, Option.bind_eq_bind]
  by_cases h0 : (H.rename s sfd srel dfd drel).1 = 0
  · rw [if_pos h0]
    exact ⟨0, none, rfl, by simp [h0], Or.inl rfl, fun h => by cases h⟩
  · rw [if_neg h0]
    have hn : ∃ n, seterrno (H.rename s sfd srel dfd drel).1 = some n := by
      unfold seterrno
      exact ⟨_, List.getElem?_eq_getElem (by exact he)⟩
    obtain ⟨n, hn⟩ := hn
    rw [hn]
    exact ⟨-1, some n, rfl, by simp [h0], Or.inr rfl, fun _ => rfl⟩

/-- C135: a name outside every preopened directory is reported as missing without asking the host. -/
theorem C135_outside {σ : Type} (H : Host σ) (es : List Entry) (path other : List Nat) (s : σ) (h : lookup es path = none) :
    remove H es path s = some (-1, some E.ENOENT, s) ∧ rename H es path other s = some (-1, some E.ENOENT, s) ∧
      rename H es other path s = some (-1, some E.ENOENT, s) := by
  refine ⟨by simp only [remove, h], by simp only [rename, h], ?_⟩
  simp only [rename, h]
  cases lookup es other <;> rfl

open Classical in
/-- A host for the example: a file system by itself. -/
noncomputable def fsHost : Host FS where
  pathOpen s _ := ((52, 0), s)
  fdClose s _ := (0, s)
  setFlags s _ _ := (0, s)
  unlink s fd rel := match s (fd, rel) with
    | none => (44, s)
    | some (.file _) => (0, s.without (fd, rel))
    | some .dir => (31, s)
  rmdir s fd rel := if Empty s fd rel then (0, s.without (fd, rel)) else (55, s)
  rename s _ _ _ _ := (52, s)

example : Removes fsHost id where
  unlinkNone s fd rel h := ⟨s, by simp only [fsHost]; rw [show s (fd, rel) = none from h], rfl⟩
  unlinkFile s fd rel d h := ⟨s.without (fd, rel), by simp only [fsHost]; rw [show s (fd, rel) = some (.file d) from h], rfl⟩
  unlinkDir s fd rel h := ⟨s, by simp only [fsHost]; rw [show s (fd, rel) = some .dir from h], rfl⟩
  rmdirEmpty s fd rel _ he := ⟨s.without (fd, rel), by simp only [fsHost]; rw [if_pos (show Empty s fd rel from he)], rfl⟩
  rmdirFull s fd rel _ he := ⟨s, by simp only [fsHost]; rw [if_neg (show ¬ Empty s fd rel from he)], rfl⟩

example : lookup [⟨3, [47, 100]⟩] [47, 100, 47, 97] = some (3, [97]) := by decide

/-! ## C136: `strerror` -/

/-- C136: two different error numbers have different messages, unless neither is known. -/
theorem C136_distinct (e e' : Int) (h : strerror e = strerror e') :
    e = e' ∨ strerror e = "Unknown error" := by
  unfold strerror at *
  by_cases h1 : ∃ n s, (n, s) ∈ messages ∧ e = n
  · obtain ⟨n, s, hm, he⟩ := h1
    obtain ⟨t, ht, hsel⟩ := select_mem hm he
    by_cases h2 : ∃ n s, (n, s) ∈ messages ∧ e' = n
    · obtain ⟨n', s', hm', he'⟩ := h2
      obtain ⟨t', ht', hsel'⟩ := select_mem hm' he'
      have key : ∀ x ∈ messages, ∀ y ∈ messages, x.2 = y.2 → x.1 = y.1 := by decide +kernel
      have := key _ ht _ ht' (by rw [← hsel, ← hsel', h])
      exact Or.inl (by rw [he, he']; exact congrArg _ this)
    · right
      rw [h]
      exact select_unknown fun n s hm e => h2 ⟨n, s, hm, e⟩
  · right
    exact select_unknown fun n s hm e => h1 ⟨n, s, hm, e⟩

/-- C136: the error numbers C11 requires, and those that the stream functions of this library set by themselves, have messages. -/
theorem C136_known_partial : ∀ n ∈ [E.EDOM, E.ERANGE, E.EILSEQ, E.ENOENT, E.EINVAL, E.EOVERFLOW, E.ENOSYS, E.ENOMEM],
    strerror n ≠ "Unknown error" := by decide +kernel

/-- C136 is violated by the errors the host may report: these, by their names in WASI, and no others have no message. -/
theorem C136_unnamed (e n : Nat) (name : String) (hn : wasiNames[e]? = some name) (hs : seterrno e = some n) :
    strerror n = "Unknown error" ↔ name ∈ ["addrinuse", "addrnotavail", "afnosupport", "badmsg", "connaborted", "connreset",
      "destaddrreq", "dquot", "hostunreach", "idrm", "isconn", "multihop", "netdown", "netreset", "netunreach", "nobufs", "nolink",
      "nomsg", "noprotoopt", "notrecoverable", "notsup", "ownerdead", "proto", "protonosupport", "prototype", "stale"] := by
  have hlt : e < 77 := (List.getElem?_eq_some_iff.1 hs).1
  have key : ∀ e < 77, ∀ name ∈ wasiNames[e]?, ∀ n ∈ seterrno e,
      (strerror n = "Unknown error" ↔ name ∈ ["addrinuse", "addrnotavail", "afnosupport", "badmsg", "connaborted", "connreset",
      "destaddrreq", "dquot", "hostunreach", "idrm", "isconn", "multihop", "netdown", "netreset", "netunreach", "nobufs", "nolink",
      "nomsg", "noprotoopt", "notrecoverable", "notsup", "ownerdead", "proto", "protonosupport", "prototype", "stale"]) := by
    decide +kernel
  exact key e hlt name hn n hs

example : strerror 2 = "No such file or directory" ∧ strerror (-7) = "Unknown error" := by decide +kernel

end Verif.Life
