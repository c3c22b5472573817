import Verif.Life.Spec

/-!
# Lemmas about the table of descriptors
-/

namespace Verif.Life
open Verif.Wasi

theorem fdOf_some {σ : Type} {w : World σ} {p : Nat} {s : Stream} (h : w.file p = some s) : fdOf w p = s.fd := by
  unfold fdOf; rw [h]; rfl

theorem map_congr' {f g : Nat → Nat} {l : List Nat} (h : ∀ q ∈ l, f q = g q) : l.map f = l.map g :=
  List.map_congr_left h

theorem not_mem_erase {p : Nat} {l : List Nat} (h : l.Nodup) : p ∉ l.erase p := by
  intro hm
  exact (List.Nodup.mem_erase_iff h).1 hm |>.1 rfl

/-- `__stdio_close` asks the host once and changes nothing but `errno`. -/
theorem stdioClose_some {σ : Type} {H : Host σ} {fd : Nat} {w w' : World σ} {r : Int} (h : stdioClose H fd w = some (r, w')) :
    w'.host = (H.fdClose w.host fd).2 ∧ w'.heap = w.heap ∧ w'.file = w.file ∧
      ((H.fdClose w.host fd).1 = 0 ∧ r = 0 ∨ (H.fdClose w.host fd).1 ≠ 0 ∧ r = -1) := by
  unfold stdioClose at h
  cases hc : H.fdClose w.host fd with
  | mk e hh =>
    rw [hc] at h
    simp only at h
    by_cases he : e = 0
    · rw [if_pos he] at h
      injection h with h
      injection h with h1 h2
      subst h2
      exact ⟨rfl, rfl, rfl, Or.inl ⟨he, h1.symm⟩⟩
    · rw [if_neg he] at h
      cases hs : seterrno e with
      | none => rw [hs] at h; cases h
      | some n =>
        rw [hs] at h
        injection h with h
        injection h with h1 h2
        subst h2
        exact ⟨rfl, rfl, rfl, Or.inr ⟨he, h1.symm⟩⟩

theorem free_some {σ : Type} {p : Nat} {w w' : World σ} (h : free p w = some w') :
    p ∈ w.heap ∧ w'.heap = w.heap.erase p ∧ w'.host = w.host ∧ w'.errno = w.errno ∧
      ∀ q, w'.file q = if q = p then none else w.file q := by
  unfold free at h
  by_cases hp : p ∈ w.heap
  · rw [if_pos hp] at h
    injection h with h
    subst h
    exact ⟨hp, rfl, rfl, rfl, fun _ => rfl⟩
  · rw [if_neg hp] at h
    cases h

/-- Opening either fails and leaves the table, or adds the descriptor returned. -/
theorem openFd_some {σ : Type} {H : Host σ} {fds : σ → List Nat} (hH : Descriptors H fds) {es : List Entry} {path : List Nat}
    {flags : Nat} {w w' : World σ} {r : Int} (h : openFd H es path flags w = some (r, w')) :
    w'.heap = w.heap ∧ w'.file = w.file ∧
      ((r < 0 ∧ fds w'.host = fds w.host) ∨
       (0 ≤ r ∧ r.toNat ∉ fds w.host ∧ fds w'.host = r.toNat :: fds w.host)) := by
  unfold openFd at h
  cases hl : lookup es path with
  | none =>
    rw [hl] at h
    injection h with h
    injection h with h1 h2
    subst h1 h2
    exact ⟨rfl, rfl, Or.inl ⟨by decide, rfl⟩⟩
  | some k =>
    rw [hl] at h
    simp only at h
    cases hp : openPath es path flags with
    | none =>
      rw [hp] at h
      injection h with h
      injection h with h1 h2
      subst h1 h2
      exact ⟨rfl, rfl, Or.inl ⟨by decide, rfl⟩⟩
    | some req =>
      cases ho : H.pathOpen w.host req with
      | mk ef hh =>
        obtain ⟨e, fd⟩ := ef
        simp only [hp, ho] at h
        by_cases he : e = 0
        · subst he
          rw [if_pos rfl] at h
          injection h with h
          injection h with h1 h2
          subst h2
          obtain ⟨h3, h4, h5⟩ := hH.opened _ _ _ _ ho
          have : r = fd := by
            rw [← h1]
            unfold s32
            rw [Nat.mod_eq_of_lt (by omega), if_pos (by omega)]
          subst this
          exact ⟨rfl, rfl, Or.inr ⟨by omega, h3, h5⟩⟩
        · rw [if_neg he] at h
          cases hs : seterrno e with
          | none => rw [hs] at h; cases h
          | some n =>
            rw [hs] at h
            injection h with h
            injection h with h1 h2
            subst h1 h2
            exact ⟨rfl, rfl, Or.inl ⟨by decide, hH.notOpened _ _ _ _ _ ho he⟩⟩

theorem openFd_heap {σ : Type} {H : Host σ} {es : List Entry} {path : List Nat} {flags : Nat} {w w' : World σ} {r : Int}
    (h : openFd H es path flags w = some (r, w')) : w'.heap = w.heap := by
  unfold openFd at h
  split at h
  · cases h; rfl
  · split at h
    · cases h; rfl
    · split at h
      split at h
      · cases h; rfl
      · rename_i e fd hh hp he
        cases hs : seterrno e with
        | none => rw [hs] at h; cases h
        | some n => rw [hs] at h; cases h; rfl

/-- Taking one stream out of the balance. -/
theorem take_out {σ : Type} {fds : σ → List Nat} {base own : List Nat} {w : World σ} (hb : Balanced fds base own w) {p : Nat}
    {s : Stream} (hs : w.file p = some s) :
    p ∈ own ++ w.heap ∧ s.fd ∈ fds w.host ∧ ((fds w.host).erase s.fd).Nodup ∧
      ((fds w.host).erase s.fd).Perm (base ++ ((own ++ w.heap).erase p).map (fdOf w)) := by
  have hp : p ∈ own ++ w.heap := (hb.streams p).1 (by rw [hs]; rfl)
  have h1 : (base ++ (own ++ w.heap).map (fdOf w)).Perm (s.fd :: (base ++ ((own ++ w.heap).erase p).map (fdOf w))) := by
    have h2 : ((own ++ w.heap).map (fdOf w)).Perm (s.fd :: ((own ++ w.heap).erase p).map (fdOf w)) := by
      have := (List.perm_cons_erase hp).map (fdOf w)
      rw [List.map_cons, fdOf_some hs] at this
      exact this
    exact (h2.append_left base).trans List.perm_middle
  have h3 := hb.table.trans h1
  refine ⟨hp, h3.mem_iff.2 List.mem_cons_self, hb.single.erase _, ?_⟩
  have h4 := h3.erase s.fd
  rw [List.erase_cons_head] at h4
  exact h4

/-- Closing and freeing keeps the balance. -/
theorem close_free {σ : Type} {fds : σ → List Nat} {base own : List Nat} {w w' : World σ} (hb : Balanced fds base own w)
    {p : Nat} {s : Stream} (hs : w.file p = some s) (hp : p ∈ w.heap) (hheap : w'.heap = w.heap.erase p)
    (hfile : ∀ q, w'.file q = if q = p then none else w.file q) (hfds : fds w'.host = (fds w.host).erase s.fd) :
    Balanced fds base own w' := by
  obtain ⟨h1, h2, h3, h4⟩ := take_out hb hs
  have hno : p ∉ own := fun h => by
    have := (List.nodup_append.1 hb.distinct).2.2 p h p hp
    exact this rfl
  have he : own ++ w'.heap = (own ++ w.heap).erase p := by
    rw [hheap, List.erase_append_right _ hno]
  refine ⟨?_, ?_, ?_, ?_⟩
  · rw [he]; exact hb.distinct.erase _
  · intro q
    rw [he, hfile]
    by_cases hq : q = p
    · subst hq
      rw [if_pos rfl]
      exact ⟨fun h => (by cases h), fun h => absurd h (not_mem_erase hb.distinct)⟩
    · rw [if_neg hq, hb.streams, List.mem_erase_of_ne hq]
  · rw [he, hfds]
    have : ((own ++ w.heap).erase p).map (fdOf w') = ((own ++ w.heap).erase p).map (fdOf w) := by
      apply map_congr'
      intro q hq
      unfold fdOf
      rw [hfile, if_neg (fun h => not_mem_erase hb.distinct (h ▸ hq))]
    rw [this]
    exact h4
  · rw [hfds]; exact h3

/-- Replacing the stream at an address keeps the balance if the table changes accordingly. -/
theorem replace {σ : Type} {fds : σ → List Nat} {base own : List Nat} {w w' : World σ} (hb : Balanced fds base own w)
    {p : Nat} {s t : Stream} (hs : w.file p = some s) (hheap : w'.heap = w.heap)
    (hfile : ∀ q, w'.file q = if q = p then some t else w.file q)
    (hfds : (fds w'.host).Perm (t.fd :: (fds w.host).erase s.fd)) (hnd : (fds w'.host).Nodup) : Balanced fds base own w' := by
  obtain ⟨h1, h2, h3, h4⟩ := take_out hb hs
  refine ⟨?_, ?_, ?_, hnd⟩
  · rw [hheap]; exact hb.distinct
  · intro q
    rw [hheap, hfile]
    by_cases hq : q = p
    · subst hq; rw [if_pos rfl]; exact ⟨fun _ => h1, fun _ => rfl⟩
    · rw [if_neg hq]; exact hb.streams q
  · rw [hheap]
    refine hfds.trans ?_
    have h5 : ((own ++ w.heap).map (fdOf w')).Perm (t.fd :: ((own ++ w.heap).erase p).map (fdOf w)) := by
      have h6 := (List.perm_cons_erase h1).map (fdOf w')
      rw [List.map_cons] at h6
      have h7 : fdOf w' p = t.fd := fdOf_some (by rw [hfile, if_pos rfl])
      have h8 : ((own ++ w.heap).erase p).map (fdOf w') = ((own ++ w.heap).erase p).map (fdOf w) := by
        apply map_congr'
        intro q hq
        unfold fdOf
        rw [hfile, if_neg (fun h => not_mem_erase hb.distinct (h ▸ hq))]
      rw [h7, h8] at h6
      exact h6
    exact (h4.cons t.fd).trans (List.perm_middle.symm.trans (h5.symm.append_left base))

theorem select_unknown {e : Int} : ∀ {l : List (Nat × String)}, (∀ n s, (n, s) ∈ l → e ≠ n) → select e l = "Unknown error"
  | [], _ => rfl
  | (n, s) :: rest, h => by
    unfold select
    rw [if_neg (h n s List.mem_cons_self)]
    exact select_unknown fun n s hm => h n s (List.mem_cons_of_mem _ hm)

theorem select_mem {e : Int} : ∀ {l : List (Nat × String)} {n : Nat} {s : String}, (n, s) ∈ l → e = n →
    ∃ s', (n, s') ∈ l ∧ select e l = s'
  | (n', s') :: rest, n, s, h, he => by
    unfold select
    by_cases hn : e = n'
    · rw [if_pos hn]
      have : n = n' := by omega
      subst this
      exact ⟨s', List.mem_cons_self, rfl⟩
    · rw [if_neg hn]
      rcases List.mem_cons.1 h with h | h
      · injection h with h1 h2
        exact absurd (by rw [he, h1]) hn
      · obtain ⟨t, h1, h2⟩ := select_mem h he
        exact ⟨t, List.mem_cons_of_mem _ h1, h2⟩

end Verif.Life
