import Verif.Wasi.Lemmas

/-!
# Properties of the WASI glue
-/

namespace Verif.Wasi

/-! ## C51: paths resolve through the longest matching preopened directory -/

/-- For a table of preopened directories (names without trailing slashes), the
directory chosen contains the path, no other one that contains it has a longer
name, the first of equals is taken, and the rest of the path is passed on;
there is no result only when no directory contains the path.  What is missing:
the table has no entry for the root directory and none with a name that starts
with `./` matches, see the two theorems below. -/
theorem C51_lookup_partial (ps : List Prestat) (path p : List Nat) (hne : path ≠ [])
    (hp : if path.head? = some 47 then p = path else Plain path p) :
    (lookup (table ps) path = none ↔ ∀ e ∈ table ps, ∀ len, ¬ Fits e p len) ∧
    (∀ fd rel, lookup (table ps) path = some (fd, rel) →
      ∃ e len l r, table ps = l ++ e :: r ∧ e.fd = fd ∧ Fits e p len ∧ Rest p len rel ∧
        (∀ e' ∈ l, ∀ len', Fits e' p len' → len' < len) ∧
        (∀ e' ∈ r, ∀ len', Fits e' p len' → len' ≤ len)) := by
  have habs : decide (path.head? = some 47) = decide (p.head? = some 47) := by
    split at hp
    · rw [hp]
    · rename_i h
      have := plain_head path p hp h
      simp [h, this]
  have hpp : (if decide (path.head? = some 47) = true then path else stripDotSlash path) = p := by
    split at hp
    · rename_i h; rw [if_pos (by simpa using h)]; exact hp.symm
    · rename_i h; rw [if_neg (by simpa using h)]; exact plain_strip path p hp
  have hb := best_fold habs (table ps) [] none (initLoop_names ps 3 0 0) (by intro e he; simp at he)
  rw [List.nil_append] at hb
  have hl : lookup (table ps) path =
      match (table ps).foldl (consider (decide (path.head? = some 47)) p) none with
      | none => none
      | some (e, len) => some (e.fd, if (p.drop len).dropWhile (· = 47) = [] then [46]
          else (p.drop len).dropWhile (· = 47)) := by
    unfold lookup
    rw [if_neg hne]
    simp only
    rw [hpp]
    rfl
  rw [hl]
  generalize (table ps).foldl (consider (decide (path.head? = some 47)) p) none = b at hb
  match b, hb with
  | none, hb => exact ⟨⟨fun _ => hb, fun _ => rfl⟩, fun fd rel h => by simp at h⟩
  | some (e, len), ⟨h1, l, r, h2, h3, h4⟩ =>
    refine ⟨⟨fun h => by simp at h, fun h => absurd h1 (h e (by rw [h2]; simp) len)⟩, ?_⟩
    intro fd rel h
    simp only [Option.some.injEq, Prod.mk.injEq] at h
    obtain ⟨rfl, rfl⟩ := h
    refine ⟨e, len, l, r, h2, rfl, h1, ?_, h3, h4⟩
    obtain ⟨k, hk, hh⟩ := dropWhile_slashes (p.drop len)
    by_cases h0 : (p.drop len).dropWhile (fun x => decide (x = 47)) = []
    · rw [if_pos h0]
      exact .inr ⟨rfl, k, by rw [h0, List.append_nil] at hk; exact hk⟩
    · rw [if_neg h0]
      exact .inl ⟨k, hk, h0, hh⟩

/-- Two nested directories and the current one: the longest name wins. -/
example : lookup (table [.dir [46] false, .dir [47, 97, 47] false, .dir [47, 97, 47, 98] false])
      [47, 97, 47, 98, 47, 47, 99] = some (5, [99]) ∧
    lookup (table [.dir [46] false, .dir [47, 97, 47] false]) [46, 47, 47, 97] = some (3, [97]) ∧
    lookup (table [.dir [47, 97, 47] false]) [47, 97, 98] = none := by
  decide +kernel

/-- The table lists the preopened directories among the descriptors in order,
each with its descriptor and its name without trailing slashes, whatever else
the descriptors are, as long as there are at most 16 directories and their
names, each with its terminator, fit the pool of 1024 bytes and are at most 256
bytes long. -/
theorem C51_table (ps : List Prestat) (h16 : (dirs 3 ps).length ≤ 16)
    (hlen : ∀ d ∈ dirs 3 ps, d.2.length ≤ 256) (hpool : ((dirs 3 ps).map fun d => d.2.length + 1).sum ≤ 1024) :
    (table ps).map Entry.fd = (dirs 3 ps).map Prod.fst ∧
    ∀ i (h : i < (dirs 3 ps).length) (h' : i < (table ps).length), Trimmed (dirs 3 ps)[i].2 (table ps)[i].name := by
  have e : table ps = (dirs 3 ps).map fun d => ⟨d.1, trim d.2⟩ :=
    initLoop_dirs ps 3 0 0 (by omega) hlen (by omega) (.inl (by omega))
  rw [e]
  refine ⟨by rw [List.map_map]; rfl, fun i h h' => ?_⟩
  rw [List.getElem_map]
  exact trim_trimmed _

example : dirs 3 [.error, .dir [97, 47, 47] false, .other, .dir [98] true] = [(4, [97, 47, 47]), (6, [98])] ∧
    table [.error, .dir [97, 47, 47] false, .other, .dir [98] true] = [⟨4, [97]⟩, ⟨6, [98]⟩] := by
  decide +kernel

/-- A preopened root directory contains every absolute path, but no absolute
path is found. -/
theorem C51_root_not_found :
    lookup (table [.dir [47] false]) [47, 101, 116, 99] = none ∧
      Covers (trim [47]) [47, 101, 116, 99] := by
  refine ⟨by decide +kernel, .inr ⟨[101, 116, 99], by decide +kernel⟩⟩

/-- No absolute path is ever resolved through a preopened root directory. -/
theorem C51_root_never_found (r : List Nat) : lookup (table [.dir [47] false]) (47 :: r) = none := by
  have h := (C51_lookup_partial [.dir [47] false] (47 :: r) (47 :: r) (by simp) (by simp)).1
  rw [h]
  intro e he len hf
  have hm : table [.dir [47] false] = [⟨3, []⟩] := by decide +kernel
  rw [hm, List.mem_singleton] at he
  subst he
  rcases hf with ⟨_, h2, _⟩ | ⟨h1, _⟩
  · simp at h2
  · exact h1 (.inl rfl)

/-- A directory preopened as `./d` does not resolve the path `./d/f` below it. -/
theorem C51_dot_prefix_not_found :
    lookup (table [.dir [46, 47, 100] false]) [46, 47, 100, 47, 102] = none ∧
      Covers [46, 47, 100] [46, 47, 100, 47, 102] := by
  refine ⟨by decide +kernel, .inr ⟨[102], rfl⟩⟩

/-! ## C52: WASI errors map to the errno of the same name -/

/-- Every error number that WASI defines is translated to the errno constant of
the same name.  What is missing: numbers that WASI does not define. -/
theorem C52_errno_partial (e : Nat) (name : String) (h : wasiNames[e]? = some name) :
    ∃ n, seterrno e = some n ∧
      (e = 0 → n = 0) ∧ (e ≠ 0 → (posixName name, n) ∈ posixNumbers) := by
  have key : ∀ i : Fin 77, ∃ n ∈ List.range 132, seterrno i.1 = some n ∧
      (i.1 = 0 → n = 0) ∧ (i.1 ≠ 0 → (posixName (wasiNames[i.1]?.getD ""), n) ∈ posixNumbers) := by
    decide +kernel
  have hl : e < 77 := by
    have hlen : wasiNames.length = 77 := by decide +kernel
    rw [← hlen]
    exact (List.getElem?_eq_some_iff.1 h).1
  obtain ⟨n, _, h1, h2, h3⟩ := key ⟨e, hl⟩
  refine ⟨n, h1, h2, fun h0 => ?_⟩
  have := h3 h0
  simpa [h] using this

/-- A number that WASI does not define is looked up outside the table. -/
theorem C52_unknown_reads_outside (e : Nat) (h : 77 ≤ e) : seterrno e = none := by
  have hlen : wasiToPosix.length = 77 := by decide +kernel
  unfold seterrno
  rw [List.getElem?_eq_none_iff]
  omega

example : wasiNames[44]? = some "noent" ∧ seterrno 44 = some 2 := by decide +kernel

/-! ## C81: the mode string of `fopen` -/

/-- The standard modes with any of the letters `b`, `+`, `x`, `e` after the
first in any order: what may be done with the file, whether it is created,
emptied, must not exist, and is written at its end. -/
theorem C81_fopen_mode (es : List Entry) (path : List Nat) (first : Nat) (rest : List Nat)
    (h1 : first = 114 ∨ first = 119 ∨ first = 97) (fd : Nat) (rel : List Nat)
    (hl : lookup es path = some (fd, rel)) :
    ∃ q, fopen es path (first :: rest) = some q ∧ q.dirfd = fd ∧ q.path = rel ∧
      q.lookupflags = 1 ∧
      (q.rights.testBit 1 = true ↔ first = 114 ∨ 43 ∈ rest) ∧
      (q.rights.testBit 6 = true ↔ first ≠ 114 ∨ 43 ∈ rest) ∧
      (q.oflags.testBit 0 = true ↔ first ≠ 114) ∧
      (q.oflags.testBit 3 = true ↔ first = 119) ∧
      (q.oflags.testBit 2 = true ↔ 120 ∈ rest) ∧
      q.oflags.testBit 1 = false ∧
      q.fdflags = if first = 97 then 1 else 0 := by
  have hm : modeflags (first :: rest) =
      (if 43 ∈ rest then 2 else if first = 114 then 0 else 1) |||
        ((if first = 119 then 0o1100 else if first = 97 then 0o2100 else 0) |||
          (if 120 ∈ rest then 0o200 else 0) ||| (if 101 ∈ rest then 0o2000000 else 0)) := by
    rcases h1 with rfl | rfl | rfl
    · have := modeLoop_eq rest 0 0 false false
      simpa [modeflags] using this
    · have := modeLoop_eq rest 1 0o1100 false false
      simpa [modeflags] using this
    · have := modeLoop_eq rest 1 0o2100 false false
      simpa [modeflags] using this
  unfold fopen openPath
  rw [hl, hm]
  rcases h1 with rfl | rfl | rfl <;> by_cases hp : 43 ∈ rest <;> by_cases hx : 120 ∈ rest <;>
    by_cases he : 101 ∈ rest <;> simp only [hp, hx, he, if_true, if_false] <;>
    refine ⟨_, rfl, rfl, rfl, ?_⟩ <;> dsimp only <;> decide +kernel

/-- `"a+b"` on a file in the current directory. -/
example : fopen [⟨3, [46]⟩] [102] [97, 43, 98] =
    some ⟨3, [102], 1, 1, readRights ||| writeRights ||| createFile, 1⟩ := by decide +kernel

/-! ## C82: the rights asked for are those WASI calls by that name -/

/-- Reading asks for the rights to read, seek and list, writing for the rights to
write, seek, resize and synchronise.  What is missing: the right to create. -/
theorem C82_rights_partial :
    (∀ n ∈ ["fd_read", "fd_seek", "fd_tell", "fd_filestat_get", "fd_readdir",
      "fd_fdstat_set_flags"], Grants readRights n) ∧
    (∀ n ∈ ["fd_write", "fd_seek", "fd_tell", "fd_filestat_get", "fd_filestat_set_size", "fd_sync",
      "fd_datasync", "fd_fdstat_set_flags"], Grants writeRights n) := by
  constructor
  · intro n hn
    simp only [List.mem_cons, List.not_mem_nil, or_false] at hn
    rcases hn with rfl | rfl | rfl | rfl | rfl | rfl
    · exact ⟨1, by decide +kernel, by decide +kernel⟩
    · exact ⟨2, by decide +kernel, by decide +kernel⟩
    · exact ⟨5, by decide +kernel, by decide +kernel⟩
    · exact ⟨21, by decide +kernel, by decide +kernel⟩
    · exact ⟨14, by decide +kernel, by decide +kernel⟩
    · exact ⟨3, by decide +kernel, by decide +kernel⟩
  · intro n hn
    simp only [List.mem_cons, List.not_mem_nil, or_false] at hn
    rcases hn with rfl | rfl | rfl | rfl | rfl | rfl | rfl | rfl
    · exact ⟨6, by decide +kernel, by decide +kernel⟩
    · exact ⟨2, by decide +kernel, by decide +kernel⟩
    · exact ⟨5, by decide +kernel, by decide +kernel⟩
    · exact ⟨21, by decide +kernel, by decide +kernel⟩
    · exact ⟨22, by decide +kernel, by decide +kernel⟩
    · exact ⟨4, by decide +kernel, by decide +kernel⟩
    · exact ⟨0, by decide +kernel, by decide +kernel⟩
    · exact ⟨3, by decide +kernel, by decide +kernel⟩

/-- Opening a file for writing with creation asks for the right to create
directories, not for the right to create files. -/
theorem C82_creation_asks_for_directories :
    ∃ q, fopen [⟨3, [46]⟩] [102] [119] = some q ∧ q.oflags.testBit 0 = true ∧
      Grants q.rights "path_create_directory" ∧ ¬ Grants q.rights "path_create_file" := by
  refine ⟨⟨3, [102], 1, 9, writeRights ||| createFile, 0⟩, by decide +kernel, by decide +kernel,
    ⟨9, by decide +kernel, by decide +kernel⟩, ?_⟩
  rintro ⟨b, hb, ht⟩
  have key : ∀ x ∈ rightNames, x.1 = "path_create_file" → x.2 = 10 := by decide +kernel
  have := key _ hb rfl
  simp only at this
  subst this
  revert ht
  decide +kernel

end Verif.Wasi
