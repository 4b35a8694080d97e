import Verif.Sock.Uds
/-!
# Properties of the file of a unix socket (C78)
-/

namespace Verif.Props.SockUds
open Verif Verif.Sock

/-- Nobody but the owner may do anything with a file of these bits: the six lower bits, those
of the group and of the others, are 0. -/
def Private (m : Mode) : Prop := ∀ i : Nat, i < 6 → m.getLsbD i = false

theorem private_linux (u : Mode) : Private (0x1c0#9 &&& ~~~u) := by
  intro i hi
  rw [BitVec.getLsbD_and]
  have : (0x1c0#9).getLsbD i = false := by
    rcases i with _ | _ | _ | _ | _ | _ | i <;> first | decide | omega
  rw [this]; rfl

theorem private_other : Private (0x1ff#9 &&& ~~~(~~~(0x1c0#9))) := by
  intro i hi
  rcases i with _ | _ | _ | _ | _ | _ | i <;> first | decide | omega

theorem bind_cases (w : World) (path : Str) (m : Mode) (fails : Option Exc) :
    (∃ e, bindUds w path m fails = (some e, w)) ∨
    (w.files.get? path = none ∧ bindUds w path m fails = (none, { w with files := w.files.set path (m &&& ~~~w.umask) })) := by
  unfold bindUds
  split
  · exact .inl ⟨_, rfl⟩
  · rename_i h
    cases fails with
    | some e => exact .inl ⟨e, rfl⟩
    | none => exact .inr ⟨by simpa using h, rfl⟩

/-- C78: at no time while the server's socket is being made, whatever the process umask, on
Linux and elsewhere, does the new file allow the group or others anything; every other file
stays as it was. -/
theorem C78_private_always_partial (w : World) (path : Str) (f : Fchmod) (fails : Option Exc) (hnew : w.files.get? path = none) :
    ∀ w' ∈ (createUds w path 0x1c0#9 f fails).2,
      (∀ m, w'.files.get? path = some m → Private m) ∧ (∀ p, p ≠ path → w'.files.get? p = w.files.get? p) := by
  have hsame : ∀ w' : World, w'.files = w.files →
      (∀ m, w'.files.get? path = some m → Private m) ∧ (∀ p, p ≠ path → w'.files.get? p = w.files.get? p) := by
    intro w' h
    rw [h]; exact ⟨fun m hm => (by rw [hnew] at hm; cases hm), fun _ _ => rfl⟩
  have hset : ∀ (w' : World) (m : Mode), Private m → w'.files = w.files.set path m →
      (∀ m, w'.files.get? path = some m → Private m) ∧ (∀ p, p ≠ path → w'.files.get? p = w.files.get? p) := by
    intro w' m hp h
    rw [h]
    refine ⟨fun m' hm => ?_, fun p hne => ?_⟩
    · rw [DL.get_set] at hm; simp at hm; rw [← hm]; exact hp
    · rw [DL.get_set]; simp [Ne.symm hne]
  intro w' hw
  cases f with
  | fails e => simp only [createUds, List.mem_singleton] at hw; subst hw; exact hsame _ rfl
  | linux =>
    simp only [createUds, List.mem_cons, List.not_mem_nil, or_false] at hw
    rcases hw with rfl | rfl
    · exact hsame _ rfl
    · rcases bind_cases w path 0x1c0#9 fails with ⟨e, h⟩ | ⟨_, h⟩
      · rw [h]; exact hsame _ rfl
      · rw [h]; exact hset _ _ (private_linux _) rfl
  | einval =>
    simp only [createUds, List.mem_cons, List.not_mem_nil, or_false] at hw
    have hb := bind_cases { w with umask := ~~~0x1c0#9 } path 0x1ff#9 fails
    rcases hw with rfl | rfl | rfl | rfl
    · exact hsame _ rfl
    · exact hsame _ rfl
    · rcases hb with ⟨e, h⟩ | ⟨_, h⟩
      · rw [h]; exact hsame _ rfl
      · rw [h]; exact hset _ _ private_other rfl
    · rcases hb with ⟨e, h⟩ | ⟨_, h⟩
      · rw [h]; exact hsame _ rfl
      · rw [h]; exact hset _ _ private_other rfl

/-- C78: the process umask afterwards is what it was before, whether or not making the socket
succeeded, and wherever it failed. -/
theorem C78_umask_restored_partial (w : World) (path : Str) (f : Fchmod) (fails : Option Exc) :
    (listenUds w path f fails).2.umask = w.umask := by
  cases f with
  | fails e => rfl
  | einval => rfl
  | linux =>
    rcases bind_cases w path 0x1c0#9 fails with ⟨e, h⟩ | ⟨_, h⟩ <;> simp [listenUds, createUds, h, final]

/-- C78: when it fails no file was made or changed; when it succeeds there is the file, which
was not there before. -/
theorem C78_all_or_nothing_partial (w : World) (path : Str) (f : Fchmod) (fails : Option Exc) :
    match (listenUds w path f fails).1 with
    | some _ => (listenUds w path f fails).2.files = w.files
    | none => w.files.get? path = none ∧ ∃ m, (listenUds w path f fails).2.files = w.files.set path m := by
  cases f with
  | fails e => rfl
  | linux =>
    rcases bind_cases w path 0x1c0#9 fails with ⟨e, h⟩ | ⟨hn, h⟩
    · simp [listenUds, createUds, h, final]
    · simp only [listenUds, createUds, h, final]; exact ⟨hn, _, rfl⟩
  | einval =>
    rcases bind_cases { w with umask := ~~~0x1c0#9 } path 0x1ff#9 fails with ⟨e, h⟩ | ⟨hn, h⟩
    · simp only [listenUds, createUds, h, final]; rfl
    · simp only [listenUds, createUds, h, final]; exact ⟨hn, _, rfl⟩

/-- C78: the owner may use it: the bits are exactly 0o700 where the umask route is taken, and on
Linux with a umask that leaves the owner alone. -/
theorem C78_owner_partial (w : World) (path : Str) (hnew : w.files.get? path = none) :
    (listenUds w path .einval none).2.files.get? path = some 0x1c0#9 ∧
    ((∀ i, 6 ≤ i → i < 9 → w.umask.getLsbD i = false) → (listenUds w path .linux none).2.files.get? path = some 0x1c0#9) := by
  constructor
  · simp only [listenUds, createUds, bindUds, hnew, final]
    simp [DL.get_set]
  · intro h
    have hm : 0x1c0#9 &&& ~~~w.umask = 0x1c0#9 := by
      apply BitVec.eq_of_getLsbD_eq
      intro i hi
      rw [BitVec.getLsbD_and, BitVec.getLsbD_not]
      by_cases h6 : 6 ≤ i
      · rw [h i h6 hi]; simp [hi]
      · have : (0x1c0#9).getLsbD i = false := by
          rcases i with _ | _ | _ | _ | _ | _ | i <;> first | decide | omega
        rw [this]; rfl
    simp only [listenUds, createUds, bindUds, hnew, final]
    simp [DL.get_set, hm]

/-- C78 (part that fails): "the owner can always use it" is false on Linux with a umask that
denies the owner: the file then has no bits at all. -/
theorem C78_owner_refuted (path : Str) :
    (listenUds ⟨[], 0x1ff#9⟩ path .linux none).2.files.get? path = some 0#9 := by
  simp [listenUds, createUds, bindUds, final, Dict.get?, Dict.set]

/-- C78: a file that exists already (a stale socket, say) is left alone and makes it fail. -/
theorem C78_existing_partial (w : World) (path : Str) (f : Fchmod) (fails : Option Exc) (m : Mode) (h : w.files.get? path = some m) :
    (∃ e, (listenUds w path f fails).1 = some e) ∧ (listenUds w path f fails).2 = w := by
  cases f <;> simp [listenUds, createUds, bindUds, h, final]

/-- C78: stopping the server removes the file and touches no other, and a file that is already
gone is no error. -/
theorem C78_removed_partial (w : World) (path : Str) (hp : path ≠ []) :
    (stopUds w path none).1 = none ∧ (stopUds w path none).2.1.files.get? path = none ∧
      (∀ p, p ≠ path → (stopUds w path none).2.1.files.get? p = w.files.get? p) ∧ (stopUds w path none).2.2 = true := by
  have hne : path.isEmpty = false := by cases path with
    | nil => exact absurd rfl hp
    | cons _ _ => rfl
  unfold stopUds
  simp only [hne, Bool.false_eq_true, if_false]
  split
  · rename_i h
    exact ⟨rfl, by simpa using h, fun _ _ => rfl, rfl⟩
  · refine ⟨rfl, ?_, ?_, rfl⟩
    · simp [DL.get_erase]
    · intro p h; simp only [DL.get_erase]; simp [h]

/-- C78: a server that has no unix path is stopped and no file is touched; neither is one whose
file is already gone kept from being stopped. -/
theorem C78_no_path_partial (w : World) (path : Str) (x : Option Exc) (h : path = [] ∨ w.files.get? path = none) :
    stopUds w path x = (none, w, true) := by
  unfold stopUds
  cases path with
  | nil => rfl
  | cons a as =>
    rcases h with h | h
    · cases h
    · simp [h]

/-- C78: making the server and stopping it leaves the files as they were. -/
theorem C78_round_trip_partial (w : World) (path : Str) (f : Fchmod) (hp : path ≠ []) (hok : (listenUds w path f none).1 = none) (p : Str) :
    (stopUds (listenUds w path f none).2 path none).2.1.files.get? p = w.files.get? p := by
  obtain ⟨_, h1, h2, _⟩ := C78_removed_partial (listenUds w path f none).2 path hp
  have h3 := C78_all_or_nothing_partial w path f none
  rw [hok] at h3
  simp only at h3
  by_cases h : p = path
  · subst h; rw [h1, h3.1]
  · rw [h2 p h]
    obtain ⟨_, m, h4⟩ := h3
    rw [h4, DL.get_set]; simp [Ne.symm h]

/-- C78 (part that fails): "stopping always closes the socket" is false when the file cannot be
removed: the exception leaves `stop` before the socket is closed and the thread joined. -/
theorem C78_stop_refuted (m : Mode) (u : Mode) (e : Exc) :
    stopUds ⟨[(py!"/s", m)], u⟩ py!"/s" (some e) = (some e, ⟨[(py!"/s", m)], u⟩, false) := by
  rfl

example : (listenUds ⟨[], 0x012#9⟩ py!"/tmp/s" .linux none) = (none, ⟨[(py!"/tmp/s", 0x1c0#9)], 0x012#9⟩) ∧
    (listenUds ⟨[], 0x012#9⟩ py!"/tmp/s" .einval none) = (none, ⟨[(py!"/tmp/s", 0x1c0#9)], 0x012#9⟩) := by
  decide +kernel

end Verif.Props.SockUds
