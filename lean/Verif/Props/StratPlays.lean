import Verif.Strat.From
import Verif.Props.Strat
/-!
# C110: stepping across plays
-/

namespace Verif.Props.Strat
open Verif Verif.Strat

/-- No thread belongs to the host. -/
def Absent (h : Nat) (s : DS) : Prop := ∀ k L, view s k ≠ some (some h, L)

theorem main_absent {s : DS} (c : s.core) (h : OnlyMain s) (host : Nat) : Absent host s := by
  intro k L hv
  simp only [view] at hv
  cases hg : s.threads.get? k with
  | none => rw [hg] at hv; cases hv
  | some th =>
    have := h k th hg
    subst this
    obtain ⟨m, m1, m2, m3⟩ := c.tmain
    rw [m1] at hv
    simp only [Option.map_some, Option.some.injEq, Prod.mk.injEq, m2] at hv
    exact absurd hv.1 (by simp)

/-- Only a task that begins on the host makes a thread for it. -/
theorem absent_step {host : Nat} {s s' : DS} {l : Label} {o : List Out} (hi : Inv s) (hd : Absent host s) (h : step s l = some (s', o))
    (hm : Over s → OnlyMain s) (hl : ∀ t tv a c, l ≠ .start host t tv a c) : Absent host s' := by
  by_cases ho : Over s'
  · exact main_absent (inv_step hi h).core (main_step hi h hm ho) host
  · cases l with
    | start host' t tv a c =>
      have hne : host' ≠ host := fun e => hl t tv a c (by rw [e])
      simp only [step] at h
      split at h
      · rename_i hp
        rw [fst_eq h] at ho ⊢
        obtain ⟨a1, a2, -⟩ := view_start hi hp host' t tv a c ho
        intro k L hv
        by_cases hk : k = (hostThread s host').2.1.id
        · rw [hk, a2] at hv
          cases hv
          exact hne rfl
        · rw [a1 k hk] at hv
          exact hd k _ hv
      · cases h
    | done host' t r res =>
      simp only [step] at h
      split at h
      · rw [fst_eq h] at ho ⊢
        obtain ⟨th, b0, b1, b2, b3⟩ := view_end hi host' t r res ho
        intro k L hv
        by_cases hk : k = th.id
        · subst hk
          rcases b3 with ⟨-, b3⟩ | ⟨-, b3⟩
          · rw [b3] at hv; exact hd _ _ hv
          · rw [b3] at hv
            cases hv0 : view s th.id with
            | none => rw [hv0] at hv; cases hv
            | some w =>
              obtain ⟨w1, w2⟩ := w
              rw [hv0] at hv
              simp only [Option.map_some, Option.some.injEq, Prod.mk.injEq] at hv
              obtain ⟨rfl, rfl⟩ := hv
              exact hd _ _ hv0
        · rw [b1 k hk] at hv
          exact hd k _ hv
      · cases h
    | refresh =>
      simp only [step] at h
      split at h
      · rename_i hp
        refine main_absent (inv_step hi (l := .refresh) (by simp only [step, hp, if_true]; exact h)).core ?_ host
        rw [fst_eq h]
        exact finish_main s .running
      · cases h
    | newPlay =>
      simp only [step] at h
      split at h
      · rename_i hp
        refine main_absent (inv_step hi (l := .newPlay) (by simp only [step, hp, if_true]; exact h)).core ?_ host
        rw [fst_eq h]
        intro k th hk
        simp only [Dict.get?] at hk
        split at hk
        · rename_i e; simpa using Eq.symm e
        · cases hk
      · cases h
    | reg p l ty =>
      simp only [step] at h
      split at h
      · rw [fst_eq h] at ho ⊢
        rcases registerLine_cases s p l ty with hr | ⟨e, -, hr⟩ <;> rw [hr] at ho ⊢
        · exact hd
        · exact absurd (.inr ⟨_, rfl⟩) ho
      · cases h
    | env hp => cases h; exact hd
    | wake =>
      simp only [step] at h
      split at h
      · split at h
        · rw [fst_eq h] at ho; exact absurd (.inr ⟨_, rfl⟩) ho
        · split at h
          · cases h
          · split at h
            · rw [fst_eq h] at ho; exact absurd (.inl rfl) ho
            · rw [fst_eq h]; exact hd
      · split at h
        · rw [fst_eq h] at ho; exact absurd (.inr ⟨_, rfl⟩) ho
        · split at h
          · cases h
          · rename_i tid inc _ _ _ _ _
            rw [fst_eq h] at ho ⊢
            obtain ⟨b1, b2, -⟩ := view_endAfter hi.core _ _ ho
            intro k L hv
            by_cases hk : k = tid
            · subst hk
              rw [b2] at hv
              cases hv0 : view s k with
              | none => rw [hv0] at hv; cases hv
              | some w =>
                obtain ⟨w1, w2⟩ := w
                rw [hv0] at hv
                simp only [Option.map_some, Option.some.injEq, Prod.mk.injEq] at hv
                obtain ⟨rfl, rfl⟩ := hv
                exact hd _ _ hv0
            · rw [b1 k hk] at hv
              exact hd k _ hv
      · cases h
    | req r =>
      rw [fst_eq h]
      intro k L hv
      rw [view_request hi r k] at hv
      exact hd k _ hv

/-- A new play or a refresh of the inventory leaves no thread of a host. -/
theorem removes_absent {host : Nat} {s s' : DS} {l : Label} {o : List Out} (hi : Inv s) (hl : Removes l) (h : step s l = some (s', o)) : Absent host s' := by
  cases l with
  | refresh =>
    simp only [step] at h
    split at h
    · rename_i hp
      refine main_absent (inv_step hi (l := .refresh) (by simp only [step, hp, if_true]; exact h)).core ?_ host
      rw [fst_eq h]
      exact finish_main s .running
    · cases h
  | newPlay =>
    simp only [step] at h
    split at h
    · rename_i hp
      refine main_absent (inv_step hi (l := .newPlay) (by simp only [step, hp, if_true]; exact h)).core ?_ host
      rw [fst_eq h]
      intro k th hk
      simp only [Dict.get?] at hk
      split at hk
      · rename_i e; simpa using Eq.symm e
      · cases hk
    · cases h
  | _ => cases hl

theorem absent_run {host : Nat} {s s' : DS} {ls : List Label} {o : List Out} (h : Run s ls s' o) : Inv s → Absent host s → (Over s → OnlyMain s) →
    (∀ t tv a c, Label.start host t tv a c ∉ ls) → Absent host s' := by
  induction h with
  | nil => exact fun _ hd _ _ => hd
  | cons h1 _ ih =>
    intro hi hd hm hl
    exact ih (inv_step hi h1) (absent_step hi hd h1 hm fun t tv a c e => hl t tv a c (by rw [e]; exact List.mem_cons_self))
      (fun ho => main_step hi h1 hm ho) (fun t tv a c hmem => hl t tv a c (List.mem_cons_of_mem _ hmem))

theorem reach_main {s : DS} (h : Reachable s) (ho : Over s) : OnlyMain s := by
  obtain ⟨ls, os, hr⟩ := h
  exact main_run hr inv_init (by rintro (e | ⟨_, e⟩) <;> cases e) ho

theorem absent_threadOf {h : Nat} {s : DS} (c : s.core) (ha : Absent h s) : threadOf s h = none := by
  cases ht : threadOf s h with
  | none => rfl
  | some th =>
    obtain ⟨h1, h2⟩ := threadOf_some c ht
    exact absurd (by unfold view; rw [h2]; simp only [Option.map_some, h1]) (ha th.id (viewF s.frames th.frames))

theorem run_reach {s s' : DS} {ls : List Label} {o : List Out} (hr : Reachable s) (h : Run s ls s' o) : Reachable s' := by
  obtain ⟨l0, o0, h0⟩ := hr
  exact ⟨_, _, run_append h0 h⟩

/-- **C110** fails at the end of a play, and where the inventory is refreshed: whatever the client has told the thread of the host - to step over, into
or out of the task -, the first task of the host afterwards, in whatever file and at whatever level it is, stops it exactly if a
breakpoint applies to it. The host has a new thread, which was not told anything. Between the two there may be any requests (for whatever thread) and any
steps of other hosts. -/
theorem C110_step_forgotten_refuted {h : Nat} {t : Task} {s s1 s2 s3 : DS} {l : Label} {ls : List Label} {tv ar : Addr} {c : Nat → Bool} {o1 os o : List Out}
    (hr : Reachable s) (hl : Removes l) (h1 : step s l = some (s1, o1)) (h2 : Run s1 ls s2 os) (hn : ∀ t tv a c, Label.start h t tv a c ∉ ls)
    (hs : step s2 (.start h t tv ar c) = some (s3, o)) (ht : ¬ Failed s3) :
    ∃ tid, Out.started tid ∈ o ∧ ∀ k w, Out.stopped k w ∈ o ↔ k = tid ∧ ∃ i, w = .brk (.bp i) ∧ BpHits s2 t c i := by
  have hi := reach_inv hr
  have i1 := inv_step hi h1
  have r1 : Reachable s1 := run_reach hr (.cons h1 (.nil _))
  have r2 := run_reach r1 h2
  have i2 := inv_run h2 i1
  have ha := absent_run h2 i1 (removes_absent hi hl h1) (fun ho => reach_main r1 ho) hn
  have hto := absent_threadOf i2.core ha
  have hp : s2.pc = .running := by
    simp only [step] at hs; split at hs
    · assumption
    · cases hs
  obtain ⟨p, hsy⟩ := sync_fine i2 hs ht
  have hs' := hs
  simp only [step, hp, if_true] at hs'
  have hst : Out.started s2.nextT ∈ o := by
    rcases start_spec i2 hp h t tv ar c with ⟨e, he, -⟩ | ⟨s1, th1, -, e1, -⟩
    · rw [hsy] at he; cases he
    · rw [snd_eq hs', e1]
      apply List.mem_append_left
      simp [hostThread, hto, addThread]
  refine ⟨s2.nextT, hst, fun k w => ?_⟩
  have key := C35_new_host r2 ht hs hst
  by_cases hk : k = s2.nextT
  · subst hk
    rw [key w]
    simp
  · refine ⟨fun hm => ?_, fun hm => absurd hm.1 hk⟩
    have := ((start_stops i2 hs ht k w).1 hm).1
    rw [this] at hk
    exact absurd (by simp [hostThread, hto, addThread]) hk

/-- **C110** (within a play). As long as no new play begins and the inventory is not refreshed, a host that was told to step over stops at the
next task of the same level, and one that was told to step into an include at its next task, if the tasks have a location. -/
theorem C110_within_play_partial {h tid : Nat} {a t : Task} {s s' : DS} {tv ar : Addr} {c : Nat → Bool} {o : List Out}
    (hA : (After (.next tid) h tid a s ∧ SameLevel t a) ∨ (After (.stepIn tid) h tid a s ∧ (a.node.isInclude = true ∨ SameLevel t a)))
    (ht : ¬ Failed s') (hp : t.path ≠ none) (hs : step s (.start h t tv ar c) = some (s', o)) : Stops tid o := by
  rcases hA with ⟨hA, hl⟩ | ⟨hA, hl⟩
  · exact (C32_step_over_partial hA ht hs).1.2 ⟨hp, .inl hl⟩
  · cases hinc : a.node.isInclude with
    | true => exact (C33_step_in hA hinc ht hs).1.2 hp
    | false =>
      rcases hl with hl | hl
      · rw [hinc] at hl; cases hl
      · exact (C32_step_in_ordinary_partial hA hinc ht hs).2 ⟨hp, .inl hl⟩

/-- The play ends after the tasks `inside`, and another one begins. -/
def nextPlay : DS := stF (stF e3 inside) [.newPlay]

/-- **C110, refuted.** Host 7 is stopped at the last task of a play (an include, which is then carried out) and stepped over; the first task of
the next play has a location and is of the same level, and the host does not stop. -/
theorem C110_refuted : ∃ (s s1 s2 : DS) (a t : Task) (o1 o : List Out), After (.next 2) 7 2 a s ∧ step s .newPlay = some (s1, o1) ∧
    step s1 (.start 7 t 0 0 yes) = some (s2, o) ∧ SameLevel t a ∧ t.path ≠ none ∧ ¬ Failed s2 ∧ ∀ k, ¬ Stops k o := by
  refine ⟨stF e3 inside, nextPlay, _, tinc 50 1, tk 60 2, _, _, exAfterNext.1, step_of (by decide +kernel), step_of (by decide +kernel),
    by decide, by decide, ?_, ?_⟩
  · rintro ⟨e, he⟩
    have : (stF nextPlay [.start 7 (tk 60 2) 0 0 yes]).pc = .running := by decide +kernel
    rw [this] at he; cases he
  · intro k
    have : ouF nextPlay [.start 7 (tk 60 2) 0 0 yes] = [.started 3] := by decide +kernel
    rintro ⟨w, hw⟩
    rw [this] at hw
    simp at hw

end Verif.Props.Strat
