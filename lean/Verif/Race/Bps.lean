import Verif.Race.DatR
/-! # When does looking through the breakpoints fail? -/

namespace Verif.Race

/-- The iterator over the breakpoints the playbook is using. -/
def pIter : P → Option It
  | .roleIter _ it => some it
  | .bpsIter _ it => some it
  | .regIter it => some it
  | _ => none

/-- The invariant of executions in which no breakpoint is added under the eyes of the playbook. -/
structure Bps (s : S) : Prop where
  le : ∀ it, pIter s.p = some it → it.obj ≤ s.bpObj
  eq : ∀ it, pIter s.p = some it → it.obj = s.bpObj → it.size = s.bpLen
  no : crashErr s.p ≠ some .runtime

theorem bps_start : Bps {} := by constructor <;> simp [pIter, crashErr]

theorem bps_plain {s s' : S} (hi : Bps s) (h1 : s'.bpObj = s.bpObj) (h2 : s'.bpLen = s.bpLen) (h3 : ∀ it, pIter s'.p = some it → pIter s.p = some it)
    (h4 : crashErr s'.p ≠ some .runtime) : Bps s' :=
  ⟨fun it h => by rw [h1]; exact hi.le it (h3 it h), fun it h e => by rw [h2]; exact hi.eq it (h3 it h) (e.trans h1), h4⟩

set_option maxHeartbeats 2000000 in
theorem bps_pstep {fine b : Bool} {s s' : S} {o : List Obs} (hi : Bps s) (h : pstep fine s b = some (s', o)) : Bps s' := by
  have hno := hi.no
  have hle := hi.le
  have heq := hi.eq
  unfold pstep at h
  split at h
  case h_1 => cases h
  all_goals rename_i hp
  all_goals rw [hp] at hno hle heq
  all_goals (repeat' (split at h))
  all_goals first | (cases h; done) | skip
  all_goals simp only [Option.some.injEq, Prod.mk.injEq] at h
  all_goals obtain ⟨rfl, rfl⟩ := h
  all_goals first
    | (refine bps_plain hi rfl rfl ?_ ?_ <;> simp_all [pIter, crashErr, leave, raiseIn] <;> done)
    | (refine ⟨?_, ?_, ?_⟩ <;> simp_all [pIter, crashErr, leave, raiseIn] <;> done)
    | (refine ⟨?_, ?_, ?_⟩ <;> simp only [pIter, crashErr, leave, raiseIn] at * <;> grind)

set_option maxHeartbeats 2000000 in
theorem bps_rstep {fine : Bool} {s s' : S} {o : List Obs} (hi : Bps s) (hq : settingBps s.r = true → pIter s.p = none)
    (h : rstep fine s = some (s', o)) : Bps s' := by
  have hno := hi.no
  have hle := hi.le
  have heq := hi.eq
  unfold rstep at h
  split at h
  case h_1 => cases h
  all_goals rename_i hp
  all_goals rw [hp] at hq
  all_goals (repeat' (split at h))
  all_goals first | (cases h; done) | skip
  all_goals simp only [Option.some.injEq, Prod.mk.injEq] at h
  all_goals obtain ⟨rfl, rfl⟩ := h
  all_goals first
    | (refine bps_plain hi rfl rfl ?_ ?_ <;> simp_all [pIter, crashErr] <;> done)
    | (refine ⟨?_, ?_, ?_⟩ <;> simp_all [pIter, crashErr, settingBps] <;> done)
    | (refine ⟨?_, ?_, ?_⟩ <;> simp only [pIter, crashErr, settingBps] at * <;> grind)

theorem bps_step {fine : Bool} {s s' : S} {o : List Obs} {l : Lbl} (hi : Bps s) (hq : settingBps s.r = true → pIter s.p = none)
    (h : step fine s l = some (s', o)) : Bps s' := by
  cases l with
  | play b => exact bps_pstep hi h
  | go => exact bps_rstep hi hq h
  | req q =>
    simp only [step] at h
    split at h
    · simp only [Option.some.injEq, Prod.mk.injEq] at h
      obtain ⟨rfl, rfl⟩ := h
      exact bps_plain hi rfl rfl (fun _ h => h) hi.no
    · cases h
  | _ =>
    simp only [step] at h
    (repeat' (split at h))
    all_goals first | (cases h; done) | skip
    all_goals simp only [Option.some.injEq, Prod.mk.injEq] at h
    all_goals obtain ⟨rfl, rfl⟩ := h
    all_goals refine bps_plain hi rfl rfl ?_ ?_ <;> simp_all [pIter, crashErr, leave]

end Verif.Race
