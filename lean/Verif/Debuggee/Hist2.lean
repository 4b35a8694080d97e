import Verif.Debuggee.Hist

/-! The process file, and the answers. -/

namespace Verif.Debuggee
open Verif

structure HFile (c : Cfg) (old : Option Str) (s : St) (os : List Obs) : Prop where
  pre : s.p = .pre → os = []
  file : s.file = if Obs.shutdown ∈ os then none else if c.listen = true ∧ Obs.started true ∈ os then some (fileText c) else old

theorem hfile_init (c : Cfg) (old : Option Str) : HFile c old (init old) [] := by
  constructor <;> simp [init]

theorem hfile_step {c : Cfg} {old : Option Str} {s s' : St} {a : Act} {o os : List Obs} (i : HFile c old s os) (v : Inv c s)
    (h : step c s a = some (s', o)) : HFile c old s' (os ++ o) := by
  obtain ⟨i1, i2⟩ := i
  have hp : s.p = .pre → s.r = .off := fun h => v.off_r (v.pre_off h)
  have hs := v.pre_off
  step_cases a h
  all_goals (constructor <;> first | (simp_all; done) | (cases hl : c.listen <;> simp_all; done) | grind)

/-- The request being processed, as long as it has not been answered. -/
def pending : R → List Req
  | .got r | .need r | .call r => [r].filter answerable
  | _ => []

theorem answers_append (a b : List Obs) : answers (a ++ b) = answers a ++ answers b := by simp [answers]
theorem reqs_append (a b : List Obs) : reqs (a ++ b) = reqs a ++ reqs b := by simp [reqs]

def HAns (s : St) (os : List Obs) : Prop :=
  (∀ r, s.r = .need r ∨ s.r = .call r → needsStrategy r.kind = true) ∧
  (answers os).filter answerable ++ pending s.r = (reqs os).filter answerable

theorem hans_step {c : Cfg} {s s' : St} {a : Act} {o os : List Obs} (i : HAns s os) (v : preLoop s.s = true → s.r = .off)
    (h : step c s a = some (s', o)) : HAns s' (os ++ o) := by
  obtain ⟨i0, i⟩ := i
  simp only [HAns, answers_append, reqs_append, List.filter_append, ← i]
  step_cases a h
  all_goals (constructor <;> first | (simp_all [answers, reqs, pending, answerable]; done) | (simp_all [preLoop, pending, answers, reqs]; done) | (rename_i hr _ _; simp [hr, answers, reqs, pending]) | (rename_i hr _; simp [hr, answers, reqs, pending]))

end Verif.Debuggee
