import Verif.Debuggee.Model

/-! Invariants of the debuggee's threads. -/

namespace Verif.Debuggee
open Verif

/-- A relation between states that every step and every run preserves. -/
theorem run_induct {c : Cfg} {I : St → List Obs → Prop}
    (hs : ∀ {s s' a o hist}, I s hist → step c s a = some (s', o) → I s' (hist ++ o))
    {s s' : St} {as : List Act} {os : List Obs} (h : Run c s as s' os) : ∀ hist, I s hist → I s' (hist ++ os) := by
  induction h with
  | nil s => intro hist hi; simpa using hi
  | cons h1 _ ih => intro hist hi; rw [← List.append_assoc]; exact ih _ (hs hi h1)

/-- Case analysis on a step: the action, and the branches of the code. -/
macro "step_cases" a:ident h:ident : tactic => `(tactic| (
  cases $a:ident <;> simp only [step, Act.thread, stepP, stepS, stepR] at $h:ident
  all_goals (repeat' split at $h:ident)
  all_goals (cases $h:ident)))

/-- Before the connection is made. -/
def preLoop : S → Bool
  | .conn _ | .tls | .greet _ => true
  | _ => false

/-- Before the end of the send loop. -/
def looping : S → Bool
  | .conn _ | .tls | .greet _ | .flag | .get | .send _ _ => true
  | _ => false

structure Inv (c : Cfg) (s : St) : Prop where
  pre_off : s.p = .pre → s.s = .off
  wait_on : (s.p = .wait ∨ s.p = .cancel ∨ s.p = .put ∨ s.p = .join) → s.s ≠ .off
  off_r : s.s = .off → s.r = .off
  pre_r : preLoop s.s = true → s.r = .off
  pre_cancel : (s.p = .put ∨ s.p = .join) → preLoop s.s = true → s.cancelled = true
  join_none : s.p = .join → looping s.s = true → none ∈ s.queue
  late_cancel : (s.s = .joinR ∨ s.s = .close ∨ s.s = .unflag ∨ s.s = .ended) → s.cancelled = true
  conn_late : s.connected = true → preLoop s.s = false ∧ s.s ≠ .off ∧ s.s ≠ .flag
  strat : s.strategy = true ↔ s.p = .play

theorem inv_init (c : Cfg) (old : Option Str) : Inv c (init old) := by
  constructor <;> simp [init, preLoop, looping]

set_option maxHeartbeats 1000000 in
theorem inv_step {c : Cfg} {s s' : St} {a : Act} {o : List Obs} (i : Inv c s) (h : step c s a = some (s', o)) : Inv c s' := by
  obtain ⟨i1, i2, i3, i4, i5, i6, i7, i8, i9⟩ := i
  step_cases a h
  all_goals (constructor <;> grind [preLoop, looping])

end Verif.Debuggee
