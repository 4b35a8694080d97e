import Verif.Strat.State
/-!
# Vocabulary of the stepping properties
-/

namespace Verif.Strat
open Verif

/-- States that some history leads to from the start of the debuggee. -/
def Reachable (s : DS) : Prop := ∃ ls os, Run {} ls s os

/-- The include or import that a task stands in: the innermost task among its parents. -/
def Encl (t : Task) : Option Nat := (t.parents.find? fun n => n.isTask).map fun n => n.uuid

/-- Two tasks stand in the same include (or both in none). -/
def SameLevel (a b : Task) : Prop := Encl a = Encl b

instance (a b : Task) : Decidable (SameLevel a b) := inferInstanceAs (Decidable (Encl a = Encl b))

/-- The innermost dynamic include a task stands in. -/
def EnclInclude (t : Task) : Option Nat := (t.parents.find? fun n => n.isTask && n.isInclude).map fun n => n.uuid

/-- A breakpoint of the client applies to the task, and its condition, if any, holds. -/
def BpHits (s : DS) (t : Task) (cond : Nat → Bool) (i : Nat) : Prop :=
  ∃ p l b, t.path = some (p, l) ∧ Bp.getBreakpoint s.dbg p l = some b ∧ b.id = i ∧ cond i = true

/-- Is there a stopped event of the thread among the messages? -/
def Stops (tid : Nat) (o : List Out) : Prop := ∃ w, Out.stopped tid w ∈ o

/-- Does the request set the state of the thread? (`closed` and the disconnects set all.) -/
def Resumes (tid : Nat) : Req → Prop
  | .cont t single => single = false ∨ t = tid
  | .stepIn t => t = tid
  | .stepOut t => t = tid
  | .next t => t = tid
  | .disconnect _ => True
  | .terminate => True
  | .closed => True
  | _ => False

/-- Does the step take threads away, other than by ending the run? -/
def Removes : Label → Prop
  | .refresh => True
  | .newPlay => True
  | _ => False

/-- A history in which the thread is told nothing, does not stop and does not exit. -/
def Undisturbed (tid : Nat) (s : DS) (ls : List Label) (s' : DS) : Prop :=
  ∃ os, Run s ls s' os ∧ (∀ r, Label.req r ∈ ls → ¬ Resumes tid r) ∧ (∀ l ∈ ls, ¬ Removes l) ∧ ¬ Stops tid os

/-- The host `h`, whose thread is `tid`, stopped as it started task `a`; then the client sent
requests that do not concern that thread, then `cmd`; and since then the thread was told nothing,
did not stop and did not exit. -/
def After (cmd : Req) (h tid : Nat) (a : Task) (s : DS) : Prop :=
  ∃ s0 s1 s2 s3 ls1 ls2 tv ar c o1 os1 o3, Reachable s0 ∧ step s0 (.start h a tv ar c) = some (s1, o1) ∧ Stops tid o1 ∧
    Run s1 ls1 s2 os1 ∧ (∀ r, Label.req r ∈ ls1 → ¬ Resumes tid r) ∧ step s2 (.req cmd) = some (s3, o3) ∧ Undisturbed tid s3 ls2 s

/-- The host `h` was seen for the first time when it started a task: its thread `tid` was
announced, it did not stop then, and since then the thread was told nothing, did not stop and did
not exit. -/
def SinceAnnounced (h tid : Nat) (s : DS) : Prop :=
  ∃ s0 s1 ls a tv ar c o1, Reachable s0 ∧ step s0 (.start h a tv ar c) = some (s1, o1) ∧ Out.started tid ∈ o1 ∧ ¬ Stops tid o1 ∧
    Undisturbed tid s1 ls s

/-- The run is over: the client ended it or it failed. -/
def Over (s : DS) : Prop := s.pc = .ended ∨ ∃ e, s.pc = .crashed e

/-- The playbook waits for the client to resume the thread. -/
def Waits (tid : Nat) (s : DS) : Prop := s.pc = .waitStart tid ∨ ∃ i, s.pc = .waitEnd tid i

/-- A request never announces a stop, a start or an exit. -/
def Quiet : Out → Prop
  | .stopped _ _ => False
  | .started _ => False
  | .exited _ => False
  | _ => True

/-- A request or a change of Ansible's variables: not a step of the playbook. -/
def NotPlaybook : Label → Prop
  | .req _ => True
  | .env _ => True
  | _ => False

/-- A request that ends the run when it is handled. -/
def Ends : Req → Prop
  | .disconnect t => t = true
  | .terminate => True
  | _ => False

/-- Requests that neither resume a thread, nor set breakpoints or filters; and the end of the
connection. -/
def Passive : Req → Prop
  | .stackTrace _ => True
  | .threads => True
  | .scopes _ _ _ => True
  | .variables _ => True
  | .setVariable _ _ _ => True
  | .evaluate _ _ => True
  | .config _ => True
  | .closed => True
  | _ => False

/-- No exception filter of the client is on. -/
def FiltersOff (s : DS) : Prop := ∀ f, Bp.shouldStop s.dbg f = false

/-- The last call of the playbook failed: an exception other than the requested end left the play. -/
def Failed (s : DS) : Prop := ∃ e, s.pc = .crashed e

end Verif.Strat
