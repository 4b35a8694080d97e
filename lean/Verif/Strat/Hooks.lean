import Verif.Strat.Ctl
/-!
# The hooks of the strategy

Model of `StrategyModule` (/repo/src/ansibug/ansible_collections/ansibug/dap/plugins/strategy/debug.py:1052-1173)
for one play: Ansible's own linear strategy (`super()`) is an environment that calls the hooks in
any order with any arguments, and the hooks call the debug state of `Strat/State.lean`, one step of
which is one step here. The silencing of warnings (debug.py:1065-1073, debug.py:1154-1156) is not
modelled, nor are the host patterns of `_execute_meta` (the target host is a parameter).
-/

namespace Verif.Strat.Hooks
open Verif Verif.Strat

/-- A result that Ansible hands back: host, task, what the exception stop reads, the result. -/
structure Res where
  host : Nat
  task : Task
  result : Result
  addr : Addr

/-- Where the playbook thread is: in Ansible's code, in a hook before or after the call of
`super()`, in the loop over results, or `run` was left. -/
inductive Cont where
  | ansible
  | queued (host : Nat) (t : Task)
  | metaStarted (host : Nat) (t : Task) (refresh : Bool) (res : Addr)
  | metaRan (host : Nat) (t : Task) (refresh : Bool) (res : Addr)
  | results (rs : List Res)
  | over

/-- The state of a play. -/
structure HS where
  ds : DS
  cont : Cont := .ansible

/-- What can be observed: `start_task` was called for a task, the task was handed to Ansible for
execution (`super()._queue_task`, `super()._execute_meta`), `end_task` was called for a result,
a message for the client, and how `run` was left. -/
inductive Ev where
  | began (host : Nat) (t : Task)
  | executed (host : Nat) (t : Task)
  | ended (host : Nat) (t : Task)
  | msg (o : Out)
  | returned (n : Nat)
  | raised (e : PyErr)

/-- What happens: Ansible calls a hook, loads included blocks, ends its run or raises; the hook goes
on (`go`); an exception leaves `run` (`unwind`); or something that does not belong to the hooks: a
wake-up, a request, a change of variables. -/
inductive Lbl where
  | queueTask (host : Nat) (t : Task) (taskVars args : Addr) (cond : Nat → Bool)
  | executeMeta (host : Nat) (t : Task) (taskVars args : Addr) (cond : Nat → Bool) (refresh : Bool) (res : Addr)
  | pendingResults (rs : List Res)
  | loaded (path : Str) (line : Int) (ty : Nat)
  | runEnds (n : Nat)
  | runRaises (e : PyErr)
  | go
  | unwind
  | wake
  | env (h : Heap)
  | req (r : Req)

/-- The result `{}` of a meta task (debug.py:1102). -/
def noResult : Result := { failed := false, ignoreErrors := false, unreachable := false, ignoreUnreachable := false, skipped := false }

/-- `TaskQueueManager.RUN_FAILED_BREAK_PLAY` (debug.py:1173). -/
def breakPlay : Nat := 8

/-- A step of the debug state, after which the thread is at `c`. -/
def dsStep (s : HS) (l : Label) (c : Cont) (evs : List Ev) : Option (HS × List Ev) :=
  match step s.ds l with
  | none => none
  | some (d, o) => some ({ ds := d, cont := c }, evs ++ o.map .msg)

/-- Is the playbook thread in Ansible's code? -/
def atAnsible (s : HS) : Bool :=
  match s.cont with
  | .ansible => true
  | _ => false

/-- Is `run` still going on? -/
def inRun (s : HS) : Bool :=
  match s.cont with
  | .over => false
  | _ => true

/-- The hook goes on: `_queue_task` (debug.py:1118-1128), `_execute_meta` (debug.py:1075-1104) and
`_process_pending_results` (debug.py:1130-1141) after their first statement. -/
def goOn (s : HS) : Option (HS × List Ev) :=
  if s.ds.pc ≠ .running then none
  else match s.cont with
    | .queued h t => some ({ s with cont := .ansible }, [.executed h t])
    | .metaStarted h t r a => some ({ s with cont := .metaRan h t r a }, [.executed h t])
    | .metaRan h t r a =>
      if r = true then dsStep s .refresh .ansible []
      else dsStep s (.done h t noResult a) .ansible [.ended h t]
    | .results [] => some ({ s with cont := .ansible }, [])
    | .results (r :: rs) => dsStep s (.done r.host r.task r.result r.addr) (.results rs) [.ended r.host r.task]
    | .ansible => none
    | .over => none

/-- `run` is left because of an exception of a hook (debug.py:1164-1173): EndStrategy is answered
with a result code, anything else goes on to the caller. `exit_threads` was part of the step that
raised (see `finish`). -/
def unwindRun (s : HS) : Option (HS × List Ev) :=
  match s.cont with
  | .over => none
  | _ => match s.ds.pc with
    | .ended => some ({ s with cont := .over }, [.returned breakPlay])
    | .crashed e => some ({ s with cont := .over }, [.raised e])
    | _ => none

/-- One step of a play. `runRaises` is an exception of Ansible's own code, also when it was called
from a hook (debug.py:1089, debug.py:1128, debug.py:1136, debug.py:1167). -/
def hstep (s : HS) : Lbl → Option (HS × List Ev)
  | .queueTask h t tv ar c => if atAnsible s = true then dsStep s (.start h t tv ar c) (.queued h t) [.began h t] else none
  | .executeMeta h t tv ar c r a =>
    if atAnsible s = true then dsStep s (.start h t tv ar c) (.metaStarted h t r a) [.began h t] else none
  | .pendingResults rs => if atAnsible s = true ∧ s.ds.pc = .running then some ({ s with cont := .results rs }, []) else none
  | .loaded p l ty => if atAnsible s = true then dsStep s (.reg p l ty) .ansible [] else none
  | .runEnds n =>
    if atAnsible s = true ∧ s.ds.pc = .running then
      some ({ ds := (exitThreads s.ds).1, cont := .over }, (exitThreads s.ds).2.map .msg ++ [.returned n]) else none
  | .runRaises e =>
    if inRun s = true ∧ s.ds.pc = .running then
      some ({ ds := (exitThreads s.ds).1, cont := .over }, (exitThreads s.ds).2.map .msg ++ [.raised e]) else none
  | .go => goOn s
  | .unwind => unwindRun s
  | .wake => dsStep s .wake s.cont []
  | .env h => dsStep s (.env h) s.cont []
  | .req r => dsStep s (.req r) s.cont []

/-- Histories of a play. -/
inductive HRun : HS → List Lbl → HS → List Ev → Prop where
  | nil (s) : HRun s [] s []
  | cons {s s₁ s₂ l ls e es} : hstep s l = some (s₁, e) → HRun s₁ ls s₂ es → HRun s (l :: ls) s₂ (e ++ es)

/-- A play begins (debug.py:1158-1165): a new debug state, with whatever the debugger knows from
earlier plays and requests. -/
def Begins (s : HS) : Prop := ∃ d o, Reachable d ∧ step d .newPlay = some (s.ds, o) ∧ s.cont = .ansible

end Verif.Strat.Hooks
