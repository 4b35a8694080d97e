import Verif.Py.Basic
/-!
# One debugged host

Model of `AnsibleThread` (/repo/src/ansibug/ansible_collections/ansibug/dap/plugins/strategy/debug.py:83-281).
Line numbers below refer to that file.
-/

namespace Verif.Strat
open Verif

/-- What the code reads of a Task or Block object (ansible.playbook): its `_uuid`, whether it is a
Task (else a Block), whether its action is in `C._ACTION_ALL_INCLUDES` (include_tasks,
include_role; not the static imports), whether it is a Block with a rescue section, and whether its
action is in `C._ACTION_INCLUDE_ROLE`. -/
structure Node where
  uuid : Nat
  isTask : Bool
  isInclude : Bool
  hasRescue : Bool
  isRole : Bool := false
deriving DecidableEq, Repr

/-- A task with its `_parent` chain, nearest first. `path` is `get_path()`, split at its last
colon; `none` for tasks without a location. `inRole`: its `_role` is not None. -/
structure Task where
  node : Node
  parents : List Node
  path : Option (Str × Int)
  inRole : Bool := false
deriving DecidableEq, Repr

/-- `ThreadState` (debug.py:83-101). -/
inductive TState where
  | cont | stepIn | stepOut | stepOver | wait | fin
deriving DecidableEq, Repr

/-- A task object as remembered in `_stopped_task`: the object and its parents. -/
abbrev TaskRef := Node × List Node

/-- `AnsibleThread.__init__` (debug.py:103-114). `host` identifies the Host object. -/
structure Thread where
  id : Nat
  host : Option Nat := none
  frames : List Nat := []
  state : TState := .cont
  stopped : Option TaskRef := none
deriving DecidableEq, Repr

/-- `task := task._parent` until a node satisfies `p` (the loops debug.py:133-135 and debug.py:276-278). -/
def ancestor (p : Node → Bool) : List Node → Option TaskRef
  | [] => none
  | n :: ns => bif p n then some (n, ns) else ancestor p ns

/-- `_get_parent_task` (debug.py:272-281). -/
def parentTask (t : TaskRef) : Option TaskRef := ancestor (·.isTask) t.2

/-- The parent include task, as looked for by a step out (debug.py:128-137). -/
def parentInclude (t : TaskRef) : Option TaskRef := ancestor (fun n => n.isTask && n.isInclude) t.2

/-- `getattr(task, "_uuid", None)`. -/
def uuidOf (t : Option TaskRef) : Option Nat := t.map (·.1.uuid)

/-- `set_state` (debug.py:122-148). -/
def setState (th : Thread) (st : TState) : Thread :=
  match th.stopped with
  | none => { th with state := st }
  | some t =>
    if st = .stepOut then { th with stopped := parentInclude t, state := .stepOut }
    else if st = .stepIn ∧ t.1.isInclude = false then { th with state := .stepOver }
    else { th with state := st }

/-- Why a host stopped (`StoppedEvent.reason` / `description` / `hit_breakpoint_ids`, debug.py:155-186). -/
inductive Why where
  | over | out | into
  | bp (id : Nat)
deriving DecidableEq, Repr

/-- `_break_step_over` (debug.py:240-253). -/
def breakOver (th : Thread) (t : TaskRef) : Bool :=
  match th.stopped with
  | none => false
  | some s => th.state = .stepOver && uuidOf (parentTask t) == uuidOf (parentTask s)

/-- `_break_step_out` (debug.py:259-270). -/
def breakOut (th : Thread) (t : TaskRef) : Bool :=
  match th.stopped with
  | none => false
  | some s => th.state = .stepOut && uuidOf (parentTask t) != some s.1.uuid

/-- `should_break` (debug.py:150-195): the reason, if the host stops at this task. -/
def whyBreak (th : Thread) (t : TaskRef) (bp : Option Nat) : Option Why :=
  if breakOver th t = true then some .over
  else if breakOut th t = true then some .out
  else if th.state = .stepIn then some .into
  else match bp with
    | some i => if th.state ≠ .stepOut then some (.bp i) else none
    | none => none

/-- The effect of `should_break` on the thread (debug.py:188-195). -/
def afterBreak (th : Thread) (t : TaskRef) (bp : Option Nat) : Thread :=
  match whyBreak th t bp with
  | none => th
  | some _ => { th with stopped := some t, state := .wait }

/-- What `should_stop_on_exception` reads of a TaskResult (debug.py:206-225). -/
structure Result where
  failed : Bool
  ignoreErrors : Bool
  unreachable : Bool
  ignoreUnreachable : Bool
  skipped : Bool
deriving DecidableEq, Repr

/-- The three filters. -/
structure Filters where
  onError : Bool
  onUnreachable : Bool
  onSkipped : Bool
deriving DecidableEq, Repr

/-- The kind of an exception stop: `get_on_failed_details`, `get_on_unreachable_details`,
`get_on_skipped_details`. -/
inductive Exc where
  | failed | unreachable | skipped
deriving DecidableEq, Repr

/-- The loop looking for a Block with rescue among the parents (debug.py:209-213). -/
def rescued (parents : List Node) : Bool := parents.any fun n => !n.isTask && n.hasRescue

/-- The decision of `should_stop_on_exception` (debug.py:197-225). -/
def whyException (parents : List Node) (r : Result) (f : Filters) : Option Exc :=
  if (r.failed && !r.ignoreErrors) = true then
    if (f.onError && !rescued parents) = true then some .failed else none
  else if (r.unreachable && !r.ignoreUnreachable) = true then
    if f.onUnreachable = true then some .unreachable else none
  else if r.skipped = true then
    if f.onSkipped = true then some .skipped else none
  else none

/-- The effect of `should_stop_on_exception` on the thread (debug.py:226-238). -/
def afterException (th : Thread) (parents : List Node) (r : Result) (f : Filters) : Thread :=
  match whyException parents r f with
  | none => th
  | some _ => { th with state := .wait }

/-- A host starts tasks one after another, each with the breakpoint that applies to it, until it
stops: the index of the task, the reason and the thread then. Between stops nothing but the client
changes the thread. -/
def runTasks (th : Thread) : List (TaskRef × Option Nat) → Option (Nat × Why × Thread)
  | [] => none
  | (t, bp) :: rest =>
    match whyBreak th t bp with
    | some w => some (0, w, afterBreak th t bp)
    | none => (runTasks (afterBreak th t bp) rest).map fun r => (r.1 + 1, r.2)

end Verif.Strat
