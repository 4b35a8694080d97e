import Verif.Debuggee.Inv
import Verif.Debuggee.Spec
/-!
# The next playbook of the same process, and a playbook thread that has gone

`ansible-playbook a.yml b.yml` runs the playbooks one after the other in one process; Ansible calls `v2_playbook_on_start`
and `v2_playbook_on_stats` for each, and the debugger is the same object (/repo/src/ansibug/_singleton.py:9-20).

If the run is interrupted (KeyboardInterrupt) or Ansible itself raises, `v2_playbook_on_stats` is not called, so neither is
`AnsibleDebugger.shutdown` (callback/debug.py:204-209); the interpreter then waits for the threads that are not daemons,
which are those of the debugger (_debuggee.py:433-438, _mp_queue.py:87-91).
-/

namespace Verif.Debuggee
open Verif

/-- The debugger at the start of the next playbook: `_send_thread` is `None` again (_debuggee.py:467), the receive thread has
ended, and everything else that `__init__` made (_debuggee.py:229-240) is as the first playbook has left it. -/
def again (s : St) : St := { s with p := .pre, s := .off, r := .off }

/-- The process can end: no thread of the debugger is running. -/
def Gone (s : St) : Prop := (s.s = .off ∨ s.s = .ended) ∧ (s.r = .off ∨ s.r = .ended)

/-- The send thread is there and has not left its loop. -/
theorem looping_ne {s : S} (h : looping s = true) : s ≠ .off ∧ s ≠ .ended := by
  cases s <;> simp [looping] at h ⊢

end Verif.Debuggee
