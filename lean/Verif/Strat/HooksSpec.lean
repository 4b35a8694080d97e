import Verif.Strat.Hooks
import Verif.Strat.Spec
/-!
# Vocabulary of the properties of the hooks
-/

namespace Verif.Strat.Hooks
open Verif Verif.Strat

/-- The event is the beginning of some task. -/
def IsBegan : Ev → Prop
  | .began _ _ => True
  | _ => False

/-- The event is a hand-over of some task to Ansible. -/
def IsExecuted : Ev → Prop
  | .executed _ _ => True
  | _ => False

/-- The event is a message that announces no stop, start or exit of a thread. -/
def IsQuiet : Ev → Prop
  | .msg o => Quiet o
  | _ => False

/-- The run was left. -/
def IsEnd : Ev → Prop
  | .returned _ => True
  | .raised _ => True
  | _ => False

/-- What Ansible handed back for a label: the results of `_process_pending_results`, in order, and
the empty result of a meta task other than refresh_inventory. -/
def handedL : Lbl → List (Nat × Task)
  | .pendingResults rs => rs.map fun r => (r.host, r.task)
  | .executeMeta h t _ _ _ refresh _ => if refresh = true then [] else [(h, t)]
  | _ => []

/-- What Ansible handed back in a history. -/
def handed (ls : List Lbl) : List (Nat × Task) := ls.flatMap handedL

/-- The results that were given to the debugger. -/
def endedOf (es : List Ev) : List (Nat × Task) := es.filterMap fun e => match e with | .ended h t => some (h, t) | _ => none

/-- What Ansible's linear strategy promises; the list holds the tasks that are queued and whose
results did not come yet. A host gets a task only when it has none queued; every task stands in a
block; results are those of queued tasks, one for each; the inventory is refreshed when nothing is
queued. -/
inductive Orderly : List (Nat × Task) → List Lbl → Prop where
  | nil {F} : Orderly F []
  | queue {F h t tv ar c ls} : (∀ t', (h, t') ∉ F) → t.parents ≠ [] → Orderly ((h, t) :: F) ls → Orderly F (.queueTask h t tv ar c :: ls)
  | exec {F h t tv ar c r a ls} : (∀ t', (h, t') ∉ F) → t.parents ≠ [] → (r = true → F = []) → Orderly F ls →
      Orderly F (.executeMeta h t tv ar c r a :: ls)
  | results {F rs ls} : (rs.map (·.host)).Nodup → (∀ r ∈ rs, (r.host, r.task) ∈ F) →
      Orderly (F.filter fun e => decide (∀ r ∈ rs, r.host ≠ e.1)) ls → Orderly F (.pendingResults rs :: ls)
  | other {F l ls} : (∀ h t tv ar c, l ≠ .queueTask h t tv ar c) → (∀ h t tv ar c r a, l ≠ .executeMeta h t tv ar c r a) →
      (∀ rs, l ≠ .pendingResults rs) → Orderly F ls → Orderly F (l :: ls)

/-- The host and the task, if a label has a task begin. -/
def beginsL : Lbl → Option (Nat × Task)
  | .queueTask h t _ _ _ => some (h, t)
  | .executeMeta h t _ _ _ _ _ => some (h, t)
  | _ => none

/-- Once an include_role began on a host, the tasks that begin on it stand in a role, or in a block
at the top of the play (or in no block). -/
def RolesOnly (ls : List Lbl) : Prop :=
  ∀ a l b h inc, ls = a ++ l :: b → beginsL l = some (h, inc) → inc.node.isRole = true →
    ∀ l' ∈ b, ∀ t, beginsL l' = some (h, t) → t.inRole = true ∨ t.parents.length ≤ 1

/-- No line number in the step is negative: neither that of a loaded task or block nor one the client
asks for. -/
def LinesFine : Lbl → Prop
  | .loaded _ l _ => 0 ≤ l
  | .req (.setBps _ _ _ lines) => ∀ l ∈ lines, 0 ≤ l
  | _ => True

end Verif.Strat.Hooks
