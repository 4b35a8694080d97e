import Verif.Race.Model
/-!
# Specification vocabulary for requests at any time
-/

namespace Verif.Race

/-- An execution with what the client sees of it. -/
def run (fine : Bool) : S → List Lbl → Option (S × List Obs)
  | s, [] => some (s, [])
  | s, l :: ls =>
    match step fine s l with
    | none => none
    | some (s', o) =>
      match run fine s' ls with
      | none => none
      | some (s'', o') => some (s'', o ++ o')

/-- A state of some execution of a play. -/
def Reachable (fine : Bool) (s : S) : Prop := ∃ ls O, run fine {} ls = some (s, O)

/-- Whether an exception filter is set, by the setExceptionBreakpoints requests of a history: the last one decides. -/
def filterSet : Bool → List Lbl → Bool
  | b, [] => b
  | _, .req (.setExceptions on) :: ls => filterSet on ls
  | b, _ :: ls => filterSet b ls

/-- Not the arrival of a request. -/
def quiet : Lbl → Bool
  | .req _ => false
  | _ => true

/-- The playbook is stopped for a thread: it sleeps and nobody has woken it. -/
def StoppedAt (s : S) (t : Nat) : Prop := ∃ k, s.p = .asleep t k false

/-- Does the request resume the thread? -/
def resumes (s : S) (t : Nat) : Req → Prop
  | .one t' _ => t' = t
  | .continueAll => t ∈ s.threads
  | .disconnect _ => t ∈ s.threads
  | _ => False

/-- The answer the request gets when nothing else happens, from the state as it is. -/
def expected (s : S) : Req → Ans
  | .one t _ => if t ∈ s.threads then .ok [] else .error .key
  | .continueAll => .ok []
  | .disconnect _ => .ok []
  | .scopes f =>
    if f ∈ s.live then .ok ((if s.result f = 0 then [] else [s.result f]) ++ List.range' s.nextV 4) else .error .key
  | .variables v n =>
    match s.vars v with
    | none => .error .key
    | some _ => .ok (List.range' s.nextV n)
  | .stackTrace t => if t ∈ s.threads then .ok (s.stack t) else .error .key
  | .threads => .ok s.threads
  | .setBreakpoints _ _ => .ok []
  | .setExceptions _ => .ok []

/-- A setBreakpoints request is being handled. -/
def settingBps : R → Bool
  | .bpClear _ _ => true
  | .bpAdd _ => true
  | _ => false

/-- The playbook is looking through the breakpoints: before it stops at a task, when an included file or a role is scanned. -/
def looking : P → Bool
  | .bpsIter _ _ => true
  | .roleIter _ _ => true
  | .regIter _ => true
  | _ => false

/-- No breakpoint is set while the playbook is looking through them. -/
def Calm (fine : Bool) : S → List Lbl → Prop
  | s, [] => settingBps s.r = true → looking s.p = false
  | s, l :: ls => (settingBps s.r = true → looking s.p = false) ∧ ∀ s' o, step fine s l = some (s', o) → Calm fine s' ls

/-- The answers among the messages for the client. -/
def answers : List Obs → List Ans
  | [] => []
  | .answer a :: O => a :: answers O
  | _ :: O => answers O

/-- The stopped events among them. -/
def stops : List Obs → List Nat
  | [] => []
  | .stopped t :: O => t :: stops O
  | _ :: O => stops O

/-- Between two states a thread has exited: one that was there, or one that was started since. -/
def threadExited (s s' : S) : Prop := ∃ t, (t ∈ s.threads ∨ s.nextT ≤ t) ∧ t < s'.nextT ∧ t ∉ s'.threads

/-- Between two states a frame has been removed: one that was there, or one that was made since. -/
def frameRemoved (s s' : S) : Prop := ∃ f, (f ∈ s.live ∨ s.nextF ≤ f) ∧ f < s'.nextF ∧ f ∉ s'.live

/-- A reason for a request to fail: what it asks for was not there when it came (`s`), or the playbook has removed it by now (`s'`); for the requests that go
through the threads or frames, that one of them has come or gone meanwhile. -/
def reason (s s' : S) : Req → Prop
  | .one t _ => t ∉ s.threads ∨ t ∉ s'.threads
  | .continueAll => s.nextT < s'.nextT ∨ threadExited s s'
  | .threads => s.nextT < s'.nextT ∨ threadExited s s'
  | .disconnect _ => threadExited s s'
  | .scopes f => f ∉ s.live ∨ f ∉ s'.live
  | .variables v _ => s.vars v = none ∨ ∃ f, s.vars v = some f ∧ f ∉ s'.live
  | .stackTrace t => t ∉ s.threads ∨ t ∉ s'.threads ∨ frameRemoved s s'
  | .setBreakpoints _ _ => False
  | .setExceptions _ => False

/-- The exceptions a request can fail with. -/
def failsWith : Req → List Err
  | .continueAll => [.runtime, .key]
  | .threads => [.runtime]
  | .setBreakpoints _ _ => []
  | .setExceptions _ => []
  | _ => [.key]

end Verif.Race
