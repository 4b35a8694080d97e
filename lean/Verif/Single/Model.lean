/-!
# One debugger per process

Models the metaclass `Singleton` (/repo/src/ansibug/_singleton.py:7-20), through which the callback plugin
(/repo/src/ansibug/ansible_collections/ansibug/dap/plugins/callback/debug.py:160) and the strategy plugin
(/repo/src/ansibug/ansible_collections/ansibug/dap/plugins/strategy/debug.py:1158) get the debugger. Threads may be
switched between any two of the dictionary operations and anywhere in a constructor. Classes, objects and threads
are numbers. Not modelled: what a constructor does, except that it may raise; in particular no constructor makes
another instance of a singleton (that of `AnsibleDebugger`, _debuggee.py:229-276, does not).
-/

namespace Verif.Single

/-- Where a thread is in `Singleton.__call__` (_singleton.py:12-20). -/
inductive Pc where
  /-- not in a call -/
  | idle
  /-- in the constructor (_singleton.py:18, right hand side) -/
  | build (c : Nat)
  /-- the constructor returned the object, which is not stored yet (_singleton.py:18) -/
  | store (c o : Nat)
  /-- before the final lookup (_singleton.py:20) -/
  | read (c : Nat)
deriving DecidableEq, Repr

/-- The dictionary of instances (_singleton.py:10), the threads, and the number of objects made so far. -/
structure St where
  inst : Nat → Option Nat := fun _ => none
  pc : Nat → Pc := fun _ => .idle
  made : Nat := 0

/-- What a thread does next. -/
inductive Act where
  /-- `C(...)` is called: the test at _singleton.py:17 -/
  | call (t c : Nat)
  /-- the constructor returns -/
  | built (t : Nat)
  /-- the constructor raises -/
  | raised (t : Nat)
  /-- the assignment at _singleton.py:18 -/
  | stored (t : Nat)
  /-- the return at _singleton.py:20 -/
  | ret (t : Nat)
deriving DecidableEq, Repr

/-- What can be seen. -/
inductive Ev where
  /-- the constructor of the class made the object -/
  | made (c o : Nat)
  /-- the call in the thread returned the object -/
  | got (t c o : Nat)
  /-- the call in the thread failed with the exception of the constructor -/
  | failed (t c : Nat)
  /-- the call in the thread failed with a KeyError of the lookup -/
  | keyError (t c : Nat)
deriving DecidableEq, Repr

/-- Thread `t` goes to `p`. -/
def go (s : St) (t : Nat) (p : Pc) : St := { s with pc := fun u => if u = t then p else s.pc u }

/-- `Singleton.__call__` (_singleton.py:12-20), one step of one thread; none: the thread is elsewhere. -/
def step (s : St) : Act → Option (St × List Ev)
  | .call t c => match s.pc t with
    | .idle => some (go s t (if (s.inst c).isNone = true then .build c else .read c), [])
    | _ => none
  | .built t => match s.pc t with
    | .build c => some (go { s with made := s.made + 1 } t (.store c s.made), [.made c s.made])
    | _ => none
  | .raised t => match s.pc t with
    | .build c => some (go s t .idle, [.failed t c])
    | _ => none
  | .stored t => match s.pc t with
    | .store c o => some (go { s with inst := fun d => if d = c then some o else s.inst d } t (.read c), [])
    | _ => none
  | .ret t => match s.pc t with
    | .read c => some (go s t .idle, [match s.inst c with | some o => .got t c o | none => .keyError t c])
    | _ => none

/-- An execution (_singleton.py:12-20): the steps in order, all of them possible, and what was seen. -/
def run : St → List Act → Option (St × List Ev)
  | s, [] => some (s, [])
  | s, a :: as => match step s a with
    | none => none
    | some (s', e) => match run s' as with
      | none => none
      | some (s'', es) => some (s'', e ++ es)

end Verif.Single
