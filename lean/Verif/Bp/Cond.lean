import Verif.Bp.Model
/-!
# Breakpoints with their conditions

`Verif.Bp.Model` keeps of a requested breakpoint (`dap.SourceBreakpoint`) the line only. Here the same functions of
/repo/src/ansibug/_debuggee.py keep the condition as well; `eraseRun` (Verif.Bp.CondLemmas) shows that without the conditions they are
the functions of `Verif.Bp.Model`. The column, hit condition and log message of a SourceBreakpoint are never read by
the code and are left out.
-/

namespace Verif.Bp.Cond
open Verif Verif.Bp

/-- `dap.SourceBreakpoint` (/repo/src/ansibug/dap/_types.py:388-417): what the code reads of it. -/
structure SrcBp where
  line : Int
  condition : Option Str
deriving DecidableEq, Repr

/-- `AnsibleLineBreakpoint` (_debuggee.py:218-225) with the condition of its `source_breakpoint`. -/
abbrev Kept := LineBp × Option Str

/-- `AnsibleDebugger.__init__` (_debuggee.py:236-276), as `Bp.Dbg`. -/
structure St where
  exc : Dict Str Bool := []
  bps : Dict Nat Kept := []
  counter : Nat := 1
  info : Dict Str FileLines := []
  mappings : List (Str × Str) := []
deriving DecidableEq, Repr

/-- The loop over the kept breakpoints (_debuggee.py:554-577): `breakpoint.breakpoint` is replaced, `source_breakpoint` stays. -/
def refresh (path : Str) (fl : FileLines) : Dict Nat Kept → Dict Nat Kept × List Out × Option PyErr
  | [] => ([], [], none)
  | (k, b, c) :: rest =>
    if b.actualPath ≠ path then
      let (r, o, e) := refresh path fl rest
      ((k, b, c) :: r, o, e)
    else match calculate b.id b.source b.reqLine fl with
      | .error e => ((k, b, c) :: rest, [], some e)
      | .ok bp =>
        let (r, o, e) := refresh path fl rest
        bif differs b.bp bp then ((k, { b with bp := bp }, c) :: r, .bpChanged bp :: o, e)
        else ((k, b, c) :: r, o, e)

/-- `register_path_breakpoint` (_debuggee.py:530-577). -/
def register (path : Str) (line : Int) (ty : Nat) (s : St) : St × List Out × Option PyErr :=
  let fl := (s.info.get? path).getD [some 0]
  match regLine fl line ty with
  | none =>
    ({ s with info := s.info.set path (fl ++ List.replicate (1 + line - fl.length).toNat none) }, [], some .index)
  | some fl' =>
    let r := refresh path fl' s.bps
    ({ s with info := s.info.set path fl', bps := r.1 }, r.2.1, r.2.2)

/-- The loop over the requested breakpoints (_debuggee.py:690-731): `source_breakpoint=source_breakpoint`. -/
def addBps (src : Source) (modified : Bool) (actual spath : Str) (si : Option FileLines) :
    List SrcBp → Nat → Dict Nat Kept → Dict Nat Kept × Nat × List Bp × Option PyErr
  | [], c, d => (d, c, [], none)
  | l :: ls, c, d =>
    bif modified then
      let r := addBps src modified actual spath si ls (c + 1) d
      (r.1, r.2.1, modifiedBp c src :: r.2.2.1, r.2.2.2)
    else match freshBp c src l.line si with
      | .error e => (d, c + 1, [], some e)
      | .ok bp =>
        let r := addBps src modified actual spath si ls (c + 1)
          (d.set c ({ id := c, source := src, reqLine := l.line, bp := bp, actualPath := actual, sourcePath := spath }, l.condition))
        (r.1, r.2.1, bp :: r.2.2.1, r.2.2.2)

/-- Handling of SetBreakpointsRequest (_debuggee.py:667-738). -/
def setBreakpoints (seq : Nat) (src : Source) (modified : Bool) (bps : List SrcBp) (s : St) : St × List Out :=
  let spath := src.path.getD []
  let actual := toActual s.mappings spath
  let si := s.info.get? actual
  let kept := s.bps.filter fun e => decide (e.2.1.sourcePath ≠ spath)
  let r := addBps src modified actual spath si bps s.counter kept
  ({ s with bps := r.1, counter := r.2.1 },
    match r.2.2.2 with
    | none => [.setBpsResp seq r.2.2.1]
    | some _ => [.error seq])

/-- The actions, as `Bp.Act`. -/
inductive Act where
  | setBps (seq : Nat) (src : Source) (modified : Bool) (bps : List SrcBp)
  | setExc (seq : Nat) (filters : List Str)
  | config (ms : List (Str × Str))
  | disconnect
  | reg (path : Str) (line : Int) (ty : Nat)
deriving DecidableEq, Repr

/-- One action (_debuggee.py:530-577, 655-738, 805-867). -/
def step (s : St) : Act → St × List Out
  | .setBps seq src m ls => setBreakpoints seq src m ls s
  | .setExc seq fs => ({ s with exc := fs.foldl (fun d f => d.set f true) [] }, [.setExcResp seq])
  | .config ms => ({ s with mappings := ms }, [.initialized])
  | .disconnect => ({ s with mappings := [], bps := [] }, [])
  | .reg p l t => ((register p l t s).1, (register p l t s).2.1)

/-- A history of actions from a state: the final state and everything sent, in order. -/
def run : St → List Act → St × List Out
  | s, [] => (s, [])
  | s, a :: as =>
    let r := run (step s a).1 as
    (r.1, (step s a).2 ++ r.2)

/-- `eval_condition` (/repo/src/ansibug/ansible_collections/ansibug/dap/plugins/strategy/debug.py:563-582) of a breakpoint that has a non-empty condition; `eval` is Ansible's
evaluation of a text as condition with the task's variables, `none` if it raises the errors caught there. -/
def holds (eval : Str → Option Bool) : Option Str → Bool
  | none => true
  | some [] => true
  | some t => (eval t).getD false

/-- `get_breakpoint` (_debuggee.py:348-375), and its condition (debug.py:587-593): the breakpoint that counts at a task. -/
def breakpointFor (s : St) (path : Str) (line : Int) (eval : Str → Option Bool) : Option LineBp :=
  match (s.bps.map (·.2)).find? (fun b => covers path line b.1) with
  | none => none
  | some (b, c) => if holds eval c = true then some b else none

end Verif.Bp.Cond
