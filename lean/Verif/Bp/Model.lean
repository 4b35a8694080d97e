import Verif.Py.Basic
/-!
# Breakpoints of the debuggee

Models of the breakpoint part of `AnsibleDebugger` (/repo/src/ansibug/_debuggee.py:242-287,
348-375, 506-577, 655-738, 805-867) and of the scanning of playbooks
(/repo/src/ansibug/ansible_collections/ansibug/dap/plugins/plugin_utils/_breakpoints.py:35-169).
-/

namespace Verif.Bp
open Verif

/-! ## Data -/

/-- `dap.Source` (/repo/src/ansibug/dap/_types.py, Source): only the two fields the debuggee
looks at or a client shows; the others are carried along unread. -/
structure Source where
  name : Option Str
  path : Option Str
deriving DecidableEq, Repr

/-- `dap.Breakpoint` (/repo/src/ansibug/dap/_types.py, Breakpoint): the fields the debuggee ever
fills in. -/
structure Bp where
  id : Nat
  verified : Bool
  message : Option Str
  source : Source
  line : Option Int
  endLine : Option Int
deriving DecidableEq, Repr

/-- `AnsibleLineBreakpoint` (_debuggee.py:218-225): `reqLine` is `source_breakpoint.line`, the
line the client asked for. -/
structure LineBp where
  id : Nat
  source : Source
  reqLine : Int
  bp : Bp
  actualPath : Str
  sourcePath : Str
deriving DecidableEq, Repr

/-- The lines of one file: element `i` is `None`, 0 or 1 (_debuggee.py:251-276). -/
abbrev FileLines := List (Option Nat)

/-- The part of `AnsibleDebugger.__init__` about breakpoints (_debuggee.py:236-276).
`mappings` is `_debug_config.path_mappings`, as (local_root, remote_root). -/
structure Dbg where
  exc : Dict Str Bool := []
  bps : Dict Nat LineBp := []
  counter : Nat := 1
  info : Dict Str FileLines := []
  mappings : List (Str × Str) := []
deriving DecidableEq, Repr

/-- Messages queued for the client by the modelled handlers. -/
inductive Out where
  | setBpsResp (seq : Nat) (bps : List Bp)
  | bpChanged (bp : Bp)
  | setExcResp (seq : Nat)
  | initialized
  | error (seq : Nat)
deriving DecidableEq, Repr

/-! ## `_calculate_breakpoint` -/

/-- Python `l[i]`: `none` stands for IndexError. -/
def pyGet {α : Type} (l : List α) (i : Int) : Option α :=
  if 0 ≤ i then l[i.toNat]?
  else if 0 ≤ i + l.length then l[(i + l.length).toNat]?
  else none

/-- Python `l[i] = v`: `none` stands for IndexError. -/
def pySet {α : Type} (l : List α) (i : Int) (v : α) : Option (List α) :=
  if 0 ≤ i then (if i.toNat < l.length then some (l.set i.toNat v) else none)
  else if 0 ≤ i + l.length then some (l.set (i + l.length).toNat v)
  else none

/-- The loop `while line_type is None` (_debuggee.py:833-836), from `start_line = s`. -/
def walkDown (fl : FileLines) (s : Int) : Except PyErr (Int × Nat) :=
  match h : pyGet fl s with
  | none => .error .index
  | some (some t) => .ok (s, t)
  | some none => walkDown fl (s - 1)
termination_by (s + fl.length + 1).toNat
decreasing_by
  have : 0 ≤ s + fl.length := by
    unfold pyGet at h
    split at h
    · omega
    · split at h
      · assumption
      · cases h
  omega

/-- The loop `while end_line < len(file_lines) and file_lines[end_line] is None`
(_debuggee.py:838-839), from `end_line = e`. -/
def walkUp (fl : FileLines) (e : Int) : Int :=
  if _h : e < fl.length ∧ pyGet fl e = some none then walkUp fl (e + 1) else e
termination_by (fl.length - e).toNat
decreasing_by omega

/-- The message of an unverified breakpoint (_debuggee.py:845). -/
def msgCannot : Str := py!"Breakpoint cannot be set here."

/-- `_calculate_breakpoint` (_debuggee.py:822-857). -/
def calculate (id : Nat) (src : Source) (line : Int) (fl : FileLines) : Except PyErr Bp :=
  let start := min line ((fl.length : Int) - 1)
  match walkDown fl start with
  | .error e => .error e
  | .ok (s, t) =>
    let e := min (walkUp fl (start + 1) - 1) (fl.length : Int)
    .ok { id := id
          verified := bif t == 0 then false else true
          message := bif t == 0 then some msgCannot else none
          source := src
          line := some s
          endLine := some e }

/-! ## Registration of lines -/

/-- The update of one list of lines (_debuggee.py:550-552): `extend([None] * (1 + line - len))`
then `file_lines[line] = bp_type`. -/
def regLine (fl : FileLines) (line : Int) (ty : Nat) : Option FileLines :=
  pySet (fl ++ List.replicate (1 + line - fl.length).toNat none) line (some ty)

/-- Do the three compared fields differ (_debuggee.py:566-570)? -/
def differs (a b : Bp) : Bool := a.verified != b.verified || a.line != b.line || a.endLine != b.endLine

/-- The loop over the kept breakpoints (_debuggee.py:554-577): the breakpoints afterwards, the
events queued, and the exception that ended the loop, if any. -/
def refresh (path : Str) (fl : FileLines) : Dict Nat LineBp → Dict Nat LineBp × List Out × Option PyErr
  | [] => ([], [], none)
  | (k, b) :: rest =>
    if b.actualPath ≠ path then
      let (r, o, e) := refresh path fl rest
      ((k, b) :: r, o, e)
    else match calculate b.id b.source b.reqLine fl with
      | .error e => ((k, b) :: rest, [], some e)
      | .ok bp =>
        let (r, o, e) := refresh path fl rest
        bif differs b.bp bp then ((k, { b with bp := bp }) :: r, .bpChanged bp :: o, e)
        else ((k, b) :: r, o, e)

/-- `register_path_breakpoint` (_debuggee.py:530-577). A failing index leaves the extended list
in place, as in Python. -/
def register (path : Str) (line : Int) (ty : Nat) (s : Dbg) : Dbg × List Out × Option PyErr :=
  let fl := (s.info.get? path).getD [some 0]
  match regLine fl line ty with
  | none =>
    ({ s with info := s.info.set path (fl ++ List.replicate (1 + line - fl.length).toNat none) }, [], some .index)
  | some fl' =>
    let r := refresh path fl' s.bps
    ({ s with info := s.info.set path fl', bps := r.1 }, r.2.1, r.2.2)

/-! ## Lookup -/

/-- The condition of `get_breakpoint` (_debuggee.py:368-372). -/
def covers (path : Str) (line : Int) (b : LineBp) : Bool :=
  (b.actualPath == path)
    && (match b.bp.line with | none => true | some l => decide (l ≤ line))
    && (match b.bp.endLine with | none => true | some l => decide (line ≤ l))

/-- `get_breakpoint` (_debuggee.py:348-375). -/
def getBreakpoint (s : Dbg) (path : Str) (line : Int) : Option LineBp :=
  (s.bps.map (·.2)).find? (covers path line)

/-! ## Path mappings -/

/-- `path.startswith(a)` then `b + path[len(a):]`, for the first mapping whose `a` matches
(the loops at _debuggee.py:678-682 and 523-528). -/
def mapPath : List (Str × Str) → Str → Str
  | [], p => p
  | (a, b) :: ms, p => if a.isPrefixOf p = true then b ++ p.drop a.length else mapPath ms p

/-- The client path of a setBreakpoints request to the path known to Ansible
(_debuggee.py:678-682). -/
def toActual (ms : List (Str × Str)) (p : Str) : Str := mapPath ms p

/-- `convert_to_client_path` (_debuggee.py:506-528): the roots are used the other way round. -/
def toClient (ms : List (Str × Str)) (p : Str) : Str := mapPath (ms.map fun m => (m.2, m.1)) p

/-! ## Requests -/

/-- The message for a modified source (_debuggee.py:700). -/
def msgModified : Str := py!"Cannot set breakpoint on a modified source."

/-- The message for a file not loaded yet (_debuggee.py:711). -/
def msgPending : Str := py!"File has not been loaded by Ansible, cannot detect breakpoints yet."

/-- The breakpoint of a modified source (_debuggee.py:697-702). -/
def modifiedBp (id : Nat) (src : Source) : Bp :=
  { id := id, verified := false, message := some msgModified, source := src, line := none, endLine := none }

/-- The breakpoint of a file not loaded yet (_debuggee.py:707-713). -/
def pendingBp (id : Nat) (src : Source) (line : Int) : Bp :=
  { id := id, verified := false, message := some msgPending, source := src, line := some line, endLine := none }

/-- The breakpoint for one entry when the source is unmodified (_debuggee.py:706-721);
`not source_info` is true for None and for an empty list. -/
def freshBp (id : Nat) (src : Source) (line : Int) : Option FileLines → Except PyErr Bp
  | none => .ok (pendingBp id src line)
  | some [] => .ok (pendingBp id src line)
  | some fl => calculate id src line fl

/-- The loop over the requested breakpoints (_debuggee.py:690-731). Returns the breakpoints
kept, the counter, the list for the response and the exception that ended the loop, if any. -/
def addBps (src : Source) (modified : Bool) (actual spath : Str) (si : Option FileLines) :
    List Int → Nat → Dict Nat LineBp → Dict Nat LineBp × Nat × List Bp × Option PyErr
  | [], c, d => (d, c, [], none)
  | l :: ls, c, d =>
    bif modified then
      let r := addBps src modified actual spath si ls (c + 1) d
      (r.1, r.2.1, modifiedBp c src :: r.2.2.1, r.2.2.2)
    else match freshBp c src l si with
      | .error e => (d, c + 1, [], some e)
      | .ok bp =>
        let r := addBps src modified actual spath si ls (c + 1)
          (d.set c { id := c, source := src, reqLine := l, bp := bp, actualPath := actual, sourcePath := spath })
        (r.1, r.2.1, bp :: r.2.2.1, r.2.2.2)

/-- Handling of SetBreakpointsRequest (_debuggee.py:667-738). An exception is answered with an
ErrorResponse by `DAProtocol.on_msg_received` (_debuggee.py:118-136). -/
def setBreakpoints (seq : Nat) (src : Source) (modified : Bool) (lines : List Int) (s : Dbg) : Dbg × List Out :=
  let spath := src.path.getD []
  let actual := toActual s.mappings spath
  let si := s.info.get? actual
  let kept := s.bps.filter fun e => decide (e.2.sourcePath ≠ spath)
  let r := addBps src modified actual spath si lines s.counter kept
  ({ s with bps := r.1, counter := r.2.1 },
    match r.2.2.2 with
    | none => [.setBpsResp seq r.2.2.1]
    | some _ => [.error seq])

/-- Handling of SetExceptionBreakpointsRequest (_debuggee.py:655-665). -/
def setExceptions (seq : Nat) (filters : List Str) (s : Dbg) : Dbg × List Out :=
  ({ s with exc := filters.foldl (fun d f => d.set f true) [] }, [.setExcResp seq])

/-- `should_stop_on_error` / `_unreachable` / `_skipped` (_debuggee.py:278-287), with the filter
name as argument. -/
def shouldStop (s : Dbg) (filter : Str) : Bool := (s.exc.get? filter).getD false

/-- The DebugConfiguration event (_debuggee.py:805-820). -/
def configure (ms : List (Str × Str)) (s : Dbg) : Dbg × List Out := ({ s with mappings := ms }, [.initialized])

/-- The part of `_disconnect` (_debuggee.py:863-864) and of `shutdown` (_debuggee.py:471-472) about
breakpoints. -/
def forget (s : Dbg) : Dbg := { s with mappings := [], bps := [] }

/-! ## Histories -/

/-- The actions that touch the modelled state; each is executed by one thread without
interleaving (for interleavings see `Verif.Bp.Race`). -/
inductive Act where
  | setBps (seq : Nat) (src : Source) (modified : Bool) (lines : List Int)
  | setExc (seq : Nat) (filters : List Str)
  | config (ms : List (Str × Str))
  | disconnect
  | reg (path : Str) (line : Int) (ty : Nat)
deriving DecidableEq, Repr

/-- One action (_debuggee.py:530-577, 655-738, 805-867). -/
def step (s : Dbg) : Act → Dbg × List Out
  | .setBps seq src m ls => setBreakpoints seq src m ls s
  | .setExc seq fs => setExceptions seq fs s
  | .config ms => configure ms s
  | .disconnect => (forget s, [])
  | .reg p l t => ((register p l t s).1, (register p l t s).2.1)

/-- A history of actions from a state: the final state and everything sent, in order. -/
def run : Dbg → List Act → Dbg × List Out
  | s, [] => (s, [])
  | s, a :: as =>
    let r := run (step s a).1 as
    (r.1, (step s a).2 ++ r.2)

/-! ## Scanning playbooks -/

/-- Python `text.rsplit(":", 1)`: the parts before and after the last colon, if any. -/
def rsplitColon (s : Str) : Option (Str × Str) :=
  match s.reverse.dropWhile (fun c => c != 58) with
  | [] => none
  | _ :: b => some (b.reverse, (s.reverse.takeWhile (fun c => c != 58)).reverse)

/-- `_split_task_path` (_breakpoints.py:35-37). -/
def splitTaskPath (s : Str) : Except PyErr (Str × Int) :=
  match rsplitColon s with
  | none => .error .index
  | some (p, l) => match pyInt l with
    | none => .error .value
    | some n => .ok (p, n)

/-- Items of a block list: a task, with the text of `get_path()` (None or empty: no location),
or a nested `Block` with its block/rescue/always lists (ansible.playbook.block.Block). -/
inductive Item where
  | task (loc : Option Str)
  | block (loc : Option Str) (block rescue always : List Item)

/-- Is a `get_path()` result truthy? -/
def truthy : Option Str → Option Str
  | none => none
  | some [] => none
  | some s => some s

/-- One location with its type (_breakpoints.py:121-123, 138-142): the registration it leads to. -/
def locReg (loc : Option Str) (ty : Nat) : Except PyErr (List (Str × Int × Nat)) :=
  match truthy loc with
  | none => .ok []
  | some s => match splitTaskPath s with
    | .error e => .error e
    | .ok (p, l) => .ok [(p, l, ty)]

/-- Python `+` of the results of two pieces of code that register and may raise. -/
def seqRegs (a b : Except PyErr (List (Str × Int × Nat))) : Except PyErr (List (Str × Int × Nat)) :=
  match a with
  | .error e => .error e
  | .ok xs => match b with
    | .error e => .error e
    | .ok ys => .ok (xs ++ ys)

mutual
/-- The body of the loops of `register_block_breakpoints` for one item (_breakpoints.py:116-142):
the registrations in order. -/
def itemRegs : Item → Except PyErr (List (Str × Int × Nat))
  | .task loc => locReg loc 1
  | .block loc b r a => seqRegs (locReg loc 0) (seqRegs (itemsRegs b) (seqRegs (itemsRegs r) (itemsRegs a)))
/-- The loop over `block.block + block.rescue + block.always` (_breakpoints.py:125-142). -/
def itemsRegs : List Item → Except PyErr (List (Str × Int × Nat))
  | [] => .ok []
  | i :: is => seqRegs (itemRegs i) (itemsRegs is)
end

/-- `register_block_breakpoints` (_breakpoints.py:101-142): `blocks` are Blocks. -/
def blockRegs (blocks : List Item) : Except PyErr (List (Str × Int × Nat)) := itemsRegs blocks

/-- A play (_breakpoints.py:160-169): its location, `compile() + handlers`, and the handler
blocks of each of its roles. -/
structure Play where
  loc : Str
  compiled : List Item
  handlers : List Item
  roleHandlers : List (List Item)

/-- `register_play_breakpoints` (_breakpoints.py:145-169). -/
def playRegs : List Play → Except PyErr (List (Str × Int × Nat))
  | [] => .ok []
  | p :: ps =>
    seqRegs (match splitTaskPath p.loc with | .error e => .error e | .ok (f, l) => .ok [(f, l, 1)])
      (seqRegs (blockRegs (p.compiled ++ p.handlers ++ p.roleHandlers.flatten)) (playRegs ps))

/-- Apply registrations in order (the calls of `register_path_breakpoint`). -/
def applyRegs : List (Str × Int × Nat) → Dbg → Dbg
  | [], s => s
  | (p, l, t) :: rs, s => applyRegs rs (register p l t s).1

end Verif.Bp
