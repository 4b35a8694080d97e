import Verif.Bp.Model
/-!
# Specification vocabulary for breakpoints

Nothing here mentions the debuggee's tables (only the types of actions, messages and
breakpoints): a file is given by the history of the entries
Ansible found in it, as (line, type) pairs in the order found; type 0 is an entry one cannot stop
at (an explicit block), any other type is a task or play.
-/

namespace Verif.Bp
open Verif

/-- The entry known at line `l`: the type last registered there. Line 0 counts as an entry one
cannot stop at. -/
def known (regs : List (Nat × Nat)) (l : Nat) : Option Nat :=
  match (regs.filter fun r => decide (r.1 = l)).getLast? with
  | some r => some r.2
  | none => if l = 0 then some 0 else none

/-- The last line of the file that is known to Ansible. -/
def lastLine (regs : List (Nat × Nat)) : Nat := regs.foldr (fun r m => max r.1 m) 0

/-- `e` is the line of the entry that governs line `l`: the greatest known entry line at or
before `l`. -/
def Governs (regs : List (Nat × Nat)) (l e : Nat) : Prop :=
  known regs e ≠ none ∧ e ≤ l ∧ ∀ i, e < i → i ≤ l → known regs i = none

/-- `z` is the last line of the entry that starts at line `e`: the line before the next known
entry, or the last known line of the file. -/
def EntryEnd (regs : List (Nat × Nat)) (e z : Nat) : Prop :=
  e ≤ z ∧ z ≤ lastLine regs ∧ (∀ i, e < i → i ≤ z → known regs i = none) ∧
    (z = lastLine regs ∨ known regs (z + 1) ≠ none)

/-- Line `req` of the file is shown as the range `e..z`, which is a place to stop iff `v`. -/
def Snapped (regs : List (Nat × Nat)) (req e z : Nat) (v : Bool) : Prop :=
  Governs regs req e ∧ EntryEnd regs e z ∧ (v = true ↔ known regs e ≠ some 0)

/-- What the client sees of a breakpoint it asked for at line `req`: if nothing of the file is
known, an unverified breakpoint at that line; else the range of the governing entry. -/
def Shown (regs : List (Nat × Nat)) (req : Nat) (bp : Bp) : Prop :=
  (regs = [] → bp.verified = false ∧ bp.line = some (req : Int) ∧ bp.endLine = none) ∧
  (regs ≠ [] → ∃ e z : Nat, Snapped regs req e z bp.verified ∧ bp.line = some (e : Int) ∧ bp.endLine = some (z : Int))

/-- The registrations of a file in a history, in order. -/
def regsOf (h : List Act) (p : Str) : List (Nat × Nat) :=
  h.filterMap fun
    | .reg q l t => if q = p then some (l.toNat, t) else none
    | _ => none

/-- No negative line numbers in an action. -/
def Sane : Act → Prop
  | .setBps _ _ _ ls => ∀ l ∈ ls, 0 ≤ l
  | .reg _ l _ => 0 ≤ l
  | _ => True

/-! ## The client -/

/-- What a client holds: per source path, the breakpoints last reported. -/
abbrev View := Dict Str (List Bp)

/-- A client handles a breakpoint event: the breakpoint with that id is replaced. -/
def View.change (v : View) (bp : Bp) : View :=
  v.map fun e => (e.1, e.2.map fun b => if b.id = bp.id then bp else b)

/-- A client handles one message; `sp` is the source of its last setBreakpoints request. -/
def View.recv (sp : Str) (v : View) : Out → View
  | .setBpsResp _ bps => Dict.set v sp bps
  | .bpChanged bp => v.change bp
  | _ => v

/-- The client's view after an action and the messages it led to. A new session starts with
no breakpoints. -/
def View.step (v : View) (a : Act) (o : List Out) : View :=
  match a with
  | .setBps _ src _ _ => o.foldl (View.recv (src.path.getD [])) v
  | .disconnect => []
  | _ => o.foldl (View.recv []) v

/-- The client's view after a history from debuggee state `s`. -/
def View.run : View → Dbg → List Act → View
  | v, _, [] => v
  | v, s, a :: as => View.run (v.step a (Bp.step s a).2) (Bp.step s a).1 as

/-- The ids handed out in a list of messages. -/
def idsGiven (os : List Out) : List Nat :=
  os.flatMap fun
    | .setBpsResp _ bps => bps.map (·.id)
    | _ => []

/-! ## Playbooks -/

/-- The item occurs somewhere in the list of items: directly, or in the block, rescue or
always section of a block, at any depth. -/
inductive Within (i : Item) : List Item → Prop
  | here {is} : i ∈ is → Within i is
  | inBlock {l b r a is} : Item.block l b r a ∈ is → Within i b → Within i is
  | inRescue {l b r a is} : Item.block l b r a ∈ is → Within i r → Within i is
  | inAlways {l b r a is} : Item.block l b r a ∈ is → Within i a → Within i is

/-- `get_path()` of an entry at line `l` of file `p` is the text `p:l`. -/
def pathText (p : Str) (l : Nat) : Str := p ++ 58 :: natDec l

/-- A location is missing, or says where the entry is. -/
def LocOk (loc : Option Str) : Prop := loc = none ∨ loc = some [] ∨ ∃ p l, loc = some (pathText p l)

/-- All locations of a tree of items are well formed. -/
def TreeOk (is : List Item) : Prop :=
  (∀ loc, Within (.task loc) is → LocOk loc) ∧ (∀ loc b r a, Within (.block loc b r a) is → LocOk loc)

/-- There is a task at line `l` of file `p`. -/
def TaskAt (is : List Item) (p : Str) (l : Nat) : Prop := Within (.task (some (pathText p l))) is

/-- There is an explicit block at line `l` of file `p`. -/
def BlockAt (is : List Item) (p : Str) (l : Nat) : Prop := ∃ b r a, Within (.block (some (pathText p l)) b r a) is

end Verif.Bp
