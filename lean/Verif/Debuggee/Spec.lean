import Verif.Debuggee.Model

/-! Vocabulary of the properties C57-C60, C67, C68: read off a list of observations. -/

namespace Verif.Debuggee
open Verif

/-- The messages and end marks put on the send queue, in order. -/
def puts (os : List Obs) : List (Option Out) := os.filterMap fun | .put x => some x | _ => none

/-- The messages sent to the adapter, in order. -/
def wires (os : List Obs) : List Out := os.filterMap fun | .wire m => some m | _ => none

/-- The messages before the first end mark. -/
def beforeEnd : List (Option Out) → List Out
  | some m :: l => m :: beforeEnd l
  | _ => []

/-- The messages received from the adapter, in order. -/
def reqs (os : List Obs) : List Req := os.filterMap fun | .received r => some r | _ => none

/-- The requests the debuggee has to answer: all but disconnect, which the adapter answers itself; the
debug configuration is no request. -/
def answerable (r : Req) : Bool := match r.kind with
  | .disconnect | .debugConfig | .otherOutput => false
  | _ => true

/-- The responses queued, in order: command and request_seq. -/
def answers (os : List Obs) : List Req := os.filterMap fun | .put (some (.resp k n _)) => some ⟨k, n⟩ | _ => none

/-- The client's configurationDone was received, and after that answered. -/
def ConfigAnswered (os : List Obs) : Prop :=
  ∃ n, [Obs.received ⟨.configurationDone, n⟩, Obs.put (some (.resp .configurationDone n true))].Sublist os

end Verif.Debuggee
