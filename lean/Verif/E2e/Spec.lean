import Verif.E2e.Model
import Verif.Conn.Spec
import Verif.Dap.Spec
/-!
# Specification vocabulary for a session from end to end

The specification is a debuggee that works on messages directly: nothing here knows about bytes, sockets, queues or sequence numbers of the adapter.
-/

namespace Verif.E2e
open Verif Verif.Strat
open Verif.Dap (Cls)

/-- One operation of the debuggee: the debug state afterwards and the messages it has for the client. -/
def doOp (d : DS) : Op → Option (DS × List Dap.Val)
  | .config e maps => Wire.play e d (.req (.config maps))
  | .handle e m => some (Wire.handle e d m)
  | .play e l => Wire.play e d l

/-- A sequence of operations and all the messages for the client. -/
def direct : DS → List Op → Option (DS × List Dap.Val)
  | d, [] => some (d, [])
  | d, o :: os =>
    match doOp d o with
    | none => none
    | some (d', ms) =>
      match direct d' os with
      | none => none
      | some (d'', ms') => some (d'', ms ++ ms')

/-- The operations among the observations. -/
def ops : List Obs → List Op
  | [] => []
  | .op o :: r => o :: ops r
  | .read _ :: r => ops r

/-- What the client read. -/
def readBy : List Obs → Bytes
  | [] => []
  | .read b :: r => b ++ readBy r
  | .op _ :: r => readBy r

/-- What came from the adapter, in the order in which it was handled. -/
def arrived : List Op → List Pkt
  | [] => []
  | .config _ maps :: r => .config maps :: arrived r
  | .handle _ m :: r => .msg m :: arrived r
  | .play _ _ :: r => arrived r

/-- These packets handled one after the other. -/
def asOps (e : Wire.Env) : List Pkt → List Op
  | [] => []
  | .config maps :: r => .config e maps :: asOps e r
  | .msg m :: r => .handle e m :: asOps e r

/-- The requests handled. -/
def handled : List Op → List Dap.Val
  | [] => []
  | .handle _ m :: r => m :: handled r
  | _ :: r => handled r

/-- The payloads the client wrote. -/
def payloads : List Lbl → List Bytes
  | [] => []
  | .client p :: r => p :: payloads r
  | _ :: r => payloads r

/-- The payloads are documents that mean these requests, numbered from `n` on. -/
inductive Says (feq : Str → Nat → Bool) : Nat → List Bytes → List Dap.Val → Prop
  | nil (n) : Says feq n [] []
  | cons {n p m ps ms c} (hd : Conn.decodeMsg p = .ok m) (hs : Conn.seqIs feq m n = true)
      (hc : c.base = some Cls.Request) (hi : Dap.Instance c m) (h : Says feq (n + 1) ps ms) : Says feq n (p :: ps) (m :: ms)

/-- Is it a request after which the debuggee sends nothing more? -/
def isEnd : Dap.Val → Bool
  | .obj .DisconnectRequest _ => true
  | .obj .TerminateRequest _ => true
  | _ => false

/-- Is it a response? -/
def isResponse : Dap.Val → Bool
  | .obj c _ => c.base == some Cls.Response
  | _ => false

end Verif.E2e
