import Verif.Transport.Model
/-!
# Specification vocabulary for the debuggee socket
-/

namespace Verif.Transport
open Verif

/-- The bytes of the stream that arrive before it ends, is reset or is cancelled. -/
def arriving : List Ev → Bytes
  | .data b bs :: es => b :: bs ++ arriving es
  | _ => []

/-- Why no more bytes arrive: `none` if the peer closed, otherwise the exception. -/
def ending : List Ev → Option PyErr
  | .data _ _ :: es => ending es
  | .cancel :: _ => some .cancelled
  | .reset :: _ => some .os
  | [] => none

/-- Everything sent by sending these messages one after the other. -/
def sendAll {M : Type} (cd : Codec M) : List M → Except PyErr Bytes
  | [] => .ok []
  | m :: ms => match send cd m with
    | .error e => .error e
    | .ok b => match sendAll cd ms with
      | .error e => .error e
      | .ok bs => .ok (b ++ bs)

/-- A step in the life of a token: some thread starts an operation, an operation that had
started (known by its id) ends, or some thread cancels. -/
inductive TokOp (A : Type) where
  | enter (a : A)
  | leave (id : Nat)
  | cancel

/-- What a step showed to its caller. -/
inductive TokOut (A : Type) where
  | entered (id : Nat)
  | refused
  | left
  | ran (actions : List A) (raised : Bool)

/-- One step. -/
def tokStep {A : Type} (fails : A → Bool) (t : Token A) : TokOp A → TokOut A × Token A
  | .enter a => match t.enter a with
    | (.ok id, t') => (.entered id, t')
    | (.error _, t') => (.refused, t')
  | .leave id => (.left, t.leave id)
  | .cancel => let r := t.cancel fails; (.ran r.1 r.2.1, r.2.2)

/-- A whole history. -/
def tokRun {A : Type} (fails : A → Bool) : Token A → List (TokOp A) → List (TokOut A) × Token A
  | t, [] => ([], t)
  | t, op :: ops =>
    let r := tokStep fails t op
    let rest := tokRun fails r.2 ops
    (r.1 :: rest.1, rest.2)

/-- The operations pending after a history without cancel, as (id, action) in the order in
which they started: ids are 0, 1, 2, ... in order of entering. This is the specification: it
does not know about the token. -/
def pending {A : Type} : Nat → List (Nat × A) → List (TokOp A) → List (Nat × A)
  | _, p, [] => p
  | n, p, .enter a :: ops => pending (n + 1) (p ++ [(n, a)]) ops
  | n, p, .leave id :: ops => pending n (p.filter (fun e => decide (e.1 ≠ id))) ops
  | n, p, .cancel :: ops => pending n p ops

/-- Is there a cancel in the history? -/
def hasCancel {A : Type} : List (TokOp A) → Bool
  | [] => false
  | .cancel :: _ => true
  | _ :: ops => hasCancel ops

end Verif.Transport
