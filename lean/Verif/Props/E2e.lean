import Verif.E2e.Progress
import Verif.E2e.Demo
import Verif.Props.WireStops
import Verif.Props.Conn
/-!
# A session from end to end (C91, C92)

The client, the adapter and the debuggee with the bytes between them (`E2e.Model`), compared with a debuggee that would be given the client's
requests directly (`E2e.Spec.direct`).
-/

namespace Verif.Props.E2e
open Verif Verif.Strat Verif.E2e
open Verif.Dap (Cls Instance)
open Verif.Transport (Codec)
open Verif.Props.Wire (IsAnswer)

variable {cd : Codec Pkt} {feq : Str → Nat → Bool} {n k : Nat} {d0 : DS} {maps : List (Str × Str)} {b : Bytes}

/-- The invariant after a run from the beginning. -/
theorem inv_of (hb : Transport.send cd (.config maps) = .ok b) {ls : List Lbl} {s : Sys} {O : List Obs}
    (hr : run cd feq (start n k d0 b) ls = some (s, O)) {ms : List Dap.Val} (hs : Says feq n (payloads ls) ms) :
    Inv cd feq n k d0 maps ms s O := by
  have := inv_run (inv_start cd feq n k d0 maps b hb) hr (ms := ms) (by simpa using hs)
  simpa using this

/-- C91: take any execution in which the client has written the documents of the requests `ms`, numbered from `n` on: bytes
may be read in any pieces, and the threads of the adapter, of the debuggee, and the playbook may take turns in any way. Then
the debuggee has done exactly what it would do if the path mappings and the first of the requests were given to it directly,
in the order in which the client wrote them (`arrived` are those it has handled); and all that was written to the client so far are the
frames of the first of its messages, in order, numbered from `k` on without gap. -/
theorem C91_session (hb : Transport.send cd (.config maps) = .ok b) (ls : List Lbl) (s : Sys) (O : List Obs)
    (hr : run cd feq (start n k d0 b) ls = some (s, O)) (ms : List Dap.Val) (hs : Says feq n (payloads ls) ms) :
    ∃ outs shown, direct d0 (ops O) = some (s.deb, outs) ∧ arrived (ops O) <+: .config maps :: ms.map .msg ∧
      shown <+: outs ∧ Conn.Frames k shown (readBy O ++ s.stdout) := by
  obtain ⟨done, pend, pp, dpend, outs, so, rest, relayed, upp, w⟩ := inv_of hb hr hs
  refine ⟨outs, relayed, w.dir, ?_, ?_, ?_⟩
  · refine ⟨dpend ++ pend.map .msg, ?_⟩
    rw [← List.append_assoc, w.arr, w.split]; simp
  · exact ⟨upp ++ rest, by rw [w.out, w.rel]; simp⟩
  · rw [w.read]
    exact Conn.frames_spec _ _ fun m hm j => Dap.toJson_floats _ (Dap.noFlt_setSeq _ _ (w.flt m (by rw [w.out, w.rel]; simp [hm])))

theorem instance_cls {c : Cls} {v : Dap.Val} (h : Instance c v) : ∃ attrs, v = .obj c attrs := by
  obtain ⟨val, rfl, _⟩ := Verif.Props.Wire.inst_val h
  exact ⟨_, rfl⟩

/-- Classes of what the debuggee sends. -/
theorem sent_cls : ∀ c ∈ Dap.allCls, c.base = some Cls.Response ∨ c.base = some Cls.Event →
    c.kind? ≠ none ∧ c ≠ .StepInRequest ∧ c ≠ .AttachRequest ∧ c ≠ .LaunchRequest := by decide +kernel

theorem config_out {e : Wire.Env} {d d' : DS} {mp : List (Str × Str)} {ms : List Dap.Val} (h : Wire.play e d (.req (.config mp)) = some (d', ms)) :
    ms = [Wire.build .InitializedEvent []] := by
  have : Wire.play e d (.req (.config mp)) = some ((Strat.request d (.config mp)).1, [Wire.build .InitializedEvent []]) := rfl
  rw [this] at h
  exact (congrArg Prod.snd (Option.some.inj h)).symm

/-- Every message of the debuggee is a response or an event. -/
theorem direct_typed {os : List Op} {d d' : DS} {outs : List Dap.Val} (h : direct d os = some (d', outs))
    (hp : ∀ e l, .play e l ∈ os → isReq l = false) (hm : ∀ m ∈ handled os, ∃ c, c.base = some Cls.Request ∧ Instance c m) :
    ∀ a ∈ outs, ∃ c, Instance c a ∧ (c.base = some Cls.Response ∨ c.base = some Cls.Event) := by
  induction os generalizing d outs with
  | nil => cases h; intro a ha; cases ha
  | cons o os ih =>
    simp only [direct] at h
    split at h
    · cases h
    · rename_i d1 m1 h1
      split at h
      · cases h
      · rename_i d2 m2 h2
        cases h
        intro a ha
        rcases List.mem_append.1 ha with ha | ha
        · cases o with
          | config e mp =>
            rw [config_out h1, List.mem_singleton] at ha
            rw [ha]
            exact ⟨_, Wire.initialized_typed, .inr rfl⟩
          | handle e m =>
            simp only [doOp] at h1
            obtain ⟨c, hc, hi⟩ := hm m (by simp [handled])
            have e2 : m1 = (Wire.handle e d m).2 := (congrArg Prod.snd (Option.some.inj h1)).symm
            subst e2
            by_cases hd : c = .DisconnectRequest
            · subst hd
              rw [Verif.Props.Wire.C85_disconnect_silent e d m hi] at ha; cases ha
            · obtain ⟨x, dc, h3, h4⟩ := Verif.Props.Wire.C85_answered_partial e d c hc hd m hi
              rw [h3, List.mem_singleton] at ha
              rw [ha]
              exact ⟨dc, h4.inst, .inl h4.response⟩
          | play e l =>
            have hl := hp e l (by simp)
            obtain ⟨c, hc, hi, _⟩ := Verif.Props.WireStops.C86_events (by cases l <;> simp_all [isReq, Verif.Props.WireStops.IsReq]) h1 a ha
            refine ⟨c, hi, .inr ?_⟩
            revert hc
            simp only [List.mem_cons, List.not_mem_nil, or_false]
            rintro (rfl | rfl | rfl) <;> rfl
        · exact ih h2 (fun e l hx => hp e l (List.mem_cons_of_mem _ hx)) (fun m hx => hm m (by cases o <;> simp [handled, hx])) a ha

/-- A playbook step is not a request. -/
theorem run_plays {ls : List Lbl} {s s' : Sys} {O : List Obs} (hr : run cd feq s ls = some (s', O)) : ∀ e l, .play e l ∈ ops O → isReq l = false := by
  induction ls generalizing s O with
  | nil => cases hr; intro e l h; cases h
  | cons a ls ih =>
    simp only [run] at hr
    split at hr
    · cases hr
    · rename_i s1 o1 h1
      split at hr
      · cases hr
      · rename_i s2 o2 h2
        cases hr
        intro e l h
        rw [ops_append] at h
        rcases List.mem_append.1 h with h | h
        · cases a with
          | play e' l' =>
            simp only [E2e.step] at h1
            split at h1
            · cases h1
            · rename_i hl
              split at h1
              · cases h1
                simp [ops] at h
                rw [h.2]
                simpa using hl
              · cases h1
          | handle e' es =>
            simp only [E2e.step] at h1
            (repeat' (split at h1)) <;> first | (cases h1; done) | (cases h1; simp [ops] at h)
          | _ =>
            simp only [E2e.step] at h1
            (repeat' (split at h1)) <;> first | (cases h1; done) | (cases h1; simp [ops] at h)
        · exact ih h2 e l h

theorem handled_arrived (os : List Op) : handled os = (arrived os).filterMap fun | .msg m => some m | .config _ => none := by
  induction os with
  | nil => rfl
  | cons o os ih => cases o <;> simp [handled, arrived, ih]

theorem handled_prefix {os : List Op} {ms : List Dap.Val} (h : arrived os <+: .config maps :: ms.map .msg) : handled os <+: ms := by
  obtain ⟨t, ht⟩ := h
  rw [handled_arrived]
  refine ⟨t.filterMap fun | .msg m => some m | .config _ => none, ?_⟩
  rw [← List.filterMap_append, ht, List.filterMap_cons]
  simp only [List.filterMap_map]
  exact List.filterMap_some

theorem runRecv_recv (c : Conn.Conn) (rops : List Conn.RecvOp) (x : Bytes) :
    (Conn.runRecv feq c (rops ++ [.recv x])).1 = (Conn.runRecv feq c rops).1 ∧ Conn.received (rops ++ [.recv x]) = Conn.received rops ++ x := by
  constructor
  · rw [Conn.runRecv_append]; simp [Conn.runRecv]
  · induction rops with
    | nil => simp [Conn.received]
    | cons r rops ih => cases r <;> simp [Conn.received, ih]

/-- C91, as the client sees it: let it read what the adapter writes with a connection object of its own, in any pieces, as long as all texts in the messages can be
represented in JSON at all (no lone surrogates pair up by accident, `Val.Ok`). What it gets are the debuggee's messages themselves, in order, numbered from `k`;
and once it has read all that was written and polls until nothing is left, it has every message that was shown. -/
theorem C91_client (hb : Transport.send cd (.config maps) = .ok b) (ls : List Lbl) (s : Sys) (O : List Obs)
    (hr : run cd feq (start n k d0 b) ls = some (s, O)) (ms : List Dap.Val) (hs : Says feq n (payloads ls) ms)
    (outs : List Dap.Val) (ho : direct d0 (ops O) = some (s.deb, outs)) (hok : ∀ a ∈ outs, a.Ok)
    (feq' : Str → Nat → Bool) (c : Conn.Conn) (hc : c.inBuf = [] ∧ c.seqIn = k) (rops : List Conn.RecvOp) (hrd : Conn.received rops = readBy O) :
    Conn.outcome (Conn.runRecv feq' c rops).1 <+: (Conn.stamped k outs).map .ok ∧
    (s.stdout = [] → Conn.Settled feq' c rops → ∃ shown, shown <+: outs ∧ Conn.Frames k shown (readBy O) ∧
      Conn.outcome (Conn.runRecv feq' c rops).1 = (Conn.stamped k shown).map .ok) := by
  obtain ⟨done, pend, pp, dpend, outs', so, rest, relayed, upp, w⟩ := inv_of hb hr hs
  have he : outs' = outs := by have := w.dir; rw [ho] at this; cases this; rfl
  subst he
  have hpre : relayed <+: outs' := ⟨upp ++ rest, by rw [w.out, w.rel]; simp⟩
  have harr : arrived (ops O) <+: .config maps :: ms.map .msg := ⟨dpend ++ pend.map .msg, by rw [← List.append_assoc, w.arr, w.split]; simp⟩
  have hty := direct_typed w.dir (run_plays hr) (fun m hm => w.reqs m ((handled_prefix harr).subset hm))
  have hw : ∀ a ∈ relayed, Conn.Wire a := by
    intro a ha
    have hm : a ∈ outs' := hpre.subset ha
    obtain ⟨cl, h1, h2⟩ := hty a hm
    obtain ⟨g1, g2, g3, g4⟩ := sent_cls cl (Dap.mem_allCls cl) h2
    exact ⟨cl, h1, g1, hok a hm, fun h => absurd h g2, fun h => absurd h g3, fun h => absurd h g4⟩
  have hstamp : (Conn.stamped k relayed).map (Except.ok (ε := PyErr)) <+: (Conn.stamped k outs').map .ok := by
    obtain ⟨t, rfl⟩ := hpre
    have : ∀ (l : List Dap.Val) (j : Nat), Conn.stamped j (l ++ t) = Conn.stamped j l ++ Conn.stamped (j + l.length) t := by
      intro l
      induction l with
      | nil => intro j; rfl
      | cons x l ih => intro j; simp only [List.cons_append, Conn.stamped, ih, List.length_cons]; rw [show j + 1 + l.length = j + (l.length + 1) by omega]
    rw [this, List.map_append]
    exact List.prefix_append _ _
  constructor
  · obtain ⟨e1, e2⟩ := runRecv_recv (feq := feq') c rops s.stdout
    have hbuf : c.inBuf ++ Conn.received (rops ++ [.recv s.stdout]) = Conn.frames k relayed := by
      rw [e2, hc.1, List.nil_append, hrd, w.read]
    have hrun := Conn.run_drain feq' _ Conn.stable_frames (rops ++ [.recv s.stdout]) c ⟨k, relayed, hbuf⟩
    rw [hbuf, Conn.drain_frames feq' k relayed hw { c with inBuf := Conn.frames k relayed } hc.2 rfl, e1] at hrun
    exact List.IsPrefix.trans ⟨_, hrun⟩ hstamp
  · intro hst hse
    have hread : readBy O = Conn.frames k relayed := by have := w.read; rwa [hst, List.append_nil] at this
    have hbuf : c.inBuf ++ Conn.received rops = Conn.frames k relayed := by rw [hc.1, List.nil_append, hrd, hread]
    refine ⟨relayed, hpre, ?_, ?_⟩
    · rw [hread]
      exact Conn.frames_spec _ _ fun m hm j => Conn.wire_floats m (hw m hm) j
    · rw [Conn.settled_outcome feq' _ Conn.stable_frames rops c ⟨k, relayed, hbuf⟩ hse, hbuf]
      exact Conn.drain_frames feq' k relayed hw { c with inBuf := Conn.frames k relayed } hc.2 rfl

/-- C91, no request gets stuck: from any state of any such execution, if no disconnect request is followed by others and each request takes
less than 4 GiB on the socket, the threads can go on, without anything else from the client, so that the debuggee has handled them all
(and has done nothing else in the meantime). -/
theorem C91_delivered (hb : Transport.send cd (.config maps) = .ok b) (ls : List Lbl) (s : Sys) (O : List Obs)
    (hr : run cd feq (start n k d0 b) ls = some (s, O)) (ms : List Dap.Val) (hs : Says feq n (payloads ls) ms)
    (hd : ∀ m ∈ ms.dropLast, isDisconnect m = false) (hsm : ∀ m ∈ ms, (cd.dumps (.msg m)).length < 2 ^ 32) (e : Wire.Env) :
    ∃ ls' s' O', payloads ls' = [] ∧ run cd feq (start n k d0 b) (ls ++ ls') = some (s', O ++ O') ∧
      arrived (ops (O ++ O')) = .config maps :: ms.map .msg ∧ ∃ ps, ops O' = asOps e ps := by
  have hi := inv_of hb hr hs
  have h0 : E2e.step cd feq s (.read s.stdin.length) = some ({ s with stdin := s.stdin.drop s.stdin.length, conn := Conn.receiveData s.conn (s.stdin.take s.stdin.length) }, []) := rfl
  have hi1 := inv_step0 hi h0 rfl
  rw [List.append_nil] at hi1
  obtain ⟨l1, s1, a1, a2, a3, a4, _⟩ := forward_all hd (by simpa using hsm) _ _ O hi1 (by simp) rfl
  obtain ⟨l2, s2, O2, b1, b2, b3, b4, b5⟩ := handle_all e _ s1 O a3 a4 rfl
  refine ⟨.read s.stdin.length :: (l1 ++ l2), s2, O2, ?_, ?_, b4, b5⟩
  · simp [payloads, payloads_append, a1, b1]
  · have h2 := run_cons h0 (run_append a2 b2)
    have h3 := run_append hr h2
    simpa using h3

/-- C91, no message gets stuck: as long as the client has neither disconnected nor terminated, and each message takes less than 4 GiB on
the socket, all that the debuggee had to say so far can come to be read by the client, without the debuggee doing anything else. -/
theorem C91_shown (hb : Transport.send cd (.config maps) = .ok b) (ls : List Lbl) (s : Sys) (O : List Obs)
    (hr : run cd feq (start n k d0 b) ls = some (s, O)) (ms : List Dap.Val) (hs : Says feq n (payloads ls) ms)
    (hend : ∀ m ∈ ms, isEnd m = false) (outs : List Dap.Val) (ho : direct d0 (ops O) = some (s.deb, outs))
    (hsm : ∀ a ∈ outs, (cd.dumps (.msg a)).length < 2 ^ 32) :
    ∃ ls' s' O', payloads ls' = [] ∧ run cd feq (start n k d0 b) (ls ++ ls') = some (s', O ++ O') ∧ ops O' = [] ∧
      Conn.Frames k outs (readBy (O ++ O')) := by
  have hi := inv_of hb hr hs
  have hi0 := hi
  obtain ⟨done, pend, pp, dpend, outs', so, rest, relayed, upp, w⟩ := hi
  have harr : arrived (ops O) <+: .config maps :: ms.map .msg := ⟨dpend ++ pend.map .msg, by rw [← List.append_assoc, w.arr, w.split]; simp⟩
  have hno : ¬ ∃ m ∈ handled (ops O), isEnd m = true := by
    rintro ⟨m, h1, h2⟩
    rw [hend m ((handled_prefix harr).subset h1)] at h2
    cases h2
  have hsend : s.sending = true := by
    cases h : s.sending with
    | true => rfl
    | false => exact absurd (w.snd h) hno
  have hcut : s.cut = false := by
    cases h : s.cut with
    | false => rfl
    | true =>
      obtain ⟨m, h1, h2⟩ := w.act (w.cutf h)
      have := hend m (by rw [w.split]; simp [h1])
      exfalso
      revert this h2
      cases m <;> simp [isDisconnect]
      rename_i c _
      cases c <;> simp [isDisconnect, isEnd]
  obtain ⟨l1, s1, a1, a2, a3, a4, a5, a6, a7⟩ := send_all (by simpa using hsm) _ s O hi0 ho hsend (fun h => hno (w.qn h)) rfl
  obtain ⟨l2, s2, b1, b2, b3, b4, b5⟩ := relay_all _ s1 O a3 (by rw [a4]; exact ho) a5 a6 (by rw [a7, hcut]) rfl
  have h0 : E2e.step cd feq s2 (.clientRead s2.stdout.length) = some ({ s2 with stdout := s2.stdout.drop s2.stdout.length }, [.read (s2.stdout.take s2.stdout.length)]) := rfl
  refine ⟨l1 ++ (l2 ++ [.clientRead s2.stdout.length]), { s2 with stdout := s2.stdout.drop s2.stdout.length }, [.read s2.stdout], ?_, ?_, rfl, ?_⟩
  · simp [payloads, payloads_append, a1, b1]
  · have h2 := run_append a2 (run_append b2 (run_cons (b := []) h0 rfl))
    have h3 := run_append hr h2
    simpa using h3
  · rw [readBy_append]
    simp only [readBy, List.append_nil]
    rw [b4]
    have he : outs' = outs := by have := w.dir; rw [ho] at this; cases this; rfl
    subst he
    exact Conn.frames_spec _ _ fun m hm j => Dap.toJson_floats _ (Dap.noFlt_setSeq _ _ (w.flt m hm))

/-! ## C92 -/

theorem answer_isResponse {q c : Option Dap.Val} {a : Dap.Val} {d : Cls} (h : IsAnswer q c a d) : isResponse a = true := by
  obtain ⟨attrs, rfl⟩ := instance_cls h.inst
  simp [isResponse, h.response]

/-- The responses of the debuggee and the requests it has handled, one by one. -/
theorem direct_pairs {os : List Op} {d d' : DS} {outs : List Dap.Val} (h : direct d os = some (d', outs))
    (hp : ∀ e l, .play e l ∈ os → isReq l = false) (hm : ∀ m ∈ handled os, ∃ c, c.base = some Cls.Request ∧ Instance c m) :
    ∀ (i : Nat) a, (outs.filter isResponse)[i]? = some a →
      ∃ m d, ((handled os).filter fun m => !isDisconnect m)[i]? = some m ∧ IsAnswer (m.attr? py!"seq") (m.attr? py!"command") a d := by
  induction os generalizing d outs with
  | nil => cases h; intro i a ha; simp at ha
  | cons o os ih =>
    simp only [direct] at h
    split at h
    · cases h
    · rename_i d1 m1 h1
      split at h
      · cases h
      · rename_i d2 m2 h2
        cases h
        have ih := ih h2 (fun e l hx => hp e l (List.mem_cons_of_mem _ hx)) (fun m hx => hm m (by cases o <;> simp [handled, hx]))
        rw [List.filter_append]
        cases o with
        | config e mp =>
          rw [config_out h1]
          simpa [handled, isResponse, Wire.build, Cls.base] using ih
        | handle e m =>
          simp only [doOp] at h1
          obtain ⟨c, hc, hi⟩ := hm m (by simp [handled])
          obtain ⟨attrs, rfl⟩ := instance_cls hi
          have e2 : m1 = (Wire.handle e d (.obj c attrs)).2 := (congrArg Prod.snd (Option.some.inj h1)).symm
          subst e2
          by_cases hd : c = .DisconnectRequest
          · subst hd
            rw [Verif.Props.Wire.C85_disconnect_silent e d _ hi]
            simpa [handled, isDisconnect] using ih
          · obtain ⟨x, dc, h3, h4⟩ := Verif.Props.Wire.C85_answered_partial e d c hc hd _ hi
            have hnd : isDisconnect (.obj c attrs) = false := by
              cases c <;> first | rfl | exact absurd rfl hd
            rw [h3]
            simp only [List.filter_cons, answer_isResponse h4, if_true, List.filter_nil, List.cons_append, List.nil_append, handled, hnd, Bool.not_false]
            intro i a ha
            cases i with
            | zero =>
              simp only [List.getElem?_cons_zero, Option.some.injEq] at ha
              subst ha
              exact ⟨_, dc, rfl, h4⟩
            | succ i =>
              simp only [List.getElem?_cons_succ] at ha ⊢
              exact ih i a ha
        | play e l =>
          have hl := hp e l (by simp)
          have hnil : m1.filter isResponse = [] := by
            rw [List.filter_eq_nil_iff]
            intro a ha
            obtain ⟨c, hc, hi, _⟩ := Verif.Props.WireStops.C86_events (by cases l <;> simp_all [isReq, Verif.Props.WireStops.IsReq]) h1 a ha
            obtain ⟨attrs, rfl⟩ := instance_cls hi
            revert hc
            simp only [List.mem_cons, List.not_mem_nil, or_false]
            rintro (rfl | rfl | rfl) <;> simp [isResponse, Cls.base]
          rw [hnil]
          simpa [handled] using ih

theorem getElem?_prefix {α : Type} {l l' : List α} (h : l <+: l') {i : Nat} {a : α} (ha : l[i]? = some a) : l'[i]? = some a := by
  obtain ⟨t, rfl⟩ := h
  rw [List.getElem?_append_left]
  · exact ha
  · exact (List.getElem?_eq_some_iff.1 ha).1

/-- C92: in every such execution, the responses among the messages that were shown to the client answer its requests one by one: the first response answers the first
request, the second the second, and so on (disconnect requests aside, which the adapter answers when the connection has ended). An answer
carries the request's own sequence number and command and is of the response class of that command or an error response. -/
theorem C92_answers (hb : Transport.send cd (.config maps) = .ok b) (ls : List Lbl) (s : Sys) (O : List Obs)
    (hr : run cd feq (start n k d0 b) ls = some (s, O)) (ms : List Dap.Val) (hs : Says feq n (payloads ls) ms) :
    ∃ shown, Conn.Frames k shown (readBy O ++ s.stdout) ∧ ∀ (i : Nat) a, (shown.filter isResponse)[i]? = some a →
      ∃ m d, (ms.filter fun m => !isDisconnect m)[i]? = some m ∧ IsAnswer (m.attr? py!"seq") (m.attr? py!"command") a d := by
  obtain ⟨outs, shown, h1, h2, h3, h4⟩ := C91_session hb ls s O hr ms hs
  refine ⟨shown, h4, ?_⟩
  intro i a ha
  have hpre := handled_prefix h2
  have hin := says_mem hs
  obtain ⟨m, d, g1, g2⟩ := direct_pairs h1 (run_plays hr) (fun m hm => hin m (hpre.subset hm)) i a (getElem?_prefix (h3.filter _) ha)
  exact ⟨m, d, getElem?_prefix (hpre.filter _) g1, g2⟩

/-- C92: no request is forgotten: if all requests of the client have been handled, each of them (disconnects aside) has its answer among the debuggee's messages, at
the same position among the responses. -/
theorem C92_complete (hb : Transport.send cd (.config maps) = .ok b) (ls : List Lbl) (s : Sys) (O : List Obs)
    (hr : run cd feq (start n k d0 b) ls = some (s, O)) (ms : List Dap.Val) (hs : Says feq n (payloads ls) ms)
    (hall : handled (ops O) = ms) (outs : List Dap.Val) (ho : direct d0 (ops O) = some (s.deb, outs)) :
    (outs.filter isResponse).length = (ms.filter fun m => !isDisconnect m).length := by
  have key : ∀ (os : List Op) (d d' : DS) (outs : List Dap.Val), direct d os = some (d', outs) → (∀ e l, .play e l ∈ os → isReq l = false) →
      (∀ m ∈ handled os, ∃ c, c.base = some Cls.Request ∧ Instance c m) →
      (outs.filter isResponse).length = ((handled os).filter fun m => !isDisconnect m).length := by
    intro os
    induction os with
    | nil => intro d d' outs h _ _; cases h; rfl
    | cons o os ih =>
      intro d d' outs h hp hm
      simp only [direct] at h
      split at h
      · cases h
      · rename_i d1 m1 h1
        split at h
        · cases h
        · rename_i d2 m2 h2
          cases h
          have ih := ih _ _ _ h2 (fun e l hx => hp e l (List.mem_cons_of_mem _ hx)) (fun m hx => hm m (by cases o <;> simp [handled, hx]))
          rw [List.filter_append]
          cases o with
          | config e mp =>
            rw [config_out h1]
            simpa [handled, isResponse, Wire.build, Cls.base] using ih
          | handle e m =>
            simp only [doOp] at h1
            obtain ⟨c, hc, hi⟩ := hm m (by simp [handled])
            obtain ⟨attrs, rfl⟩ := instance_cls hi
            have e2 : m1 = (Wire.handle e d (.obj c attrs)).2 := (congrArg Prod.snd (Option.some.inj h1)).symm
            subst e2
            by_cases hd : c = .DisconnectRequest
            · subst hd
              rw [Verif.Props.Wire.C85_disconnect_silent e d _ hi]
              simpa [handled, isDisconnect] using ih
            · obtain ⟨x, dc, h3, h4⟩ := Verif.Props.Wire.C85_answered_partial e d c hc hd _ hi
              have hnd : isDisconnect (.obj c attrs) = false := by
                cases c <;> first | rfl | exact absurd rfl hd
              rw [h3]
              simp only [List.filter_cons, answer_isResponse h4, if_true, List.filter_nil, List.cons_append, List.nil_append, handled, hnd, Bool.not_false,
                List.length_cons, ih]
          | play e l =>
            have hl := hp e l (by simp)
            have hnil : m1.filter isResponse = [] := by
              rw [List.filter_eq_nil_iff]
              intro a ha
              obtain ⟨c, hc, hi, _⟩ := Verif.Props.WireStops.C86_events (by cases l <;> simp_all [isReq, Verif.Props.WireStops.IsReq]) h1 a ha
              obtain ⟨attrs, rfl⟩ := instance_cls hi
              revert hc
              simp only [List.mem_cons, List.not_mem_nil, or_false]
              rintro (rfl | rfl | rfl) <;> simp [isResponse, Cls.base]
            rw [hnil]
            simpa [handled] using ih
  have := key _ _ _ _ ho (run_plays hr) (fun m hm => says_mem hs m (by rw [← hall]; exact hm))
  rwa [hall] at this

/-! ## A session -/

/-- Two threads requests, and a path mapping. -/
def r3 : Dap.Val := Conn.setSeq Conn.threadsReq 3
def r4 : Dap.Val := Conn.setSeq Conn.threadsReq 4
def maps0 : List (Str × Str) := [(py!"/home/me", py!"/srv")]
/-- The documents. -/
def payload (m : Dap.Val) : Bytes := (dumps (Dap.toJson m)).map UInt8.ofNat

theorem says0 : Says feq 3 [payload r3, payload r4] [r3, r4] := by
  have hi : ∀ j, Instance .ThreadsRequest (Conn.setSeq Conn.threadsReq j) := by
    intro j
    obtain ⟨c, h1, h2, _⟩ := Conn.threadsReq_wire
    have : c = .ThreadsRequest := by
      obtain ⟨attrs, h⟩ := instance_cls h1
      cases h; rfl
    subst this
    exact Conn.instance_setSeq _ _ h2 h1 j
  refine .cons (Conn.wire_decode _ Conn.threadsReq_wire 3) ?_ rfl (hi 3) (.cons (Conn.wire_decode _ Conn.threadsReq_wire 4) ?_ rfl (hi 4) (.nil _))
  · rw [r3, Conn.wire_seq feq _ Conn.threadsReq_wire]; rfl
  · rw [r4, Conn.wire_seq feq _ Conn.threadsReq_wire]; rfl

theorem arrived_asOps (e : Wire.Env) (ps : List Pkt) : arrived (asOps e ps) = ps := by
  induction ps with
  | nil => rfl
  | cons p ps ih => cases p <;> simp [asOps, arrived, ih]

/-- What the debuggee says in this session, while a host is stopped at a breakpoint. -/
def outs0 : List Dap.Val :=
  [Wire.build .InitializedEvent [], (Wire.handle Verif.Props.Wire.env0 Verif.Props.Strat.e1 r3).2.headD .null,
    (Wire.handle Verif.Props.Wire.env0 Verif.Props.Strat.e1 r4).2.headD .null]

/-- A whole session: the client asks twice for the threads while a host is stopped; both requests are handled, and the client reads the three messages, with
the numbers 5, 6 and 7. -/
theorem session0 : ∃ ls s O b, Transport.send demo (.config maps0) = .ok b ∧ run demo feq (start 3 5 Verif.Props.Strat.e1 b) ls = some (s, O) ∧
    Says feq 3 (payloads ls) [r3, r4] ∧ handled (ops O) = [r3, r4] ∧ direct Verif.Props.Strat.e1 (ops O) = some (s.deb, outs0) ∧ Conn.Frames 5 outs0 (readBy O) := by
  obtain ⟨b, hb⟩ := send_small (cd := demo) (p := .config maps0) (show (encP (.config maps0)).length < 4294967296 by decide +kernel)
  have hr : run demo feq (start 3 5 Verif.Props.Strat.e1 b) [.client (payload r3), .client (payload r4)] =
    some ({ start 3 5 Verif.Props.Strat.e1 b with stdin := [] ++ frame (payload r3) ++ frame (payload r4) }, []) := rfl
  obtain ⟨l1, s1, O1, a1, a2, a3, ps, a4⟩ := C91_delivered hb _ _ _ hr [r3, r4] says0 (by decide +kernel)
    (by
      have : ∀ m ∈ [r3, r4], (encP (.msg m)).length < 2 ^ 32 := by
        simp only [List.mem_cons, List.not_mem_nil, or_false]
        rintro m (rfl | rfl) <;> decide +kernel
      exact this) Verif.Props.Wire.env0
  rw [List.nil_append] at a2 a3
  rw [a4, arrived_asOps] at a3
  subst a3
  have hs1 : Says feq 3 (payloads ([.client (payload r3), .client (payload r4)] ++ l1)) [r3, r4] := by
    rw [payloads_append, a1]; exact says0
  obtain ⟨outs, _, h1, _, _, _⟩ := C91_session hb _ _ _ a2 [r3, r4] hs1
  have ho : outs = outs0 := by
    rw [a4] at h1
    exact (congrArg Prod.snd (Option.some.inj h1)).symm
  subst ho
  obtain ⟨l2, s2, O2, b1, b2, b3, b4⟩ := C91_shown hb _ _ _ a2 [r3, r4] hs1 (by
      simp only [List.mem_cons, List.not_mem_nil, or_false]
      rintro m (rfl | rfl) <;> rfl) outs0 h1 (by
      have : ∀ a ∈ outs0, (encP (.msg a)).length < 2 ^ 32 := by
        simp only [outs0, List.mem_cons, List.not_mem_nil, or_false]
        rintro m (rfl | rfl | rfl) <;> decide +kernel
      exact this)
  have hs2 : Says feq 3 (payloads ([.client (payload r3), .client (payload r4)] ++ l1 ++ l2)) [r3, r4] := by
    rw [payloads_append, b1, List.append_nil]; exact hs1
  have hops : ops (O1 ++ O2) = ops O1 := by rw [ops_append, b3, List.append_nil]
  refine ⟨_, s2, _, b, hb, b2, hs2, ?_, ?_, b4⟩
  · rw [hops, a4]; rfl
  · obtain ⟨outs', _, h2, _, _, _⟩ := C91_session hb _ _ _ b2 [r3, r4] hs2
    rw [h2]
    rw [hops, h1] at h2
    have this : outs0 = outs' := congrArg Prod.snd (Option.some.inj h2)
    rw [← this]

/-- The texts of its three messages. -/
example : outs0.map (fun m => dumps (Dap.toJson m)) =
    [py!"{\"seq\": 0, \"type\": \"event\", \"event\": \"initialized\"}",
     py!"{\"seq\": 0, \"type\": \"response\", \"request_seq\": 3, \"success\": true, \"command\": \"threads\", \"body\": {\"threads\": [{\"id\": 1, \"name\": \"main\"}, {\"id\": 2, \"name\": \"web7\"}]}}",
     py!"{\"seq\": 0, \"type\": \"response\", \"request_seq\": 4, \"success\": true, \"command\": \"threads\", \"body\": {\"threads\": [{\"id\": 1, \"name\": \"main\"}, {\"id\": 2, \"name\": \"web7\"}]}}"] := by
  decide +kernel

/-- They meet the conditions of `C91_client`, and two of them are responses. -/
example : (∀ a ∈ outs0, a.Ok) ∧ (outs0.filter isResponse).length = 2 := by
  refine ⟨?_, by decide +kernel⟩
  simp only [outs0, List.mem_cons, List.not_mem_nil, or_false]
  rintro a (rfl | rfl | rfl)
  · exact okB_ok _ (by decide +kernel)
  · exact okB_ok _ (by decide +kernel)
  · exact okB_ok _ (by decide +kernel)

end Verif.Props.E2e
