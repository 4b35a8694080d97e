import Verif.Server.Mappings
import Verif.Server.History
import Verif.Server.Race
import Verif.Server.Input
import Verif.Server.Attach
import Verif.Json.RoundTrip

/-!
# C47 - C56: the debug adapter server

`Reach s` means: `s` is a state of the server after some interleaving of the actions of its main
thread and the receive thread of the debuggee, whatever the client and the debuggee sent and
whatever failed. `Trace ls s` says which events led to it. `s.outs` are the messages written to the
client, `s.reqs` the requests received with their sequence numbers, `s.toDeb`/`s.fromDeb` the
messages sent to and received from the debuggee. `s.main = .done e`: the server has stopped (`e`:
because of an exception).
-/

namespace Verif.Props.Server
open Verif Verif.Server

/-! ## Two reference runs -/

/-- Initialize, then attach to a debuggee. -/
def attached : List Lbl :=
  [.client (.req .initialize 0), .main, .main, .client (.req .attach 0), .main, .main, .main, .main, .main]

/-- Initialize, then launch a playbook, which connects. -/
def launched : List Lbl :=
  [.client (.req .initialize 0), .main, .main, .client (.req .launch 0), .main, .main, .main, .main,
   .client (.runInResp 2), .main, .main, .main, .main, .main]

theorem reach_of {ls : List Lbl} {s : S} (h : run init ls = some s) : Reach s := reach_run .init h
theorem trace_of {ls : List Lbl} {s : S} (h : run init ls = some s) : Trace ls s := by
  have := trace_run .init h; exact this

/-! ## C47 -/

/-- C47: at no time has the client received more than one terminated event. -/
theorem C47_at_most_one (s : S) (h : Reach s) : s.outs.count .terminated ≤ 1 := by
  have := (tout_reach h).inv
  rcases this with h | h | h | h <;> (have := h.2.1; unfold tcount at this; omega)

/-- C47: when the server has stopped, for whatever reason and in whatever order the connection of
the debuggee was closed meanwhile, the client has received exactly one. -/
theorem C47_exactly_one (s : S) (h : Reach s) (e : Bool) (hd : s.main = .done e) : s.outs.count .terminated = 1 := by
  have h1 := (tout_reach h).done e hd
  have h2 := List.count_pos_iff.2 (flag_out (tout_reach h).inv h1)
  have := C47_at_most_one s h
  omega

/-- C47: the same when the end of the debuggee's connection has been handled. -/
theorem C47_after_close (s : S) (h : Reach s) (hd : s.recv = .closing []) : s.outs.count .terminated = 1 := by
  have h1 := (closing_reach h [] hd).resolve_left (fun h => h rfl)
  have h2 := List.count_pos_iff.2 (flag_out (tout_reach h).inv h1)
  have := C47_at_most_one s h
  omega

/-- C47: once the main thread has left `start()` the threads cannot block each other: as long as it
has not finished some step is possible ... -/
theorem C47_no_deadlock (s : S) (h : Reach s) (e : Bool) (p : List Act) (hm : s.main = .exiting e p) :
    ∃ l s', l ∈ [Lbl.main, .finish, .recv, .close false] ∧ step s l = some s' := stop_live h hm

/-- ... and there are only finitely many, whatever the schedule, unless the debuggee goes on sending
messages: the number of steps is bounded. -/
theorem C47_ends (s : S) (h : Reach s) (e : Bool) (p : List Act) (hm : s.main = .exiting e p) :
    ∃ n, ∀ ls s', (∀ l ∈ ls, ∀ m, l ≠ .deb m) → run s ls = some s' → ls.length ≤ n :=
  ⟨bound s, fun _ _ hd hr => bound_run h (by rw [hm]; trivial) hd hr⟩

/-- C47: the only thing that keeps the main thread from finishing is an exception of the cancel
token of the debuggee's queue (see C18) while the server is stopping. -/
theorem C47_only_cancel_kills (s s' : S) (l : Lbl) (h : Reach s) (h1 : s.main ≠ .dead) (hs : step s l = some s')
    (h2 : s'.main = .dead) : l = .mainRaise ∧ ∃ e p, s.main = .exiting e (.cancel :: p) := dead_only h h1 hs h2

/-- Non-vacuity: the debuggee closes the connection while the client disconnects. -/
example : ∃ s, run init (attached ++ [.client (.req .disconnect 0), .main, .close false, .main] ++
      List.replicate 8 .recv ++ [.main, .leave] ++ List.replicate 7 .main ++ [.finish]) = some s ∧
    s.main = .done false ∧ s.outs = [.initResp 1, .attachResp 2, .discResp 3, .terminated] :=
  ⟨_, rfl, rfl, rfl⟩

/-! ## C48 -/

/-- C48, one half: if the server stopped because of an exception every request it ever received has
been answered. -/
theorem C48_all_answered_partial (s : S) (h : Reach s) (hd : s.main = .done true) (q : Nat) (k : ReqKind) (b : Nat)
    (hr : (q, k, b) ∈ s.reqs) : ∃ m ∈ s.outs, m.answers = some q := by
  rcases (ainv_reach h).reqs _ hr with h1 | h1
  · rw [(einv_reach h).doneA hd] at h1; cases h1
  · exact h1

theorem ansN_count (q : Nat) (outs : List Body) : ansN q outs = outs.countP (fun m => m.answers == some q) := by
  induction outs with
  | nil => rfl
  | cons m outs ih =>
    have : ansN q (m :: outs) = (if m.answers = some q then 1 else 0) + ansN q outs := by simp [ansN]
    rw [this, ih, List.countP_cons]
    by_cases h : m.answers = some q <;> simp [h]; omega

/-- C48 is false of the code: two threads may stop the server at the same time (the connection to
the debuggee breaks, and the input is bad), and then both answer the same request. -/
theorem C48_refuted : ∃ ls s q, run init ls = some s ∧ s.main = .done true ∧
    (∃ k b, (q, k, b) ∈ s.reqs) ∧ s.outs.countP (fun m => m.answers == some q) = 2 := by
  refine ⟨attached ++ [.client (.req .other 7), .main, .close true, .recv, .recv, .badInput, .main, .main,
    .recv, .main, .recv, .main, .recv, .recv, .recv, .recv, .recv, .main, .main, .main, .main, .main, .main, .finish],
    _, 3, rfl, rfl, ⟨.other, 7, ?_⟩, rfl⟩
  decide +kernel

/-- C48 is false of the code: a request the debuggee has just answered may be answered again with
an error. -/
theorem C48_answered_twice_refuted : ∃ ls s, run init ls = some s ∧ s.main = .done true ∧
    s.outs = [.initResp 1, .attachResp 2, .relay (.resp 3 9), .errResp 3, .terminated] := by
  refine ⟨attached ++ [.client (.req .other 7), .main, .deb (.resp 3 9), .recv, .badInput, .main, .main,
    .main, .main, .recv, .close false] ++ List.replicate 6 .recv ++ List.replicate 6 .main ++ [.finish], _, rfl, rfl, rfl⟩

/-- C48, the part that holds: if the two threads never act while the other is in the middle of
something (except that the main thread waits for the end of the other) and the debuggee answers only
requests it was sent, each at most once, then no request is answered twice: after a stop because of
an exception every request has exactly one response. -/
theorem C48_exactly_one_partial (s : S) (h : OReach s) :
    (∀ q, s.outs.countP (fun m => m.answers == some q) ≤ 1) ∧
    (s.main = .done true → ∀ q k b, (q, k, b) ∈ s.reqs → s.outs.countP (fun m => m.answers == some q) = 1) := by
  have key : ∀ q, s.outs.countP (fun m => m.answers == some q) ≤ 1 := by
    intro q
    have h1 := (oinv_reach h).cnt q
    rw [← ansN_count]
    unfold allN at h1
    omega
  refine ⟨key, ?_⟩
  intro hd q k b hr
  have h1 := key q
  obtain ⟨m, hm, ha⟩ := C48_all_answered_partial s (oreach_reach h) hd q k b hr
  have := List.countP_pos_iff (p := fun m : Body => m.answers == some q) |>.2 ⟨m, hm, by simp [ha]⟩
  omega

/-- The orderly states are reached by runs of orderly steps. -/
theorem oreach_of : ∀ {ls : List Lbl} {s s' : S}, OReach s →
    (∀ pre l post s1, ls = pre ++ l :: post → run s pre = some s1 → Orderly s1 l) → run s ls = some s' → OReach s'
  | [], s, s', h, _, hr => by cases hr; exact h
  | l :: ls, s, s', h, ho, hr => by
    simp only [run] at hr
    cases hs : step s l with
    | none => rw [hs] at hr; cases hr
    | some s1 =>
      rw [hs] at hr
      refine oreach_of (.step h (ho [] l ls s rfl rfl) hs) ?_ hr
      intro pre l' post s2 e hp
      exact ho (l :: pre) l' post s2 (by rw [e]; rfl) (by simp only [run, hs]; exact hp)

/-- A decidable form of `Orderly`. -/
def orderlyB (s : S) (l : Lbl) : Bool :=
  s.main != .dead &&
  match l with
  | .deb (.resp q _) => (s.main.prog == [] || s.main.prog.head? == some .join) &&
      s.toDeb.any (fun m => match m with | .req _ q' _ => q' == q | _ => false) &&
      s.fromDeb.all (fun m => match m with | .resp q' _ => q' != q | _ => true)
  | .deb (.event _) | .close _ | .recv => s.main.prog == [] || s.main.prog.head? == some .join
  | _ => s.recv.prog == []

theorem orderly_of {s : S} {l : Lbl} (h : orderlyB s l = true) : Orderly s l := by
  unfold orderlyB at h
  rw [Bool.and_eq_true] at h
  refine ⟨by simpa using h.1, ?_⟩
  have h2 := h.2
  revert h2
  cases l with
  | deb m =>
    cases m with
    | event b => simp
    | resp q b =>
      intro h2
      simp only [Bool.and_eq_true, List.any_eq_true, List.all_eq_true] at h2
      obtain ⟨⟨h3, m, hm, h4⟩, h5⟩ := h2
      refine ⟨by simpa using h3, ?_, ?_⟩
      · cases m with
        | config => cases h4
        | req k q' b' =>
          have : q' = q := by simpa using h4
          subst this
          exact ⟨k, b', hm⟩
      · intro b' hb
        have := h5 _ hb
        simp at this
  | _ => simp

def orderlyRun : S → List Lbl → Bool
  | _, [] => true
  | s, l :: ls => orderlyB s l && match step s l with | some s' => orderlyRun s' ls | none => false

theorem oreach_run : ∀ {ls : List Lbl} {s s' : S}, OReach s → orderlyRun s ls = true → run s ls = some s' → OReach s'
  | [], s, s', h, _, hr => by cases hr; exact h
  | l :: ls, s, s', h, ho, hr => by
    simp only [run] at hr
    simp only [orderlyRun, Bool.and_eq_true] at ho
    cases hs : step s l with
    | none => rw [hs] at hr; cases hr
    | some s1 =>
      rw [hs] at hr
      rw [hs] at ho
      exact oreach_run (.step h (orderly_of ho.1) hs) ho.2 hr

/-- Non-vacuity: an orderly run in which the server crashes with a request outstanding and another
one answered by the debuggee. -/
example : ∃ s, OReach s ∧ s.main = .done true ∧ s.outs = [.initResp 1, .attachResp 2, .relay (.resp 3 9), .errResp 4, .terminated] ∧
    (3, .other, 7) ∈ s.reqs ∧ (4, .other, 8) ∈ s.reqs := by
  refine ⟨_, oreach_run (ls := attached ++ [.client (.req .other 7), .main, .deb (.resp 3 9), .recv, .recv,
    .client (.req .other 8), .main, .badInput] ++ List.replicate 6 .main ++ [.close false] ++ List.replicate 6 .recv ++
    List.replicate 4 .main ++ [.finish]) .init ?_ rfl, rfl, rfl, ?_, ?_⟩ <;> decide +kernel

/-! ## C49 -/

/-- C49: when the server has stopped every disconnect request has been answered. -/
theorem C49_answered_partial (s : S) (h : Reach s) (e : Bool) (hd : s.main = .done e) (q b : Nat)
    (hr : (q, ReqKind.disconnect, b) ∈ s.reqs) : ∃ m ∈ s.outs, m.answers = some q := by
  rcases (ainv_reach h).reqs _ hr with h1 | h1
  · exact absurd rfl ((einv_reach h).doneD e hd _ h1)
  · exact h1

/-- C49: a disconnect request that is received while no terminated event was sent and the receive
thread has not begun to stop the server is answered before the terminated event, whatever happens
afterwards. -/
theorem C49_before_terminated_partial (s s1 s' : S) (b : Nat) (ls : List Lbl) (h : Reach s) (ht : .terminated ∉ s.outs)
    (hc : ∀ p, s.recv = .closing p → ∃ e, p = stopProg e true) (hs : step s (.client (.req .disconnect b)) = some s1)
    (hr : run s1 ls = some s') (pre post : List Body) (ho : s'.outs = pre ++ .terminated :: post) :
    ∃ m ∈ pre, m.answers = some s.nextIn := by
  obtain ⟨h1, h2⟩ := ginv_start h ht hc hs
  exact (ginv_run (.step h hs) h2 h1 hr).before pre post ho

/-- Non-vacuity: a run that satisfies the hypotheses (attached, the receive thread is waiting). -/
example : ∃ s s1, Reach s ∧ .terminated ∉ s.outs ∧ s.recv = .loop [] ∧ step s (.client (.req .disconnect 0)) = some s1 ∧
    ∃ ls s', run s1 ls = some s' ∧ s'.outs = [.initResp 1, .attachResp 2] ++ [.discResp 3] ++ .terminated :: [] := by
  refine ⟨_, _, reach_of (ls := attached) rfl, ?_, rfl, rfl, [.main, .close false, .main] ++
      List.replicate 8 .recv ++ [.main, .leave] ++ List.replicate 7 .main ++ [.finish], _, rfl, rfl⟩
  decide +kernel

/-- C49 is false of the code: if the request arrives when the receive thread has already looked for
outstanding disconnect requests, but has not yet sent the terminated event, the response comes
after it. -/
theorem C49_refuted : ∃ ls s s1 ls' s', run init ls = some s ∧ .terminated ∉ s.outs ∧
    step s (.client (.req .disconnect 0)) = some s1 ∧ run s1 ls' = some s' ∧ s'.main = .done false ∧
    s'.outs = s.outs ++ [.terminated, .discResp s.nextIn] := by
  refine ⟨attached ++ [.close false, .recv], _, _, [.main, .main, .recv, .recv, .recv, .recv, .recv, .main, .leave] ++
    List.replicate 9 .main ++ [.finish], _, rfl, ?_, rfl, rfl, rfl, rfl⟩
  decide +kernel

/-- C49: in an orderly run a disconnect request has exactly one response when the server has
stopped. -/
theorem C49_exactly_one_partial (s : S) (h : OReach s) (e : Bool) (hd : s.main = .done e) (q b : Nat)
    (hr : (q, ReqKind.disconnect, b) ∈ s.reqs) : s.outs.countP (fun m => m.answers == some q) = 1 := by
  have h1 := (C48_exactly_one_partial s h).1 q
  obtain ⟨m, hm, ha⟩ := C49_answered_partial s (oreach_reach h) e hd q b hr
  have := List.countP_pos_iff (p := fun m : Body => m.answers == some q) |>.2 ⟨m, hm, by simp [ha]⟩
  omega

/-- Non-vacuity: an orderly run with a disconnect request. -/
example : ∃ s, OReach s ∧ s.main = .done false ∧ (3, ReqKind.disconnect, 0) ∈ s.reqs := by
  refine ⟨_, oreach_run (ls := attached ++ [.client (.req .disconnect 0), .main, .main, .close false] ++
      List.replicate 8 .recv ++ [.main, .leave] ++ List.replicate 7 .main ++ [.finish]) .init ?_ rfl, rfl, ?_⟩ <;> decide +kernel

/-! ## C50 -/

/-- The requests among messages of the client that are numbered 1, 2, ...; the messages of the
debuggee that were relayed; the requests that were forwarded. -/
theorem C50_requests_numbered (ls : List Lbl) (s : S) (h : Trace ls s) :
    s.reqs = numbered 1 (clientMsgs ls) ∧ s.fromDeb = debMsgs ls :=
  ⟨(hist_trace h).reqs, (hist_trace h).deb⟩

/-- C50: what the client receives of the debuggee is an initial part of what the debuggee sent, in
the order it was sent and unchanged (so with the request numbers the debuggee used) ... -/
theorem C50_relayed_in_order (ls : List Lbl) (s : S) (h : Trace ls s) :
    ∃ rest, (s.outs.filterMap fun m => match m with | .relay m => some m | _ => none) ++ rest = debMsgs ls := by
  have h1 := (linv_reach (trace_reach h)).rel
  rw [(hist_trace h).deb] at h1
  exact ⟨_, h1⟩

/-- ... and all of it whenever the receive thread has nothing to do. -/
theorem C50_relayed_all (ls : List Lbl) (s : S) (h : Trace ls s) (hr : s.recv = .loop [] ∨ s.recv = .ended) :
    (s.outs.filterMap fun m => match m with | .relay m => some m | _ => none) = debMsgs ls := by
  have h1 := (linv_reach (trace_reach h)).rel
  rw [(hist_trace h).deb] at h1
  rcases hr with hr | hr
  · rw [hr] at h1
    have h2 : relays s.outs = debMsgs ls := by simpa [Recv.prog] using h1
    exact h2
  · rw [hr] at h1
    have h2 : relays s.outs = debMsgs ls := by simpa [Recv.prog] using h1
    exact h2

/-- C50: the requests the debuggee receives are requests of the client, in the order received, with
the sequence numbers the client gave them (which are their positions, C06) and unchanged content. -/
theorem C50_forwarded_unchanged (ls : List Lbl) (s : S) (h : Trace ls s) :
    (s.toDeb.filterMap fun m => match m with | .req k q b => some (q, k, b) | _ => none).Sublist
      (numbered 1 (clientMsgs ls)) := by
  have h1 := (finv_reach (trace_reach h)).sub
  rw [(hist_trace h).reqs] at h1
  have h2 : (fwd s.toDeb).Sublist (numbered 1 (clientMsgs ls)) := sub_left h1
  have e : (s.toDeb.filterMap fun m => match m with | .req k q b => some (q, k, b) | _ => none) = fwd s.toDeb := by
    unfold fwd
    congr 1
    funext m
    cases m <;> rfl
  rw [e]
  exact h2

/-- C50: if the debuggee answers only requests it was sent (with their numbers, see C60), every
response relayed to the client carries the number of a request the client has sent. -/
theorem C50_response_matches (ls : List Lbl) (s : S) (h : Trace ls s)
    (hd : ∀ q b, .resp q b ∈ debMsgs ls → ∃ k c, ToDeb.req k q c ∈ s.toDeb) (q b : Nat)
    (hq : Body.relay (.resp q b) ∈ s.outs) : ∃ k c, (q, k, c) ∈ numbered 1 (clientMsgs ls) := by
  obtain ⟨rest, h1⟩ := C50_relayed_in_order ls s h
  have h2 : DMsg.resp q b ∈ debMsgs ls := by
    rw [← h1]
    exact List.mem_append_left _ (List.mem_filterMap.2 ⟨_, hq, rfl⟩)
  obtain ⟨k, c, h3⟩ := hd q b h2
  exact ⟨k, c, (C50_forwarded_unchanged ls s h).subset (List.mem_filterMap.2 ⟨_, h3, rfl⟩)⟩

/-- Non-vacuity: two requests, answered in the opposite order, with an event between. -/
example : ∃ ls s, Trace ls s ∧ s.recv = .loop [] ∧ debMsgs ls = [.resp 4 1, .event 2, .resp 3 3] ∧
    s.toDeb = [.config, .req .other 3 7, .req .other 4 8] ∧
    s.outs = [.initResp 1, .attachResp 2, .relay (.resp 4 1), .relay (.event 2), .relay (.resp 3 3)] ∧
    (∀ q b, .resp q b ∈ debMsgs ls → ∃ k c, ToDeb.req k q c ∈ s.toDeb) := by
  refine ⟨attached ++ [.client (.req .other 7), .main, .client (.req .other 8), .main, .deb (.resp 4 1), .recv, .recv,
    .deb (.event 2), .recv, .deb (.resp 3 3), .recv, .recv], _, trace_of rfl, rfl, rfl, rfl, rfl, ?_⟩
  intro q b h
  simp [debMsgs, attached] at h
  rcases h with ⟨rfl, rfl⟩ | ⟨rfl, rfl⟩
  · exact ⟨.other, 8, by decide +kernel⟩
  · exact ⟨.other, 7, by decide +kernel⟩

/-! ## C51 -/

open Race in
/-- C51 is false of the code: without a lock two threads that each send one message can give both the
same sequence number, can write a frame twice, and can lose a frame (each of the schedules consists
of exactly the steps of the two calls, interleaved). -/
theorem C51_refuted :
    (∃ sched, proj 0 sched = sendSteps 10 ∧ proj 1 sched = sendSteps 20 ∧ sched.length = 20 ∧
      (Race.exec Race.init sched).out = [⟨1, 10⟩, ⟨1, 20⟩]) ∧
    (∃ sched, proj 0 sched = sendSteps 10 ∧ proj 1 sched = sendSteps 20 ∧ sched.length = 20 ∧
      (Race.exec Race.init sched).out = [⟨1, 10⟩, ⟨1, 10⟩, ⟨2, 20⟩]) ∧
    (∃ sched, proj 0 sched = sendSteps 10 ∧ proj 1 sched = sendSteps 20 ∧ sched.length = 20 ∧
      (Race.exec Race.init sched).out = [⟨1, 10⟩]) ∧
    (∃ sched, proj 0 sched = sendSteps 10 ∧ proj 1 sched = sendSteps 20 ∧ sched.length = 20 ∧
      (Race.exec Race.init sched).out = [⟨2, 20⟩, ⟨1, 10⟩]) := by
  refine ⟨⟨(0, .readSeq) :: (1, .readSeq) :: (call 0 (sendSteps 10).tail ++ call 1 (sendSteps 20).tail), ?_⟩,
    ⟨call 0 (queueSteps 10 ++ [.len, .take]) ++ call 1 (queueSteps 20 ++ [.len, .take]) ++ call 0 [.drop, .assign, .write] ++
      call 1 [.drop, .assign, .write], ?_⟩,
    ⟨call 0 (queueSteps 10 ++ [.len, .take, .drop]) ++ call 1 (queueSteps 20) ++ call 0 [.assign, .write] ++
      call 1 (takeSteps ++ [.write]), ?_⟩,
    ⟨call 0 (queueSteps 10 ++ takeSteps) ++ call 1 (sendSteps 20) ++ call 0 [.write], ?_⟩⟩ <;> decide +kernel

/-- C51, the part that holds: if the calls do not overlap (whichever threads make them) the stream
consists of their frames in order, numbered 1, 2, .... -/
theorem C51_serial_partial (calls : List (Nat × Nat)) :
    (Race.exec Race.init (calls.flatMap fun c => Race.call c.1 (Race.sendSteps c.2))).out =
      (calls.map (·.2)).zipIdx.map fun e => ⟨e.2 + 1, e.1⟩ := Race.serial calls

/-- C51, the part that holds: if `queue_msg`, `data_to_send` and the write each happen at once, but
interleaved in any way among any number of threads, the client still receives every frame exactly once and with distinct
consecutive numbers (when all calls have returned), though not necessarily in order. -/
theorem C51_atomic_methods_partial (ps : List Nat) (r : Race.R) (h : Race.Atomic [] [] ps r) :
    r.out.Perm (ps.zipIdx.map fun e => ⟨e.2 + 1, e.1⟩) := by
  have h1 := Race.atomic_inv h
  have := h1.perm
  rw [h1.buf rfl] at this
  simpa [Race.frames] using this

open Race in
/-- C51, the part that holds: however the single steps of any number of threads interleave (thread `t` sending the messages
`ps t` one after the other, and possibly not done yet), nothing is invented: every frame written is whole, has the
content of a message some thread sends, and a number between 1 and the next number to be given out. -/
theorem C51_nothing_invented_partial (ps : Nat → List Nat) (sched : List (Nat × Micro))
    (h : ∀ t, proj t sched <+: (ps t).flatMap sendSteps) (f : Frame) (hf : f ∈ (Race.exec Race.init sched).out) :
    (∃ t, f.payload ∈ ps t) ∧ 1 ≤ f.seq ∧ f.seq ≤ 1 + (sched.filter fun e => e.2 == .incSeq).length := by
  have hi := ni_all ps sched [] init ni_init h
  obtain ⟨⟨t, h1⟩, h2, h3⟩ := hi.out f hf
  exact ⟨⟨t, extend_mem (h t) h1⟩, h2, Nat.le_trans h3 (Nat.le_of_eq hi.seq)⟩

open Race in
/-- Two threads in the middle of their calls, with a frame written. -/
example : (∀ t, proj t (call 0 (queueSteps 10 ++ [.len, .take]) ++ call 1 (sendSteps 20)) <+:
      ((if t = 0 then [10, 11] else if t = 1 then [20] else []) : List Nat).flatMap sendSteps) ∧
    (Race.exec Race.init (call 0 (queueSteps 10 ++ [.len, .take]) ++ call 1 (sendSteps 20))).out = [⟨1, 10⟩, ⟨2, 20⟩] := by
  refine ⟨fun t => ?_, by decide +kernel⟩
  match t with
  | 0 => exact List.isPrefixOf_iff_prefix.1 (by decide +kernel)
  | 1 => exact List.isPrefixOf_iff_prefix.1 (by decide +kernel)
  | t + 2 => exact ⟨[], by simp [proj, call, queueSteps, sendSteps, takeSteps]⟩

open Race in
/-- Non-vacuity: two overlapping calls; the first thread writes both frames. -/
example : ∃ r, Race.Atomic [] [] [10, 20] r ∧ r.out = [⟨1, 10⟩, ⟨2, 20⟩] := by
  have h1 := Race.Atomic.queue 0 10 .init (by simp) (by simp)
  have h2 := Race.Atomic.queue 1 20 h1 (by simp) (by simp)
  have h3 := Race.Atomic.take 0 h2 (by simp)
  have h4 := Race.Atomic.take 1 h3 (by simp)
  have h5 := Race.Atomic.write 0 h4 (by simp)
  have h6 := Race.Atomic.write 1 h5 (by simp)
  exact ⟨_, h6, rfl⟩

/-! ## C52 -/

/-- C52 is false of the code: at the end of the input reads return nothing, and the loop reads again
- in every state in which the server waits for input, for any number of reads. -/
theorem C52_refuted (s : S) (hm : s.main = .run true []) (n : Nat) :
    run s (List.replicate n .eof) = some s := by
  induction n with
  | zero => rfl
  | succ n ih =>
    have : step s .eof = some s := by simp [step, hm]
    simp only [List.replicate_succ, run, this]
    exact ih

/-- C52: it also cannot leave the loop by itself: only a message, bad input (or the receive
thread) changes anything. -/
theorem C52_never_leaves_refuted (s : S) (hm : s.main = .run true []) (l : Lbl) (s' : S) (hs : step s l = some s')
    (hl : ∀ m, l ≠ .client m) (hb : l ≠ .badInput) : s'.main = .run true [] := by
  have hst := step_iff s l s' hs
  cases hst with
  | handled _ _ => exact absurd rfl (hl _)
  | unhandled _ _ => exact absurd rfl (hl _)
  | badInput _ => exact absurd rfl hb
  | eof _ => exact hm
  | leave h => rw [hm] at h; cases h
  | @mainGo s1 ex b a p more h he => rw [hm] at h; cases ex <;> cases h
  | @mainThrow ex b a p h he => rw [hm] at h; cases ex <;> cases h
  | mainAlt h _ => rw [hm] at h; cases h
  | @mainRaise ex b a p h he => rw [hm] at h; cases ex <;> cases h
  | finish h => rw [hm] at h; cases h
  | deb _ _ => exact hm
  | close _ => exact hm
  | @recvGo s1 cl a p more h he => simp only [exec_main he]; exact hm
  | recvDie _ _ => exact hm
  | recvEnd _ => exact hm

/-- Non-vacuity: the state after attaching, and the one after the debuggee has gone. -/
example : ∃ s, run init (attached ++ [.close false] ++ List.replicate 6 .recv) = some s ∧ s.main = .run true [] ∧ s.recv = .ended :=
  ⟨_, rfl, rfl, rfl⟩

/-- C52, the part that holds: if a disconnect request for the debuggee was received, the loop is
left as soon as the buffered messages are handled. -/
theorem C52_disconnect_leaves_partial (s s' : S) (b : Nat) (c : Bool) (hm : s.main = .run c []) (hd : s.debSet = true)
    (hs : step s (.client (.req .disconnect b)) = some s') :
    s'.main = .run false [.sendQuiet (.req .disconnect s.nextIn b), .cancel, .join] ∧
    ∀ s2 : S, s2.main = .run false [] → ∃ s3, step s2 .leave = some s3 ∧ s3.main = .exiting false (stopProg false false) := by
  constructor
  · simp only [step, hm, handle, hd, cond_true] at hs
    cases hs; rfl
  · intro s2 h2
    exact ⟨_, by simp only [step, h2]; rfl, rfl⟩

/-- C52, exactly: whatever has happened, while the main thread is still serving the client, its loop is going to be left after the message
it is handling if and only if the client has sent a disconnect request. -/
theorem C52_exact_partial {ls : List Lbl} {s : S} (h : Trace ls s) (c : Bool) (p : List Act) (hm : s.main = .run c p) :
    c = false ↔ ∃ b, .client (.req .disconnect b) ∈ ls := by
  induction h generalizing c p with
  | init => cases hm; simp
  | @step ls s s' l _ hs ih =>
    have hst := step_iff s l s' hs
    have keep : ∀ c' p', s.main = .run c' p' → c = c' → (∀ b, l ≠ .client (.req .disconnect b)) →
        (c = false ↔ ∃ b, .client (.req .disconnect b) ∈ ls ++ [l]) := by
      rintro c' p' h1 rfl h2
      rw [ih _ _ h1]
      constructor
      · rintro ⟨b, hb⟩; exact ⟨b, List.mem_append_left _ hb⟩
      · rintro ⟨b, hb⟩
        rcases List.mem_append.mp hb with hb | hb
        · exact ⟨b, hb⟩
        · exact absurd (List.mem_singleton.mp hb).symm (h2 b)
    cases hst with
    | @handled s2 c0 c' m p' h1 hh =>
      simp only [Main.run.injEq] at hm
      obtain ⟨rfl, rfl⟩ := hm
      cases m with
      | bad => simp [handle] at hh
      | runInResp r =>
        refine keep _ _ h1 ?_ (by intro b; simp)
        simp only [handle] at hh
        split at hh
        · cases hh
        · cases hh; rfl
      | req k b =>
        by_cases hk : k = .disconnect
        · subst hk
          simp only [handle] at hh
          cases hd : s.debSet with
          | false => simp [hd] at hh
          | true =>
            simp only [hd, cond_true] at hh
            cases hh
            exact ⟨fun _ => ⟨b, by simp⟩, fun _ => rfl⟩
        · refine keep _ _ h1 ?_ (by intro b'; simp [hk])
          cases hd : s.debSet <;> cases k <;> simp [handle, hd] at hh hk <;> simp [hh]
    | unhandled _ _ => cases hm
    | badInput _ => cases hm
    | eof h1 => exact keep _ _ h1 (by rw [h1] at hm; cases hm; rfl) (by intro b; simp)
    | leave _ => cases hm
    | @mainGo s1 ex b a p' more h1 he =>
      cases ex with
      | true => cases hm
      | false => cases hm; exact keep _ _ h1 rfl (by intro b; simp)
    | @mainThrow ex b a p' h1 he => cases ex <;> cases hm
    | mainAlt h1 _ => cases hm; exact keep _ _ h1 rfl (by intro b; simp)
    | @mainRaise ex b a p' h1 he => cases ex <;> cases hm
    | finish _ => cases hm
    | deb _ _ => exact keep _ _ hm rfl (by intro b; simp)
    | close _ => exact keep _ _ hm rfl (by intro b; simp)
    | @recvGo s1 cl a p' more h1 he =>
      simp only [exec_main he] at hm
      exact keep _ _ hm rfl (by intro b; simp)
    | recvDie _ _ => exact keep _ _ hm rfl (by intro b; simp)
    | recvEnd _ => exact keep _ _ hm rfl (by intro b; simp)

/-- C52 is false, over whole executions: a client that has gone without a disconnect request, all of whose messages have been handled, leaves an
adapter that stays in its loop whatever else happens: reads that return nothing, messages of the debuggee and the end of its connection. -/
theorem C52_stays_refuted {ls : List Lbl} {s : S} (h : Trace ls s) (c : Bool) (hm : s.main = .run c [])
    (hd : ∀ b, .client (.req .disconnect b) ∉ ls) (ms : List Lbl) (hc : ∀ l ∈ ms, (∀ m, l ≠ .client m) ∧ l ≠ .badInput) (s' : S)
    (hs : run s ms = some s') : s'.main = .run true [] := by
  have hct : c = true := by
    cases c with
    | true => rfl
    | false =>
      obtain ⟨b, hb⟩ := (C52_exact_partial h _ _ hm).mp rfl
      exact absurd hb (hd b)
  subst hct
  clear h hd
  induction ms generalizing s with
  | nil => cases hs; exact hm
  | cons l ms ih =>
    simp only [run] at hs
    cases h1 : step s l with
    | none => rw [h1] at hs; cases hs
    | some s1 =>
      rw [h1] at hs
      exact ih (fun l' hl' => hc l' (List.mem_cons_of_mem _ hl'))
        hs (C52_never_leaves_refuted s hm l s1 h1 (hc l List.mem_cons_self).1 (hc l List.mem_cons_self).2)

/-- Non-vacuity: attached, the debuggee sends an event and goes, and the input has ended; no disconnect was sent. -/
example : ∃ s, run init attached = some s ∧ s.main = .run true [] ∧ ∃ s', run s ([.eof, .deb (.event 7), .recv, .eof, .close false] ++ List.replicate 6 .recv ++ [.eof]) = some s' ∧
    s'.recv = .ended ∧ s'.main = .run true [] :=
  ⟨_, rfl, rfl, _, rfl, rfl, rfl⟩

/-- Non-vacuity: after a disconnect request the loop is left. -/
example : ∃ s, run init (attached ++ [.client (.req .disconnect 0), .main, .main]) = some s ∧ s.main = .run false [.join] := ⟨_, rfl, rfl⟩

/-! ## C53 -/

open Verif.Conn Verif.Dap in
/-- C53 is false of the code: at log level debug a chunk that is not valid UTF-8 by itself (because
it ends within a character) stops the adapter with an exception before any of its messages is
processed, ... -/
theorem C53_refuted (feq : Str → Nat → Bool) (c : Conn) (d : Bytes) (ds : List Bytes) (h : utf8Decode d = none) (ms : List Val)
    (r : Option PyErr) (hf : Feed true feq c (d :: ds) ms r) : ms = [] ∧ r = some .value := by
  cases hf with
  | log _ _ => exact ⟨rfl, rfl⟩
  | fail h1 _ => exact absurd h (h1 rfl)
  | next h1 _ _ => exact absurd h (h1 rfl)

open Verif.Conn Verif.Dap in
/-- ... although the same input at any other level is processed: a threads request with an extra
member that contains a two-byte character, cut within it. -/
theorem C53_witness_refuted (feq : Str → Nat → Bool) : ∃ d1 d2 : Bytes, utf8Decode d1 = none ∧
    ∃ m, Feed false feq Conn.init [d1, d2] [m] none := by
  let d1 : Bytes := bytes!"Content-Length: 60\r\n\r\n{\"seq\": 1, \"type\": \"request\", \"command\": \"threads\", \"" ++ [0xc3]
  let d2 : Bytes := [0xa9] ++ bytes!"\": 0}"
  refine ⟨d1, d2, by decide +kernel, ?_⟩
  have h1 : nextMessage feq (receiveData Conn.init d1) = (.ok none, receiveData Conn.init d1) := rfl
  have h2 : ∃ m c, nextMessage feq (receiveData (receiveData Conn.init d1) d2) = (.ok (some m), c) ∧
      nextMessage feq c = (.ok none, c) := by
    refine ⟨_, _, rfl, ?_⟩
    rfl
  obtain ⟨m, c, h2, h3⟩ := h2
  exact ⟨m, .next (ms := []) (by simp) (.stop h1) (.next (ms := [m]) (by simp) (.more h2 (.stop h3)) .done)⟩

open Verif.Conn Verif.Dap in
/-- C53, the part that holds: if every chunk is valid UTF-8 by itself (in particular for ASCII input) the messages and the
outcome do not depend on the log level. -/
theorem C53_valid_chunks_partial (feq : Str → Nat → Bool) (ds : List Bytes) (h : ∀ d ∈ ds, utf8Decode d ≠ none) (c : Conn)
    (ms : List Val) (r : Option PyErr) : Feed true feq c ds ms r ↔ Feed false feq c ds ms r := by
  constructor
  · intro hf
    induction hf with
    | done => exact .done
    | log _ h1 => exact absurd h1 (h _ List.mem_cons_self)
    | fail _ h2 => exact .fail (by simp) h2
    | next _ h2 _ ih => exact .next (by simp) h2 (ih fun d hd => h d (List.mem_cons_of_mem _ hd))
  · intro hf
    induction hf with
    | done => exact .done
    | log h1 _ => cases h1
    | fail _ h2 => exact .fail (fun _ => h _ List.mem_cons_self) h2
    | next _ h2 _ ih => exact .next (fun _ => h _ List.mem_cons_self) h2 (ih fun d hd => h d (List.mem_cons_of_mem _ hd))

open Verif.Conn Verif.Dap in
/-- C53, exactly: up to the first chunk that is not valid UTF-8 by itself the log level makes no difference; if there is such a chunk `d`, at level
debug nothing of it and of what follows is processed, and the adapter ends there with an exception unless it has ended before. -/
theorem C53_exact_partial (feq : Str → Nat → Bool) (good : List Bytes) (h : ∀ d ∈ good, utf8Decode d ≠ none) (d : Bytes) (hd : utf8Decode d = none)
    (ds : List Bytes) (c : Conn) (ms : List Val) (r : Option PyErr) :
    Feed true feq c (good ++ d :: ds) ms r ↔ ∃ r0, Feed false feq c good ms r0 ∧ r = some (r0.getD .value) := by
  induction good generalizing c ms with
  | nil =>
    constructor
    · intro hf
      obtain ⟨rfl, rfl⟩ := C53_refuted feq c d ds hd ms r hf
      exact ⟨none, .done, rfl⟩
    · rintro ⟨r0, hf, rfl⟩
      cases hf
      exact .log rfl hd
  | cons g good ih =>
    have hg := h g List.mem_cons_self
    have ih := fun c ms => ih (fun d hd => h d (List.mem_cons_of_mem _ hd)) c ms
    constructor
    · intro hf
      cases hf with
      | log _ h1 => exact absurd h1 hg
      | fail _ h2 => exact ⟨_, .fail (by simp) h2, rfl⟩
      | next _ h2 h3 =>
        obtain ⟨r0, h4, h5⟩ := (ih _ _).1 h3
        exact ⟨r0, .next (by simp) h2 h4, h5⟩
    · rintro ⟨r0, hf, rfl⟩
      cases hf with
      | log h1 _ => cases h1
      | fail _ h2 => exact .fail (fun _ => hg) h2
      | next _ h2 h3 => exact .next (fun _ => hg) h2 ((ih _ _).2 ⟨r0, h3, rfl⟩)

/-- Non-vacuity: an ASCII chunk. -/
example : utf8Decode bytes!"Content-Length: 2\r\n\r\n{}" ≠ none := by decide +kernel

/-! ## C54 -/

theorem total_count {α : Type} [DecidableEq α] (f : α → Nat) (a : α) (h : f a = 1) (l : List α) : l.count a ≤ total f l := by
  induction l with
  | nil => simp
  | cons b l ih =>
    rw [List.count_cons, total_cons]
    by_cases hb : b = a
    · subst hb; simp [h]; omega
    · simp [hb]; omega

/-- C54: a launch request leads to at most one runInTerminal request and at most one launch
response, in every execution. -/
theorem C54_at_most_one (s : S) (h : Reach s) (q : Nat) : s.outs.count (.runIn q) ≤ 1 ∧ s.outs.count (.launchResp q) ≤ 1 := by
  have h1 := runIn_one h q
  have h2 := deal_one h q
  have h3 := total_count (wRunIn q).v (.runIn q) (by simp [wRunIn]) s.outs
  have h4 := total_count (wDeal q).v (.launchResp q) (by simp [wDeal]) s.outs
  have h5 : total (wRunIn q).v s.outs ≤ (wRunIn q).sum s := by simp only [W.sum]; omega
  have h6 : total (wDeal q).v s.outs ≤ (wDeal q).sum s := by simp only [W.sum]; omega
  constructor
  · split at h1 <;> omega
  · split at h2 <;> omega

/-- C54: a launch request that is received while there is no debuggee leads to a runInTerminal
request (unless creating the queues or the script fails). -/
theorem C54_terminal_requested (s : S) (c : Bool) (b : Nat) (hm : s.main = .run c []) (hd : s.debSet = false) :
    ∃ s', run s [.client (.req .launch b), .main, .main, .main, .main] = some s' ∧ s'.main = .run c [] ∧
      s'.outs = s.outs ++ [.runIn s.nextIn] ∧ Dict.get? s'.runIn (s.outs.length + 1) = some s.nextIn ∧ s'.debSet = true ∧
      s'.cancelled = false := by
  refine ⟨_, by simp [run, step, hm, handle, hd, exec]; rfl, rfl, rfl, ?_, rfl, rfl⟩
  rw [DL.get_set]; simp

/-- C54: when the client answers it and the playbook connects, the launch response for the original
request is sent and the configuration follows. -/
theorem C54_handshake (s : S) (c : Bool) (r q : Nat) (hm : s.main = .run c []) (hr : Dict.get? s.runIn r = some q)
    (hc : s.cancelled = false) :
    ∃ s', run s [.client (.runInResp r), .main, .main, .main, .main, .main] = some s' ∧ s'.main = .run c [] ∧
      s'.outs = s.outs ++ [.launchResp q] ∧ s'.toDeb = s.toDeb ++ [.config] ∧ s'.recv = .loop [] ∧ s'.launchQ = false := by
  refine ⟨{ s with
    nextIn := s.nextIn + 1, runIn := Dict.erase s.runIn r, recv := .loop [], launchQ := false,
    outs := s.outs ++ [.launchResp q], incoming := Dict.erase s.incoming q, toDeb := s.toDeb ++ [.config] }, ?_, ?_, rfl, rfl, rfl, rfl⟩
  · simp [run, step, hm, handle, hr, exec, hc, sendProg, Body.answers, S.cut]
    rfl
  · exact hm

/-- C54: a launch response is sent only after the runInTerminal request for it, and after the
client has answered that. -/
theorem C54_order (ls : List Lbl) (s : S) (h : Trace ls s) (j q : Nat) (hj : s.outs[j]? = some (.launchResp q)) :
    ∃ i, i < j ∧ s.outs[i]? = some (.runIn q) ∧ .client (.runInResp (i + 1)) ∈ ls := (hinv_trace h).outs j q hj

/-- C54: when the main thread is done with the handling of a message after which a launch response
was sent, the configuration has been sent too. -/
theorem C54_config_sent (s : S) (h : Reach s) (c : Bool) (hm : s.main = .run c []) (q : Nat) (hq : .launchResp q ∈ s.outs) :
    .config ∈ s.toDeb := by
  rcases cfg_reach h c [] hm ⟨_, rfl, .inl hq⟩ with h1 | h1
  · cases h1
  · exact h1

/-- C54: if the launched process ends first (the wait for it is cancelled), the terminated event has
been sent when the main thread goes on, ... -/
theorem C54_ended_first (s s1 s' : S) (h : Reach s) (c : Bool) (q : Nat) (p : List Act) (hm : s.main = .run c (.accept q :: p))
    (hs : step s .mainAlt = some s1) (ls : List Lbl) (hr : run s1 ls = some s')
    (hd : (∃ c, s'.main = .run c []) ∨ ∃ e, s'.main = .done e) : .terminated ∈ s'.outs := by
  have h1 : Doomed s1 := by
    simp only [step, hm, altProg] at hs
    cases hs
    right; right; left
    simp [Main.prog, stopProg]
  rcases doomed_run (.step h hs) h1 hr with h2 | h2 | h2 | h2
  · exact h2
  · rcases hd with ⟨c, hd⟩ | ⟨e, hd⟩ <;> rw [hd] at h2 <;> cases h2
  · rcases hd with ⟨c, hd⟩ | ⟨e, hd⟩ <;> rw [hd] at h2 <;> cases h2
  · rcases hd with ⟨c, hd⟩ | ⟨e, hd⟩ <;> rw [hd] at h2 <;> cases h2

theorem next_mono {s s' : S} {l : Lbl} (hs : step s l = some s') : s.nextIn ≤ s'.nextIn := by
  have hst := step_iff s l s' hs
  cases hst with
  | @handled s2 c c' m p hm hh =>
    obtain ⟨e1, e2, e3, _⟩ := handle_rec hh
    simp only [e3]; omega
  | @unhandled c m hm hh => cases m <;> exact Nat.le_succ _
  | @mainGo s1 ex b a p more hm he => simp only [(exec_sub he).2.2]; omega
  | @recvGo s1 cl a p more hm he => simp only [(exec_sub he).2.2]; omega
  | _ => exact Nat.le_refl _

/-- The weight of a request that was received earlier does not grow. -/
theorem weight_run (o : W) (q : Nat) (ho : ∀ deb q' k b, q' ≠ q → total o.w (reqProg deb q' k b) = 0) :
    ∀ {ls : List Lbl} {s s' : S}, q < s.nextIn → run s ls = some s' → o.sum s' ≤ o.sum s
  | [], s, s', _, hr => by cases hr; exact Nat.le_refl _
  | l :: ls, s, s', hq, hr => by
    simp only [run] at hr
    cases hs : step s l with
    | none => rw [hs] at hr; cases hr
    | some s1 =>
      rw [hs] at hr
      have h1 := o.step hs
      have h2 := weight_run o q ho (Nat.lt_of_lt_of_le hq (next_mono hs)) hr
      have h3 : gain o s l = 0 := by
        unfold gain
        split
        · exact ho _ _ _ _ (by omega)
        · rfl
      omega

theorem deal_other (q : Nat) : ∀ deb q' k b, q' ≠ q → total (wDeal q).w (reqProg deb q' k b) = 0 := by
  intro deb q' k b h
  cases deb <;> cases k <;> simp [reqProg, wDeal, sendProg, Body.answers, h]

/-- ... and no launch response for that request is ever sent. -/
theorem C54_ended_first_no_response (s s1 s' : S) (h : Reach s) (c : Bool) (q : Nat) (p : List Act)
    (hm : s.main = .run c (.accept q :: p)) (hs : step s .mainAlt = some s1) (ls : List Lbl) (hr : run s1 ls = some s') :
    .launchResp q ∉ s'.outs := by
  have h1 := deal_one h q
  have hsum : (wDeal q).sum s = 1 + (wDeal q).sum s1 := by
    simp only [step, hm, altProg] at hs
    cases hs
    simp only [W.sum, hm, Main.prog, total_append, total_cons, (wDeal q).stop]
    simp [wDeal]; omega
  have hlt : q < s.nextIn := by
    by_cases hh : q < s.nextIn
    · exact hh
    · rw [if_neg hh] at h1; omega
  have h2 := weight_run (wDeal q) q (deal_other q) (Nat.lt_of_lt_of_le hlt (next_mono hs)) hr
  rw [if_pos hlt] at h1
  have h4 := total_count (wDeal q).v (.launchResp q) (by simp [wDeal]) s'.outs
  have h6 : total (wDeal q).v s'.outs ≤ (wDeal q).sum s' := by simp only [W.sum]; omega
  intro hmem
  have := List.count_pos_iff.2 hmem
  omega

/-- Non-vacuity: the whole handshake, ... -/
example : ∃ s, Trace launched s ∧ s.main = .run true [] ∧ s.outs = [.initResp 1, .runIn 2, .launchResp 2] ∧ s.toDeb = [.config] :=
  ⟨_, trace_of rfl, rfl, rfl, rfl⟩

/-- ... and the launched process ending first. -/
example : ∃ s s1 ls s', Reach s ∧ s.main = .run true [.accept 2] ∧ step s .mainAlt = some s1 ∧ run s1 ls = some s' ∧
    s'.main = .run true [] ∧ s'.outs = [.initResp 1, .runIn 2, .terminated] :=
  ⟨_, _, List.replicate 11 .main, _, reach_of (ls := launched.take 9) rfl, rfl, rfl, rfl, rfl, rfl⟩

/-! ## C55 -/

/-- C55: a request (other than disconnect) received while a debuggee is set is only forwarded: the
next thing the main thread does is to send it to the debuggee, unchanged, and nothing else. -/
theorem C55_forwarded_partial (s : S) (c : Bool) (k : ReqKind) (b : Nat) (hm : s.main = .run c []) (hd : s.debSet = true)
    (hk : k ≠ .disconnect) :
    ∃ s1, step s (.client (.req k b)) = some s1 ∧ s1.main = .run c [.send (.req k s.nextIn b)] ∧ s1.outs = s.outs ∧
    ∀ s2 : S, s2.main = .run c [.send (.req k s.nextIn b)] → s2.cut = false →
      ∃ s3, step s2 .main = some s3 ∧ s3.main = .run c [] ∧ s3.outs = s2.outs ∧ s3.toDeb = s2.toDeb ++ [.req k s.nextIn b] := by
  refine ⟨{ s with
    nextIn := s.nextIn + 1, incoming := Dict.set s.incoming s.nextIn k, reqs := s.reqs ++ [(s.nextIn, k, b)],
    main := .run c [.send (.req k s.nextIn b)] }, ?_, rfl, rfl, ?_⟩
  · simp only [step, hm, handle, hd, cond_true]
  · intro s2 h2 hc
    refine ⟨{ s2 with main := .run c [], toDeb := s2.toDeb ++ [.req k s.nextIn b] }, ?_, rfl, rfl, rfl⟩
    simp only [step, h2, exec, hc, cond_false]; rfl

/-- C55: a disconnect request received while a debuggee is set is forwarded too (if the debuggee is connected), before its
connection is closed. -/
theorem C55_disconnect_forwarded_partial (s : S) (c : Bool) (b : Nat) (hm : s.main = .run c []) (hd : s.debSet = true) :
    ∃ s1, step s (.client (.req .disconnect b)) = some s1 ∧
      s1.main = .run false [.sendQuiet (.req .disconnect s.nextIn b), .cancel, .join] ∧ s1.outs = s.outs ∧
    ∀ s2 : S, s2.main = s1.main → s2.cut = false →
      ∃ s3, step s2 .main = some s3 ∧ s3.main = .run false [.cancel, .join] ∧ s3.outs = s2.outs ∧
        s3.toDeb = s2.toDeb ++ [.req .disconnect s.nextIn b] := by
  refine ⟨{ s with
    nextIn := s.nextIn + 1, incoming := Dict.set s.incoming s.nextIn .disconnect,
    reqs := s.reqs ++ [(s.nextIn, .disconnect, b)],
    main := .run false [.sendQuiet (.req .disconnect s.nextIn b), .cancel, .join] }, ?_, rfl, rfl, ?_⟩
  · simp only [step, hm, handle, hd, cond_true]
  intro s2 h2 hc
  simp only [S.cut, Bool.or_eq_false_iff] at hc
  refine ⟨{ s2 with main := .run false [.cancel, .join], toDeb := s2.toDeb ++ [.req .disconnect s.nextIn b] }, ?_, rfl, rfl, rfl⟩
  simp only [step, h2, exec, hc.1, hc.2, cond_false]; rfl

/-- C55: a request that was forwarded is never also handled by the adapter: there is no initialize,
attach, launch response or runInTerminal request for it; and it is forwarded once. -/
theorem C55_forwarded_or_handled_partial (s : S) (h : Reach s) (q : Nat) (k : ReqKind) (b : Nat) (hf : .req k q b ∈ s.toDeb) :
    .initResp q ∉ s.outs ∧ .attachResp q ∉ s.outs ∧ .launchResp q ∉ s.outs ∧ .runIn q ∉ s.outs ∧
    s.toDeb.count (.req k q b) = 1 := by
  have h1 := runIn_one h q
  have h2 := deal_one h q
  have hpos := List.count_pos_iff.2 hf
  have d1 := total_count (wRunIn q).x (.req k q b) (by simp [wRunIn]) s.toDeb
  have d2 := total_count (wDeal q).x (.req k q b) (by simp [wDeal]) s.toDeb
  have a1 := total_count (wDeal q).v (.initResp q) (by simp [wDeal]) s.outs
  have a2 := total_count (wDeal q).v (.attachResp q) (by simp [wDeal]) s.outs
  have a3 := total_count (wDeal q).v (.launchResp q) (by simp [wDeal]) s.outs
  have a4 := total_count (wRunIn q).v (.runIn q) (by simp [wRunIn]) s.outs
  have e1 : total (wRunIn q).v s.outs + total (wRunIn q).x s.toDeb ≤ (wRunIn q).sum s := by simp only [W.sum]; omega
  have e2 : total (wDeal q).v s.outs + total (wDeal q).x s.toDeb ≤ (wDeal q).sum s := by simp only [W.sum]; omega
  have u1 : (wRunIn q).sum s ≤ 1 := by split at h1 <;> omega
  have u2 : (wDeal q).sum s ≤ 1 := by split at h2 <;> omega
  refine ⟨?_, ?_, ?_, ?_, by omega⟩ <;>
    (intro hx; have := List.count_pos_iff.2 hx; omega)

/-- The messages sent to the debuggee for request `q`. -/
def wFwd (q0 : Nat) : W where
  w a := match a with
    | .send (.req _ q _) | .sendQuiet (.req _ q _) => if q = q0 then 1 else 0
    | _ => 0
  v _ := 0
  x m := match m with | .req _ q _ => if q = q0 then 1 else 0 | _ => 0
  u _ := 0
  write b := by cases b <;> simp
  runIn q r := by simp
  reg q r := by simp
  acc q := by simp
  acc' q := by simp
  send m := by cases m <;> simp
  sendQ m := by cases m <;> simp
  disc q := rfl
  err q := rfl
  relay m := rfl
  term := rfl
  pop q := rfl
  zero a h := by
    simp only [List.mem_cons, List.not_mem_nil, or_false] at h
    rcases h with rfl | rfl | rfl | rfl | rfl | rfl | rfl | rfl | rfl | rfl | rfl <;> rfl

/-- C55: a request received while no debuggee is set is handled by the adapter (an exception if it
cannot) and never forwarded, not even later. -/
theorem C55_not_forwarded_before_partial (s s1 s' : S) (h : Reach s) (k : ReqKind) (b : Nat) (hd : s.debSet = false)
    (hs : step s (.client (.req k b)) = some s1) (ls : List Lbl) (hr : run s1 ls = some s') (k' : ReqKind) (b' : Nat) :
    .req k' s.nextIn b' ∉ s'.toDeb := by
  have ho : ∀ deb q' k b, q' ≠ s.nextIn → total (wFwd s.nextIn).w (reqProg deb q' k b) = 0 := by
    intro deb q' k b h
    cases deb <;> cases k <;> simp [reqProg, wFwd, sendProg, Body.answers, h]
  have h0 : (wFwd s.nextIn).sum s = 0 := by
    have := (wFwd s.nextIn).one s.nextIn (by
      intro deb q k b
      cases deb <;> cases k <;> simp [reqProg, wFwd, sendProg, Body.answers]) h
    simpa using this
  have h1 := (wFwd s.nextIn).step hs
  have h2 : gain (wFwd s.nextIn) s (.client (.req k b)) = 0 := by
    simp only [gain, hd]
    cases k <;> simp [reqProg, wFwd, sendProg, Body.answers]
  have hlt : s.nextIn < s1.nextIn := by
    have hst := step_iff s _ s1 hs
    cases hst with
    | @handled s2 c c' m p hm hh =>
      obtain ⟨e1, e2, e3, _⟩ := handle_rec hh
      simp only [e3]; omega
    | @unhandled c m hm hh => exact Nat.lt_succ_self _
  have h3 := weight_run (wFwd s.nextIn) s.nextIn ho hlt hr
  have h4 := total_count (wFwd s.nextIn).x (.req k' s.nextIn b') (by simp [wFwd]) s'.toDeb
  have h5 : total (wFwd s.nextIn).x s'.toDeb ≤ (wFwd s.nextIn).sum s' := by simp only [W.sum]; omega
  intro hmem
  have := List.count_pos_iff.2 hmem
  omega

/-- C55 is false of the code in one respect: between the launch request and the connection of the
playbook a debuggee is set but nobody is connected to it. A request received then is not forwarded:
it stops the adapter with an exception. -/
theorem C55_refuted : ∃ ls s s1 s2, run init ls = some s ∧ s.main = .run true [] ∧ s.debSet = true ∧
    step s (.client (.req .other 5)) = some s1 ∧ step s1 .main = some s2 ∧ s2.main = .exiting true (stopProg true false) ∧
    s2.toDeb = [] :=
  ⟨launched.take 8, _, _, _, rfl, rfl, rfl, rfl, rfl, rfl, rfl⟩

/-- Non-vacuity of the C55 theorems: a forwarded request. -/
example : ∃ s, Reach s ∧ ToDeb.req .initialize 3 7 ∈ s.toDeb := by
  refine ⟨_, reach_of (ls := attached ++ [.client (.req .initialize 7), .main]) rfl, ?_⟩
  decide +kernel

/-- Non-vacuity: a request before there is a debuggee. -/
example : ∃ s s1, Reach s ∧ s.debSet = false ∧ step s (.client (.req .initialize 7)) = some s1 :=
  ⟨_, _, .init, rfl, rfl⟩

/-! ## C56 -/

/-- C56: with a processId (that is not null) the connection goes to the address and TLS setting
recorded in the file of that process; it fails if there is no such file or it does not contain them. -/
theorem C56_process_id (fz : Str → Bool) (fl : Json → Bool) (str : Json → Str) (dir : Str → Option Str)
    (data : List (Str × Json)) (a : AttachArgs) (ha : attachFromJson fz fl data = some a)
    (pid : Json) (hp : Dict.get? data py!"processId" = some pid) (hn : pid ≠ .null) (addr tls : Json) :
    connTuple fz str dir a = some (addr, tls) ↔
      ∃ text d, dir (pidName str pid) = some text ∧ loads text = some (.obj d) ∧ Dict.get? d py!"address" = some addr ∧
        Dict.get? d py!"use_tls" = some tls ∧ (∃ x, Dict.get? d py!"pid" = some x) ∧ ∃ x, Dict.get? d py!"playbook_file" = some x := by
  have hpid : a.processId = pid := by
    unfold attachFromJson at ha
    split at ha
    · cases ha
    split at ha <;> cases ha
    simp [getD, hp]
  have hform : connTuple fz str dir a = (do
      let text ← dir (pidName str pid)
      let info ← infoFromJson (← loads text)
      some (info.address, info.useTls)) := by
    unfold connTuple
    rw [hpid]
    cases pid <;> first | exact absurd rfl hn | rfl
  rw [hform]
  cases h1 : dir (pidName str pid) with
  | none => simp
  | some text =>
    cases h2 : loads text with
    | none => simp [h2]
    | some j =>
      cases j with
      | obj d =>
        simp only [infoFromJson, Option.bind_eq_bind, Option.bind_some, h2, Option.some.injEq]
        cases h3 : Dict.get? d py!"pid" <;> cases h4 : Dict.get? d py!"address" <;> cases h5 : Dict.get? d py!"use_tls" <;>
          cases h6 : Dict.get? d py!"playbook_file" <;> simp [h2, h3, h4, h5, h6]
      | _ => simp [infoFromJson, h2]

/-- C56: without one the connection goes to the given address (if it is not empty) with the given
useTls, and fails if there is none. -/
theorem C56_address (fz : Str → Bool) (fl : Json → Bool) (str : Json → Str) (dir : Str → Option Str)
    (data : List (Str × Json)) (a : AttachArgs) (ha : attachFromJson fz fl data = some a)
    (hp : Dict.get? data py!"processId" = none ∨ Dict.get? data py!"processId" = some .null) :
    (∀ addr, Dict.get? data py!"address" = some addr → truthy fz addr = true →
      connTuple fz str dir a = some (addr, .bool (match Dict.get? data py!"useTls" with | some v => truthy fz v | none => false))) ∧
    ((Dict.get? data py!"address" = none ∨ ∃ addr, Dict.get? data py!"address" = some addr ∧ truthy fz addr = false) →
      connTuple fz str dir a = none) := by
  have hA : a.processId = .null ∧ a.address = getD data py!"address" (.str []) ∧ a.useTls = truthy fz (getD data py!"useTls" (.bool false)) := by
    unfold attachFromJson at ha
    split at ha
    · cases ha
    split at ha <;> cases ha
    refine ⟨?_, rfl, rfl⟩
    rcases hp with hp | hp <;> simp [getD, hp]
  obtain ⟨h1, h2, h3⟩ := hA
  have hform : connTuple fz str dir a = bif truthy fz a.address then some (a.address, .bool a.useTls) else none := by
    unfold connTuple; rw [h1]
  rw [hform, h2, h3]
  refine ⟨?_, ?_⟩
  · intro addr ha ht
    simp only [getD, ha, Option.getD_some, ht, cond_true]
    cases h : Dict.get? data py!"useTls" <;> simp [truthy]
  · rintro (ha | ⟨addr, ha, ht⟩)
    · simp [getD, ha, truthy]
    · simp [getD, ha, ht]

/-- C56: attaching by the process id finds exactly what a listening debuggee has written into its
file (the file contains `json.dumps(info.to_json())`). -/
theorem C56_round_trip (fz : Str → Bool) (fl : Json → Bool) (str : Json → Str) (dir : Str → Option Str)
    (data : List (Str × Json)) (a : AttachArgs) (ha : attachFromJson fz fl data = some a)
    (pid : Int) (hp : Dict.get? data py!"processId" = some (.int pid)) (info : ProcInfo)
    (hw : (infoToJson info).WF) (hf : dir (py!"ansibug-pid-" ++ intDec pid) = some (dumps (infoToJson info))) :
    connTuple fz str dir a = some (info.address, info.useTls) := by
  refine (C56_process_id fz fl str dir data a ha (.int pid) hp (by simp) _ _).2 ?_
  refine ⟨_, _, hf, loads_dumps _ hw, ?_⟩
  simp [Dict.get?]

/-- C56: the path mappings of an attach request are those of its arguments, one for one and in order; an entry without one
of the roots fails the request. -/
theorem C56_mappings (fz : Str → Bool) (fl : Json → Bool) (data : List (Str × Json)) (l : List Json)
    (hp : Dict.get? data py!"pathMappings" = some (.arr l)) :
    (∀ a, attachFromJson fz fl data = some a → a.mappings.length = l.length ∧
      ∀ (i : Nat) j m, l[i]? = some j → a.mappings[i]? = some m → IsMapping j m) ∧
    (∀ j ∈ l, (∀ m, ¬ IsMapping j m) → attachFromJson fz fl data = none) ∧
    ((∀ j ∈ l, ∃ m, IsMapping j m) → fl ((Dict.get? data py!"connectTimeout").getD (.float py!"5.0")) = true →
      (attachFromJson fz fl data).isSome = true) := by
  have hg : getD data py!"pathMappings" (.arr []) = .arr l := by simp [getD, hp]
  refine ⟨fun a ha => ?_, fun j hj hn => ?_, fun hall hf => ?_⟩
  · unfold attachFromJson at ha
    rw [hg] at ha
    split at ha
    · cases ha
    · rename_i ms hms
      split at ha <;> cases ha
      exact (mappingList_iff l ms).1 hms
  · unfold attachFromJson
    rw [hg]
    rw [mappingsOf, mappingList_none l j hj hn]
  · unfold attachFromJson
    rw [hg]
    obtain ⟨ms, hms⟩ := mappingList_total l hall
    rw [mappingsOf, hms]
    simp only
    rw [if_pos (show fl (getD data py!"connectTimeout" (.float py!"5.0")) = true from hf)]
    rfl

/-- C56: without path mappings there are none. -/
theorem C56_no_mappings (fz : Str → Bool) (fl : Json → Bool) (data : List (Str × Json)) (a : AttachArgs)
    (hp : Dict.get? data py!"pathMappings" = none) (ha : attachFromJson fz fl data = some a) : a.mappings = [] := by
  unfold attachFromJson at ha
  rw [show mappingsOf (getD data py!"pathMappings" (.arr [])) = some [] by simp [getD, hp, mappingsOf, mappingList]] at ha
  simp only at ha
  split at ha <;> cases ha
  rfl

/-- C56: path mappings that are no list: an empty text or object counts as no mappings, anything else fails the request. -/
theorem C56_mappings_no_list (fz : Str → Bool) (fl : Json → Bool) (data : List (Str × Json)) (j : Json)
    (hp : Dict.get? data py!"pathMappings" = some j) (hl : ∀ l, j ≠ .arr l) :
    (∀ a, attachFromJson fz fl data = some a → (j = .str [] ∨ j = .obj []) ∧ a.mappings = []) ∧
    ((j = .str [] ∨ j = .obj []) → fl ((Dict.get? data py!"connectTimeout").getD (.float py!"5.0")) = true →
      (attachFromJson fz fl data).isSome = true) := by
  have hg : getD data py!"pathMappings" (.arr []) = j := by simp [getD, hp]
  constructor
  · intro a ha
    unfold attachFromJson at ha
    rw [hg] at ha
    split at ha
    · cases ha
    · rename_i ms hms
      split at ha <;> cases ha
      cases j with
      | arr l => exact absurd rfl (hl l)
      | str t =>
        simp only [mappingsOf] at hms
        split at hms <;> simp_all
      | obj t =>
        simp only [mappingsOf] at hms
        split at hms <;> simp_all
      | _ => simp [mappingsOf] at hms
  · intro hj hf
    unfold attachFromJson
    rw [hg]
    have : mappingsOf j = some [] := by rcases hj with rfl | rfl <;> simp [mappingsOf]
    rw [this]
    simp only
    rw [if_pos (show fl (getD data py!"connectTimeout" (.float py!"5.0")) = true from hf)]
    rfl

example : (attachFromJson (fun _ => false) (fun _ => true) [(py!"pathMappings", .str [])]).isSome = true ∧
    attachFromJson (fun _ => false) (fun _ => true) [(py!"pathMappings", .str py!"/srv")] = none := ⟨rfl, rfl⟩

example : IsMapping (.obj [(py!"localRoot", .str py!"/me"), (py!"remoteRoot", .str py!"/srv")]) (.str py!"/me", .str py!"/srv") ∧
    ∀ m, ¬ IsMapping (.obj [(py!"remoteRoot", .str py!"/srv")]) m := by
  refine ⟨⟨_, rfl, rfl, rfl⟩, ?_⟩
  rintro m ⟨d, hd, h1, -⟩
  cases hd
  exact absurd h1 (by simp [Dict.get?])

/-- Non-vacuity: an attach request with a process id, and the file of that process. -/
example : ∃ a, attachFromJson (fun _ => false) (fun _ => true) [(py!"processId", .int 12)] = some a ∧
    connTuple (fun _ => false) (fun _ => []) (fun n => if n = py!"ansibug-pid-12" then
      some py!"{\"pid\": 12, \"address\": \"uds:///tmp/x\", \"use_tls\": false, \"playbook_file\": null}" else none) a =
      some (.str py!"uds:///tmp/x", .bool false) ∧
    (infoToJson ⟨.int 12, .str py!"uds:///tmp/x", .bool false, .null⟩).WF := by
  have hn : pidName (fun _ => []) (.int 12) = py!"ansibug-pid-12" := by simp [pidName, intDec, natDec]
  refine ⟨⟨.int 12, .str [], false, []⟩, rfl, ?_, ?_⟩
  · simp only [connTuple, hn]; rfl
  refine ⟨by decide +kernel, ?_⟩
  simp [Json.WFO, Json.WF]
  decide +kernel

end Verif.Props.Server
