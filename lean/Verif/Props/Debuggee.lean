import Verif.Debuggee.Hist2
import Verif.Debuggee.Wait
import Verif.Props.Server

/-!
# C57 - C60, C67, C68: the life of the debuggee

`Run c (init old) as s os`: the playbook thread, the send thread and the receive thread have made the
steps `as` in some interleaving, with the observations `os`; the state is then `s`. `old`: the
contents of a process file left behind by an earlier process with the same id.
-/

namespace Verif.Props.Debuggee
open Verif Verif.Debuggee

/-! ## A reference run -/

def info : Server.ProcInfo := ⟨.int 12, .str py!"tcp://127.0.0.1:1234", .bool false, .str py!"main.yml"⟩

/-- Listening without TLS; the playbook waits for the configuration. -/
def cfg : Cfg := ⟨true, false, false, info⟩

/-- The adapter connects and configures; one play with two tasks. -/
def session : List Act := [.pStart, .sEnter, .sAccept, .sEnter, .sGreet, .sFlag, .rMsg ⟨.debugConfig, 1⟩, .rDirect true,
  .sGet, .sEnter, .sSent, .rMsg ⟨.configurationDone, 2⟩, .rDirect true, .rSetConf, .pGo, .pPlay, .pTask none, .pTask (some 7)]

/-- The playbook ends; the messages are sent and the threads end. -/
def ending : List Act := [.pEndPlay, .pStats, .pCheck, .pPut, .sGet, .sEnter, .sSent, .sGet, .sEnter, .sSent, .sGet, .sCancel,
  .rCancelled, .rClear, .rConf, .rStrat, .rUnlink, .sJoin, .sClose, .sUnflag, .pJoin, .pClear, .pConf, .pStrat, .pUnlink]

def fin : Option (St × List Obs) := exec cfg (init none) (session ++ ending)

theorem reach_inv {c : Cfg} {old : Option Str} {as : List Act} {s : St} {os : List Obs} (h : Run c (init old) as s os) : Inv c s := by
  have := run_induct (c := c) (I := fun s _ => Inv c s) (fun i h => inv_step i h) h [] (inv_init c old)
  exact this

/-! ## C57 -/

/-- **C57.** Unless the playbook was told not to wait: whenever a task runs, configurationDone has been
received and then answered before, or the connection has ended, or the socket could not be set up at
all (the debugger is then not there). -/
theorem C57_tasks_wait_for_configuration {c : Cfg} {old : Option Str} {as : List Act} {s : St} {os before after : List Obs}
    (h : Run c (init old) as s os) (hw : c.noWait = false) (ho : os = before ++ Obs.task :: after) :
    ConfigAnswered before ∨ Obs.closed ∈ before ∨ Obs.started false ∈ before := by
  have key : ∀ {s s' : St} {as : List Act} {os : List Obs}, Run c s as s' os → ∀ hist before after : List Obs, HConf c s hist →
      os = before ++ Obs.task :: after → ConfigAnswered (hist ++ before) ∨ Obs.closed ∈ hist ++ before ∨ Obs.started false ∈ hist ++ before := by
    intro s s' as os hr
    induction hr with
    | nil => intro hist before after _ hc; simp at hc
    | @cons s s1 s2 a as o os hs hr ih =>
      intro hist before after hi ho
      by_cases ht : Obs.task ∈ o
      · -- the task runs in this step
        have hp : s.p = .play ∧ ∃ o', o = Obs.task :: o' ∧ Obs.task ∉ o' := by
          have hs' := hs
          step_cases a hs'
          all_goals simp_all
        obtain ⟨hp, o', rfl, hn⟩ := hp
        have hgo := hi.go (.inr hp)
        have hres : ConfigAnswered hist ∨ Obs.closed ∈ hist ∨ Obs.started false ∈ hist := by
          rcases hgo with h1 | h1 | h1 | h1
          · rw [hw] at h1; cases h1
          · exact .inr (.inr h1)
          · exact .inr (.inl h1)
          · exact .inl h1
        rcases hres with h1 | h1 | h1
        · exact .inl (h1.append _)
        · exact .inr (.inl (by simp [h1]))
        · exact .inr (.inr (by simp [h1]))
      · have hcut : ∃ b', before = o ++ b' ∧ os = b' ++ Obs.task :: after := by
          rcases List.append_eq_append_iff.1 ho with ⟨b', h1, h2⟩ | ⟨b', h1, h2⟩
          · exact ⟨b', h1, h2⟩
          · cases b' with
            | nil => exact ⟨[], by simpa using h1.symm, by simpa using h2.symm⟩
            | cons x b' => exfalso; simp only [List.cons_append, List.cons.injEq] at h2; apply ht; rw [h1, ← h2.1]; simp
        obtain ⟨b', rfl, h2⟩ := hcut
        have := ih (hist ++ o) b' after (hconf_step hi hs) h2
        simpa [List.append_assoc] using this
  have := key h [] before after (hconf_init c old) ho
  simpa using this

/-- Non-vacuity: in the reference run a task runs, after the answer to configurationDone. -/
example : ∃ s os before after, Run cfg (init none) session s os ∧ os = before ++ Obs.task :: after ∧ cfg.noWait = false ∧
    ConfigAnswered before ∧ Obs.closed ∉ before ∧ Obs.started false ∉ before :=
  ⟨_, _, [.started true, .received ⟨.debugConfig, 1⟩, .put (some .initialized), .wire .initialized, .received ⟨.configurationDone, 2⟩,
      .put (some (.resp .configurationDone 2 true)), .configured], _, run_of_exec rfl, rfl, rfl,
    ⟨2, by decide +kernel⟩, by decide +kernel, by decide +kernel⟩

/-! ## C68 -/

/-- **C68.** In a fair execution a playbook that waits goes on once configurationDone has been received
or the connection has ended.

Partial: see `C68_refuted`. -/
theorem C68_wait_ends_partial {c : Cfg} (e : Exec c) (h0 : Reach c (e.st 0)) (hf : Fair e) (n : Nat)
    (ha : (∃ k, e.act n = some (.rMsg ⟨.configurationDone, k⟩)) ∨ e.act n = some .rEof ∨ e.act n = some .rCancelled) :
    ∃ m, n < m ∧ (e.st m).p ≠ .wait := by
  obtain ⟨old, as, os, hr⟩ := h0
  have h0 := reach_inv hr
  have hk : ∃ k, toConf (e.st (n + 1)) = some k := by
    have h := e.ok n
    have one : ∀ {s s' : St} {a : Act} {o : List Obs}, step c s a = some (s', o) →
        ((∃ k, a = .rMsg ⟨.configurationDone, k⟩) ∨ a = .rEof ∨ a = .rCancelled) → ∃ k, toConf s' = some k := by
      intro s s' a o h ha
      cases hc : s'.confDone with
      | true => exact ⟨0, by simp [toConf, hc]⟩
      | false =>
        refine ⟨2, ?_⟩
        rcases ha with ⟨k, rfl⟩ | rfl | rfl
        all_goals
          simp only [step, Act.thread, stepR] at h
          split at h <;> cases h
          simp only at hc
          simp [toConf, hc]
    rcases ha with ⟨k, ha⟩ | ha | ha <;> rw [ha] at h <;> obtain ⟨o, h⟩ := h
    · exact one h (.inl ⟨k, rfl⟩)
    · exact one h (.inr (.inl rfl))
    · exact one h (.inr (.inr rfl))
  obtain ⟨k, hk⟩ := hk
  obtain ⟨m, hm, hne⟩ := wait_ends e h0 hf k (n + 1) hk
  exact ⟨m, by omega, hne⟩

/-- Non-vacuity: the adapter goes away while the playbook waits; at the end of the playbook nothing is
left to do. -/
def lostActs : List Act := [.pStart, .sEnter, .sAccept, .sEnter, .sGreet, .sFlag, .rEof, .rClear, .rConf, .rStrat, .rUnlink, .pGo,
  .pStats, .pCheck, .pPut, .sGet, .sCancel, .sJoin, .sClose, .sUnflag, .pJoin, .pClear, .pConf, .pStrat, .pUnlink]

theorem lost_some : (exec cfg (init none) lostActs).isSome = true := by decide +kernel

theorem not_ready_end {c : Cfg} {s : St} (hp : s.p = .done) (hs : s.s = .ended) (hr : s.r = .ended) (t : Thread) : ¬ Ready c s t := by
  cases t with
  | playbook =>
    rintro ⟨a, ha, h⟩
    cases a <;> simp [Act.thread] at ha <;> simp [step, Act.thread, stepP, hp] at h
  | send => simp [Ready, hs]
  | recv => simp [Ready, hr]

example : ∃ e : Exec cfg, Reach cfg (e.st 0) ∧ Fair e ∧ e.act 6 = some .rEof ∧ (e.st 6).p = .wait :=
  ⟨Exec.ofList cfg (init none) lostActs lost_some, ⟨none, [], [], .nil _⟩,
    Exec.ofList_fair _ (not_ready_end (by decide +kernel) (by decide +kernel) (by decide +kernel)), rfl, by decide +kernel⟩

/-- **C68** fails: when the connection cannot be made (connect mode and nobody listens, say), the send
thread ends, and the playbook waits for ever: nothing can happen any more. -/
theorem C68_refuted : ∃ c as s os, c.noWait = false ∧ Run c (init none) as s os ∧ s.p = .wait ∧ ∀ a, step c s a = none := by
  refine ⟨⟨false, false, false, info⟩, [.pStart, .sEnter, .sFail, .sCancel, .sJoin, .sClose, .sUnflag], _, _, rfl, run_of_exec rfl, rfl, ?_⟩
  intro a
  cases a <;> rfl

/-! ## C58 -/

/-- **C58.** In every fair execution in which TLS handshakes end, `shutdown()` returns (or raises), or the
three threads end up waiting for each other for ever, the receive thread for a strategy: there is no
other way for it to hang. -/
theorem C58_returns_or_deadlock_partial {c : Cfg} (e : Exec c) (h0 : Reach c (e.st 0)) (hf : Fair e) (hh : HandshakesEnd e)
    (n : Nat) (hp : inShutdown (e.st n).p = true) :
    (∃ m, n ≤ m ∧ ((e.st m).p = .done ∨ (e.st m).p = .failed)) ∨ ∃ m, n ≤ m ∧ Deadlock (e.st m) ∧ ∀ k, m ≤ k → e.st k = e.st m := by
  obtain ⟨old, as, os, hr⟩ := h0
  have h0 := reach_inv hr
  rcases shutdown_ends e h0 hf hh _ n rfl hp with h | ⟨m, hm, hd⟩
  · exact .inl h
  · exact .inr ⟨m, hm, hd, deadlock_for_ever e h0 m hd⟩

/-- The request being processed needs the strategy. -/
def busy : R → Bool
  | .got r | .need r => needsStrategy r.kind
  | _ => false

/-- **C58.** `shutdown()` returns (or raises) in every fair execution in which TLS handshakes end, if at its
start no request that needs the strategy is waiting for it and none is received any more.

Partial: see `C58_refuted` for such requests. -/
theorem C58_returns_partial {c : Cfg} (e : Exec c) (h0 : Reach c (e.st 0)) (hf : Fair e) (hh : HandshakesEnd e)
    (n : Nat) (hp : inShutdown (e.st n).p = true) (hn : busy (e.st n).r = false)
    (hm : ∀ m r, n ≤ m → e.act m = some (.rMsg r) → needsStrategy r.kind = false) :
    ∃ m, n ≤ m ∧ ((e.st m).p = .done ∨ (e.st m).p = .failed) := by
  rcases C58_returns_or_deadlock_partial e h0 hf hh n hp with h | ⟨m, hnm, ⟨-, -, r, hr⟩, -⟩
  · exact h
  · exfalso
    have hneed : ∀ k, ∀ r, (e.st k).r = .need r → needsStrategy r.kind = true := by
      obtain ⟨old, as, os, hrun⟩ := h0
      have base : HAns (e.st 0) os := by
        have hI := run_induct (c := c) (I := fun s os => Inv c s ∧ HAns s os)
          (fun i h => ⟨inv_step i.1 h, hans_step i.2 i.1.pre_r h⟩) hrun [] ⟨inv_init c old, by simp [HAns, init, pending, answers, reqs]⟩
        simpa using hI.2
      have all : ∀ k, ∃ os, HAns (e.st k) os := by
        intro k
        induction k with
        | zero => exact ⟨os, base⟩
        | succ k ih =>
          obtain ⟨os', ih⟩ := ih
          have h := e.ok k
          split at h
          · rw [h]; exact ⟨_, ih⟩
          · obtain ⟨o, h⟩ := h; exact ⟨_, hans_step ih (exec_inv e (reach_inv hrun) k).pre_r h⟩
      intro k r hr
      obtain ⟨os', h⟩ := all k
      exact h.1 r (.inl hr)
    have keep : ∀ k, n ≤ k → busy (e.st k).r = false := by
      intro k hk
      induction hk with
      | refl => exact hn
      | step hk ih =>
        rename_i k
        have h := e.ok k
        split at h
        · rw [h]; exact ih
        · rename_i a ha
          obtain ⟨o, h⟩ := h
          have hma := hm k
          have one : ∀ {s s' : St} {a : Act} {o : List Obs}, step c s a = some (s', o) → busy s.r = false →
              (∀ r, a = .rMsg r → needsStrategy r.kind = false) → busy s'.r = false := by
            intro s s' a o h hb hr
            step_cases a h
            all_goals first
              | (simp_all [busy]; done)
              | grind [busy]
          exact one h ih (fun r hr => hma r hk (by rw [ha, hr]))
    have hb := keep m hnm
    rw [hr] at hb
    simp [busy, hneed m r hr] at hb

/-- Non-vacuity: the reference run, ended by a request that arrives during the shutdown. -/
def endActs : List Act := session ++ [.pEndPlay, .pStats, .rMsg ⟨.setBreakpoints, 3⟩, .pCheck, .pPut, .rDirect true, .sGet, .sEnter, .sSent,
  .sGet, .sEnter, .sSent, .sGet, .sCancel, .rCancelled, .rClear, .rConf, .rStrat, .rUnlink, .sJoin, .sClose, .sUnflag, .pJoin, .pClear, .pConf, .pStrat, .pUnlink]

theorem end_some : (exec cfg (init none) endActs).isSome = true := by decide +kernel

/-- Without TLS there are no handshakes. -/
theorem no_handshakes {c : Cfg} (ht : c.tls = false) (e : Exec c) (h0 : (e.st 0).s ≠ .tls) : HandshakesEnd e := by
  intro i hi
  exfalso
  induction i with
  | zero => exact h0 hi
  | succ i ih =>
    apply ih
    have h := e.ok i
    split at h
    · rw [← h]; exact hi
    · rename_i a ha
      obtain ⟨o, h⟩ := h
      have one : ∀ {s s' : St} {a : Act} {o : List Obs}, step c s a = some (s', o) → s'.s = .tls → s.s = .tls := by
        intro s s' a o h hs
        step_cases a h
        all_goals simp_all
      exact one h hi

example : ∃ e : Exec cfg, Reach cfg (e.st 0) ∧ Fair e ∧ HandshakesEnd e ∧ inShutdown (e.st 20).p = true ∧ busy (e.st 20).r = false ∧
    e.act 20 = some (.rMsg ⟨.setBreakpoints, 3⟩) ∧ ∀ m r, 20 ≤ m → e.act m = some (.rMsg r) → needsStrategy r.kind = false := by
  refine ⟨Exec.ofList cfg (init none) endActs end_some, ⟨none, [], [], .nil _⟩,
    Exec.ofList_fair _ (not_ready_end (by decide +kernel) (by decide +kernel) (by decide +kernel)),
    no_handshakes rfl _ (by decide +kernel), by decide +kernel, by decide +kernel, by decide +kernel, ?_⟩
  intro m r hm ha
  have hmem : Act.rMsg r ∈ endActs.drop 20 := by
    have : (endActs.drop 20)[m - 20]? = some (.rMsg r) := by
      rw [List.getElem?_drop]
      have : 20 + (m - 20) = m := by omega
      rw [this]; exact ha
    exact List.mem_of_getElem? this
  simp [endActs, session] at hmem
  rw [hmem]; rfl

/-- **C58** fails: a threads request that arrives when the last play has ended is never answered, and the
end of the playbook never comes: the playbook thread waits for the send thread, that for the receive
thread, and that for a strategy. No action of anyone, the adapter included, can change this. -/
theorem C58_refuted : ∃ as s os, Run cfg (init none) as s os ∧ inShutdown s.p = true ∧ Deadlock s ∧ ∀ a, step cfg s a = none := by
  have hr : ∃ s os, exec cfg (init none) (session ++ [.pEndPlay, .rMsg ⟨.threads, 3⟩, .rAsk, .pStats, .pCheck, .pPut, .sGet, .sEnter, .sSent,
      .sGet, .sEnter, .sSent, .sGet, .sCancel]) = some (s, os) ∧ Deadlock s := ⟨_, _, rfl, rfl, rfl, ⟨.threads, 3⟩, rfl⟩
  obtain ⟨s, os, h, hd⟩ := hr
  have hrun := run_of_exec h
  exact ⟨_, s, os, hrun, by rw [hd.1]; rfl, hd, deadlock_stuck (reach_inv hrun) hd⟩

/-- **C58** fails, too, while a TLS handshake is in progress: it is not cancelled, and `shutdown()`
waits until the peer ends it. -/
theorem C58_handshake_refuted : ∃ c as s os, Run c (init none) as s os ∧ s.p = .join ∧ s.cancelled = true ∧
    ∀ a s1 o, step c s a = some (s1, o) → a = .sTls ∨ a = .sTlsFail := by
  refine ⟨⟨true, true, true, info⟩, [.pStart, .sEnter, .sAccept, .pGo, .pStats, .pCheck, .pCancel, .pPut], _, _, run_of_exec rfl, rfl, rfl, ?_⟩
  intro a s1 o h
  cases a <;> first | (exact .inl rfl) | (exact .inr rfl) | (cases h)

/-! ## C59 -/

theorem beforeEnd_of_none {ws : List Out} {rest : List (Option Out)} : beforeEnd (ws.map some ++ none :: rest) = ws := by
  induction ws with
  | nil => rfl
  | cons w ws ih => simp [beforeEnd, ih]

theorem beforeEnd_of_prefix {ws : List Out} {rest : List (Option Out)} : beforeEnd (ws.map some ++ rest) = ws ++ beforeEnd rest := by
  induction ws with
  | nil => rfl
  | cons w ws ih => simp [beforeEnd, ih]

theorem hqueue {c : Cfg} {old : Option Str} {as : List Act} {s : St} {os : List Obs} (h : Run c (init old) as s os) : HQueue s os := by
  have := run_induct (c := c) (I := fun s os => Inv c s ∧ HQueue s os)
    (fun i h => ⟨inv_step i.1 h, hqueue_step i.2 i.1.pre_off h⟩) h [] ⟨inv_init c old, hqueue_init old⟩
  simpa using this.2

/-- **C59.** The messages sent are always the first ones of the messages queued before the first end
mark, in the order of queueing, each once. -/
theorem C59_in_order {c : Cfg} {old : Option Str} {as : List Act} {s : St} {os : List Obs} (h : Run c (init old) as s os) :
    wires os <+: beforeEnd (puts os) := by
  have q := hqueue h
  by_cases hl : looping s.s = true ∨ s.s = .off
  · obtain ⟨h1, -⟩ := q.live hl
    rw [h1, List.append_assoc, beforeEnd_of_prefix]
    exact List.prefix_append _ _
  · have h1 : looping s.s = false := by
      cases hq : looping s.s with
      | false => rfl
      | true => exact absurd (.inl hq) hl
    obtain ⟨b, hb⟩ := q.ended h1 (fun h => hl (.inr h))
    cases b with
    | true => obtain ⟨rest, hr⟩ := q.byNone hb; rw [hr, beforeEnd_of_none]; exact List.prefix_rfl
    | false => obtain ⟨rest, hr⟩ := q.byError hb; rw [hr, beforeEnd_of_prefix]; exact List.prefix_append _ _

/-- **C59.** When the send thread ends because of an end mark, exactly the messages queued before the
first end mark have been sent. -/
theorem C59_all_before_the_end_mark {c : Cfg} {old : Option Str} {as : List Act} {s : St} {os : List Obs}
    (h : Run c (init old) as s os) (hs : Obs.stopped true ∈ os) : wires os = beforeEnd (puts os) := by
  obtain ⟨rest, hr⟩ := (hqueue h).byNone hs
  rw [hr, beforeEnd_of_none]

/-- **C59.** As long as the send thread runs nothing is lost: what has been queued has been sent, is
being sent, or is still in the queue. -/
theorem C59_nothing_lost {c : Cfg} {old : Option Str} {as : List Act} {s : St} {os : List Obs}
    (h : Run c (init old) as s os) (hs : ∀ b, Obs.stopped b ∉ os) :
    puts os = (wires os).map some ++ (match s.s with | .send m _ => [some m] | _ => []) ++ s.queue := by
  have q := hqueue h
  have hl : looping s.s = true ∨ s.s = .off := by
    apply Classical.byContradiction
    intro hl
    have h1 : looping s.s = false := by
      cases hq : looping s.s with
      | false => rfl
      | true => exact absurd (.inl hq) hl
    obtain ⟨b, hb⟩ := q.ended h1 (fun h => hl (.inr h))
    exact hs b hb
  rw [(q.live hl).1]
  congr 2

/-- Non-vacuity: three messages sent in the reference run, which ends with an end mark. -/
example : ∃ s os, Run cfg (init none) (session ++ ending) s os ∧ Obs.stopped true ∈ os ∧
    wires os = [.initialized, .resp .configurationDone 2 true, .event 7] :=
  ⟨_, _, run_of_exec rfl, by decide +kernel, by decide +kernel⟩

/-! ## C60 -/

theorem hfile {c : Cfg} {old : Option Str} {as : List Act} {s : St} {os : List Obs} (h : Run c (init old) as s os) : HFile c old s os := by
  have := run_induct (c := c) (I := fun s os => Inv c s ∧ HFile c old s os)
    (fun i h => ⟨inv_step i.1 h, hfile_step i.2 i.1 h⟩) h [] ⟨inv_init c old, hfile_init c old⟩
  simpa using this.2

/-- **C60.** In listen mode, from `start` until a call of `shutdown` returns, the process file exists
and holds the information of this process; after that it does not exist. Before `start` (and if it
fails, or in connect mode) the file is what it was. -/
theorem C60_exactly_while_up {c : Cfg} {old : Option Str} {as : List Act} {s : St} {os : List Obs} (h : Run c (init old) as s os) :
    (Obs.shutdown ∉ os → Obs.started true ∈ os → c.listen = true → s.file = some (dumps (Server.infoToJson c.info))) ∧
    (Obs.shutdown ∈ os → s.file = none) ∧
    (Obs.shutdown ∉ os → (Obs.started true ∉ os ∨ c.listen = false) → s.file = old) := by
  have hf := (hfile h).file
  refine ⟨fun h1 h2 h3 => ?_, fun h1 => ?_, fun h1 h2 => ?_⟩
  · rw [hf]; simp [h1, h2, h3, fileText]
  · rw [hf]; simp [h1]
  · rw [hf]
    rcases h2 with h2 | h2 <;> simp [h1, h2]

/-- **C60.** An attach request with the id of a listening debuggee goes to its address, with TLS iff it
uses TLS, from `start` until `shutdown` returns. -/
theorem C60_attach_finds_it {c : Cfg} {old : Option Str} {as : List Act} {s : St} {os : List Obs} (h : Run c (init old) as s os)
    (hs : Obs.shutdown ∉ os) (ho : Obs.started true ∈ os) (hl : c.listen = true) (hw : (Server.infoToJson c.info).WF)
    (pid : Int) (fz : Str → Bool) (fl : Json → Bool) (str : Json → Str) (dir : Str → Option Str)
    (hd : dir (py!"ansibug-pid-" ++ intDec pid) = s.file)
    (data : List (Str × Json)) (a : Server.AttachArgs) (ha : Server.attachFromJson fz fl data = some a)
    (hp : Dict.get? data py!"processId" = some (.int pid)) :
    Server.connTuple fz str dir a = some (c.info.address, c.info.useTls) := by
  apply Props.Server.C56_round_trip fz fl str dir data a ha pid hp c.info hw
  rw [hd, (C60_exactly_while_up h).1 hs ho hl]

/-- Non-vacuity. -/
example : (∃ s os, Run cfg (init (some [])) session s os ∧ Obs.shutdown ∉ os ∧ Obs.started true ∈ os) ∧ cfg.listen = true ∧ (Server.infoToJson cfg.info).WF ∧
    ∃ s os, Run cfg (init (some [])) (session ++ ending) s os ∧ Obs.shutdown ∈ os := by
  refine ⟨⟨_, _, run_of_exec rfl, by decide +kernel, by decide +kernel⟩, rfl, ?_, _, _, run_of_exec rfl, by decide +kernel⟩
  refine ⟨by decide +kernel, ?_⟩
  simp [cfg, info, Json.WFO, Json.WF]
  decide +kernel

/-! ## C67 -/

theorem hans {c : Cfg} {old : Option Str} {as : List Act} {s : St} {os : List Obs} (h : Run c (init old) as s os) : HAns s os := by
  have := run_induct (c := c) (I := fun s os => Inv c s ∧ HAns s os)
    (fun i h => ⟨inv_step i.1 h, hans_step i.2 i.1.pre_r h⟩) h [] ⟨inv_init c old, by simp [HAns, init, pending, answers, reqs]⟩
  simpa using this.2

/-- **C67.** The debuggee answers the requests it receives in their order, each exactly once, with its
command and its seq as request_seq, except that the last one may still be in work (disconnect is
answered by the adapter). -/
theorem C67_answers_in_order {c : Cfg} {old : Option Str} {as : List Act} {s : St} {os : List Obs} (h : Run c (init old) as s os) :
    ∃ rest, (answers os).filter answerable ++ rest = (reqs os).filter answerable ∧ rest.length ≤ 1 ∧
      (s.r = .idle ∨ s.r = .ended → rest = []) := by
  refine ⟨pending s.r, (hans h).2, ?_, ?_⟩
  · have hl : ∀ r : Req, (List.filter answerable [r]).length ≤ 1 := fun r => by
      cases hq : answerable r <;> simp [hq]
    cases s.r with
    | got r => exact hl r
    | need r => exact hl r
    | call r => exact hl r
    | _ => simp [pending]
  · rintro (h | h) <;> rw [h] <;> rfl

/-- **C67.** A disconnect request is answered by the debuggee only if it fails, and a request without a
handler always by an error. -/
theorem C67_only_failed_disconnects {c : Cfg} {old : Option Str} {as : List Act} {s : St} {os : List Obs} (h : Run c (init old) as s os)
    (k : Kind) (n : Int) (ok : Bool) (hp : Obs.put (some (.resp k n ok)) ∈ os) (hk : k = .disconnect ∨ ∃ x, k = .unsupported x) : ok = false := by
  have key : ∀ {s s' : St} {a : Act} {o : List Obs}, HAns s [] ∨ (∀ r, s.r = .call r → needsStrategy r.kind = true) → step c s a = some (s', o) →
      Obs.put (some (.resp k n ok)) ∈ o → ok = false := by
    intro s s' a o hc h hm
    have hc' : ∀ r, s.r = .call r → needsStrategy r.kind = true := by
      rcases hc with hc | hc
      · exact fun r hr => hc.1 r (.inr hr)
      · exact hc
    step_cases a h
    all_goals (first | (simp_all; done) | skip)
    all_goals (rcases hk with rfl | ⟨x, rfl⟩)
    all_goals (first | (simp_all; done) | skip)
    all_goals
      rename_i r hr _ _
      have h1 := hc' r hr
      have h2 : Kind.unsupported x = r.kind := by simp only [List.mem_singleton, Obs.put.injEq, Option.some.injEq, Out.resp.injEq] at hm; exact hm.1
      rw [← h2] at h1
      cases h1
  have all := run_induct (c := c) (I := fun s os => Inv c s ∧ HAns s os ∧ (Obs.put (some (.resp k n ok)) ∈ os → ok = false))
    (fun {s s' a o hist} i h => ⟨inv_step i.1 h, hans_step i.2.1 i.1.pre_r h, by
      intro hm
      rcases List.mem_append.1 hm with hm | hm
      · exact i.2.2 hm
      · exact key (.inr fun r hr => i.2.1.1 r (.inr hr)) h hm⟩)
    h [] ⟨inv_init c old, by simp [HAns, init, pending, answers, reqs], by simp⟩
  simp only [List.nil_append] at all
  exact all.2.2 hp

/-- The requests that concern a running play: they wait for one. -/
def ForPlay : Kind → Prop
  | .continue_ | .disconnect | .evaluate | .next | .scopes | .setVariable | .stackTrace | .stepIn | .stepOut
  | .terminate | .threads | .variables => True
  | .configurationDone | .setExceptionBreakpoints | .setBreakpoints | .debugConfig | .otherOutput | .unsupported _ => False

theorem needs_forPlay (k : Kind) : needsStrategy k = true ↔ ForPlay k := by cases k <;> simp [needsStrategy, ForPlay]

/-- Where the receive thread is changes by its own steps only, once it runs. -/
theorem recv_own {c : Cfg} {s s' : St} {a : Act} {o : List Obs} (i : Inv c s) (ht : a.thread ≠ .recv) (hr : s.r ≠ .off)
    (h : step c s a = some (s', o)) : s'.r = s.r := by
  have := i.pre_r
  step_cases a h
  all_goals first | rfl | (exact absurd rfl ht) | (simp_all [preLoop]; done)

/-- Either the receive thread makes a step, the first one after `i`, or it stays where it is for ever. -/
theorem recv_next {c : Cfg} (e : Exec c) (h0 : Inv c (e.st 0)) (i : Nat) (hr : (e.st i).r ≠ .off) :
    (∃ j, i ≤ j ∧ (e.st j).r = (e.st i).r ∧ ∃ a o, e.act j = some a ∧ a.thread = .recv ∧ step c (e.st j) a = some (e.st (j + 1), o)) ∨
    ∀ j, i ≤ j → (e.st j).r = (e.st i).r ∧ ∀ a, e.act j = some a → a.thread ≠ .recv := by
  by_cases hx : ∃ j, i ≤ j ∧ (e.st j).r = (e.st i).r ∧ ∃ a o, e.act j = some a ∧ a.thread = .recv ∧ step c (e.st j) a = some (e.st (j + 1), o)
  · exact .inl hx
  · right
    have notr : ∀ j, i ≤ j → (e.st j).r = (e.st i).r → ∀ a, e.act j = some a → a.thread ≠ .recv := by
      intro j hj hs a ha ht
      have h := e.ok j
      rw [ha] at h
      obtain ⟨o, h⟩ := h
      exact hx ⟨j, hj, hs, a, o, ha, ht, h⟩
    have stay : ∀ j, i ≤ j → (e.st j).r = (e.st i).r := by
      intro j hj
      induction hj with
      | refl => rfl
      | step hj ih =>
        rename_i j
        have h := e.ok j
        split at h
        · rw [h]; exact ih
        · rename_i a ha
          obtain ⟨o, h⟩ := h
          rw [recv_own (exec_inv e h0 j) (notr j hj ih a ha) (by rw [ih]; exact hr) h, ih]
    exact fun j hj => ⟨stay j hj, notr j hj (stay j hj)⟩

/-- **C67.** The receive thread never hangs on a message: in every reachable state in which it has one in
hand it can go on, unless the message is a request for a play and there is no play. -/
theorem C67_never_stuck {c : Cfg} {old : Option Str} {as : List Act} {s : St} {os : List Obs} (h : Run c (init old) as s os) (r : Req)
    (hr : s.r = .got r ∨ s.r = .need r ∨ s.r = .call r) :
    (∃ a, a.thread = .recv ∧ (step c s a).isSome = true) ∨ (ForPlay r.kind ∧ s.r = .need r ∧ s.strategy = false) := by
  have hn := (hans h).1
  have hn' : ∀ r, s.r = .call r ∨ s.r = .need r → needsStrategy r.kind = true := fun r hr => hn r hr.symm
  rcases hr with hr | hr | hr
  · exact .inl (ready_step hn' (t := .recv) (by simp [Ready, hr]))
  · cases hs : s.strategy with
    | true => exact .inl (ready_step hn' (t := .recv) (by simp [Ready, hr, hs]))
    | false => exact .inr ⟨(needs_forPlay _).1 (hn r (.inl hr)), hr, rfl⟩
  · exact .inl (ready_step hn' (t := .recv) (by simp [Ready, hr]))

/-- **C67.** In a fair execution every message the debuggee receives is dealt with: a response with the
command and the seq of the request is queued (for the messages that are to be answered), or the message
is a request for a play and waits, and from every moment on there is one without a play. -/
theorem C67_every_request_handled {c : Cfg} (e : Exec c) (h0 : Reach c (e.st 0)) (hf : Fair e) (n : Nat) (r : Req)
    (hn : e.act n = some (.rMsg r)) :
    (∃ m, n < m ∧ ∃ a o, e.act m = some a ∧ a.thread = .recv ∧ step c (e.st m) a = some (e.st (m + 1), o) ∧ (e.st (m + 1)).r ≠ .need r ∧
      (answerable r = true → ∃ ok, Obs.put (some (.resp r.kind r.seq ok)) ∈ o)) ∨
    (ForPlay r.kind ∧ ∀ k, ∃ m, k ≤ m ∧ (e.st m).r = .need r ∧ (e.st m).strategy = false) := by
  obtain ⟨old, as, os, hr⟩ := h0
  have h0 := reach_inv hr
  have hgot : (e.st (n + 1)).r = .got r := by
    have h := e.ok n
    rw [hn] at h
    obtain ⟨o, h⟩ := h
    simp only [step, Act.thread, stepR] at h
    split at h
    · rw [← (Prod.mk.inj (Option.some.inj h)).1]
    · cases h
  -- the first step
  rcases recv_next e h0 (n + 1) (by rw [hgot]; simp) with ⟨j, hj, hs, a, o, ha, ht, hst⟩ | hno
  rotate_left
  · exfalso
    obtain ⟨j, hj, a, ha, ht⟩ := hf .recv (n + 1) (fun j hj => by simp [Ready, (hno j hj).1, hgot])
    exact (hno j hj).2 a ha ht
  rw [hgot] at hs
  by_cases hdir : ∃ ok, a = .rDirect ok
  · obtain ⟨ok, rfl⟩ := hdir
    refine .inl ⟨j, by omega, _, o, ha, rfl, hst, ?_⟩
    obtain ⟨k, q⟩ := r
    simp only [step, Act.thread, stepR, hs] at hst
    cases k <;> simp at hst <;> obtain ⟨h1, rfl⟩ := hst <;> rw [← h1] <;> simp [answerable]
  -- it asks for the strategy
  have hask : ForPlay r.kind ∧ (e.st (j + 1)).r = .need r := by
    cases a <;> simp [Act.thread] at ht hdir <;> simp [step, Act.thread, stepR, hs] at hst
    exact ⟨(needs_forPlay _).1 hst.1, by rw [← hst.2.1]⟩
  rcases recv_next e h0 (j + 1) (by rw [hask.2]; simp) with ⟨j2, hj2, hs2, a2, o2, ha2, ht2, hst2⟩ | hno
  rotate_left
  · right
    refine ⟨hask.1, fun k => ?_⟩
    by_cases hx : ∃ m, max k (j + 1) ≤ m ∧ (e.st m).strategy = false
    · obtain ⟨m, hm, hx⟩ := hx
      exact ⟨m, by omega, by rw [(hno m (by omega)).1, hask.2], hx⟩
    · exfalso
      obtain ⟨m, hm, b, hb, hbt⟩ := hf .recv (max k (j + 1)) (fun m hm => by
        simp only [Ready, (hno m (by omega)).1, hask.2]
        cases hq : (e.st m).strategy with
        | true => rfl
        | false => exact absurd ⟨m, hm, hq⟩ hx)
      exact (hno m (by omega)).2 b hb hbt
  rw [hask.2] at hs2
  have hcall : (e.st (j2 + 1)).r = .call r := by
    cases a2 <;> simp [Act.thread] at ht2 <;> simp [step, Act.thread, stepR, hs2] at hst2
    rw [← hst2.2.1]
  rcases recv_next e h0 (j2 + 1) (by rw [hcall]; simp) with ⟨j3, hj3, hs3, a3, o3, ha3, ht3, hst3⟩ | hno
  rotate_left
  · exfalso
    obtain ⟨m, hm, b, hb, hbt⟩ := hf .recv (j2 + 1) (fun m hm => by simp [Ready, (hno m hm).1, hcall])
    exact (hno m hm).2 b hb hbt
  rw [hcall] at hs3
  refine .inl ⟨j3, by omega, a3, o3, ha3, ht3, hst3, ?_⟩
  cases a3 <;> simp [Act.thread] at ht3 <;> simp only [step, Act.thread, stepR, hs3] at hst3 <;> (try cases hst3)
  rename_i ok
  by_cases hd : r.kind = .disconnect ∧ ok = true
  · rw [if_pos hd] at hst3
    obtain ⟨h1, rfl⟩ := Prod.mk.inj (Option.some.inj hst3)
    rw [← h1]
    exact ⟨by simp, fun hx => by simp [answerable, hd.1] at hx⟩
  · rw [if_neg hd] at hst3
    obtain ⟨h1, rfl⟩ := Prod.mk.inj (Option.some.inj hst3)
    rw [← h1]
    refine ⟨?_, fun _ => ⟨ok, by simp⟩⟩
    dsimp only
    split <;> simp

/-- Non-vacuity: a fair execution in which a request arrives during the shutdown. -/
example : ∃ e : Exec cfg, Reach cfg (e.st 0) ∧ Fair e ∧ e.act 20 = some (.rMsg ⟨.setBreakpoints, 3⟩) ∧ answerable ⟨.setBreakpoints, 3⟩ = true :=
  ⟨Exec.ofList cfg (init none) endActs end_some, ⟨none, [], [], .nil _⟩,
    Exec.ofList_fair _ (not_ready_end (by decide +kernel) (by decide +kernel) (by decide +kernel)), rfl, rfl⟩

/-- Non-vacuity: requests of all sorts, one of them still waiting for a play. -/
example : ∃ s os, Run cfg (init none) (session ++ [.rMsg ⟨.evaluate, 3⟩, .rAsk, .rGet, .rCall false, .rMsg ⟨.unsupported py!"pause", 4⟩, .rDirect true,
      .pEndPlay, .rMsg ⟨.stackTrace, 5⟩, .rAsk]) s os ∧ s.r ≠ .idle ∧
    (reqs os).filter answerable = [⟨.configurationDone, 2⟩, ⟨.evaluate, 3⟩, ⟨.unsupported py!"pause", 4⟩, ⟨.stackTrace, 5⟩] ∧
    Obs.put (some (.resp (.unsupported py!"pause") 4 false)) ∈ os :=
  ⟨_, _, run_of_exec rfl, by decide +kernel, by decide +kernel, by decide +kernel⟩

/-! ## Fair executions exist -/

theorem reach_needs {c : Cfg} {s : St} (h : Reach c s) : ∀ r, s.r = .call r ∨ s.r = .need r → needsStrategy r.kind = true := by
  obtain ⟨old, as, os, h⟩ := h
  exact fun r hr => (hans h).1 r hr.symm

theorem run_snoc {c : Cfg} {s s1 s2 : St} {as : List Act} {os o : List Obs} {a : Act} (h : Run c s as s1 os) (h2 : step c s1 a = some (s2, o)) :
    Run c s (as ++ [a]) s2 (os ++ o) := by
  induction h with
  | nil => simpa using Run.cons h2 (.nil _)
  | cons h1 _ ih => have := Run.cons h1 (ih h2); simpa [List.append_assoc] using this

/-- The thread whose turn it is. -/
def turn (i : Nat) : Thread := if i % 3 = 0 then .playbook else if i % 3 = 1 then .send else .recv

open Classical in
/-- What the thread whose turn it is does: a step if it can go on by itself. -/
noncomputable def choice (c : Cfg) (s : St) (t : Thread) : Option Act :=
  if h : Ready c s t ∧ ∃ a, a.thread = t ∧ (step c s a).isSome = true then some (choose h.2) else none

open Classical in
theorem choice_spec {c : Cfg} {s : St} {t : Thread} {a : Act} (h : choice c s t = some a) : a.thread = t ∧ (step c s a).isSome = true := by
  unfold choice at h
  split at h
  · rename_i hx
    cases h
    exact choose_spec hx.2
  · cases h

open Classical in
theorem choice_ready {c : Cfg} {s : St} {t : Thread} (hr : Reach c s) (h : Ready c s t) : ∃ a, choice c s t = some a := by
  unfold choice
  rw [dif_pos ⟨h, ready_step (reach_needs hr) h⟩]
  exact ⟨_, rfl⟩

/-- The state after a turn. -/
noncomputable def next (c : Cfg) (s : St) (t : Thread) : St :=
  match choice c s t with
  | none => s
  | some a => match step c s a with
    | none => s
    | some (s', _) => s'

noncomputable def rrSt (c : Cfg) (s : St) : Nat → St
  | 0 => s
  | i + 1 => next c (rrSt c s i) (turn i)

/-- The threads take turns. -/
noncomputable def roundRobin (c : Cfg) (s : St) : Exec c where
  st := rrSt c s
  act i := choice c (rrSt c s i) (turn i)
  ok i := by
    cases h : choice c (rrSt c s i) (turn i) with
    | none => simp [rrSt, next, h]
    | some a =>
      obtain ⟨x, hx⟩ := Option.isSome_iff_exists.1 (choice_spec h).2
      obtain ⟨s', o⟩ := x
      exact ⟨o, by rw [hx]; simp [rrSt, next, h, hx]⟩

theorem rr_reach {c : Cfg} {s : St} (h : Reach c s) (i : Nat) : Reach c (rrSt c s i) := by
  induction i with
  | zero => exact h
  | succ i ih =>
    simp only [rrSt, next]
    split
    · exact ih
    · split
      · exact ih
      · rename_i s' o hs
        obtain ⟨old, as, os, hr⟩ := ih
        exact ⟨old, _, _, run_snoc hr hs⟩

theorem rr_fair {c : Cfg} {s : St} (h : Reach c s) : Fair (roundRobin c s) := by
  intro t i hr
  have ht : ∃ j, i ≤ j ∧ turn j = t := by
    cases t with
    | playbook => exact ⟨3 * i, by omega, by simp [turn]⟩
    | send => exact ⟨3 * i + 1, by omega, by have : (3 * i + 1) % 3 = 1 := by omega
                                             simp [turn, this]⟩
    | recv => exact ⟨3 * i + 2, by omega, by have : (3 * i + 2) % 3 = 2 := by omega
                                             simp [turn, this]⟩
  obtain ⟨j, hj, ht⟩ := ht
  obtain ⟨a, ha⟩ := choice_ready (rr_reach h j) (hr j hj)
  refine ⟨j, hj, a, ?_, (choice_spec ha).1⟩
  show choice c (rrSt c s j) (turn j) = some a
  rw [ht]; exact ha

/-- One step before an execution. -/
def prepend {c : Cfg} (e : Exec c) (s : St) (a : Act) (o : List Obs) (h : step c s a = some (e.st 0, o)) : Exec c where
  st i := match i with | 0 => s | i + 1 => e.st i
  act i := match i with | 0 => some a | i + 1 => e.act i
  ok i := by
    cases i with
    | zero => exact ⟨o, h⟩
    | succ i => exact e.ok i

theorem prepend_fair {c : Cfg} {e : Exec c} {s : St} {a : Act} {o : List Obs} (h : step c s a = some (e.st 0, o)) (hf : Fair e) :
    Fair (prepend e s a o h) := by
  intro t i hr
  obtain ⟨j, hj, b, hb, ht⟩ := hf t i (fun j hj => hr (j + 1) (by omega))
  exact ⟨j + 1, by omega, b, hb, ht⟩

/-- The fair executions the liveness claims of C58, C67 and C68 speak of exist: every finite run is the
beginning of one. -/
theorem C58_fair_executions_exist {c : Cfg} {old : Option Str} {as : List Act} {s : St} {os : List Obs} (h : Run c (init old) as s os) :
    ∃ e : Exec c, Fair e ∧ e.st 0 = init old ∧ e.st as.length = s ∧ ∀ i (hi : i < as.length), e.act i = some as[i] := by
  have key : ∀ {s0 s : St} {as : List Act} {os : List Obs}, Run c s0 as s os → Reach c s →
      ∃ e : Exec c, Fair e ∧ e.st 0 = s0 ∧ e.st as.length = s ∧ ∀ i (hi : i < as.length), e.act i = some as[i] := by
    intro s0 s as os h
    induction h with
    | nil => exact fun hr => ⟨roundRobin c _, rr_fair hr, rfl, rfl, fun i hi => by simp at hi⟩
    | cons h1 _ ih =>
      intro hr
      obtain ⟨e, hf, hs, hl, ha⟩ := ih hr
      rw [← hs] at h1
      refine ⟨prepend e _ _ _ h1, prepend_fair h1 hf, rfl, hl, fun i hi => ?_⟩
      cases i with
      | zero => rfl
      | succ i => exact ha i (by simpa using hi)
  exact key h ⟨old, as, os, h⟩

end Verif.Props.Debuggee
