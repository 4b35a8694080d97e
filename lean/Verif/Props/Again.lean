import Verif.Debuggee.Again
import Verif.Props.Debuggee
/-!
# C108, C109: the second playbook of a process, and a playbook that is interrupted
-/

namespace Verif.Props.Debuggee
open Verif Verif.Debuggee

/-! ## C108 -/

/-- After a first playbook with a debugger. -/
structure HAgain (s : St) (os : List Obs) : Prop where
  on : Obs.started true ∈ os → s.s ≠ .off
  past : (s.p = .clear ∨ s.p = .conf ∨ s.p = .strat ∨ s.p = .unlink ∨ s.p = .done) → s.s = .off ∨ s.s = .ended
  conf : pastConf s.p = true → s.confDone = true
  late : (s.s = .joinR ∨ s.s = .close ∨ s.s = .unflag ∨ s.s = .ended) → s.cancelled = true

set_option maxHeartbeats 1000000 in
theorem hagain_step {c : Cfg} {s s' : St} {a : Act} {o os : List Obs} (i : HAgain s os) (h : step c s a = some (s', o)) : HAgain s' (os ++ o) := by
  obtain ⟨i1, i2, i3, i4⟩ := i
  step_cases a h
  all_goals (constructor <;> grind [pastConf])

theorem hagain {c : Cfg} {old : Option Str} {as : List Act} {s : St} {os : List Obs} (h : Run c (init old) as s os) : HAgain s os := by
  have := run_induct (c := c) (I := fun s os => HAgain s os) (fun i h => hagain_step i h) h []
    (by constructor <;> simp [init, pastConf])
  simpa using this

/-- In a later playbook: the token is cancelled for good, so no client is ever served. -/
structure Deaf (s : St) (os : List Obs) : Prop where
  cancelled : s.cancelled = true
  conf : s.confDone = true
  recv : s.r = .off
  send : s.s = .off ∨ s.s = .conn false ∨ s.s = .cancel ∨ s.s = .joinR ∨ s.s = .close ∨ s.s = .unflag ∨ s.s = .ended
  on : (s.p = .wait ∨ s.p = .cancel ∨ s.p = .put ∨ s.p = .join) → s.s ≠ .off
  pre : s.p = .pre → s.s = .off
  quiet : ∀ o ∈ os, (∀ q, o ≠ .received q) ∧ (∀ m, o ≠ .wire m) ∧ o ≠ .closed

set_option maxHeartbeats 1000000 in
theorem deaf_step {c : Cfg} {s s' : St} {a : Act} {o os : List Obs} (i : Deaf s os) (h : step c s a = some (s', o)) : Deaf s' (os ++ o) := by
  obtain ⟨i1, i2, i3, i4, i5, i6, i7⟩ := i
  step_cases a h
  all_goals (constructor <;> grind)

theorem deaf_again {c : Cfg} {old : Option Str} {as : List Act} {s : St} {os : List Obs} (h : Run c (init old) as s os)
    (hst : Obs.started true ∈ os) (hd : s.p = .done) : Deaf (again s) [] := by
  have i := hagain h
  have he : s.s = .ended := by
    rcases i.past (by simp [hd]) with he | he
    · exact absurd he (i.on hst)
    · exact he
  exact ⟨i.late (by simp [he]), i.conf (by simp [hd, pastConf]), rfl, .inl rfl, by simp [again], by simp [again], by simp⟩

theorem deaf_run {c c2 : Cfg} {old : Option Str} {as as2 : List Act} {s s2 : St} {os os2 : List Obs} (h : Run c (init old) as s os)
    (hst : Obs.started true ∈ os) (hd : s.p = .done) (h2 : Run c2 (again s) as2 s2 os2) : Deaf s2 os2 := by
  have := run_induct (c := c2) (I := fun s os => Deaf s os) (fun i h => deaf_step i h) h2 [] (deaf_again h hst hd)
  simpa using this

/-- **C108** fails for every playbook but the first: after a first playbook whose debugger was started, whatever happened in it,
in no run of a second playbook is a message received from or sent to anybody, in either mode and with any settings. -/
theorem C108_refuted {c c2 : Cfg} {old : Option Str} {as as2 : List Act} {s s2 : St} {os os2 : List Obs} (h : Run c (init old) as s os)
    (hst : Obs.started true ∈ os) (hd : s.p = .done) (h2 : Run c2 (again s) as2 s2 os2) :
    (∀ q, Obs.received q ∉ os2) ∧ ∀ m, Obs.wire m ∉ os2 := by
  have i := deaf_run h hst hd h2
  exact ⟨fun q hq => (i.quiet _ hq).1 q rfl, fun m hm => (i.quiet _ hm).2.1 m rfl⟩

/-- It does not wait for the configuration either, although told to: its start succeeds (and announces an address and writes the
file, in listen mode) and its tasks run at once. -/
theorem C108_no_wait_refuted {c c2 : Cfg} {old : Option Str} {as : List Act} {s : St} {os : List Obs} (h : Run c (init old) as s os)
    (hst : Obs.started true ∈ os) (hd : s.p = .done) :
    ∃ s2, Run c2 (again s) [.pStart, .pGo, .pPlay, .pTask none] s2 [.started true, .configured, .task] ∧
      (c2.listen = true → s2.file = some (dumps (Server.infoToJson c2.info))) := by
  have i := deaf_again h hst hd
  refine ⟨{ again s with p := .play, s := .conn false, strategy := true, file := bif c2.listen then some (fileText c2) else s.file }, ?_, ?_⟩
  · apply run_of_exec
    have hc : s.confDone = true := i.conf
    simp [exec, step, Act.thread, stepP, again, hc]
  · intro hl; simp [hl, fileText]

/-- **C108** (what is left). A later playbook is not held up by the debugger: until its shutdown has returned (or raised) some
thread can go on, and while it would wait for the configuration it can go on itself. -/
theorem C108_goes_on_partial {c c2 : Cfg} {old : Option Str} {as as2 : List Act} {s s2 : St} {os os2 : List Obs} (h : Run c (init old) as s os)
    (hst : Obs.started true ∈ os) (hd : s.p = .done) (h2 : Run c2 (again s) as2 s2 os2) :
    (s2.p = .wait → (step c2 s2 .pGo).isSome = true) ∧ (s2.p ≠ .done → s2.p ≠ .failed → ∃ a, (step c2 s2 a).isSome = true) := by
  have i := deaf_run h hst hd h2
  refine ⟨fun hp => by simp [step, Act.thread, stepP, hp, i.conf], fun h1 h2 => ?_⟩
  cases hp : s2.p with
  | pre => exact ⟨.pStart, by simp [step, Act.thread, stepP, hp]⟩
  | wait => exact ⟨.pGo, by simp [step, Act.thread, stepP, hp, i.conf]⟩
  | between => exact ⟨.pPlay, by simp [step, Act.thread, stepP, hp]⟩
  | play => exact ⟨.pTask none, by simp [step, Act.thread, stepP, hp]⟩
  | check => exact ⟨.pCheck, by simp [step, Act.thread, stepP, hp]⟩
  | cancel => exact ⟨.pCancel, by simp [step, Act.thread, stepP, hp]⟩
  | put => exact ⟨.pPut, by simp [step, Act.thread, stepP, hp]⟩
  | clear => exact ⟨.pClear, by simp [step, Act.thread, stepP, hp]⟩
  | conf => exact ⟨.pConf, by simp [step, Act.thread, stepP, hp]⟩
  | strat => exact ⟨.pStrat, by simp [step, Act.thread, stepP, hp]⟩
  | unlink => exact ⟨.pUnlink, by simp [step, Act.thread, stepP, hp]⟩
  | done => exact absurd hp h1
  | failed => exact absurd hp h2
  | join =>
    rcases i.send with hs | hs | hs | hs | hs | hs | hs
    · exact absurd hs (i.on (by simp [hp]))
    · exact ⟨.sFail, by simp [step, Act.thread, stepS, hs]⟩
    · exact ⟨.sCancel, by simp [step, Act.thread, stepS, hs]⟩
    · exact ⟨.sJoin, by simp [step, Act.thread, stepS, hs, i.recv]⟩
    · exact ⟨.sClose, by simp [step, Act.thread, stepS, hs]⟩
    · exact ⟨.sUnflag, by simp [step, Act.thread, stepS, hs]⟩
    · exact ⟨.pJoin, by simp [step, Act.thread, stepP, hp, hs]⟩

/-- Non-vacuity: a session that ends as it should. -/
example : fin.map (fun x => (x.1.p, decide (Obs.started true ∈ x.2), x.1.cancelled)) = some (.done, true, true) := by decide +kernel

/-! ## C109 -/

/-- What the histories say about the end of the send thread. -/
structure HSend (s : St) (os : List Obs) : Prop where
  on : Obs.started true ∈ os → s.s ≠ .off
  stop : (∀ b, Obs.stopped b ∉ os) → s.s = .off ∨ looping s.s = true
  none : Obs.put Option.none ∉ os → Option.none ∉ s.queue

set_option maxHeartbeats 1000000 in
theorem hsend_step {c : Cfg} {s s' : St} {a : Act} {o os : List Obs} (i : HSend s os) (h : step c s a = some (s', o)) : HSend s' (os ++ o) := by
  obtain ⟨i1, i2, i3⟩ := i
  step_cases a h
  all_goals (constructor <;> grind [looping])

/-- The send thread waits for a client or for messages that nobody queues. -/
structure Stays (s : St) : Prop where
  strat : s.strategy = false
  none : Option.none ∉ s.queue
  send : looping s.s = true
  recv : s.r ≠ .putNone ∧ ∀ q, s.r ≠ .call q

set_option maxHeartbeats 1000000 in
theorem stays_step {c : Cfg} {s s' : St} {a : Act} {o : List Obs} (i : Stays s) (ht : a.thread ≠ .playbook) (h1 : a ≠ .sFail) (h2 : a ≠ .sTlsFail)
    (h : step c s a = some (s', o)) : Stays s' := by
  obtain ⟨i1, i2, i3, i4⟩ := i
  step_cases a h
  all_goals (try (exact absurd rfl ht))
  all_goals (constructor <;> grind [looping])

theorem hsend {c : Cfg} {old : Option Str} {as : List Act} {s : St} {os : List Obs} (h : Run c (init old) as s os) : HSend s os := by
  have := run_induct (c := c) (I := fun s os => HSend s os) (fun i h => hsend_step i h) h []
    (by constructor <;> simp [init])
  simpa using this

theorem stays_run {c : Cfg} {s s' : St} {bs : List Act} {os : List Obs} (h : Run c s bs s' os) :
    Stays s → (∀ a ∈ bs, a.thread ≠ .playbook ∧ a ≠ .sFail ∧ a ≠ .sTlsFail) → Stays s' := by
  induction h with
  | nil s => exact fun i _ => i
  | cons h1 _ ih =>
    intro i hb
    obtain ⟨b1, b2, b3⟩ := hb _ List.mem_cons_self
    exact ih (stays_step i b1 b2 b3 h1) (fun a ha => hb a (by simp [ha]))

/-- **C109** fails: the debugger was started, and the playbook thread goes away (interrupted, or because of an error of Ansible)
while it waits for the configuration or when no play is running any more, and neither has the client asked for the end
nor has the connection failed before. Then the process does not end, whatever the client does afterwards: send requests (also disconnect), close the
connection or connect in the first place, as long as no operation on the socket fails in the send thread. -/
theorem C109_refuted {c : Cfg} {old : Option Str} {as bs : List Act} {s s' : St} {os os' : List Obs} (h : Run c (init old) as s os)
    (hst : Obs.started true ∈ os) (hp : s.p = .wait ∨ s.p = .between) (hn : Obs.put none ∉ os) (hs : ∀ b, Obs.stopped b ∉ os)
    (hr : s.r = .idle ∨ s.r = .off) (h2 : Run c s bs s' os') (hb : ∀ a ∈ bs, a.thread ≠ .playbook ∧ a ≠ .sFail ∧ a ≠ .sTlsFail) :
    ¬ Gone s' := by
  have i := hsend h
  have j := reach_inv h
  have hstr : s.strategy = false := by
    cases he : s.strategy with
    | false => rfl
    | true => have := j.strat.1 he; rcases hp with hp | hp <;> simp [hp] at this
  have hl : looping s.s = true := by
    rcases i.stop hs with hl | hl
    · exact absurd hl (i.on hst)
    · exact hl
  have k : Stays s := ⟨hstr, i.none hn, hl, by rcases hr with hr | hr <;> simp [hr]⟩
  have := looping_ne (stays_run h2 k hb).send
  rintro ⟨hg | hg, _⟩
  · exact this.1 hg
  · exact this.2 hg

/-- The receive thread is in `_get_strategy`, or about to be, and there is no play. -/
structure Waits (s : St) : Prop where
  strat : s.strategy = false
  recv : ∃ q, s.r = .need q ∨ (s.r = .got q ∧ needsStrategy q.kind = true)

set_option maxHeartbeats 1000000 in
theorem waits_step {c : Cfg} {s s' : St} {a : Act} {o : List Obs} (i : Waits s) (ht : a.thread ≠ .playbook) (hr : s.s ≠ .greet true)
    (h : step c s a = some (s', o)) : Waits s' ∧ (∀ x, Obs.put x ∉ o) ∧ (∀ q, Obs.received q ∉ o) ∧ Obs.closed ∉ o := by
  obtain ⟨i1, q, i2⟩ := i
  step_cases a h
  all_goals (first | (exfalso; simp [Act.thread] at ht; done) | skip)
  all_goals (first | (exfalso; grind [needsStrategy]) | skip)
  all_goals (refine ⟨⟨?_, ?_⟩, ?_, ?_, ?_⟩ <;> grind [needsStrategy])

theorem waits_run {c : Cfg} {s s' : St} {bs : List Act} {os' : List Obs} (h : Run c s bs s' os') :
    Reach c s → Waits s → (∀ a ∈ bs, a.thread ≠ .playbook) →
    Waits s' ∧ (∀ x, Obs.put x ∉ os') ∧ (∀ q, Obs.received q ∉ os') ∧ Obs.closed ∉ os' := by
  induction h with
  | nil s => exact fun _ i _ => ⟨i, by simp, by simp, by simp⟩
  | @cons s s1 s2 a as o os h1 _ ih =>
    rintro ⟨old, cs, os0, hr⟩ i hb
    have hg : s.s ≠ .greet true := by
      intro hg
      have := (reach_inv hr).pre_r (by simp [hg, preLoop])
      obtain ⟨_, q, hq | hq⟩ := i
      · rw [this] at hq; cases hq
      · rw [this] at hq; cases hq.1
    obtain ⟨i1, p1, p2, p3⟩ := waits_step i (hb _ List.mem_cons_self) hg h1
    have hr1 : Reach c s1 := ⟨old, cs ++ [a], os0 ++ o, run_snoc hr h1⟩
    obtain ⟨j1, k1, k2, k3⟩ := ih hr1 i1 (fun a ha => hb a (List.mem_cons_of_mem _ ha))
    refine ⟨j1, fun x hx => ?_, fun q hq => ?_, fun hc => ?_⟩
    · exact (List.mem_append.mp hx).elim (p1 x) (k1 x)
    · exact (List.mem_append.mp hq).elim (p2 q) (k2 q)
    · exact (List.mem_append.mp hc).elim p3 k3

/-- **C109** fails for the session, too: if the playbook thread goes away while no play is running, the first request for threads, stack, scopes,
variables, evaluation or resumption, and also the first disconnect or terminate request, is never answered; nothing is answered or even received after it,
the end of the connection is not noticed, and the process does not end, whatever happens and whatever fails. -/
theorem C109_unanswered_refuted {c : Cfg} {old : Option Str} {as bs : List Act} {s s' : St} {os os' : List Obs} (h : Run c (init old) as s os)
    (hp : s.p = .wait ∨ s.p = .between) (q : Req) (hr : s.r = .got q) (hq : needsStrategy q.kind = true)
    (h2 : Run c s bs s' os') (hb : ∀ a ∈ bs, a.thread ≠ .playbook) :
    (∀ x, Obs.put x ∉ os') ∧ (∀ q', Obs.received q' ∉ os') ∧ Obs.closed ∉ os' ∧ ¬ Gone s' := by
  have hstr : s.strategy = false := by
    cases he : s.strategy with
    | false => rfl
    | true => have := (reach_inv h).strat.1 he; rcases hp with hp | hp <;> simp [hp] at this
  obtain ⟨⟨_, q', hq'⟩, h3, h4, h5⟩ := waits_run h2 ⟨old, as, os, h⟩ ⟨hstr, q, .inr ⟨hr, hq⟩⟩ hb
  refine ⟨h3, h4, h5, ?_⟩
  rintro ⟨_, hg | hg⟩ <;> rw [hg] at hq' <;> rcases hq' with hq' | ⟨hq', _⟩ <;> cases hq'

/-- Non-vacuity: after the play a threads request arrives. -/
example : (exec cfg (init none) (session ++ [.pEndPlay, .rMsg ⟨.threads, 3⟩])).map (fun x => (x.1.p, x.1.r)) =
    some (.between, .got ⟨.threads, 3⟩) := by decide +kernel

/-- Once the end mark has been queued. -/
structure HMark (s : St) (os : List Obs) : Prop where
  mark : Obs.put none ∈ os → s.s ≠ .off ∧ (looping s.s = true → none ∈ s.queue) ∧ (preLoop s.s = true → s.cancelled = true)

set_option maxHeartbeats 1000000 in
theorem hmark_step {c : Cfg} {s s' : St} {a : Act} {o os : List Obs} (j : Inv c s) (i : HMark s os) (h : step c s a = some (s', o)) : HMark s' (os ++ o) := by
  obtain ⟨i1⟩ := i
  obtain ⟨j1, j2, j3, j4, j5, j6, j7, j8, j9⟩ := j
  step_cases a h
  all_goals (constructor; grind [looping, preLoop])

theorem hmark {c : Cfg} {old : Option Str} {as : List Act} {s : St} {os : List Obs} (h : Run c (init old) as s os) : Inv c s ∧ HMark s os := by
  have := run_induct (c := c) (I := fun s os => Inv c s ∧ HMark s os) (fun i h => ⟨inv_step i.1 h, hmark_step i.1 i.2 h⟩) h []
    ⟨inv_init c old, by constructor; simp⟩
  simpa using this

/-- What the send thread still has to do. -/
def leftS : S → Nat
  | .off => 0 | .conn b => if b then 40 else 20 | .tls => 30 | .greet b => if b then 24 else 22 | .flag => 12
  | .get => 6 | .send _ b => if b then 8 else 9 | .cancel => 5 | .joinR => 4 | .close => 3 | .unflag => 2 | .ended => 0

/-- What the receive thread still has to do. -/
def leftR : R → Nat
  | .off => 0 | .idle => 5 | .got _ => 20 | .need _ => 18 | .call _ => 16 | .setConf => 6 | .putNone => 10
  | .clear => 4 | .conf => 3 | .strat => 2 | .unlink => 1 | .ended => 0

def left (s : St) : Nat := 4 * s.queue.length + leftS s.s + leftR s.r

/-- The playbook thread and the client do nothing any more. -/
structure Dying (s : St) : Prop where
  on : s.s ≠ .off
  queue : looping s.s = true → none ∈ s.queue
  pre : preLoop s.s = true → s.cancelled = true
  off_r : preLoop s.s = true → s.r = .off
  late : (s.s = .joinR ∨ s.s = .close ∨ s.s = .unflag ∨ s.s = .ended) → s.cancelled = true
  free : ∀ q, s.r ≠ .need q ∧ (s.r = .got q → needsStrategy q.kind = false)

set_option maxHeartbeats 2000000 in
theorem dying_step {c : Cfg} {s s' : St} {a : Act} {o : List Obs} (i : Dying s) (ht : a.thread ≠ .playbook) (hq : ∀ q, a ≠ .rMsg q)
    (h : step c s a = some (s', o)) : Dying s' ∧ left s' < left s := by
  obtain ⟨i1, i2, i3, i4, i5, i6⟩ := i
  step_cases a h
  all_goals (try (exact absurd rfl ht))
  all_goals (try (exact absurd rfl (hq _)))
  all_goals (refine ⟨?_, ?_⟩)
  all_goals (first | (constructor <;> grind [looping, preLoop, needsStrategy]) | grind [left, leftS, leftR, preLoop] | skip)

theorem dying_run {c : Cfg} {s s' : St} {bs : List Act} {os : List Obs} (h : Run c s bs s' os) :
    Dying s → (∀ a ∈ bs, a.thread ≠ .playbook ∧ ∀ q, a ≠ .rMsg q) → Dying s' ∧ bs.length + left s' ≤ left s := by
  induction h with
  | nil s => exact fun i _ => ⟨i, by simp⟩
  | cons h1 _ ih =>
    intro i hb
    obtain ⟨b1, b2⟩ := hb _ List.mem_cons_self
    have h3 := dying_step i b1 b2 h1
    have h4 := ih h3.1 (fun a ha => hb a (by simp [ha]))
    refine ⟨h4.1, ?_⟩
    have := h4.2; have := h3.2
    simp only [List.length_cons]; omega

theorem dying_goes_on {c : Cfg} {s : St} (i : Dying s) :
    Gone s ∨ ∃ a, (step c s a).isSome = true ∧ a.thread ≠ .playbook ∧ (∀ q, a ≠ .rMsg q) ∧ a ≠ .rEof := by
  have on : ∀ a, (step c s a).isSome = true → a.thread ≠ .playbook → (∀ q, a ≠ .rMsg q) → a ≠ .rEof →
      Gone s ∨ ∃ a, (step c s a).isSome = true ∧ a.thread ≠ .playbook ∧ (∀ q, a ≠ .rMsg q) ∧ a ≠ .rEof :=
    fun a h1 h2 h3 h4 => .inr ⟨a, h1, h2, h3, h4⟩
  -- the receive thread can always go on once the token is cancelled
  have recv : s.cancelled = true → (s.r ≠ .off ∧ s.r ≠ .ended) →
      Gone s ∨ ∃ a, (step c s a).isSome = true ∧ a.thread ≠ .playbook ∧ (∀ q, a ≠ .rMsg q) ∧ a ≠ .rEof := by
    intro hc hr
    cases h : s.r with
    | off => exact absurd h hr.1
    | ended => exact absurd h hr.2
    | idle => exact on .rCancelled (by simp [step, Act.thread, stepR, h, hc]) (by simp [Act.thread]) (by simp) (by simp)
    | got q =>
      have hf := (i.free q).2 h
      refine on (.rDirect true) ?_ (by simp [Act.thread]) (by simp) (by simp)
      obtain ⟨k, n⟩ := q
      cases k <;> simp_all [step, Act.thread, stepR, needsStrategy]
    | need q => exact absurd h (i.free q).1
    | call q =>
      refine on (.rCall true) ?_ (by simp [Act.thread]) (by simp) (by simp)
      simp only [step, Act.thread, stepR, h]; split <;> rfl
    | setConf => exact on .rSetConf (by simp [step, Act.thread, stepR, h]) (by simp [Act.thread]) (by simp) (by simp)
    | putNone => exact on .rPutNone (by simp [step, Act.thread, stepR, h]) (by simp [Act.thread]) (by simp) (by simp)
    | clear => exact on .rClear (by simp [step, Act.thread, stepR, h]) (by simp [Act.thread]) (by simp) (by simp)
    | conf => exact on .rConf (by simp [step, Act.thread, stepR, h]) (by simp [Act.thread]) (by simp) (by simp)
    | strat => exact on .rStrat (by simp [step, Act.thread, stepR, h]) (by simp [Act.thread]) (by simp) (by simp)
    | unlink => exact on .rUnlink (by simp [step, Act.thread, stepR, h]) (by simp [Act.thread]) (by simp) (by simp)
  cases h : s.s with
  | off => exact absurd h i.on
  | conn b => exact on .sFail (by simp [step, Act.thread, stepS, h]) (by simp [Act.thread]) (by simp) (by simp)
  | tls => exact on .sTls (by simp [step, Act.thread, stepS, h]) (by simp [Act.thread]) (by simp) (by simp)
  | greet b => exact on .sFail (by simp [step, Act.thread, stepS, h]) (by simp [Act.thread]) (by simp) (by simp)
  | flag => exact on .sFlag (by simp [step, Act.thread, stepS, h]) (by simp [Act.thread]) (by simp) (by simp)
  | get =>
    have hq := i.queue (by simp [h, looping])
    refine on .sGet ?_ (by simp [Act.thread]) (by simp) (by simp)
    cases hc : s.queue with
    | nil => simp [hc] at hq
    | cons x q => cases x <;> simp [step, Act.thread, stepS, h, hc]
  | send m b =>
    cases b with
    | true => exact on .sSent (by simp [step, Act.thread, stepS, h]) (by simp [Act.thread]) (by simp) (by simp)
    | false =>
      cases hc : s.cancelled with
      | false => exact on .sEnter (by simp [step, Act.thread, stepS, h, hc]) (by simp [Act.thread]) (by simp) (by simp)
      | true => exact on .sFail (by simp [step, Act.thread, stepS, h]) (by simp [Act.thread]) (by simp) (by simp)
  | cancel => exact on .sCancel (by simp [step, Act.thread, stepS, h]) (by simp [Act.thread]) (by simp) (by simp)
  | close => exact on .sClose (by simp [step, Act.thread, stepS, h]) (by simp [Act.thread]) (by simp) (by simp)
  | unflag => exact on .sUnflag (by simp [step, Act.thread, stepS, h]) (by simp [Act.thread]) (by simp) (by simp)
  | joinR =>
    have hc := i.late (by simp [h])
    by_cases hr : s.r = .off ∨ s.r = .ended
    · exact on .sJoin (by simp [step, Act.thread, stepS, h, hr]) (by simp [Act.thread]) (by simp) (by simp)
    · exact recv hc (by simpa using hr)
  | ended =>
    have hc := i.late (by simp [h])
    by_cases hr : s.r = .off ∨ s.r = .ended
    · exact .inl ⟨.inr h, hr⟩
    · exact recv hc (by simpa using hr)

/-- **C109** (what is left). Once the end has been asked for - by the shutdown of the playbook thread, or by a disconnect or terminate request that
was carried out - the process ends even if the playbook thread then goes away, provided that the receive thread is not waiting for a
play (`_get_strategy`) and the client sends nothing more: there is a bound on the steps of the other two threads, and as long as one of them
is there one of them can go on, whether or not the client closes the connection. -/
theorem C109_ends_partial {c : Cfg} {old : Option Str} {as : List Act} {s : St} {os : List Obs} (h : Run c (init old) as s os)
    (hm : Obs.put none ∈ os) (hr : ∀ q, s.r ≠ .need q ∧ (s.r = .got q → needsStrategy q.kind = false)) :
    ∃ n, ∀ bs s' os', Run c s bs s' os' → (∀ a ∈ bs, a.thread ≠ .playbook ∧ ∀ q, a ≠ .rMsg q) →
      bs.length ≤ n ∧ (Gone s' ∨ ∃ a, (step c s' a).isSome = true ∧ a.thread ≠ .playbook ∧ (∀ q, a ≠ .rMsg q) ∧ a ≠ .rEof) := by
  obtain ⟨j, i⟩ := hmark h
  have i := i.mark hm
  have k : Dying s := ⟨i.1, i.2.1, i.2.2, j.pre_r, j.late_cancel, hr⟩
  refine ⟨left s, fun bs s' os' h2 hb => ?_⟩
  have := dying_run h2 k hb
  exact ⟨by have := this.2; omega, dying_goes_on this.1⟩

/-- Non-vacuity of `C109_refuted`: the session, the play is left (`with_strategy`) and the playbook thread is gone; the client
then asks to disconnect. -/
example : (exec cfg (init none) (session ++ [.pEndPlay])).map (fun x => (decide (Obs.started true ∈ x.2), x.1.p, decide (Obs.put none ∈ x.2))) =
    some (true, .between, false) := by decide +kernel
example : (exec cfg (init none) (session ++ [.pEndPlay])).map (fun x => (decide (Obs.stopped true ∈ x.2), decide (Obs.stopped false ∈ x.2), x.1.r)) =
    some (false, false, .idle) := by decide +kernel
example : (exec cfg (init none) (session ++ [.pEndPlay, .rMsg ⟨.disconnect, 3⟩, .rAsk])).map (fun x => (x.1.r, x.1.strategy)) =
    some (.need ⟨.disconnect, 3⟩, false) := by decide +kernel

/-- Non-vacuity of `C109_ends_partial`: the client disconnects during the play, then the playbook thread is gone. -/
example : (exec cfg (init none) (session ++ [.rMsg ⟨.disconnect, 3⟩, .rAsk, .rGet, .rCall true, .rPutNone, .pEndPlay])).map
    (fun x => (x.1.r, decide (Obs.put none ∈ x.2))) = some (.idle, true) := by decide +kernel

end Verif.Props.Debuggee
