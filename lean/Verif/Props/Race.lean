import Verif.Race.Bps
import Verif.Race.Off
import Verif.Race.Excuse
/-!
# Requests at any time (C93 - C97)

Model: `Verif.Race.Model`: the playbook thread and the thread that handles requests take turns at every access to what they share.
Vocabulary: `Verif.Race.Spec`.
-/

namespace Verif.Props.Race
open Verif Verif.Race

/-! ## Executions for the examples -/

/-- Steps of the playbook, with `false` where there is a choice. -/
def plays (n : Nat) : List Lbl := List.replicate n (.play false)
/-- Steps of a request. -/
def gos (n : Nat) : List Lbl := List.replicate n .go

/-- A task was started for host 5, which is thread 2 now. -/
def running : List Lbl := .startTask 5 :: plays 6

/-- The same up to the moment when the breakpoints are looked at. -/
def looks : List Lbl := .startTask 5 :: (plays 5 ++ [.play true])

/-- There is a breakpoint, and the playbook stops at it. -/
def stopped : List Lbl :=
  [.req (.setBreakpoints 0 1)] ++ gos 4 ++ looks ++ plays 2 ++ [.play true, .play true] ++ plays 3

theorem stopped_runs : (run false {} stopped).map (fun x => (x.1.p, x.1.r, x.1.exc, x.1.threads, x.2)) =
    some (.asleep 2 .start false, .idle, false, [1, 2], [.answer (.ok []), .started 2, .stopped 2]) := by decide +kernel

/-- The second part of an execution. -/
theorem run_split {f : Bool} {s s1 s2 : S} : ∀ {ls ls' : List Lbl} {O1 O2 : List Obs}, run f s ls = some (s1, O1) → run f s (ls ++ ls') = some (s2, O2) →
    ∃ O, run f s1 ls' = some (s2, O) ∧ O2 = O1 ++ O
  | [], ls', O1, O2, h1, h2 => by
    simp only [run, Option.some.injEq, Prod.mk.injEq] at h1
    obtain ⟨rfl, rfl⟩ := h1
    exact ⟨O2, h2, rfl⟩
  | l :: ls, ls', O1, O2, h1, h2 => by
    obtain ⟨sa, oa, Oa, a1, a2, rfl⟩ := run_cons h1
    obtain ⟨sb, ob, Ob, b1, b2, rfl⟩ := run_cons (show run f s (l :: (ls ++ ls')) = _ from h2)
    rw [a1] at b1
    cases b1
    obtain ⟨O, c1, rfl⟩ := run_split a2 b2
    exact ⟨O, c1, by simp⟩

/-- Does an execution end like this? -/
theorem ends {f : Bool} {α : Type} {g : S → α} {ls : List Lbl} {O : List Obs} {a : α} (h : (run f {} ls).map (fun x => (g x.1, x.2)) = some (a, O)) :
    ∃ s, run f {} ls = some (s, O) ∧ g s = a := by
  cases hr : run f {} ls with
  | none => rw [hr] at h; cases h
  | some x =>
    rw [hr] at h
    obtain ⟨s, O'⟩ := x
    simp only [Option.map_some, Option.some.injEq, Prod.mk.injEq] at h
    obtain ⟨rfl, rfl⟩ := h
    exact ⟨s, rfl, rfl⟩

/-! ## C93: requests do not fail the playbook -/

theorem calm_bps {fine : Bool} : ∀ (ls : List Lbl) (s s' : S) (O : List Obs), Bps s → Calm fine s ls → run fine s ls = some (s', O) → Bps s'
  | [], s, s', O, hi, _, h => by
    simp only [run, Option.some.injEq, Prod.mk.injEq] at h
    obtain ⟨rfl, rfl⟩ := h
    exact hi
  | l :: ls, s, s', O, hi, hc, h => by
    obtain ⟨s1, o, O', h1, h2, rfl⟩ := run_cons h
    refine calm_bps ls s1 s' O' (bps_step hi ?_ h1) (hc.2 s1 o h1) h2
    intro e
    have := hc.1 e
    cases hp : s.p <;> rw [hp] at this <;> first | rfl | (cases this; done)

/-- C93 (partial): requests may arrive and be handled at any moment, and thread switches happen at every access to what the threads share, except inside
of the function that takes the next variable number. Then no KeyError and no IndexError ever ends the playbook; and if no breakpoint is set
while the playbook is looking through the breakpoints, nothing does: it is left only because its play is over or because an end was requested.
Missing for the full property: breakpoints set while the playbook looks through them (see `C93_set_breakpoints_refuted`), and thread
switches inside of that function (see `C93_next_variable_refuted`). -/
theorem C93_playbook_does_not_fail_partial (ls : List Lbl) (s : S) (O : List Obs) (h : run false {} ls = some (s, O)) (w : Why) (hg : s.p = .gone w) :
    (w = .over ∨ w = .ended ∨ w = .refresh ∨ w = .crashed .runtime) ∧ (Calm false {} ls → w ≠ .crashed .runtime) := by
  have hd := reach_dat ⟨ls, O, h⟩
  have hcr := hd.cr
  rw [hg] at hcr
  refine ⟨?_, ?_⟩
  · cases w with
    | crashed e => rw [hcr e rfl]; simp
    | _ => simp
  · rintro hc rfl
    have := (calm_bps ls _ _ _ bps_start hc h).no
    rw [hg] at this
    exact this rfl

/-- C93 is refuted for breakpoints set at the wrong moment: while the playbook goes through the dictionary of breakpoints to see whether to stop, a
setBreakpoints request adds one to it. The playbook ends with RuntimeError. -/
theorem C93_set_breakpoints_refuted : ∃ ls s O, run false {} ls = some (s, O) ∧ s.p = .gone (.crashed .runtime) := by
  obtain ⟨s, h, e⟩ := ends (f := false) (g := fun s => s.p)
    (ls := looks ++ [.req (.setBreakpoints 0 1), .play false, .go, .play false, .go] ++ plays 4)
    (a := .gone (.crashed .runtime)) (O := [.started 2, .exited 2]) (by decide +kernel)
  exact ⟨_, s, _, h, e⟩

/-- C93 is refuted for the scan of an included file as well: it looks at the breakpoints outside of any lock. -/
theorem C93_include_refuted : ∃ ls s O, run false {} ls = some (s, O) ∧ s.p = .gone (.crashed .runtime) ∧ ∀ h, .startTask h ∉ ls := by
  obtain ⟨s, h, e⟩ := ends (f := false) (g := fun s => s.p)
    (ls := [.req (.setBreakpoints 0 2), .go, .register, .play false, .go] ++ plays 2) (a := .gone (.crashed .runtime)) (O := []) (by decide +kernel)
  exact ⟨_, s, _, h, e, by simp [plays]⟩

/-- A scopes request and the end of a task take the same variable number: the frame has it twice. -/
def twice : List Lbl :=
  [.req (.setExceptions true)] ++ gos 2 ++ running ++ [.endTask 5 false, .play false, .play true, .play false, .req (.scopes 1)] ++ gos 2 ++ plays 1 ++
    gos 17 ++ plays 7

/-- C93 is refuted if a thread switch can happen inside of the function that takes the next variable number: a scopes request and a failed task get the same
number for two variables, the frame of the task lists it twice, and the playbook ends with KeyError when the frame is removed. -/
theorem C93_next_variable_refuted : ∃ ls s O, run true {} ls = some (s, O) ∧ s.p = .gone (.crashed .key) := by
  obtain ⟨s, h, e⟩ := ends (f := true) (g := fun s => s.p)
    (ls := twice ++ [.req (.one 2 false)] ++ gos 6 ++ plays 14) (a := .gone (.crashed .key))
    (O := [.answer (.ok []), .started 2, .answer (.ok [1, 2, 3, 4]), .stopped 2, .answer (.ok []), .exited 2]) (by decide +kernel)
  exact ⟨_, s, _, h, e⟩

/-- The hypotheses are met: the playbook is stopped at a breakpoint that was set before, goes on, and its play ends. -/
example : (run false {} (stopped ++ [.req .continueAll] ++ gos 9 ++ plays 4 ++ [.finish] ++ plays 3)).map (fun x => x.1.p) = some (.gone .over) := by decide +kernel

/-- The same with the check that no breakpoint was set at the wrong moment. -/
def calmB : S → List Lbl → Bool
  | s, [] => !(settingBps s.r && looking s.p)
  | s, l :: ls => !(settingBps s.r && looking s.p) && match step false s l with | none => true | some (s', _) => calmB s' ls

theorem calmB_calm : ∀ (ls : List Lbl) (s : S), calmB s ls = true → Calm false s ls
  | [], s, h => by
    simp only [calmB, Bool.not_eq_true', Bool.and_eq_false_imp] at h
    exact h
  | l :: ls, s, h => by
    simp only [calmB, Bool.and_eq_true, Bool.not_eq_true', Bool.and_eq_false_imp] at h
    refine ⟨h.1, ?_⟩
    intro s' o h'
    have h2 := h.2
    rw [h'] at h2
    exact calmB_calm ls s' h2

example : Calm false {} (stopped ++ [.req .continueAll] ++ gos 9 ++ plays 4 ++ [.finish] ++ plays 3) := calmB_calm _ _ (by decide +kernel)

/-! ## C94: no lost wake-up and no deadlock -/

theorem pstep_some {fine : Bool} {s : S} (h : ∀ b, pstep fine s b = none) : s.p = .idle ∨ (∃ w, s.p = .gone w) ∨ (∃ t k, s.p = .asleep t k false) ∨
    (s.lock ≠ none ∧ pLocked s.p = false) := by
  have h0 := h false
  unfold pstep at h0
  split at h0
  all_goals rename_i hp
  all_goals (repeat' (split at h0))
  all_goals first | (cases h0; done) | skip
  all_goals first
    | exact .inl hp
    | exact .inr (.inl ⟨_, hp⟩)
    | (rename_i hn; exact .inr (.inr (.inr ⟨hn, by rw [hp]; rfl⟩)))
    | skip
  all_goals try (exact absurd ‹false = true› (by simp))
  rename_i t k n hn
  cases n with
  | false => exact .inr (.inr (.inl ⟨t, k, hp⟩))
  | true => exact .inr (.inr (.inr ⟨fun e => hn ⟨rfl, e⟩, by rw [hp]; rfl⟩))

/-- C94, deadlock: whatever happened before, if neither the playbook nor the handling of a request can go on, then there is no request to be handled, and
the playbook is in Ansible, has left the play, or is stopped for a thread. In particular no request waits for a lock forever. -/
theorem C94_no_deadlock {fine : Bool} {s : S} (h : Reachable fine s) (hp : ∀ b, step fine s (.play b) = none) (hr : step fine s .go = none) :
    s.r = .idle ∧ (s.p = .idle ∨ (∃ w, s.p = .gone w) ∨ ∃ t, StoppedAt s t) := by
  have hc := reach_ctl h
  have key : s.lock = none := by
    cases hl : s.lock with
    | none => rfl
    | some b =>
      cases b with
      | true =>
        have hpl := hc.pl.1 hl
        rcases pstep_some hp with e | ⟨w, e⟩ | ⟨t, k, e⟩ | ⟨_, e⟩
        · rw [e] at hpl; cases hpl
        · rw [e] at hpl; cases hpl
        · rw [e] at hpl; cases hpl
        · rw [e] at hpl; cases hpl
      | false =>
        have hrl := hc.rl.1 hl
        obtain ⟨s', o, e⟩ := rstep_some (fine := fine) (s := s) (by intro e; rw [e] at hrl; cases hrl) (by intro ids st e; rw [e] at hrl; cases hrl)
        simp only [step] at hr
        rw [e] at hr
        cases hr
  refine ⟨?_, ?_⟩
  · apply Classical.byContradiction
    intro hn
    obtain ⟨s', o, e⟩ := rstep_some (fine := fine) hn fun _ _ _ => key
    simp only [step] at hr
    rw [e] at hr
    cases hr
  · rcases pstep_some hp with e | e | ⟨t, k, e⟩ | ⟨e, _⟩
    · exact .inl e
    · exact .inr (.inl e)
    · exact .inr (.inr ⟨t, k, e⟩)
    · exact absurd key e

/-- C94: a stopped playbook never holds a request up. -/
theorem C94_request_goes_on {fine : Bool} {s : S} (h : Reachable fine s) {t : Nat} (hs : StoppedAt s t) (hr : s.r ≠ .idle) : ∃ s' o, step fine s .go = some (s', o) := by
  obtain ⟨k, hp⟩ := hs
  exact rstep_some hr (lock_free (reach_ctl h) (by rw [hp]; rfl))

/-- C94, wake-ups: when no request is being handled and the playbook is stopped for a thread, then that thread has not been resumed: there is no moment
at which a resume could get lost between the check of the thread's state and the sleep. -/
theorem C94_no_lost_wakeup {fine : Bool} {s : S} (h : Reachable fine s) {t : Nat} (hs : StoppedAt s t) (hr : s.r = .idle) :
    s.state t = .wait ∧ t ∈ s.threads ∧ s.lock = none := by
  obtain ⟨k, hp⟩ := hs
  have hc := reach_ctl h
  refine ⟨?_, (hc.tp t (by rw [hp]; rfl)).1, ?_⟩
  · rcases hc.w3 t k hp with e | e | e | ⟨l, st, e, _⟩
    · exact e
    · rw [hr] at e; cases e
    · rw [hr] at e; exact absurd rfl e
    · rw [hr] at e; cases e
  · cases hl : s.lock with
    | none => rfl
    | some b =>
      cases b with
      | true => have := hc.pl.1 hl; rw [hp] at this; cases this
      | false => have := hc.rl.1 hl; rw [hr] at this; cases this

/-- C94, resuming: the playbook is stopped for a thread and a request to resume this thread comes: continue, next, step in or step out for it, continue for all
threads, disconnect or terminate. Once it has been answered, the playbook is not stopped, unless it has announced another stop. -/
theorem C94_resumed {fine : Bool} {s : S} (h : Reachable fine s) {t : Nat} (hs : StoppedAt s t) (q : Req) (hq : resumes s t q) (ls : List Lbl) (hl : ∀ l ∈ ls, quiet l = true)
    (s' : S) (O : List Obs) (hr : run fine s (.req q :: ls) = some (s', O)) (hd : s'.r = .idle) : (∀ t', ¬ StoppedAt s' t') ∨ stops O ≠ [] := by
  obtain ⟨k, hp⟩ := hs
  have hc := reach_ctl h
  obtain ⟨s1, o, O', h1, h2, rfl⟩ := run_cons hr
  obtain ⟨rfl, hp1, hw⟩ := onway_start (g := (· ≠ .wait)) hc hp hq (by cases q <;> simp [sets] <;> split <;> simp) h1
  rcases stage_run (by simp) ls s1 s' O' (ctl_step hc h1) (.asleep hp1 hw) hl h2 with a | a
  · left
    intro t' ⟨k', e⟩
    cases a with
    | asleep _ hw => exact onway_busy hw hd
    | woken hp _ _ => rcases hp with hp | hp <;> (rw [hp] at e; cases e)
    | up hp _ => rw [e] at hp; cases hp
  · exact .inr (by simpa using a)

/-- The hypotheses are met: stopped at a breakpoint, and continue for the thread, for all threads, and disconnect resume it. -/
example : ∃ s O, run false {} stopped = some (s, O) ∧ StoppedAt s 2 ∧ s.r = .idle ∧ resumes s 2 (.one 2 true) ∧ resumes s 2 .continueAll ∧
    (run false s ([.req .continueAll] ++ gos 9 ++ plays 4)).map (fun x => (x.1.p, x.1.r, x.2)) = some (.idle, .idle, [.answer (.ok [])]) := by
  have h := stopped_runs
  cases hr : run false {} stopped with
  | none => rw [hr] at h; cases h
  | some x =>
    obtain ⟨s, O⟩ := x
    refine ⟨s, O, rfl, ?_⟩
    rw [hr] at h
    simp only [Option.map_some, Option.some.injEq, Prod.mk.injEq] at h
    obtain ⟨a, b, c, d, e⟩ := h
    refine ⟨⟨_, a⟩, b, rfl, ?_, ?_⟩
    · show 2 ∈ s.threads
      rw [d]
      simp
    · subst e
      have h3 : run false {} stopped = some (s, [.answer (.ok []), .started 2, .stopped 2]) := hr
      have h4 : ((run false {} stopped).bind (fun x => run false x.1 ([.req .continueAll] ++ gos 9 ++ plays 4))).map (fun x => (x.1.p, x.1.r, x.2)) =
        some (.idle, .idle, [.answer (.ok [])]) := by decide +kernel
      rw [h3] at h4
      exact h4

/-! ## C95: requests while the playbook is stopped -/

/-- C95: the playbook is stopped for a thread and a request comes. Whatever else happens (if it resumes the playbook, the rest of the playbook runs at the same time), its
answer is the one the state at the beginning prescribes, and there is exactly one. -/
theorem C95_answer {s : S} (h : Reachable false s) {t : Nat} (hs : StoppedAt s t) (q : Req) (ls : List Lbl) (hl : ∀ l ∈ ls, quiet l = true)
    (s' : S) (O : List Obs) (hr : run false s (.req q :: ls) = some (s', O)) :
    (answers O = [] ∧ s'.r ≠ .idle) ∨ (answers O = [expected s q] ∧ s'.r = .idle) := by
  obtain ⟨k, hp⟩ := hs
  obtain ⟨s1, o, O', h1, h2, rfl⟩ := run_cons hr
  obtain ⟨rfl, hi, _⟩ := pend_start (reach_ctl h) (reach_dat h) hp h1
  rcases pend_run ls s1 s' O' _ hi hl h2 with ⟨a, b⟩ | ⟨a, b⟩
  · refine .inl ⟨a, ?_⟩
    intro e
    have := b.out
    rw [e] at this
    cases this
  · exact .inr ⟨a, b⟩

/-- C95: and it does get it, by the steps of the thread that handles requests alone. -/
theorem C95_answered {s : S} (h : Reachable false s) {t : Nat} (hs : StoppedAt s t) (hr : s.r = .idle) (q : Req) :
    ∃ n s', run false s (.req q :: List.replicate n .go) = some (s', [.answer (expected s q)]) ∧ s'.r = .idle := by
  obtain ⟨k, hp⟩ := hs
  have h1 : step false s (.req q) = some ({ s with r := startReq s.toSh q }, []) := by simp only [step, if_pos hr]
  obtain ⟨_, hi, _⟩ := pend_start (reach_ctl h) (reach_dat h) hp h1
  obtain ⟨m, s', a, b⟩ := pend_done _ _ _ (Nat.le_refl _) hi
  exact ⟨m, s', run_of_cons h1 a, b⟩

/-- The hypotheses are met, and the answers are not trivial: the stopped playbook shows its threads, a frame, four scopes with new references. -/
example : (run false {} (stopped ++ [.req .threads] ++ gos 4 ++ [.req (.stackTrace 2)] ++ gos 5 ++ [.req (.scopes 1)] ++ gos 15)).map
    (fun x => (x.1.p, x.1.r, answers x.2)) = some (.asleep 2 .start false, .idle, [.ok [], .ok [1, 2], .ok [1], .ok [1, 2, 3, 4]]) := by decide +kernel

/-! ## C96: disconnect and terminate at any moment -/

/-- C96: a disconnect or terminate request comes at any moment of the playbook, after any history in which the last setExceptionBreakpoints request, if there was one,
turned all exception filters off. Once it has been answered successfully, and as long as no
other request comes, no host is ever announced as stopped. -/
theorem C96_no_stop_after_disconnect {fine : Bool} {s : S} (ls0 : List Lbl) (O0 : List Obs) (h0 : run fine {} ls0 = some (s, O0)) (hf : filterSet false ls0 = false)
    (term : Bool) (ls : List Lbl)
    (hl : ∀ l ∈ ls, quiet l = true) (s1 : S) (O1 : List Obs) (h1 : run fine s (.req (.disconnect term) :: ls) = some (s1, O1)) (ids : List Nat)
    (ha : .ok ids ∈ answers O1) (ls2 : List Lbl) (hl2 : ∀ l ∈ ls2, quiet l = true) (s2 : S) (O2 : List Obs) (h2 : run fine s1 ls2 = some (s2, O2)) :
    stops O2 = [] := by
  have h : Reachable fine s := ⟨ls0, O0, h0⟩
  have hc := reach_ctl h
  obtain ⟨sa, o, O', ha1, hb1, rfl⟩ := run_cons h1
  have hph : o = [] ∧ OffPh sa := by
    simp only [step] at ha1
    split at ha1
    · rename_i hidle
      have he := exc_off h0 hf hidle
      simp only [Option.some.injEq, Prod.mk.injEq] at ha1
      obtain ⟨rfl, rfl⟩ := ha1
      refine ⟨rfl, ?_⟩
      simp only [OffPh, startReq]
      cases term <;> exact ⟨by simp, he⟩
    · cases ha1
  obtain ⟨rfl, hph⟩ := hph
  rcases offph_run ls sa s1 O' (ctl_step hc ha1) hph hl hb1 with ⟨e, _⟩ | ⟨ids', _, e⟩ | ⟨x, e, _⟩
  · simp only [List.nil_append] at ha
    rw [e] at ha
    cases ha
  · exact off_run ls2 s1 s2 O2 (reach_ctl (reach_run h h1)) e hl2 h2
  · simp only [List.nil_append] at ha
    rw [e] at ha
    simp at ha

/-- C96: terminate while the playbook is stopped: once it has been answered, all the playbook does is wake up and end; it returns to no task. -/
theorem C96_terminate_ends {fine : Bool} {s : S} (h : Reachable fine s) {t : Nat} (hs : StoppedAt s t) (ls : List Lbl) (hl : ∀ l ∈ ls, quiet l = true)
    (s' : S) (O : List Obs) (hr : run fine s (.req (.disconnect true) :: ls) = some (s', O)) (hd : s'.r = .idle) :
    (∃ k, s'.p = .asleep t k true ∨ s'.p = .pred t k ∨ s'.p = .check t k) ∨ (∃ todo, s'.p = .exit todo .ended) ∨ (∃ x todo, s'.p = .exitEvent x todo .ended) ∨
      s'.p = .gone .ended := by
  obtain ⟨k, hp⟩ := hs
  have hc := reach_ctl h
  obtain ⟨s1, o, O', h1, h2, rfl⟩ := run_cons hr
  have ht := (hc.tp t (by rw [hp]; rfl)).1
  obtain ⟨rfl, hp1, hw⟩ := onway_start (g := (· = .fin)) hc hp (q := .disconnect true) ht rfl h1
  have := ending_run ls s1 s' O' (ctl_step hc h1) (.asleep hp1 hw) hl h2
  cases this with
  | asleep _ hw => exact absurd hd (onway_busy hw)
  | woken hp _ _ => exact .inl ⟨k, hp⟩
  | dead hp _ =>
    right
    cases e : s'.p <;> rw [e] at hp <;> simp only [ending, decide_eq_true_eq] at hp <;> first | (cases hp; done) | skip
    all_goals subst hp
    · exact .inl ⟨_, rfl⟩
    · exact .inr (.inl ⟨_, _, rfl⟩)
    · exact .inr (.inr rfl)

/-- C96 is refuted for success: while the playbook removes its threads, at the end of the play or when the inventory is refreshed, a disconnect fails
with KeyError: it goes through the threads there were a moment before. -/
theorem C96_disconnect_fails_refuted : ∃ ls s O, run false {} ls = some (s, O) ∧ answers O = [.error .key] ∧ (∀ q, .req q ∈ ls → q = .disconnect false) := by
  obtain ⟨s, h, _⟩ := ends (f := false) (g := fun s => s.r)
    (ls := running ++ [.req (.disconnect false), .go, .go, .finish, .play false] ++ gos 5) (a := .idle)
    (O := [.started 2, .answer (.error .key)]) (by decide +kernel)
  refine ⟨_, s, _, h, rfl, ?_⟩
  intro q hq
  simp [running, plays, gos] at hq
  exact hq

/-- C96 (partial): a disconnect or terminate request that comes at any moment of any execution is answered with success, or with KeyError, and then a
thread that was there when it came, or was started since, has exited by now: nothing else makes it fail, and this does (`C96_disconnect_fails_refuted`). -/
theorem C96_fails_only_if_a_thread_exits_partial {s : S} (h : Reachable false s) (term : Bool) (ls : List Lbl) (hl : ∀ l ∈ ls, quiet l = true)
    (s' : S) (O : List Obs) (hr : run false s (.req (.disconnect term) :: ls) = some (s', O)) (e : Err) (he : .error e ∈ answers O) :
    e = .key ∧ ∃ t, (t ∈ s.threads ∨ s.nextT ≤ t) ∧ t < s'.nextT ∧ t ∉ s'.threads := by
  obtain ⟨s1, o, O', h1, h2, rfl⟩ := run_cons hr
  obtain ⟨rfl, hf⟩ := fate_start (reach_ctl h) (reach_dat h) (reach_own h) h1
  obtain ⟨a, b⟩ := (fate_keeps ls s1 s' O' hf hl h2).2 e he
  exact ⟨by simpa [failsWith] using b, a⟩

/-- The hypotheses are met: the disconnect of the refutation. Thread 2 is there when it comes and has exited when it fails. -/
example : ∃ s1 s2, Reachable false s1 ∧ run false s1 (.req (.disconnect false) :: ([.go, .go, .finish, .play false] ++ gos 5)) = some (s2, [.answer (.error .key)]) ∧
    2 ∈ s1.threads ∧ 2 ∉ s2.threads := by
  obtain ⟨s1, h1, e1⟩ := ends (f := false) (g := fun s => s.threads) (ls := running) (a := [1, 2]) (O := [.started 2]) (by decide +kernel)
  obtain ⟨s2, h2, e2⟩ := ends (f := false) (g := fun s => s.threads) (ls := running ++ (.req (.disconnect false) :: ([.go, .go, .finish, .play false] ++ gos 5))) (a := [1])
    (O := [.started 2, .answer (.error .key)]) (by decide +kernel)
  obtain ⟨O, h3, e3⟩ := run_split h1 h2
  refine ⟨s1, s2, ⟨_, _, h1⟩, ?_, by rw [e1]; simp, by rw [e2]; simp⟩
  rw [h3, show O = [.answer (.error .key)] from by simpa using e3.symm]

/-- The hypotheses are met: disconnect while a task is about to be checked against a breakpoint. It is answered, and the task and the play go on without a stop. -/
example : (run false {} ([.req (.setBreakpoints 0 1)] ++ gos 4 ++ looks ++ [.req (.disconnect false)] ++ gos 9)).map (fun x => (x.1.p, x.1.r, answers x.2)) =
    some (.lockS 2, .idle, [.ok [], .ok []]) := by decide +kernel

/-- A filter is set and taken back before. -/
example : (run false {} ([.req (.setExceptions true)] ++ gos 2 ++ [.req (.setExceptions false)] ++ gos 2)).map (fun x => (x.1.r, answers x.2)) = some (.idle, [.ok [], .ok []]) ∧
    filterSet false ([.req (.setExceptions true)] ++ gos 2 ++ [.req (.setExceptions false)] ++ gos 2) = false := by decide +kernel

example : (run false {} ([.req (.setBreakpoints 0 1)] ++ gos 4 ++ looks ++ [.req (.disconnect false)] ++ gos 9 ++ plays 5 ++ [.endTask 5 false] ++ plays 7 ++ [.finish] ++ plays 3)).map
    (fun x => (x.1.p, x.1.r, stops x.2)) = some (.gone .over, .idle, []) := by decide +kernel

/-- And terminate for a stopped playbook: it ends. -/
example : (run false {} (stopped ++ [.req (.disconnect true)] ++ gos 9 ++ plays 6)).map (fun x => (x.1.p, x.1.r, answers x.2)) =
    some (.gone .ended, .idle, [.ok [], .ok []]) := by decide +kernel

/-! ## C97: requests while the playbook runs -/

theorem got_start {s s' : S} {o : List Obs} {q : Req} {m : Nat} {sc : Bool} (hq : (∃ f, q = .scopes f ∧ m = 4 ∧ sc = true) ∨ ∃ v, q = .variables v m ∧ sc = false)
    (h : step false s (.req q) = some (s', o)) : o = [] ∧ Got s.nextV m sc s' := by
  simp only [step] at h
  split at h
  · simp only [Option.some.injEq, Prod.mk.injEq] at h
    obtain ⟨rfl, rfl⟩ := h
    refine ⟨rfl, Nat.le_refl _, ?_⟩
    rcases hq with ⟨f, rfl, rfl, rfl⟩ | ⟨v, rfl, rfl⟩
    · exact ⟨rfl, rfl⟩
    · exact ⟨rfl, rfl⟩
  · cases h

theorem got_answer {s s' : S} {q : Req} {m : Nat} {sc : Bool} (hq : (∃ f, q = .scopes f ∧ m = 4 ∧ sc = true) ∨ ∃ v, q = .variables v m ∧ sc = false)
    {ls : List Lbl} (hl : ∀ l ∈ ls, quiet l = true) {O : List Obs} (hr : run false s (.req q :: ls) = some (s', O)) {a : Ans} (ha : a ∈ answers O) :
    a = .error .key ∨ ∃ res got, a = .ok (res ++ got) ∧ res.length ≤ (if sc = true then 1 else 0) ∧ New s.nextV s'.nextV got ∧ got.length = m := by
  obtain ⟨s1, o, O', h1, h2, rfl⟩ := run_cons hr
  obtain ⟨rfl, hi⟩ := got_start hq h1
  simp only [List.nil_append] at ha
  rcases got_run ls s1 s' O' hi hl h2 with ⟨e, _⟩ | ⟨s2, a', e, g, e2, e3⟩
  · rw [e] at ha; cases ha
  · rw [e] at ha
    simp only [List.mem_singleton] at ha
    subst ha
    obtain ⟨_, g⟩ := g
    rw [e2] at g
    cases a with
    | error x => exact .inl (by rw [show x = .key from g])
    | ok ids =>
      obtain ⟨res, got, a, b, c, d⟩ := g
      exact .inr ⟨res, got, by rw [a], b, new_mono c e3, d⟩

/-- C97 (partial): a scopes or variables request that comes at any moment, while the playbook runs or is stopped, either fails with an error response or
gets as many references as there are containers, and they are new: larger than every reference there is when the request comes, all different, and
smaller than every reference that is handed out later. (A scopes request also names the result of the task, if there is one, whose reference was
made when the task ended.) Missing for the full property: that the request does not fail, and that the references are those of a frame that still
exists: see the refutations below. -/
theorem C97_new_references_partial {s : S} (h : Reachable false s) (q : Req) (m : Nat) (sc : Bool)
    (hq : (∃ f, q = .scopes f ∧ m = 4 ∧ sc = true) ∨ ∃ v, q = .variables v m ∧ sc = false)
    (ls : List Lbl) (hl : ∀ l ∈ ls, quiet l = true) (s' : S) (O : List Obs) (hr : run false s (.req q :: ls) = some (s', O)) (a : Ans) (ha : a ∈ answers O) :
    a = .error .key ∨ ∃ res got, a = .ok (res ++ got) ∧ res.length ≤ (if sc = true then 1 else 0) ∧ got.length = m ∧ got.Pairwise (· < ·) ∧
      (∀ v ∈ got, (∀ w, s.vars w ≠ none → w < v)) ∧
      ∀ ls1 s1 O1, run false s' ls1 = some (s1, O1) → ∀ q' m' sc', ((∃ f, q' = .scopes f ∧ m' = 4 ∧ sc' = true) ∨ ∃ v, q' = .variables v m' ∧ sc' = false) →
        ∀ ls2, (∀ l ∈ ls2, quiet l = true) → ∀ s2 O2, run false s1 (.req q' :: ls2) = some (s2, O2) → ∀ a' ∈ answers O2,
          a' = .error .key ∨ ∃ res' got', a' = .ok (res' ++ got') ∧ res'.length ≤ (if sc' = true then 1 else 0) ∧ got'.length = m' ∧ ∀ v ∈ got, ∀ v' ∈ got', v < v' := by
  rcases got_answer hq hl hr ha with e | ⟨res, got, e, hlen, hn, hm⟩
  · exact .inl e
  · refine .inr ⟨res, got, e, hlen, hm, hn.1, ?_, ?_⟩
    · intro v hv w hw
      have h1 := (hn.2 v hv).1
      cases hx : s.vars w with
      | none => exact absurd hx hw
      | some f =>
        have := ((reach_dat h).vf w f hx).2
        omega
    · intro ls1 s1 O1 hr1 q' m' sc' hq' ls2 hl2 s2 O2 hr2 a' ha'
      rcases got_answer hq' hl2 hr2 ha' with e' | ⟨res', got', e', hlen', hn', hm'⟩
      · exact .inl e'
      · refine .inr ⟨res', got', e', hlen', hm', ?_⟩
        intro v hv v' hv'
        have h1 := (hn.2 v hv).2
        have h2 := run_mono _ _ _ _ hr1
        have h3 := (hn'.2 v' hv').1
        omega

/-- C97 (partial): a request of any kind that comes at any moment of any execution and fails has a reason. A request for one thread, one frame, or the
variables of one reference fails only if that thread, that frame or the frame of that reference was not there when it came or has been removed by now; threads
and continue of all threads only if a thread was started or has exited meanwhile; stackTrace also if a frame has been removed meanwhile; setBreakpoints and
setExceptionBreakpoints never. And the exception is KeyError, or RuntimeError for the two that go through the threads. That these do happen for what exists
is shown by the refutations below. -/
theorem C97_fails_only_if_partial {s : S} (h : Reachable false s) (q : Req) (ls : List Lbl) (hl : ∀ l ∈ ls, quiet l = true)
    (s' : S) (O : List Obs) (hr : run false s (.req q :: ls) = some (s', O)) (e : Err) (he : .error e ∈ answers O) : reason s s' q ∧ e ∈ failsWith q := by
  obtain ⟨s1, o, O', h1, h2, rfl⟩ := run_cons hr
  obtain ⟨rfl, hf⟩ := fate_start (reach_ctl h) (reach_dat h) (reach_own h) h1
  exact (fate_keeps ls s1 s' O' hf hl h2).2 e he

/-- C97 (partial): a threads request that succeeds lists the threads there were when it came, in order, unless one was started or has exited meanwhile. -/
theorem C97_threads_listed_partial {s : S} (h : Reachable false s) (ls : List Lbl) (hl : ∀ l ∈ ls, quiet l = true)
    (s' : S) (O : List Obs) (hr : run false s (.req .threads :: ls) = some (s', O)) (ids : List Nat) (he : .ok ids ∈ answers O) :
    ids = s.threads ∨ s.nextT < s'.nextT ∨ threadExited s s' := by
  obtain ⟨s1, o, O', h1, h2, rfl⟩ := run_cons hr
  obtain ⟨rfl, hf⟩ := fate_start (reach_ctl h) (reach_dat h) (reach_own h) h1
  have hw : Listing s s1 s1.r := by
    simp only [step] at h1
    split at h1
    · cases h1
      exact .inr (.inl ⟨_, _, rfl, .inr ⟨rfl, Nat.zero_le _⟩⟩)
    · cases h1
  exact ((listing_run ls s1 s' O' hf hw hl h2).2 ids he).symm

/-- The hypotheses are met: stackTrace while the task of the thread ends. The thread is still there, its frame is gone. -/
example : ∃ s1 s2, Reachable false s1 ∧ run false s1 (.req (.stackTrace 2) :: ([.go, .go, .endTask 5 false] ++ plays 6 ++ gos 2)) = some (s2, [.answer (.error .key)]) ∧
    2 ∈ s1.threads ∧ 2 ∈ s2.threads ∧ 1 ∈ s1.live ∧ 1 ∉ s2.live := by
  obtain ⟨s1, h1, e1⟩ := ends (f := false) (g := fun s => (s.threads, s.live)) (ls := running) (a := ([1, 2], [1])) (O := [.started 2]) (by decide +kernel)
  obtain ⟨s2, h2, e2⟩ := ends (f := false) (g := fun s => (s.threads, s.live)) (ls := running ++ (.req (.stackTrace 2) :: ([.go, .go, .endTask 5 false] ++ plays 6 ++ gos 2))) (a := ([1, 2], []))
    (O := [.started 2, .answer (.error .key)]) (by decide +kernel)
  simp only [Prod.mk.injEq] at e1 e2
  obtain ⟨O, h3, e3⟩ := run_split h1 h2
  refine ⟨s1, s2, ⟨_, _, h1⟩, ?_, by rw [e1.1]; simp, by rw [e2.1]; simp, by rw [e1.2]; simp, by rw [e2.2]; simp⟩
  rw [h3, show O = [.answer (.error .key)] from by simpa using e3.symm]

/-- A threads request that is answered while a task runs. -/
example : (run false {} (running ++ [.req .threads, .go, .endTask 5 false, .go, .play false] ++ gos 2)).map (fun x => (x.1.threads, answers x.2)) = some ([1, 2], [.ok [1, 2]]) := by
  decide +kernel

/-- C97 is refuted for stackTrace: the frame is removed between the moment its number is read and the moment it is looked up. The request for an existing thread fails
with KeyError. -/
theorem C97_stack_trace_refuted : ∃ ls s O, run false {} ls = some (s, O) ∧ answers O = [.error .key] ∧ 2 ∈ s.threads ∧ (∀ q, .req q ∈ ls → q = .stackTrace 2) := by
  obtain ⟨s, h, e⟩ := ends (f := false) (g := fun s => s.threads)
    (ls := running ++ [.req (.stackTrace 2), .go, .go, .endTask 5 false] ++ plays 6 ++ gos 2) (a := [1, 2])
    (O := [.started 2, .answer (.error .key)]) (by decide +kernel)
  refine ⟨_, s, _, h, rfl, by rw [e]; simp, ?_⟩
  intro q hq
  simp [running, plays, gos] at hq
  exact hq

/-- C97 is refuted for threads: a new host appears while the threads are listed. The request fails with RuntimeError. -/
theorem C97_threads_refuted : ∃ ls s O, run false {} ls = some (s, O) ∧ answers O = [.error .runtime] ∧ (∀ q, .req q ∈ ls → q = .threads) := by
  obtain ⟨s, h, _⟩ := ends (f := false) (g := fun s => s.r)
    (ls := running ++ [.req .threads, .startTask 6, .play false] ++ gos 2) (a := .idle)
    (O := [.started 2, .answer (.error .runtime)]) (by decide +kernel)
  refine ⟨_, s, _, h, rfl, ?_⟩
  intro q hq
  simp [running, plays, gos] at hq
  exact hq

/-- C97 is refuted for continue: the same for a continue of all threads; the threads after the new one keep their state. -/
theorem C97_continue_refuted : ∃ ls s O, run false {} ls = some (s, O) ∧ answers O = [.error .runtime] ∧ (∀ q, .req q ∈ ls → q = .continueAll) := by
  obtain ⟨s, h, _⟩ := ends (f := false) (g := fun s => s.r)
    (ls := running ++ [.req .continueAll, .go, .startTask 6, .play false] ++ gos 3) (a := .idle)
    (O := [.started 2, .answer (.error .runtime)]) (by decide +kernel)
  refine ⟨_, s, _, h, rfl, ?_⟩
  intro q hq
  simp [running, plays, gos] at hq
  exact hq

/-- C97 is refuted for references: a scopes request that has found its frame adds variables to it after the playbook has removed it. They are never removed, and
the references are answered although no frame exists. -/
theorem C97_leaked_references_refuted : ∃ ls s O, run false {} ls = some (s, O) ∧ s.p = .idle ∧ s.live = [] ∧ answers O = [.ok [1, 2, 3, 4], .ok [5]] ∧ s.vars 1 = some 1 := by
  obtain ⟨s, h, e⟩ := ends (f := false) (g := fun s => (s.p, s.live, s.vars 1))
    (ls := running ++ [.req (.scopes 1), .go, .endTask 5 false] ++ plays 7 ++ gos 14 ++ [.req (.variables 1 1)] ++ gos 5) (a := (.idle, [], some 1))
    (O := [.started 2, .answer (.ok [1, 2, 3, 4]), .answer (.ok [5])]) (by decide +kernel)
  simp only [Prod.mk.injEq] at e
  exact ⟨_, s, _, h, e.1, e.2.1, rfl, e.2.2⟩

end Verif.Props.Race
