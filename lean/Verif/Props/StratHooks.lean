import Verif.Strat.HooksSafe
import Verif.Props.StratRun
/-!
# The hooks of the strategy (C79 - C81)

Model: `Verif.Strat.Hooks`; vocabulary: `Verif.Strat.HooksSpec`. A history is any sequence of calls
that Ansible makes, in any order, with any requests of the client in between.
-/

namespace Verif.Props.StratHooks
open Verif Verif.Strat Verif.Strat.Hooks Verif.Props.Strat

/-! ## Examples -/

/-- Execution of a list of labels, for the examples. -/
def hexec : HS → List Lbl → Option (HS × List Ev)
  | s, [] => some (s, [])
  | s, l :: ls => match hstep s l with
    | none => none
    | some (s1, o) => match hexec s1 ls with
      | none => none
      | some (s2, os) => some (s2, o ++ os)

theorem hexec_run {s s' : HS} {ls : List Lbl} {os : List Ev} (h : hexec s ls = some (s', os)) : HRun s ls s' os := by
  induction ls generalizing s os with
  | nil => cases h; exact .nil _
  | cons l ls ih =>
    simp only [hexec] at h
    cases h1 : hstep s l with
    | none => simp [h1] at h
    | some p =>
      obtain ⟨s1, o⟩ := p
      cases h2 : hexec s1 ls with
      | none => simp [h1, h2] at h
      | some q =>
        obtain ⟨s2, os2⟩ := q
        simp only [h1, h2, Option.some.injEq, Prod.mk.injEq] at h
        obtain ⟨rfl, rfl⟩ := h
        exact .cons h1 (ih h2)

/-- The state after a list of labels. -/
def hstF (s : HS) (ls : List Lbl) : HS := match hexec s ls with
  | some p => p.1
  | none => s
/-- The events of a list of labels. -/
def hevF (s : HS) (ls : List Lbl) : List Ev := match hexec s ls with
  | some p => p.2
  | none => []

theorem hrun_of {s : HS} {ls : List Lbl} (h : (hexec s ls).isSome = true) : HRun s ls (hstF s ls) (hevF s ls) := by
  unfold hstF hevF
  cases e : hexec s ls with
  | none => rw [e] at h; cases h
  | some p => exact hexec_run e

/-- A play with a breakpoint on line 1 of `a.yml`. -/
def play0 : HS := { ds := stF {} (setup ++ [.newPlay]) }

theorem play0_begins : Begins play0 := by
  refine ⟨stF {} setup, ouF (stF {} setup) [.newPlay], ⟨setup, _, run_of (by decide +kernel)⟩, ?_, rfl⟩
  have h : step (stF {} setup) .newPlay = some (stF (stF {} setup) [.newPlay], ouF (stF {} setup) [.newPlay]) := step_of (by decide +kernel)
  exact h

/-- Host 7 and host 8 run a task, 7 stops at the breakpoint and is continued; then a meta task. -/
def calls : List Lbl :=
  [.queueTask 7 (tk 10 1) 0 0 yes, .req (.cont 2 true), .wake, .go, .queueTask 8 (tk 10 1) 0 0 yes, .req (.cont 3 true), .wake, .go,
   .pendingResults [⟨8, tk 10 1, fine, 0⟩], .go, .go, .pendingResults [⟨7, tk 10 1, fine, 0⟩], .go, .go,
   .executeMeta 7 (tk 11 2) 0 0 yes true 0, .go, .go, .runEnds 0]

/-! ## C79 -/

/-- **C79** (announced before it runs). After every history of a play: a task that was handed to
Ansible for execution began (was announced to the debugger, which may have stopped there) just
before, with no other task beginning or being handed over in between. -/
theorem C79_announced_first {s s' : HS} {ls : List Lbl} {es a b : List Ev} {h : Nat} {t : Task} (hb : Begins s) (hr : HRun s ls s' es)
    (he : es = a ++ .executed h t :: b) :
    ∃ a1 a2, a = a1 ++ .began h t :: a2 ∧ ∀ x ∈ a2, ¬ IsBegan x ∧ ¬ IsExecuted x := by
  obtain ⟨hi, -, hc⟩ := begins_inv hb
  have hp := hrun_paired hr hi (by rw [hc]; simp)
  rw [hc] at hp
  rcases paired_before hp he with h1 | ⟨h1, -⟩
  · exact h1
  · cases h1

/-- **C79** (not skipped). A task that began was handed to Ansible before the next one begins. -/
theorem C79_not_skipped {s s' : HS} {ls : List Lbl} {es a b c : List Ev} {h h' : Nat} {t t' : Task} (hb : Begins s) (hr : HRun s ls s' es)
    (he : es = a ++ .began h t :: (b ++ .began h' t' :: c)) : .executed h t ∈ b := by
  obtain ⟨hi, -, hc⟩ := begins_inv hb
  have hp := hrun_paired hr hi (by rw [hc]; simp)
  exact (paired_between hp).2 he

/-- **C79** (held while stopped). Once a stop of a thread was announced, and as long as no request
that concerns that thread is handled: no task begins, none is handed to Ansible, no result is
passed on, and `run` is not left, whatever else happens. Only answers to requests are sent. -/
theorem C79_held {s s1 s2 s3 : HS} {ls ls' : List Lbl} {l : Lbl} {es e es' : List Ev} {tid : Nat} {w : Verif.Strat.Stop} (hb : Begins s)
    (hr : HRun s ls s1 es) (h : hstep s1 l = some (s2, e)) (hst : Ev.msg (.stopped tid w) ∈ e) (hr' : HRun s2 ls' s3 es')
    (hn : ∀ r, Lbl.req r ∈ ls' → ¬ Resumes tid r) : ∀ x ∈ es', IsQuiet x := by
  obtain ⟨hi, -, hc⟩ := begins_inv hb
  obtain ⟨dls, d1, -⟩ := hrun_ds hr
  have hi1 := inv_run d1 hi
  have hms : Stops tid (msgs e) := ⟨w, List.mem_filterMap.2 ⟨_, hst, rfl⟩⟩
  have hw : Waits tid s2.ds ∧ ∃ x y, ctl s2.ds tid = some (.wait, x, y) := by
    rcases hstep_ds h with ⟨dl, o, h1, h2, -⟩ | ⟨-, h2⟩
    · rw [h2] at hms; exact stop_waits hi1 h1 hms
    · rw [h2] at hms; obtain ⟨w, hw⟩ := hms; cases hw
  have hi2 := hinv_step hi1 h
  obtain ⟨hw, x, y, hctl⟩ := hw
  clear h hst hms hr d1 hi1 hb hi hc
  induction hr' with
  | nil => simp
  | @cons s s₁ s₂ l ls e es h1 h2 ih =>
    have nr : s.ds.pc ≠ .running := by
      rcases hw with e | ⟨i, e⟩ <;> (intro e2; rw [e] at e2; cases e2)
    have nov : s.ds.pc ≠ .ended ∧ ∀ x, s.ds.pc ≠ .crashed x := by
      rcases hw with e | ⟨i, e⟩ <;> (rw [e]; simp)
    have key : ∀ {dl : Label}, dsStep s dl s.cont [] = some (s₁, e) → (∀ r, dl = .req r → l = .req r) → ∀ x ∈ e ++ es, IsQuiet x := by
      intro dl hd hl
      obtain ⟨o, g1, g2, g3⟩ := dsStep_some hd
      obtain ⟨a1, a2, a3, -⟩ := wait_step hi2 g1 hw hctl (fun r hr => hn r (by rw [hl r hr]; simp))
      have := ih (fun r hr => hn r (List.mem_cons_of_mem _ hr)) (inv_step hi2 g1) (by unfold Waits at hw ⊢; rw [a1]; exact hw) (by rw [a2]; exact hctl)
      intro z hz
      rcases List.mem_append.1 hz with hz | hz
      · rw [g3] at hz
        obtain ⟨m, hm, rfl⟩ := List.mem_map.1 (by simpa using hz)
        exact a3 m hm
      · exact this z hz
    have nostep : ∀ {dl : Label} {c : Cont} {evs : List Ev}, dsStep s dl c evs = some (s₁, e) → step s.ds dl = none → ∀ x ∈ e ++ es, IsQuiet x := by
      intro dl c evs hd hno
      obtain ⟨o, g1, -⟩ := dsStep_some hd
      rw [hno] at g1; cases g1
    cases l with
    | queueTask hst t tv ar c =>
      simp only [hstep] at h1; split at h1
      · exact nostep h1 (by simp [step, nr])
      · cases h1
    | executeMeta hst t tv ar c r a =>
      simp only [hstep] at h1; split at h1
      · exact nostep h1 (by simp [step, nr])
      · cases h1
    | pendingResults rs => simp [hstep, nr] at h1
    | loaded p ln ty =>
      simp only [hstep] at h1; split at h1
      · exact nostep h1 (by simp [step, nr])
      · cases h1
    | runEnds n => simp [hstep, nr] at h1
    | runRaises x => simp [hstep, nr] at h1
    | go => simp [hstep, goOn, nr] at h1
    | unwind =>
      simp only [hstep, unwindRun] at h1; split at h1
      · cases h1
      · split at h1
        · rename_i hp; exact absurd hp nov.1
        · rename_i x hp; exact absurd hp (nov.2 x)
        · cases h1
    | wake => simp only [hstep] at h1; exact key h1 (by intro r hr; cases hr)
    | env hp => simp only [hstep] at h1; exact key h1 (by intro r hr; cases hr)
    | req r => simp only [hstep] at h1; exact key h1 (by intro r' hr; cases hr; rfl)

/-- **C79** (results). The results that Ansible hands over are given to the debugger in that order,
each once: at any time those given are the first of those handed over, and all of them whenever
Ansible's code runs. -/
theorem C79_results {s s' : HS} {ls : List Lbl} {es : List Ev} (hb : Begins s) (hr : HRun s ls s' es) :
    ∃ rest, handed ls = endedOf es ++ rest ∧ (s'.cont = .ansible → rest = []) := by
  obtain ⟨hi, -, hc⟩ := begins_inv hb
  obtain ⟨rest, h1, h2⟩ := hrun_todo hr hi (by rw [hc]; simp)
  rw [hc] at h1
  refine ⟨rest, h1.symm, fun hn => ?_⟩
  rw [h2 (by rw [hn]; simp), hn]; rfl

/-- **C79, C36** (meta tasks). The end of a meta task is never an exception stop, whatever filters the client has selected: it
either goes on or the run is over, and no stop is announced. -/
theorem C79_meta_no_stop {s s1 s2 : HS} {ls : List Lbl} {es e : List Ev} {h : Nat} {t : Task} {r : Bool} {a : Addr} (hb : Begins s)
    (hr : HRun s ls s1 es) (hc : s1.cont = .metaRan h t r a) (hs : hstep s1 .go = some (s2, e)) :
    (∀ k w, Ev.msg (.stopped k w) ∉ e) ∧ (s2.ds.pc = .running ∨ Over s2.ds) := by
  obtain ⟨hi, -, -⟩ := begins_inv hb
  obtain ⟨dls, d1, -⟩ := hrun_ds hr
  have hi1 := inv_run d1 hi
  simp only [hstep, goOn] at hs
  split at hs
  · cases hs
  · rename_i hp
    rw [hc] at hs
    simp only at hs
    have hp' : s1.ds.pc = .running := by simpa using hp
    split at hs
    · simp only [dsStep, step, hp', if_true] at hs
      obtain ⟨rfl, rfl⟩ := hs
      refine ⟨?_, .inl hp'⟩
      intro k w hm
      simp only [List.nil_append, List.mem_map] at hm
      obtain ⟨x, hx, hx'⟩ := hm
      cases hx'
      obtain ⟨j, hj⟩ := exit_out _ _ hx
      cases hj
    · simp only [dsStep, step, hp', if_true] at hs
      obtain ⟨rfl, rfl⟩ := hs
      have hns : ∀ k, ¬ Stops k (endTask s1.ds h t noResult a).2 := by
        rcases end_spec hi1 h t noResult a with ⟨-, hn⟩ | ⟨-, e2, -⟩ | ⟨th, ex, -, hw, -⟩
        · exact hn
        · intro k ⟨w, hw⟩; rw [e2] at hw; cases hw
        · simp [whyException, noResult] at hw
      refine ⟨?_, ?_⟩
      · intro k w hm
        simp only [List.cons_append, List.nil_append, List.mem_cons, reduceCtorEq, List.mem_map, false_or] at hm
        obtain ⟨x, hx, hx'⟩ := hm
        cases hx'
        exact hns k ⟨w, hx⟩
      · rcases end_spec hi1 h t noResult a with ⟨hov, -⟩ | ⟨e1, -⟩ | ⟨th, ex, -, hw, -⟩
        · exact .inr hov
        · exact .inl e1
        · simp [whyException, noResult] at hw

/-- A meta task that is not refresh_inventory is over; it is not reported as anything. -/
example : HRun play0 [.executeMeta 7 (tk 11 2) 0 0 yes false 0, .go] (hstF play0 [.executeMeta 7 (tk 11 2) 0 0 yes false 0, .go])
      (hevF play0 [.executeMeta 7 (tk 11 2) 0 0 yes false 0, .go]) ∧
    (match (hstF play0 [.executeMeta 7 (tk 11 2) 0 0 yes false 0, .go]).cont with | .metaRan h _ r _ => decide (h = 7 ∧ r = false) | _ => false) = true ∧
    (hstep (hstF play0 [.executeMeta 7 (tk 11 2) 0 0 yes false 0, .go]) .go).isSome = true := by
  refine ⟨hrun_of (by decide +kernel), by decide +kernel, by decide +kernel⟩

/-- Non-vacuity: the play above; the stop at the breakpoint comes between the beginning and the
hand-over, the client looks around while host 7 is stopped, and all results are passed on. -/
example : Begins play0 ∧ HRun play0 calls (hstF play0 calls) (hevF play0 calls) ∧
    (hevF play0 calls).map (fun e => match e with | .began h _ => (0, h) | .executed h _ => (1, h) | .ended h _ => (2, h) | .msg (.stopped t _) => (3, t) | .returned n => (4, n) | _ => (5, 0)) =
      [(0, 7), (5, 0), (3, 2), (5, 0), (1, 7), (0, 8), (5, 0), (3, 3), (5, 0), (1, 8), (2, 8), (2, 7), (0, 7), (1, 7), (5, 0), (5, 0), (4, 0)] ∧
    HRun (hstF play0 [.queueTask 7 (tk 10 1) 0 0 yes]) [.req .threads, .req (.stackTrace 2), .req (.next 77)]
      (hstF (hstF play0 [.queueTask 7 (tk 10 1) 0 0 yes]) [.req .threads, .req (.stackTrace 2), .req (.next 77)])
      (hevF (hstF play0 [.queueTask 7 (tk 10 1) 0 0 yes]) [.req .threads, .req (.stackTrace 2), .req (.next 77)]) :=
  ⟨play0_begins, hrun_of (by decide +kernel), by decide +kernel, hrun_of (by decide +kernel)⟩

/-! ## C80 -/

theorem main_of_view {s s' : DS} (h : ∀ k, view s' k = view s k) (hm : OnlyMain s) : OnlyMain s' := by
  intro k th hk
  have := h k
  simp only [view, hk, Option.map_some] at this
  cases hs : s.threads.get? k with
  | none => simp [hs] at this
  | some x => exact hm k x hs

/-- A run that was left: what happened before and after. -/
theorem left_split {s s' : HS} {ls : List Lbl} {es a b : List Ev} {x : Ev} (hr : HRun s ls s' es) (hi : Inv s.ds) (hc : s.cont ≠ .over) (hx : IsEnd x)
    (he : es = a ++ x :: b) : ∃ s1 s2 ls1 l ls2 es1 e es2, ls = ls1 ++ l :: ls2 ∧ HRun s ls1 s1 es1 ∧ s1.cont ≠ .over ∧
      hstep s1 l = some (s2, e) ∧ s2.cont = .over ∧ HRun s2 ls2 s' es2 ∧ Inv s1.ds ∧ (∃ m, e = m ++ [x] ∧ ∀ y ∈ m, ¬ IsEnd y) ∧ b = es2 := by
  induction hr generalizing a with
  | nil => simp at he
  | @cons s s₁ s₂ l ls e es h1 h2 ih =>
    by_cases hov : s₁.cont = .over
    · obtain ⟨g1, g2⟩ := left_hstep h1 hc hov
      obtain ⟨-, -, hq⟩ := over_hrun h2 (hinv_step hi h1) hov g1
      have hqe : ∀ y ∈ es, ¬ IsEnd y := by
        intro y hy; have := hq y hy; cases y <;> first | exact id | exact absurd this id
      -- the only end event of the step is its last
      have hlast : ∃ m y, e = m ++ [y] ∧ IsEnd y ∧ ∀ z ∈ m, ¬ IsEnd z := by
        rcases g2 with ⟨-, -, ⟨-, h⟩ | ⟨x, -, h⟩⟩ | ⟨-, o, ⟨n, -, h⟩ | ⟨x, -, h⟩⟩
        · exact ⟨[], _, h, trivial, by simp⟩
        · exact ⟨[], _, h, trivial, by simp⟩
        · refine ⟨_, _, h, trivial, ?_⟩
          intro z hz; obtain ⟨m, -, rfl⟩ := List.mem_map.1 hz; exact id
        · refine ⟨_, _, h, trivial, ?_⟩
          intro z hz; obtain ⟨m, -, rfl⟩ := List.mem_map.1 hz; exact id
      obtain ⟨m, y, rfl, hy, hm⟩ := hlast
      refine ⟨s, s₁, [], l, ls, [], m ++ [y], es, rfl, .nil _, hc, h1, hov, h2, hi, ?_⟩
      have : a = m ∧ x = y ∧ b = es := by
        have he : m ++ y :: es = a ++ x :: b := by simpa using he
        rcases List.append_eq_append_iff.1 he with ⟨c, hc1, hc2⟩ | ⟨c, hc1, hc2⟩
        · -- a = m ++ c
          cases c with
          | nil => simp at hc1 hc2; exact ⟨hc1, hc2.1.symm, hc2.2.symm⟩
          | cons z c =>
            simp only [List.cons_append, List.cons.injEq] at hc2
            exact absurd hx (hqe x (by rw [hc2.2]; simp))
        · cases c with
          | nil => simp at hc1 hc2; exact ⟨hc1.symm, hc2.1, hc2.2⟩
          | cons z c =>
            simp only [List.cons_append, List.cons.injEq] at hc2
            exact absurd hx (hm x (by rw [hc1, hc2.1]; simp))
      obtain ⟨rfl, rfl, rfl⟩ := this
      exact ⟨⟨a, rfl, hm⟩, rfl⟩
    · -- no end event in this step
      have hne : ∀ y ∈ e, ¬ IsEnd y := by
        intro y hy hye
        apply hov
        cases l with
        | runEnds n =>
          simp only [hstep] at h1; split at h1
          · cases h1; rfl
          · cases h1
        | runRaises x =>
          simp only [hstep] at h1; split at h1
          · cases h1; rfl
          · cases h1
        | unwind =>
          simp only [hstep, unwindRun] at h1
          split at h1 <;> cases h1 <;> rfl
        | queueTask hst t tv ar c =>
          exfalso
          simp only [hstep] at h1; split at h1
          · obtain ⟨o, -, -, h3⟩ := dsStep_some h1
            rw [h3] at hy; simp at hy
            rcases hy with rfl | ⟨m, -, rfl⟩ <;> exact hye
          · cases h1
        | executeMeta hst t tv ar c r a =>
          exfalso
          simp only [hstep] at h1; split at h1
          · obtain ⟨o, -, -, h3⟩ := dsStep_some h1
            rw [h3] at hy; simp at hy
            rcases hy with rfl | ⟨m, -, rfl⟩ <;> exact hye
          · cases h1
        | pendingResults rs =>
          simp only [hstep] at h1; split at h1
          · cases h1; cases hy
          · cases h1
        | loaded p ln ty =>
          exfalso
          simp only [hstep] at h1; split at h1
          · obtain ⟨o, -, -, h3⟩ := dsStep_some h1
            rw [h3] at hy; simp at hy
            obtain ⟨m, -, rfl⟩ := hy; exact hye
          · cases h1
        | go =>
          exfalso
          simp only [hstep, goOn] at h1; split at h1
          · cases h1
          · split at h1
            · cases h1; simp at hy; subst hy; exact hye
            · cases h1; simp at hy; subst hy; exact hye
            · split at h1
              · obtain ⟨o, -, -, h3⟩ := dsStep_some h1
                rw [h3] at hy; simp at hy
                obtain ⟨m, -, rfl⟩ := hy; exact hye
              · obtain ⟨o, -, -, h3⟩ := dsStep_some h1
                rw [h3] at hy; simp at hy
                rcases hy with rfl | ⟨m, -, rfl⟩ <;> exact hye
            · cases h1; cases hy
            · obtain ⟨o, -, -, h3⟩ := dsStep_some h1
              rw [h3] at hy; simp at hy
              rcases hy with rfl | ⟨m, -, rfl⟩ <;> exact hye
            · cases h1
            · cases h1
        | wake =>
          exfalso
          simp only [hstep] at h1
          obtain ⟨o, -, -, h3⟩ := dsStep_some h1
          rw [h3] at hy; simp at hy
          obtain ⟨m, -, rfl⟩ := hy; exact hye
        | env hp =>
          exfalso
          simp only [hstep] at h1
          obtain ⟨o, -, -, h3⟩ := dsStep_some h1
          rw [h3] at hy; simp at hy
          obtain ⟨m, -, rfl⟩ := hy; exact hye
        | req r =>
          exfalso
          simp only [hstep] at h1
          obtain ⟨o, -, -, h3⟩ := dsStep_some h1
          rw [h3] at hy; simp at hy
          obtain ⟨m, -, rfl⟩ := hy; exact hye
      have : ∃ a', a = e ++ a' ∧ es = a' ++ x :: b := by
        rcases List.append_eq_append_iff.1 he with ⟨c, hc1, hc2⟩ | ⟨c, hc1, hc2⟩
        · exact ⟨c, hc1, hc2⟩
        · cases c with
          | nil => exact ⟨[], by simpa using hc1.symm, by simpa using hc2.symm⟩
          | cons z c =>
            simp only [List.cons_append, List.cons.injEq] at hc2
            exact absurd hx (hne x (by rw [hc1, hc2.1]; simp))
      obtain ⟨a', rfl, he'⟩ := this
      obtain ⟨t1, t2, ls1, l', ls2, es1, e', es2, k1, k2, k3, k4, k5, k6, k7, k8, k9⟩ := ih (hinv_step hi h1) hov he'
      exact ⟨t1, t2, l :: ls1, l', ls2, e ++ es1, e', es2, by rw [k1]; rfl, .cons h1 k2, k3, k4, k5, k6, k7, k8, k9⟩

/-- **C80** (once and last). `run` returns or raises at most once in a history, and afterwards
nothing but answers to requests is observed: no task begins, none is executed, no thread starts,
stops or exits. -/
theorem C80_last {s s' : HS} {ls : List Lbl} {es a b : List Ev} {x : Ev} (hb : Begins s) (hr : HRun s ls s' es) (hx : IsEnd x)
    (he : es = a ++ x :: b) : ∀ y ∈ b, IsQuiet y := by
  obtain ⟨hi, -, hc⟩ := begins_inv hb
  obtain ⟨s1, s2, ls1, l, ls2, es1, e, es2, -, -, k3, k4, k5, k6, k7, -, rfl⟩ := left_split hr hi (by rw [hc]; simp) hx he
  exact (over_hrun k6 (hinv_step k7 k4) k5 (left_hstep k4 k3 k5).1).2.2

/-- **C80** (threads). When `run` was left, however that happened, only the main thread is left. -/
theorem C80_threads {s s' : HS} {ls : List Lbl} {es : List Ev} {x : Ev} (hb : Begins s) (hr : HRun s ls s' es) (hx : IsEnd x)
    (he : x ∈ es) : ∀ k th, s'.ds.threads.get? k = some th → k = 1 := by
  obtain ⟨hi, hp, hc⟩ := begins_inv hb
  obtain ⟨a, b, rfl⟩ := List.append_of_mem he
  obtain ⟨s1, s2, ls1, l, ls2, es1, e, es2, -, k2, k3, k4, k5, k6, k7, -, -⟩ := left_split hr hi (by rw [hc]; simp) hx rfl
  obtain ⟨g1, g2⟩ := left_hstep k4 k3 k5
  have hm2 : OnlyMain s2.ds := by
    rcases g2 with ⟨-, h, ho⟩ | ⟨h, -⟩
    · rw [h]
      obtain ⟨dls, d1, -⟩ := hrun_ds k2
      refine main_run d1 hi (fun ho => ?_) ?_
      · rcases ho with e | ⟨x, e⟩ <;> (rw [hp] at e; cases e)
      · rcases ho with ⟨e, -⟩ | ⟨x, e, -⟩
        · exact .inl e
        · exact .inr ⟨x, e⟩
    · rw [h]; exact finish_main s1.ds s1.ds.pc
  have hi2 := hinv_step k7 k4
  clear k4 g2 k2 k7 hr
  suffices h : OnlyMain s'.ds from h
  clear he hx hb hi hp hc k3
  induction k6 with
  | nil => exact hm2
  | @cons s s₁ s₂ l ls e es h1 h2 ih =>
    obtain ⟨a1, a2, -⟩ := over_hstep hi2 h1 k5 g1
    refine ih a1 a2 ?_ (hinv_step hi2 h1)
    have na : atAnsible s = false := by simp [atAnsible, k5]
    have ni : inRun s = false := by simp [inRun, k5]
    cases l with
    | queueTask => simp [hstep, na] at h1
    | executeMeta => simp [hstep, na] at h1
    | pendingResults => simp [hstep, na] at h1
    | loaded => simp [hstep, na] at h1
    | runEnds => simp [hstep, na] at h1
    | runRaises => simp [hstep, ni] at h1
    | go => simp [hstep, goOn, k5] at h1
    | unwind => simp [hstep, unwindRun, k5] at h1
    | wake =>
      exfalso
      simp only [hstep] at h1
      obtain ⟨o, g, -⟩ := dsStep_some h1
      simp only [step] at g
      split at g
      · rename_i tid e; exact g1 tid (.inl e)
      · rename_i tid i e; exact g1 tid (.inr ⟨i, e⟩)
      · cases g
    | env hq =>
      simp only [hstep] at h1
      obtain ⟨o, g, -⟩ := dsStep_some h1
      exact main_of_view (fun k => by rw [fst_eq g]; rfl) hm2
    | req r =>
      simp only [hstep] at h1
      obtain ⟨o, g, -⟩ := dsStep_some h1
      exact main_of_view (fun k => by rw [fst_eq g]; exact view_request hi2 r k) hm2

/-- **C80** (result code). What `run` returns is what Ansible's own run returned, except that it is
RUN_FAILED_BREAK_PLAY (8) when the client ended the run, which needs a terminate request or a
disconnect request that asks for it during this play. -/
theorem C80_code {s s' : HS} {ls : List Lbl} {es : List Ev} {n : Nat} (hb : Begins s) (hr : HRun s ls s' es) (he : .returned n ∈ es) :
    .runEnds n ∈ ls ∨ (n = 8 ∧ ∃ r, .req r ∈ ls ∧ Ends r) := by
  obtain ⟨hi, hp, hc⟩ := begins_inv hb
  obtain ⟨a, b, rfl⟩ := List.append_of_mem he
  obtain ⟨s1, s2, ls1, l, ls2, es1, e, es2, rfl, k2, k3, k4, k5, k6, k7, ⟨m, k8, -⟩, -⟩ := left_split hr hi (by rw [hc]; simp) (x := .returned n) trivial rfl
  obtain ⟨-, g2⟩ := left_hstep k4 k3 k5
  rcases g2 with ⟨-, -, ho⟩ | ⟨-, o, ⟨n', h1, h2⟩ | ⟨x, h1, h2⟩⟩
  · rcases ho with ⟨h1, h2⟩ | ⟨x, h1, h2⟩
    · right
      rw [h2] at k8
      have : n = 8 := by
        cases m with
        | nil => simp at k8; exact k8.symm
        | cons y m => simp at k8
      refine ⟨this, ?_⟩
      refine Classical.byContradiction fun hcon => ?_
      obtain ⟨dls, d1, d2⟩ := hrun_ds k2
      have := noEnd_run d1 hi (begins_noEnd hb) (fun r hr hE => hcon ⟨r, by simp [d2 r hr], hE⟩)
      exact this.pc h1
    · rw [h2] at k8
      cases m with
      | nil => simp at k8
      | cons y m => simp at k8
  · left
    rw [h2] at k8
    have := (List.append_inj' k8 rfl).2
    simp at this
    rw [← this, h1]; simp
  · rw [h2] at k8
    have := (List.append_inj' k8 rfl).2
    simp at this

/-- Non-vacuity: the play above returns Ansible's 0; a play that is terminated while host 7 is
stopped returns 8. -/
example : Ev.returned 0 ∈ hevF play0 calls ∧
    HRun play0 [.queueTask 7 (tk 10 1) 0 0 yes, .req .terminate, .wake, .unwind, .req .threads]
      (hstF play0 [.queueTask 7 (tk 10 1) 0 0 yes, .req .terminate, .wake, .unwind, .req .threads])
      (hevF play0 [.queueTask 7 (tk 10 1) 0 0 yes, .req .terminate, .wake, .unwind, .req .threads]) ∧
    ((hevF play0 [.queueTask 7 (tk 10 1) 0 0 yes, .req .terminate, .wake, .unwind, .req .threads]).any fun e => match e with | .returned n => n == 8 | _ => false) = true := by
  refine ⟨?_, hrun_of (by decide +kernel), by decide +kernel⟩
  have h : ∀ es, es = hevF play0 calls → (es.any fun e => match e with | .returned n => n == 0 | _ => false) = true → Ev.returned 0 ∈ es := by
    intro es _ h
    obtain ⟨e, h1, h2⟩ := List.any_eq_true.1 h
    cases e <;> simp at h2
    subst h2; exact h1
  exact h _ rfl (by decide +kernel)

/-! ## C81 -/

/-- **C81.** As long as Ansible's linear strategy keeps what it promises (`Orderly`), the debugger
makes no play fail: whatever the client requests and whatever the tasks are, an exception that
leaves `run` is one of Ansible's own.

Proved for tasks that stand in a block, for an inventory refreshed when nothing is queued, and for
hosts whose tasks after an include_role stand in a role or at the top of the play (`RolesOnly`), and for
line numbers that are not negative; for
what happens otherwise see the refutations below. -/
theorem C81_no_failure_partial {s s' : HS} {ls : List Lbl} {es : List Ev} {e : PyErr} (hb : Begins s) (ho : Orderly [] ls) (hro : RolesOnly ls)
    (hk : ∀ b ∈ s.ds.dbg.bps, 0 ≤ b.2.reqLine) (hlf : ∀ l ∈ ls, LinesFine l) (hr : HRun s ls s' es) (he : .raised e ∈ es) : .runRaises e ∈ ls := by
  obtain ⟨hi, hp, hc⟩ := begins_inv hb
  obtain ⟨a, b, rfl⟩ := List.append_of_mem he
  obtain ⟨s1, s2, ls1, l, ls2, es1, ev, es2, rfl, k2, k3, k4, k5, k6, k7, ⟨m, k8, -⟩, -⟩ := left_split hr hi (by rw [hc]; simp) (x := .raised e) trivial rfl
  obtain ⟨-, g2⟩ := left_hstep k4 k3 k5
  rcases g2 with ⟨-, -, hx⟩ | ⟨-, o, ⟨n', h1, h2⟩ | ⟨x, h1, h2⟩⟩
  · rcases hx with ⟨h1, h2⟩ | ⟨x, h1, h2⟩
    · rw [h2] at k8
      cases m with
      | nil => simp at k8
      | cons y m => simp at k8
    · exfalso
      have hpre : ∀ {F} (l1 l2 : List Lbl), Orderly F (l1 ++ l2) → Orderly F l1 := by
        intro F l1
        induction l1 generalizing F with
        | nil => intro l2 _; exact .nil
        | cons y l1 ih =>
          intro l2 h
          cases h with
          | queue h1 h2 h3 => exact .queue h1 h2 (ih _ h3)
          | exec h1 h2 h3 h4 => exact .exec h1 h2 h3 (ih _ h4)
          | results h1 h2 h3 => exact .results h1 h2 (ih _ h3)
          | other h1 h2 h3 h4 => exact .other h1 h2 h3 (ih _ h4)
      obtain ⟨G, hG⟩ := hrun_safe (hpre _ _ ho) k2 hi ⟨begins_tables hb, hk⟩ (fun l h => hlf l (List.mem_append_left _ h)) (begins_safe hb) (fun ho => by rcases ho with e | ⟨x, e⟩ <;> (rw [hp] at e; cases e))
        (begins_roles hb) (rolesAfter_of (fun _ _ _ _ _ hF => hF.elim) (rolesOnly_pre hro))
      exact hG.nocrash x h1
  · rw [h2] at k8
    have := (List.append_inj' k8 rfl).2
    simp at this
  · rw [h2] at k8
    have := (List.append_inj' k8 rfl).2
    simp at this
    rw [← this, h1]; simp

/-- Non-vacuity: the calls of the play above are orderly. -/
example : Orderly [] calls :=
  .queue (by simp) (by simp [tk]) <| .other (by simp) (by simp) (by simp) <| .other (by simp) (by simp) (by simp) <| .other (by simp) (by simp) (by simp) <|
  .queue (by simp) (by simp [tk]) <| .other (by simp) (by simp) (by simp) <| .other (by simp) (by simp) (by simp) <| .other (by simp) (by simp) (by simp) <|
  .results (by simp) (by simp) <| .other (by simp) (by simp) (by simp) <| .other (by simp) (by simp) (by simp) <|
  .results (by simp) (by simp) <| .other (by simp) (by simp) (by simp) <| .other (by simp) (by simp) (by simp) <|
  .exec (by simp) (by simp [tk]) (by simp) <| .other (by simp) (by simp) (by simp) <| .other (by simp) (by simp) (by simp) <|
  .other (by simp) (by simp) (by simp) .nil

/-- Non-vacuity: nor is a line in them negative. -/
example : (∀ b ∈ play0.ds.dbg.bps, 0 ≤ b.2.reqLine) ∧ ∀ l ∈ calls, LinesFine l := by
  constructor
  · decide +kernel
  · simp [calls, LinesFine]

/-- **C81, refuted for negative lines.** The client asks for a breakpoint at line -9 of a file that was
not loaded yet, which is accepted. When the file is included, IndexError leaves `run`. -/
theorem C81_negative_line_refuted : ∃ s ls s' es, Begins s ∧ HRun s ls s' es ∧ Orderly [] ls ∧ RolesOnly ls ∧ (∀ e, Lbl.runRaises e ∉ ls) ∧
    Ev.raised .index ∈ es := by
  refine ⟨play0, [.req (.setBps 1 { name := none, path := some py!"r.yml" } false [-9]), .loaded py!"r.yml" 3 1, .unwind], _, _,
    play0_begins, hrun_of (by decide +kernel),
    .other (by simp) (by simp) (by simp) <| .other (by simp) (by simp) (by simp) <| .other (by simp) (by simp) (by simp) .nil, ?_, by simp, ?_⟩
  · intro a l b h inc e hb
    have : l ∈ a ++ l :: b := by simp
    rw [← e] at this
    simp only [List.mem_cons, List.not_mem_nil, or_false] at this
    rcases this with rfl | rfl | rfl <;> cases hb
  · have h : ∀ es : List Ev, (es.any fun e => match e with | .raised .index => true | _ => false) = true → Ev.raised .index ∈ es := by
      intro es h
      obtain ⟨e, h1, h2⟩ := List.any_eq_true.1 h
      split at h2
      · exact h1
      · cases h2
    exact h _ (by decide +kernel)

/-- A task that stands in no block, as the `noop` tasks that Ansible makes up. -/
def orphan : Task := { node := ordi 70, parents := [], path := none }

/-- **C81, refuted for tasks without a block.** A host is inside an include and gets a meta task
that stands in no block: AttributeError leaves `run`. -/
theorem C81_orphan_refuted : ∃ s ls s' es, Begins s ∧ HRun s ls s' es ∧ (∀ e, Lbl.runRaises e ∉ ls) ∧ Ev.raised .attribute ∈ es := by
  refine ⟨play0, [.queueTask 7 (tinc 50 3) 0 0 yes, .go, .pendingResults [⟨7, tinc 50 3, fine, 0⟩], .go, .go, .executeMeta 7 orphan 0 0 yes false 0, .unwind], _, _,
    play0_begins, hrun_of (by decide +kernel), by simp, ?_⟩
  have h : ∀ es : List Ev, (es.any fun e => match e with | .raised .attribute => true | _ => false) = true → Ev.raised .attribute ∈ es := by
    intro es h
    obtain ⟨e, h1, h2⟩ := List.any_eq_true.1 h
    split at h2
    · exact h1
    · cases h2
  exact h _ (by decide +kernel)

/-- **C81, refuted for a refresh while a task is queued.** The result of host 7 comes after the
inventory was refreshed: StopIteration leaves `run`. -/
theorem C81_refresh_refuted : ∃ s ls s' es, Begins s ∧ HRun s ls s' es ∧ (∀ e, Lbl.runRaises e ∉ ls) ∧ Ev.raised .stopIter ∈ es := by
  refine ⟨play0, [.queueTask 7 (tk 10 3) 0 0 yes, .go, .executeMeta 8 (tk 11 2) 0 0 yes true 0, .go, .go, .pendingResults [⟨7, tk 10 3, fine, 0⟩], .go, .unwind], _, _,
    play0_begins, hrun_of (by decide +kernel), by simp, ?_⟩
  have h : ∀ es : List Ev, (es.any fun e => match e with | .raised .stopIter => true | _ => false) = true → Ev.raised .stopIter ∈ es := by
    intro es h
    obtain ⟨e, h1, h2⟩ := List.any_eq_true.1 h
    split at h2
    · exact h1
    · cases h2
  exact h _ (by decide +kernel)

/-- **C81** (exactly when it fails). `start_task` raises an exception exactly if the host has frames
and the task stands in no block, or the newest frame is one of an include_role and the task, which
has something above its block, is in no role. It is an AttributeError. -/
theorem C81_begin_fails {s s' : DS} {h : Nat} {t : Task} {tv ar : Addr} {c : Nat → Bool} {o : List Out} (hr : Reachable s)
    (hs : step s (.start h t tv ar c) = some (s', o)) :
    (Failed s' ↔ ∃ f top rest, hostStack s h = (f, some top) :: rest ∧
      (t.parents = [] ∨ (2 ≤ t.parents.length ∧ top.node.isRole = true ∧ t.inRole = false))) ∧
    ∀ e, s'.pc = .crashed e → e = .attribute := by
  have hi := reach_inv hr
  refine ⟨start_fails_iff hi hs, fun e he => ?_⟩
  simp only [step] at hs
  split at hs
  · rename_i hp
    rw [fst_eq hs] at he
    obtain ⟨c1, h1, -, -⟩ := hostThread_spec hi.core h
    rcases start_spec hi hp h t tv ar c with ⟨e', h2, h3⟩ | ⟨s1, th1, -, -, -, -, e5, -⟩
    · rw [h3] at he
      have := sync_error_attr c1 h1 h2
      subst this
      cases he; rfl
    · rw [e5] at he; split at he <;> cases he
  · cases hs

/-- An include_role in the file that include 50 includes. -/
def trole : Task := { node := { uuid := 60, isTask := true, isInclude := true, hasRescue := false, isRole := true }, parents := [blk 901, incl 50, blk 900], path := some (py!"b.yml", 1) }

/-- A task of that role. -/
def tin : Task := { node := ordi 61, parents := [blk 902, trole.node, blk 901, incl 50, blk 900], path := some (py!"r.yml", 1), inRole := true }

/-- Host 7 goes into the include and the role, then to what follows there. -/
def roleCalls (t : Task) : List Lbl :=
  [.queueTask 7 (tinc 50 3) 0 0 yes, .go, .pendingResults [⟨7, tinc 50 3, fine, 0⟩], .go, .go, .queueTask 7 trole 0 0 yes, .go,
   .pendingResults [⟨7, trole, fine, 0⟩], .go, .go, .queueTask 7 tin 0 0 yes, .go, .pendingResults [⟨7, tin, fine, 0⟩], .go, .go, .queueTask 7 t 0 0 yes]

theorem roleCalls_orderly {t : Task} (ht : t.parents ≠ []) {b : List Lbl} (hb : Orderly [(7, t)] b) : Orderly [] (roleCalls t ++ b) := by
  refine .queue (by simp) (by simp [tinc]) <| .other (by simp) (by simp) (by simp) <|
    .results (by simp) (by simp) <| .other (by simp) (by simp) (by simp) <| .other (by simp) (by simp) (by simp) <|
    .queue (by simp) (by simp [trole]) <| .other (by simp) (by simp) (by simp) <|
    .results (by simp) (by simp) <| .other (by simp) (by simp) (by simp) <| .other (by simp) (by simp) (by simp) <|
    .queue (by simp) (by simp [tin]) <| .other (by simp) (by simp) (by simp) <|
    .results (by simp) (by simp) <| .other (by simp) (by simp) (by simp) <| .other (by simp) (by simp) (by simp) <|
    .queue (by simp) ht ?_
  simpa using hb

/-- **C81, refuted for an include_role in an included file.** A task of an ordinary file that is
included with include_tasks follows an include_role in that file. Ansible keeps all its promises, the
client does nothing; still an AttributeError leaves `run`, because the debugger wants to scan the
role of a task that is in no role. -/
theorem C81_role_refuted : ∃ s ls s' es, Begins s ∧ HRun s ls s' es ∧ Orderly [] ls ∧ (∀ e, Lbl.runRaises e ∉ ls) ∧ (∀ r, Lbl.req r ∉ ls) ∧
    Ev.raised .attribute ∈ es := by
  refine ⟨play0, roleCalls (tsub 62 2) ++ [.unwind], _, _, play0_begins, hrun_of (by decide +kernel),
    roleCalls_orderly (by simp [tsub]) (.other (by simp) (by simp) (by simp) .nil), by simp [roleCalls], by simp [roleCalls], ?_⟩
  have h : ∀ es : List Ev, (es.any fun e => match e with | .raised .attribute => true | _ => false) = true → Ev.raised .attribute ∈ es := by
    intro es h
    obtain ⟨e, h1, h2⟩ := List.any_eq_true.1 h
    split at h2
    · exact h1
    · cases h2
  exact h _ (by decide +kernel)

/-- Non-vacuity: the same with another task of the role, or one at the top of the play, is fine. -/
example : (∀ t, t = { tin with path := some (py!"r.yml", 2) } ∨ t = tk 63 4 → RolesOnly (roleCalls t)) ∧
    (hexec play0 (roleCalls { tin with path := some (py!"r.yml", 2) })).map (fun r => r.1.ds.pc) = some .running ∧
    (hexec play0 (roleCalls (tk 63 4))).map (fun r => r.1.ds.pc) = some .running := by
  refine ⟨?_, by decide +kernel, by decide +kernel⟩
  have key : ∀ {R : Nat → Prop} {ls : List Lbl}, RolesAfter R ls → ∀ a l b h inc, ls = a ++ l :: b → beginsL l = some (h, inc) → inc.node.isRole = true →
      ∀ l' ∈ b, ∀ t, beginsL l' = some (h, t) → t.inRole = true ∨ t.parents.length ≤ 1 := by
    have mono : ∀ {R : Nat → Prop} {ls : List Lbl} {h : Nat}, RolesAfter R ls → R h → ∀ l' ∈ ls, ∀ t, beginsL l' = some (h, t) → t.inRole = true ∨ t.parents.length ≤ 1 := by
      intro R ls
      induction ls generalizing R with
      | nil => intro h _ _ l' hl'; cases hl'
      | cons l ls ih =>
        intro h hra hR l' hl' t hb
        rcases List.mem_cons.1 hl' with rfl | hl'
        · exact hra.1 h t hb hR
        · exact ih hra.2 (.inl hR) l' hl' t hb
    intro R ls
    induction ls generalizing R with
    | nil => intro _ a l b h inc e; simp at e
    | cons x ls ih =>
      intro hra a l b h inc e hb hr
      cases a with
      | nil => cases e; exact mono hra.2 (.inr ⟨inc, hb, hr⟩)
      | cons y a => cases e; exact ih hra.2 a l b h inc rfl hb hr
  rintro t (rfl | rfl)
  all_goals
    refine key (R := fun _ => False) ?_
    simp [RolesAfter, roleCalls, beginsL, tin, trole, tinc, tk, incl, ordi]

end Verif.Props.StratHooks
