import Verif.Strat.Ctl
/-!
# Stepping, stopping and waiting (C32 - C39)

Model: `Verif.Strat.Thread`, `Verif.Strat.State`; vocabulary: `Verif.Strat.Spec`. Histories are
arbitrary sequences of playbook steps and client requests from the start of the debuggee.
Hypotheses `¬ Failed s'` say that `start_task` raised no exception; `C81_begin_fails` says exactly
when it does.
-/

namespace Verif.Props.Strat
open Verif Verif.Strat

/-! ## Examples -/

/-- A block node. -/
def blk (u : Nat) : Node := { uuid := u, isTask := false, isInclude := false, hasRescue := false }
/-- An include_tasks node. -/
def incl (u : Nat) : Node := { uuid := u, isTask := true, isInclude := true, hasRescue := false }
/-- An import_tasks node. -/
def impt (u : Nat) : Node := { uuid := u, isTask := true, isInclude := false, hasRescue := false }
/-- An ordinary task node. -/
def ordi (u : Nat) : Node := { uuid := u, isTask := true, isInclude := false, hasRescue := false }
/-- A task at a line of `a.yml`, directly in the play. -/
def tk (u : Nat) (l : Int) : Task := { node := ordi u, parents := [blk 900], path := some (py!"a.yml", l) }
/-- An include task of the play. -/
def tinc (u : Nat) (l : Int) : Task := { node := incl u, parents := [blk 900], path := some (py!"a.yml", l) }
/-- A task inside include 50. -/
def tsub (u : Nat) (l : Int) : Task := { node := ordi u, parents := [blk 901, incl 50, blk 900], path := some (py!"b.yml", l) }
/-- Conditions always hold. -/
def yes : Nat → Bool := fun _ => true
/-- Lines 1, 2, 3 of `a.yml` and `b.yml` can be stopped at, with a breakpoint on line 1 of `a.yml`. -/
def setup : List Label :=
  [.reg py!"a.yml" 1 1, .reg py!"a.yml" 2 1, .reg py!"a.yml" 3 1, .reg py!"b.yml" 1 1, .reg py!"b.yml" 2 1,
   .req (.setBps 1 { name := none, path := some py!"a.yml" } false [1])]
/-- Result of a task that went well. -/
def fine : Result := { failed := false, ignoreErrors := false, unreachable := false, ignoreUnreachable := false, skipped := false }
/-- Result of a failed task. -/
def bad : Result := { fine with failed := true }

/-- Execution of a list of labels, for the examples. -/
def exec : DS → List Label → Option (DS × List Out)
  | s, [] => some (s, [])
  | s, l :: ls => match step s l with
    | none => none
    | some (s1, o) => match exec s1 ls with
      | none => none
      | some (s2, os) => some (s2, o ++ os)

theorem exec_run {s s' : DS} {ls : List Label} {os : List Out} (h : exec s ls = some (s', os)) : Run s ls s' os := by
  induction ls generalizing s os with
  | nil => cases h; exact .nil _
  | cons l ls ih =>
    simp only [exec] at h
    cases h1 : step s l with
    | none => simp [h1] at h
    | some p =>
      obtain ⟨s1, o⟩ := p
      cases h2 : exec s1 ls with
      | none => simp [h1, h2] at h
      | some q =>
        obtain ⟨s2, os2⟩ := q
        simp only [h1, h2, Option.some.injEq, Prod.mk.injEq] at h
        obtain ⟨rfl, rfl⟩ := h
        exact .cons h1 (ih h2)

/-- The state after a list of labels. -/
def stF (s : DS) (ls : List Label) : DS := match exec s ls with
  | some p => p.1
  | none => s
/-- The messages of a list of labels. -/
def ouF (s : DS) (ls : List Label) : List Out := match exec s ls with
  | some p => p.2
  | none => []

theorem run_of {s : DS} {ls : List Label} (h : (exec s ls).isSome = true) : Run s ls (stF s ls) (ouF s ls) := by
  unfold stF ouF
  cases e : exec s ls with
  | none => rw [e] at h; cases h
  | some p => exact exec_run e

theorem step_of {s : DS} {l : Label} (h : (exec s [l]).isSome = true) : step s l = some (stF s [l], ouF s [l]) := by
  unfold stF ouF
  cases e : step s l with
  | none => simp [exec, e] at h
  | some p => simp [exec, e]

theorem run_append {a b c : DS} {l1 l2 : List Label} {o1 o2 : List Out} (h1 : Run a l1 b o1) (h2 : Run b l2 c o2) :
    Run a (l1 ++ l2) c (o1 ++ o2) := by
  induction h1 with
  | nil => exact h2
  | cons h _ ih => rw [List.append_assoc]; exact .cons h (ih h2)

theorem reach_append {a b : DS} {l : List Label} {o : List Out} (h1 : Reachable a) (h2 : Run a l b o) : Reachable b := by
  obtain ⟨l0, o0, h0⟩ := h1
  exact ⟨_, _, run_append h0 h2⟩

/-! ## C32 -/

theorem over_why {th th0 : Thread} {a t : Task} (h0 : th0.stopped = some (a.node, a.parents))
    (h1 : th.state = (setState th0 .stepOver).state) (h2 : th.stopped = (setState th0 .stepOver).stopped) (bp : Option Nat) :
    whyBreak th (t.node, t.parents) bp = if SameLevel t a then some .over else bp.map .bp := by
  have e1 : (setState th0 .stepOver).state = .stepOver := by simp [setState, h0]
  have e2 : (setState th0 .stepOver).stopped = some (a.node, a.parents) := by simp [setState, h0]
  rw [e1] at h1; rw [e2] at h2
  unfold whyBreak SameLevel
  have b1 : breakOver th (t.node, t.parents) = decide (Encl t = Encl a) := by
    simp only [breakOver, h2, h1, parentTask_encl]
    by_cases hE : Encl t = Encl a <;> simp [hE]
  have b2 : breakOut th (t.node, t.parents) = false := by simp [breakOut, h2, h1]
  rw [b1, b2]
  by_cases hs : Encl t = Encl a
  · simp [hs]
  · simp only [hs, decide_false, Bool.false_eq_true, if_false, h1, reduceCtorEq]
    cases bp <;> simp

/-- **C32.** After a step over, the host stops at a task exactly if the task has a location and
stands in the same include as the task it was stopped at, or a breakpoint applies to it; the event
is a step in the first case and names the breakpoint in the second. (By `After` the host did not
stop since the command, so this is the first such task.)

Partial: for stops at the start of a task. A step over after an exception stop is different, see
`C32_after_exception_refuted`. -/
theorem C32_step_over_partial {h tid : Nat} {a t : Task} {s s' : DS} {tv ar : Addr} {c : Nat → Bool} {o : List Out}
    (hA : After (.next tid) h tid a s) (ht : ¬ Failed s') (hs : step s (.start h t tv ar c) = some (s', o)) :
    (Stops tid o ↔ t.path ≠ none ∧ (SameLevel t a ∨ ∃ i, BpHits s t c i)) ∧
    (Out.stopped tid (.brk .over) ∈ o ↔ t.path ≠ none ∧ SameLevel t a) ∧
    ∀ i, Out.stopped tid (.brk (.bp i)) ∈ o ↔ t.path ≠ none ∧ ¬ SameLevel t a ∧ BpHits s t c i := by
  have hp : s.pc = .running := by
    simp only [step] at hs; split at hs
    · assumption
    · cases hs
  obtain ⟨th, hi, hh, hid, th0, g0, g1, g2⟩ := after_ctl hA hp (st := .stepOver) (fun _ _ _ h => resume_one h _ _)
  have hw := fun bp => over_why (t := t) g0 g1 g2 bp
  have hst := fun w => start_stops hi hs ht tid w
  simp only [hh, hid, true_and] at hst
  have hwhy : whyStop s th t c = if t.path = none then none else if SameLevel t a then some .over else (bpFor s t c).map .bp := by
    unfold whyStop
    cases hpath : t.path with
    | none => simp
    | some p => simp [hw]
  refine ⟨?_, ?_, ?_⟩
  · constructor
    · rintro ⟨w, hm⟩
      obtain ⟨y, -, hy⟩ := (hst w).1 hm
      rw [hwhy] at hy
      split at hy
      · cases hy
      · rename_i hpn
        refine ⟨hpn, ?_⟩
        split at hy
        · left; assumption
        · right
          cases hb : bpFor s t c with
          | none => rw [hb] at hy; cases hy
          | some i => exact ⟨i, (bpFor_hits s t c i).1 hb⟩
    · rintro ⟨hpn, hor⟩
      by_cases hsl : SameLevel t a
      · exact ⟨.brk .over, (hst _).2 ⟨_, rfl, by rw [hwhy, if_neg hpn, if_pos hsl]⟩⟩
      · rcases hor with h' | ⟨i, hi'⟩
        · exact absurd h' hsl
        · refine ⟨.brk (.bp i), (hst _).2 ⟨_, rfl, ?_⟩⟩
          rw [hwhy, if_neg hpn, if_neg hsl, (bpFor_hits s t c i).2 hi']; rfl
  · rw [hst]
    constructor
    · rintro ⟨y, hy1, hy⟩
      cases hy1
      rw [hwhy] at hy
      split at hy
      · cases hy
      · refine ⟨by assumption, ?_⟩
        split at hy
        · assumption
        · cases hb : bpFor s t c <;> (rw [hb] at hy; cases hy)
    · rintro ⟨hpn, hsl⟩
      exact ⟨_, rfl, by rw [hwhy, if_neg hpn, if_pos hsl]⟩
  · intro i
    rw [hst]
    constructor
    · rintro ⟨y, hy1, hy⟩
      cases hy1
      rw [hwhy] at hy
      split at hy
      · cases hy
      · refine ⟨by assumption, ?_⟩
        split at hy
        · cases hy
        · refine ⟨by assumption, (bpFor_hits s t c i).1 ?_⟩
          cases hb : bpFor s t c with
          | none => rw [hb] at hy; cases hy
          | some j => rw [hb] at hy; cases hy; rfl
    · rintro ⟨hpn, hsl, hb⟩
      refine ⟨_, rfl, ?_⟩
      rw [hwhy, if_neg hpn, if_neg hsl, (bpFor_hits s t c i).2 hb]; rfl

/-- **C32**, step in on a task that is not an include: as step over. -/
theorem C32_step_in_ordinary_partial {h tid : Nat} {a t : Task} {s s' : DS} {tv ar : Addr} {c : Nat → Bool} {o : List Out}
    (hA : After (.stepIn tid) h tid a s) (hno : a.node.isInclude = false) (ht : ¬ Failed s')
    (hs : step s (.start h t tv ar c) = some (s', o)) :
    Stops tid o ↔ t.path ≠ none ∧ (SameLevel t a ∨ ∃ i, BpHits s t c i) := by
  have hp : s.pc = .running := by
    simp only [step] at hs; split at hs
    · assumption
    · cases hs
  obtain ⟨th, hi, hh, hid, th0, g0, g1, g2⟩ := after_ctl hA hp (st := .stepIn) (fun _ _ _ h => resume_one h _ _)
  have e : setState th0 .stepIn = setState th0 .stepOver := by simp [setState, g0, hno]
  rw [e] at g1 g2
  have hw := fun bp => over_why (t := t) g0 g1 g2 bp
  have hst := fun w => start_stops hi hs ht tid w
  simp only [hh, hid, true_and] at hst
  have hwhy : whyStop s th t c = if t.path = none then none else if SameLevel t a then some .over else (bpFor s t c).map .bp := by
    unfold whyStop
    cases hpath : t.path with
    | none => simp
    | some p => simp [hw]
  constructor
  · rintro ⟨w, hm⟩
    obtain ⟨y, -, hy⟩ := (hst w).1 hm
    rw [hwhy] at hy
    split at hy
    · cases hy
    · rename_i hpn
      refine ⟨hpn, ?_⟩
      split at hy
      · left; assumption
      · right
        cases hb : bpFor s t c with
        | none => rw [hb] at hy; cases hy
        | some i => exact ⟨i, (bpFor_hits s t c i).1 hb⟩
  · rintro ⟨hpn, hor⟩
    by_cases hsl : SameLevel t a
    · exact ⟨.brk .over, (hst _).2 ⟨_, rfl, by rw [hwhy, if_neg hpn, if_pos hsl]⟩⟩
    · rcases hor with h' | ⟨i, hi'⟩
      · exact absurd h' hsl
      · refine ⟨.brk (.bp i), (hst _).2 ⟨_, rfl, ?_⟩⟩
        rw [hwhy, if_neg hpn, if_neg hsl, (bpFor_hits s t c i).2 hi']; rfl

/-- After `setup` and the start of the include of line 1 by host 7. -/
def e1 : DS := stF (stF {} setup) [.start 7 (tinc 50 1) 0 0 yes]
/-- The client looks around, then steps over. -/
def e3 : DS := stF (stF e1 [.req .threads]) [.req (.next 2)]
/-- The include finishes and a task inside it runs. -/
def inside : List Label := [.wake, .done 7 (tinc 50 1) fine 0, .start 7 (tsub 51 1) 0 0 yes, .done 7 (tsub 51 1) fine 0]

/-- Non-vacuity: host 7 stops at the include of line 1, is stepped over; the include finishes and
a task inside it is passed; the host stops at the task of line 2. -/
theorem exAfterNext : After (.next 2) 7 2 (tinc 50 1) (stF e3 inside) ∧
    step (stF e3 inside) (.start 7 (tk 60 2) 0 0 yes) = some (stF (stF e3 inside) [.start 7 (tk 60 2) 0 0 yes], ouF (stF e3 inside) [.start 7 (tk 60 2) 0 0 yes]) ∧
    Out.stopped 2 (.brk .over) ∈ ouF (stF e3 inside) [.start 7 (tk 60 2) 0 0 yes] := by
  refine ⟨⟨stF {} setup, e1, stF e1 [.req .threads], e3, [.req .threads], inside, 0, 0, yes, _, _, _, ⟨setup, _, run_of (by decide +kernel)⟩,
    step_of (by decide +kernel), ⟨.brk (.bp 1), by decide +kernel⟩, run_of (by decide +kernel), ?_, step_of (by decide +kernel),
    ⟨_, run_of (by decide +kernel), ?_, ?_, ?_⟩⟩, step_of (by decide +kernel), by decide +kernel⟩
  · intro r hr; simp at hr; subst hr; simp [Resumes]
  · intro r hr; simp [inside] at hr
  · intro l hl; simp [inside] at hl; rcases hl with rfl | rfl | rfl | rfl <;> simp [Removes]
  · have : ouF e3 inside = [] := by decide +kernel
    rw [this]; rintro ⟨w, hw⟩; cases hw

/-- **C32, refuted after an exception stop.** A failed task stops host 7; the client steps over; the
host starts the next task of the same level, with a location, and does not stop. (The stop because
of a failure does not record the task, strategy/debug.py:226-238.) -/
theorem C32_after_exception_refuted : ∃ (s s' : DS) (o : List Out) (a t : Task),
    Run {} [.req (.setExc 1 [py!"on_error"]), .start 7 a 0 0 yes, .done 7 a bad 0, .req (.next 2), .wake] s
      [.bp (.setExcResp 1), .started 2, .stopped 2 (.exc .failed), .ok] ∧
    step s (.start 7 t 0 0 yes) = some (s', o) ∧ SameLevel t a ∧ t.path ≠ none ∧ ¬ Stops 2 o := by
  have e : ouF {} [.req (.setExc 1 [py!"on_error"]), .start 7 (tk 10 1) 0 0 yes, .done 7 (tk 10 1) bad 0, .req (.next 2), .wake] =
      [.bp (.setExcResp 1), .started 2, .stopped 2 (.exc .failed), .ok] := by decide +kernel
  refine ⟨_, _, _, tk 10 1, tk 11 2, e ▸ run_of (by decide +kernel), step_of (by decide +kernel), by decide, by decide, ?_⟩
  have : ∀ x, x = ouF (stF {} [.req (.setExc 1 [py!"on_error"]), .start 7 (tk 10 1) 0 0 yes, .done 7 (tk 10 1) bad 0, .req (.next 2), .wake])
    [.start 7 (tk 11 2) 0 0 yes] → x = [] := by rintro x rfl; decide +kernel
  rw [this _ rfl]
  rintro ⟨w, hw⟩; cases hw

/-! ## C33 -/

/-- **C33.** After a step in on an include the host stops at the next task it starts, as a step,
whatever task that is (if it has a location). -/
theorem C33_step_in {h tid : Nat} {a t : Task} {s s' : DS} {tv ar : Addr} {c : Nat → Bool} {o : List Out}
    (hA : After (.stepIn tid) h tid a s) (hinc : a.node.isInclude = true) (ht : ¬ Failed s')
    (hs : step s (.start h t tv ar c) = some (s', o)) :
    (Stops tid o ↔ t.path ≠ none) ∧ (t.path ≠ none → Out.stopped tid (.brk .into) ∈ o) := by
  have hp : s.pc = .running := by
    simp only [step] at hs; split at hs
    · assumption
    · cases hs
  obtain ⟨th, hi, hh, hid, th0, g0, g1, g2⟩ := after_ctl hA hp (st := .stepIn) (fun _ _ _ h => resume_one h _ _)
  have e1 : (setState th0 .stepIn).state = .stepIn := by simp [setState, g0, hinc]
  have e2 : (setState th0 .stepIn).stopped = some (a.node, a.parents) := by simp [setState, g0, hinc]
  rw [e1] at g1; rw [e2] at g2
  have hst := fun w => start_stops hi hs ht tid w
  simp only [hh, hid, true_and] at hst
  have hwhy : whyStop s th t c = if t.path = none then none else some .into := by
    unfold whyStop
    cases hpath : t.path with
    | none => simp
    | some p => simp [whyBreak, breakOver, breakOut, g1, g2]
  refine ⟨⟨?_, ?_⟩, ?_⟩
  · rintro ⟨w, hm⟩
    obtain ⟨y, -, hy⟩ := (hst w).1 hm
    rw [hwhy] at hy
    split at hy
    · cases hy
    · assumption
  · intro hn
    exact ⟨.brk .into, (hst _).2 ⟨_, rfl, by rw [hwhy, if_neg hn]⟩⟩
  · intro hn
    exact (hst _).2 ⟨_, rfl, by rw [hwhy, if_neg hn]⟩

/-- Host 7 stops at the include of line 1 and is stepped in. -/
def i3 : DS := stF e1 [.req (.stepIn 2)]

/-- Non-vacuity of C33: the host stops at the first task of the include. -/
example : After (.stepIn 2) 7 2 (tinc 50 1) (stF i3 [.wake, .done 7 (tinc 50 1) fine 0]) ∧
    Out.stopped 2 (.brk .into) ∈ ouF (stF i3 [.wake, .done 7 (tinc 50 1) fine 0]) [.start 7 (tsub 51 1) 0 0 yes] := by
  refine ⟨⟨stF {} setup, e1, e1, i3, [], [.wake, .done 7 (tinc 50 1) fine 0], 0, 0, yes, _, _, _, ⟨setup, _, run_of (by decide +kernel)⟩,
    step_of (by decide +kernel), ⟨.brk (.bp 1), by decide +kernel⟩, .nil _, by simp, step_of (by decide +kernel),
    ⟨_, run_of (by decide +kernel), ?_, ?_, ?_⟩⟩, by decide +kernel⟩
  · intro r hr; simp at hr
  · intro l hl; simp at hl; rcases hl with rfl | rfl <;> simp [Removes]
  · have : ouF i3 [.wake, .done 7 (tinc 50 1) fine 0] = [] := by decide +kernel
    rw [this]; rintro ⟨w, hw⟩; cases hw

/-- Non-vacuity of C32 for step in on an ordinary task: host 7 stops at the task of line 1, is
stepped in and stops at the task of line 2. -/
example : After (.stepIn 2) 7 2 (tk 60 1) (stF (stF (stF (stF {} setup) [.start 7 (tk 60 1) 0 0 yes]) [.req (.stepIn 2)]) [.wake, .done 7 (tk 60 1) fine 0]) ∧
    Out.stopped 2 (.brk .over) ∈ ouF (stF (stF (stF (stF {} setup) [.start 7 (tk 60 1) 0 0 yes]) [.req (.stepIn 2)]) [.wake, .done 7 (tk 60 1) fine 0]) [.start 7 (tk 61 2) 0 0 yes] := by
  refine ⟨⟨stF {} setup, stF (stF {} setup) [.start 7 (tk 60 1) 0 0 yes], _, stF (stF (stF {} setup) [.start 7 (tk 60 1) 0 0 yes]) [.req (.stepIn 2)], [],
    [.wake, .done 7 (tk 60 1) fine 0], 0, 0, yes, _, _, _, ⟨setup, _, run_of (by decide +kernel)⟩,
    step_of (by decide +kernel), ⟨.brk (.bp 1), by decide +kernel⟩, .nil _, by simp, step_of (by decide +kernel),
    ⟨_, run_of (by decide +kernel), ?_, ?_, ?_⟩⟩, by decide +kernel⟩
  · intro r hr; simp at hr
  · intro l hl; simp at hl; rcases hl with rfl | rfl <;> simp [Removes]
  · have : ouF (stF (stF (stF {} setup) [.start 7 (tk 60 1) 0 0 yes]) [.req (.stepIn 2)]) [.wake, .done 7 (tk 60 1) fine 0] = [] := by decide +kernel
    rw [this]; rintro ⟨w, hw⟩; cases hw

/-! ## C34 -/

/-- The task stands in dynamic includes only (no import_tasks or import_role around it). -/
def NoImports (t : Task) : Prop := ∀ n ∈ t.parents, n.isTask = true → n.isInclude = true

theorem noImports_encl {t : Task} (h : NoImports t) : Encl t = EnclInclude t := by
  unfold Encl EnclInclude
  unfold NoImports at h
  generalize t.parents = ps at h ⊢
  induction ps with
  | nil => rfl
  | cons n ns ih =>
    simp only [List.find?_cons]
    have hn := h n (by simp)
    cases h1 : n.isTask with
    | true => simp [hn h1]
    | false =>
      simp only [Bool.false_and]
      exact ih (fun m hm => h m (by simp [hm]))

/-- **C34.** After a step out of a task that stands in the include `inc`, the host stops at a task
exactly if it has a location and does not stand in `inc` as its innermost include; breakpoints do
not matter.

Partial: for tasks without static imports around them, and for stops at the start of a task;
otherwise see the refutations below. A task in a further include inside `inc` counts as outside,
see `C34_nested_refuted`. -/
theorem C34_step_out_partial {h tid inc : Nat} {a t : Task} {s s' : DS} {tv ar : Addr} {c : Nat → Bool} {o : List Out}
    (hA : After (.stepOut tid) h tid a s) (hinc : EnclInclude a = some inc) (him : NoImports t) (ht : ¬ Failed s')
    (hs : step s (.start h t tv ar c) = some (s', o)) :
    (Stops tid o ↔ t.path ≠ none ∧ EnclInclude t ≠ some inc) ∧
    (Stops tid o → Out.stopped tid (.brk .out) ∈ o) := by
  have hp : s.pc = .running := by
    simp only [step] at hs; split at hs
    · assumption
    · cases hs
  obtain ⟨th, hi, hh, hid, th0, g0, g1, g2⟩ := after_ctl hA hp (st := .stepOut) (fun _ _ _ h => resume_one h _ _)
  have e1 : (setState th0 .stepOut).state = .stepOut := by simp [setState, g0]
  have e2 : (setState th0 .stepOut).stopped = parentInclude (a.node, a.parents) := by simp [setState, g0]
  rw [e1] at g1; rw [e2] at g2
  have hst := fun w => start_stops hi hs ht tid w
  simp only [hh, hid, true_and] at hst
  have hu := parentInclude_encl a
  rw [hinc] at hu
  cases hpi : parentInclude (a.node, a.parents) with
  | none => rw [hpi] at hu; cases hu
  | some r =>
    rw [hpi] at hu g2
    simp only [uuidOf, Option.map_some, Option.some.injEq] at hu
    have hwhy : whyStop s th t c = if t.path = none ∨ EnclInclude t = some inc then none else some .out := by
      unfold whyStop
      cases hpath : t.path with
      | none => simp
      | some p =>
        have b1 : breakOver th (t.node, t.parents) = false := by simp [breakOver, g1, g2]
        have b2 : breakOut th (t.node, t.parents) = decide (EnclInclude t ≠ some inc) := by
          simp only [breakOut, g1, g2, parentTask_encl, noImports_encl him, hu]
          by_cases hE : EnclInclude t = some inc <;> simp [hE]
        simp only [whyBreak, b1, b2, g1]
        by_cases hE : EnclInclude t = some inc
        · simp [hE]; cases bpFor s t c <;> simp
        · simp [hE]
    refine ⟨⟨?_, ?_⟩, ?_⟩
    · rintro ⟨w, hm⟩
      obtain ⟨y, -, hy⟩ := (hst w).1 hm
      rw [hwhy] at hy
      split at hy
      · cases hy
      · rename_i hn; rw [not_or] at hn; exact hn
    · intro hn
      exact ⟨.brk .out, (hst _).2 ⟨_, rfl, by rw [hwhy, if_neg (by rw [not_or]; exact hn)]⟩⟩
    · rintro ⟨w, hm⟩
      obtain ⟨y, -, hy⟩ := (hst w).1 hm
      refine (hst _).2 ⟨_, rfl, ?_⟩
      rw [hwhy] at hy ⊢
      split at hy
      · cases hy
      · rename_i hn; rw [if_neg hn]

/-- Host 7 is stopped at an include and stepped in. -/
def stepped : List Label := setup ++ [.start 7 (tinc 50 1) 0 0 yes, .req (.stepIn 2), .wake, .done 7 (tinc 50 1) fine 0]
/-- It stops in the include. -/
def o1 : DS := stF (stF {} stepped) [.start 7 (tsub 51 1) 0 0 yes]
/-- It is stepped out. -/
def o3 : DS := stF o1 [.req (.stepOut 2)]

theorem o3_after (rest : List Label) (hx : (exec o3 rest).isSome = true) (hq : ∀ l ∈ rest, ¬ Removes l ∧ ∀ r, l ≠ .req r) (hout : ouF o3 rest = []) :
    After (.stepOut 2) 7 2 (tsub 51 1) (stF o3 rest) := by
  refine ⟨stF {} stepped, o1, o1, o3, [],
    rest, 0, 0, yes, _, _, _, ⟨_, _, run_of (by decide +kernel)⟩, step_of (by decide +kernel), ⟨.brk .into, by decide +kernel⟩, .nil _, by simp, step_of (by decide +kernel),
    ⟨_, run_of hx, ?_, ?_, ?_⟩⟩
  · intro r hr; exact absurd rfl ((hq _ hr).2 r)
  · intro l hl; exact (hq l hl).1
  · rw [hout]; rintro ⟨w, hw⟩; cases hw

/-- Non-vacuity of C34: the next task in the include is passed, and the host stops at the task of line 2 in the play. -/
example : After (.stepOut 2) 7 2 (tsub 51 1) (stF o3 [.wake, .done 7 (tsub 51 1) fine 0, .start 7 (tsub 52 2) 0 0 yes, .done 7 (tsub 52 2) fine 0]) ∧
    EnclInclude (tsub 51 1) = some 50 ∧ NoImports (tk 60 2) ∧
    Out.stopped 2 (.brk .out) ∈ ouF (stF o3 [.wake, .done 7 (tsub 51 1) fine 0, .start 7 (tsub 52 2) 0 0 yes, .done 7 (tsub 52 2) fine 0]) [.start 7 (tk 60 2) 0 0 yes] := by
  refine ⟨o3_after _ (by decide +kernel) ?_ (by decide +kernel), by decide, ?_, by decide +kernel⟩
  · intro l hl; simp at hl; rcases hl with rfl | rfl | rfl | rfl <;> simp [Removes]
  · intro n hn; simp [tk, blk] at hn; subst hn; simp

/-- **C34, refuted for nested includes.** After a step out of include 50 the host stops at a task
inside include 55, which is itself inside include 50. -/
theorem C34_nested_refuted : ∃ (s : DS) (t : Task), After (.stepOut 2) 7 2 (tsub 51 1) s ∧ incl 50 ∈ t.parents ∧
    ∃ s' o, step s (.start 7 t 0 0 yes) = some (s', o) ∧ Stops 2 o := by
  refine ⟨stF o3 [.wake, .done 7 (tsub 51 1) fine 0],
    { node := ordi 56, parents := [blk 902, incl 55, blk 901, incl 50, blk 900], path := some (py!"c.yml", 1) },
    o3_after _ (by decide +kernel) ?_ (by decide +kernel), by decide, _, _, step_of (by decide +kernel), ⟨.brk .out, by decide +kernel⟩⟩
  intro l hl; simp at hl; rcases hl with rfl | rfl <;> simp [Removes]

/-- **C34, refuted for imports.** After a step out of include 50 the host stops at a task of an
import_tasks inside include 50. -/
theorem C34_import_refuted : ∃ (s : DS) (t : Task), After (.stepOut 2) 7 2 (tsub 51 1) s ∧ EnclInclude t = some 50 ∧
    ∃ s' o, step s (.start 7 t 0 0 yes) = some (s', o) ∧ Stops 2 o := by
  refine ⟨stF o3 [.wake, .done 7 (tsub 51 1) fine 0],
    { node := ordi 56, parents := [blk 902, impt 55, blk 901, incl 50, blk 900], path := some (py!"c.yml", 1) },
    o3_after _ (by decide +kernel) ?_ (by decide +kernel), by decide, _, _, step_of (by decide +kernel), ⟨.brk .out, by decide +kernel⟩⟩
  intro l hl; simp at hl; rcases hl with rfl | rfl <;> simp [Removes]

/-- After a step out where there is no dynamic include around the task, the host stops at no task
any more, breakpoint or not, until it is told something else. -/
theorem C34_no_include_never_stops {h tid : Nat} {a t : Task} {s s' : DS} {tv ar : Addr} {c : Nat → Bool} {o : List Out}
    (hA : After (.stepOut tid) h tid a s) (hinc : EnclInclude a = none) (ht : ¬ Failed s')
    (hs : step s (.start h t tv ar c) = some (s', o)) : ¬ Stops tid o := by
  have hp : s.pc = .running := by
    simp only [step] at hs; split at hs
    · assumption
    · cases hs
  obtain ⟨th, hi, hh, hid, th0, g0, g1, g2⟩ := after_ctl hA hp (st := .stepOut) (fun _ _ _ h => resume_one h _ _)
  have e1 : (setState th0 .stepOut).state = .stepOut := by simp [setState, g0]
  have e2 : (setState th0 .stepOut).stopped = parentInclude (a.node, a.parents) := by simp [setState, g0]
  have hu := parentInclude_encl a
  rw [hinc] at hu
  have hpi : parentInclude (a.node, a.parents) = none := by
    cases hpi : parentInclude (a.node, a.parents) with
    | none => rfl
    | some r => rw [hpi] at hu; cases hu
  rw [e1] at g1; rw [e2, hpi] at g2
  rintro ⟨w, hm⟩
  obtain ⟨hid', y, -, hy⟩ := (start_stops hi hs ht tid w).1 hm
  rw [hh] at hy
  unfold whyStop at hy
  cases hpath : t.path with
  | none => rw [hpath] at hy; cases hy
  | some p =>
    simp only [hpath, whyBreak, breakOver, breakOut, g1, g2] at hy
    cases hb : bpFor s t c <;> simp [hb] at hy

/-- Non-vacuity: host 7 is stopped by a breakpoint at a task of the play and stepped out; the next
task of the play has a breakpoint too and is not stopped at. -/
example : ∃ s, After (.stepOut 2) 7 2 (tk 60 1) s ∧ EnclInclude (tk 60 1) = none ∧ BpHits s (tk 61 1) yes 1 ∧ s.pc = .running := by
  refine ⟨stF (stF (stF (stF {} setup) [.start 7 (tk 60 1) 0 0 yes]) [.req (.stepOut 2)]) [.wake, .done 7 (tk 60 1) fine 0],
    ⟨stF {} setup, stF (stF {} setup) [.start 7 (tk 60 1) 0 0 yes], _, stF (stF (stF {} setup) [.start 7 (tk 60 1) 0 0 yes]) [.req (.stepOut 2)], [],
    [.wake, .done 7 (tk 60 1) fine 0], 0, 0, yes, _, _, _, ⟨setup, _, run_of (by decide +kernel)⟩,
    step_of (by decide +kernel), ⟨.brk (.bp 1), by decide +kernel⟩, .nil _, by simp, step_of (by decide +kernel),
    ⟨_, run_of (by decide +kernel), ?_, ?_, ?_⟩⟩, by decide, ?_, by decide +kernel⟩
  · intro r hr; simp at hr
  · intro l hl; simp at hl; rcases hl with rfl | rfl <;> simp [Removes]
  · have : ouF (stF (stF (stF {} setup) [.start 7 (tk 60 1) 0 0 yes]) [.req (.stepOut 2)]) [.wake, .done 7 (tk 60 1) fine 0] = [] := by decide +kernel
    rw [this]; rintro ⟨w, hw⟩; cases hw
  · rw [← bpFor_hits]; decide +kernel

/-! ## C35 -/

/-- What a running host stops at. -/
theorem cont_stops {h tid : Nat} {t : Task} {s s' : DS} {tv ar : Addr} {c : Nat → Bool} {o : List Out} (hi : Inv s)
    (hid : (hostThread s h).2.1.id = tid) (hst : (hostThread s h).2.1.state = .cont) (ht : ¬ Failed s')
    (hs : step s (.start h t tv ar c) = some (s', o)) (w : Stop) :
    Out.stopped tid w ∈ o ↔ ∃ i, w = .brk (.bp i) ∧ BpHits s t c i := by
  rw [start_stops hi hs ht tid w]
  have hwhy : whyStop s (hostThread s h).2.1 t c = (bpFor s t c).map .bp := by
    unfold whyStop
    cases hpath : t.path with
    | none => simp [bpFor, hpath]
    | some p =>
      have b1 : breakOver (hostThread s h).2.1 (t.node, t.parents) = false := by
        unfold breakOver; split <;> simp [hst]
      have b2 : breakOut (hostThread s h).2.1 (t.node, t.parents) = false := by
        unfold breakOut; split <;> simp [hst]
      simp only [whyBreak, b1, b2, hst]
      cases bpFor s t c <;> simp
  rw [hwhy]
  constructor
  · rintro ⟨-, y, rfl, hy⟩
    cases hb : bpFor s t c with
    | none => rw [hb] at hy; cases hy
    | some i =>
      rw [hb] at hy; cases hy
      exact ⟨i, rfl, (bpFor_hits s t c i).1 hb⟩
  · rintro ⟨i, rfl, hb⟩
    exact ⟨hid.symm, _, rfl, by rw [(bpFor_hits s t c i).2 hb]; rfl⟩

/-- **C35.** A host that was stopped and told to continue (it alone or all threads) stops at a task
exactly if a breakpoint applies to it, and the event names the breakpoint and the host's thread. -/
theorem C35_continued {h tid x : Nat} {single : Bool} {a t : Task} {s s' : DS} {tv ar : Addr} {c : Nat → Bool} {o : List Out}
    (hA : After (.cont x single) h tid a s) (hx : single = false ∨ x = tid) (ht : ¬ Failed s')
    (hs : step s (.start h t tv ar c) = some (s', o)) (w : Stop) :
    Out.stopped tid w ∈ o ↔ ∃ i, w = .brk (.bp i) ∧ BpHits s t c i := by
  have hp : s.pc = .running := by
    simp only [step] at hs; split at hs
    · assumption
    · cases hs
  obtain ⟨th, hi, hh, hid, th0, g0, g1, g2⟩ := after_ctl hA hp (st := .cont) (by
    intro s th hi ht
    cases single with
    | false => exact resume_every hi ht _
    | true =>
      rcases hx with hx | rfl
      · cases hx
      · exact resume_one ht _ _)
  refine cont_stops hi (by rw [hh]; exact hid) ?_ ht hs w
  rw [hh]
  simp only
  rw [g1]; simp [setState, g0]

/-- **C35**, a host seen for the first time: its thread is announced, and it stops exactly if a
breakpoint applies to the task. -/
theorem C35_new_host {h tid : Nat} {t : Task} {s s' : DS} {tv ar : Addr} {c : Nat → Bool} {o : List Out} (hr : Reachable s)
    (ht : ¬ Failed s') (hs : step s (.start h t tv ar c) = some (s', o)) (hn : Out.started tid ∈ o) (w : Stop) :
    Out.stopped tid w ∈ o ↔ ∃ i, w = .brk (.bp i) ∧ BpHits s t c i := by
  have hi := reach_inv hr
  have hp : s.pc = .running := by
    simp only [step] at hs; split at hs
    · assumption
    · cases hs
  obtain ⟨p, hsy⟩ := sync_fine hi hs ht
  simp only [step, hp, if_true] at hs
  have hno : threadOf s h = none ∧ tid = s.nextT := by
    rcases start_spec hi hp h t tv ar c with ⟨e, he, -⟩ | ⟨s1, th1, -, e1, -⟩
    · rw [hsy] at he; cases he
    · rw [snd_eq hs, e1] at hn
      rcases List.mem_append.1 hn with hn | hn
      · unfold hostThread at hn
        cases hto : threadOf s h with
        | some th => rw [hto] at hn; cases hn
        | none =>
          rw [hto] at hn
          simp [addThread] at hn
          exact ⟨rfl, hn⟩
      · split at hn
        · cases hn
        · simp at hn
  refine cont_stops hi ?_ ?_ ht (by simp only [step, hp, if_true]; exact hs) w
  · simp [hostThread, hno.1, addThread, hno.2]
  · simp [hostThread, hno.1, addThread]

/-- **C35**, a host that never stopped and was never told anything: as a host that was told to
continue. -/
theorem C35_never_stopped {h tid : Nat} {t : Task} {s s' : DS} {tv ar : Addr} {c : Nat → Bool} {o : List Out}
    (hA : SinceAnnounced h tid s) (ht : ¬ Failed s') (hs : step s (.start h t tv ar c) = some (s', o)) (w : Stop) :
    Out.stopped tid w ∈ o ↔ ∃ i, w = .brk (.bp i) ∧ BpHits s t c i := by
  have hp : s.pc = .running := by
    simp only [step] at hs; split at hs
    · assumption
    · cases hs
  obtain ⟨s0, s1, ls, a, tv0, ar0, c0, o1, hr, h1, h2, h3, os, h4, h5, h6, h7⟩ := hA
  have i0 := reach_inv hr
  have i1 := inv_step i0 h1
  have i4 := inv_run h4 i1
  have nov : ¬ Over s := by
    rintro (e | ⟨e', e⟩) <;> (rw [e] at hp; cases hp)
  have hp0 : s0.pc = .running := by
    simp only [step] at h1; split at h1
    · assumption
    · cases h1
  simp only [step, hp0, if_true] at h1
  have key : ctl s1 tid = some (.cont, none, some h) := by
    rcases start_spec i0 hp0 h a tv0 ar0 c0 with ⟨e, -, he⟩ | ⟨s2, th2, -, e1, e2, -⟩
    · exact absurd (over_run h4 i1 (.inr ⟨e, by rw [fst_eq h1, he]; rfl⟩)) nov
    · have hn : threadOf s0 h = none ∧ tid = s0.nextT := by
        rw [snd_eq h1, e1] at h2
        rcases List.mem_append.1 h2 with hn | hn
        · unfold hostThread at hn
          cases hto : threadOf s0 h with
          | some th => rw [hto] at hn; cases hn
          | none =>
            rw [hto] at hn
            simp [addThread] at hn
            exact ⟨rfl, hn⟩
        · split at hn
          · cases hn
          · simp at hn
      rw [← fst_eq h1] at e2
      cases hw : whyStop s0 (hostThread s0 h).2.1 a c0 with
      | some w =>
        exfalso; apply h3
        rw [snd_eq h1, e1, hw]
        exact ⟨.brk w, by simp [hostThread, hn.1, addThread, hn.2]⟩
      | none =>
        rw [hw] at e2
        simpa [hostThread, hn.1, addThread, hn.2] using e2
  have c4 := ctl_run h4 i1 (by rw [key]; simp) h5 h6 h7 nov
  rw [key] at c4
  simp only [ctl] at c4
  cases ht4 : s.threads.get? tid with
  | none => simp [ht4] at c4
  | some th =>
    simp only [ht4, Option.map_some, Option.some.injEq, Prod.mk.injEq] at c4
    have hto := threadOf_of_get i4.core ht4 c4.2.2
    refine cont_stops i4 ?_ ?_ ht hs w
    · simp only [hostThread, hto]; exact (i4.core.tid ht4).1
    · simp only [hostThread, hto]; exact c4.1

/-- Non-vacuity: the host is stopped by breakpoint 1, continued, and stopped by it again; and two
hosts are seen for the first time. -/
example : After (.cont 9 false) 7 2 (tinc 50 1) (stF (stF e1 [.req (.cont 9 false)]) [.wake]) ∧
    Out.stopped 2 (.brk (.bp 1)) ∈ ouF (stF (stF e1 [.req (.cont 9 false)]) [.wake]) [.start 7 (tk 60 1) 0 0 yes] ∧
    SinceAnnounced 8 3 (stF (stF (stF (stF e1 [.req (.cont 9 false)]) [.wake]) [.start 8 (tk 60 2) 0 0 yes]) [.done 8 (tk 60 2) fine 0]) := by
  refine ⟨⟨stF {} setup, e1, e1, stF e1 [.req (.cont 9 false)], [], [.wake], 0, 0, yes, _, _, _, ⟨setup, _, run_of (by decide +kernel)⟩,
    step_of (by decide +kernel), ⟨.brk (.bp 1), by decide +kernel⟩, .nil _, by simp, step_of (by decide +kernel),
    ⟨_, run_of (by decide +kernel), ?_, ?_, ?_⟩⟩, by decide +kernel,
    ⟨stF (stF e1 [.req (.cont 9 false)]) [.wake], stF (stF (stF e1 [.req (.cont 9 false)]) [.wake]) [.start 8 (tk 60 2) 0 0 yes], [.done 8 (tk 60 2) fine 0], tk 60 2, 0, 0, yes, _,
      ?_,
      step_of (by decide +kernel), by decide +kernel, ?_, ⟨_, run_of (by decide +kernel), ?_, ?_, ?_⟩⟩⟩
  · intro r hr; simp at hr
  · intro l hl; simp at hl; subst hl; simp [Removes]
  · have : ouF (stF e1 [.req (.cont 9 false)]) [.wake] = [] := by decide +kernel
    rw [this]; rintro ⟨w, hw⟩; cases hw
  · exact reach_append (reach_append (reach_append ⟨_, _, run_of (ls := setup) (by decide +kernel)⟩
      (run_of (ls := [.start 7 (tinc 50 1) 0 0 yes]) (by decide +kernel))) (run_of (ls := [.req (.cont 9 false)]) (by decide +kernel)))
      (run_of (ls := [.wake]) (by decide +kernel))
  · have : ouF (stF (stF e1 [.req (.cont 9 false)]) [.wake]) [.start 8 (tk 60 2) 0 0 yes] = [.started 3] := by decide +kernel
    rw [this]; rintro ⟨w, hw⟩; simp at hw
  · intro r hr; simp at hr
  · intro l hl; simp at hl; subst hl; simp [Removes]
  · have : ouF (stF (stF (stF e1 [.req (.cont 9 false)]) [.wake]) [.start 8 (tk 60 2) 0 0 yes]) [.done 8 (tk 60 2) fine 0] = [] := by decide +kernel
    rw [this]; rintro ⟨w, hw⟩; cases hw

/-! ## C36 -/

/-- A filter of the client is on. -/
def FilterOn (s : DS) (name : Str) : Prop := Bp.shouldStop s.dbg name = true

/-- When a finished task must stop the host: **C36** in words. -/
def MustStop (s : DS) (t : Task) (r : Result) : Prop :=
  (r.failed = true ∧ r.ignoreErrors = false ∧ FilterOn s py!"on_error" ∧ ¬ ∃ n ∈ t.parents, n.isTask = false ∧ n.hasRescue = true) ∨
  (r.unreachable = true ∧ r.ignoreUnreachable = false ∧ FilterOn s py!"on_unreachable") ∨
  (r.skipped = true ∧ FilterOn s py!"on_skipped")

/-- A result reports at most one of failed, unreachable and skipped. -/
def Exclusive (r : Result) : Prop :=
  ¬ (r.failed = true ∧ r.unreachable = true) ∧ ¬ (r.failed = true ∧ r.skipped = true) ∧ ¬ (r.unreachable = true ∧ r.skipped = true)

theorem whyException_spec (s : DS) (t : Task) (r : Result) (hx : Exclusive r) :
    whyException t.parents r (filters s) ≠ none ↔ MustStop s t r := by
  have hres : rescued t.parents = true ↔ ∃ n ∈ t.parents, n.isTask = false ∧ n.hasRescue = true := by
    simp [rescued]
  have hres' : rescued t.parents = false ↔ ¬ ∃ n ∈ t.parents, n.isTask = false ∧ n.hasRescue = true := by
    rw [← hres]; simp
  unfold MustStop FilterOn
  rw [← hres']
  obtain ⟨x1, x2, x3⟩ := hx
  unfold whyException filters
  generalize Bp.shouldStop s.dbg py!"on_error" = a
  generalize Bp.shouldStop s.dbg py!"on_unreachable" = b
  generalize Bp.shouldStop s.dbg py!"on_skipped" = c
  generalize rescued t.parents = d
  obtain ⟨f, g, u, v, k⟩ := r
  simp only at x1 x2 x3
  cases f <;> cases g <;> cases u <;> cases v <;> cases k <;> cases a <;> cases b <;> cases c <;> cases d <;> simp_all

/-- **C36.** After every history: when a host finishes a task it started (its stack is not empty),
it stops exactly when it must (`MustStop`); the event names the host's thread. -/
theorem C36_exception_stops {h : Nat} {t : Task} {r : Result} {res : Addr} {s s' : DS} {o : List Out} {th : Thread} (hr : Reachable s)
    (hth : threadOf s h = some th) (hf : th.frames ≠ []) (hx : Exclusive r) (hs : step s (.done h t r res) = some (s', o)) :
    (Stops th.id o ↔ MustStop s t r) ∧ ∀ k w, Out.stopped k w ∈ o → k = th.id ∧ ∃ e, w = .exc e := by
  have hi := reach_inv hr
  rw [← whyException_spec s t r hx]
  simp only [step] at hs
  split at hs
  · have ho := snd_eq hs
    rcases end_spec hi h t r res with ⟨hov, hn⟩ | ⟨-, e2, -, e4, -⟩ | ⟨th', e, e1, e2, e3, -⟩
    · rw [← ho] at hn
      refine ⟨⟨fun hst => absurd hst (hn _), fun hw => ?_⟩, fun k w hm => absurd ⟨w, hm⟩ (hn k)⟩
      exfalso
      cases hw' : whyException t.parents r (filters s) with
      | none => exact hw hw'
      | some e =>
        have : (endTask s h t r res).1.pc = .waitEnd th.id t.node.isInclude := by
          unfold endTask
          cases hff : th.frames with
          | nil => exact absurd hff hf
          | cons f fs =>
            obtain ⟨-, h2⟩ := threadOf_some hi.core hth
            obtain ⟨fr, hfr⟩ := hi.core.tf h2 (f := f) (by rw [hff]; simp)
            simp [hth, hw', hff, hfr]
        rcases hov with he | ⟨e', he⟩ <;> (rw [this] at he; cases he)
    · rw [ho, e2, e4]
      exact ⟨⟨fun ⟨w, hw⟩ => (by cases hw), fun hw => absurd rfl hw⟩, fun k w hm => (by cases hm)⟩
    · rw [hth] at e1; cases e1
      rw [ho, e3, e2]
      refine ⟨⟨fun _ => by simp, fun _ => ⟨.exc e, by simp⟩⟩, ?_⟩
      intro k w hm
      simp at hm
      exact ⟨hm.1, e, hm.2⟩
  · cases hs

/-- Non-vacuity: with the failure filter on, host 7 runs a task that fails. -/
example : ∃ s th, Reachable s ∧ threadOf s 7 = some th ∧ th.frames ≠ [] ∧ Exclusive bad ∧ MustStop s (tk 10 1) bad ∧
    (exec s [.done 7 (tk 10 1) bad 0]).isSome = true := by
  refine ⟨stF {} [.req (.setExc 1 [py!"on_error"]), .start 7 (tk 10 1) 0 0 yes], { id := 2, host := some 7, frames := [1] },
    ⟨_, _, run_of (by decide +kernel)⟩, by decide +kernel, by simp, by simp [Exclusive, bad, fine], .inl ⟨rfl, rfl, ?_, ?_⟩, by decide +kernel⟩
  · unfold FilterOn; decide +kernel
  · simp [tk, blk]

end Verif.Props.Strat
