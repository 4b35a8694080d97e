import Verif.Strat.Neutral
import Verif.Props.StratVars
/-!
# Inspecting does not influence the run (C74)
-/

namespace Verif.Props.Strat
open Verif Verif.Strat

/-- A request for the stack, the threads, the scopes or the variables, a setVariable or an evaluation
(also a console command). -/
def Inspecting (l : Label) : Prop := ∃ r, l = .req r ∧
  ((∃ t, r = .stackTrace t) ∨ r = .threads ∨ (∃ f a h, r = .scopes f a h) ∨ (∃ v, r = .variables v) ∨
    (∃ v n t, r = .setVariable v n t) ∨ ∃ f e, r = .evaluate f e)

/-- The messages about threads, stops and breakpoints (and the answers to continue), which tell the
client what the playbook does. -/
def Tells (o : Out) : Prop :=
  (∃ t, o = .started t) ∨ (∃ t, o = .exited t) ∨ (∃ t w, o = .stopped t w) ∨ (∃ a, o = .continued a) ∨ ∃ b, o = .bp b

instance (o : Out) : Decidable (Tells o) :=
  if h : o.control = true then .isTrue (by cases o <;> simp_all [Tells, Out.control])
  else .isFalse (by cases o <;> simp_all [Tells, Out.control])

/-- What the debugger knows besides variables: threads with their states and stacks, breakpoints,
exception filters, mappings, where the playbook thread is; and the tasks of the stack frames. -/
def SameControl (a b : DS) : Prop :=
  a.threads = b.threads ∧ a.dbg = b.dbg ∧ a.pc = b.pc ∧ a.terminated = b.terminated ∧
    ∀ f, (a.frames.get? f).map (·.task) = (b.frames.get? f).map (·.task)

theorem keeps_iff (l : Label) : l.keeps = true ↔ ¬ Inspecting l := by
  cases l with
  | req r => cases r <;> simp [Label.keeps, Req.inspects, Inspecting]
  | _ => simp [Label.keeps, Inspecting]

theorem tells_filter (os : List Out) : os.filter (fun o => decide (Tells o)) = os.filter Out.control := by
  apply List.filter_congr
  intro o _
  cases o <;> simp [Tells, Out.control]

theorem same_control {a b : DS} (h : Same a b) : SameControl b a := ⟨h.thr, h.dbg, h.pc, h.term, h.frames⟩

instance (l : Label) : Decidable (Inspecting l) :=
  if h : l.keeps = true then .isFalse ((keeps_iff l).1 h) else .isTrue (Classical.not_not.1 (fun g => h ((keeps_iff l).2 g)))

theorem keeps_filter (ls : List Label) : (ls.filter fun l => decide (¬ Inspecting l)) = ls.filter Label.keeps := by
  apply List.filter_congr
  intro l _
  cases h : l.keeps with
  | true => simpa using (keeps_iff l).1 h
  | false =>
    have : ¬ ¬ Inspecting l := fun g => by rw [(keeps_iff l).2 g] at h; cases h
    simpa using this

/-- **C74.** Take any history with inspecting requests anywhere in it. The same history without them is
possible as well, ends with the same threads, stacks, breakpoints and position of the playbook, and the
client gets the same thread, stop and breakpoint messages in the same order. So looking at a stopped
playbook, or setting its variables, never makes it stop elsewhere, resume or end (other than through
what Ansible itself does with the variables). -/
theorem C74_inspecting_is_neutral {s s' : DS} {ls : List Label} {os : List Out} (hr : Reachable s) (h : Run s ls s' os) :
    ∃ s0 os0, Run s (ls.filter fun l => decide (¬ Inspecting l)) s0 os0 ∧ SameControl s0 s' ∧
      os0.filter (fun o => decide (Tells o)) = os.filter (fun o => decide (Tells o)) := by
  obtain ⟨b, os', r1, r2, r3⟩ := same_run h (Same.refl s) (reach_inv hr) (reach_inv hr)
  rw [keeps_filter]
  exact ⟨b, os', r1, same_control r2, by rw [tells_filter, tells_filter, r3]⟩

/-- **C74** (the other way round). Inspecting requests can be sent at any time: inserted anywhere into a
history they leave it possible, with the same end and the same messages about the run. -/
theorem C74_inspecting_is_always_possible {s s0 : DS} {ls : List Label} {os0 : List Out} (hr : Reachable s)
    (h : Run s (ls.filter fun l => decide (¬ Inspecting l)) s0 os0) :
    ∃ s' os, Run s ls s' os ∧ SameControl s' s0 ∧
      os.filter (fun o => decide (Tells o)) = os0.filter (fun o => decide (Tells o)) := by
  rw [keeps_filter] at h
  obtain ⟨b, os', r1, r2, r3⟩ := same_insert ls h (Same.refl s) (reach_inv hr) (reach_inv hr)
  exact ⟨b, os', r1, same_control r2, by rw [tells_filter, tells_filter, r3]⟩

/-- Non-vacuity: host 7 stopped; the client lists scopes and variables, sets one, lets it go on. -/
example : (ouF v0 [.req scopes1, .req (.variables 4), .req (.evaluate 1 (.setOption py!"name" (some ([], .atom py!"'b'")))),
      .req (.cont 2 false), .wake, .req .threads, .done 7 (tk 50 1) fine 0, .start 7 (tk 60 1) 0 0 yes]).filter (fun o => decide (Tells o)) =
    [.continued true, .stopped 2 (.brk (.bp 1))] ∧
    (ouF v0 ([.req scopes1, .req (.variables 4), .req (.evaluate 1 (.setOption py!"name" (some ([], .atom py!"'b'")))),
      .req (.cont 2 false), .wake, .req .threads, .done 7 (tk 50 1) fine 0, .start 7 (tk 60 1) 0 0 yes].filter fun l => decide (¬ Inspecting l))).filter
      (fun o => decide (Tells o)) = [.continued true, .stopped 2 (.brk (.bp 1))] := by
  rw [keeps_filter, tells_filter, tells_filter]
  decide +kernel

end Verif.Props.Strat
