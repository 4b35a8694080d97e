import Verif.Race.SimRun
import Verif.Props.Strat
/-!
# C95: requests that are not overlapped by the playbook
-/

namespace Verif.Props.Agree
open Verif Verif.Race Verif.Race.Sim

/-- The state after a history of `Strat` and what was sent, as a function. -/
def play (d : Strat.DS) : List Strat.Label → Option (Strat.DS × List Strat.Out)
  | [] => some (d, [])
  | l :: ls => match Strat.step d l with
    | none => none
    | some (d1, o) => (play d1 ls).map fun x => (x.1, o ++ x.2)

/-- C95. The debug state is modelled twice: with requests handled in one piece, with the values and the tasks (`Strat`, on which C29 to C60 rest),
and cut at every access to what the playbook and the requests share (`Race`, on which C93 to C97 rest). The two agree: take
any history of tasks, results, registered lines, refreshed inventories, waits and requests that the first one has within one play (no exception
ends it, results come for hosts with a task begun, no request fails half-way through making variables). Then the program cut into
small steps has an execution with the same calls and the same requests in the same order, in which none of them is overlapped by another, and
the client gets the same thread, stop and exit events with the same thread ids and the same frame ids and references in
the answers, in the same order. Afterwards the playbook is in the same place with the same threads, frames and references. -/
theorem C95_agrees_with_one_step {ls : List Strat.Label} {is : List Lbl} {d : Strat.DS} {os : List Strat.Out} (h : SRun {} ls is d os) :
    ∃ lbls s O, run false {} lbls = some (s, O) ∧ lbls.filter isInput = is ∧ O.filter kept = os.filterMap seen ∧
      s.threads = d.threads.map (·.1) ∧ (∀ t th, d.threads.get? t = some th → s.stack t = th.frames) ∧ s.live = d.frames.map (·.1) ∧
      (∀ v, s.vars v = (d.vars.get? v).map (·.frame)) ∧ PcSim d.pc s := by
  obtain ⟨s, O, ⟨lbls, h1, h2⟩, h3, h4⟩ := agree h Strat.inv_init sim_init
  exact ⟨lbls, s, O, h1, h2, h3, h4.dat.thr, fun t th ht => (h4.dat.th t th ht).2.1, h4.dat.live, h4.dat.vars, h4.pc⟩

/-- The histories meant are those of `Strat`. -/
theorem srun_run {ls : List Strat.Label} {is : List Lbl} {d d' : Strat.DS} {os : List Strat.Out} (h : SRun d ls is d' os) : Strat.Run d ls d' os := by
  induction h with
  | nil d => exact .nil d
  | cons h1 _ _ ih => exact .cons h1 ih

/-- A task without a location. -/
def quietTask : Strat.Task := { node := { uuid := 5, isTask := true, isInclude := false, hasRescue := false }, parents := [{ uuid := 9, isTask := false, isInclude := false, hasRescue := false }], path := none }

/-- A client that sets the error filter; a host runs a task that fails, the host stops, its frames are listed, it goes on. -/
def failing : List Strat.Label :=
  [.req (.setExc 1 [py!"on_error"]), .start 7 quietTask 0 0 (fun _ => false), .req .threads,
    .done 7 quietTask { failed := true, ignoreErrors := false, unreachable := false, ignoreUnreachable := false, skipped := false } 0,
    .req (.variables 1), .req (.cont 2 true), .wake]

/-- The state in the middle of it. -/
def mid (n : Nat) : Strat.DS := ((play {} (failing.take n)).map (·.1)).getD {}

example : ∃ is d os, SRun {} failing is d os ∧
    is = [.req (.setExceptions true), .startTask 7, .req .threads, .endTask 7 false, .req (.variables 1 0), .req (.one 2 false)] ∧
    os.filterMap seen = [.started 2, .answer (.ok [1, 2]), .stopped 2] := by
  have c : ∀ {d l d'}, (∀ e, d'.pc ≠ .crashed e) → (match l with
      | Strat.Label.newPlay => False
      | .done h _ _ _ => ∃ th, Strat.threadOf d h = some th ∧ th.frames ≠ []
      | .req q => (Strat.request d q).2.any isErr = true → (Strat.request d q).1.nextV = d.nextV
      | _ => True) → Covered d l d' := fun a b => ⟨a, b⟩
  refine ⟨_, _, _, SRun.cons (d1 := mid 1) rfl (c (by intro e; simp [mid, failing, play, Strat.step, Strat.request, Strat.bpStep]) (fun h => absurd h (by decide))) <|
    SRun.cons (d1 := mid 2) rfl (c (by intro e h; cases h) trivial) <|
    SRun.cons (d1 := mid 3) rfl (c (by intro e h; cases h) (fun _ => rfl)) <|
    SRun.cons (d1 := mid 4) rfl (c (by intro e h; cases h) ⟨_, rfl, by intro h; cases h⟩) <|
    SRun.cons (d1 := mid 5) rfl (c (by intro e h; cases h) (fun _ => rfl)) <|
    SRun.cons (d1 := mid 6) rfl (c (by intro e h; cases h) (fun _ => rfl)) <|
    SRun.cons (d1 := mid 7) rfl (c (by intro e h; cases h) trivial) <| SRun.nil _, ?_, ?_⟩
  · rfl
  · rfl

end Verif.Props.Agree
