import Verif.Debuggee.Inv
import Verif.Debuggee.Spec

/-! What the histories have to do with the states. -/

namespace Verif.Debuggee
open Verif

theorem ConfigAnswered.append {os : List Obs} (o : List Obs) (h : ConfigAnswered os) : ConfigAnswered (os ++ o) := by
  obtain ⟨n, hn⟩ := h
  exact ⟨n, hn.trans (List.sublist_append_left _ _)⟩

/-- The connection has ended or the configuration was answered. -/
def Released (os : List Obs) : Prop := Obs.closed ∈ os ∨ ConfigAnswered os

theorem Released.append {os : List Obs} (o : List Obs) (h : Released os) : Released (os ++ o) := by
  rcases h with h | h
  · exact .inl (by simp [h])
  · exact .inr (h.append o)

/-- The receive thread is in or after `connection_closed`. -/
def closing : R → Bool
  | .clear | .conf | .strat | .unlink | .ended => true
  | _ => false

/-- The playbook thread has set the event itself. -/
def pastConf : P → Bool
  | .strat | .unlink | .done => true
  | _ => false

structure HConf (c : Cfg) (s : St) (os : List Obs) : Prop where
  conf : s.confDone = true → Released os ∨ pastConf s.p = true
  setc : s.r = .setConf → ConfigAnswered os
  got : ∀ n, s.r = .got ⟨.configurationDone, n⟩ → Obs.received ⟨.configurationDone, n⟩ ∈ os
  closing : closing s.r = true → Obs.closed ∈ os
  go : (s.p = .between ∨ s.p = .play) → c.noWait = true ∨ Obs.started false ∈ os ∨ Released os

theorem hconf_init (c : Cfg) (old : Option Str) : HConf c (init old) [] := by
  constructor <;> simp [init, closing]

set_option maxHeartbeats 1000000 in
theorem hconf_step {c : Cfg} {s s' : St} {a : Act} {o os : List Obs} (i : HConf c s os) (h : step c s a = some (s', o)) :
    HConf c s' (os ++ o) := by
  obtain ⟨i1, i2, i3, i4, i5⟩ := i
  have e1 := fun o (h : Released os) => h.append o
  have e2 := fun o (h : ConfigAnswered os) => h.append o
  have e3 : ∀ n, Obs.received ⟨.configurationDone, n⟩ ∈ os → ConfigAnswered (os ++ [Obs.put (some (.resp .configurationDone n true))]) := by
    intro n hn
    obtain ⟨a, b, rfl⟩ := List.append_of_mem hn
    refine ⟨n, ?_⟩
    rw [List.append_assoc]
    exact ((List.sublist_append_right b [Obs.put (some (.resp .configurationDone n true))]).cons_cons _).trans (List.sublist_append_right a _)
  step_cases a h
  all_goals (constructor <;> grind [closing, pastConf, Released])


/-! ## The send queue -/

/-- The message the send thread has taken and not sent. -/
def inFlight : S → List (Option Out)
  | .send m _ => [some m]
  | _ => []

structure HQueue (s : St) (os : List Obs) : Prop where
  live : looping s.s = true ∨ s.s = .off → puts os = (wires os).map some ++ inFlight s.s ++ s.queue ∧ ∀ b, Obs.stopped b ∉ os
  ended : looping s.s = false → s.s ≠ .off → ∃ b, Obs.stopped b ∈ os
  byNone : Obs.stopped true ∈ os → ∃ rest, puts os = (wires os).map some ++ none :: rest
  byError : Obs.stopped false ∈ os → ∃ rest, puts os = (wires os).map some ++ rest

theorem hqueue_init (old : Option Str) : HQueue (init old) [] := by
  constructor <;> simp [init, looping, puts, wires, inFlight]

theorem puts_append (a b : List Obs) : puts (a ++ b) = puts a ++ puts b := by simp [puts]
theorem wires_append (a b : List Obs) : wires (a ++ b) = wires a ++ wires b := by simp [wires]

theorem puts_cons (x : Obs) (l : List Obs) : puts (x :: l) = (match x with | .put y => [y] | _ => []) ++ puts l := by
  cases x <;> simp [puts]
theorem wires_cons (x : Obs) (l : List Obs) : wires (x :: l) = (match x with | .wire y => [y] | _ => []) ++ wires l := by
  cases x <;> simp [wires]
theorem puts_nil : puts [] = [] := rfl
theorem wires_nil : wires [] = [] := rfl

set_option maxHeartbeats 4000000 in
theorem hqueue_step {c : Cfg} {s s' : St} {a : Act} {o os : List Obs} (i : HQueue s os) (hp : s.p = .pre → s.s = .off)
    (h : step c s a = some (s', o)) :
    HQueue s' (os ++ o) := by
  obtain ⟨i1, i2, i3, i4⟩ := i
  step_cases a h
  all_goals (constructor <;> first | grind [looping, inFlight, puts_append, wires_append, puts_cons, wires_cons, puts_nil, wires_nil, List.append_assoc] | simp_all [looping, inFlight, puts_append, wires_append, puts_cons, wires_cons, puts_nil, wires_nil])

end Verif.Debuggee
