import Verif.Props.Strat
import Verif.Bp.Order
import Verif.Props.Bp
import Verif.Strat.Role
/-!
# Conditional breakpoints (C72)

Model: `Verif.Strat.State` (`bpFor`, debug.py:556-592) and `Verif.Bp.Model` (`getBreakpoint`). The
outcome of a condition (`cond`, by breakpoint id; true for a breakpoint without a condition; false if
its evaluation failed, debug.py:569-581) is arbitrary for every task start.
-/

namespace Verif.Props.Strat
open Verif Verif.Strat

/-- The lines the client is shown for the breakpoint contain the line of the task. -/
def Covers (b : Bp.LineBp) (t : Task) : Prop :=
  ∃ p l, t.path = some (p, l) ∧ b.actualPath = p ∧ (∀ x, b.bp.line = some x → x ≤ l) ∧ (∀ x, b.bp.endLine = some x → l ≤ x)

/-- The debuggee keeps the breakpoint. -/
def Kept (s : DS) (b : Bp.LineBp) : Prop := ∃ k, (k, b) ∈ s.dbg.bps

/-- The host runs freely: it was told to continue and not stopped since, it never stopped, or it is
seen for the first time with this task start (whose messages are `o`). -/
def FreeHost (h tid : Nat) (s : DS) (o : List Out) : Prop :=
  (∃ x single a, After (.cont x single) h tid a s ∧ (single = false ∨ x = tid)) ∨ SinceAnnounced h tid s ∨
    (Reachable s ∧ Out.started tid ∈ o)

theorem free_stops {h tid : Nat} {t : Task} {s s' : DS} {tv ar : Addr} {c : Nat → Bool} {o : List Out}
    (hA : FreeHost h tid s o) (ht : ¬ Failed s') (hs : step s (.start h t tv ar c) = some (s', o)) (w : Verif.Strat.Stop) :
    Out.stopped tid w ∈ o ↔ ∃ i, w = .brk (.bp i) ∧ BpHits s t c i := by
  rcases hA with ⟨x, single, a, hA, hx⟩ | hA | ⟨hr, hn⟩
  · exact C35_continued hA hx ht hs w
  · exact C35_never_stopped hA ht hs w
  · exact C35_new_host hr ht hs hn w

theorem free_reachable {h tid : Nat} {s : DS} {o : List Out} (hA : FreeHost h tid s o) : Reachable s := by
  rcases hA with ⟨x, single, a, ⟨s0, s1, s2, s3, ls1, ls2, tv, ar, c, o1, os1, o3, hr, h1, -, h2, -, h3, ⟨os, h4, -⟩⟩, -⟩ |
    ⟨s0, s1, ls, a, tv, ar, c, o1, hr, h1, -, -, ⟨os, h4, -⟩⟩ | ⟨hr, -⟩
  · exact reach_append (reach_append (reach_append (reach_append hr (.cons h1 (.nil _))) h2) (.cons h3 (.nil _))) h4
  · exact reach_append (reach_append hr (.cons h1 (.nil _))) h4
  · exact hr

theorem covers_of {b : Bp.LineBp} {t : Task} {p : Str} {l : Int} (hp : t.path = some (p, l)) :
    Bp.covers p l b = true ↔ Covers b t := by
  unfold Bp.covers Covers
  constructor
  · intro h
    simp only [Bool.and_eq_true, beq_iff_eq] at h
    refine ⟨p, l, hp, h.1.1, ?_, ?_⟩
    · intro x hx; have := h.1.2; rw [hx] at this; simpa using this
    · intro x hx; have := h.2; rw [hx] at this; simpa using this
  · rintro ⟨p', l', hp', h1, h2, h3⟩
    rw [hp] at hp'; cases hp'
    simp only [Bool.and_eq_true, beq_iff_eq]
    refine ⟨⟨h1, ?_⟩, ?_⟩
    · cases e : b.bp.line with
      | none => rfl
      | some x => simpa using h2 x e
    · cases e : b.bp.endLine with
      | none => rfl
      | some x => simpa using h3 x e

/-- **C72** (soundness). A freely running host that stops at a task stops for a kept breakpoint whose
shown lines contain the task's and whose condition holds, and the event names that breakpoint: if the
conditions of all the breakpoints of the task's line are false (or fail) the host does not stop. -/
theorem C72_stop_has_true_condition_partial {h tid : Nat} {t : Task} {s s' : DS} {tv ar : Addr} {c : Nat → Bool} {o : List Out}
    (hA : FreeHost h tid s o) (ht : ¬ Failed s') (hs : step s (.start h t tv ar c) = some (s', o)) (w : Verif.Strat.Stop)
    (hw : Out.stopped tid w ∈ o) :
    ∃ b, Kept s b ∧ Covers b t ∧ c b.id = true ∧ w = .brk (.bp b.id) := by
  obtain ⟨i, rfl, p, l, b, hp, hb, rfl, hc⟩ := (free_stops hA ht hs w).1 hw
  have hm := List.mem_of_find?_eq_some hb
  have hq := List.find?_some hb
  obtain ⟨⟨k, b'⟩, hk, rfl⟩ := List.mem_map.1 hm
  exact ⟨b', ⟨k, hk⟩, (covers_of hp).1 hq, hc, rfl⟩

/-- **C72** (completeness, in part). If a kept breakpoint covers the task's line and the conditions of
all the breakpoints that do hold, as when there is just one, the host stops. Missing: several
breakpoints of which only some conditions hold (`C72_refuted`). -/
theorem C72_stops_partial {h tid : Nat} {t : Task} {s s' : DS} {tv ar : Addr} {c : Nat → Bool} {o : List Out}
    (hA : FreeHost h tid s o) (ht : ¬ Failed s') (hs : step s (.start h t tv ar c) = some (s', o))
    (b : Bp.LineBp) (hb : Kept s b) (hcov : Covers b t) (hall : ∀ b', Kept s b' → Covers b' t → c b'.id = true) :
    ∃ b', Kept s b' ∧ Covers b' t ∧ Out.stopped tid (.brk (.bp b'.id)) ∈ o := by
  obtain ⟨p, l, hp, -⟩ := id hcov
  obtain ⟨k, hk⟩ := hb
  cases hf : Bp.getBreakpoint s.dbg p l with
  | none =>
    unfold Bp.getBreakpoint at hf
    rw [List.find?_eq_none] at hf
    exact absurd ((covers_of hp).2 hcov) (hf b (List.mem_map_of_mem (f := (·.2)) hk))
  | some b' =>
    have hm := List.mem_of_find?_eq_some hf
    have hq := List.find?_some hf
    obtain ⟨⟨k', b''⟩, hk', rfl⟩ := List.mem_map.1 hm
    have hcv := (covers_of hp).1 hq
    exact ⟨b'', ⟨k', hk'⟩, hcv, (free_stops hA ht hs _).2 ⟨_, rfl, p, l, b'', hp, hf, rfl, hall _ ⟨k', hk'⟩ hcv⟩⟩

/-- **C72**, exactly: a freely running host stops at a task iff some kept breakpoint covers the task's line and the condition of the one with the smallest number among
those holds; the event then names that breakpoint. The other breakpoints of the line, and their conditions, do not matter. -/
theorem C72_exact_partial {h tid : Nat} {t : Task} {s s' : DS} {tv ar : Addr} {c : Nat → Bool} {o : List Out}
    (hA : FreeHost h tid s o) (ht : ¬ Failed s') (hs : step s (.start h t tv ar c) = some (s', o)) (w : Verif.Strat.Stop) :
    Out.stopped tid w ∈ o ↔
      ∃ b, Kept s b ∧ Covers b t ∧ (∀ b', Kept s b' → Covers b' t → b.id ≤ b'.id) ∧ c b.id = true ∧ w = .brk (.bp b.id) := by
  obtain ⟨ls, os, hr⟩ := free_reachable hA
  have hord : Bp.Ordered s.dbg := by rw [dbg_run inv_init hr]; exact Verif.Bp.ordered_run _ _ Verif.Bp.ordered_init
  rw [free_stops hA ht hs w]
  constructor
  · rintro ⟨i, rfl, p, l, b, hp, hb, rfl, hc⟩
    unfold Bp.getBreakpoint at hb
    obtain ⟨h1, k, h2, h3⟩ := (Verif.Props.Bp.find_sorted hord.sorted b).1 hb
    refine ⟨b, ⟨k, h2⟩, (covers_of hp).1 h1, ?_, hc, rfl⟩
    rintro b' ⟨k', hk'⟩ hcov
    have e1 : b.id = k := hord.own _ h2
    have e2 : b'.id = k' := hord.own _ hk'
    rw [e1, e2]
    exact h3 k' b' hk' ((covers_of hp).2 hcov)
  · rintro ⟨b, ⟨k, hk⟩, hcov, hmin, hc, rfl⟩
    obtain ⟨p, l, hp, -⟩ := id hcov
    refine ⟨b.id, rfl, p, l, b, hp, ?_, rfl, hc⟩
    unfold Bp.getBreakpoint
    refine (Verif.Props.Bp.find_sorted hord.sorted b).2 ⟨(covers_of hp).2 hcov, k, hk, fun k' b' hk' hq => ?_⟩
    have e1 : b.id = k := hord.own _ hk
    have e2 : b'.id = k' := hord.own _ hk'
    rw [← e1, ← e2]
    exact hmin b' ⟨k', hk'⟩ ((covers_of hp).1 hq)

/-- Two breakpoints, requested at lines 2 and 3, govern the one task of a two-line entry. -/
def twoBps : List Label :=
  [.reg py!"a.yml" 2 1, .req (.setBps 1 { name := none, path := some py!"a.yml" } false [2, 3])]

/-- **C72 is false of the code**: of the breakpoints on a task's line only the first one set counts.
Two breakpoints, requested at lines 2 and 3, govern the task at line 2. The condition of the first is
false, that of the second holds (or it has none): a host that runs into the task does not stop. -/
theorem C72_refuted : ∃ (s s' : DS) (o : List Out) (b : Bp.LineBp) (c : Nat → Bool) (tid : Nat),
    FreeHost 7 tid s o ∧ step s (.start 7 (tk 10 2) 0 0 c) = some (s', o) ∧
    Kept s b ∧ Covers b (tk 10 2) ∧ c b.id = true ∧ ¬ Stops tid o := by
  have ha : ((stF {} twoBps).dbg.bps.any fun e => e.2.id == 2 && Bp.covers py!"a.yml" 2 e.2) = true := by decide +kernel
  obtain ⟨⟨k, b⟩, h1, h2⟩ := List.any_eq_true.1 ha
  simp only [Bool.and_eq_true, beq_iff_eq] at h2
  obtain ⟨h2, h3⟩ := h2
  have ho : ouF (stF {} twoBps) [.start 7 (tk 10 2) 0 0 (fun i => i == 2)] = [.started 2] := by decide +kernel
  refine ⟨stF {} twoBps, _, _, b, fun i => i == 2, 2, .inr (.inr ⟨⟨_, _, run_of (ls := twoBps) (by decide +kernel)⟩, ?_⟩),
    step_of (by decide +kernel), ⟨k, h1⟩, (covers_of rfl).1 h3, by rw [h2]; rfl, ?_⟩
  · rw [ho]; simp
  · rw [ho]; rintro ⟨w, hw⟩; simp at hw

/-- Non-vacuity of the two theorems: with both conditions true the same host stops for the first. -/
example : Out.stopped 2 (.brk (.bp 1)) ∈ ouF (stF {} twoBps) [.start 7 (tk 10 2) 0 0 yes] := by decide +kernel

end Verif.Props.Strat
