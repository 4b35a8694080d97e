import Verif.Strat.Nested
import Verif.Props.StratRun
/-!
# Stack traces (C40, C41)
-/

namespace Verif.Props.Strat
open Verif Verif.Strat

/-! ## C40 -/

/-- All frames of a thread belong to tasks with a location. -/
def Located (s : DS) (th : Thread) : Prop := ∀ f ∈ th.frames, ∀ fr, s.frames.get? f = some fr → fr.task.path ≠ none

theorem mapM_located {s : DS} (fs : List Nat) (h1 : ∀ f ∈ fs, ∃ fr, s.frames.get? f = some fr)
    (h2 : ∀ f ∈ fs, ∀ fr, s.frames.get? f = some fr → fr.task.path ≠ none) :
    ∃ l, fs.mapM (frameDap s) = .ok l ∧ l.length = fs.length ∧ ∀ i (h : i < fs.length), ∃ fr p ln, s.frames.get? fs[i] = some fr ∧
      fr.task.path = some (p, ln) ∧ l[i]? = some (fs[i], Bp.toClient s.dbg.mappings p, ln) := by
  induction fs with
  | nil => exact ⟨[], rfl, rfl, fun i h => absurd h (by simp)⟩
  | cons f fs ih =>
    obtain ⟨l, e, e1, e2⟩ := ih (fun g hg => h1 g (by simp [hg])) (fun g hg => h2 g (by simp [hg]))
    obtain ⟨fr, hfr⟩ := h1 f (by simp)
    cases hp : fr.task.path with
    | none => exact absurd hp (h2 f (by simp) fr hfr)
    | some q =>
      obtain ⟨p, ln⟩ := q
      have hd : frameDap s f = .ok (f, Bp.toClient s.dbg.mappings p, ln) := by simp [frameDap, hfr, hp]
      refine ⟨(f, Bp.toClient s.dbg.mappings p, ln) :: l, ?_, by simp [e1], ?_⟩
      · simp only [List.mapM_cons, hd, e]; rfl
      · intro i hi
        cases i with
        | zero => exact ⟨fr, p, ln, hfr, hp, rfl⟩
        | succ j =>
          obtain ⟨fr', p', ln', g1, g2, g3⟩ := e2 j (by simpa using hi)
          exact ⟨fr', p', ln', by simpa using g1, g2, by simpa using g3⟩

theorem mapM_unlocated {s : DS} (fs : List Nat) {l} (h : fs.mapM (frameDap s) = .ok l) :
    ∀ f ∈ fs, ∀ fr, s.frames.get? f = some fr → fr.task.path ≠ none := by
  induction fs generalizing l with
  | nil => intro f hf; cases hf
  | cons g fs ih =>
    simp only [List.mapM_cons] at h
    cases hg : frameDap s g with
    | error e => rw [hg] at h; cases h
    | ok x =>
      rw [hg] at h
      cases hm : fs.mapM (frameDap s) with
      | error e => rw [hm] at h; cases h
      | ok l' =>
        intro f hf fr hfr hn
        rcases List.mem_cons.1 hf with rfl | hf
        · simp [frameDap, hfr, hn] at hg
        · exact ih hm f hf fr hfr hn

/-- **C40.** After every history, for every thread: its frames exist, no other thread has them, and
they are numbered from the newest to the oldest (so none is there twice). A stackTrace request
changes nothing; it lists exactly these frames in this order, each with the location of its task, if
all of them have one (`Located`), and is answered with an error otherwise. For a thread that does
not exist it is an error. -/
theorem C40_stack {s : DS} (hr : Reachable s) (k : Nat) :
    (∀ th, s.threads.get? k = some th →
      (∀ f ∈ th.frames, ∃ fr, s.frames.get? f = some fr) ∧
      (∀ k' th' f, s.threads.get? k' = some th' → f ∈ th.frames → f ∈ th'.frames → k' = k) ∧
      th.frames.Pairwise (· > ·) ∧
      (Located s th → ∃ l, step s (.req (.stackTrace k)) = some (s, [.stack l]) ∧ l.length = th.frames.length ∧
        ∀ i (h : i < th.frames.length), ∃ fr p ln, s.frames.get? th.frames[i] = some fr ∧ fr.task.path = some (p, ln) ∧
          l[i]? = some (th.frames[i], Bp.toClient s.dbg.mappings p, ln)) ∧
      (¬ Located s th → ∃ e, step s (.req (.stackTrace k)) = some (s, [.error e]))) ∧
    (s.threads.get? k = none → ∃ e, step s (.req (.stackTrace k)) = some (s, [.error e])) := by
  have hi := reach_inv hr
  refine ⟨fun th ht => ⟨fun f hf => hi.core.tf ht hf, fun k' th' f h1 h2 h3 => hi.core.tfd h1 ht h3 h2, ?_, ?_, ?_⟩, ?_⟩
  · have := reach_desc hr k _ (by simp only [view, ht, Option.map_some]; rfl)
    have e : (viewF s.frames th.frames).map (·.1) = th.frames := by simp [viewF, Function.comp_def]
    simpa [e] using this
  · intro hl
    obtain ⟨l, e, e1, e2⟩ := mapM_located th.frames (fun f hf => hi.core.tf ht hf) hl
    exact ⟨l, by simp [step, request, stackTrace, ht, e], e1, e2⟩
  · intro hl
    cases hm : th.frames.mapM (frameDap s) with
    | ok l => exact absurd (mapM_unlocated _ hm) hl
    | error e => exact ⟨e, by simp [step, request, stackTrace, ht, hm]⟩
  · intro ht
    exact ⟨.key, by simp [step, request, stackTrace, ht]⟩

/-- Non-vacuity: a host inside an include has two frames, both located. -/
example : ∃ s th, Reachable s ∧ s.threads.get? 2 = some th ∧ th.frames = [2, 1] ∧ Located s th := by
  refine ⟨stF {} [.start 7 (tinc 50 3) 0 0 yes, .done 7 (tinc 50 3) fine 0, .start 7 (tsub 51 2) 0 0 yes], { id := 2, host := some 7, frames := [2, 1] },
    ⟨_, _, run_of (by decide +kernel)⟩, by decide +kernel, rfl, ?_⟩
  intro f hf fr hfr
  simp only [List.mem_cons, List.not_mem_nil, or_false] at hf
  have key : ∀ (g : Nat) (q : Str × Int) (fr : Frame), (stF {} [.start 7 (tinc 50 3) 0 0 yes, .done 7 (tinc 50 3) fine 0, .start 7 (tsub 51 2) 0 0 yes]).frames.get? g = some fr →
      ((stF {} [.start 7 (tinc 50 3) 0 0 yes, .done 7 (tinc 50 3) fine 0, .start 7 (tsub 51 2) 0 0 yes]).frames.get? g).bind (fun x => x.task.path) = some q →
      fr.task.path ≠ none := by
    intro g q fr h1 h2 h3
    rw [h1] at h2
    simp [h3] at h2
  rcases hf with rfl | rfl
  · exact key 2 (py!"b.yml", 2) fr hfr (by decide +kernel)
  · exact key 1 (py!"a.yml", 3) fr hfr (by decide +kernel)

/-! ## C41 -/

/-- **C41.** If the tasks of a host are well nested (each stands directly in the play or in the file
of an include, and each leaves at most one include: `Nested`), then whenever the host is in a task
`t` - in particular when it is stopped at it - its stack is `t` followed by the include tasks around
it, innermost first; and the same holds when it is stopped after `t` by an exception. Anything may
happen in between: other hosts, requests, refreshed inventories, new plays.

Partial: without these conditions it is false, see the three theorems below. -/
theorem C41_stack_partial {h : Nat} {ls : List Label} {s : DS} {os : List Out} {q : Pos} {t : Task} {th : Thread} (hr : Run {} ls s os)
    (hn : Nested h .idle ls q) (hth : threadOf s h = some th)
    (hq : q = .busy t ∨ (q = .after t ∧ ∃ i, s.pc = .waitEnd th.id i)) :
    ∃ f fs fr, th.frames = f :: fs ∧ s.frames.get? f = some fr ∧ fr.task = t ∧
      fs.map (fun g => (s.frames.get? g).map fun fr => fr.task.node.uuid) = (Chain t).map some := by
  obtain ⟨hi, g⟩ := nested_good hn hr inv_init (fun _ => init_main) (good_init h) (.inl rfl)
  obtain ⟨t1, t2⟩ := threadOf_some hi.core hth
  have hv : view s th.id = some (some h, viewF s.frames th.frames) := by simp [view, t2, t1]
  have hL : ∃ i r, viewF s.frames th.frames = (i, some t) :: r ∧ uuids r = (Chain t).map some := by
    have := g _ _ hv
    rcases hq with rfl | ⟨rfl, j, hj⟩
    · exact this.1
    · rcases this with ⟨-, -, a⟩ | ⟨a, -⟩
      · exact a
      · exact absurd hj (a j)
  obtain ⟨i, r, e1, e2⟩ := hL
  cases hf : th.frames with
  | nil => rw [hf] at e1; cases e1
  | cons f fs =>
    rw [hf] at e1
    simp only [viewF, List.map_cons, List.cons.injEq, Prod.mk.injEq] at e1
    obtain ⟨⟨rfl, e3⟩, e4⟩ := e1
    cases hfr : s.frames.get? f with
    | none => rw [hfr] at e3; cases e3
    | some fr =>
      rw [hfr] at e3
      refine ⟨f, fs, fr, rfl, hfr, by simpa using e3, ?_⟩
      rw [← e2, ← e4]
      simp [uuids, Option.map_map, Function.comp_def]

/-- Non-vacuity: into an include, through two of its tasks, and back out. -/
example : Nested 7 .idle [.start 7 (tinc 50 3) 0 0 yes, .done 7 (tinc 50 3) fine 0, .start 7 (tsub 51 2) 0 0 yes, .start 8 (tk 1 1) 0 0 yes,
      .done 7 (tsub 51 2) fine 0, .start 7 (tsub 52 2) 0 0 yes, .done 7 (tsub 52 2) fine 0, .start 7 (tk 60 2) 0 0 yes] (.busy (tk 60 2)) ∧
    (exec {} [.start 7 (tinc 50 3) 0 0 yes, .done 7 (tinc 50 3) fine 0, .start 7 (tsub 51 2) 0 0 yes, .start 8 (tk 1 1) 0 0 yes,
      .done 7 (tsub 51 2) fine 0, .start 7 (tsub 52 2) 0 0 yes, .done 7 (tsub 52 2) fine 0, .start 7 (tk 60 2) 0 0 yes]).isSome = true := by
  have d1 : Direct (tinc 50 3) := .inl ⟨blk 900, rfl, rfl⟩
  have d2 : Direct (tk 60 2) := .inl ⟨blk 900, rfl, rfl⟩
  have d3 : ∀ u, Direct (tsub u 2) := fun u => .inr ⟨blk 901, incl 50, [blk 900], rfl, rfl, rfl, rfl⟩
  refine ⟨.first d1 (.inl rfl) (.done (.next (d3 51) (.inl rfl) (.other (by show (8 : Nat) ≠ 7; decide) (.done
    (.next (d3 52) (.inl rfl) (.done (.next d2 (.inr ⟨50, rfl, by decide⟩) (.nil _)))))))), by decide +kernel⟩

/-- A task in a block inside include 50. -/
def tblk (u : Nat) (l : Int) : Task := { node := ordi u, parents := [blk 902, blk 901, incl 50, blk 900], path := some (py!"b.yml", l) }
/-- An include inside include 50. -/
def tinc2 (u : Nat) (l : Int) : Task := { node := incl u, parents := [blk 901, incl 50, blk 900], path := some (py!"b.yml", l) }
/-- A task inside include 51 inside include 50. -/
def tsub2 (u : Nat) (l : Int) : Task := { node := ordi u, parents := [blk 903, incl 51, blk 901, incl 50, blk 900], path := some (py!"c.yml", l) }

/-- **C41** fails for a task in a block of an included file: the include it stands in is missing from
its stack. -/
theorem C41_block_refuted : ∃ ls s os, Run {} ls s os ∧ ls = [.start 7 (tinc 50 3) 0 0 yes, .done 7 (tinc 50 3) fine 0, .start 7 (tblk 51 2) 0 0 yes] ∧
    Chain (tblk 51 2) = [50] ∧ (threadOf s 7).map (·.frames) = some [2] ∧ (s.frames.get? 2).map (·.task) = some (tblk 51 2) :=
  ⟨_, _, _, run_of (by decide +kernel), rfl, by decide +kernel, by decide +kernel, by decide +kernel⟩

/-- **C41** fails when two includes are left at once: the outer one stays on the stack of a task that
does not stand in it. -/
theorem C41_two_levels_refuted : ∃ ls s os, Run {} ls s os ∧
    ls = [.start 7 (tinc 50 3) 0 0 yes, .done 7 (tinc 50 3) fine 0, .start 7 (tinc2 51 2) 0 0 yes, .done 7 (tinc2 51 2) fine 0,
      .start 7 (tsub2 61 2) 0 0 yes, .done 7 (tsub2 61 2) fine 0, .start 7 (tk 60 2) 0 0 yes] ∧
    Chain (tk 60 2) = [] ∧ (threadOf s 7).map (·.frames) = some [4, 1] ∧ (s.frames.get? 4).map (·.task) = some (tk 60 2) ∧
    (s.frames.get? 1).map (·.task) = some (tinc 50 3) :=
  ⟨_, _, _, run_of (by decide +kernel), rfl, by decide +kernel, by decide +kernel, by decide +kernel, by decide +kernel⟩

/-- **C41** fails after an inventory refresh inside an include: the host gets a new thread whose
stack starts with the next task. -/
theorem C41_refresh_refuted : ∃ ls s os, Run {} ls s os ∧
    ls = [.start 7 (tinc 50 3) 0 0 yes, .done 7 (tinc 50 3) fine 0, .refresh, .start 7 (tsub 51 2) 0 0 yes] ∧
    Chain (tsub 51 2) = [50] ∧ (threadOf s 7).map (·.frames) = some [2] :=
  ⟨_, _, _, run_of (by decide +kernel), rfl, by decide +kernel, by decide +kernel⟩

end Verif.Props.Strat
