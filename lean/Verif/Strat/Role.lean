import Verif.Strat.From
import Verif.Bp.Spec
import Verif.Bp.Raise
/-!
# The scan of an included role

`start_task` with its scan of the tasks and handlers of an included role
(/repo/src/ansibug/ansible_collections/ansibug/dap/plugins/strategy/debug.py:493-604), related to the
model of `Strat/State.lean`, where those lines are registered by separate steps before it.
-/

namespace Verif.Strat
open Verif

/-- Is the role of the task scanned (debug.py:530-535)? The frame on top before the synchronisation is
one of an include_role and there is something above the task's block. -/
def scans (s : DS) (th : Thread) (t : Task) : Bool :=
  match th.frames with
  | [] => false
  | f :: _ => match s.frames.get? f with
    | none => false
    | some fr => decide (2 ≤ t.parents.length) && fr.task.node.isRole

/-- The calls of `register_path_breakpoint` for the blocks of a role's tasks, then of its handlers
(debug.py:536-539). -/
def roleRegs (tasks handlers : List Bp.Item) : Except PyErr (List (Str × Int × Nat)) :=
  Bp.seqRegs (Bp.blockRegs tasks) (Bp.blockRegs handlers)

/-- One registration as an action of the debugger (_debuggee.py:530-577). -/
def regAct (r : Str × Int × Nat) : Bp.Act := .reg r.1 r.2.1 r.2.2

/-- A sequence of such calls, which an exception ends (_debuggee.py:79-105, 530-577). -/
def registerAll : List (Str × Int × Nat) → Bp.Dbg → Bp.Dbg × List Bp.Out × Option PyErr
  | [], d => (d, [], none)
  | r :: rs, d =>
    let x := Bp.register r.1 r.2.1 r.2.2 d
    match x.2.2 with
    | some e => (x.1, x.2.1, some e)
    | none => let y := registerAll rs x.1; (y.1, x.2.1 ++ y.2.1, y.2.2)

/-- `start_task` (debug.py:493-604) up to its end or to the wait; `tasks` and `handlers` are
`task._role.get_task_blocks()` and `task._role.get_handler_blocks(task.play)`. Simplified: when a location
cannot be split, the registrations made before it are left out, as the run ends. -/
def startTaskRole (s : DS) (host : Nat) (t : Task) (tasks handlers : List Bp.Item) (taskVars args : Addr) (cond : Nat → Bool) :
    DS × List Out :=
  let (s, th, o) := match threadOf s host with
    | some th => (s, th, [])
    | none => addThread s host
  let scan := scans s th t
  match syncFrames s th t with
  | .error e => crash s o e
  | .ok (s, th) =>
    match if scan = true then roleRegs tasks handlers else .ok [] with
    | .error e => crash s o e
    | .ok rs =>
      let b := registerAll rs s.dbg
      let s := { s with dbg := b.1 }
      match b.2.2 with
      | some e => crash s (o ++ b.2.1.map .bp) e
      | none =>
        let (s, th) := pushFrame s th t taskVars args
        let r := decideStop s th t cond
        (r.1, o ++ b.2.1.map .bp ++ r.2)

/-- Without an exception they are the registrations one after the other. -/
theorem registerAll_ok : ∀ (rs : List (Str × Int × Nat)) (d : Bp.Dbg), (registerAll rs d).2.2 = none →
    (registerAll rs d).1 = (Bp.run d (rs.map regAct)).1 ∧ (registerAll rs d).2.1 = (Bp.run d (rs.map regAct)).2 := by
  intro rs
  induction rs with
  | nil => intro d _; exact ⟨rfl, rfl⟩
  | cons r rs ih =>
    intro d h
    unfold registerAll at h ⊢
    simp only at h ⊢
    cases hr : (Bp.register r.1 r.2.1 r.2.2 d).2.2 with
    | some e => rw [hr] at h; cases h
    | none =>
      rw [hr] at h
      simp only at h ⊢
      obtain ⟨h1, h2⟩ := ih _ h
      exact ⟨h1, by rw [h2]; rfl⟩

/-- There is none where no kept breakpoint and no registered line is negative. -/
theorem registerAll_fine : ∀ (rs : List (Str × Int × Nat)) (d : Bp.Dbg), Bp.Tables d → (∀ e ∈ d.bps, 0 ≤ e.2.reqLine) → (∀ r ∈ rs, 0 ≤ r.2.1) →
    (registerAll rs d).2.2 = none := by
  intro rs
  induction rs with
  | nil => intro d _ _ _; rfl
  | cons r rs ih =>
    intro d ht hk hl
    unfold registerAll
    simp only [Bp.register_fine ht hk r.1 (hl r List.mem_cons_self) r.2.2]
    refine ih _ (Bp.tables_step ht (.reg r.1 r.2.1 r.2.2)) ?_ fun r hr => hl r (List.mem_cons_of_mem _ hr)
    intro e he
    obtain ⟨e', h1, h2⟩ := Bp.register_reqLine r.1 r.2.1 r.2.2 d e he
    rw [← h2]; exact hk e' h1

/-! ## The debugger part is independent of threads and frames -/

theorem hostThread_dbg (s : DS) (h : Nat) (d : Bp.Dbg) :
    hostThread { s with dbg := d } h = ({ (hostThread s h).1 with dbg := d }, (hostThread s h).2) := by
  unfold hostThread threadOf
  simp only
  split <;> rfl

theorem hostThread_same (s : DS) (h : Nat) : (hostThread s h).1.dbg = s.dbg ∧ (hostThread s h).1.frames = s.frames ∧ (hostThread s h).1.pc = s.pc := by
  unfold hostThread
  split <;> exact ⟨rfl, rfl, rfl⟩

theorem popFrame_dbg (s : DS) (th : Thread) (d : Bp.Dbg) :
    popFrame { s with dbg := d } th = (popFrame s th).map fun x => ({ x.1 with dbg := d }, x.2) := by
  unfold popFrame
  cases th.frames with
  | nil => rfl
  | cons f fs =>
    simp only
    cases s.frames.get? f with
    | none => rfl
    | some fr =>
      simp only
      cases delVars fr.variables s.vars <;> rfl

theorem popFrame_same {s s' : DS} {th th' : Thread} (h : popFrame s th = .ok (s', th')) : s'.dbg = s.dbg ∧ s'.pc = s.pc := by
  unfold popFrame at h
  split at h
  · cases h
  · split at h
    · cases h
    · split at h
      · cases h
      · cases h; exact ⟨rfl, rfl⟩

theorem syncFrames_dbg (s : DS) (th : Thread) (t : Task) (d : Bp.Dbg) :
    syncFrames { s with dbg := d } th t = (syncFrames s th t).map fun x => ({ x.1 with dbg := d }, x.2) := by
  unfold syncFrames
  cases th.frames with
  | nil => rfl
  | cons f fs =>
    simp only
    cases t.parents with
    | nil => rfl
    | cons q ps =>
      simp only
      cases s.frames.get? f with
      | none => rfl
      | some fr =>
        simp only
        split
        · rfl
        · cases ps with
          | nil => exact popFrame_dbg s th d
          | cons p ps =>
            simp only
            split
            · exact popFrame_dbg s th d
            · rfl

theorem syncFrames_same {s s' : DS} {th th' : Thread} {t : Task} (h : syncFrames s th t = .ok (s', th')) : s'.dbg = s.dbg ∧ s'.pc = s.pc := by
  unfold syncFrames at h
  (repeat' (split at h)) <;> first
    | (cases h; done)
    | (cases h; exact ⟨rfl, rfl⟩)
    | exact popFrame_same h

theorem startTaskRole_eq (s : DS) (h : Nat) (t : Task) (ts hs : List Bp.Item) (tv a : Addr) (cond : Nat → Bool) :
    startTaskRole s h t ts hs tv a cond =
      match syncFrames (hostThread s h).1 (hostThread s h).2.1 t with
      | .error e => crash (hostThread s h).1 (hostThread s h).2.2 e
      | .ok (s', th) =>
        match if scans (hostThread s h).1 (hostThread s h).2.1 t = true then roleRegs ts hs else .ok [] with
        | .error e => crash s' (hostThread s h).2.2 e
        | .ok rs =>
          let d := { s' with dbg := (registerAll rs s'.dbg).1 }
          match (registerAll rs s'.dbg).2.2 with
          | some e => crash d ((hostThread s h).2.2 ++ (registerAll rs s'.dbg).2.1.map .bp) e
          | none =>
            ((decideStop (pushFrame d th t tv a).1 (pushFrame d th t tv a).2 t cond).1,
              (hostThread s h).2.2 ++ (registerAll rs s'.dbg).2.1.map .bp ++ (decideStop (pushFrame d th t tv a).1 (pushFrame d th t tv a).2 t cond).2) := by
  unfold startTaskRole hostThread
  rfl

/-! ## Separate registrations -/

/-- Registrations as steps of the playbook thread. -/
def regLabels (rs : List (Str × Int × Nat)) : List Label := rs.map fun r => .reg r.1 r.2.1 r.2.2

theorem run_regs (rs : List (Str × Int × Nat)) : ∀ (s : DS), s.pc = .running → (registerAll rs s.dbg).2.2 = none →
    Run s (regLabels rs) { s with dbg := (Bp.run s.dbg (rs.map regAct)).1 } ((Bp.run s.dbg (rs.map regAct)).2.map .bp) := by
  induction rs with
  | nil => intro s _ _; exact .nil s
  | cons r rs ih =>
    intro s hp hn
    unfold registerAll at hn
    simp only at hn
    cases hr : (Bp.register r.1 r.2.1 r.2.2 s.dbg).2.2 with
    | some e => rw [hr] at hn; cases hn
    | none =>
      rw [hr] at hn
      have h1 : step s (.reg r.1 r.2.1 r.2.2) = some (bpStep s (regAct r)) := by simp only [step, hp, if_true, regAct, registerLine, hr]
      have h2 := ih (bpStep s (regAct r)).1 hp hn
      have h3 := Run.cons h1 h2
      rw [show (Bp.run s.dbg ((r :: rs).map regAct)).2 = (Bp.step s.dbg (regAct r)).2 ++ (Bp.run (Bp.step s.dbg (regAct r)).1 (rs.map regAct)).2 from rfl,
        List.map_append]
      exact h3

theorem run_snoc {s s' s'' : DS} {ls : List Label} {l : Label} {os o : List Out} (h : Run s ls s' os) (h' : step s' l = some (s'', o)) :
    Run s (ls ++ [l]) s'' (os ++ o) := by
  induction h with
  | nil s => have := Run.cons h' (.nil s''); simpa using this
  | cons a b ih => have := Run.cons a (ih h'); simpa [List.append_assoc] using this

/-- What `start_task` with the scan does is what the registrations followed by `start_task` without it
do, but for the place of a new thread's event among the messages. -/
theorem role_refines (s : DS) (hp : s.pc = .running) (h : Nat) (t : Task) (ts hs : List Bp.Item) (tv a : Addr) (cond : Nat → Bool)
    {rs : List (Str × Int × Nat)} (hr : roleRegs ts hs = .ok rs)
    (hok : ∃ x, syncFrames (hostThread s h).1 (hostThread s h).2.1 t = .ok x)
    (hn : (registerAll (if scans (hostThread s h).1 (hostThread s h).2.1 t = true then rs else []) s.dbg).2.2 = none) :
    ∃ os, Run s (regLabels (if scans (hostThread s h).1 (hostThread s h).2.1 t = true then rs else []) ++ [.start h t tv a cond])
        (startTaskRole s h t ts hs tv a cond).1 os ∧ os.Perm (startTaskRole s h t ts hs tv a cond).2 := by
  obtain ⟨⟨s', th⟩, hx⟩ := hok
  have e0 : (if scans (hostThread s h).1 (hostThread s h).2.1 t = true then roleRegs ts hs else .ok []) =
      .ok (if scans (hostThread s h).1 (hostThread s h).2.1 t = true then rs else []) := by split <;> simp [hr]
  generalize hq : (if scans (hostThread s h).1 (hostThread s h).2.1 t = true then rs else []) = qs at e0 hn
  have e1 := startTaskRole_eq s h t ts hs tv a cond
  rw [hx] at e1
  simp only [e0] at e1
  have hd : s'.dbg = s.dbg := (syncFrames_same hx).1.trans (hostThread_same s h).1
  obtain ⟨q1, q2⟩ := registerAll_ok qs s.dbg hn
  rw [hd] at e1
  simp only [hn, q1, q2] at e1
  have h1 := run_regs qs s hp hn
  have h2 : step { s with dbg := (Bp.run s.dbg (qs.map regAct)).1 } (.start h t tv a cond) =
      some ((startTask { s with dbg := (Bp.run s.dbg (qs.map regAct)).1 } h t tv a cond).1, (startTask { s with dbg := (Bp.run s.dbg (qs.map regAct)).1 } h t tv a cond).2) := by
    simp only [step, hp, if_true]
  refine ⟨((Bp.run s.dbg (qs.map regAct)).2.map .bp) ++ (startTask { s with dbg := (Bp.run s.dbg (qs.map regAct)).1 } h t tv a cond).2, ?_, ?_⟩
  · have h3 := run_snoc h1 h2
    have e2 := startTask_eq { s with dbg := (Bp.run s.dbg (qs.map regAct)).1 } h t tv a cond
    rw [hostThread_dbg] at e2
    simp only [syncFrames_dbg, hx, Except.map] at e2
    rw [e1]
    rw [e2] at h3
    rw [e2]
    simp only [hd]
    exact h3
  · have e2 := startTask_eq { s with dbg := (Bp.run s.dbg (qs.map regAct)).1 } h t tv a cond
    rw [hostThread_dbg] at e2
    simp only [syncFrames_dbg, hx, Except.map] at e2
    rw [e1, e2]
    simp only [hd]
    rw [List.append_assoc]
    rw [← List.append_assoc, ← List.append_assoc]
    exact List.Perm.append_right _ List.perm_append_comm

/-! ## The breakpoint part of a run -/

/-- The actions on breakpoints among the steps. -/
def bpActs : List Label → List Bp.Act
  | [] => []
  | .reg p l ty :: ls => .reg p l ty :: bpActs ls
  | .req (.setBps seq src m lines) :: ls => .setBps seq src m lines :: bpActs ls
  | .req (.setExc seq fs) :: ls => .setExc seq fs :: bpActs ls
  | .req (.config ms) :: ls => .config ms :: bpActs ls
  | .req (.disconnect _) :: ls => .disconnect :: bpActs ls
  | .req .terminate :: ls => .disconnect :: bpActs ls
  | .req .closed :: ls => .disconnect :: bpActs ls
  | _ :: ls => bpActs ls

theorem exit_dbg (s : DS) : (exitThreads s).1.dbg = s.dbg := rfl

theorem crash_dbg (s : DS) (o : List Out) (e : PyErr) : (crash s o e).1.dbg = s.dbg := rfl

theorem decideStop_dbg (s : DS) (th : Thread) (t : Task) (c : Nat → Bool) : (decideStop s th t c).1.dbg = s.dbg := by
  unfold decideStop
  (repeat' split) <;> rfl

theorem startTask_dbg (s : DS) (h : Nat) (t : Task) (tv a : Addr) (c : Nat → Bool) : (startTask s h t tv a c).1.dbg = s.dbg := by
  rw [startTask_eq]
  split
  · exact (hostThread_same s h).1
  · rename_i hx
    show (decideStop _ _ _ _).1.dbg = _
    rw [decideStop_dbg]
    exact (syncFrames_same hx).1.trans (hostThread_same s h).1

theorem endAfter_dbg (s : DS) (tid : Nat) (i : Bool) : (endAfter s tid i).1.dbg = s.dbg := by
  unfold endAfter
  split
  · rfl
  · split
    · rfl
    · split
      · rfl
      · split
        · rfl
        · rename_i hx; exact (popFrame_same hx).1

theorem endTask_dbg (s : DS) (h : Nat) (t : Task) (r : Result) (res : Addr) : (endTask s h t r res).1.dbg = s.dbg := by
  unfold endTask
  split
  · rfl
  · split
    · exact endAfter_dbg _ _ _
    · split
      · rfl
      · dsimp only
        split <;> rfl

theorem request_dbg {s : DS} (hi : Inv s) (r : Req) : (request s r).1.dbg = (Bp.run s.dbg (bpActs [.req r])).1 := by
  cases r with
  | cont t b => cases b <;> rfl
  | scopes x y z => exact (getScopes_ext s x y z).dbg
  | variables x => exact (getVariables_ext hi.core x).dbg
  | setVariable x n t => exact (setVariable_ext hi.core x n t).dbg
  | evaluate x e => exact (evaluate_ext s x e).dbg
  | closed => simp only [request]; split <;> rfl
  | _ => rfl

theorem bpActs_cons (l : Label) (ls : List Label) : bpActs (l :: ls) = bpActs [l] ++ bpActs ls := by
  cases l with
  | req r => cases r <;> rfl
  | _ => rfl

theorem bpActs_append (xs ys : List Label) : bpActs (xs ++ ys) = bpActs xs ++ bpActs ys := by
  induction xs with
  | nil => rfl
  | cons l ls ih => rw [List.cons_append, bpActs_cons, ih, bpActs_cons l ls, List.append_assoc]

theorem bp_run_append (xs ys : List Bp.Act) : ∀ d, (Bp.run d (xs ++ ys)).1 = (Bp.run (Bp.run d xs).1 ys).1 := by
  induction xs with
  | nil => intro d; rfl
  | cons x xs ih => intro d; exact ih _

/-- A step changes the breakpoints as its action does. -/
theorem dbg_step {s s' : DS} {l : Label} {o : List Out} (hi : Inv s) (h : step s l = some (s', o)) :
    s'.dbg = (Bp.run s.dbg (bpActs [l])).1 := by
  cases l with
  | start host t tv a c =>
    simp only [step] at h
    split at h
    · rw [fst_eq h]; exact startTask_dbg s host t tv a c
    · cases h
  | done host t r res =>
    simp only [step] at h
    split at h
    · rw [fst_eq h]; exact endTask_dbg s host t r res
    · cases h
  | refresh =>
    simp only [step] at h
    split at h
    · rw [fst_eq h]; rfl
    · cases h
  | newPlay =>
    simp only [step] at h
    split at h
    · rw [fst_eq h]; rfl
    · cases h
  | reg p l ty =>
    simp only [step] at h
    split at h
    · rw [fst_eq h]
      rcases registerLine_cases s p l ty with hr | ⟨e, -, hr⟩ <;> rw [hr] <;> rfl
    · cases h
  | env hp => cases h; rfl
  | wake =>
    simp only [step] at h
    split at h
    · split at h
      · rw [fst_eq h]; rfl
      · split at h
        · cases h
        · split at h
          · rw [fst_eq h]; rfl
          · rw [fst_eq h]; rfl
    · split at h
      · rw [fst_eq h]; rfl
      · split at h
        · cases h
        · rw [fst_eq h]; exact endAfter_dbg _ _ _
    · cases h
  | req r => rw [fst_eq h]; exact request_dbg hi r

/-- **The breakpoints after a run** are those its breakpoint actions lead to. -/
theorem dbg_run {s s' : DS} {ls : List Label} {os : List Out} (hi : Inv s) (h : Run s ls s' os) :
    s'.dbg = (Bp.run s.dbg (bpActs ls)).1 := by
  induction h with
  | nil s => rfl
  | cons h1 h2 ih =>
    rw [ih (inv_step hi h1), bpActs_cons, bp_run_append, dbg_step hi h1]

end Verif.Strat
