import Verif.Strat.Role
import Verif.Props.Strat
import Verif.Props.Bp
/-!
# Included roles (C98)

Model: `Verif.Strat.Role` (`start_task` with the scan of an included role, debug.py:493-604), on top of
`Verif.Strat.State` and `Verif.Bp.Model`. The tasks and handlers of the role are arbitrary trees of
blocks, and so are the history before and the task that begins.
-/

namespace Verif.Props.Strat
open Verif Verif.Strat

/-- The newest frame of the host is one of an include_role, and the task that begins is in a role and
below an include or an explicit block: the case of the tasks of the included role. -/
structure EntersRole (s : DS) (h : Nat) (t : Task) : Prop where
  top : ∃ f top rest, hostStack s h = (f, some top) :: rest ∧ top.node.isRole = true
  below : 2 ≤ t.parents.length
  role : t.inRole = true

/-- The tree has no line with both a task and an explicit block. -/
def NoLineTwice (is : List Bp.Item) : Prop := ∀ p n, Bp.TaskAt is p n → ¬ Bp.BlockAt is p n

/-- Nothing is raised in the scan of a role as long as no kept breakpoint was requested at a negative line. -/
theorem scan_fine {s : DS} (hr : Reachable s) (hk : ∀ b ∈ s.dbg.bps, 0 ≤ b.2.reqLine) {rs : List (Str × Int × Nat)} (hrs : ∀ r ∈ rs, 0 ≤ r.2.1) :
    (registerAll rs s.dbg).2.2 = none := by
  obtain ⟨ls, os, h1⟩ := hr
  refine registerAll_fine rs _ ?_ hk hrs
  rw [dbg_run inv_init h1]
  exact Bp.tables_run _ _ Bp.tables_init

theorem roleRegs_ok (tasks handlers : List Bp.Item) (hok : Bp.TreeOk (tasks ++ handlers)) :
    ∃ rs, roleRegs tasks handlers = .ok rs ∧ ∀ p l t, (p, l, t) ∈ rs ↔
      ∃ n : Nat, l = (n : Int) ∧ ((t = 1 ∧ Bp.TaskAt (tasks ++ handlers) p n) ∨ (t = 0 ∧ Bp.BlockAt (tasks ++ handlers) p n)) := by
  obtain ⟨r1, a1, b1⟩ := Bp.C28_blocks tasks ⟨fun l w => hok.1 l ((Bp.within_append _ _ _).2 (.inl w)), fun l b r a w => hok.2 l b r a ((Bp.within_append _ _ _).2 (.inl w))⟩
  obtain ⟨r2, a2, b2⟩ := Bp.C28_blocks handlers ⟨fun l w => hok.1 l ((Bp.within_append _ _ _).2 (.inr w)), fun l b r a w => hok.2 l b r a ((Bp.within_append _ _ _).2 (.inr w))⟩
  refine ⟨r1 ++ r2, Bp.seqRegs_ok a1 a2, fun p l t => ?_⟩
  rw [List.mem_append, b1, b2]
  simp only [Bp.TaskAt, Bp.BlockAt, Bp.within_append]
  constructor
  · rintro (⟨n, hn, ⟨ht, h⟩ | ⟨ht, b, r, a, h⟩⟩ | ⟨n, hn, ⟨ht, h⟩ | ⟨ht, b, r, a, h⟩⟩)
    · exact ⟨n, hn, .inl ⟨ht, .inl h⟩⟩
    · exact ⟨n, hn, .inr ⟨ht, b, r, a, .inl h⟩⟩
    · exact ⟨n, hn, .inl ⟨ht, .inr h⟩⟩
    · exact ⟨n, hn, .inr ⟨ht, b, r, a, .inr h⟩⟩
  · rintro ⟨n, hn, ⟨ht, h | h⟩ | ⟨ht, b, r, a, h | h⟩⟩
    · exact .inl ⟨n, hn, .inl ⟨ht, h⟩⟩
    · exact .inr ⟨n, hn, .inl ⟨ht, h⟩⟩
    · exact .inl ⟨n, hn, .inr ⟨ht, b, r, a, h⟩⟩
    · exact .inr ⟨n, hn, .inr ⟨ht, b, r, a, h⟩⟩

theorem scans_iff {s : DS} (hi : Inv s) (h : Nat) (t : Task) :
    scans (hostThread s h).1 (hostThread s h).2.1 t = true ↔
      (∃ f top rest, hostStack s h = (f, some top) :: rest ∧ top.node.isRole = true) ∧ 2 ≤ t.parents.length := by
  obtain ⟨c1, h1, -, -⟩ := hostThread_spec hi.core h
  rw [← hostThread_stack]
  unfold scans
  cases hf : (hostThread s h).2.1.frames with
  | nil => simp [viewF]
  | cons f fs =>
    obtain ⟨fr, hfr⟩ := c1.tf h1 (f := f) (by rw [hf]; simp)
    simp only [viewF, hfr, List.map_cons, Option.map_some, List.cons.injEq, Prod.mk.injEq, Option.some.injEq, Bool.and_eq_true, decide_eq_true_eq]
    constructor
    · rintro ⟨a, b⟩; exact ⟨⟨f, fr.task, _, ⟨⟨rfl, rfl⟩, rfl⟩, b⟩, a⟩
    · rintro ⟨⟨f', top, rest, ⟨⟨-, rfl⟩, -⟩, b⟩, a⟩; exact ⟨a, b⟩

theorem enters_sync {s : DS} (hi : Inv s) {h : Nat} {t : Task} (he : EntersRole s h t) :
    ∃ x, syncFrames (hostThread s h).1 (hostThread s h).2.1 t = .ok x := by
  obtain ⟨c1, h1, -, -⟩ := hostThread_spec hi.core h
  have hx := sync_error_iff c1 h1 t
  cases hs : syncFrames (hostThread s h).1 (hostThread s h).2.1 t with
  | ok x => exact ⟨x, rfl⟩
  | error e =>
    obtain ⟨f, top, rest, -, h2 | ⟨-, -, h2⟩⟩ := hx.1 ⟨e, hs⟩
    · have := he.below; rw [h2] at this; simp at this
    · rw [he.role] at h2; cases h2

/-- **C98.** When a task begins on a host whose newest frame is one of an include_role, in a role and
below an include or block, the effect is that of registering exactly the tasks (as possible stops) and
explicit blocks (as none) of the role's tasks and handlers, followed by the task's own start; only a
new thread's event may come earlier among the messages. So everything proved about histories of these
steps holds with the scan. -/
theorem C98_scans_first_partial {s : DS} (hr : Reachable s) (hp : s.pc = .running) (h : Nat) (t : Task) (tasks handlers : List Bp.Item)
    (tv a : Addr) (c : Nat → Bool) (hok : Bp.TreeOk (tasks ++ handlers)) (he : EntersRole s h t)
    (hk : ∀ b ∈ s.dbg.bps, 0 ≤ b.2.reqLine) :
    ∃ (rs : List (Str × Int × Nat)) (os : List Out), (∀ p l ty, (p, l, ty) ∈ rs ↔ ∃ n : Nat, l = (n : Int) ∧
        ((ty = 1 ∧ Bp.TaskAt (tasks ++ handlers) p n) ∨ (ty = 0 ∧ Bp.BlockAt (tasks ++ handlers) p n))) ∧
      Run s (rs.map (fun r => .reg r.1 r.2.1 r.2.2) ++ [.start h t tv a c]) (startTaskRole s h t tasks handlers tv a c).1 os ∧
      os.Perm (startTaskRole s h t tasks handlers tv a c).2 := by
  have hi := reach_inv hr
  obtain ⟨rs, h1, h2⟩ := roleRegs_ok tasks handlers hok
  have hn : (registerAll rs s.dbg).2.2 = none := scan_fine hr hk fun r hm => by
    obtain ⟨n, hn, -⟩ := (h2 r.1 r.2.1 r.2.2).1 hm
    rw [hn]; exact Int.natCast_nonneg n
  obtain ⟨os, h3, h4⟩ := role_refines s hp h t tasks handlers tv a c h1 (enters_sync hi he) (by
    rw [if_pos ((scans_iff hi h t).2 ⟨he.top, he.below⟩)]; exact hn)
  rw [if_pos ((scans_iff hi h t).2 ⟨he.top, he.below⟩)] at h3
  exact ⟨rs, os, h2, h3, h4⟩

/-- **C98.** In every other case nothing is scanned: the role does not matter. -/
theorem C98_scans_only_then {s : DS} (hr : Reachable s) (h : Nat) (t : Task) (tasks handlers : List Bp.Item)
    (tv a : Addr) (c : Nat → Bool) (he : ¬ EntersRole s h t) :
    startTaskRole s h t tasks handlers tv a c = startTask s h t tv a c := by
  have hi := reach_inv hr
  rw [startTaskRole_eq, startTask_eq]
  cases hs : syncFrames (hostThread s h).1 (hostThread s h).2.1 t with
  | error e => rfl
  | ok x =>
    have hn : ¬ scans (hostThread s h).1 (hostThread s h).2.1 t = true := by
      intro hsc
      obtain ⟨h1, h2⟩ := (scans_iff hi h t).1 hsc
      apply he
      refine ⟨h1, h2, ?_⟩
      cases hro : t.inRole with
      | true => rfl
      | false =>
        obtain ⟨c1, g1, -, -⟩ := hostThread_spec hi.core h
        obtain ⟨f, top, rest, e1, e2⟩ := h1
        obtain ⟨e, hx⟩ := (sync_error_iff c1 g1 t).2 ⟨f, top, rest, by rw [hostThread_stack]; exact e1, .inr ⟨h2, e2, hro⟩⟩
        rw [hs] at hx; cases hx
    simp only [hn]
    simp [registerAll]

theorem refresh_told (path : Str) (fl : Bp.FileLines) : ∀ d : Dict Nat Bp.LineBp, ∀ e ∈ (Bp.refresh path fl d).1,
    e ∈ d ∨ Bp.Out.bpChanged e.2.bp ∈ (Bp.refresh path fl d).2.1 := by
  intro d
  induction d with
  | nil => intro e he; exact .inl he
  | cons x rest ih =>
    obtain ⟨k, b⟩ := x
    intro e he
    unfold Bp.refresh at he ⊢
    split at he
    · rename_i hne
      rw [if_pos hne]
      rcases List.mem_cons.1 he with rfl | he
      · exact .inl List.mem_cons_self
      · rcases ih e he with h | h
        · exact .inl (List.mem_cons_of_mem _ h)
        · exact .inr h
    · rename_i hne
      rw [if_neg hne]
      split at he
      · rename_i hc; exact .inl he
      · rename_i bp hc
        cases hd : Bp.differs b.bp bp with
        | true =>
          rw [hd] at he
          simp only [cond_true] at he ⊢
          rcases List.mem_cons.1 he with rfl | he
          · exact .inr List.mem_cons_self
          · rcases ih e he with h | h
            · exact .inl (List.mem_cons_of_mem _ h)
            · exact .inr (List.mem_cons_of_mem _ h)
        | false =>
          rw [hd] at he
          simp only [cond_false] at he ⊢
          rcases List.mem_cons.1 he with rfl | he
          · exact .inl List.mem_cons_self
          · rcases ih e he with h | h
            · exact .inl (List.mem_cons_of_mem _ h)
            · exact .inr h

theorem regs_told (rs : List (Str × Int × Nat)) : ∀ d : Bp.Dbg, ∀ e ∈ (Bp.run d (rs.map regAct)).1.bps,
    e ∈ d.bps ∨ Bp.Out.bpChanged e.2.bp ∈ (Bp.run d (rs.map regAct)).2 := by
  induction rs with
  | nil => intro d e he; exact .inl he
  | cons r rs ih =>
    intro d e he
    rcases ih (Bp.step d (regAct r)).1 e he with h | h
    · have : e ∈ d.bps ∨ Bp.Out.bpChanged e.2.bp ∈ (Bp.step d (regAct r)).2 := by
        simp only [Bp.step, regAct, Bp.register] at h ⊢
        split at h
        · exact .inl h
        · rename_i fl' hreg
          exact refresh_told _ _ _ e h
      rcases this with h | h
      · exact .inl h
      · exact .inr (List.mem_append_left _ h)
    · exact .inr (List.mem_append_right _ h)

theorem known_append (h : List Bp.Act) {rs : List (Str × Int × Nat)} {is : List Bp.Item} (hm : ∀ p l t, (p, l, t) ∈ rs ↔
      ∃ n : Nat, l = (n : Int) ∧ ((t = 1 ∧ Bp.TaskAt is p n) ∨ (t = 0 ∧ Bp.BlockAt is p n))) (hap : NoLineTwice is) (p : Str) (n : Nat) :
    (Bp.TaskAt is p n → Bp.known (Bp.regsOf (h ++ rs.map regAct) p) n = some 1) ∧
    (Bp.BlockAt is p n → Bp.known (Bp.regsOf (h ++ rs.map regAct) p) n = some 0) := by
  have happ : Bp.regsOf (h ++ rs.map regAct) p = Bp.regsOf h p ++ Bp.regsOf (rs.map regAct) p := by
    unfold Bp.regsOf; rw [List.filterMap_append]
  have hmap : Bp.regsOf (rs.map regAct) p = (rs.filter fun r => decide (r.1 = p)).map fun r => (r.2.1.toNat, r.2.2) := Bp.regsOf_map rs p
  have key : ∀ ty, (∃ r ∈ Bp.regsOf (rs.map regAct) p, r.1 = n) → (∀ r ∈ Bp.regsOf (rs.map regAct) p, r.1 = n → r.2 = ty) →
      Bp.known (Bp.regsOf (h ++ rs.map regAct) p) n = some ty := by
    intro ty he hu
    have hk := Bp.known_of_all _ n ty he hu
    rw [happ]
    unfold Bp.known at hk ⊢
    rw [List.filter_append, List.getLast?_append]
    cases hg : ((Bp.regsOf (rs.map regAct) p).filter fun r => decide (r.1 = n)).getLast? with
    | none =>
      have h' : (Bp.regsOf (rs.map regAct) p).filter (fun r => decide (r.1 = n)) = [] := by simpa using hg
      obtain ⟨r, hr, hrl⟩ := he
      have := List.filter_eq_nil_iff.1 h' r hr
      simp [hrl] at this
    | some r => rw [hg] at hk; simpa using hk
  have mem : ∀ r, r ∈ Bp.regsOf (rs.map regAct) p ↔ (r.2 = 1 ∧ Bp.TaskAt is p r.1) ∨ (r.2 = 0 ∧ Bp.BlockAt is p r.1) := by
    intro r
    rw [hmap, List.mem_map]
    constructor
    · rintro ⟨x, hx, rfl⟩
      obtain ⟨hx1, hx2⟩ := List.mem_filter.1 hx
      have hxp : x.1 = p := by simpa using hx2
      obtain ⟨m, hm1, hm2⟩ := (hm x.1 x.2.1 x.2.2).1 hx1
      rw [hxp] at hm2
      simpa [hm1] using hm2
    · intro hr
      exact ⟨(p, (r.1 : Int), r.2), List.mem_filter.2 ⟨(hm p r.1 r.2).2 ⟨r.1, rfl, hr⟩, by simp⟩, by simp⟩
  constructor
  · intro ht
    refine key 1 ⟨(n, 1), (mem _).2 (.inl ⟨rfl, ht⟩), rfl⟩ fun r hr hrn => ?_
    rcases (mem r).1 hr with h | h
    · exact h.1
    · rw [hrn] at h; exact absurd h.2 (hap p n ht)
  · intro hb
    refine key 0 ⟨(n, 0), (mem _).2 (.inr ⟨rfl, hb⟩), rfl⟩ fun r hr hrn => ?_
    rcases (mem r).1 hr with h | h
    · rw [hrn] at h; exact absurd hb (hap p n h.2)
    · exact h.1

/-- The facts about a scan: what it registers, its history and its messages. -/
theorem scan_facts {s : DS} {ls : List Label} {os0 : List Out} (hr : Run {} ls s os0) (hs : ∀ x ∈ bpActs ls, Bp.Sane x)
    (hp : s.pc = .running) (h : Nat) (t : Task) (tasks handlers : List Bp.Item)
    (tv a : Addr) (c : Nat → Bool) (hok : Bp.TreeOk (tasks ++ handlers)) (he : EntersRole s h t) :
    ∃ rs : List (Str × Int × Nat), (∀ p l ty, (p, l, ty) ∈ rs ↔ ∃ n : Nat, l = (n : Int) ∧
        ((ty = 1 ∧ Bp.TaskAt (tasks ++ handlers) p n) ∨ (ty = 0 ∧ Bp.BlockAt (tasks ++ handlers) p n))) ∧
      (∀ x ∈ bpActs ls ++ rs.map regAct, Bp.Sane x) ∧
      (startTaskRole s h t tasks handlers tv a c).1.dbg = (Bp.run {} (bpActs ls ++ rs.map regAct)).1 ∧
      (startTaskRole s h t tasks handlers tv a c).2 = (hostThread s h).2.2 ++ (Bp.run s.dbg (rs.map regAct)).2.map .bp ++
        (match whyStop { s with dbg := (Bp.run s.dbg (rs.map regAct)).1 } (hostThread s h).2.1 t c with
          | none => []
          | some w => [.stopped (hostThread s h).2.1.id (.brk w)]) ∧
      (startTaskRole s h t tasks handlers tv a c).1.pc =
        (match whyStop { s with dbg := (Bp.run s.dbg (rs.map regAct)).1 } (hostThread s h).2.1 t c with
          | none => .running
          | some _ => .waitStart (hostThread s h).2.1.id) ∧
      ∃ th, (startTaskRole s h t tasks handlers tv a c).1.threads.get? (hostThread s h).2.1.id = some th ∧ th.host = some h := by
  have hi := inv_run hr inv_init
  obtain ⟨rs, h1, h2⟩ := roleRegs_ok tasks handlers hok
  have hd : s.dbg = (Bp.run {} (bpActs ls)).1 := dbg_run inv_init hr
  obtain ⟨⟨s', th'⟩, hx⟩ := enters_sync hi he
  have e1 := startTaskRole_eq s h t tasks handlers tv a c
  rw [hx] at e1
  simp only [if_pos ((scans_iff hi h t).2 ⟨he.top, he.below⟩), h1] at e1
  obtain ⟨c1, k1, k2, k3⟩ := hostThread_spec hi.core h
  obtain ⟨c2, g1, g2, g3, g4, g5, g6, g7, g8, g9, -⟩ := sync_ok c1 k1 hx
  obtain ⟨p1, p2, p3, -⟩ := hostThread_pc s h
  have hd' : s'.dbg = s.dbg := g7.trans p2
  have hpc : s'.pc = .running := (syncFrames_same hx).2.trans (p1.trans hp)
  have hid : th'.id = (hostThread s h).2.1.id := by first | exact g1 | exact g2 | exact g3
  have hm : Bp.Mild s.dbg := by rw [hd]; exact Bp.mild_run _ _ Bp.mild_init hs
  have hn : (registerAll rs s.dbg).2.2 = none := registerAll_fine rs _ hm.tables hm.lines fun r hx => by
    obtain ⟨n, hn, -⟩ := (h2 r.1 r.2.1 r.2.2).1 hx
    rw [hn]; exact Int.natCast_nonneg n
  obtain ⟨q1, q2⟩ := registerAll_ok rs s.dbg hn
  rw [hd'] at e1
  simp only [hn, q1, q2] at e1
  generalize hD : Bp.run s.dbg (rs.map regAct) = D at *
  have hw : whyStop (pushFrame { s' with dbg := D.1 } th' t tv a).1 (pushFrame { s' with dbg := D.1 } th' t tv a).2 t c =
      whyStop { s with dbg := D.1 } (hostThread s h).2.1 t c := by
    unfold whyStop
    cases t.path with
    | none => rfl
    | some p =>
      have e1 : bpFor (pushFrame { s' with dbg := D.1 } th' t tv a).1 t c = bpFor { s with dbg := D.1 } t c := bpFor_congr rfl t c
      simp only [e1]
      exact whyBreak_congr g4 g5 _ _
  refine ⟨rs, h2, ?_, ?_, ?_, ?_, ?_⟩
  · intro x hx
    rcases List.mem_append.1 hx with hx | hx
    · exact hs x hx
    · obtain ⟨r, hr, rfl⟩ := List.mem_map.1 hx
      obtain ⟨n, hn, -⟩ := (h2 r.1 r.2.1 r.2.2).1 hr
      simp only [regAct, Bp.Sane, hn]; exact Int.natCast_nonneg n
  · rw [e1]
    simp only
    rw [decideStop_dbg, bp_run_append, ← hd, hD]
    rfl
  · rw [e1, hD]
    simp only
    congr 1
    rw [decideStop_eq, hw]
    cases whyStop { s with dbg := D.1 } (hostThread s h).2.1 t c with
    | none => rfl
    | some w => simp only [List.cons.injEq, Out.stopped.injEq, and_true]; exact hid
  · rw [e1, hD]
    simp only
    rw [decideStop_eq, hw]
    cases whyStop { s with dbg := D.1 } (hostThread s h).2.1 t c with
    | none => exact hpc
    | some w => simp only [Pc.waitStart.injEq]; exact hid
  · rw [e1]
    simp only
    rw [decideStop_eq, hw]
    cases whyStop { s with dbg := D.1 } (hostThread s h).2.1 t c with
    | none => exact ⟨{ th' with frames := s'.nextF :: th'.frames }, by simp [pushFrame, Dict.get?_set, hid], g3.trans k2⟩
    | some w =>
      exact ⟨{ th' with frames := s'.nextF :: th'.frames, stopped := some (t.node, t.parents), state := .wait },
        by simp [pushFrame, Dict.get?_set, hid], g3.trans k2⟩

/-- **C98.** From then on every breakpoint the client had requested at the line of a task or handler of
the role (on a line where no explicit block starts) is verified and at that line, and unless that is
what the client had been told already, an event tells it. -/
theorem C98_breakpoints_verified_partial {s : DS} {ls : List Label} {os0 : List Out} (hr : Run {} ls s os0) (hs : ∀ x ∈ bpActs ls, Bp.Sane x)
    (hp : s.pc = .running) (h : Nat) (t : Task) (tasks handlers : List Bp.Item)
    (tv a : Addr) (c : Nat → Bool) (hok : Bp.TreeOk (tasks ++ handlers)) (hap : NoLineTwice (tasks ++ handlers)) (he : EntersRole s h t)
    (p : Str) (n : Nat) (ht : Bp.TaskAt (tasks ++ handlers) p n) :
    ∀ e ∈ (startTaskRole s h t tasks handlers tv a c).1.dbg.bps, e.2.actualPath = p → e.2.reqLine = (n : Int) →
      e.2.bp.verified = true ∧ e.2.bp.line = some (n : Int) ∧
      (e ∈ s.dbg.bps ∨ Out.bp (.bpChanged e.2.bp) ∈ (startTaskRole s h t tasks handlers tv a c).2) := by
  obtain ⟨rs, h1, h2, h3, h4, -, -⟩ := scan_facts hr hs hp h t tasks handlers tv a c hok he
  intro e hm ha hq
  rw [h3] at hm
  obtain ⟨req, hreq, hsh⟩ := Bp.C22_kept_up_to_date _ h2 e hm
  have hrn : req = n := by rw [hreq] at hq; exact_mod_cast hq
  subst hrn
  rw [ha] at hsh
  have hk := (known_append (bpActs ls) h1 hap p req).1 ht
  have hne : Bp.regsOf (bpActs ls ++ rs.map regAct) p ≠ [] := by
    intro hc
    have hmem : (req, 1) ∈ Bp.regsOf (bpActs ls ++ rs.map regAct) p := by
      unfold Bp.regsOf
      rw [List.filterMap_append, List.mem_append]
      right
      rw [List.mem_filterMap]
      exact ⟨regAct (p, (req : Int), 1), List.mem_map_of_mem ((h1 p req 1).2 ⟨req, rfl, .inl ⟨rfl, ht⟩⟩), by simp [regAct]⟩
    rw [hc] at hmem; cases hmem
  obtain ⟨l, z, s1, s2, s3⟩ := hsh.2 hne
  have hl : l = req := Bp.governs_unique s1.1 ⟨by rw [hk]; simp, Nat.le_refl _, fun i hi hi' => by omega⟩
  subst hl
  refine ⟨by rw [s1.2.2, hk]; simp, s2, ?_⟩
  rw [bp_run_append] at hm
  have hd : s.dbg = (Bp.run {} (bpActs ls)).1 := dbg_run inv_init hr
  rw [← hd] at hm
  rcases regs_told rs s.dbg e hm with h | h
  · exact .inl h
  · right
    rw [h4]
    exact List.mem_append_left _ (List.mem_append_right _ (List.mem_map_of_mem h))

theorem refresh_keeps (path : Str) (fl : Bp.FileLines) : ∀ d : Dict Nat Bp.LineBp, ∀ e ∈ d, ∃ e' ∈ (Bp.refresh path fl d).1,
    e'.2.actualPath = e.2.actualPath ∧ e'.2.reqLine = e.2.reqLine := by
  intro d
  induction d with
  | nil => intro e he; cases he
  | cons x rest ih =>
    obtain ⟨k, b⟩ := x
    intro e he
    unfold Bp.refresh
    split
    · rcases List.mem_cons.1 he with rfl | he
      · exact ⟨_, List.mem_cons_self, rfl, rfl⟩
      · obtain ⟨e', h1, h2⟩ := ih e he
        exact ⟨e', List.mem_cons_of_mem _ h1, h2⟩
    · split
      · exact ⟨e, he, rfl, rfl⟩
      · rename_i bp hc
        cases hd : Bp.differs b.bp bp with
        | true =>
          simp only [cond_true]
          rcases List.mem_cons.1 he with rfl | he
          · exact ⟨_, List.mem_cons_self, rfl, rfl⟩
          · obtain ⟨e', h1, h2⟩ := ih e he
            exact ⟨e', List.mem_cons_of_mem _ h1, h2⟩
        | false =>
          simp only [cond_false]
          rcases List.mem_cons.1 he with rfl | he
          · exact ⟨_, List.mem_cons_self, rfl, rfl⟩
          · obtain ⟨e', h1, h2⟩ := ih e he
            exact ⟨e', List.mem_cons_of_mem _ h1, h2⟩

theorem regs_keep (rs : List (Str × Int × Nat)) : ∀ d : Bp.Dbg, ∀ e ∈ d.bps, ∃ e' ∈ (Bp.run d (rs.map regAct)).1.bps,
    e'.2.actualPath = e.2.actualPath ∧ e'.2.reqLine = e.2.reqLine := by
  induction rs with
  | nil => intro d e he; exact ⟨e, he, rfl, rfl⟩
  | cons r rs ih =>
    intro d e he
    have : ∃ e' ∈ (Bp.step d (regAct r)).1.bps, e'.2.actualPath = e.2.actualPath ∧ e'.2.reqLine = e.2.reqLine := by
      simp only [Bp.step, regAct, Bp.register]
      split
      · exact ⟨e, he, rfl, rfl⟩
      · exact refresh_keeps _ _ _ e he
    obtain ⟨e1, h1, h2, h3⟩ := this
    obtain ⟨e2, g1, g2, g3⟩ := ih (Bp.step d (regAct r)).1 e1 h1
    exact ⟨e2, g1, g2.trans h2, g3.trans h3⟩

/-- **C98.** If the task that begins is itself one of the role's, at a line with a requested breakpoint,
the host is not stepping out and no condition of a breakpoint is false, the host stops at it, although neither the file nor the
line was known when the task was about to begin. -/
theorem C98_first_task_stops_partial {s : DS} {ls : List Label} {os0 : List Out} (hr : Run {} ls s os0) (hs : ∀ x ∈ bpActs ls, Bp.Sane x)
    (hp : s.pc = .running) (h : Nat) (t : Task) (tasks handlers : List Bp.Item)
    (tv a : Addr) (c : Nat → Bool) (hok : Bp.TreeOk (tasks ++ handlers)) (hap : NoLineTwice (tasks ++ handlers)) (he : EntersRole s h t)
    (p : Str) (n : Nat) (h0 : n ≠ 0) (ht : Bp.TaskAt (tasks ++ handlers) p n) (hpath : t.path = some (p, (n : Int)))
    (e : Nat × Bp.LineBp) (hb : e ∈ s.dbg.bps) (hb1 : e.2.actualPath = p) (hb2 : e.2.reqLine = (n : Int)) (hc : ∀ i, c i = true)
    (hout : ∀ k th, s.threads.get? k = some th → th.host = some h → th.state ≠ .stepOut) :
    ∃ tid w, Out.stopped tid (.brk w) ∈ (startTaskRole s h t tasks handlers tv a c).2 ∧
      (startTaskRole s h t tasks handlers tv a c).1.pc = .waitStart tid ∧
      ∃ th, (startTaskRole s h t tasks handlers tv a c).1.threads.get? tid = some th ∧ th.host = some h := by
  obtain ⟨rs, h1, h2, h3, h4, h5, h6⟩ := scan_facts hr hs hp h t tasks handlers tv a c hok he
  have hd : s.dbg = (Bp.run {} (bpActs ls)).1 := dbg_run inv_init hr
  have hk := (known_append (bpActs ls) h1 hap p n).1 ht
  have hne : Bp.getBreakpoint (Bp.run s.dbg (rs.map regAct)).1 p n ≠ none := by
    rw [hd, ← bp_run_append]
    intro hg
    obtain ⟨e', k1, k2, k3⟩ := regs_keep rs s.dbg e hb
    rw [hd, ← bp_run_append] at k1
    exact (Bp.C26_no_stop_iff _ h2 p n h0 (by rw [hk]; simp)).1 hg e' k1
      ⟨k2.trans hb1, n, k3.trans hb2, by rw [hk]; simp, Nat.le_refl _, fun i hi hi' => by omega⟩
  have hst : (hostThread s h).2.1.state ≠ .stepOut := by
    unfold hostThread
    cases hth : threadOf s h with
    | none => simp [addThread]
    | some th =>
      obtain ⟨g1, g2⟩ := threadOf_some (inv_run hr inv_init).core hth
      exact hout _ _ g2 g1
  have hw : ∃ w, whyStop { s with dbg := (Bp.run s.dbg (rs.map regAct)).1 } (hostThread s h).2.1 t c = some w := by
    unfold whyStop bpFor
    simp only [hpath]
    cases hg : Bp.getBreakpoint (Bp.run s.dbg (rs.map regAct)).1 p n with
    | none => exact absurd hg hne
    | some b =>
      simp only [hc, if_true]
      unfold whyBreak
      simp only [ne_eq, hst, not_false_eq_true, if_true]
      (repeat' split) <;> exact ⟨_, rfl⟩
  obtain ⟨w, hw⟩ := hw
  rw [hw] at h4 h5
  exact ⟨_, w, by rw [h4]; simp, h5, h6⟩

/-- The lines of the role are known, as what they are. -/
def Scanned (is : List Bp.Item) (h : List Bp.Act) : Prop :=
  ∀ p n, (Bp.TaskAt is p n → Bp.known (Bp.regsOf h p) n = some 1 ∧ Bp.regsOf h p ≠ []) ∧
    (Bp.BlockAt is p n → Bp.known (Bp.regsOf h p) n = some 0 ∧ Bp.regsOf h p ≠ [])

theorem regs_again (h : List Bp.Act) (hs : ∀ a ∈ h, Bp.Sane a) (is : List Bp.Item) (hsc : Scanned is h) :
    ∀ (rs : List (Str × Int × Nat)), (∀ p l t, (p, l, t) ∈ rs → ∃ n : Nat, l = (n : Int) ∧ ((t = 1 ∧ Bp.TaskAt is p n) ∨ (t = 0 ∧ Bp.BlockAt is p n))) →
      (Bp.run (Bp.run {} h).1 (rs.map regAct)).2 = [] ∧ (Bp.run (Bp.run {} h).1 (rs.map regAct)).1.bps = (Bp.run {} h).1.bps ∧
      ∀ p, Bp.known (Bp.regsOf (h ++ rs.map regAct) p) = Bp.known (Bp.regsOf h p) := by
  intro rs
  induction rs generalizing h with
  | nil => intro _; refine ⟨rfl, rfl, fun p => by simp⟩
  | cons r rs ih =>
    intro hrs
    obtain ⟨n, hn, hr⟩ := hrs r.1 r.2.1 r.2.2 List.mem_cons_self
    have hact : regAct r = .reg r.1 (n : Int) r.2.2 := by unfold regAct; rw [hn]
    have hk : Bp.regsOf h r.1 ≠ [] ∧ Bp.known (Bp.regsOf h r.1) n = some r.2.2 := by
      rcases hr with ⟨h1, h2⟩ | ⟨h1, h2⟩
      · have := (hsc r.1 n).1 h2; exact ⟨this.2, by rw [h1]; exact this.1⟩
      · have := (hsc r.1 n).2 h2; exact ⟨this.2, by rw [h1]; exact this.1⟩
    obtain ⟨a1, a2, -⟩ := Bp.C27_idempotent h hs r.1 n r.2.2 hk.1 hk.2
    have e1 : ∀ p, Bp.regsOf (h ++ [regAct r]) p = Bp.regsOf h p ++ (if r.1 = p then [(n, r.2.2)] else []) := by
      intro p
      unfold Bp.regsOf
      rw [List.filterMap_append, hact]
      congr 1
      simp only [List.filterMap_cons, List.filterMap_nil]
      by_cases hp : r.1 = p <;> simp [hp]
    have e2 : ∀ p, Bp.known (Bp.regsOf (h ++ [regAct r]) p) = Bp.known (Bp.regsOf h p) := by
      intro p
      rw [e1]
      split
      · rename_i hp
        funext m
        by_cases hm : m = n
        · subst hm
          rw [← hp, hk.2]
          unfold Bp.known
          rw [List.filter_append, List.getLast?_append]
          simp
        · unfold Bp.known
          rw [List.filter_append]
          have : (([(n, r.2.2)] : List (Nat × Nat)).filter fun x => decide (x.1 = m)) = [] := by
            simp [Ne.symm hm]
          rw [this, List.append_nil]
      · rw [List.append_nil]
    have hs' : ∀ a ∈ h ++ [regAct r], Bp.Sane a := by
      intro a ha
      rcases List.mem_append.1 ha with ha | ha
      · exact hs a ha
      · rw [List.mem_singleton.1 ha, hact]; exact Int.natCast_nonneg n
    have hsc' : Scanned is (h ++ [regAct r]) := by
      intro p m
      rw [e2]
      have hne : Bp.regsOf h p ≠ [] → Bp.regsOf (h ++ [regAct r]) p ≠ [] := by
        intro hx; rw [e1]; simp [hx]
      exact ⟨fun w => ⟨((hsc p m).1 w).1, hne ((hsc p m).1 w).2⟩, fun w => ⟨((hsc p m).2 w).1, hne ((hsc p m).2 w).2⟩⟩
    obtain ⟨b1, b2, b3⟩ := ih (h ++ [regAct r]) hs' hsc' fun p l t hm => hrs p l t (List.mem_cons_of_mem _ hm)
    have e3 : (Bp.run {} (h ++ [regAct r])).1 = (Bp.step (Bp.run {} h).1 (regAct r)).1 := by rw [bp_run_append]; rfl
    rw [e3] at b1 b2
    rw [hact] at b1 b2
    refine ⟨?_, ?_, ?_⟩
    · show (Bp.step _ (regAct r)).2 ++ _ = _
      rw [hact, a1, b1]; rfl
    · show (Bp.run (Bp.step _ (regAct r)).1 _).1.bps = _
      rw [hact, b2, a2]
    · intro p
      have := b3 p
      rw [List.append_assoc] at this
      rw [show (r :: rs).map regAct = [regAct r] ++ rs.map regAct from rfl, this, e2]

/-- **C98.** After the scan the lines of the role are known (and stay so unless they are registered as
something else). -/
theorem C98_scanned_partial {s : DS} {ls : List Label} {os0 : List Out} (hr : Run {} ls s os0)
    (hp : s.pc = .running) (h : Nat) (t : Task) (tasks handlers : List Bp.Item)
    (tv a : Addr) (c : Nat → Bool) (hok : Bp.TreeOk (tasks ++ handlers)) (hap : NoLineTwice (tasks ++ handlers)) (he : EntersRole s h t)
    (hk : ∀ b ∈ s.dbg.bps, 0 ≤ b.2.reqLine) :
    ∃ ls' os, Run {} (ls ++ ls') (startTaskRole s h t tasks handlers tv a c).1 os ∧ Scanned (tasks ++ handlers) (bpActs (ls ++ ls')) := by
  obtain ⟨rs, os, h1, h2, -⟩ := C98_scans_first_partial ⟨_, _, hr⟩ hp h t tasks handlers tv a c hok he hk
  refine ⟨_, os0 ++ os, run_append hr h2, ?_⟩
  have e1 : ∀ rs : List (Str × Int × Nat), bpActs (rs.map fun r => Label.reg r.1 r.2.1 r.2.2) = rs.map regAct := by
    intro rs
    induction rs with
    | nil => rfl
    | cons r rs ih => rw [List.map_cons, List.map_cons, ← ih]; rfl
  rw [bpActs_append, bpActs_append, e1]
  have e2 : bpActs [Label.start h t tv a c] = [] := rfl
  rw [e2, List.append_nil]
  intro p n
  have hk := known_append (bpActs ls) h1 hap p n
  have hne : ∀ ty, (p, (n : Int), ty) ∈ rs → Bp.regsOf (bpActs ls ++ rs.map regAct) p ≠ [] := by
    intro ty hm hc
    have hmem : (n, ty) ∈ Bp.regsOf (bpActs ls ++ rs.map regAct) p := by
      unfold Bp.regsOf
      rw [List.filterMap_append, List.mem_append]
      right
      rw [List.mem_filterMap]
      exact ⟨regAct (p, (n : Int), ty), List.mem_map_of_mem hm, by simp [regAct]⟩
    rw [hc] at hmem; cases hmem
  exact ⟨fun w => ⟨hk.1 w, hne 1 ((h1 _ _ _).2 ⟨n, rfl, .inl ⟨rfl, w⟩⟩)⟩, fun w => ⟨hk.2 w, hne 0 ((h1 _ _ _).2 ⟨n, rfl, .inr ⟨rfl, w⟩⟩)⟩⟩

/-- **C98.** Every further task of the role scans it again. That changes no breakpoint and sends the
client nothing about them. -/
theorem C98_rescan_is_silent_partial {s : DS} {ls : List Label} {os0 : List Out} (hr : Run {} ls s os0) (hs : ∀ x ∈ bpActs ls, Bp.Sane x)
    (hp : s.pc = .running) (h : Nat) (t : Task) (tasks handlers : List Bp.Item)
    (tv a : Addr) (c : Nat → Bool) (hok : Bp.TreeOk (tasks ++ handlers)) (he : EntersRole s h t)
    (hsc : Scanned (tasks ++ handlers) (bpActs ls)) :
    (startTaskRole s h t tasks handlers tv a c).1.dbg.bps = s.dbg.bps ∧
      (∀ o, Out.bp o ∉ (startTaskRole s h t tasks handlers tv a c).2) := by
  obtain ⟨rs, h1, h2, h3, h4, -, -⟩ := scan_facts hr hs hp h t tasks handlers tv a c hok he
  have hd : s.dbg = (Bp.run {} (bpActs ls)).1 := dbg_run inv_init hr
  obtain ⟨a1, a2, -⟩ := regs_again (bpActs ls) hs _ hsc rs fun p l t hm => (h1 p l t).1 hm
  refine ⟨by rw [h3, bp_run_append, a2, hd], fun o ho => ?_⟩
  rw [h4, hd, a1] at ho
  simp only [List.map_nil, List.append_nil, List.mem_append] at ho
  rcases ho with ho | ho
  · obtain ⟨k, hk⟩ := hostThread_out s h _ ho; cases hk
  · split at ho <;> simp at ho

/-! ## An example: a breakpoint in a role that is included later -/

/-- The include_role task of a play. -/
def inclRole : Task :=
  { node := { uuid := 60, isTask := true, isInclude := true, hasRescue := false, isRole := true }, parents := [blk 900], path := some (py!"a.yml", 2) }
/-- The first task of the role. -/
def roleTask : Task := { node := ordi 61, parents := [blk 902, inclRole.node, blk 900], path := some (py!"r.yml", 3), inRole := true }
/-- The blocks of its tasks, with an explicit block at line 5, and of its handlers. -/
def roleTasks : List Bp.Item :=
  [.block none [.task (some (Bp.pathText py!"r.yml" 3)), .block (some (Bp.pathText py!"r.yml" 5)) [.task (some (Bp.pathText py!"r.yml" 6))] [] []] [] []]
def roleHandlers : List Bp.Item := [.block none [.task (some (Bp.pathText py!"h.yml" 1))] [] []]
/-- A breakpoint is requested in the role before it is included. -/
def beforeRole : List Label :=
  [.req (.setBps 1 { name := none, path := some py!"r.yml" } false [3]), .start 7 inclRole 0 0 yes, .done 7 inclRole fine 0]

theorem beforeRole_runs : Run {} beforeRole (stF {} beforeRole) (ouF {} beforeRole) := run_of (by decide +kernel)

theorem beforeRole_enters : EntersRole (stF {} beforeRole) 7 roleTask :=
  ⟨⟨1, inclRole, [], by decide +kernel, rfl⟩, by decide, rfl⟩

theorem role_tasks (p : Str) (n : Nat) : Bp.TaskAt (roleTasks ++ roleHandlers) p n ↔
    Bp.pathText p n = Bp.pathText py!"r.yml" 3 ∨ Bp.pathText p n = Bp.pathText py!"r.yml" 6 ∨ Bp.pathText p n = Bp.pathText py!"h.yml" 1 := by
  simp [Bp.TaskAt, roleTasks, roleHandlers, Bp.within_cons _ _ (_ :: _), Bp.within_task, Bp.within_block, Bp.within_nil, or_assoc]

theorem role_blocks (p : Str) (n : Nat) : Bp.BlockAt (roleTasks ++ roleHandlers) p n ↔ Bp.pathText p n = Bp.pathText py!"r.yml" 5 := by
  simp [Bp.BlockAt, roleTasks, roleHandlers, Bp.within_cons _ _ (_ :: _), Bp.within_task, Bp.within_block, Bp.within_nil]

theorem role_treeOk : Bp.TreeOk (roleTasks ++ roleHandlers) := by
  constructor
  · intro loc w
    simp [roleTasks, roleHandlers, Bp.within_cons _ _ (_ :: _), Bp.within_task, Bp.within_block, Bp.within_nil] at w
    rcases w with (rfl | rfl) | rfl <;> exact .inr (.inr ⟨_, _, rfl⟩)
  · intro loc b r a w
    simp [roleTasks, roleHandlers, Bp.within_cons _ _ (_ :: _), Bp.within_task, Bp.within_block, Bp.within_nil] at w
    rcases w with (w | w) | w
    · exact .inl w.1
    · exact .inr (.inr ⟨_, _, w.1⟩)
    · exact .inl w.1

theorem role_apart : NoLineTwice (roleTasks ++ roleHandlers) := by
  intro p n ht hb
  rw [role_tasks] at ht
  rw [role_blocks] at hb
  rw [hb] at ht
  revert ht
  decide +kernel

/-- All hypotheses hold, the breakpoint at line 3 was unverified, and afterwards it is verified and the
host waits at it. -/
example : Run {} beforeRole (stF {} beforeRole) (ouF {} beforeRole) ∧ (∀ x ∈ bpActs beforeRole, Bp.Sane x) ∧ (stF {} beforeRole).pc = .running ∧
    EntersRole (stF {} beforeRole) 7 roleTask ∧ Bp.TreeOk (roleTasks ++ roleHandlers) ∧ NoLineTwice (roleTasks ++ roleHandlers) ∧
    Bp.TaskAt (roleTasks ++ roleHandlers) py!"r.yml" 3 ∧
    (∀ k th, (stF {} beforeRole).threads.get? k = some th → th.host = some 7 → th.state ≠ .stepOut) ∧
    ((stF {} beforeRole).dbg.bps.map fun e => (e.2.reqLine, e.2.bp.verified)) = [(3, false)] := by
  refine ⟨beforeRole_runs, ?_, by decide +kernel, beforeRole_enters, role_treeOk, role_apart, (role_tasks _ _).2 (.inl rfl), ?_, by decide +kernel⟩
  · simp [beforeRole, bpActs, Bp.Sane]
  · intro k th hk _
    have e : (stF {} beforeRole).threads = [(1, { id := 1 }), (2, { id := 2, host := some 7, frames := [1] })] := by decide +kernel
    rw [e] at hk
    simp only [Dict.get?] at hk
    (repeat' (split at hk)) <;> first | (cases hk; simp; done) | cases hk

example : (startTaskRole (stF {} beforeRole) 7 roleTask roleTasks roleHandlers 0 0 yes).1.pc = .waitStart 2 := by decide +kernel

theorem role_regs : roleRegs roleTasks roleHandlers = .ok [(py!"r.yml", 3, 1), (py!"r.yml", 5, 0), (py!"r.yml", 6, 1), (py!"h.yml", 1, 1)] := by
  have h : ∀ p l, Bp.locReg (some (Bp.pathText p l)) 1 = .ok [(p, (l : Int), 1)] := fun p l => by
    unfold Bp.locReg; rw [Bp.truthy_pathText]; simp only [Bp.split_pathText]
  have h' : ∀ p l, Bp.locReg (some (Bp.pathText p l)) 0 = .ok [(p, (l : Int), 0)] := fun p l => by
    unfold Bp.locReg; rw [Bp.truthy_pathText]; simp only [Bp.split_pathText]
  have hn : ∀ t, Bp.locReg none t = .ok [] := fun _ => rfl
  simp [roleRegs, roleTasks, roleHandlers, Bp.blockRegs, Bp.itemRegs, Bp.itemsRegs, h, h', hn, Bp.seqRegs]

/-- The first task of the role is over. -/
def inRoleRun : List Label :=
  beforeRole ++ ([(py!"r.yml", 3, 1), (py!"r.yml", 5, 0), (py!"r.yml", 6, 1), (py!"h.yml", 1, 1)] : List (Str × Int × Nat)).map (fun r => .reg r.1 r.2.1 r.2.2) ++
    [.start 7 roleTask 0 0 yes, .req (.cont 2 true), .wake, .done 7 roleTask fine 0]

/-- The second task of the role begins in a state where the role was scanned. -/
example : Run {} inRoleRun (stF {} inRoleRun) (ouF {} inRoleRun) ∧ (stF {} inRoleRun).pc = .running ∧
    EntersRole (stF {} inRoleRun) 7 { roleTask with path := some (py!"r.yml", 6) } ∧ Scanned (roleTasks ++ roleHandlers) (bpActs inRoleRun) := by
  refine ⟨run_of (by decide +kernel), by decide +kernel, ⟨⟨1, inclRole, [], by decide +kernel, rfl⟩, by decide, rfl⟩, ?_⟩
  obtain ⟨rs, h1, h2⟩ := roleRegs_ok roleTasks roleHandlers role_treeOk
  rw [role_regs] at h1
  injection h1 with h1
  rw [← h1] at h2
  have hb : bpActs inRoleRun = bpActs beforeRole ++ ([(py!"r.yml", 3, 1), (py!"r.yml", 5, 0), (py!"r.yml", 6, 1), (py!"h.yml", 1, 1)] : List (Str × Int × Nat)).map regAct := rfl
  rw [hb]
  intro p n
  have hk := known_append (bpActs beforeRole) h2 role_apart p n
  refine ⟨fun w => ⟨hk.1 w, fun hc => ?_⟩, fun w => ⟨hk.2 w, fun hc => ?_⟩⟩
  · have := hk.1 w
    rw [hc] at this
    simp [Bp.known] at this
  · have := hk.2 w
    rw [hc] at this
    simp [Bp.known] at this
    rw [role_blocks, this] at w
    have h3 := Bp.split_pathText p 0
    rw [w, Bp.split_pathText] at h3
    injection h3 with h3
    simp at h3

/-- A role with a block and its task on one line, `- block: [{debug: }]`. -/
def inlineBlock : List Bp.Item :=
  [.block none [.block (some (Bp.pathText py!"r.yml" 3)) [.task (some (Bp.pathText py!"r.yml" 3))] [] []] [] []]

/-- Why `NoLineTwice` is needed: with a block and its task on the same line every scan of the role, of a state
where it was scanned already, tells the client that the breakpoint there is unverified and then that it
is verified again. -/
theorem C98_inline_block_refuted :
    ∃ s, Reachable s ∧ EntersRole s 7 { roleTask with path := none } ∧
      ((startTaskRole s 7 { roleTask with path := none } inlineBlock [] 0 0 yes).2.map fun | .bp (.bpChanged b) => some b.verified | _ => none) =
        [some false, some true] := by
  refine ⟨stF {} (beforeRole ++ [.reg py!"r.yml" 3 0, .reg py!"r.yml" 3 1]), ⟨_, _, run_of (by decide +kernel)⟩,
    ⟨⟨1, inclRole, [], by decide +kernel, rfl⟩, by decide, rfl⟩, by decide +kernel⟩

end Verif.Props.Strat
