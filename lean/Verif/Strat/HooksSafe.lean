import Verif.Strat.HooksOrder
import Verif.Strat.Nested
import Verif.Strat.From
import Verif.Strat.Role
/-!
# The debugger does not fail the play
-/

namespace Verif.Strat.Hooks
open Verif Verif.Strat

/-- The host has a thread with a frame. -/
def Framed (s : DS) (h : Nat) : Prop := ∃ k L, view s k = some (some h, L) ∧ L ≠ []

/-- The hosts that a result is expected for. -/
def need (F : List (Nat × Task)) (c : Cont) : List Nat := F.map (·.1) ++ (todo c).map (·.1)

theorem framed_thread {s : DS} (c : s.core) {h : Nat} (hf : Framed s h) :
    ∃ th, threadOf s h = some th ∧ s.threads.get? th.id = some th ∧ th.frames ≠ [] := by
  obtain ⟨k, L, hv, hL⟩ := hf
  obtain ⟨th, h1, h2, h3, h4⟩ := view_host c hv
  refine ⟨th, h1, (threadOf_some c h1).2, ?_⟩
  intro e
  apply hL
  rw [h4, e]; rfl

theorem endAfter_nocrash {s : DS} (c : s.core) {tid : Nat} {th : Thread} (ht : s.threads.get? tid = some th) (hf : th.frames ≠ []) (inc : Bool) (e : PyErr) :
    (endAfter s tid inc).1.pc ≠ .crashed e := by
  unfold endAfter
  rw [ht]
  simp only
  split
  · simp [finish]
  · split
    · simp
    · cases hff : th.frames with
      | nil => exact absurd hff hf
      | cons f fs =>
        obtain ⟨s', g0, -⟩ := popFrame_ok c (th := th) (by rw [(c.tid ht).1]; exact ht) hff
        rw [g0]; simp

theorem done_nocrash {s : DS} (hi : Inv s) {h : Nat} (hf : Framed s h) (t : Task) (r : Result) (res : Addr) (e : PyErr) :
    (endTask s h t r res).1.pc ≠ .crashed e := by
  obtain ⟨th, h1, h2, h3⟩ := framed_thread hi.core hf
  unfold endTask
  rw [h1]
  simp only
  split
  · exact endAfter_nocrash hi.core h2 h3 _ _
  · split
    · rename_i hn; exact absurd hn h3
    · rename_i f fs hff
      obtain ⟨fr, hfr⟩ := hi.core.tf h2 (f := f) (by rw [hff]; simp)
      simp only [hfr]
      simp

theorem start_nocrash {s : DS} (hi : Inv s) (hp : s.pc = .running) (h : Nat) {t : Task} (ht : ¬ CannotBegin s h t) (tv a : Addr) (c : Nat → Bool) :
    ¬ Over (startTask s h t tv a c).1 := by
  have hst : step s (.start h t tv a c) = some (startTask s h t tv a c) := by simp only [step, hp, if_true]
  have hf : ¬ Failed (startTask s h t tv a c).1 := fun hf => ht ((start_fails_iff hi (o := (startTask s h t tv a c).2) hst).1 hf)
  obtain ⟨p, hsy⟩ := sync_fine hi (o := (startTask s h t tv a c).2) hst hf
  rcases start_spec hi hp h t tv a c with ⟨e, h2, -⟩ | ⟨s1, th1, -, -, -, -, h5, -⟩
  · rw [hsy] at h2; cases h2
  · rintro (ho | ⟨e, ho⟩) <;> (rw [h5] at ho; split at ho <;> cases ho)

/-- The include_roles on the stacks are those that began on the host. -/
def RolesOf (R : Nat → Prop) (s : DS) : Prop := Frames (fun h x => ∀ t, x = some t → t.node.isRole = true → R h) s

/-- `RolesOnly`, given the hosts on which an include_role began already. -/
def RolesAfter (R : Nat → Prop) : List Lbl → Prop
  | [] => True
  | l :: ls => (∀ h t, beginsL l = some (h, t) → R h → t.inRole = true ∨ t.parents.length ≤ 1) ∧
      RolesAfter (fun h => R h ∨ ∃ t, beginsL l = some (h, t) ∧ t.node.isRole = true) ls

theorem rolesAfter_of {R : Nat → Prop} {ls : List Lbl} (h1 : ∀ l ∈ ls, ∀ h t, beginsL l = some (h, t) → R h → t.inRole = true ∨ t.parents.length ≤ 1)
    (h2 : RolesOnly ls) : RolesAfter R ls := by
  induction ls generalizing R with
  | nil => trivial
  | cons l ls ih =>
    refine ⟨fun h t => h1 l (by simp) h t, ih ?_ ?_⟩
    · intro l' hl' h t hb hR
      rcases hR with hR | ⟨inc, g1, g2⟩
      · exact h1 l' (by simp [hl']) h t hb hR
      · exact h2 [] l ls h inc rfl g1 g2 l' hl' t hb
    · intro a l1 b h inc e
      exact h2 (l :: a) l1 b h inc (by rw [e]; rfl)

theorem rolesOnly_pre {a b : List Lbl} (h : RolesOnly (a ++ b)) : RolesOnly a := by
  intro x l y hst inc e hb hr l' hl' t ht
  exact h x l (y ++ b) hst inc (by rw [e]; simp) hb hr l' (by simp [hl']) t ht

theorem hstep_begins {s s' : HS} {l : Lbl} {e : List Ev} (h : hstep s l = some (s', e)) :
    (∃ dl o, step s.ds dl = some (s'.ds, o) ∧ ∀ hst t tv ar c, dl = .start hst t tv ar c → beginsL l = some (hst, t)) ∨ s'.ds = s.ds := by
  have key : ∀ {dl : Label} {c : Cont} {evs : List Ev}, dsStep s dl c evs = some (s', e) →
      (∀ hst t tv ar c, dl = .start hst t tv ar c → beginsL l = some (hst, t)) →
      (∃ dl o, step s.ds dl = some (s'.ds, o) ∧ ∀ hst t tv ar c, dl = .start hst t tv ar c → beginsL l = some (hst, t)) := by
    intro dl c evs hd hl
    obtain ⟨o, h1, -, -⟩ := dsStep_some hd
    exact ⟨dl, o, h1, hl⟩
  cases l with
  | queueTask hst t tv ar c =>
    simp only [hstep] at h; split at h
    · exact .inl (key h (by intro _ _ _ _ _ hr; cases hr; rfl))
    · cases h
  | executeMeta hst t tv ar c r a =>
    simp only [hstep] at h; split at h
    · exact .inl (key h (by intro _ _ _ _ _ hr; cases hr; rfl))
    · cases h
  | pendingResults rs =>
    simp only [hstep] at h; split at h
    · cases h; exact .inr rfl
    · cases h
  | loaded p ln ty =>
    simp only [hstep] at h; split at h
    · exact .inl (key h (by intro _ _ _ _ _ hr; cases hr))
    · cases h
  | runEnds n =>
    simp only [hstep] at h; split at h
    · rename_i hp
      cases h
      exact .inl ⟨.refresh, (exitThreads s.ds).2, (by simp [step, hp.2]), (by intro _ _ _ _ _ hr; cases hr)⟩
    · cases h
  | runRaises x =>
    simp only [hstep] at h; split at h
    · rename_i hp
      cases h
      exact .inl ⟨.refresh, (exitThreads s.ds).2, (by simp [step, hp.2]), (by intro _ _ _ _ _ hr; cases hr)⟩
    · cases h
  | go =>
    simp only [hstep, goOn] at h; split at h
    · cases h
    · split at h
      · cases h; exact .inr rfl
      · cases h; exact .inr rfl
      · split at h
        · exact .inl (key h (by intro _ _ _ _ _ hr; cases hr))
        · exact .inl (key h (by intro _ _ _ _ _ hr; cases hr))
      · cases h; exact .inr rfl
      · exact .inl (key h (by intro _ _ _ _ _ hr; cases hr))
      · cases h
      · cases h
  | unwind =>
    simp only [hstep, unwindRun] at h; split at h
    · cases h
    · split at h
      · cases h; exact .inr rfl
      · cases h; exact .inr rfl
      · cases h
  | wake => simp only [hstep] at h; exact .inl (key h (by intro _ _ _ _ _ hr; cases hr))
  | env hp => simp only [hstep] at h; exact .inl (key h (by intro _ _ _ _ _ hr; cases hr))
  | req r => simp only [hstep] at h; exact .inl (key h (by intro _ _ _ _ _ hr; cases hr))

theorem hstep_acts {s s' : HS} {l : Lbl} {e : List Ev} (h : hstep s l = some (s', e)) :
    (∃ dl o, step s.ds dl = some (s'.ds, o) ∧ (bpActs [dl] = [] ∨ (∃ p n ty, l = .loaded p n ty ∧ dl = .reg p n ty) ∨ ∃ r, l = .req r ∧ dl = .req r)) ∨ s'.ds = s.ds := by
  have key : ∀ {dl : Label} {c : Cont} {evs : List Ev}, dsStep s dl c evs = some (s', e) →
      (bpActs [dl] = [] ∨ (∃ p n ty, l = .loaded p n ty ∧ dl = .reg p n ty) ∨ ∃ r, l = .req r ∧ dl = .req r) →
      (∃ dl o, step s.ds dl = some (s'.ds, o) ∧ (bpActs [dl] = [] ∨ (∃ p n ty, l = .loaded p n ty ∧ dl = .reg p n ty) ∨ ∃ r, l = .req r ∧ dl = .req r)) := by
    intro dl c evs hd hl
    obtain ⟨o, h1, -, -⟩ := dsStep_some hd
    exact ⟨dl, o, h1, hl⟩
  cases l with
  | queueTask hst t tv ar c =>
    simp only [hstep] at h; split at h
    · exact .inl (key h (.inl rfl))
    · cases h
  | executeMeta hst t tv ar c r a =>
    simp only [hstep] at h; split at h
    · exact .inl (key h (.inl rfl))
    · cases h
  | pendingResults rs =>
    simp only [hstep] at h; split at h
    · cases h; exact .inr rfl
    · cases h
  | loaded p ln ty =>
    simp only [hstep] at h; split at h
    · exact .inl (key h (.inr (.inl ⟨_, _, _, rfl, rfl⟩)))
    · cases h
  | runEnds n =>
    simp only [hstep] at h; split at h
    · rename_i hp
      cases h
      exact .inl ⟨.refresh, (exitThreads s.ds).2, (by simp [step, hp.2]), (.inl rfl)⟩
    · cases h
  | runRaises x =>
    simp only [hstep] at h; split at h
    · rename_i hp
      cases h
      exact .inl ⟨.refresh, (exitThreads s.ds).2, (by simp [step, hp.2]), (.inl rfl)⟩
    · cases h
  | go =>
    simp only [hstep, goOn] at h; split at h
    · cases h
    · split at h
      · cases h; exact .inr rfl
      · cases h; exact .inr rfl
      · split at h
        · exact .inl (key h (.inl rfl))
        · exact .inl (key h (.inl rfl))
      · cases h; exact .inr rfl
      · exact .inl (key h (.inl rfl))
      · cases h
      · cases h
  | unwind =>
    simp only [hstep, unwindRun] at h; split at h
    · cases h
    · split at h
      · cases h; exact .inr rfl
      · cases h; exact .inr rfl
      · cases h
  | wake => simp only [hstep] at h; exact .inl (key h (.inl rfl))
  | env hp => simp only [hstep] at h; exact .inl (key h (.inl rfl))
  | req r => simp only [hstep] at h; exact .inl (key h (.inr (.inr ⟨_, rfl, rfl⟩)))

theorem hstep_mild {s s' : HS} {l : Lbl} {e : List Ev} (hi : Inv s.ds) (hm : Bp.Mild s.ds.dbg) (hl : LinesFine l) (h : hstep s l = some (s', e)) :
    Bp.Mild s'.ds.dbg := by
  rcases hstep_acts h with ⟨dl, o, h1, h2⟩ | h1
  · rw [dbg_step hi h1]
    refine Bp.mild_run _ _ hm ?_
    rcases h2 with h2 | ⟨p, n, ty, rfl, rfl⟩ | ⟨r, rfl, rfl⟩
    · rw [h2]; intro a ha; cases ha
    · intro a ha; rw [List.mem_singleton.1 ha]; exact hl
    · intro a ha
      cases r with
      | setBps seq src m lines => rw [List.mem_singleton.1 ha]; exact hl
      | setExc seq fs => rw [List.mem_singleton.1 ha]; trivial
      | config ms => rw [List.mem_singleton.1 ha]; trivial
      | disconnect x => rw [List.mem_singleton.1 ha]; trivial
      | terminate => rw [List.mem_singleton.1 ha]; trivial
      | closed => rw [List.mem_singleton.1 ha]; trivial
      | _ => cases ha
  · rw [h1]; exact hm

theorem roles_step {R : Nat → Prop} {s s' : HS} {l : Lbl} {e : List Ev} (hi : Inv s.ds) (hm : Over s.ds → OnlyMain s.ds) (hR : RolesOf R s.ds)
    (h : hstep s l = some (s', e)) :
    RolesOf (fun h => R h ∨ ∃ t, beginsL l = some (h, t) ∧ t.node.isRole = true) s'.ds ∧ (Over s'.ds → OnlyMain s'.ds) := by
  have hR' : RolesOf (fun h => R h ∨ ∃ t, beginsL l = some (h, t) ∧ t.node.isRole = true) s.ds :=
    fun k hst L hv x hx t ht hr => .inl (hR k hst L hv x hx t ht hr)
  rcases hstep_begins h with ⟨dl, o, h1, h2⟩ | h1
  · refine ⟨frames_step hi hR' h1 hm ?_, main_step hi h1 hm⟩
    intro hst t tv a c hdl t' ht' hr
    cases ht'
    exact .inr ⟨t, h2 hst t tv a c hdl, hr⟩
  · rw [h1]; exact ⟨hR', hm⟩

/-- A task that stands in a block, and in a role after an include_role, can begin. -/
theorem can_begin {R : Nat → Prop} {s : DS} (hi : Inv s) (hR : RolesOf R s) {h : Nat} {t : Task} (hp : t.parents ≠ [])
    (hr : R h → t.inRole = true ∨ t.parents.length ≤ 1) : ¬ CannotBegin s h t := by
  rintro ⟨f, top, rest, h1, h2 | ⟨h2, h3, h4⟩⟩
  · exact hp h2
  · rcases hostStack_view hi.core h with e | ⟨k, e⟩
    · rw [e] at h1; cases h1
    · have := hR k h _ e (f, some top) (by rw [h1]; simp) top rfl h3
      rcases hr this with g | g
      · rw [h4] at g; cases g
      · omega

/-- What is kept true while Ansible keeps its promises. -/
structure Safe (F : List (Nat × Task)) (s : HS) : Prop where
  nocrash : ∀ e, s.ds.pc ≠ .crashed e
  framed : ¬ Over s.ds → s.cont ≠ .over → ∀ h ∈ need F s.cont, Framed s.ds h
  nd : ((todo s.cont).map (·.1)).Nodup
  dj : ∀ h ∈ (todo s.cont).map (·.1), h ∉ F.map (·.1)
  wait : ∀ tid inc, s.ds.pc = .waitEnd tid inc → ∀ h ∈ need F s.cont, ∀ L, view s.ds tid ≠ some (some h, L)
  refr : ∀ h t a, s.cont = .metaStarted h t true a ∨ s.cont = .metaRan h t true a → F = []

/-- A step that leaves the stacks and the place of the play alone. -/
theorem safe_same {F : List (Nat × Task)} {s s' : HS} (hs : Safe F s) (hc : s'.cont = s.cont)
    (hv : ∀ k, view s'.ds k = view s.ds k) (hp : s'.ds.pc = s.ds.pc) : Safe F s' where
  nocrash := by rw [hp]; exact hs.nocrash
  framed := by
    intro ho hn h hh
    rw [hc] at hn hh
    obtain ⟨k, L, h1, h2⟩ := hs.framed (by unfold Over at ho ⊢; rw [hp] at ho; exact ho) hn h hh
    exact ⟨k, L, by rw [hv]; exact h1, h2⟩
  nd := by rw [hc]; exact hs.nd
  dj := by rw [hc]; exact hs.dj
  wait := by intro tid inc hw h hh L; rw [hc] at hh; rw [hp] at hw; rw [hv]; exact hs.wait tid inc hw h hh L
  refr := by intro h t a hh; rw [hc] at hh; exact hs.refr h t a hh

theorem start_safe {F : List (Nat × Task)} {s s' : HS} {h : Nat} {t : Task} {tv ar : Addr} {c : Nat → Bool} {o : List Out}
    (hi : Inv s.ds) (hs : Safe F s) (hc : s.cont = .ansible) (hst : step s.ds (.start h t tv ar c) = some (s'.ds, o)) (ht : ¬ CannotBegin s.ds h t)
    (hF : ∀ t', (h, t') ∉ F) {G : List (Nat × Task)} (hn : ∀ x ∈ need G s'.cont, x = h ∨ x ∈ F.map (·.1))
    (hnd : ((todo s'.cont).map (·.1)).Nodup) (hdj : ∀ x ∈ (todo s'.cont).map (·.1), x ∉ G.map (·.1))
    (hre : ∀ h t a, s'.cont = .metaStarted h t true a ∨ s'.cont = .metaRan h t true a → G = []) : Safe G s' := by
  have hp : s.ds.pc = .running := by
    simp only [step] at hst; split at hst
    · assumption
    · cases hst
  have hst' := hst
  simp only [step, hp, if_true] at hst'
  have hds := fst_eq hst'
  have hno := start_nocrash hi hp h ht tv ar c
  obtain ⟨v1, v2, -⟩ := view_start hi hp h t tv ar c hno
  rw [← hds] at hno v1 v2
  refine ⟨fun e he => hno (.inr ⟨e, he⟩), ?_, hnd, hdj, ?_, hre⟩
  · intro _ _ x hx
    rcases hn x hx with rfl | hx
    · exact ⟨_, _, v2, by simp⟩
    · have hxh : x ≠ h := by
        rintro rfl
        obtain ⟨⟨a, b⟩, hm, rfl⟩ := List.mem_map.1 hx
        exact hF b hm
      have hov : ¬ Over s.ds := by rintro (e | ⟨x, e⟩) <;> (rw [hp] at e; cases e)
      obtain ⟨k, L, h1, h2⟩ := hs.framed hov (by rw [hc]; simp) x (by simp only [need, List.mem_append]; exact .inl hx)
      by_cases hk : k = (hostThread s.ds h).2.1.id
      · exfalso
        obtain ⟨L', h3⟩ := host_stays hi hst (by simp [Removes]) hno h1
        rw [hk, v2] at h3
        simp only [Option.some.injEq, Prod.mk.injEq] at h3
        exact hxh h3.1.symm
      · exact ⟨k, L, by rw [v1 k hk]; exact h1, h2⟩
  · intro tid inc hw
    exfalso
    rcases start_spec hi hp h t tv ar c with ⟨e, h1, h2⟩ | ⟨s1, th1, -, -, -, -, h5, -⟩
    · rw [h2] at hds; exact hno (by rw [hds]; exact .inr ⟨e, rfl⟩)
    · rw [hds, h5] at hw; split at hw <;> cases hw

theorem done_safe {F : List (Nat × Task)} {s s' : HS} {h : Nat} {t : Task} {r : Result} {a : Addr} {o : List Out}
    (hi : Inv s.ds) (hs : Safe F s) (hst : step s.ds (.done h t r a) = some (s'.ds, o)) (hno : s.cont ≠ .over)
    (ht : todo s.cont = (h, t) :: todo s'.cont) (hre : ∀ h t a, ¬ (s'.cont = .metaStarted h t true a ∨ s'.cont = .metaRan h t true a)) :
    Safe F s' := by
  have hp : s.ds.pc = .running := by
    simp only [step] at hst; split at hst
    · assumption
    · cases hst
  have hst' := hst
  simp only [step, hp, if_true] at hst'
  have hds := fst_eq hst'
  have hov : ¬ Over s.ds := by rintro (e | ⟨x, e⟩) <;> (rw [hp] at e; cases e)
  have hmem : h ∈ need F s.cont := by simp [need, ht]
  have hfr := hs.framed hov hno h hmem
  have nd := hs.nd
  have dj := hs.dj
  rw [ht] at nd dj
  simp only [List.map_cons, List.nodup_cons] at nd
  have hsub : ∀ x ∈ need F s'.cont, x ∈ need F s.cont ∧ x ≠ h := by
    intro x hx
    simp only [need, List.mem_append] at hx ⊢
    rcases hx with hx | hx
    · refine ⟨.inl hx, ?_⟩
      rintro rfl
      exact dj x (by simp) hx
    · refine ⟨.inr (by rw [ht]; simp only [List.map_cons, List.mem_cons]; exact .inr hx), ?_⟩
      rintro rfl
      exact nd.1 hx
  refine ⟨fun e => by rw [hds]; exact done_nocrash hi hfr t r a e, ?_, nd.2, fun x hx => dj x (by simp only [List.map_cons, List.mem_cons]; exact .inr hx), ?_,
    fun h t a hh => absurd hh (hre h t a)⟩
  · intro ho _ x hx
    obtain ⟨hx, hxh⟩ := hsub x hx
    obtain ⟨k, L, h1, h2⟩ := hs.framed hov hno x hx
    rw [hds] at ho
    obtain ⟨th, g1, g2, -⟩ := view_end hi h t r a ho
    rw [← hds] at g2
    by_cases hk : k = th.id
    · exfalso
      obtain ⟨a1, a2⟩ := threadOf_some hi.core g1
      rw [hk] at h1
      simp only [view, a2, Option.map_some, Option.some.injEq, Prod.mk.injEq, a1] at h1
      exact hxh h1.1.symm
    · exact ⟨k, L, by rw [g2 k hk]; exact h1, h2⟩
  · intro tid inc hw x hx L hv
    obtain ⟨-, hxh⟩ := hsub x hx
    have ho : ¬ Over s'.ds := by rintro (e | ⟨y, e⟩) <;> (rw [hw] at e; cases e)
    rw [hds] at ho
    obtain ⟨th, g1, g2, -, g4⟩ := view_end hi h t r a ho
    obtain ⟨a1, a2⟩ := threadOf_some hi.core g1
    rw [← hds] at g4
    rcases g4 with ⟨e1, e2⟩ | ⟨e1, -⟩
    · rw [hw] at e1
      cases e1
      rw [e2] at hv
      simp only [view, a2, Option.map_some, Option.some.injEq, Prod.mk.injEq, a1] at hv
      exact hxh hv.1.symm
    · rw [hw] at e1; cases e1

theorem wake_safe {F : List (Nat × Task)} {s s' : HS} {o : List Out} (hi : Inv s.ds) (hs : Safe F s)
    (hst : step s.ds .wake = some (s'.ds, o)) (hc : s'.cont = s.cont) : Safe F s' := by
  simp only [step] at hst
  split at hst
  · rename_i tid hp
    have hpc := hi.pc
    unfold PcOk at hpc
    rw [hp] at hpc
    obtain ⟨th, ht⟩ := hpc
    simp only [ht] at hst
    split at hst
    · cases hst
    · split at hst
      · have hds := fst_eq hst
        have hover : s'.ds.pc = .ended := by rw [hds]; rfl
        refine ⟨by rw [hover]; simp, fun ho => absurd (.inl hover) ho, by rw [hc]; exact hs.nd, by rw [hc]; exact hs.dj, ?_, by rw [hc]; exact hs.refr⟩
        intro tid inc hw; rw [hover] at hw; cases hw
      · have hds := fst_eq hst
        have hrun : s'.ds.pc = .running := by rw [hds]
        have hov : ¬ Over s.ds := by rintro (e | ⟨y, e⟩) <;> (rw [hp] at e; cases e)
        have hv : ∀ k, view s'.ds k = view s.ds k := by intro k; rw [hds]; rfl
        refine ⟨by rw [hrun]; simp, ?_, by rw [hc]; exact hs.nd, by rw [hc]; exact hs.dj, ?_, by rw [hc]; exact hs.refr⟩
        · intro _ hn x hx
          rw [hc] at hn hx
          obtain ⟨k, L, h1, h2⟩ := hs.framed hov hn x hx
          exact ⟨k, L, by rw [hv]; exact h1, h2⟩
        · intro tid inc hw; rw [hrun] at hw; cases hw
  · rename_i tid inc hp
    have hpc := hi.pc
    unfold PcOk at hpc
    rw [hp] at hpc
    obtain ⟨th, ht, hf⟩ := hpc
    simp only [ht] at hst
    split at hst
    · cases hst
    · have hds := fst_eq hst
      have hov : ¬ Over s.ds := by rintro (e | ⟨y, e⟩) <;> (rw [hp] at e; cases e)
      have hpc' : s'.ds.pc = .running ∨ s'.ds.pc = .ended := by
        rw [hds]
        rcases (endAfter_spec hi.core tid inc).2 with (e | ⟨x, e⟩) | ⟨e, -⟩
        · exact .inr e
        · exact absurd e (endAfter_nocrash hi.core ht hf inc x)
        · exact .inl e
      refine ⟨fun e he => by rcases hpc' with h | h <;> (rw [h] at he; cases he), ?_, by rw [hc]; exact hs.nd, by rw [hc]; exact hs.dj, ?_, by rw [hc]; exact hs.refr⟩
      · intro ho hn x hx
        rw [hc] at hn hx
        obtain ⟨k, L, h1, h2⟩ := hs.framed hov hn x hx
        rw [hds] at ho
        obtain ⟨v1, -, -⟩ := view_endAfter hi.core tid inc ho
        rw [← hds] at v1
        have hk : k ≠ tid := by rintro rfl; exact hs.wait k inc hp x hx L h1
        exact ⟨k, L, by rw [v1 k hk]; exact h1, h2⟩
      · intro tid' inc' hw; rcases hpc' with h | h <;> (rw [h] at hw; cases hw)
  · cases hst

/-- `run` was left. -/
theorem left_safe {F : List (Nat × Task)} {s : HS} (hc : s.cont = .over) (hp : s.ds.pc = .running ∨ s.ds.pc = .ended) : Safe F s := by
  refine ⟨fun e he => by rcases hp with h | h <;> (rw [h] at he; cases he), fun _ hn => absurd hc hn, by rw [hc]; exact .nil, by rw [hc]; simp [todo], ?_, ?_⟩
  · intro tid inc hw; rcases hp with h | h <;> (rw [h] at hw; cases hw)
  · intro h t a hh; rw [hc] at hh; rcases hh with hh | hh <;> cases hh

theorem safe_other {F : List (Nat × Task)} {s s' : HS} {l : Lbl} {e : List Ev} (hi : Inv s.ds) (hs : Safe F s) (hmi : Bp.Mild s.ds.dbg) (hlf : LinesFine l) (h : hstep s l = some (s', e))
    (n1 : ∀ h t tv ar c, l ≠ .queueTask h t tv ar c) (n2 : ∀ h t tv ar c r a, l ≠ .executeMeta h t tv ar c r a) (n3 : ∀ rs, l ≠ .pendingResults rs) :
    Safe F s' := by
  cases l with
  | queueTask hst t tv ar c => exact absurd rfl (n1 hst t tv ar c)
  | executeMeta hst t tv ar c r a => exact absurd rfl (n2 hst t tv ar c r a)
  | pendingResults rs => exact absurd rfl (n3 rs)
  | loaded p ln ty =>
    simp only [hstep] at h; split at h
    · rename_i ha
      obtain ⟨o, h1, h2, -⟩ := dsStep_some h
      simp only [step] at h1
      split at h1
      · have hds := fst_eq h1
        simp only [registerLine, Bp.register_fine hmi.tables hmi.lines p hlf ty] at hds
        exact safe_same hs (h2.trans (at_ansible ha).symm) (fun k => by rw [hds]; rfl) (by rw [hds]; rfl)
      · cases h1
    · cases h
  | runEnds n =>
    simp only [hstep] at h; split at h
    · rename_i hp; cases h; exact left_safe rfl (.inl hp.2)
    · cases h
  | runRaises x =>
    simp only [hstep] at h; split at h
    · rename_i hp; cases h; exact left_safe rfl (.inl hp.2)
    · cases h
  | go =>
    simp only [hstep, goOn] at h; split at h
    · cases h
    · rename_i hp
      have hp : s.ds.pc = .running := by simpa using hp
      split at h
      · rename_i hst t hc
        cases h
        refine ⟨hs.nocrash, ?_, .nil, by simp [todo], ?_, by intro h t a hh; rcases hh with hh | hh <;> cases hh⟩
        · intro ho _ x hx
          exact hs.framed ho (by rw [hc]; simp) x (by rw [hc]; exact hx)
        · intro tid inc hw; change s.ds.pc = _ at hw; rw [hp] at hw; cases hw
      · rename_i hst t r a hc
        cases h
        refine ⟨hs.nocrash, ?_, ?_, ?_, ?_, ?_⟩
        · intro ho _ x hx
          exact hs.framed ho (by rw [hc]; simp) x (by rw [hc]; exact hx)
        · have := hs.nd; rw [hc] at this; exact this
        · have := hs.dj; rw [hc] at this; exact this
        · intro tid inc hw; change s.ds.pc = _ at hw; rw [hp] at hw; cases hw
        · intro h t' a' hh
          simp only [reduceCtorEq, false_or, Cont.metaRan.injEq] at hh
          obtain ⟨rfl, rfl, rfl, rfl⟩ := hh
          exact hs.refr _ _ _ (.inl hc)
      · rename_i hst t r a hc
        split at h
        · rename_i hr
          subst hr
          have hF := hs.refr hst t a (.inr hc)
          subst hF
          obtain ⟨o, h1, h2, -⟩ := dsStep_some h
          simp only [step, hp, if_true] at h1
          have hds := fst_eq h1
          have hpc : s'.ds.pc = .running := by rw [hds]; exact hp
          refine ⟨by rw [hpc]; simp, ?_, by rw [h2]; exact .nil, by rw [h2]; simp [todo], ?_, ?_⟩
          · intro _ _ x hx; rw [h2] at hx; cases hx
          · intro tid inc hw; rw [hpc] at hw; cases hw
          · intros; rfl
        · rename_i hr
          obtain ⟨o, h1, h2, -⟩ := dsStep_some h
          exact done_safe hi hs h1 (by rw [hc]; simp) (by rw [hc, h2]; simp [todo, hr]) (by intro h t a hh; rw [h2] at hh; rcases hh with hh | hh <;> cases hh)
      · rename_i hc
        cases h
        refine ⟨hs.nocrash, ?_, .nil, by simp [todo], ?_, by intro h t a hh; rcases hh with hh | hh <;> cases hh⟩
        · intro ho _ x hx
          exact hs.framed ho (by rw [hc]; simp) x (by rw [hc]; exact hx)
        · intro tid inc hw; change s.ds.pc = _ at hw; rw [hp] at hw; cases hw
      · rename_i r rs hc
        obtain ⟨o, h1, h2, -⟩ := dsStep_some h
        exact done_safe hi hs h1 (by rw [hc]; simp) (by rw [hc, h2]; simp [todo]) (by intro h t a hh; rw [h2] at hh; rcases hh with hh | hh <;> cases hh)
      · cases h
      · cases h
  | unwind =>
    simp only [hstep, unwindRun] at h; split at h
    · cases h
    · split at h
      · rename_i hp; cases h; exact left_safe rfl (.inr hp)
      · rename_i x hp; exact absurd hp (hs.nocrash x)
      · cases h
  | wake =>
    simp only [hstep] at h
    obtain ⟨o, h1, h2, -⟩ := dsStep_some h
    exact wake_safe hi hs h1 h2
  | env hp =>
    simp only [hstep] at h
    obtain ⟨o, h1, h2, -⟩ := dsStep_some h
    have hds := fst_eq h1
    exact safe_same hs h2 (fun k => by rw [hds]; rfl) (by rw [hds])
  | req r =>
    simp only [hstep] at h
    obtain ⟨o, h1, h2, -⟩ := dsStep_some h
    have hds := fst_eq h1
    exact safe_same hs h2 (fun k => by rw [hds]; exact view_request hi r k) (by rw [hds]; exact request_pc s.ds hi r)

/-- While Ansible keeps its promises the debugger raises nothing but EndStrategy. -/
theorem hrun_safe {F : List (Nat × Task)} {ls : List Lbl} (ho : Orderly F ls) : ∀ {s s' : HS} {es : List Ev}, HRun s ls s' es → Inv s.ds →
    Bp.Mild s.ds.dbg → (∀ l ∈ ls, LinesFine l) → Safe F s → (Over s.ds → OnlyMain s.ds) → ∀ {R : Nat → Prop}, RolesOf R s.ds → RolesAfter R ls → ∃ G, Safe G s' := by
  induction ho with
  | nil => intro s s' es h hi hmi hlf hs hm R hR hra; cases h; exact ⟨_, hs⟩
  | @queue F h t tv ar c ls hF ht ho ih =>
    intro s s' es hr hi hmi hlf hs hm R hR hra
    cases hr with
    | cons h1 h2 =>
      obtain ⟨q1, q2⟩ := roles_step hi hm hR h1
      refine ih h2 (hinv_step hi h1) (hstep_mild hi hmi (hlf _ List.mem_cons_self) h1) (fun l h => hlf l (List.mem_cons_of_mem _ h)) ?_ q2 q1 hra.2
      simp only [hstep] at h1; split at h1
      · rename_i ha
        obtain ⟨o, g1, g2, -⟩ := dsStep_some h1
        refine start_safe hi hs (at_ansible ha) g1 (can_begin hi hR ht (hra.1 h t rfl)) hF ?_ ?_ ?_ ?_
        · intro x hx; rw [g2] at hx; simpa [need, todo] using hx
        · rw [g2]; exact .nil
        · rw [g2]; simp [todo]
        · intro h t a hh; rw [g2] at hh; rcases hh with hh | hh <;> cases hh
      · cases h1
  | @exec F h t tv ar c r a ls hF ht hr' ho ih =>
    intro s s' es hr hi hmi hlf hs hm R hR hra
    cases hr with
    | cons h1 h2 =>
      obtain ⟨q1, q2⟩ := roles_step hi hm hR h1
      refine ih h2 (hinv_step hi h1) (hstep_mild hi hmi (hlf _ List.mem_cons_self) h1) (fun l h => hlf l (List.mem_cons_of_mem _ h)) ?_ q2 q1 hra.2
      simp only [hstep] at h1; split at h1
      · rename_i ha
        obtain ⟨o, g1, g2, -⟩ := dsStep_some h1
        refine start_safe hi hs (at_ansible ha) g1 (can_begin hi hR ht (hra.1 h t rfl)) hF ?_ ?_ ?_ ?_
        · intro x hx; rw [g2] at hx
          simp only [need, todo, List.mem_append] at hx
          rcases hx with hx | hx
          · exact .inr hx
          · split at hx <;> simp at hx; exact .inl hx
        · rw [g2]; simp only [todo]; split <;> simp
        · rw [g2]; intro x hx
          simp only [todo] at hx
          split at hx <;> simp at hx
          subst hx
          intro hm
          obtain ⟨⟨p, q⟩, hm2, rfl⟩ := List.mem_map.1 hm
          exact hF q hm2
        · intro h t a hh; rw [g2] at hh
          simp only [Cont.metaStarted.injEq, reduceCtorEq, or_false] at hh
          exact hr' hh.2.2.1
      · cases h1
  | @results F rs ls hnd hmm ho ih =>
    intro s s' es hr hi hmi hlf hs hm R hR hra
    cases hr with
    | cons h1 h2 =>
      obtain ⟨q1, q2⟩ := roles_step hi hm hR h1
      refine ih h2 (hinv_step hi h1) (hstep_mild hi hmi (hlf _ List.mem_cons_self) h1) (fun l h => hlf l (List.mem_cons_of_mem _ h)) ?_ q2 q1 hra.2
      simp only [hstep] at h1; split at h1
      · rename_i ha
        cases h1
        have hc := at_ansible ha.1
        have e1 : (todo (.results rs)).map (·.1) = rs.map (·.host) := by simp [todo]
        refine ⟨hs.nocrash, ?_, by simp only [e1]; exact hnd, ?_, ?_, by intro h t a hh; rcases hh with hh | hh <;> cases hh⟩
        · intro ho _ x hx
          refine hs.framed ho (by rw [hc]; simp) x ?_
          simp only [need, e1, List.mem_append] at hx
          simp only [need, hc, List.mem_append, todo, List.map_nil, List.not_mem_nil, or_false]
          rcases hx with hx | hx
          · obtain ⟨p, hp, rfl⟩ := List.mem_map.1 hx
            exact List.mem_map.2 ⟨p, (List.mem_filter.1 hp).1, rfl⟩
          · obtain ⟨r, hr, rfl⟩ := List.mem_map.1 hx
            exact List.mem_map.2 ⟨_, hmm r hr, rfl⟩
        · intro x hx hx'
          simp only [e1] at hx
          obtain ⟨r, hr, rfl⟩ := List.mem_map.1 hx
          obtain ⟨p, hp, hpe⟩ := List.mem_map.1 hx'
          have := (List.mem_filter.1 hp).2
          simp only [decide_eq_true_eq] at this
          exact this r hr hpe.symm
        · intro tid inc hw; have := ha.2; change s.ds.pc = _ at hw; rw [this] at hw; cases hw
      · cases h1
  | @other F l ls n1 n2 n3 ho ih =>
    intro s s' es hr hi hmi hlf hs hm R hR hra
    cases hr with
    | cons h1 h2 =>
      obtain ⟨q1, q2⟩ := roles_step hi hm hR h1
      exact ih h2 (hinv_step hi h1) (hstep_mild hi hmi (hlf _ List.mem_cons_self) h1) (fun l h => hlf l (List.mem_cons_of_mem _ h))
        (safe_other hi hs hmi (hlf _ List.mem_cons_self) h1 n1 n2 n3) q2 q1 hra.2

theorem begins_inv {s : HS} (h : Begins s) : Inv s.ds ∧ s.ds.pc = .running ∧ s.cont = .ansible := by
  obtain ⟨d, o, h1, h2, h3⟩ := h
  refine ⟨inv_step (reach_inv h1) h2, ?_, h3⟩
  simp only [step] at h2; split at h2
  · rename_i hp; rw [fst_eq h2]; exact hp
  · cases h2

theorem begins_tables {s : HS} (h : Begins s) : Bp.Tables s.ds.dbg := by
  obtain ⟨d, o, ⟨ls, os, h1⟩, h2, h3⟩ := h
  rw [dbg_step (inv_run h1 inv_init) h2, dbg_run inv_init h1]
  exact Bp.tables_run _ _ (Bp.tables_run _ _ Bp.tables_init)

theorem begins_safe {s : HS} (h : Begins s) : Safe [] s := by
  obtain ⟨-, hp, hc⟩ := begins_inv h
  refine ⟨by rw [hp]; simp, ?_, by rw [hc]; exact .nil, by rw [hc]; simp [todo], ?_, ?_⟩
  · intro _ _ x hx; rw [hc] at hx; cases hx
  · intro tid inc hw; rw [hp] at hw; cases hw
  · intros; rfl

theorem begins_roles {s : HS} (h : Begins s) : RolesOf (fun _ => False) s.ds := by
  obtain ⟨hi, -, -⟩ := begins_inv h
  obtain ⟨d, o, -, h2, -⟩ := h
  refine main_frames hi.core ?_
  simp only [step] at h2; split at h2
  · rw [fst_eq h2]
    intro k th hk
    simp only [Dict.get?] at hk
    split at hk
    · rename_i e; simpa using Eq.symm e
    · cases hk
  · cases h2

theorem begins_noEnd {s : HS} (h : Begins s) : NoEnd s.ds := by
  obtain ⟨-, hp, -⟩ := begins_inv h
  obtain ⟨d, o, h1, h2, h3⟩ := h
  refine ⟨by rw [hp]; simp, fun _ k c hc => ?_⟩
  simp only [step] at h2; split at h2
  · rw [fst_eq h2] at hc
    exact noEnd_init.st (by rintro (e | ⟨x, e⟩) <;> cases e) k c hc
  · cases h2

end Verif.Strat.Hooks
