import Verif.Race.Sim
/-!
# The calls of Ansible in the two models
-/

namespace Verif.Race.Sim
open Verif
open Verif.Strat (DS Thread Frame Var TState Task)

/-- Only these parts of a state matter. -/
theorem SimD.congr {d d' : DS} {s : Sh} (h : SimD d s) (h1 : d'.threads = d.threads) (h2 : d'.frames = d.frames) (h3 : d'.vars = d.vars)
    (h4 : d'.nextT = d.nextT) (h5 : d'.nextF = d.nextF) (h6 : d'.nextV = d.nextV) (h7 : d'.dbg.bps.length = d.dbg.bps.length)
    (h8 : d'.dbg.exc = d.dbg.exc) : SimD d' s := by
  refine ⟨by rw [h1]; exact h.thr, by rw [h1]; exact h.th, by rw [h2]; exact h.live, by rw [h2]; exact h.fr, by rw [h3]; exact h.vars, by rw [h4]; exact h.nT,
    by rw [h5]; exact h.nF, by rw [h6]; exact h.nV, by rw [h4]; exact h.newT, by rw [h5]; exact h.newF, by rw [h7]; exact h.bp, ?_⟩
  have : Strat.filters d' = Strat.filters d := by simp [Strat.filters, Bp.shouldStop, h8]
  rw [this]; exact h.exc

/-- Where the playbook is. -/
def PcSim (pc : Strat.Pc) (s : S) : Prop :=
  match pc with
  | .running => s.p = .idle
  | .waitStart t => ∃ n, s.p = .asleep t .start n ∧ (s.state t ≠ .wait → n = true)
  | .waitEnd t i => ∃ n, s.p = .asleep t (.fin i) n ∧ (s.state t ≠ .wait → n = true)
  | .ended => s.p = .gone .ended
  | .crashed _ => False

/-- The two states between two calls or requests. -/
structure Sim (d : DS) (s : S) : Prop where
  dat : SimD d s.toSh
  lock : s.lock = none
  r : s.r = .idle
  pc : PcSim d.pc s

/-- The thread of a host. -/
theorem threadOf_sim {d : DS} {s : Sh} (c : d.core) (h : SimD d s) (host : Nat) : threadOf s host = (Strat.threadOf d host).map (·.id) := by
  have key : ∀ l : Dict Nat Thread, (∀ e ∈ l, d.threads.get? e.1 = some e.2) →
      (l.map (·.1)).find? (fun t => s.host t == some host) = ((l.map (·.2)).find? fun t => t.host == some host).map (·.id) := by
    intro l
    induction l with
    | nil => intro _; rfl
    | cons e l ih =>
      intro hl
      have he := hl e (by simp)
      have h1 := (h.th _ _ he).1
      have h2 := (c.tid he).1
      simp only [List.map_cons, List.find?_cons, h1]
      cases e.2.host == some host with
      | true => simp [h2]
      | false => exact ih fun e he => hl e (by simp [he])
  unfold threadOf Strat.threadOf
  rw [h.thr]
  exact key d.threads fun e he => DL.get_of_mem c.tnd he

/-- The thread for a task is found or added. -/
theorem host_runs {d : DS} {s : S} (c : d.core) (hs : SimD d s.toSh) (host : Nat) (hp : s.p = .find host) :
    ∃ s', Runs s [] s' ((Strat.hostThread d host).2.2.filterMap seen) ∧ s'.p = .sync (Strat.hostThread d host).2.1.id ∧
      SimD (Strat.hostThread d host).1 s'.toSh ∧ s'.lock = s.lock ∧ s'.r = s.r := by
  have ht := threadOf_sim c hs host
  unfold Strat.hostThread
  cases hd : Strat.threadOf d host with
  | some th =>
    rw [hd] at ht
    exact ⟨{ s with p := .sync th.id }, Runs.play true (o := []) (by simp [pstep, hp, ht]) (Runs.nil _), rfl, hs, rfl, rfl⟩
  | none =>
    rw [hd] at ht
    have h1 : pstep false s true = some ({ s with threads := s.threads ++ [s.nextT], host := upd s.host s.nextT (some host), nextT := s.nextT + 1, p := .announce s.nextT }, []) := by
      simp [pstep, hp, ht]
    have h2 : pstep false { s with threads := s.threads ++ [s.nextT], host := upd s.host s.nextT (some host), nextT := s.nextT + 1, p := .announce s.nextT } true =
        some ({ s with threads := s.threads ++ [s.nextT], host := upd s.host s.nextT (some host), nextT := s.nextT + 1, p := .sync s.nextT }, [.started s.nextT]) := by
      simp [pstep]
    have new : d.nextT ∉ d.threads.map (·.1) := by
      intro hm
      obtain ⟨x, hx⟩ := DL.get_some_key.2 hm
      have := (c.tid hx).2
      omega
    refine ⟨{ s with threads := s.threads ++ [s.nextT], host := upd s.host s.nextT (some host), nextT := s.nextT + 1, p := .sync s.nextT }, ?_, ?_, ?_, rfl, rfl⟩
    · have := Runs.play true h1 (Runs.play true h2 (Runs.nil _))
      simpa [Strat.addThread, seen, hs.nT] using this
    · simp [Strat.addThread, hs.nT]
    · constructor
      · show s.threads ++ [s.nextT] = _
        simp only [Strat.addThread]
        rw [DL.keys_set, if_neg new, hs.thr, hs.nT]
      · intro t x hx
        simp only [Strat.addThread] at hx ⊢
        rw [DL.get_set] at hx
        by_cases e : d.nextT = t
        · subst e
          simp only [if_true, Option.some.injEq] at hx
          subst hx
          obtain ⟨g1, g2⟩ := hs.newT _ (Nat.le_refl _)
          exact ⟨by simp [upd, hs.nT], g1, by simp [g2, absS]⟩
        · simp only [e, if_false] at hx
          obtain ⟨g1, g2, g3⟩ := hs.th _ _ hx
          exact ⟨by simp [upd, hs.nT, Ne.symm e, g1], g2, g3⟩
      · exact hs.live
      · exact hs.fr
      · exact hs.vars
      · show s.nextT + 1 = _
        rw [hs.nT]; rfl
      · exact hs.nF
      · exact hs.nV
      · intro t hle
        simp only [Strat.addThread] at hle
        exact hs.newT t (by omega)
      · exact hs.newF
      · exact hs.bp
      · exact hs.exc

/-- A task begins. -/
theorem start_runs {d d' : DS} {s : S} {o : List Strat.Out} (i : Strat.Inv d) (hs : Sim d s) {host : Nat} {t : Task} {tv a : Nat} {cond : Nat → Bool}
    (h : Strat.step d (.start host t tv a cond) = some (d', o)) (hc : ∀ e, d'.pc ≠ .crashed e) :
    ∃ s', Runs s [.startTask host] s' (o.filterMap seen) ∧ Sim d' s' := by
  simp only [Strat.step] at h
  split at h
  · rename_i hpc
    simp only [Option.some.injEq] at h
    have hp : s.p = .idle := by have := hs.pc; rw [hpc] at this; exact this
    have s0 : step false s (.startTask host) = some ({ s with p := .find host }, []) := by simp [step, hp]
    obtain ⟨s1, r1, p1, d1, l1, q1⟩ := host_runs (s := { s with p := .find host }) i.core hs.dat host rfl
    obtain ⟨c1, g1, -, ne1⟩ := Strat.hostThread_spec i.core host
    rw [Strat.startTask_eq] at h
    split at h
    · rename_i e he
      exfalso
      have := congrArg Prod.fst h
      simp only at this
      apply hc e
      rw [← this]
      simp [Strat.crash, Strat.finish]
    · rename_i d2 th2 he
      obtain ⟨s2, r2, p2, sd2, l2, q2⟩ := sync_runs c1 d1 g1 he p1
      obtain ⟨c2, g2, id2, -, -, -, -, -, pc2, -⟩ := Strat.sync_ok c1 g1 he
      rw [← id2] at g2 p2
      obtain ⟨s3, r3, p3, sd3, l3, q3⟩ := push_runs (t := t) (tv := tv) (args := a) c2 sd2 g2 p2
      have c3 := Strat.pushFrame_core c2 g2 (by rw [id2]; exact ne1) t tv a
      have g3 := Strat.pushFrame_get d2 th2 t tv a
      have pc3 : (Strat.pushFrame d2 th2 t tv a).1.pc = .running := by
        show d2.pc = _
        rw [pc2, (Strat.hostThread_pc d host).1, hpc]
      obtain ⟨s4, r4, sd4, l4, q4, w4⟩ := decide_runs (th := (Strat.pushFrame d2 th2 t tv a).2) (t := t) (cond := cond) c3 sd3 g3 pc3 (by rw [l3, l2, l1]; exact hs.lock) p3
      refine ⟨s4, ?_, ?_⟩
      · have := Runs.input (l := .startTask host) rfl s0 (r1.trans (r2.trans (r3.trans r4)))
        have e2 := congrArg Prod.snd h
        simp only at e2
        rw [← e2]
        simpa using this
      · have e1 := congrArg Prod.fst h
        simp only at e1
        rw [← e1]
        refine ⟨sd4, l4, by rw [q4, q3, q2, q1]; exact hs.r, ?_⟩
        rcases w4 with ⟨w, w'⟩ | ⟨w, w', w''⟩
        · rw [w]; exact w'
        · rw [w]; exact ⟨false, w', fun hn => absurd w'' hn⟩
  · cases h

/-- Where the playbook is after the threads were removed. -/
def left : Why → P
  | .refresh => .idle
  | w => .gone w

/-- The removal of the threads. -/
theorem exit_runs (w : Why) : ∀ (todo : List Nat) (s : S), s.p = .exit todo w →
    Runs s [] { s with threads := s.threads.filter (fun t => decide (t ∉ todo)), p := left w } (todo.map .exited) := by
  intro todo
  induction todo with
  | nil =>
    intro s hp
    have h1 : pstep false s true = some ({ s with p := left w }, []) := by cases w <;> simp [pstep, hp, left]
    have e : s.threads.filter (fun t => decide (t ∉ ([] : List Nat))) = s.threads := by simp
    rw [e]
    exact Runs.play true h1 (Runs.nil _)
  | cons t ts ih =>
    intro s hp
    have h1 : pstep false s true = some ({ s with threads := s.threads.filter (· ≠ t), p := .exitEvent t ts w }, []) := by simp [pstep, hp]
    have h2 : pstep false { s with threads := s.threads.filter (· ≠ t), p := .exitEvent t ts w } true =
        some ({ s with threads := s.threads.filter (· ≠ t), p := .exit ts w }, [.exited t]) := by simp [pstep]
    have h3 := Runs.play true h1 (Runs.play true h2 (ih { s with threads := s.threads.filter (· ≠ t), p := .exit ts w } rfl))
    have e : (s.threads.filter (· ≠ t)).filter (fun x => decide (x ∉ ts)) = s.threads.filter (fun x => decide (x ∉ t :: ts)) := by
      rw [List.filter_filter]
      apply List.filter_congr
      intro x _
      simp [Bool.and_comm]
    rw [← e]
    simpa using h3

/-- Only thread 1 stays. -/
theorem SimD.exit {d : DS} {s : Sh} (h : SimD d s) :
    SimD (Strat.exitThreads d).1 { s with threads := s.threads.filter (fun t => decide (t ∉ s.threads.filter (· ≠ 1))) } := by
  have e : s.threads.filter (fun t => decide (t ∉ s.threads.filter (· ≠ 1))) = s.threads.filter (fun t => decide (t = 1)) := by
    apply List.filter_congr
    intro x hx
    simp [hx]
  rw [e]
  refine ⟨?_, ?_, h.live, h.fr, h.vars, h.nT, h.nF, h.nV, h.newT, h.newF, h.bp, h.exc⟩
  · show s.threads.filter _ = _
    rw [h.thr]
    simp only [Strat.exitThreads]
    rw [List.filter_map]
    rfl
  · intro t x hx
    simp only [Strat.exitThreads] at hx
    rw [DL.get_filter d.threads (fun x => decide (x = 1)) t] at hx
    split at hx
    · exact h.th t x hx
    · cases hx

theorem exit_seen {d : DS} {s : Sh} (h : SimD d s) : (Strat.exitThreads d).2.filterMap seen = (s.threads.filter (· ≠ 1)).map .exited := by
  simp only [Strat.exitThreads, ← h.thr, List.filterMap_map]
  rw [show (seen ∘ Strat.Out.exited) = (some ∘ Obs.exited) from rfl, ← List.filterMap_map, List.filterMap_some]

/-- The play ends because that was asked for. -/
theorem ended_runs {d : DS} {s : S} (h : SimD d s.toSh) (hr : s.r = .idle) :
    ∃ s', Runs (raiseIn s .ended) [] s' ((Strat.finish d .ended).2.filterMap seen) ∧ Sim (Strat.finish d .ended).1 s' := by
  have h1 := exit_runs .ended (s.threads.filter (· ≠ 1)) (raiseIn s .ended) rfl
  refine ⟨{ s with lock := none, threads := s.threads.filter (fun t => decide (t ∉ s.threads.filter (· ≠ 1))), p := .gone .ended }, ?_, ?_⟩
  · have e : (Strat.finish d .ended).2.filterMap seen = (s.threads.filter (· ≠ 1)).map .exited := exit_seen h
    rw [e]
    exact h1
  · refine ⟨?_, rfl, hr, rfl⟩
    exact (h.exit.lock none).congr rfl rfl rfl rfl rfl rfl rfl rfl

/-- The inventory is refreshed. -/
theorem refresh_runs {d d' : DS} {s : S} {o : List Strat.Out} (hs : Sim d s) (h : Strat.step d .refresh = some (d', o)) :
    ∃ s', Runs s [.refresh] s' (o.filterMap seen) ∧ Sim d' s' := by
  simp only [Strat.step] at h
  split at h
  · rename_i hpc
    simp only [Option.some.injEq] at h
    have hp : s.p = .idle := by have := hs.pc; rw [hpc] at this; exact this
    have e1 := congrArg Prod.fst h
    have e2 := congrArg Prod.snd h
    simp only at e1 e2
    have s0 : step false s .refresh = some (leave s .refresh, []) := by simp [step, hp]
    have h1 := exit_runs .refresh (s.threads.filter (· ≠ 1)) (leave s .refresh) rfl
    refine ⟨{ s with threads := s.threads.filter (fun t => decide (t ∉ s.threads.filter (· ≠ 1))), p := .idle }, ?_, ?_⟩
    · have := Runs.input (l := .refresh) rfl s0 h1
      rw [← e2, exit_seen hs.dat]
      exact this
    · rw [← e1]
      refine ⟨hs.dat.exit, hs.lock, hs.r, ?_⟩
      show PcSim d.pc _
      rw [hpc]
      rfl
  · cases h

/-- After a wait, or without one: the end, or the play goes on. -/
theorem check_start {d : DS} {s : S} {t : Nat} {th : Thread} (hs : SimD d s.toSh) (hr : s.r = .idle) (hp : s.p = .check t .start)
    (ht : d.threads.get? t = some th) :
    ∃ s', Runs s [] s' ((if th.state = .fin then Strat.finish d .ended else ({ d with pc := .running }, [])).2.filterMap seen) ∧
      Sim (if th.state = .fin then Strat.finish d .ended else ({ d with pc := .running }, [])).1 s' := by
  have hst := (hs.th _ _ ht).2.2
  by_cases hf : th.state = .fin
  · rw [if_pos hf]
    rw [hf] at hst
    obtain ⟨s', h1, h2⟩ := ended_runs hs hr
    exact ⟨s', Runs.play true (o := []) (s1 := raiseIn s .ended) (by simp [pstep, hp, hst, absS]) h1, h2⟩
  · rw [if_neg hf]
    have hne : s.state t ≠ .fin := by rw [hst]; cases hx : th.state <;> simp [absS] <;> exact hf hx
    have b1 : pstep false s true = some ({ s with p := .unlock t .start }, []) := by simp [pstep, hp, hne]
    have b2 : pstep false { s with p := .unlock t .start } true = some ({ s with lock := none, p := .idle }, []) := by simp [pstep]
    exact ⟨_, Runs.play true b1 (Runs.play true b2 (Runs.nil _)), (hs.lock none).congr rfl rfl rfl rfl rfl rfl rfl rfl, rfl, hr, rfl⟩

/-- The part of `end_task` after the wait. -/
theorem check_fin {d : DS} {s : S} {t : Nat} {th : Thread} {incl : Bool} (c : d.core) (hs : SimD d s.toSh) (hr : s.r = .idle) (hp : s.p = .check t (.fin incl))
    (ht : d.threads.get? t = some th) (hc : ∀ e, (Strat.endAfter d t incl).1.pc ≠ .crashed e) :
    ∃ s', Runs s [] s' ((Strat.endAfter d t incl).2.filterMap seen) ∧ Sim (Strat.endAfter d t incl).1 s' := by
  have hst := (hs.th _ _ ht).2.2
  have hid := (c.tid ht).1
  unfold Strat.endAfter at hc ⊢
  simp only [ht] at hc ⊢
  by_cases hf : th.state = .fin
  · rw [if_pos hf]
    rw [hf] at hst
    obtain ⟨s', h1, h2⟩ := ended_runs hs hr
    exact ⟨s', Runs.play true (o := []) (s1 := raiseIn s .ended) (by simp [pstep, hp, hst, absS]) h1, h2⟩
  · rw [if_neg hf] at hc ⊢
    have hne : s.state t ≠ .fin := by rw [hst]; cases hx : th.state <;> simp [absS] <;> exact hf hx
    have b1 : pstep false s true = some ({ s with p := .unlock t (.fin incl) }, []) := by simp [pstep, hp, hne]
    cases incl with
    | true =>
      simp only [if_true] at hc ⊢
      have b2 : pstep false { s with p := .unlock t (.fin true) } true = some ({ s with lock := none, p := .idle }, []) := by simp [pstep]
      exact ⟨_, Runs.play true b1 (Runs.play true b2 (Runs.nil _)), (hs.lock none).congr rfl rfl rfl rfl rfl rfl rfl rfl, rfl, hr, rfl⟩
    | false =>
      simp only [Bool.false_eq_true, if_false] at hc ⊢
      have b2 : pstep false { s with p := .unlock t (.fin false) } true = some ({ s with lock := none, p := .popStack t (.fin false) }, []) := by simp [pstep]
      cases hpop : Strat.popFrame d th with
      | error e =>
        exfalso
        rw [hpop] at hc
        exact hc e (by simp [Strat.crash, Strat.finish])
      | ok x =>
        obtain ⟨d', th'⟩ := x
        simp only
        subst hid
        obtain ⟨s', h1, h2, h3, h4, h5⟩ := pop_runs (s := { s with lock := none, p := .popStack th.id (.fin false) }) (k := .fin false) c (hs.lock none) ht hpop rfl
        exact ⟨s', Runs.play true b1 (Runs.play true b2 h1), h3.congr rfl rfl rfl rfl rfl rfl rfl rfl, h4, h5.trans hr, h2⟩

/-- The playbook wakes up. -/
theorem wake_runs {d d' : DS} {s : S} {o : List Strat.Out} (i : Strat.Inv d) (hs : Sim d s) (h : Strat.step d .wake = some (d', o))
    (hc : ∀ e, d'.pc ≠ .crashed e) : ∃ s', Runs s [] s' (o.filterMap seen) ∧ Sim d' s' := by
  -- up to the check
  have up : ∀ t k n, s.p = .asleep t k n → (s.state t ≠ .wait → n = true) → s.state t ≠ .wait →
      Runs s [] { s with lock := some true, p := .check t k } [] := by
    intro t k n hp hn hw
    have := hn hw
    subst this
    have b1 : pstep false s true = some ({ s with lock := some true, p := .pred t k }, []) := by simp [pstep, hp, hs.lock]
    have b2 : pstep false { s with lock := some true, p := .pred t k } true = some ({ s with lock := some true, p := .check t k }, []) := by
      simp [pstep, hw]
    exact Runs.play true b1 (Runs.play true b2 (Runs.nil _))
  have nw : ∀ {t th}, d.threads.get? t = some th → th.state ≠ .wait → s.state t ≠ .wait := by
    intro t th ht hw
    rw [(hs.dat.th _ _ ht).2.2]
    cases hx : th.state <;> simp [absS] <;> exact hw hx
  have hpc := hs.pc
  simp only [Strat.step] at h
  cases hd : d.pc with
  | running => rw [hd] at h; cases h
  | ended => rw [hd] at h; cases h
  | crashed e => rw [hd] at h; cases h
  | waitStart t =>
    rw [hd] at h hpc
    obtain ⟨n, hp, hn⟩ := hpc
    have ok := i.pc
    unfold Strat.PcOk at ok
    rw [hd] at ok
    obtain ⟨th, ht⟩ := ok
    simp only [ht] at h
    by_cases hw : th.state = .wait
    · rw [if_pos hw] at h; cases h
    · rw [if_neg hw] at h
      obtain ⟨s', h1, h2⟩ := check_start (s := { s with lock := some true, p := .check t .start }) (hs.dat.lock _) hs.r rfl ht
      refine ⟨s', ?_, ?_⟩
      · have e2 : o = (if th.state = .fin then Strat.finish d .ended else ({ d with pc := .running }, [])).2 := by
          split at h <;> (rename_i hx; simp only [hx, if_true, if_false]; cases h; rfl)
        rw [e2]
        exact (up t .start n hp hn (nw ht hw)).trans h1
      · have e1 : d' = (if th.state = .fin then Strat.finish d .ended else ({ d with pc := .running }, [])).1 := by
          split at h <;> (rename_i hx; simp only [hx, if_true, if_false]; cases h; rfl)
        rw [e1]
        exact h2
  | waitEnd t incl =>
    rw [hd] at h hpc
    obtain ⟨n, hp, hn⟩ := hpc
    have ok := i.pc
    unfold Strat.PcOk at ok
    rw [hd] at ok
    obtain ⟨th, ht, -⟩ := ok
    simp only [ht] at h
    by_cases hw : th.state = .wait
    · rw [if_pos hw] at h; cases h
    · rw [if_neg hw] at h
      simp only [Option.some.injEq] at h
      have e1 := congrArg Prod.fst h
      have e2 := congrArg Prod.snd h
      simp only at e1 e2
      rw [← e1] at hc
      obtain ⟨s', h1, h2⟩ := check_fin (s := { s with lock := some true, p := .check t (.fin incl) }) i.core (hs.dat.lock _) hs.r rfl ht hc
      rw [← e1, ← e2]
      exact ⟨s', (up t (.fin incl) n hp hn (nw ht hw)).trans h1, h2⟩

/-- A new variable. -/
theorem SimD.addVar {d : DS} {s : Sh} (h : SimD d s) {f : Nat} {fr : Frame} (hf : d.frames.get? f = some fr) (hlt : f < d.nextF) (k : Strat.Kind) (a : Nat) :
    SimD (Strat.addVar d f k a).1 { s with nextV := s.nextV + 1, vars := upd s.vars s.nextV (some f), fvars := upd s.fvars f (s.fvars f ++ [s.nextV]) } := by
  refine ⟨h.thr, h.th, ?_, ?_, ?_, h.nT, h.nF, ?_, h.newT, ?_, h.bp, h.exc⟩
  · show s.live = _
    simp only [Strat.addVar, hf]
    rw [DL.keys_set, if_pos (DL.get_some_key.1 ⟨_, hf⟩)]; exact h.live
  · intro g x hx
    simp only [Strat.addVar, hf] at hx ⊢
    rw [DL.get_set] at hx
    by_cases e : f = g
    · subst e
      simp only [if_true, Option.some.injEq] at hx
      subst hx
      obtain ⟨g1, g2⟩ := h.fr _ _ hf
      exact ⟨by simp [upd, g1, h.nV], g2⟩
    · simp only [e, if_false] at hx
      obtain ⟨g1, g2⟩ := h.fr _ _ hx
      exact ⟨by simp [upd, Ne.symm e, g1], g2⟩
  · intro v
    simp only [Strat.addVar]
    rw [DL.get_set, h.nV]
    by_cases e : d.nextV = v
    · simp [upd, e]
    · simp [upd, e, Ne.symm e, h.vars v]
  · show s.nextV + 1 = _
    rw [h.nV]; rfl
  · intro g hle
    have : g ≠ f := by
      have : d.nextF ≤ g := hle
      omega
    simp only [upd, this, if_false]
    exact h.newF g hle

/-- The result of a frame is noted. -/
theorem SimD.setResult {d : DS} {s : Sh} (h : SimD d s) (c : d.core) {f : Nat} {fr : Frame} (hf : d.frames.get? f = some fr) (v : Nat) :
    SimD { d with frames := d.frames.set f { fr with resultId := v } } { s with result := upd s.result f v } := by
  have hlt := c.fid hf
  refine ⟨h.thr, h.th, ?_, ?_, h.vars, h.nT, h.nF, h.nV, h.newT, ?_, h.bp, h.exc⟩
  · show s.live = _
    simp only
    rw [DL.keys_set, if_pos (DL.get_some_key.1 ⟨_, hf⟩)]; exact h.live
  · intro g x hx
    simp only at hx ⊢
    rw [DL.get_set] at hx
    by_cases e : f = g
    · subst e
      simp only [if_true, Option.some.injEq] at hx
      subst hx
      obtain ⟨g1, g2⟩ := h.fr _ _ hf
      exact ⟨g1, by simp [upd]⟩
    · simp only [e, if_false] at hx
      obtain ⟨g1, g2⟩ := h.fr _ _ hx
      exact ⟨g1, by simp [upd, Ne.symm e, g2]⟩
  · intro g hle
    have : g ≠ f := by
      have : d.nextF ≤ g := hle
      omega
    simp only [upd, this, if_false]
    exact h.newF g hle

/-- A result is processed. -/
theorem done_runs {d d' : DS} {s : S} {o : List Strat.Out} (i : Strat.Inv d) (hs : Sim d s) {host : Nat} {t : Task} {r : Strat.Result} {res : Nat}
    (h : Strat.step d (.done host t r res) = some (d', o)) (hc : ∀ e, d'.pc ≠ .crashed e)
    (hf : ∃ th, Strat.threadOf d host = some th ∧ th.frames ≠ []) :
    ∃ s', Runs s [.endTask host t.node.isInclude] s' (o.filterMap seen) ∧ Sim d' s' := by
  simp only [Strat.step] at h
  split at h
  · rename_i hpc
    simp only [Option.some.injEq] at h
    have hp : s.p = .idle := by have := hs.pc; rw [hpc] at this; exact this
    obtain ⟨th, hth, hfr⟩ := hf
    obtain ⟨-, hg⟩ := Strat.threadOf_some i.core hth
    have hrace : threadOf s.toSh host = some th.id := by rw [threadOf_sim i.core hs.dat, hth]; rfl
    have hst := (hs.dat.th _ _ hg).2.1
    have s0 : step false s (.endTask host t.node.isInclude) = some ({ s with p := .lockE th.id t.node.isInclude }, []) := by
      simp [step, hp, hrace, hst, hfr]
    have b1 : pstep false { s with p := .lockE th.id t.node.isInclude } true =
        some ({ s with lock := some true, p := .decideE th.id t.node.isInclude }, []) := by simp [pstep, hs.lock]
    have e1 := congrArg Prod.fst h
    have e2 := congrArg Prod.snd h
    simp only at e1 e2
    rw [← e1] at hc ⊢
    rw [← e2]
    unfold Strat.endTask at hc ⊢
    simp only [hth] at hc ⊢
    cases hw : Strat.whyException t.parents r (Strat.filters d) with
    | none =>
      simp only [hw] at hc ⊢
      have b2 : pstep false { s with lock := some true, p := .decideE th.id t.node.isInclude } false =
          some ({ s with lock := some true, p := .check th.id (.fin t.node.isInclude) }, []) := by simp [pstep]
      obtain ⟨s', h1, h2⟩ := check_fin (s := { s with lock := some true, p := .check th.id (.fin t.node.isInclude) }) i.core (hs.dat.lock _) hs.r rfl hg hc
      exact ⟨s', by simpa using Runs.input (l := .endTask host t.node.isInclude) rfl s0 (Runs.play true b1 (Runs.play false b2 h1)), h2⟩
    | some e =>
      simp only [hw] at hc ⊢
      -- a filter is set
      have hx : s.exc = true := by
        apply hs.dat.exc
        unfold Strat.whyException at hw
        revert hw
        cases (Strat.filters d).onError <;> cases (Strat.filters d).onUnreachable <;> cases (Strat.filters d).onSkipped <;> simp
      have b2 : pstep false { s with lock := some true, p := .decideE th.id t.node.isInclude } true =
          some ({ s with lock := some true, state := upd s.state th.id .wait, p := .frameE th.id t.node.isInclude }, []) := by simp [pstep, hx]
      cases hfs : th.frames with
      | nil => exact absurd hfs hfr
      | cons f fs =>
        simp only [hfs] at hc ⊢
        obtain ⟨fr, hfr'⟩ := i.core.tf hg (f := f) (by rw [hfs]; simp)
        simp only [hfr'] at hc ⊢
        have hl : f ∈ s.live := by rw [hs.dat.live]; exact DL.get_some_key.1 ⟨fr, hfr'⟩
        have a1 : (Strat.afterException th t.parents r (Strat.filters d)).host = th.host ∧
            (Strat.afterException th t.parents r (Strat.filters d)).frames = th.frames ∧
            (Strat.afterException th t.parents r (Strat.filters d)).id = th.id ∧
            (Strat.afterException th t.parents r (Strat.filters d)).state = .wait := by
          simp [Strat.afterException, hw]
        have sd1 := hs.dat.setState i.core hg a1.1 a1.2.1 .wait (by rw [a1.2.2.2]; rfl) d.pc
        have c1 : ({ d with threads := d.threads.set th.id (Strat.afterException th t.parents r (Strat.filters d)) } : DS).core :=
          Strat.Core.setCtl i.core hg a1.2.2.1 a1.1 a1.2.1
        have sd2 := sd1.addVar hfr' (c1.fid hfr') (Strat.kindOf d.heap res) res
        have c2 : (Strat.addVar { d with threads := d.threads.set th.id (Strat.afterException th t.parents r (Strat.filters d)) } f (Strat.kindOf d.heap res) res).1.core :=
          (Strat.addVar_ext { d with threads := d.threads.set th.id (Strat.afterException th t.parents r (Strat.filters d)) } hfr' _ _).core c1
        have g2 : (Strat.addVar { d with threads := d.threads.set th.id (Strat.afterException th t.parents r (Strat.filters d)) } f (Strat.kindOf d.heap res) res).1.frames.get? f =
            some { fr with variables := fr.variables ++ [d.nextV] } := by
          simp [Strat.addVar, hfr', DL.get_set]
        have sd3 := sd2.setResult c2 g2 s.nextV
        have b3 : pstep false { s with lock := some true, state := upd s.state th.id .wait, p := .frameE th.id t.node.isInclude } true =
            some ({ s with lock := some true, state := upd s.state th.id .wait, p := .addRead th.id f t.node.isInclude }, []) := by
          simp [pstep, hst, hfs, hl]
        have b4 : pstep false { s with lock := some true, state := upd s.state th.id .wait, p := .addRead th.id f t.node.isInclude } true =
            some ({ s with lock := some true, state := upd s.state th.id .wait, nextV := s.nextV + 1, p := .addEntry th.id f s.nextV t.node.isInclude }, []) := by
          simp [pstep]
        have b5 : pstep false { s with lock := some true, state := upd s.state th.id .wait, nextV := s.nextV + 1, p := .addEntry th.id f s.nextV t.node.isInclude } true =
            some ({ s with lock := some true, state := upd s.state th.id .wait, nextV := s.nextV + 1, vars := upd s.vars s.nextV (some f), p := .addList th.id f s.nextV t.node.isInclude }, []) := by
          simp [pstep]
        have b6 : pstep false { s with lock := some true, state := upd s.state th.id .wait, nextV := s.nextV + 1, vars := upd s.vars s.nextV (some f), p := .addList th.id f s.nextV t.node.isInclude } true =
            some ({ s with lock := some true, state := upd s.state th.id .wait, nextV := s.nextV + 1, vars := upd s.vars s.nextV (some f), fvars := upd s.fvars f (s.fvars f ++ [s.nextV]), p := .setResult th.id f s.nextV t.node.isInclude }, []) := by
          simp [pstep]
        have b7 : pstep false { s with lock := some true, state := upd s.state th.id .wait, nextV := s.nextV + 1, vars := upd s.vars s.nextV (some f), fvars := upd s.fvars f (s.fvars f ++ [s.nextV]), p := .setResult th.id f s.nextV t.node.isInclude } true =
            some ({ s with lock := some true, state := upd s.state th.id .wait, nextV := s.nextV + 1, vars := upd s.vars s.nextV (some f), fvars := upd s.fvars f (s.fvars f ++ [s.nextV]), result := upd s.result f s.nextV, p := .emit th.id (.fin t.node.isInclude) }, []) := by
          simp [pstep]
        have b8 : ∀ x : S, x.p = .emit th.id (.fin t.node.isInclude) → x.state th.id = .wait →
            Runs x [] { x with lock := none, p := .asleep th.id (.fin t.node.isInclude) false } [.stopped th.id] := by
          intro x hp hw
          have g1 : pstep false x true = some ({ x with p := .pred th.id (.fin t.node.isInclude) }, [.stopped th.id]) := by simp [pstep, hp]
          have g2 : pstep false { x with p := .pred th.id (.fin t.node.isInclude) } true = some ({ x with p := .sleep th.id (.fin t.node.isInclude) }, []) := by
            simp [pstep, hw]
          have g3 : pstep false { x with p := .sleep th.id (.fin t.node.isInclude) } true =
              some ({ x with lock := none, p := .asleep th.id (.fin t.node.isInclude) false }, []) := by simp [pstep]
          exact Runs.play true g1 (Runs.play true g2 (Runs.play true g3 (Runs.nil _)))
        have run := Runs.input (l := .endTask host t.node.isInclude) rfl s0 (Runs.play true b1 (Runs.play true b2 (Runs.play true b3 (Runs.play true b4
          (Runs.play true b5 (Runs.play true b6 (Runs.play true b7 (b8 _ rfl (by simp [upd])))))))))
        refine ⟨{ s with lock := none, state := upd s.state th.id .wait, nextV := s.nextV + 1, vars := upd s.vars s.nextV (some f), fvars := upd s.fvars f (s.fvars f ++ [s.nextV]), result := upd s.result f s.nextV, p := .asleep th.id (.fin t.node.isInclude) false }, run, ?_, rfl, hs.r, ?_⟩
        · refine SimD.congr (sd3.lock none) rfl ?_ rfl rfl rfl rfl rfl rfl
          simp only [g2, hs.dat.nV]
          rfl
        · exact ⟨false, rfl, fun hn => absurd (by simp [upd]) hn⟩
  · cases h

theorem refresh_length (path : Str) (fl : Bp.FileLines) : ∀ l : Dict Nat Bp.LineBp, (Bp.refresh path fl l).1.length = l.length := by
  intro l
  induction l with
  | nil => rfl
  | cons e l ih =>
    obtain ⟨k, b⟩ := e
    unfold Bp.refresh
    split
    · simp [ih]
    · split
      · rfl
      · dsimp only
        rename_i bp _
        cases Bp.differs b.bp bp <;> simp [ih]

theorem register_keeps (p : Str) (l : Int) (ty : Nat) (x : Bp.Dbg) :
    (Bp.register p l ty x).1.bps.length = x.bps.length ∧ (Bp.register p l ty x).1.exc = x.exc := by
  unfold Bp.register
  dsimp only
  split
  · exact ⟨rfl, rfl⟩
  · exact ⟨refresh_length _ _ _, rfl⟩

/-- A line is registered. -/
theorem reg_runs {d d' : DS} {s : S} {o : List Strat.Out} (hs : Sim d s) {p : Str} {l : Int} {ty : Nat}
    (h : Strat.step d (.reg p l ty) = some (d', o)) (hc : ∀ e, d'.pc ≠ .crashed e) :
    ∃ s', Runs s [.register] s' (o.filterMap seen) ∧ Sim d' s' := by
  simp only [Strat.step] at h
  split at h
  · rename_i hpc
    simp only [Option.some.injEq] at h
    have hp : s.p = .idle := by have := hs.pc; rw [hpc] at this; exact this
    unfold Strat.registerLine at h
    split at h
    · have e1 := congrArg Prod.fst h
      have e2 := congrArg Prod.snd h
      simp only at e1 e2
      have s0 : step false s .register = some ({ s with p := .reg }, []) := by simp [step, hp]
      have b1 : pstep false { s with p := .reg } true = some ({ s with p := .regIter ⟨s.bpObj, s.bpLen, 0⟩ }, []) := by simp [pstep]
      have loop : ∀ n i, i + n = s.bpLen → Runs { s with p := .regIter ⟨s.bpObj, s.bpLen, i⟩ } [] { s with p := .idle } [] := by
        intro n
        induction n with
        | zero =>
          intro i hi
          exact Runs.play false (o := []) (by simp [pstep]; omega) (Runs.nil _)
        | succ n ih =>
          intro i hi
          exact Runs.play false (o := []) (s1 := { s with p := .regIter ⟨s.bpObj, s.bpLen, i + 1⟩ }) (by simp [pstep]; omega) (ih (i + 1) (by omega))
      have out : o.filterMap seen = [] := by
        rw [← e2]
        simp only [Strat.bpStep, List.filterMap_map]
        exact List.filterMap_eq_nil_iff.2 fun _ _ => rfl
      refine ⟨{ s with p := .idle }, ?_, ?_, hs.lock, hs.r, ?_⟩
      · rw [out]
        exact Runs.input (l := .register) rfl s0 (Runs.play true b1 (loop s.bpLen 0 (by omega)))
      · rw [← e1]
        obtain ⟨k1, k2⟩ := register_keeps p l ty d.dbg
        exact SimD.congr (s := s.toSh) hs.dat rfl rfl rfl rfl rfl rfl k1 k2
      · rw [← e1]
        show PcSim d.pc _
        rw [hpc]
        rfl
    · rename_i e _
      exfalso
      have := congrArg Prod.fst h
      simp only at this
      apply hc e
      rw [← this]
      simp [Strat.crash, Strat.finish]
  · cases h

end Verif.Race.Sim
