import Verif.Strat.Ctl
import Verif.Race.DatR
/-!
# The two models of the debug state agree

`Strat` handles a request in one step and has tasks, values and the reasons of stops; `Race` cuts the same code at every access to shared state and leaves those out.
Here: a history of `Strat` within one play is an execution of `Race` in which nobody interferes.
-/

namespace Verif.Race.Sim
open Verif
open Verif.Strat (DS Thread Frame Var TState Task)

/-- An answer that names something. -/
def named (ids : List Nat) : Option Obs := if ids = [] then none else some (.answer (.ok ids))

/-- What is compared of the messages of `Strat`: the events of threads and the ids in answers. -/
def seen : Strat.Out → Option Obs
  | .started t => some (.started t)
  | .exited t => some (.exited t)
  | .stopped t _ => some (.stopped t)
  | .stack fs => named (fs.map (·.1))
  | .threads ts => named ts
  | .scopes ss => named (ss.map (·.2))
  | .variables vs => named ((vs.map (·.2.2)).filter (· ≠ 0))
  | .setVar r => named ([r].filter (· ≠ 0))
  | _ => none

/-- What is compared of the messages of `Race`. -/
def kept : Obs → Bool
  | .answer (.ok ids) => !ids.isEmpty
  | .answer (.error _) => false
  | _ => true

/-- The same messages. -/
def Vis (O : List Obs) (os : List Strat.Out) : Prop := O.filter kept = os.filterMap seen

/-- The kinds of steps are one state in `Race`. -/
def absS : TState → TS
  | .cont => .cont
  | .stepIn | .stepOut | .stepOver => .step
  | .wait => .wait
  | .fin => .fin

/-- The same threads, frames and variables. -/
structure SimD (d : DS) (s : Sh) : Prop where
  thr : s.threads = d.threads.map (·.1)
  th : ∀ t x, d.threads.get? t = some x → s.host t = x.host ∧ s.stack t = x.frames ∧ s.state t = absS x.state
  live : s.live = d.frames.map (·.1)
  fr : ∀ f x, d.frames.get? f = some x → s.fvars f = x.variables ∧ s.result f = x.resultId
  vars : ∀ v, s.vars v = (d.vars.get? v).map (·.frame)
  nT : s.nextT = d.nextT
  nF : s.nextF = d.nextF
  nV : s.nextV = d.nextV
  newT : ∀ t, d.nextT ≤ t → s.stack t = [] ∧ s.state t = .cont
  newF : ∀ f, d.nextF ≤ f → s.fvars f = [] ∧ s.result f = 0
  bp : s.bpLen = d.dbg.bps.length
  exc : (Strat.filters d).onError = true ∨ (Strat.filters d).onUnreachable = true ∨ (Strat.filters d).onSkipped = true → s.exc = true

/-- An input: a call of Ansible or a request. -/
def isInput : Lbl → Bool
  | .play _ | .go => false
  | _ => true

/-- An execution with these inputs and messages. -/
def Runs (s : S) (ins : List Lbl) (s' : S) (O : List Obs) : Prop := ∃ ls, run false s ls = some (s', O) ∧ ls.filter isInput = ins

theorem Runs.nil (s : S) : Runs s [] s [] := ⟨[], rfl, rfl⟩

theorem Runs.trans {s s1 s2 : S} {i j : List Lbl} {O O' : List Obs} (h : Runs s i s1 O) (h' : Runs s1 j s2 O') : Runs s (i ++ j) s2 (O ++ O') := by
  obtain ⟨ls, h1, h2⟩ := h
  obtain ⟨ls', h1', h2'⟩ := h'
  exact ⟨ls ++ ls', run_append ls ls' s s1 s2 O O' h1 h1', by rw [List.filter_append, h2, h2']⟩

theorem Runs.one {s s' : S} {l : Lbl} {o : List Obs} (h : step false s l = some (s', o)) : Runs s ([l].filter isInput) s' o :=
  ⟨[l], by simp [run, h], rfl⟩

theorem Runs.play (b : Bool) {s s1 s2 : S} {o O : List Obs} {i : List Lbl} (h : pstep false s b = some (s1, o)) (h' : Runs s1 i s2 O) :
    Runs s i s2 (o ++ O) := by simpa [isInput] using (Runs.one (l := .play b) h).trans h'

theorem Runs.go {s s1 s2 : S} {o O : List Obs} {i : List Lbl} (h : rstep false s = some (s1, o)) (h' : Runs s1 i s2 O) :
    Runs s i s2 (o ++ O) := by simpa [isInput] using (Runs.one (l := .go) h).trans h'

theorem Runs.input {s s1 s2 : S} {l : Lbl} {o O : List Obs} {i : List Lbl} (hl : isInput l = true) (h : step false s l = some (s1, o)) (h' : Runs s1 i s2 O) :
    Runs s (l :: i) s2 (o ++ O) := by
  have := (Runs.one h).trans h'
  simpa [hl] using this

/-- Where the playbook goes on after a frame was removed. -/
def afterPop (t : Nat) : Ctx → P
  | .start => .role t
  | .fin _ => .idle

/-- Removing the variables of a frame. -/
theorem del_runs {t f : Nat} {k : Ctx} : ∀ (vs : List Nat) (i : Nat) (s : S) (V V' : Dict Nat Var), (s.fvars f).drop i = vs → Strat.delVars vs V = some V' →
    (∀ v, s.vars v = (V.get? v).map (·.frame)) → s.p = .del t f i k →
    ∃ w, (∀ v, w v = (V'.get? v).map (·.frame)) ∧ Runs s [] { s with vars := w, p := afterPop t k } [] := by
  intro vs
  induction vs with
  | nil =>
    intro i s V V' hd hV hs hp
    simp only [Strat.delVars, Option.some.injEq] at hV
    subst hV
    refine ⟨s.vars, hs, Runs.play true (s1 := { s with p := afterPop t k }) (o := []) ?_ (Runs.nil _)⟩
    have : (s.fvars f)[i]? = none := by
      rw [List.getElem?_eq_none_iff]
      exact List.drop_eq_nil_iff.1 hd
    cases k <;> simp [pstep, hp, this, afterPop]
  | cons v vs ih =>
    intro i s V V' hd hV hs hp
    simp only [Strat.delVars] at hV
    cases hg : V.get? v with
    | none => rw [hg] at hV; cases hV
    | some x =>
      rw [hg] at hV
      simp only at hV
      have hi : (s.fvars f)[i]? = some v := by
        have := congrArg (·[0]?) hd
        simpa using this
      have hd' : (s.fvars f).drop (i + 1) = vs := by
        have := congrArg List.tail hd
        simpa [List.tail_drop] using this
      obtain ⟨w, hw, hr⟩ := ih (i + 1) { s with vars := upd s.vars v none, p := .del t f (i + 1) k } (V.erase v) V' hd' hV (by
        intro u
        rw [DL.get_erase]
        simp only [upd]
        by_cases hu : u = v
        · simp [hu]
        · simp [hu, hs u]) rfl
      refine ⟨w, hw, ?_⟩
      have h1 : pstep false s true = some ({ s with vars := upd s.vars v none, p := .del t f (i + 1) k }, []) := by
        have hv : s.vars v = some x.frame := by rw [hs v, hg]; rfl
        simp [pstep, hp, hi, hv]
      exact Runs.play true h1 hr

/-- Removing the frame on top. -/
theorem pop_runs {d d' : DS} {th th' : Thread} {s : S} {k : Ctx} (c : d.core) (hs : SimD d s.toSh) (ht : d.threads.get? th.id = some th)
    (h : Strat.popFrame d th = .ok (d', th')) (hp : s.p = .popStack th.id k) :
    ∃ s', Runs s [] s' [] ∧ s'.p = afterPop th.id k ∧ SimD d' s'.toSh ∧ s'.lock = s.lock ∧ s'.r = s.r := by
  unfold Strat.popFrame at h
  split at h
  · cases h
  · rename_i f fs hf
    split at h
    · cases h
    · rename_i fr hfr
      split at h
      · cases h
      · rename_i V' hV
        simp only [Except.ok.injEq, Prod.mk.injEq] at h
        obtain ⟨rfl, rfl⟩ := h
        have hst : s.stack th.id = f :: fs := by rw [(hs.th _ _ ht).2.1, hf]
        have hl : f ∈ s.live := by rw [hs.live]; exact DL.get_some_key.1 ⟨fr, hfr⟩
        have h1 : pstep false s true = some ({ s with stack := upd s.stack th.id fs, p := .popFrame th.id f k }, []) := by
          simp [pstep, hp, hst]
        have h2 : pstep false { s with stack := upd s.stack th.id fs, p := .popFrame th.id f k } true =
            some ({ s with stack := upd s.stack th.id fs, live := s.live.filter (· ≠ f), p := .del th.id f 0 k }, []) := by
          simp [pstep, hl]
        obtain ⟨w, hw, h3⟩ := del_runs (t := th.id) (f := f) (k := k) fr.variables 0
          { s with stack := upd s.stack th.id fs, live := s.live.filter (· ≠ f), p := .del th.id f 0 k } d.vars V'
          (by simpa using (hs.fr _ _ hfr).1) hV hs.vars rfl
        refine ⟨_, Runs.play true h1 (Runs.play true h2 h3), rfl, ?_, rfl, rfl⟩
        constructor
        · show s.threads = _
          rw [DL.keys_set, if_pos (DL.get_some_key.1 ⟨_, ht⟩)]; exact hs.thr
        · intro t x hx
          simp only at hx ⊢
          rw [DL.get_set] at hx
          by_cases e : th.id = t
          · subst e
            simp only [if_true, Option.some.injEq] at hx
            subst hx
            obtain ⟨g1, g2, g3⟩ := hs.th _ _ ht
            exact ⟨g1, by simp [upd], g3⟩
          · simp only [e, if_false] at hx
            obtain ⟨g1, g2, g3⟩ := hs.th _ _ hx
            exact ⟨g1, by simp [upd, Ne.symm e, g2], g3⟩
        · show s.live.filter _ = _
          rw [hs.live, Dict.erase, List.filter_map]
          congr 1
        · intro g x hx
          simp only at hx ⊢
          rw [DL.get_erase] at hx
          split at hx
          · cases hx
          · exact hs.fr g x hx
        · exact hw
        · exact hs.nT
        · exact hs.nF
        · exact hs.nV
        · intro t hle
          simp only at hle ⊢
          have : t ≠ th.id := by have := (c.tid ht).2; omega
          simp only [upd, this, if_false]
          exact hs.newT t hle
        · exact hs.newF
        · exact hs.bp
        · exact hs.exc

/-- The frames are made to fit the task. -/
theorem sync_runs {d d' : DS} {th th' : Thread} {t : Task} {s : S} (c : d.core) (hs : SimD d s.toSh) (ht : d.threads.get? th.id = some th)
    (h : Strat.syncFrames d th t = .ok (d', th')) (hp : s.p = .sync th.id) :
    ∃ s', Runs s [] s' [] ∧ s'.p = .push th.id ∧ SimD d' s'.toSh ∧ s'.lock = s.lock ∧ s'.r = s.r := by
  have stack := (hs.th _ _ ht).2.1
  have fromRole : ∀ s1 : S, s1.p = .role th.id → ∃ s', Runs s1 [] s' [] ∧ s'.p = .push th.id ∧ s'.toSh = s1.toSh ∧ s'.r = s1.r := by
    intro s1 h1
    exact ⟨{ s1 with p := .push th.id }, Runs.play false (o := []) (by simp [pstep, h1]) (Runs.nil _), rfl, rfl, rfl⟩
  have keep : ∀ f fs, th.frames = f :: fs → (∃ fr, d.frames.get? f = some fr) →
      ∃ s', Runs s [] s' [] ∧ s'.p = .push th.id ∧ SimD d s'.toSh ∧ s'.lock = s.lock ∧ s'.r = s.r := by
    rintro f fs hf ⟨fr, hfr⟩
    have hl : f ∈ s.live := by rw [hs.live]; exact DL.get_some_key.1 ⟨fr, hfr⟩
    obtain ⟨s', h1, h2, h3, h4⟩ := fromRole { s with p := .role th.id } rfl
    refine ⟨s', Runs.play false (o := []) (s1 := { s with p := .role th.id }) ?_ h1, h2, by rw [h3]; exact hs, by rw [h3], h4⟩
    simp [pstep, hp, stack, hf, hl]
  have pop : ∀ f fs, th.frames = f :: fs → (∃ fr, d.frames.get? f = some fr) → Strat.popFrame d th = .ok (d', th') →
      ∃ s', Runs s [] s' [] ∧ s'.p = .push th.id ∧ SimD d' s'.toSh ∧ s'.lock = s.lock ∧ s'.r = s.r := by
    rintro f fs hf ⟨fr, hfr⟩ hpop
    have hl : f ∈ s.live := by rw [hs.live]; exact DL.get_some_key.1 ⟨fr, hfr⟩
    obtain ⟨s1, k1, k2, k3, k4, k5⟩ := pop_runs (s := { s with p := .popStack th.id .start }) c hs ht hpop rfl
    obtain ⟨s', h1, h2, h3, h4⟩ := fromRole s1 k2
    refine ⟨s', ?_, h2, by rw [h3]; exact k3, by rw [h3]; exact k4, by rw [h4]; exact k5⟩
    have := Runs.play true (o := []) (s := s) (by simp [pstep, hp, stack, hf, hl]) k1
    exact this.trans h1
  unfold Strat.syncFrames at h
  split at h
  · rename_i hf
    simp only [Except.ok.injEq, Prod.mk.injEq] at h
    obtain ⟨rfl, rfl⟩ := h
    exact ⟨{ s with p := .push th.id }, Runs.play true (o := []) (by simp [pstep, hp, stack, hf]) (Runs.nil _), rfl, hs, rfl, rfl⟩
  · rename_i f fs hf
    split at h
    · cases h
    · split at h
      · cases h
      · rename_i fr hfr
        split at h
        · cases h
        · split at h
          · exact pop f fs hf ⟨fr, hfr⟩ h
          · split at h
            · exact pop f fs hf ⟨fr, hfr⟩ h
            · simp only [Except.ok.injEq, Prod.mk.injEq] at h
              obtain ⟨rfl, rfl⟩ := h
              exact keep f fs hf ⟨fr, hfr⟩

/-- A new frame. -/
theorem push_runs {d : DS} {th : Thread} {t : Task} {tv args : Nat} {s : S} (c : d.core) (hs : SimD d s.toSh) (ht : d.threads.get? th.id = some th)
    (hp : s.p = .push th.id) :
    ∃ s', Runs s [] s' [] ∧ s'.p = .path th.id ∧ SimD (Strat.pushFrame d th t tv args).1 s'.toSh ∧ s'.lock = s.lock ∧ s'.r = s.r := by
  have h1 : pstep false s true = some ({ s with live := s.live ++ [s.nextF], nextF := s.nextF + 1, p := .pushStack th.id s.nextF }, []) := by
    simp [pstep, hp]
  have h2 : pstep false { s with live := s.live ++ [s.nextF], nextF := s.nextF + 1, p := .pushStack th.id s.nextF } true =
      some ({ s with live := s.live ++ [s.nextF], nextF := s.nextF + 1, stack := upd s.stack th.id (s.nextF :: s.stack th.id), p := .path th.id }, []) := by
    simp [pstep]
  refine ⟨_, Runs.play true h1 (Runs.play true h2 (Runs.nil _)), rfl, ?_, rfl, rfl⟩
  have stack := (hs.th _ _ ht).2.1
  constructor
  · show s.threads = _
    simp only [Strat.pushFrame]
    rw [DL.keys_set, if_pos (DL.get_some_key.1 ⟨_, ht⟩)]; exact hs.thr
  · intro t' x hx
    simp only [Strat.pushFrame] at hx ⊢
    rw [DL.get_set] at hx
    by_cases e : th.id = t'
    · subst e
      simp only [if_true, Option.some.injEq] at hx
      subst hx
      obtain ⟨g1, g2, g3⟩ := hs.th _ _ ht
      exact ⟨g1, by simp [upd, stack, hs.nF], g3⟩
    · simp only [e, if_false] at hx
      obtain ⟨g1, g2, g3⟩ := hs.th _ _ hx
      exact ⟨g1, by simp [upd, Ne.symm e, g2], g3⟩
  · show s.live ++ [s.nextF] = _
    simp only [Strat.pushFrame]
    rw [DL.keys_set, if_neg, hs.live, hs.nF]
    intro hm
    obtain ⟨fr, hfr⟩ := DL.get_some_key.2 hm
    have := c.fid hfr
    omega
  · intro g x hx
    simp only [Strat.pushFrame] at hx ⊢
    rw [DL.get_set] at hx
    split at hx
    · rename_i e
      simp only [Option.some.injEq] at hx
      subst hx
      subst e
      exact hs.newF _ (Nat.le_refl _)
    · exact hs.fr g x hx
  · exact hs.vars
  · exact hs.nT
  · show s.nextF + 1 = _
    simp only [Strat.pushFrame]
    rw [hs.nF]
  · exact hs.nV
  · intro t' hle
    simp only [Strat.pushFrame] at hle ⊢
    have : t' ≠ th.id := by have := (c.tid ht).2; omega
    simp only [upd, this, if_false]
    exact hs.newT t' hle
  · intro g hle
    simp only [Strat.pushFrame] at hle ⊢
    exact hs.newF g (by omega)
  · exact hs.bp
  · exact hs.exc

/-- The data of a state do not depend on who holds the lock. -/
theorem SimD.lock {d : DS} {s : Sh} (h : SimD d s) (l : Option Bool) : SimD d { s with lock := l } :=
  ⟨h.thr, h.th, h.live, h.fr, h.vars, h.nT, h.nF, h.nV, h.newT, h.newF, h.bp, h.exc⟩

/-- Setting the state of a thread that is there. -/
theorem SimD.setState {d : DS} {s : Sh} (c : d.core) (h : SimD d s) {t : Nat} {x x' : Thread} (hx : d.threads.get? t = some x)
    (h1 : x'.host = x.host) (h2 : x'.frames = x.frames) (ts : TS) (h3 : absS x'.state = ts) (pc : Strat.Pc) :
    SimD { d with threads := d.threads.set t x', pc := pc } { s with state := upd s.state t ts } := by
  refine ⟨?_, ?_, h.live, h.fr, h.vars, h.nT, h.nF, h.nV, ?_, h.newF, h.bp, h.exc⟩
  · show s.threads = _
    rw [DL.keys_set, if_pos (DL.get_some_key.1 ⟨_, hx⟩)]; exact h.thr
  · intro t' y hy
    simp only at hy ⊢
    rw [DL.get_set] at hy
    by_cases e : t = t'
    · subst e
      simp only [if_true, Option.some.injEq] at hy
      subst hy
      obtain ⟨g1, g2, g3⟩ := h.th _ _ hx
      exact ⟨by rw [g1, h1], by rw [g2, h2], by simp [upd, h3]⟩
    · simp only [e, if_false] at hy
      obtain ⟨g1, g2, g3⟩ := h.th _ _ hy
      exact ⟨g1, g2, by simp [upd, Ne.symm e, g3]⟩
  · intro t' hle
    simp only at hle ⊢
    have : t' ≠ t := by have := (c.tid hx).2; omega
    simp only [upd, this, if_false]
    exact h.newT t' hle

/-- The decision whether to stop at the task. -/
theorem decide_runs {d : DS} {th : Thread} {t : Task} {cond : Nat → Bool} {s : S} (c : d.core) (hs : SimD d s.toSh) (ht : d.threads.get? th.id = some th)
    (hpc : d.pc = .running) (hl : s.lock = none) (hp : s.p = .path th.id) :
    ∃ s', Runs s [] s' ((Strat.decideStop d th t cond).2.filterMap seen) ∧
      SimD (Strat.decideStop d th t cond).1 s'.toSh ∧ s'.lock = none ∧ s'.r = s.r ∧
      (((Strat.decideStop d th t cond).1.pc = .running ∧ s'.p = .idle) ∨
        ((Strat.decideStop d th t cond).1.pc = .waitStart th.id ∧ s'.p = .asleep th.id .start false ∧ s'.state th.id = .wait)) := by
  cases hpath : t.path with
  | none =>
    refine ⟨{ s with p := .idle }, ?_, ?_, hl, rfl, ?_⟩
    · simp only [Strat.decideStop, hpath]
      exact Runs.play false (o := []) (by simp [pstep, hp]) (Runs.nil _)
    · simp only [Strat.decideStop, hpath]; exact hs
    · simp [Strat.decideStop, hpath, hpc]
  | some pl =>
    have a1 : pstep false s true = some ({ s with p := .lockS th.id }, []) := by simp [pstep, hp]
    have a2 : pstep false { s with p := .lockS th.id } true = some ({ s with lock := some true, p := .bps th.id }, []) := by simp [pstep, hl]
    have a3 : pstep false { s with lock := some true, p := .bps th.id } true =
        some ({ s with lock := some true, p := .bpsIter th.id ⟨s.bpObj, s.bpLen, 0⟩ }, []) := by simp [pstep]
    have start : Runs s [] { s with lock := some true, p := .bpsIter th.id ⟨s.bpObj, s.bpLen, 0⟩ } [] :=
      Runs.play true a1 (Runs.play true a2 (Runs.play true a3 (Runs.nil _)))
    -- all breakpoints are passed
    have passed : ∀ n i, i + n = s.bpLen → Runs { s with lock := some true, p := .bpsIter th.id ⟨s.bpObj, s.bpLen, i⟩ } []
        { s with lock := some true, p := .decide th.id false } [] := by
      intro n
      induction n with
      | zero =>
        intro i hi
        exact Runs.play false (o := []) (by simp [pstep]; omega) (Runs.nil _)
      | succ n ih =>
        intro i hi
        exact Runs.play false (o := []) (s1 := { s with lock := some true, p := .bpsIter th.id ⟨s.bpObj, s.bpLen, i + 1⟩ })
          (by simp [pstep]; omega) (ih (i + 1) (by omega))
    cases hw : Strat.whyBreak th (t.node, t.parents) (Strat.bpFor d t cond) with
    | none =>
      have e : Strat.decideStop d th t cond = (d, []) := by simp [Strat.decideStop, hpath, hw]
      rw [e]
      refine ⟨{ s with p := .idle }, ?_, hs, hl, rfl, .inl ⟨hpc, rfl⟩⟩
      have b1 : pstep false { s with lock := some true, p := .decide th.id false } false =
          some ({ s with lock := some true, p := .unlock th.id .start }, []) := by simp [pstep]
      have b2 : pstep false { s with lock := some true, p := .unlock th.id .start } true = some ({ s with p := .idle }, []) := by
        simp [pstep, ← hl]
      exact (start.trans (passed s.bpLen 0 (by omega))).trans (Runs.play false b1 (Runs.play true b2 (Runs.nil _)))
    | some w =>
      have e : Strat.decideStop d th t cond =
          ({ d with threads := d.threads.set th.id (Strat.afterBreak th (t.node, t.parents) (Strat.bpFor d t cond)), pc := .waitStart th.id },
            [.stopped th.id (.brk w)]) := by simp [Strat.decideStop, hpath, hw]
      rw [e]
      have sim := hs.setState c ht (x' := Strat.afterBreak th (t.node, t.parents) (Strat.bpFor d t cond))
        (by simp [Strat.afterBreak, hw]) (by simp [Strat.afterBreak, hw]) .wait (by simp [Strat.afterBreak, hw, absS]) (.waitStart th.id)
      refine ⟨{ s with state := upd s.state th.id .wait, p := .asleep th.id .start false }, ?_, sim, hl, rfl, .inr ⟨rfl, rfl, by simp [upd]⟩⟩
      -- whatever was found
      have stop : ∀ found, (s.state th.id = .step ∨ found = true) → Runs { s with lock := some true, p := .decide th.id found } []
          { s with state := upd s.state th.id .wait, p := .asleep th.id .start false } [.stopped th.id] := by
        intro found hf
        have b1 : pstep false { s with lock := some true, p := .decide th.id found } true =
            some ({ s with lock := some true, state := upd s.state th.id .wait, p := .emit th.id .start }, []) := by
          simp only [pstep, if_true]
          rw [if_pos hf]
        have b2 : pstep false { s with lock := some true, state := upd s.state th.id .wait, p := .emit th.id .start } true =
            some ({ s with lock := some true, state := upd s.state th.id .wait, p := .pred th.id .start }, [.stopped th.id]) := by simp [pstep]
        have b3 : pstep false { s with lock := some true, state := upd s.state th.id .wait, p := .pred th.id .start } true =
            some ({ s with lock := some true, state := upd s.state th.id .wait, p := .sleep th.id .start }, []) := by simp [pstep, upd]
        have b4 : pstep false { s with lock := some true, state := upd s.state th.id .wait, p := .sleep th.id .start } true =
            some ({ s with state := upd s.state th.id .wait, p := .asleep th.id .start false }, []) := by simp [pstep, ← hl]
        exact Runs.play true b1 (Runs.play true b2 (Runs.play true b3 (Runs.play true b4 (Runs.nil _))))
      by_cases hst : s.state th.id = .step
      · exact (start.trans (passed s.bpLen 0 (by omega))).trans (stop false (.inl hst))
      · -- it is a breakpoint, so there is one
        have hne : Strat.bpFor d t cond ≠ none := by
          intro hn
          rw [hn] at hw
          have hst' : ∀ x, x = th.state → absS x ≠ .step := by
            intro x hx; subst hx; rw [← (hs.th _ _ ht).2.2]; exact hst
          unfold Strat.whyBreak Strat.breakOver Strat.breakOut at hw
          have := hst' th.state rfl
          cases hx : th.state <;> rw [hx] at this <;> simp [absS] at this <;> simp [hx] at hw <;> split at hw <;> simp at hw
        have hlen : 0 < s.bpLen := by
          rw [hs.bp]
          cases hb : d.dbg.bps with
          | nil => exfalso; apply hne; simp [Strat.bpFor, hpath, Bp.getBreakpoint, hb]
          | cons _ _ => simp
        have b0 : pstep false { s with lock := some true, p := .bpsIter th.id ⟨s.bpObj, s.bpLen, 0⟩ } true =
            some ({ s with lock := some true, p := .decide th.id true }, []) := by simp [pstep, hlen]
        exact start.trans (Runs.play true b0 (stop true (.inr rfl)))

end Verif.Race.Sim
