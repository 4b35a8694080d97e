import Verif.Race.SimPlay
/-!
# The requests in the two models
-/

namespace Verif.Race.Sim
open Verif
open Verif.Strat (DS Thread Frame Var TState Task)

/-- What an answer shows. -/
theorem kept_named (ids : List Nat) : [Obs.answer (.ok ids)].filter kept = (named ids).toList := by
  cases ids <;> rfl

/-- The playbook after `notify_all`. -/
def awake : P → P
  | .asleep t k _ => .asleep t k true
  | p => p

theorem PcSim.awake {pc : Strat.Pc} {s s' : S} (h : PcSim pc s) (hp : s'.p = awake s.p) : PcSim pc s' := by
  unfold PcSim at h ⊢
  split
  · simp only at h; rw [hp, h]; rfl
  · obtain ⟨n, h1, -⟩ := h; exact ⟨true, by rw [hp, h1]; rfl, fun _ => rfl⟩
  · obtain ⟨n, h1, -⟩ := h; exact ⟨true, by rw [hp, h1]; rfl, fun _ => rfl⟩
  · simp only at h; rw [hp, h]; rfl
  · exact h

theorem PcSim.same {pc : Strat.Pc} {s s' : S} (h : PcSim pc s) (hp : s'.p = s.p) (hst : s'.state = s.state) : PcSim pc s' := by
  unfold PcSim at h ⊢
  rw [hp, hst]
  exact h

theorem absS_setState (th : Thread) (st : TState) : absS (Strat.setState th st).state = absS st := by
  unfold Strat.setState
  split
  · rfl
  · split
    · rename_i h; simp only; rw [h]
    · split
      · rename_i h; simp only; rw [h.1]; rfl
      · rfl

/-- Threads are resumed one after another. -/
theorem each_runs (st : TState) : ∀ (ts : List Nat) (d : DS) (s : S), d.core → SimD d s.toSh → s.r = .each ts (absS st) →
    (∀ t ∈ ts, ∃ th, d.threads.get? t = some th) →
    ∃ s', Runs s [] s' [] ∧ s'.r = .notify ∧ SimD { d with threads := (Strat.resume ts st d.threads).1 } s'.toSh ∧ s'.p = s.p ∧ s'.lock = s.lock := by
  intro ts
  induction ts with
  | nil =>
    intro d s c hs hr _
    exact ⟨{ s with r := .notify }, Runs.go (o := []) (by simp [rstep, hr]) (Runs.nil _), rfl, hs, rfl, rfl⟩
  | cons t ts ih =>
    intro d s c hs hr hex
    obtain ⟨th, ht⟩ := hex t (by simp)
    have hm : t ∈ s.threads := by rw [hs.thr]; exact DL.get_some_key.1 ⟨th, ht⟩
    obtain ⟨k1, k2, k3⟩ := Strat.setState_keeps th st
    have sd := hs.setState c ht k2 k3 (absS st) (absS_setState th st) d.pc
    have c' : ({ d with threads := d.threads.set t (Strat.setState th st) } : DS).core := Strat.Core.setCtl c ht k1 k2 k3
    obtain ⟨s', h1, h2, h3, h4, h5⟩ := ih { d with threads := d.threads.set t (Strat.setState th st) }
      { s with state := upd s.state t (absS st), r := .each ts (absS st) } c' sd rfl (by
        intro u hu
        obtain ⟨x, hx⟩ := hex u (by simp [hu])
        simp only [DL.get_set]
        split
        · exact ⟨_, rfl⟩
        · exact ⟨x, hx⟩)
    refine ⟨s', Runs.go (o := []) (by simp [rstep, hr, hm]) h1, h2, ?_, h4, h5⟩
    simpa [Strat.resume, ht] using h3

/-- All threads are resumed, over the dictionary itself. -/
theorem iter_runs : ∀ (ts : List Nat) (i : Nat) (d : DS) (s : S), d.core → SimD d s.toSh → s.r = .iter ⟨0, s.threads.length, i⟩ .cont → s.threads.drop i = ts →
    ∃ s', Runs s [] s' [] ∧ s'.r = .notify ∧ SimD { d with threads := (Strat.resume ts .cont d.threads).1 } s'.toSh ∧ s'.p = s.p ∧ s'.lock = s.lock := by
  intro ts
  induction ts with
  | nil =>
    intro i d s c hs hr hd
    have : s.threads[i]? = none := by
      rw [List.getElem?_eq_none_iff]
      exact List.drop_eq_nil_iff.1 hd
    exact ⟨{ s with r := .notify }, Runs.go (o := []) (by simp [rstep, hr, this]) (Runs.nil _), rfl, hs, rfl, rfl⟩
  | cons t ts ih =>
    intro i d s c hs hr hd
    have hi : s.threads[i]? = some t := by
      have := congrArg (·[0]?) hd
      simpa using this
    have hd' : s.threads.drop (i + 1) = ts := by
      have := congrArg List.tail hd
      simpa [List.tail_drop] using this
    have hm : t ∈ s.threads := List.mem_of_getElem? hi
    obtain ⟨th, ht⟩ := DL.get_some_key.2 (hs.thr ▸ hm)
    obtain ⟨k1, k2, k3⟩ := Strat.setState_keeps th .cont
    have sd := hs.setState c ht k2 k3 .cont (absS_setState th .cont) d.pc
    have c' : ({ d with threads := d.threads.set t (Strat.setState th .cont) } : DS).core := Strat.Core.setCtl c ht k1 k2 k3
    obtain ⟨s', h1, h2, h3, h4, h5⟩ := ih (i + 1) { d with threads := d.threads.set t (Strat.setState th .cont) }
      { s with state := upd s.state t .cont, r := .iter ⟨0, s.threads.length, i + 1⟩ .cont } c' sd rfl hd'
    have b1 : rstep false s = some ({ s with r := .setOne t ⟨0, s.threads.length, i + 1⟩ .cont }, []) := by simp [rstep, hr, hi]
    have b2 : rstep false { s with r := .setOne t ⟨0, s.threads.length, i + 1⟩ .cont } =
        some ({ s with state := upd s.state t .cont, r := .iter ⟨0, s.threads.length, i + 1⟩ .cont }, []) := by simp [rstep, hm]
    refine ⟨s', Runs.go b1 (Runs.go b2 h1), h2, ?_, h4, h5⟩
    simpa [Strat.resume, ht] using h3

/-- The end of a request that resumes threads. -/
theorem notify_runs {d : DS} {s : S} (hr : s.r = .notify) (hs : SimD d s.toSh) {pc : Strat.Pc} (hpc : d.pc = pc) {s0 : S} (hp : PcSim pc s0) (he : s.p = s0.p) :
    ∃ s', Runs s [] s' [.answer (.ok [])] ∧ Sim d s' := by
  have b1 : rstep false s = some ({ s with p := awake s.p, r := .unlock (.ok []) }, []) := by
    have e : (match s.p with | .asleep t k _ => P.asleep t k true | p => p) = awake s.p := rfl
    simp only [rstep, hr]
    rfl
  have b2 : rstep false { s with p := awake s.p, r := .unlock (.ok []) } = some ({ s with lock := none, p := awake s.p, r := .answer (.ok []) }, []) := by simp [rstep]
  have b3 : rstep false { s with lock := none, p := awake s.p, r := .answer (.ok []) } = some ({ s with lock := none, p := awake s.p, r := .idle }, [.answer (.ok [])]) := by
    simp [rstep]
  refine ⟨_, Runs.go b1 (Runs.go b2 (Runs.go b3 (Runs.nil _))), hs.lock none, rfl, rfl, ?_⟩
  rw [hpc]
  exact hp.awake (by rw [← he])

/-- One thread is resumed. -/
theorem one_runs {d : DS} {s : S} (i : Strat.Inv d) (hs : Sim d s) {t : Nat} (b : Bool) {st : TState} (hst : absS st = if b = true then .step else .cont)
    {th : Thread} (ht : d.threads.get? t = some th) :
    ∃ s', Runs s [.req (.one t b)] s' [.answer (.ok [])] ∧ Sim { d with threads := (Strat.resume [t] st d.threads).1 } s' := by
  have s0 : step false s (.req (.one t b)) = some ({ s with r := .lock (some [t]) (absS st) }, []) := by simp [step, hs.r, startReq, hst]
  have b1 : rstep false { s with r := .lock (some [t]) (absS st) } = some ({ s with lock := some false, r := .each [t] (absS st) }, []) := by
    simp [rstep, hs.lock]
  obtain ⟨s1, h1, h2, h3, h4, h5⟩ := each_runs st [t] d { s with lock := some false, r := .each [t] (absS st) } i.core (hs.dat.lock _) rfl (by
    intro u hu; simp only [List.mem_singleton] at hu; subst hu; exact ⟨th, ht⟩)
  obtain ⟨s', g1, g2⟩ := notify_runs h2 h3 rfl (s0 := s) hs.pc h4
  exact ⟨s', Runs.input (l := .req (.one t b)) rfl s0 (Runs.go b1 (h1.trans g1)), g2⟩

/-- All threads are resumed. -/
theorem all_runs {d : DS} {s : S} (i : Strat.Inv d) (hs : Sim d s) :
    ∃ s', Runs s [.req .continueAll] s' [.answer (.ok [])] ∧ Sim { d with threads := (Strat.resume (d.threads.map (·.1)) .cont d.threads).1 } s' := by
  have s0 : step false s (.req .continueAll) = some ({ s with r := .lock none .cont }, []) := by simp [step, hs.r, startReq]
  have b1 : rstep false { s with r := .lock none .cont } = some ({ s with lock := some false, r := .iter ⟨0, s.threads.length, 0⟩ .cont }, []) := by
    simp [rstep, hs.lock]
  obtain ⟨s1, h1, h2, h3, h4, h5⟩ := iter_runs (d.threads.map (·.1)) 0 d { s with lock := some false, r := .iter ⟨0, s.threads.length, 0⟩ .cont } i.core (hs.dat.lock _) rfl
    (by simpa using hs.dat.thr)
  obtain ⟨s', g1, g2⟩ := notify_runs h2 h3 rfl (s0 := s) hs.pc h4
  exact ⟨s', Runs.input (l := .req .continueAll) rfl s0 (Runs.go b1 (h1.trans g1)), g2⟩

/-- The client leaves. -/
theorem disc_runs {d : DS} {s : S} (i : Strat.Inv d) (hs : Sim d s) (b : Bool) {st : TState} (hst : absS st = if b = true then .fin else .cont) :
    ∃ s', Runs s [.req (.disconnect b)] s' [.answer (.ok [])] ∧ Sim (Strat.disconnect d st) s' := by
  have s0 : step false s (.req (.disconnect b)) = some ({ s with r := .clear (absS st) }, []) := by simp [step, hs.r, startReq, hst]
  have b1 : rstep false { s with r := .clear (absS st) } = some ({ s with bpObj := s.bpObj + 1, bpLen := 0, r := .copy (absS st) }, []) := by simp [rstep]
  have b2 : rstep false { s with bpObj := s.bpObj + 1, bpLen := 0, r := .copy (absS st) } =
      some ({ s with bpObj := s.bpObj + 1, bpLen := 0, r := .lock (some s.threads) (absS st) }, []) := by simp [rstep]
  have b3 : rstep false { s with bpObj := s.bpObj + 1, bpLen := 0, r := .lock (some s.threads) (absS st) } =
      some ({ s with bpObj := s.bpObj + 1, bpLen := 0, lock := some false, r := .each s.threads (absS st) }, []) := by simp [rstep, hs.lock]
  have sd : SimD { d with dbg := Bp.forget d.dbg } { s.toSh with bpObj := s.bpObj + 1, bpLen := 0, lock := some false } := by
    have h := hs.dat
    exact ⟨h.thr, h.th, h.live, h.fr, h.vars, h.nT, h.nF, h.nV, h.newT, h.newF, rfl, h.exc⟩
  obtain ⟨s1, h1, h2, h3, h4, h5⟩ := each_runs st s.threads { d with dbg := Bp.forget d.dbg }
    { s with bpObj := s.bpObj + 1, bpLen := 0, lock := some false, r := .each s.threads (absS st) } i.core sd rfl (by
    intro u hu; rw [hs.dat.thr] at hu; exact DL.get_some_key.2 hu)
  rw [hs.dat.thr] at h3
  obtain ⟨s', g1, g2⟩ := notify_runs h2 h3 rfl (s0 := s) hs.pc h4
  exact ⟨s', Runs.input (l := .req (.disconnect b)) rfl s0 (Runs.go b1 (Runs.go b2 (Runs.go b3 (h1.trans g1)))), g2⟩

/-- The answer is sent. -/
theorem answer_runs {d : DS} {s s1 : S} (hs : Sim d s) {d' : DS} (hpc : d'.pc = d.pc) {a : Ans} (hr : s1.r = .answer a) (hd : SimD d' s1.toSh) (hl : s1.lock = s.lock)
    (hp : s1.p = s.p) (hst : s1.state = s.state) : ∃ s', Runs s1 [] s' [.answer a] ∧ Sim d' s' := by
  refine ⟨{ s1 with r := .idle }, Runs.go (o := [.answer a]) (by simp [rstep, hr]) (Runs.nil _), hd, hl.trans hs.lock, rfl, ?_⟩
  rw [hpc]
  exact hs.pc.same hp hst

/-- The breakpoints are replaced. -/
theorem bp_runs {d d' : DS} {s : S} (hs : Sim d s) (hpc : d'.pc = d.pc) (hd : ∀ o, SimD d' { s.toSh with bpObj := o, bpLen := d'.dbg.bps.length }) :
    ∃ s', Runs s [.req (.setBreakpoints d'.dbg.bps.length 0)] s' [.answer (.ok [])] ∧ Sim d' s' := by
  have s0 : step false s (.req (.setBreakpoints d'.dbg.bps.length 0)) = some ({ s with r := .bpClear d'.dbg.bps.length 0 }, []) := by simp [step, hs.r, startReq]
  have b1 : rstep false { s with r := .bpClear d'.dbg.bps.length 0 } = some ({ s with bpObj := s.bpObj + 1, bpLen := d'.dbg.bps.length, r := .bpAdd 0 }, []) := by
    simp [rstep]
  have b2 : rstep false { s with bpObj := s.bpObj + 1, bpLen := d'.dbg.bps.length, r := .bpAdd 0 } =
      some ({ s with bpObj := s.bpObj + 1, bpLen := d'.dbg.bps.length, r := .answer (.ok []) }, []) := by simp [rstep]
  obtain ⟨s', g1, g2⟩ := answer_runs (s1 := { s with bpObj := s.bpObj + 1, bpLen := d'.dbg.bps.length, r := .answer (.ok []) }) hs hpc rfl (hd _) rfl rfl rfl
  exact ⟨s', Runs.input (l := .req (.setBreakpoints d'.dbg.bps.length 0)) rfl s0 (Runs.go b1 (Runs.go b2 g1)), g2⟩

/-- The filters are replaced. -/
theorem exc_runs {d d' : DS} {s : S} (hs : Sim d s) (hpc : d'.pc = d.pc) (on : Bool) (hd : SimD d' { s.toSh with exc := on }) :
    ∃ s', Runs s [.req (.setExceptions on)] s' [.answer (.ok [])] ∧ Sim d' s' := by
  have s0 : step false s (.req (.setExceptions on)) = some ({ s with r := .setExc on }, []) := by simp [step, hs.r, startReq]
  have b1 : rstep false { s with r := .setExc on } = some ({ s with exc := on, r := .answer (.ok []) }, []) := by simp [rstep]
  obtain ⟨s', g1, g2⟩ := answer_runs (s1 := { s with exc := on, r := .answer (.ok []) }) hs hpc rfl hd rfl rfl rfl
  exact ⟨s', Runs.input (l := .req (.setExceptions on)) rfl s0 (Runs.go b1 g1), g2⟩

/-- The frames of a thread are listed. -/
theorem stack_runs {d : DS} {s : S} (i : Strat.Inv d) (hs : Sim d s) {t : Nat} {th : Thread} (ht : d.threads.get? t = some th) :
    ∃ s', Runs s [.req (.stackTrace t)] s' [.answer (.ok th.frames)] ∧ Sim d s' := by
  have hm : t ∈ s.threads := by rw [hs.dat.thr]; exact DL.get_some_key.1 ⟨th, ht⟩
  have hst := (hs.dat.th _ _ ht).2.1
  have live : ∀ f ∈ s.stack t, f ∈ s.live := by
    intro f hf
    rw [hst] at hf
    rw [hs.dat.live]
    exact DL.get_some_key.1 (i.core.tf ht hf)
  have loop : ∀ (fs : List Nat) (k : Nat) (got : List Nat), (s.stack t).drop k = fs →
      Runs { s with r := .frames t k got } [] { s with r := .answer (.ok (got ++ fs)) } [] := by
    intro fs
    induction fs with
    | nil =>
      intro k got hd
      have : (s.stack t)[k]? = none := by
        rw [List.getElem?_eq_none_iff]
        exact List.drop_eq_nil_iff.1 hd
      exact Runs.go (o := []) (by simp [rstep, this]) (Runs.nil _)
    | cons f fs ih =>
      intro k got hd
      have hi : (s.stack t)[k]? = some f := by
        have := congrArg (·[0]?) hd
        simpa using this
      have hd' : (s.stack t).drop (k + 1) = fs := by
        have := congrArg List.tail hd
        simpa [List.tail_drop] using this
      have hl := live f (List.mem_of_getElem? hi)
      have b1 : rstep false { s with r := .frames t k got } = some ({ s with r := .frameOf t k f got }, []) := by simp [rstep, hi]
      have b2 : rstep false { s with r := .frameOf t k f got } = some ({ s with r := .frames t (k + 1) (got ++ [f]) }, []) := by simp [rstep, hl]
      have := Runs.go b1 (Runs.go b2 (ih (k + 1) (got ++ [f]) hd'))
      simpa using this
  have s0 : step false s (.req (.stackTrace t)) = some ({ s with r := .thread t }, []) := by simp [step, hs.r, startReq]
  have b1 : rstep false { s with r := .thread t } = some ({ s with r := .frames t 0 [] }, []) := by simp [rstep, hm]
  have lp := loop (s.stack t) 0 [] rfl
  rw [hst] at lp
  obtain ⟨s', g1, g2⟩ := answer_runs (s1 := { s with r := .answer (.ok ([] ++ th.frames)) }) hs rfl rfl hs.dat rfl rfl rfl
  exact ⟨s', Runs.input (l := .req (.stackTrace t)) rfl s0 (Runs.go b1 (lp.trans g1)), g2⟩

/-- The threads are listed. -/
theorem threads_runs {d : DS} {s : S} (hs : Sim d s) :
    ∃ s', Runs s [.req .threads] s' [.answer (.ok (d.threads.map (·.1)))] ∧ Sim d s' := by
  have loop : ∀ (ts : List Nat) (k : Nat) (got : List Nat), s.threads.drop k = ts →
      Runs { s with r := .threads ⟨0, s.threads.length, k⟩ got } [] { s with r := .answer (.ok (got ++ ts)) } [] := by
    intro ts
    induction ts with
    | nil =>
      intro k got hd
      have : s.threads[k]? = none := by
        rw [List.getElem?_eq_none_iff]
        exact List.drop_eq_nil_iff.1 hd
      exact Runs.go (o := []) (by simp [rstep, this]) (Runs.nil _)
    | cons t ts ih =>
      intro k got hd
      have hi : s.threads[k]? = some t := by
        have := congrArg (·[0]?) hd
        simpa using this
      have hd' : s.threads.drop (k + 1) = ts := by
        have := congrArg List.tail hd
        simpa [List.tail_drop] using this
      have b1 : rstep false { s with r := .threads ⟨0, s.threads.length, k⟩ got } = some ({ s with r := .threads ⟨0, s.threads.length, k + 1⟩ (got ++ [t]) }, []) := by
        simp [rstep, hi]
      have := Runs.go b1 (ih (k + 1) (got ++ [t]) hd')
      simpa using this
  have s0 : step false s (.req .threads) = some ({ s with r := .threads ⟨0, s.threads.length, 0⟩ [] }, []) := by simp [step, hs.r, startReq]
  have lp := loop s.threads 0 [] rfl
  obtain ⟨s', g1, g2⟩ := answer_runs (s1 := { s with r := .answer (.ok ([] ++ s.threads)) }) hs rfl rfl hs.dat rfl rfl rfl
  have := Runs.input (l := .req .threads) rfl s0 (lp.trans g1)
  rw [hs.dat.thr] at this
  exact ⟨s', this, g2⟩

/-- One variable is added. -/
theorem add_one {s : S} {f n : Nat} {got : List Nat} {sc : Bool} (hr : s.r = .addRead f n got sc) :
    Runs s [] { s with nextV := s.nextV + 1, vars := upd s.vars s.nextV (some f), fvars := upd s.fvars f (s.fvars f ++ [s.nextV]), r := addNext f n (got ++ [s.nextV]) sc } [] := by
  have b1 : rstep false s = some ({ s with nextV := s.nextV + 1, r := .addEntry f s.nextV n got sc }, []) := by simp [rstep, hr]
  have b2 : rstep false { s with nextV := s.nextV + 1, r := .addEntry f s.nextV n got sc } =
      some ({ s with nextV := s.nextV + 1, vars := upd s.vars s.nextV (some f), r := .addList f s.nextV n got sc }, []) := by simp [rstep]
  have b3 : rstep false { s with nextV := s.nextV + 1, vars := upd s.vars s.nextV (some f), r := .addList f s.nextV n got sc } =
      some ({ s with nextV := s.nextV + 1, vars := upd s.vars s.nextV (some f), fvars := upd s.fvars f (s.fvars f ++ [s.nextV]), r := addNext f n (got ++ [s.nextV]) sc }, []) := by
    simp [rstep]
  exact Runs.go b1 (Runs.go b2 (Runs.go b3 (Runs.nil _)))

/-- The number of containers in a listing. -/
def containers : List (Str × Strat.Val) → Nat
  | [] => 0
  | (_, .atom _) :: es => containers es
  | (_, .ref _) :: es => containers es + 1

/-- Variables are listed. -/
theorem list_runs {f : Nat} : ∀ (es : List (Str × Strat.Val)) (d : DS) (s : S) (got : List Nat), SimD d s.toSh → (∃ fr, d.frames.get? f = some fr) → f < d.nextF → 1 ≤ d.nextV →
    s.r = addNext f (containers es) got false →
    ∃ s', Runs s [] s' [] ∧ s'.r = .answer (.ok (got ++ (((Strat.listVars f es d).2.map (·.2.2)).filter (· ≠ 0)))) ∧ SimD (Strat.listVars f es d).1 s'.toSh ∧
      s'.p = s.p ∧ s'.lock = s.lock ∧ s'.state = s.state := by
  intro es
  induction es with
  | nil =>
    intro d s got hs _ _ _ hr
    exact ⟨s, Runs.nil _, by simpa [Strat.listVars, containers, addNext, added] using hr, hs, rfl, rfl, rfl⟩
  | cons e es ih =>
    intro d s got hs hf hlt hv hr
    obtain ⟨n, v⟩ := e
    cases v with
    | atom r =>
      obtain ⟨s', h1, h2, h3, h4⟩ := ih d s got hs hf hlt hv hr
      exact ⟨s', h1, by simpa [Strat.listVars] using h2, h3, h4⟩
    | ref a =>
      obtain ⟨fr, hfr⟩ := hf
      have hr' : s.r = .addRead f (containers es) got false := hr
      have one := add_one hr'
      have sd := hs.addVar hfr hlt (Strat.kindOf d.heap a) a
      obtain ⟨s', h1, h2, h3, h4, h5, h6⟩ := ih (Strat.addVar d f (Strat.kindOf d.heap a) a).1
        { s with nextV := s.nextV + 1, vars := upd s.vars s.nextV (some f), fvars := upd s.fvars f (s.fvars f ++ [s.nextV]), r := addNext f (containers es) (got ++ [s.nextV]) false }
        (got ++ [s.nextV]) sd ⟨{ fr with variables := fr.variables ++ [d.nextV] }, by simp [Strat.addVar, hfr, DL.get_set]⟩ hlt (by simp [Strat.addVar]) rfl
      refine ⟨s', one.trans h1, ?_, h3, h4, h5, h6⟩
      rw [h2]
      have e : (Strat.addVar d f (Strat.kindOf d.heap a) a).2 = d.nextV := rfl
      have hne : d.nextV ≠ 0 := by omega
      simp [Strat.listVars, e, hne, hs.nV]

/-- Remembered ids of a frame are not compared. -/
theorem SimD.updFrame {d : DS} {s : Sh} (h : SimD d s) (f : Nat) (g : Frame → Frame) (hg : ∀ x, (g x).variables = x.variables ∧ (g x).resultId = x.resultId) :
    SimD (Strat.updFrame d f g) s := by
  unfold Strat.updFrame
  split
  · exact h
  · rename_i fr hf
    refine ⟨h.thr, h.th, ?_, ?_, h.vars, h.nT, h.nF, h.nV, h.newT, h.newF, h.bp, h.exc⟩
    · show s.live = _
      simp only
      rw [DL.keys_set, if_pos (DL.get_some_key.1 ⟨_, hf⟩)]; exact h.live
    · intro k x hx
      simp only at hx
      rw [DL.get_set] at hx
      by_cases e : f = k
      · subst e
        simp only [if_true, Option.some.injEq] at hx
        subst hx
        rw [(hg fr).1, (hg fr).2]
        exact h.fr _ _ hf
      · simp only [e, if_false] at hx
        exact h.fr _ _ hx

/-- One of the variables of a scopes request. -/
theorem stage_runs {d : DS} {s : S} {f n : Nat} {got : List Nat} {ρ : Nat} (hs : SimD d s.toSh) (hlt : f < d.nextF) (hf : ∃ fr, d.frames.get? f = some fr ∧ fr.resultId = ρ)
    (hr : s.r = .addRead f n got true) (k : Strat.Kind) (a : Nat) (g : Frame → Frame) (hg : ∀ x, (g x).variables = x.variables ∧ (g x).resultId = x.resultId) :
    ∃ s', Runs s [] s' [] ∧ s'.r = addNext f n (got ++ [d.nextV]) true ∧ SimD (Strat.updFrame (Strat.addVar d f k a).1 f g) s'.toSh ∧
      (Strat.updFrame (Strat.addVar d f k a).1 f g).nextF = d.nextF ∧
      (∃ fr, (Strat.updFrame (Strat.addVar d f k a).1 f g).frames.get? f = some fr ∧ fr.resultId = ρ) ∧
      s'.p = s.p ∧ s'.lock = s.lock ∧ s'.state = s.state ∧ (∀ v, s.vars v ≠ none → s'.vars v ≠ none) := by
  obtain ⟨fr, hfr, hρ⟩ := hf
  have e : (Strat.addVar d f k a).1.frames.get? f = some { fr with variables := fr.variables ++ [d.nextV] } := by simp [Strat.addVar, hfr, DL.get_set]
  refine ⟨_, add_one hr, ?_, (hs.addVar hfr hlt k a).updFrame f g hg, ?_, ?_, rfl, rfl, rfl, ?_⟩
  · simp [hs.nV]
  · simp only [Strat.updFrame, e]; rfl
  · refine ⟨g { fr with variables := fr.variables ++ [d.nextV] }, ?_, ?_⟩
    · simp only [Strat.updFrame, e, DL.get_set, if_true]
    · rw [(hg _).2]; exact hρ
  · intro v hv
    simp only [upd]
    split
    · simp
    · exact hv

end Verif.Race.Sim
