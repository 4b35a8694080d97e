import Verif.Debuggee.Inv
import Verif.Debuggee.Spec

/-! Infinite executions, fairness, and why `shutdown` returns. -/

namespace Verif.Debuggee
open Verif

/-- An infinite execution; `none`: nothing happens at that moment. -/
structure Exec (c : Cfg) where
  st : Nat → St
  act : Nat → Option Act
  ok : ∀ i, match act i with
    | none => st (i + 1) = st i
    | some a => ∃ o, step c (st i) a = some (st (i + 1), o)

/-- The thread can go on by itself, without help of the peer or of another thread. Assumption: the
peer reads what is sent, or the connection breaks. -/
def Ready (c : Cfg) (s : St) : Thread → Prop
  | .playbook => ∃ a, a.thread = .playbook ∧ (step c s a).isSome = true
  | .send => match s.s with
    | .conn entered | .greet entered => s.cancelled = true ∨ entered = false
    | .get => s.queue ≠ []
    | .joinR => s.r = .off ∨ s.r = .ended
    | .off | .tls | .ended => False
    | _ => True
  | .recv => match s.r with
    | .idle => s.cancelled = true
    | .need _ => s.strategy = true
    | .off | .ended => False
    | _ => True

/-- A ready thread can make a step. -/
theorem ready_step {c : Cfg} {s : St} {t : Thread} (hn : ∀ r, s.r = .call r ∨ s.r = .need r → needsStrategy r.kind = true) (h : Ready c s t) :
    ∃ a, a.thread = t ∧ (step c s a).isSome = true := by
  cases t with
  | playbook => exact h
  | send =>
    simp only [Ready] at h
    split at h
    · rename_i e hs
      exact ⟨.sFail, rfl, by simp [step, Act.thread, stepS, hs]⟩
    · rename_i e hs
      exact ⟨.sFail, rfl, by simp [step, Act.thread, stepS, hs]⟩
    · rename_i hs
      refine ⟨.sGet, rfl, ?_⟩
      simp only [step, Act.thread, stepS, hs, if_true]
      cases hq : s.queue with
      | nil => exact absurd hq h
      | cons x q => cases x <;> rfl
    · rename_i hs
      exact ⟨.sJoin, rfl, by simp [step, Act.thread, stepS, hs, h]⟩
    · exact h.elim
    · exact h.elim
    · exact h.elim
    · cases hs : s.s with
      | flag => exact ⟨.sFlag, rfl, by simp [step, Act.thread, stepS, hs]⟩
      | send m e => exact ⟨.sFail, rfl, by simp [step, Act.thread, stepS, hs]⟩
      | cancel => exact ⟨.sCancel, rfl, by simp [step, Act.thread, stepS, hs]⟩
      | close => exact ⟨.sClose, rfl, by simp [step, Act.thread, stepS, hs]⟩
      | unflag => exact ⟨.sUnflag, rfl, by simp [step, Act.thread, stepS, hs]⟩
      | _ => simp_all
  | recv =>
    simp only [Ready] at h
    split at h
    · rename_i hr
      exact ⟨.rCancelled, rfl, by simp [step, Act.thread, stepR, hr, h]⟩
    · rename_i r hr
      exact ⟨.rGet, rfl, by simp [step, Act.thread, stepR, hr, h]⟩
    · exact h.elim
    · exact h.elim
    · cases hr : s.r with
      | got r =>
        cases hk : needsStrategy r.kind with
        | true => exact ⟨.rAsk, rfl, by simp [step, Act.thread, stepR, hr, hk]⟩
        | false =>
          refine ⟨.rDirect true, rfl, ?_⟩
          obtain ⟨k, n⟩ := r
          cases k <;> simp_all [step, Act.thread, stepR, needsStrategy]
      | call r =>
        refine ⟨.rCall true, rfl, ?_⟩
        simp only [step, Act.thread, stepR, hr]
        split <;> rfl
      | setConf => exact ⟨.rSetConf, rfl, by simp [step, Act.thread, stepR, hr]⟩
      | putNone => exact ⟨.rPutNone, rfl, by simp [step, Act.thread, stepR, hr]⟩
      | clear => exact ⟨.rClear, rfl, by simp [step, Act.thread, stepR, hr]⟩
      | conf => exact ⟨.rConf, rfl, by simp [step, Act.thread, stepR, hr]⟩
      | strat => exact ⟨.rStrat, rfl, by simp [step, Act.thread, stepR, hr]⟩
      | unlink => exact ⟨.rUnlink, rfl, by simp [step, Act.thread, stepR, hr]⟩
      | _ => simp_all

/-- Every thread that could always go on goes on. -/
def Fair {c : Cfg} (e : Exec c) : Prop :=
  ∀ t i, (∀ j, i ≤ j → Ready c (e.st j) t) → ∃ j, i ≤ j ∧ ∃ a, e.act j = some a ∧ a.thread = t

/-- No TLS handshake lasts for ever. -/
def HandshakesEnd {c : Cfg} (e : Exec c) : Prop := ∀ i, (e.st i).s = .tls → ∃ j, i ≤ j ∧ (e.st j).s ≠ .tls

/-- The playbook thread is in `shutdown()`. -/
def inShutdown : P → Bool
  | .check | .cancel | .put | .join | .clear | .conf | .strat | .unlink => true
  | _ => false

/-- Deadlock: the playbook thread waits for the send thread, that for the receive thread, and that for
a strategy. -/
def Deadlock (s : St) : Prop := s.p = .join ∧ s.s = .joinR ∧ ∃ r, s.r = .need r

def wP : P → Nat
  | .check => 8 | .cancel => 7 | .put => 6 | .join => 5 | .clear => 4 | .conf => 3 | .strat => 2 | .unlink => 1 | .done | .failed => 0
  | _ => 9

def wR : R → Nat
  | .off | .ended => 0 | .got _ => 10 | .need _ => 9 | .call _ => 8 | .setConf | .putNone => 7 | .idle => 6 | .clear => 5 | .conf => 4
  | .strat => 3 | .unlink => 2

def wS (s : St) : Nat := match s.s with
  | .conn true => 3 * (beforeEnd s.queue).length + 31
  | .tls => 3 * (beforeEnd s.queue).length + 30
  | .conn false => 3 * (beforeEnd s.queue).length + 29
  | .greet false => 3 * (beforeEnd s.queue).length + 28
  | .greet true => 3 * (beforeEnd s.queue).length + 27
  | .flag => 3 * (beforeEnd s.queue).length + 26
  | .get => 3 * (beforeEnd s.queue).length + 25
  | .send _ false => 3 * (beforeEnd s.queue).length + 27
  | .send _ true => 3 * (beforeEnd s.queue).length + 26
  | .cancel => 20
  | .joinR => 3 + wR s.r
  | .close => 2
  | .unflag => 1
  | .off | .ended => 0

/-- The thread that has to go on. -/
def mover (s : St) : Thread :=
  match s.p, s.s, s.r with
  | .join, .ended, _ => .playbook
  | .join, .joinR, .off => .send
  | .join, .joinR, .ended => .send
  | .join, .joinR, _ => .recv
  | .join, _, _ => .send
  | _, _, _ => .playbook

def w (s : St) : Nat × Nat := (wP s.p, if s.p = .join then wS s else 0)

def Lt (a b : Nat × Nat) : Prop := a.1 < b.1 ∨ (a.1 = b.1 ∧ a.2 < b.2)

theorem Lt.wf : WellFounded Lt := by
  have : WellFounded (Prod.Lex (α := Nat) (β := Nat) (· < ·) (· < ·)) := (Prod.lex Nat.lt_wfRel Nat.lt_wfRel).wf
  refine Subrelation.wf ?_ this
  intro a b h
  exact (Prod.lex_def).2 h

theorem beforeEnd_snoc {q : List (Option Out)} (x : Option Out) (h : none ∈ q) : beforeEnd (q ++ [x]) = beforeEnd q := by
  induction q with
  | nil => cases h
  | cons y q ih =>
    cases y with
    | none => rfl
    | some m => simp [beforeEnd, ih (by simpa using h)]

theorem other_p {c : Cfg} {s s' : St} {a : Act} {o : List Obs} (ht : a.thread ≠ .playbook) (h : step c s a = some (s', o)) : s'.p = s.p := by
  step_cases a h
  all_goals first | rfl | (exact absurd rfl ht)

theorem wR_le (r : R) : wR r ≤ 10 := by cases r <;> simp [wR]

theorem recv_step {c : Cfg} {s s' : St} {a : Act} {o : List Obs} (ht : a.thread = .recv) (h : step c s a = some (s', o)) :
    s'.p = s.p ∧ s'.s = s.s ∧ (s'.queue = s.queue ∨ ∃ x, s'.queue = s.queue ++ [x]) ∧ s.r ≠ .off ∧ s.r ≠ .ended ∧
    (s.cancelled = true → wR s'.r < wR s.r) := by
  step_cases a h
  all_goals first
    | (simp [Act.thread] at ht; done)
    | (simp_all [wR]; done)

theorem recv_join {c : Cfg} {s s' : St} {a : Act} {o : List Obs} (i : Inv c s) (hj : s.p = .join) (ht : a.thread = .recv)
    (h : step c s a = some (s', o)) : Lt (w s') (w s) ∨ (w s' = w s ∧ mover s' = mover s ∧ a.thread ≠ mover s) := by
  obtain ⟨h1, h2, h3, h4, h5, h6⟩ := recv_step ht h
  have hj' : s'.p = .join := by rw [h1, hj]
  have hb : looping s.s = true → beforeEnd s'.queue = beforeEnd s.queue := by
    intro hl
    rcases h3 with h3 | ⟨x, h3⟩ <;> rw [h3]
    exact beforeEnd_snoc x (i.join_none hj hl)
  cases hs : s.s with
  | joinR =>
    left
    have := h6 (i.late_cancel (.inl hs))
    simp [Lt, w, hj, hj', wS, h2, hs, this]
  | conn b => right; rw [hs] at h2; cases b <;> simp [w, wS, hj, hj', hs, h2, hb, looping, mover, ht]
  | greet b => right; rw [hs] at h2; cases b <;> simp [w, wS, hj, hj', hs, h2, hb, looping, mover, ht]
  | send m b => right; rw [hs] at h2; cases b <;> simp [w, wS, hj, hj', hs, h2, hb, looping, mover, ht]
  | _ => right; rw [hs] at h2; simp [w, wS, hj, hj', hs, h2, hb, looping, mover, ht]

theorem mover_not_join {s : St} (hj : s.p ≠ .join) : mover s = .playbook := by unfold mover; split <;> simp_all

theorem w_not_join {s s' : St} (hj : s.p ≠ .join) (h : s'.p = s.p) : w s' = w s := by simp [w, h, hj]

set_option maxHeartbeats 1000000 in
/-- Every step in `shutdown` brings its end nearer or leaves the weight and the thread that has to go
on as they are; a step of that thread brings the end nearer. -/
theorem shutdown_step {c : Cfg} {s s' : St} {a : Act} {o : List Obs} (i : Inv c s) (hp : inShutdown s.p = true)
    (h : step c s a = some (s', o)) :
    (inShutdown s'.p = true ∨ s'.p = .done ∨ s'.p = .failed) ∧
    (Lt (w s') (w s) ∨ (w s' = w s ∧ mover s' = mover s ∧ a.thread ≠ mover s)) := by
  by_cases ht : a.thread = .playbook
  · step_cases a h
    all_goals first
      | (simp [Act.thread] at ht; done)
      | (simp_all [inShutdown, w, wP, Lt]; done)
      | grind [inShutdown, w, wP, Lt]
  · have hp' := other_p ht h
    refine ⟨.inl (by rw [hp']; exact hp), ?_⟩
    by_cases hj : s.p = .join
    · by_cases hr : a.thread = .recv
      · exact recv_join i hj hr h
      · left
        obtain ⟨-, -, -, i4, i5, i6, i7, i8, i9⟩ := i
        have hb := wR_le s.r
        have hpre := fun h => i5 (.inr hj) h
        step_cases a h
        all_goals first
          | (simp [Act.thread] at ht; done)
          | (simp [Act.thread] at hr; done)
          | (simp_all [w, wS, Lt, looping, preLoop, beforeEnd]; done)
          | grind [w, wS, Lt, looping, preLoop, beforeEnd]
    · exact .inr ⟨w_not_join hj hp', by rw [mover_not_join hj, mover_not_join (by rw [hp']; exact hj)], by rw [mover_not_join hj]; exact ht⟩

theorem mover_ready {c : Cfg} {s : St} (i : Inv c s) (hp : inShutdown s.p = true) (hd : ¬ Deadlock s) (ht : s.s ≠ .tls) : Ready c s (mover s) := by
  by_cases hj : s.p = .join
  · cases hs : s.s with
    | off => exact absurd hs (i.wait_on (by simp [hj]))
    | tls => exact absurd hs ht
    | ended => simp only [mover, hj, hs, Ready]; exact ⟨.pJoin, rfl, by simp [step, Act.thread, stepP, hj, hs]⟩
    | conn b => simp only [mover, hj, hs, Ready]; exact .inl (i.pre_cancel (.inr hj) (by simp [hs, preLoop]))
    | greet b => simp only [mover, hj, hs, Ready]; exact .inl (i.pre_cancel (.inr hj) (by simp [hs, preLoop]))
    | get =>
      simp only [mover, hj, hs, Ready]
      intro hq
      have := i.join_none hj (by simp [hs, looping])
      simp [hq] at this
    | joinR =>
      cases hr : s.r with
      | need r => exact absurd ⟨hj, hs, r, hr⟩ hd
      | idle => simp only [mover, hj, hs, hr, Ready]; exact i.late_cancel (.inl hs)
      | _ => simp [mover, hj, hs, hr, Ready]
    | _ => simp [mover, hj, hs, Ready]
  · rw [mover_not_join hj]
    simp only [Ready]
    cases hq : s.p <;> simp only [hq, inShutdown, Bool.false_eq_true] at hp hj
    · exact ⟨.pCheck, rfl, by simp [step, Act.thread, stepP, hq]⟩
    · exact ⟨.pCancel, rfl, by simp [step, Act.thread, stepP, hq]⟩
    · exact ⟨.pPut, rfl, by simp [step, Act.thread, stepP, hq]⟩
    · exact absurd trivial hj
    · exact ⟨.pClear, rfl, by simp [step, Act.thread, stepP, hq]⟩
    · exact ⟨.pConf, rfl, by simp [step, Act.thread, stepP, hq]⟩
    · exact ⟨.pStrat, rfl, by simp [step, Act.thread, stepP, hq]⟩
    · exact ⟨.pUnlink, rfl, by simp [step, Act.thread, stepP, hq]⟩

theorem exec_inv {c : Cfg} (e : Exec c) (h0 : Inv c (e.st 0)) (n : Nat) : Inv c (e.st n) := by
  induction n with
  | zero => exact h0
  | succ n ih =>
    have h := e.ok n
    split at h
    · rw [h]; exact ih
    · obtain ⟨o, h⟩ := h; exact inv_step ih h

/-- In a deadlock nothing can happen any more. -/
theorem deadlock_stuck {c : Cfg} {s : St} (i : Inv c s) (hd : Deadlock s) (a : Act) : step c s a = none := by
  obtain ⟨hp, hs, r, hr⟩ := hd
  have hst : s.strategy = false := by
    cases h : s.strategy with
    | false => rfl
    | true => have := i.strat.1 h; simp [hp] at this
  cases a <;> simp [step, Act.thread, stepP, stepS, stepR, hp, hs, hr, hst]

theorem deadlock_for_ever {c : Cfg} (e : Exec c) (h0 : Inv c (e.st 0)) (n : Nat) (hd : Deadlock (e.st n)) :
    ∀ m, n ≤ m → e.st m = e.st n := by
  intro m hm
  induction hm with
  | refl => rfl
  | step _ ih =>
    rename_i m _
    have h := e.ok m
    split at h
    · rw [h, ih]
    · obtain ⟨o, h⟩ := h
      rw [ih, deadlock_stuck (exec_inv e h0 n) hd] at h
      cases h

/-- One step of an execution in `shutdown`. -/
theorem exec_shutdown {c : Cfg} (e : Exec c) (h0 : Inv c (e.st 0)) (n : Nat) (hp : inShutdown (e.st n).p = true) :
    (inShutdown (e.st (n + 1)).p = true ∨ (e.st (n + 1)).p = .done ∨ (e.st (n + 1)).p = .failed) ∧
    (Lt (w (e.st (n + 1))) (w (e.st n)) ∨ (w (e.st (n + 1)) = w (e.st n) ∧ mover (e.st (n + 1)) = mover (e.st n) ∧
      ∀ a, e.act n = some a → a.thread ≠ mover (e.st n))) := by
  have h := e.ok n
  split at h
  · rename_i ha
    rw [h]
    exact ⟨.inl hp, .inr ⟨rfl, rfl, by simp [ha]⟩⟩
  · rename_i a ha
    obtain ⟨o, h⟩ := h
    obtain ⟨h1, h2⟩ := shutdown_step (exec_inv e h0 n) hp h
    refine ⟨h1, ?_⟩
    rcases h2 with h2 | ⟨x, y, z⟩
    · exact .inl h2
    · refine .inr ⟨x, y, ?_⟩
      intro a' ha'
      rw [ha] at ha'
      cases ha'
      exact z

/-- In a fair execution `shutdown` returns, or there is a deadlock. -/
theorem shutdown_ends {c : Cfg} (e : Exec c) (h0 : Inv c (e.st 0)) (hf : Fair e) (hh : HandshakesEnd e) :
    ∀ (x : Nat × Nat) (n : Nat), w (e.st n) = x → inShutdown (e.st n).p = true →
      (∃ m, n ≤ m ∧ ((e.st m).p = .done ∨ (e.st m).p = .failed)) ∨ ∃ m, n ≤ m ∧ Deadlock (e.st m) := by
  intro x
  induction x using Lt.wf.induction with
  | _ x ih =>
    intro n hx hp
    apply Classical.byContradiction
    intro hc
    have hc1 : ∀ m, n ≤ m → ¬ ((e.st m).p = .done ∨ (e.st m).p = .failed) := fun m hm h => hc (.inl ⟨m, hm, h⟩)
    have hc2 : ∀ m, n ≤ m → ¬ Deadlock (e.st m) := fun m hm h => hc (.inr ⟨m, hm, h⟩)
    have key : ∀ m, n ≤ m → inShutdown (e.st m).p = true ∧ w (e.st m) = x ∧ mover (e.st m) = mover (e.st n) := by
      intro m hm
      induction hm with
      | refl => exact ⟨hp, hx, rfl⟩
      | step hm ihm =>
        rename_i m
        have hm : n ≤ m := hm
        obtain ⟨k1, k2, k3⟩ := ihm
        obtain ⟨s1, s2⟩ := exec_shutdown e h0 m k1
        have s3 : inShutdown (e.st (m + 1)).p = true := by
          rcases s1 with s1 | s1
          · exact s1
          · exact absurd s1 (hc1 _ (Nat.le_succ_of_le hm))
        refine ⟨s3, ?_⟩
        rcases s2 with s2 | ⟨s2, s4, -⟩
        · exfalso
          rw [k2] at s2
          rcases ih _ s2 (m + 1) rfl s3 with ⟨q, hq, h⟩ | ⟨q, hq, h⟩
          · exact hc1 q (by omega) h
          · exact hc2 q (by omega) h
        · exact ⟨by rw [s2, k2], by rw [s4, k3]⟩
    -- no step of the thread that has to go on
    have none_moves : ∀ m, n ≤ m → ∀ a, e.act m = some a → a.thread ≠ mover (e.st n) := by
      intro m hm a ha
      obtain ⟨k1, k2, k3⟩ := key m hm
      rcases (exec_shutdown e h0 m k1).2 with s2 | ⟨-, -, s2⟩
      · exfalso
        have := (key (m + 1) (by omega)).2.1
        rw [this, k2] at s2
        simp [Lt] at s2
      · rw [← k3]; exact s2 a ha
    by_cases hall : ∃ m, n ≤ m ∧ (e.st m).s = .tls
    · obtain ⟨m, hm, ht⟩ := hall
      obtain ⟨j, hj, hne⟩ := hh m ht
      -- the send thread leaves the handshake, by a step of its own
      have : ∃ k, m ≤ k ∧ (e.st k).s = .tls ∧ (e.st (k + 1)).s ≠ .tls := by
        apply Classical.byContradiction
        intro hno
        have : ∀ k, m ≤ k → (e.st k).s = .tls := by
          intro k hk
          induction hk with
          | refl => exact ht
          | step hk ihk => rename_i k; exact Classical.byContradiction fun h => hno ⟨k, hk, ihk, h⟩
        exact hne (this j hj)
      obtain ⟨k, hk, t1, t2⟩ := this
      obtain ⟨k1, k2, k3⟩ := key k (by omega)
      have hok := e.ok k
      split at hok
      · rw [hok] at t2; exact t2 t1
      · rename_i a ha
        obtain ⟨o, hok⟩ := hok
        have hthr : a.thread = .send := by
          cases hq : a.thread with
          | send => rfl
          | recv => exact absurd ((recv_step hq hok).2.1.trans t1) t2
          | playbook =>
            exfalso
            apply t2
            have : ∀ {s s' : St} {a : Act} {o : List Obs}, Inv c s → s.s = .tls → a.thread = .playbook → step c s a = some (s', o) → s'.s = .tls := by
              intro s s' a o i t hq h
              have := i.pre_off
              step_cases a h
              all_goals first
                | (simp [Act.thread] at hq; done)
                | simp_all
            exact this (exec_inv e h0 k) t1 hq hok
        have hmv : mover (e.st k) = .send ∨ mover (e.st k) = .playbook := by
          by_cases hj : (e.st k).p = .join
          · left; simp [mover, hj, t1]
          · right; exact mover_not_join hj
        rcases hmv with hmv | hmv
        · exact none_moves k (by omega) a ha (by rw [hthr, ← k3, hmv])
        · -- then the playbook thread is ready for ever
          have hr : ∀ j, n ≤ j → Ready c (e.st j) .playbook := by
            intro j hj
            obtain ⟨l1, l2, l3⟩ := key j hj
            have hmj : mover (e.st j) = .playbook := by rw [l3, ← k3, hmv]
            by_cases htj : (e.st j).s = .tls
            · have hnj : (e.st j).p ≠ .join := by
                intro hpj
                simp [mover, hpj, htj] at hmj
              have hd : ¬ Deadlock (e.st j) := hc2 j hj
              have := mover_not_join hnj
              cases hq : (e.st j).p <;> simp only [hq, inShutdown, Bool.false_eq_true] at l1 hnj
              · exact ⟨.pCheck, rfl, by simp [step, Act.thread, stepP, hq]⟩
              · exact ⟨.pCancel, rfl, by simp [step, Act.thread, stepP, hq]⟩
              · exact ⟨.pPut, rfl, by simp [step, Act.thread, stepP, hq]⟩
              · exact absurd rfl hnj
              · exact ⟨.pClear, rfl, by simp [step, Act.thread, stepP, hq]⟩
              · exact ⟨.pConf, rfl, by simp [step, Act.thread, stepP, hq]⟩
              · exact ⟨.pStrat, rfl, by simp [step, Act.thread, stepP, hq]⟩
              · exact ⟨.pUnlink, rfl, by simp [step, Act.thread, stepP, hq]⟩
            · rw [← hmj]; exact mover_ready (exec_inv e h0 j) l1 (hc2 j hj) htj
          obtain ⟨j, hj, a', ha', ht'⟩ := hf _ n hr
          exact none_moves j hj a' ha' (by rw [ht', ← k3, hmv])
    · have hr : ∀ j, n ≤ j → Ready c (e.st j) (mover (e.st n)) := by
        intro j hj
        obtain ⟨l1, l2, l3⟩ := key j hj
        rw [← l3]
        exact mover_ready (exec_inv e h0 j) l1 (hc2 j hj) (fun h => hall ⟨j, hj, h⟩)
      obtain ⟨j, hj, a', ha', ht'⟩ := hf _ n hr
      exact none_moves j hj a' ha' ht'

end Verif.Debuggee
