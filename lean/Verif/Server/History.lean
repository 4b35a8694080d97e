import Verif.Server.Once

/-! # The histories in the state, read off the run -/

namespace Verif.Server

/-- The messages of the client in a run, in order. -/
def clientMsgs (ls : List Lbl) : List CMsg := ls.filterMap fun l => match l with | .client m => some m | _ => none

/-- The requests among messages that are numbered from `n` on. -/
def numbered : Nat → List CMsg → List (Nat × ReqKind × Nat)
  | _, [] => []
  | n, .req k b :: ms => (n, k, b) :: numbered (n + 1) ms
  | n, _ :: ms => numbered (n + 1) ms

/-- The messages of the debuggee in a run, in order. -/
def debMsgs (ls : List Lbl) : List DMsg := ls.filterMap fun l => match l with | .deb m => some m | _ => none

theorem numbered_append (n : Nat) (a b : List CMsg) : numbered n (a ++ b) = numbered n a ++ numbered (n + a.length) b := by
  induction a generalizing n with
  | nil => rfl
  | cons m a ih =>
    have e : n + 1 + a.length = n + (a.length + 1) := by omega
    cases m <;> simp only [List.cons_append, numbered, ih, List.length_cons, e]

structure Hist (ls : List Lbl) (s : S) : Prop where
  next : s.nextIn = (clientMsgs ls).length + 1
  reqs : s.reqs = numbered 1 (clientMsgs ls)
  deb : s.fromDeb = debMsgs ls

theorem hist_same {ls : List Lbl} {s s' : S} {l : Lbl} (h : Hist ls s) (hl : ∀ m, l ≠ .client m) (hd : ∀ m, l ≠ .deb m)
    (e1 : s'.nextIn = s.nextIn) (e2 : s'.reqs = s.reqs) (e3 : s'.fromDeb = s.fromDeb) : Hist (ls ++ [l]) s' := by
  have h1 : clientMsgs (ls ++ [l]) = clientMsgs ls := by
    simp only [clientMsgs, List.filterMap_append]
    cases l <;> simp at hl ⊢
  have h2 : debMsgs (ls ++ [l]) = debMsgs ls := by
    simp only [debMsgs, List.filterMap_append]
    cases l <;> simp at hd ⊢
  exact ⟨by rw [h1, e1]; exact h.next, by rw [h1, e2]; exact h.reqs, by rw [h2, e3]; exact h.deb⟩

theorem hist_client {ls : List Lbl} {s s' : S} {m : CMsg} (h : Hist ls s) (e1 : s'.nextIn = s.nextIn + 1)
    (e2 : s'.reqs = s.reqs ++ numbered s.nextIn [m]) (e3 : s'.fromDeb = s.fromDeb) : Hist (ls ++ [.client m]) s' := by
  have h1 : clientMsgs (ls ++ [.client m]) = clientMsgs ls ++ [m] := by
    simp only [clientMsgs, List.filterMap_append]; rfl
  have h2 : debMsgs (ls ++ [.client m]) = debMsgs ls := by simp [debMsgs]
  refine ⟨?_, ?_, by rw [h2, e3]; exact h.deb⟩
  · rw [h1, e1, h.next]; simp
  · rw [h1, e2, numbered_append, ← h.reqs, h.next, Nat.add_comm]

theorem received_numbered (s : S) (m : CMsg) :
    (received { s with nextIn := s.nextIn + 1 } s.nextIn m).reqs = s.reqs ++ numbered s.nextIn [m] := by
  cases m <;> simp [received, numbered]

theorem received_next (s : S) (m : CMsg) :
    (received { s with nextIn := s.nextIn + 1 } s.nextIn m).nextIn = s.nextIn + 1 ∧
    (received { s with nextIn := s.nextIn + 1 } s.nextIn m).fromDeb = s.fromDeb := by
  cases m <;> exact ⟨rfl, rfl⟩

theorem handle_fromDeb {s s2 : S} {q : Nat} {c c' : Bool} {m : CMsg} {p : List Act} (h : handle s q c m = some (s2, c', p)) :
    s2.fromDeb = s.fromDeb := by
  cases m with
  | req k b =>
    simp only [handle] at h
    cases hd : s.debSet <;> rw [hd] at h <;> cases k <;> cases h <;> rfl
  | runInResp r =>
    simp only [handle] at h
    cases hg : Dict.get? s.runIn r <;> rw [hg] at h <;> cases h
    rfl
  | bad => cases h

theorem hist_trace {ls : List Lbl} {s : S} (h : Trace ls s) : Hist ls s := by
  induction h with
  | init => exact ⟨rfl, rfl, rfl⟩
  | @step ls s s' l h0 hs ih =>
    have hst := step_iff s l s' hs
    cases hst with
    | @handled s2 c c' m p hm hh =>
      obtain ⟨e1, e2, e3, e4, e5, _⟩ := handle_rec hh
      refine hist_client ih ?_ ?_ ?_
      · simp only [e3]
      · simp only [e2]; exact received_numbered s m
      · simp only [handle_fromDeb hh]
    | @unhandled c m hm hh =>
      exact hist_client ih (received_next s m).1 (received_numbered s m) (received_next s m).2
    | @mainGo s1 ex b a p more hm he =>
      exact hist_same ih (by simp) (by simp) (exec_sub he).2.2 (exec_sub he).2.1 (exec_fromDeb (s' := s1) he)
    | @recvGo s1 cl a p more hm he =>
      exact hist_same ih (by simp) (by simp) (exec_sub he).2.2 (exec_sub he).2.1 (exec_fromDeb (s' := s1) he)
    | @deb m h1 h2 =>
      have e1 : clientMsgs (ls ++ [.deb m]) = clientMsgs ls := by simp [clientMsgs]
      have e2 : debMsgs (ls ++ [.deb m]) = debMsgs ls ++ [m] := by simp only [debMsgs, List.filterMap_append]; rfl
      exact ⟨by rw [e1]; exact ih.next, by rw [e1]; exact ih.reqs, by rw [e2, ← ih.deb]⟩
    | _ => exact hist_same ih (by simp) (by simp) rfl rfl rfl

/-! ## `stop` cannot get stuck -/

/-- Something happens in the receive thread as long as it is alive. -/
theorem recv_live {s : S} (h : Reach s) (ha : s.recv.alive = true) :
    (∃ s', step s .recv = some s') ∨ s.recv = .loop [] ∧ ∃ s', step s (.close false) = some s' := by
  have hok := recvOk_reach h
  cases hr : s.recv with
  | none => rw [hr] at ha; cases ha
  | ended => rw [hr] at ha; cases ha
  | loop p =>
    cases p with
    | nil => exact .inr ⟨rfl, by simp [step, hr]⟩
    | cons a p =>
      left
      have hp := (ctl_reach h).loop _ hr a List.mem_cons_self
      cases a <;> simp [plain] at hp <;> simp [step, hr, exec]
  | closing p =>
    left
    cases p with
    | nil => simp [step, hr]
    | cons a p =>
      have hp : recvOk a = true := by
        have := hok
        rw [hr] at this
        exact this a List.mem_cons_self
      cases a <;> simp [recvOk] at hp <;> simp [step, hr, exec]
      cases s.launchQ <;> simp

/-- A thread that is stopping the server can always go on, or waits for the other one, which can. -/
theorem stop_live {s : S} {e : Bool} {p : List Act} (h : Reach s) (hm : s.main = .exiting e p) :
    ∃ l s', l ∈ [Lbl.main, .finish, .recv, .close false] ∧ step s l = some s' := by
  cases p with
  | nil => exact ⟨.finish, _, by simp, by simp only [step, hm]; rfl⟩
  | cons a p =>
    cases he : exec s a with
    | go more s' => exact ⟨.main, _, by simp, by simp only [step, hm, he]; rfl⟩
    | raise => exact ⟨.main, _, by simp, by simp only [step, hm, he]; rfl⟩
    | blocked =>
      have ha : s.recv.alive = true := by
        have hx := msh_exiting ((ctl_reach h).main true e _ hm)
        cases a <;> simp only [exec] at he <;>
          first
          | (cases he; done)
          | (cases hc : s.launchQ <;> rw [hc] at he <;> cases he; done)
          | (cases hc : s.cut <;> rw [hc] at he <;> cases he; done)
          | (cases hc : s.cancelled <;> rw [hc] at he <;> cases he; done)
          | skip
        · cases hc : s.recv.alive with
          | true => rfl
          | false => rw [hc] at he; cases he
        · exact absurd rfl (hx.2.2 _)
      rcases recv_live h ha with ⟨s', hs⟩ | ⟨_, s', hs⟩
      · exact ⟨.recv, s', by simp, hs⟩
      · exact ⟨.close false, s', by simp, hs⟩

/-! ## `stop` ends -/

/-- An upper bound of the number of actions an action leads to, with `n` outstanding requests. -/
def cost (n : Nat) : Act → Nat
  | .snapD | .snapE => 1 + 2 * n
  | .stopDeb => 4
  | .chkLaunch => 3
  | .callLaunch => 2
  | .chkTerm => 3
  | .accept _ => 5
  | .writeRunIn _ => 2
  | _ => 1

def costM (n : Nat) : Main → Nat
  | .run _ _ => 0
  | .exiting _ p => total (cost n) p + 2
  | .done _ => 1
  | .dead => 0

def costR (n : Nat) : Recv → Nat
  | .loop p => total (cost n) p + total (cost n) (stopProg true true) + 3
  | .closing p => total (cost n) p + 2
  | _ => 1

/-- An upper bound of the number of steps until both threads have ended. -/
def bound (s : S) : Nat := costM s.incoming.length s.main + costR s.incoming.length s.recv

theorem cost_mono {n m : Nat} (h : n ≤ m) (a : Act) : cost n a ≤ cost m a := by
  cases a <;> simp only [cost] <;> omega

theorem total_mono {f g : Act → Nat} (h : ∀ a, f a ≤ g a) (p : List Act) : total f p ≤ total g p := by
  induction p with
  | nil => exact Nat.le_refl _
  | cons a p ih => rw [total_cons, total_cons]; have := h a; omega

theorem cost_send (n : Nat) (b : Body) : total (cost n) (sendProg b) ≤ 2 := by
  cases b <;> simp [sendProg, Body.answers, cost]
  next m => cases m <;> simp [cost]

theorem cost_flat (n : Nat) (f : Nat × ReqKind → Body) (l : List (Nat × ReqKind)) :
    total (cost n) (l.flatMap fun e => sendProg (f e)) ≤ 2 * l.length := by
  induction l with
  | nil => simp
  | cons e l ih =>
    rw [List.flatMap_cons, total_append, List.length_cons]
    have := cost_send n (f e)
    omega

/-- An action costs one. -/
theorem cost_exec {s s' : S} {a : Act} {more : List Act} (he : exec s a = .go more s') :
    s'.incoming.length ≤ s.incoming.length ∧
    total (cost s.incoming.length) more + 1 ≤ cost s.incoming.length a := by
  refine ⟨(exec_sub he).1.length_le, ?_⟩
  cases a <;> simp only [exec] at he <;>
    first
    | (cases he; simp [cost]; done)
    | (cases hc : s.launchQ <;> rw [hc] at he <;> cases he <;> simp [cost]; done)
    | (cases hc : s.debSet <;> rw [hc] at he <;> cases he <;> simp [cost]; done)
    | (cases hc : s.flag <;> rw [hc] at he <;> cases he <;> simp [cost]; done)
    | (cases hc : s.cut <;> rw [hc] at he <;> cases he <;> simp [cost]; done)
    | (cases hc : s.recv.alive <;> rw [hc] at he <;> cases he <;> simp [cost]; done)
    | (cases hc : s.cancelled <;> rw [hc] at he <;> cases he <;> simp [cost, sendProg, Body.answers]; done)
    | skip
  · cases he
    have h1 := cost_flat s.incoming.length (fun e => .discResp e.1) (s.incoming.filter fun e => e.2 == .disconnect)
    have h2 := List.length_filter_le (fun e : Nat × ReqKind => e.2 == .disconnect) s.incoming
    simp only [cost]; omega
  · cases he
    have h1 := cost_flat s.incoming.length (fun e => .errResp e.1) s.incoming
    simp only [cost]; omega

theorem costR_mono {n m : Nat} (h : n ≤ m) (r : Recv) : costR n r ≤ costR m r := by
  cases r with
  | none => exact Nat.le_refl _
  | ended => exact Nat.le_refl _
  | loop p =>
    have h1 := total_mono (cost_mono h) p
    have h2 := total_mono (cost_mono h) (stopProg true true)
    simp only [costR]; omega
  | closing p =>
    have h1 := total_mono (cost_mono h) p
    simp only [costR]; omega

theorem costM_mono {n m : Nat} (h : n ≤ m) (r : Main) : costM n r ≤ costM m r := by
  cases r with
  | run => exact Nat.le_refl _
  | done => exact Nat.le_refl _
  | dead => exact Nat.le_refl _
  | exiting e p =>
    have h1 := total_mono (cost_mono h) p
    simp only [costM]; omega

/-- The main thread has left `start()`. -/
def Left : Main → Prop
  | .run _ _ => False
  | _ => True

theorem cost_stop (n : Nat) (e : Bool) : total (cost n) (stopProg e true) ≤ total (cost n) (stopProg true true) := by
  cases e <;> simp [stopProg, cost]

theorem exec_recv_exiting {s s' : S} {a : Act} {more : List Act} (he : exec s a = .go more s')
    (h : a ≠ .mkDeb ∧ a ≠ .connect ∧ ∀ q, a ≠ .accept q) : s'.recv = s.recv :=
  exec_recv_same he h.1 h.2.1 h.2.2

theorem recv_starts {a : Act} (h : recvOk a = true) : a ≠ .mkDeb ∧ a ≠ .connect ∧ ∀ q, a ≠ .accept q := by
  cases a <;> simp [recvOk] at h ⊢

/-- Every step (other than a message of the debuggee) brings the end nearer. -/
theorem bound_step {s s' : S} {l : Lbl} (h0 : Reach s) (hl : Left s.main) (hd : ∀ m, l ≠ .deb m)
    (hs : step s l = some s') : Left s'.main ∧ bound s' < bound s := by
  have hst := step_iff s l s' hs
  cases hst with
  | @handled s2 c c' m p hm hh => rw [hm] at hl; exact hl.elim
  | @unhandled c m hm hh => rw [hm] at hl; exact hl.elim
  | badInput hm => rw [hm] at hl; exact hl.elim
  | eof hm => rw [hm] at hl; exact hl.elim
  | leave hm => rw [hm] at hl; exact hl.elim
  | @mainGo s1 ex b a p more hm he =>
    cases ex with
    | false => rw [hm] at hl; exact hl.elim
    | true =>
      have hr := exec_recv_exiting he (msh_exiting ((ctl_reach h0).main true b _ hm))
      obtain ⟨h1, h2⟩ := cost_exec he
      refine ⟨trivial, ?_⟩
      have hR := costR_mono h1 s.recv
      have h3 := total_mono (cost_mono h1) more
      have h4 := total_mono (cost_mono h1) p
      simp only [bound, hm, mkMain_true, costM, total_append, total_cons, hr]
      omega
  | @mainThrow ex b a p hm he =>
    cases ex with
    | false => rw [hm] at hl; exact hl.elim
    | true =>
      refine ⟨trivial, ?_⟩
      simp only [bound, hm, mkMain_true, thrown, costM, cond_true]; omega
  | mainAlt hm he => rw [hm] at hl; exact hl.elim
  | @mainRaise ex b a p hm he =>
    cases ex with
    | false => rw [hm] at hl; exact hl.elim
    | true =>
      refine ⟨trivial, ?_⟩
      simp only [bound, hm, mkMain_true, thrown, costM, cond_true]; omega
  | finish hm =>
    refine ⟨trivial, ?_⟩
    simp [bound, hm, costM]
  | @deb m _ _ => exact absurd rfl (hd m)
  | @close e hm =>
    refine ⟨hl, ?_⟩
    have := cost_stop s.incoming.length e
    simp only [bound, hm, costR]; simp; omega
  | @recvGo s1 cl a p more hm he =>
    have hok := recvOk_reach h0 a (by rw [hm, mkRecv_prog]; exact List.mem_cons_self)
    have hmm := exec_main he
    obtain ⟨h1, h2⟩ := cost_exec he
    refine ⟨by simp only [hmm]; exact hl, ?_⟩
    have hM := costM_mono h1 s.main
    have h3 := total_mono (cost_mono h1) more
    have h4 := total_mono (cost_mono h1) p
    have h5 := total_mono (cost_mono h1) (stopProg true true)
    cases cl
    · simp only [bound, hm, mkRecv, cond_false, costR, total_append, total_cons, hmm]
      omega
    · simp only [bound, hm, mkRecv, cond_true, costR, total_append, total_cons, hmm]
      omega
  | recvDie hm _ =>
    refine ⟨hl, ?_⟩
    simp only [bound, hm, costR]; omega
  | recvEnd hm =>
    refine ⟨hl, ?_⟩
    simp only [bound, hm, costR]; simp

/-- A run after the main thread has left `start()`, without further messages of the debuggee, is
not longer than `bound`. -/
theorem bound_run {s s' : S} {ls : List Lbl} (h0 : Reach s) (hl : Left s.main) (hd : ∀ l ∈ ls, ∀ m, l ≠ .deb m)
    (hs : run s ls = some s') : ls.length ≤ bound s := by
  induction ls generalizing s with
  | nil => exact Nat.zero_le _
  | cons l ls ih =>
    simp only [run] at hs
    cases h1 : step s l with
    | none => rw [h1] at hs; cases hs
    | some s1 =>
      rw [h1] at hs
      obtain ⟨h2, h3⟩ := bound_step h0 hl (hd l List.mem_cons_self) h1
      have := ih (.step h0 h1) h2 (fun l hl => hd l (List.mem_cons_of_mem _ hl)) hs
      rw [List.length_cons]; omega

/-! ## What can kill the main thread -/

theorem msh_tail {deb alive : Bool} {n : Nat} {ex : Bool} {a : Act} {p : List Act} (h : MSh deb alive n ex (a :: p))
    (ha : a = .callLaunch ∨ a = .chkLaunch) : p = [.chkTerm] ∧ alive = false := by
  obtain ⟨q', t, h1, h2, h3, h4⟩ := h
  cases q' with
  | cons b q' =>
    rw [List.cons_append] at h1; cases h1
    have := h2 _ List.mem_cons_self
    rcases ha with rfl | rfl <;> cases this
  | nil =>
    rw [List.nil_append] at h1
    subst h1
    rcases ha with rfl | rfl
    · cases h3 with
      | tail _ h1 h => rcases h with h | h | h | h | h | h <;> cases h; exact ⟨rfl, h1⟩
    · cases h3 with
      | tail _ h1 h => rcases h with h | h | h | h | h | h <;> cases h; exact ⟨rfl, h1⟩

/-- The main thread calls the launch queue only while there is one. -/
def CallInv (s : S) : Prop :=
  .callLaunch ∈ s.main.prog → s.main.prog.head? = some .callLaunch ∧ s.launchQ = true

theorem stop_nocall (e f : Bool) : .callLaunch ∉ stopProg e f := by cases e <;> cases f <;> simp [stopProg]

theorem flat_nocall {l : List (Nat × ReqKind)} {f : Nat × ReqKind → Body} :
    .callLaunch ∉ (l.flatMap fun e => sendProg (f e)) := by
  intro h
  obtain ⟨e, _, he⟩ := List.mem_flatMap.1 h
  cases hb : (f e).answers <;> simp [sendProg, hb] at he

theorem exec_call {s s' : S} {a : Act} {more : List Act} (he : exec s a = .go more s') (h : .callLaunch ∈ more) :
    a = .chkLaunch ∧ s.launchQ = true ∧ s' = s ∧ more = [.callLaunch] := by
  cases a <;> simp only [exec] at he <;>
    first
    | (cases he; simp at h; done)
    | (cases hc : s.debSet <;> rw [hc] at he <;> cases he <;> simp at h; done)
    | (cases hc : s.flag <;> rw [hc] at he <;> cases he <;> simp at h; done)
    | (cases hc : s.cut <;> rw [hc] at he <;> cases he <;> simp at h; done)
    | (cases hc : s.recv.alive <;> rw [hc] at he <;> cases he <;> simp at h; done)
    | (cases hc : s.cancelled <;> rw [hc] at he <;> cases he <;> simp [sendProg, Body.answers] at h; done)
    | skip
  · cases he; exact absurd h flat_nocall
  · cases he; exact absurd h flat_nocall
  · cases hc : s.launchQ <;> rw [hc] at he <;> cases he
    · simp at h
    · exact ⟨rfl, rfl, rfl, rfl⟩
  · cases hc : s.launchQ <;> rw [hc] at he <;> cases he; simp at h

theorem call_reach {s : S} (h : Reach s) : CallInv s := by
  induction h with
  | init => intro h; cases h
  | @step s s' l h0 hs ih =>
    have hst := step_iff s l s' hs
    have thr : ∀ ex, CallInv (thrown s ex) := by
      intro ex h1
      cases ex
      · exact absurd h1 (stop_nocall _ _)
      · cases h1
    cases hst with
    | @handled s2 c c' m p hm hh =>
      intro h1
      exfalso
      simp only [Main.prog] at h1
      cases m with
      | bad => cases hh
      | req k b =>
        rw [(handle_prog hh).1] at h1
        generalize { s with nextIn := s.nextIn + 1 }.debSet = d at h1
        cases d <;> cases k <;> simp [reqProg, sendProg, Body.answers] at h1
      | runInResp r =>
        simp only [handle] at hh
        cases hg : Dict.get? s.runIn r <;> rw [hg] at hh <;> cases hh
        simp at h1
    | @unhandled c m hm hh => intro h1; exact absurd h1 (stop_nocall _ _)
    | badInput hm => exact thr false
    | eof hm => exact ih
    | leave hm => intro h1; exact absurd h1 (stop_nocall _ _)
    | @mainGo s1 ex b a p more hm he =>
      intro h1
      simp only [mkMain_prog] at h1 ⊢
      have hsh := (ctl_reach h0).main ex b _ hm
      rcases List.mem_append.1 h1 with h2 | h2
      · obtain ⟨rfl, hl, rfl, rfl⟩ := exec_call he h2
        exact ⟨rfl, hl⟩
      · exfalso
        have h3 := ih (by rw [hm, mkMain_prog]; exact List.mem_cons_of_mem _ h2)
        rw [hm, mkMain_prog] at h3
        have : a = .callLaunch := by simpa using h3.1
        subst this
        rw [(msh_tail hsh (.inl rfl)).1] at h2
        simp at h2
    | @mainThrow ex b a p hm he => exact thr ex
    | @mainAlt b a p more hm he =>
      intro h1
      exfalso
      have h2 : .callLaunch ∉ more := by
        cases a <;> simp only [altProg] at he <;> try (cases he; done)
        · cases hcc : s.cancelled <;> rw [hcc] at he <;> cases he; simp
        · cases he; exact stop_nocall _ _
      rcases List.mem_append.1 h1 with h1 | h1
      · exact h2 h1
      · have h3 := ih (by rw [hm]; exact List.mem_cons_of_mem _ h1)
        rw [hm] at h3
        have : a = .callLaunch := by simpa [Main.prog] using h3.1
        subst this
        cases he
    | @mainRaise ex b a p hm he => exact thr ex
    | finish hm => intro h1; cases h1
    | deb _ _ => exact ih
    | close _ => exact ih
    | @recvGo s1 cl a p more hm he =>
      intro h1
      exfalso
      simp only [exec_main he] at h1
      have h3 := ih h1
      cases hmm : s.main with
      | run c q =>
        rw [hmm] at h3
        cases q with
        | nil => cases h3.1
        | cons x q =>
          have : x = .callLaunch := by simpa [Main.prog] using h3.1
          have hsh := (ctl_reach h0).main false c _ hmm
          have := (msh_tail hsh (.inl this)).2
          rw [hm, mkRecv_alive] at this; cases this
      | exiting c q =>
        rw [hmm] at h3
        cases q with
        | nil => cases h3.1
        | cons x q =>
          have : x = .callLaunch := by simpa [Main.prog] using h3.1
          have hsh := (ctl_reach h0).main true c _ hmm
          have := (msh_tail hsh (.inl this)).2
          rw [hm, mkRecv_alive] at this; cases this
      | done => rw [hmm] at h3; cases h3.1
      | dead => rw [hmm] at h3; cases h3.1
    | recvDie _ _ => exact ih
    | recvEnd _ => exact ih

/-- In `__exit__` the main thread has nothing to do that sends something to the debuggee. -/
def noSend : Act → Bool
  | .send _ | .sendQuiet _ | .mkDeb | .connect | .mkLaunch | .accept _ => false
  | _ => true

theorem exec_noSend {s s' : S} {a : Act} {more : List Act} (he : exec s a = .go more s') (h : noSend a = true) :
    ∀ x ∈ more, noSend x = true := by
  have flat : ∀ (l : List (Nat × ReqKind)) (f : Nat × ReqKind → Body), ∀ x ∈ (l.flatMap fun e => sendProg (f e)), noSend x = true := by
    intro l f x hx
    obtain ⟨e, _, he⟩ := List.mem_flatMap.1 hx
    cases hb : (f e).answers <;> simp [sendProg, hb] at he
    · subst he; rfl
    · rcases he with rfl | rfl <;> rfl
  cases a <;> simp only [exec] at he <;>
    first
    | (cases h; done)
    | (cases he; simp [noSend]; done)
    | (cases hc : s.debSet <;> rw [hc] at he <;> cases he <;> simp [noSend]; done)
    | (cases hc : s.launchQ <;> rw [hc] at he <;> cases he <;> simp [noSend]; done)
    | (cases hc : s.flag <;> rw [hc] at he <;> cases he <;> simp [noSend]; done)
    | (cases hc : s.recv.alive <;> rw [hc] at he <;> cases he <;> simp [noSend]; done)
    | skip
  · cases he; exact flat _ _
  · cases he; exact flat _ _

theorem exit_noSend {s : S} (h : Reach s) : ∀ e p, s.main = .exiting e p → ∀ a ∈ p, noSend a = true := by
  have stop : ∀ e f, ∀ a ∈ stopProg e f, noSend a = true := by
    intro e f a ha
    cases e <;> cases f <;> simp [stopProg] at ha <;> (rcases ha with rfl | rfl | rfl | rfl | rfl) <;> rfl
  induction h with
  | init => intro e p h; cases h
  | @step s s' l h0 hs ih =>
    have hst := step_iff s l s' hs
    have thr : ∀ (s : S) ex, ∀ e p, (thrown s ex).main = .exiting e p → ∀ a ∈ p, noSend a = true := by
      intro s ex e p h1
      cases ex <;> cases h1
      exact stop _ _
    intro e p h1
    cases hst with
    | @handled s2 c c' m p hm hh => cases h1
    | @unhandled c m hm hh => exact thr _ false e p h1
    | badInput hm => exact thr _ false e p h1
    | eof hm => exact ih e p h1
    | leave hm => cases h1; exact stop _ _
    | @mainGo s1 ex b a p more hm he =>
      cases ex with
      | false => cases h1
      | true =>
        cases h1
        have h2 := ih _ _ hm
        intro x hx
        rcases List.mem_append.1 hx with hx | hx
        · exact exec_noSend he (h2 a List.mem_cons_self) x hx
        · exact h2 x (List.mem_cons_of_mem _ hx)
    | @mainThrow ex b a p hm he => exact thr _ ex _ _ h1
    | mainAlt hm he => cases h1
    | @mainRaise ex b a p hm he => exact thr _ ex _ _ h1
    | finish hm => cases h1
    | deb _ _ => exact ih e p h1
    | close _ => exact ih e p h1
    | @recvGo s1 cl a p more hm he => simp only [exec_main he] at h1; exact ih _ _ h1
    | recvDie _ _ => exact ih e p h1
    | recvEnd _ => exact ih e p h1

/-- Only a failing `cancel` of the debuggee's queue kills the main thread. -/
theorem dead_only {s s' : S} {l : Lbl} (h0 : Reach s) (h1 : s.main ≠ .dead) (hs : step s l = some s')
    (h2 : s'.main = .dead) : l = .mainRaise ∧ ∃ e p, s.main = .exiting e (.cancel :: p) := by
  have hst := step_iff s l s' hs
  cases hst with
  | @unhandled c m hm hh => cases h2
  | badInput hm => cases h2
  | eof hm => exact absurd h2 h1
  | @mainGo s1 ex b a p more hm he => cases ex <;> cases h2
  | @mainThrow ex b a p hm he =>
    cases ex with
    | false => cases h2
    | true =>
      exfalso
      have h3 := exit_noSend h0 _ _ hm a List.mem_cons_self
      have h4 := call_reach h0
      cases a <;> simp only [exec] at he <;>
        first
        | (cases h3; done)
        | (cases he; done)
        | (cases hc : s.recv.alive <;> rw [hc] at he <;> cases he; done)
        | skip
      have := (h4 (by rw [hm]; exact List.mem_cons_self)).2
      rw [this] at he; cases he
  | @mainRaise ex b a p hm he =>
    cases ex with
    | false => cases h2
    | true =>
      have h3 := exit_noSend h0 _ _ hm a List.mem_cons_self
      cases a <;> simp [canRaise] at he <;> first | (cases h3; done) | skip
      exact ⟨rfl, _, _, hm⟩
  | deb _ _ => exact absurd h2 h1
  | close _ => exact absurd h2 h1
  | @recvGo s1 cl a p more hm he => simp only [exec_main he] at h2; exact absurd h2 h1
  | recvDie _ _ => exact absurd h2 h1
  | recvEnd _ => exact absurd h2 h1
  | _ => cases h2

end Verif.Server
