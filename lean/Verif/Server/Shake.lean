import Verif.Server.Relay
import Verif.Py.Dict

/-! # The launch handshake -/

namespace Verif.Server

/-- Runs from the initial state. -/
inductive Trace : List Lbl → S → Prop
  | init : Trace [] init
  | step {ls : List Lbl} {s s' : S} {l : Lbl} : Trace ls s → step s l = some s' → Trace (ls ++ [l]) s'

theorem trace_run {ls ls' : List Lbl} {s s' : S} (h : Trace ls s) (hr : run s ls' = some s') : Trace (ls ++ ls') s' := by
  induction ls' generalizing s ls with
  | nil => cases hr; rw [List.append_nil]; exact h
  | cons l ls' ih =>
    simp only [run] at hr
    cases h1 : step s l with
    | none => rw [h1] at hr; cases hr
    | some s1 =>
      rw [h1] at hr
      have := ih (.step h h1) hr
      rw [List.append_assoc] at this
      exact this

theorem trace_reach {ls : List Lbl} {s : S} (h : Trace ls s) : Reach s := by
  induction h with
  | init => exact .init
  | step _ hs ih => exact .step ih hs

/-- The terminal was requested for launch `q`. -/
def Asked (outs : List Body) (r q : Nat) : Prop := ∃ i, r = i + 1 ∧ outs[i]? = some (.runIn q)

/-- The terminal was requested for launch `q` and the client has answered that. -/
def Agreed (ls : List Lbl) (outs : List Body) (q : Nat) : Prop :=
  ∃ i, outs[i]? = some (.runIn q) ∧ .client (.runInResp (i + 1)) ∈ ls

def Just (ls : List Lbl) (outs : List Body) : Act → Prop
  | .register r q => Asked outs r q
  | .accept q | .write (.launchResp q) => Agreed ls outs q
  | _ => True

theorem get_mono {outs more : List Body} {i : Nat} {b : Body} (h : outs[i]? = some b) : (outs ++ more)[i]? = some b := by
  obtain ⟨h1, _⟩ := List.getElem?_eq_some_iff.1 h
  rw [List.getElem?_append_left h1]; exact h

theorem just_mono {ls ls' : List Lbl} {outs more : List Body} {a : Act} (h : Just ls outs a) :
    Just (ls ++ ls') (outs ++ more) a := by
  cases a <;> first | trivial | skip
  · next b =>
    cases b <;> first | trivial | skip
    obtain ⟨i, h1, h2⟩ := h
    exact ⟨i, get_mono h1, List.mem_append_left _ h2⟩
  · obtain ⟨i, h1, h2⟩ := h
    exact ⟨i, h1, get_mono h2⟩
  · obtain ⟨i, h1, h2⟩ := h
    exact ⟨i, get_mono h1, List.mem_append_left _ h2⟩

theorem just_grow {ls ls' : List Lbl} {outs outs' : List Body} (h : ∃ more, outs' = outs ++ more) {a : Act}
    (hj : Just ls outs a) : Just (ls ++ ls') outs' a := by
  obtain ⟨more, rfl⟩ := h
  exact just_mono hj

theorem exec_grow {s s' : S} {a : Act} {more : List Act} (he : exec s a = .go more s') : ∃ m, s'.outs = s.outs ++ m := by
  rcases exec_outs he with e | ⟨b, e, _⟩
  · exact ⟨[], by rw [e, List.append_nil]⟩
  · exact ⟨[b], e⟩

theorem plain_just {ls : List Lbl} {outs : List Body} {l : List (Nat × ReqKind)} {f : Nat × ReqKind → Body}
    (hf : ∀ e, Just ls outs (.write (f e))) : ∀ x ∈ (l.flatMap fun e => sendProg (f e)), Just ls outs x := by
  intro x hx
  obtain ⟨e, _, he⟩ := List.mem_flatMap.1 hx
  unfold sendProg at he
  rcases List.mem_cons.1 he with rfl | he
  · exact hf e
  · cases h : (f e).answers <;> rw [h] at he
    · cases he
    · rcases List.mem_singleton.1 he with rfl; trivial

theorem exec_just {ls : List Lbl} {s s' : S} {a : Act} {more : List Act} (hj : Just ls s.outs a)
    (he : exec s a = .go more s') : ∀ x ∈ more, Just ls s'.outs x := by
  cases a <;> simp only [exec] at he
  · cases he; exact plain_just fun _ => trivial
  · cases he; exact plain_just fun _ => trivial
  · cases he; simp
  · cases he; simp
  · cases hc : s.debSet <;> rw [hc] at he <;> cases he <;> simp [Just]
  · cases he; simp
  · cases hc : s.recv.alive <;> rw [hc] at he <;> cases he; simp
  · cases he; simp
  · cases hc : s.launchQ <;> rw [hc] at he <;> cases he <;> simp [Just]
  · cases hc : s.launchQ <;> rw [hc] at he <;> cases he; simp [Just]
  · cases he; simp
  · cases hc : s.flag <;> rw [hc] at he <;> cases he <;> simp [Just]
  · cases he; simp
  · cases hc : s.cut <;> rw [hc] at he <;> cases he; simp
  · cases hc : s.cancelled <;> rw [hc] at he <;> cases he; simp
  · cases he; simp
  · cases he; simp
  · cases he; simp
  · cases he
    intro x hx
    rcases List.mem_singleton.1 hx with rfl
    exact ⟨s.outs.length, rfl, by simp⟩
  · cases he; simp
  · cases hc : s.cancelled <;> rw [hc] at he <;> cases he
    intro x hx
    simp [sendProg, Body.answers] at hx
    rcases hx with rfl | rfl | rfl | rfl <;> first | trivial | exact hj
  · cases he; simp

theorem stop_just (ls : List Lbl) (outs : List Body) (e f : Bool) : ∀ a ∈ stopProg e f, Just ls outs a := by
  cases e <;> cases f <;> simp [stopProg, Just]

/-- The invariant of the handshake. -/
structure HInv (ls : List Lbl) (s : S) : Prop where
  main : ∀ a ∈ s.main.prog, Just ls s.outs a
  recv : ∀ a ∈ s.recv.prog, Just ls s.outs a
  tab : ∀ r q, (r, q) ∈ s.runIn → Asked s.outs r q
  outs : ∀ j q, s.outs[j]? = some (.launchResp q) →
    ∃ i, i < j ∧ s.outs[i]? = some (.runIn q) ∧ .client (.runInResp (i + 1)) ∈ ls

theorem outs_grow {ls : List Lbl} {l : Lbl} {s s' : S} {a : Act} {more : List Act}
    (h : ∀ j q, s.outs[j]? = some (.launchResp q) →
      ∃ i, i < j ∧ s.outs[i]? = some (.runIn q) ∧ .client (.runInResp (i + 1)) ∈ ls)
    (hj : Just ls s.outs a) (he : exec s a = .go more s') :
    ∀ j q, s'.outs[j]? = some (.launchResp q) →
      ∃ i, i < j ∧ s'.outs[i]? = some (.runIn q) ∧ .client (.runInResp (i + 1)) ∈ ls ++ [l] := by
  intro j q hjq
  have old : s.outs[j]? = some (.launchResp q) → ∃ i, i < j ∧ s'.outs[i]? = some (.runIn q) ∧
      .client (.runInResp (i + 1)) ∈ ls ++ [l] := by
    intro h1
    obtain ⟨i, h2, h3, h4⟩ := h j q h1
    obtain ⟨m, e⟩ := exec_grow he
    exact ⟨i, h2, by rw [e]; exact get_mono h3, List.mem_append_left _ h4⟩
  rcases exec_outs he with e | ⟨b, e, hw⟩
  · rw [e] at hjq; exact old hjq
  · rw [e] at hjq
    by_cases hlt : j < s.outs.length
    · rw [List.getElem?_append_left hlt] at hjq; exact old hjq
    · rw [List.getElem?_append_right (by omega)] at hjq
      obtain ⟨hl, hb⟩ := List.getElem?_eq_some_iff.1 hjq
      simp only [List.getElem_singleton] at hb
      subst hb
      rcases hw with rfl | ⟨_, _, hw⟩
      · obtain ⟨i, h1, h2⟩ := hj
        obtain ⟨h3, _⟩ := List.getElem?_eq_some_iff.1 h1
        exact ⟨i, by omega, by rw [e]; exact get_mono h1, List.mem_append_left _ h2⟩
      · cases hw

theorem outs_same {ls : List Lbl} {l : Lbl} {outs : List Body}
    (h : ∀ j q, outs[j]? = some (.launchResp q) →
      ∃ i, i < j ∧ outs[i]? = some (.runIn q) ∧ .client (.runInResp (i + 1)) ∈ ls) :
    ∀ j q, outs[j]? = some (.launchResp q) →
      ∃ i, i < j ∧ outs[i]? = some (.runIn q) ∧ .client (.runInResp (i + 1)) ∈ ls ++ [l] := by
  intro j q hj
  obtain ⟨i, h1, h2, h3⟩ := h j q hj
  exact ⟨i, h1, h2, List.mem_append_left _ h3⟩

theorem just_l {ls : List Lbl} {l : Lbl} {outs : List Body} {a : Act} (h : Just ls outs a) : Just (ls ++ [l]) outs a :=
  just_grow ⟨[], (List.append_nil _).symm⟩ h

theorem exec_runIn {s s' : S} {a : Act} {more : List Act} (he : exec s a = .go more s') :
    s'.runIn = s.runIn ∨ ∃ r q, a = .register r q ∧ s'.runIn = Dict.set s.runIn r q := by
  cases a <;> simp only [exec] at he <;>
    first
    | (cases he; exact .inl rfl)
    | (cases he; exact .inr ⟨_, _, rfl, rfl⟩)
    | (cases hc : s.cancelled <;> rw [hc] at he <;> cases he; exact .inl rfl)
    | (cases hc : s.cut <;> rw [hc] at he <;> cases he; exact .inl rfl)
    | (cases hc : s.launchQ <;> rw [hc] at he <;> cases he; exact .inl rfl)
    | (cases hc : s.recv.alive <;> rw [hc] at he <;> cases he; exact .inl rfl)

theorem mem_set {l : List (Nat × Nat)} {r q r' q' : Nat} (h : (r', q') ∈ Dict.set l r q) :
    (r', q') ∈ l ∨ r' = r ∧ q' = q := by
  induction l with
  | nil => simp [Dict.set] at h; exact .inr h
  | cons e l ih =>
    obtain ⟨a, b⟩ := e
    unfold Dict.set at h
    split at h
    · next hh =>
      rcases List.mem_cons.1 h with h | h
      · cases h; exact .inr ⟨hh, rfl⟩
      · exact .inl (List.mem_cons_of_mem _ h)
    · rcases List.mem_cons.1 h with h | h
      · cases h; exact .inl List.mem_cons_self
      · exact (ih h).imp (List.mem_cons_of_mem _) id

theorem asked_grow {outs outs' : List Body} (h : ∃ m, outs' = outs ++ m) {r q : Nat} (ha : Asked outs r q) : Asked outs' r q := by
  obtain ⟨m, rfl⟩ := h
  obtain ⟨i, h1, h2⟩ := ha
  exact ⟨i, h1, get_mono h2⟩

theorem tab_exec {ls : List Lbl} {s s' : S} {a : Act} {more : List Act} (h : ∀ r q, (r, q) ∈ s.runIn → Asked s.outs r q)
    (hj : Just ls s.outs a) (he : exec s a = .go more s') : ∀ r q, (r, q) ∈ s'.runIn → Asked s'.outs r q := by
  intro r q hr
  rcases exec_runIn he with e | ⟨r', q', rfl, e⟩
  · rw [e] at hr; exact asked_grow (exec_grow he) (h r q hr)
  · rw [e] at hr
    rcases mem_set hr with h1 | ⟨rfl, rfl⟩
    · exact asked_grow (exec_grow he) (h r q h1)
    · exact asked_grow (exec_grow he) hj

theorem hinv_step {ls : List Lbl} {s s' : S} {l : Lbl} (h : HInv ls s) (hs : step s l = some s') : HInv (ls ++ [l]) s' := by
  have thr : ∀ ex, HInv (ls ++ [l]) (thrown s ex) := by
    intro ex
    refine ⟨?_, fun a ha => just_l (h.recv a ha), h.tab, outs_same h.outs⟩
    cases ex
    · exact stop_just _ _ true false
    · simp [thrown, Main.prog]
  have hst := step_iff s l s' hs
  cases hst with
  | @handled s2 c c' m p hm hh =>
    obtain ⟨e1, e2, e3, e4, e5, e6, e7, _⟩ := handle_rec hh
    cases m with
    | bad => cases hh
    | runInResp r =>
      simp only [handle] at hh
      cases hg : Dict.get? s.runIn r with
      | none => rw [hg] at hh; cases hh
      | some q =>
      rw [hg] at hh; cases hh
      refine ⟨?_, fun a ha => just_l (h.recv a ha), ?_, outs_same h.outs⟩
      · intro a ha
        rcases List.mem_singleton.1 ha with rfl
        obtain ⟨i, h1, h2⟩ := h.tab r q (DL.mem_of_get hg)
        exact ⟨i, h2, by rw [h1]; simp⟩
      · intro r' q' hr
        exact h.tab r' q' (List.mem_filter.1 hr).1
    | req k b =>
      obtain ⟨rfl, e8⟩ := handle_prog hh
      refine ⟨?_, ?_, ?_, ?_⟩
      · simp only [Main.prog]
        cases s.debSet <;> cases k <;> simp [reqProg, Just, sendProg, Body.answers]
      · simp only [e4, e5]; exact fun a ha => just_l (h.recv a ha)
      · simp only [e4, e8]; exact h.tab
      · simp only [e4]; exact outs_same h.outs
  | @unhandled c m hm hh =>
    have h3 := thr false
    cases m <;> exact ⟨h3.1, h3.2, h3.3, h3.4⟩
  | badInput h0 => exact thr false
  | eof _ => exact ⟨fun a ha => just_l (h.main a ha), fun a ha => just_l (h.recv a ha), h.tab, outs_same h.outs⟩
  | leave h0 => exact ⟨stop_just _ _ _ _, fun a ha => just_l (h.recv a ha), h.tab, outs_same h.outs⟩
  | @mainGo s1 ex b a p more hm he =>
    have hmp := h.main
    rw [hm, mkMain_prog] at hmp
    have ha := hmp a List.mem_cons_self
    refine ⟨?_, ?_, tab_exec (s' := s1) h.tab ha he, outs_grow (s' := s1) h.outs ha he⟩
    · intro x hx
      rw [mkMain_prog] at hx
      rcases List.mem_append.1 hx with hx | hx
      · exact just_l (exec_just ha he x hx)
      · exact just_grow (exec_grow he) (hmp x (List.mem_cons_of_mem _ hx))
    · rcases exec_recv he with e | e | e <;> simp only [e]
      · exact fun a ha => just_grow (exec_grow he) (h.recv a ha)
      · simp [Recv.prog]
      · simp [Recv.prog]
  | @mainThrow ex b a p hm he => exact thr ex
  | @mainAlt b a p more hm he =>
    have hmp := h.main
    rw [hm] at hmp
    refine ⟨?_, fun a ha => just_l (h.recv a ha), h.tab, outs_same h.outs⟩
    cases a <;> simp only [altProg] at he <;> try (cases he; done)
    · cases hcc : s.cancelled <;> rw [hcc] at he <;> cases he
      intro x hx
      exact just_l (hmp x (List.mem_cons_of_mem _ hx))
    · cases he
      intro x hx
      rcases List.mem_append.1 hx with hx | hx
      · exact stop_just _ _ _ _ x hx
      · exact just_l (hmp x (List.mem_cons_of_mem _ hx))
  | @mainRaise ex b a p hm he => exact thr ex
  | finish h0 => exact ⟨by simp [Main.prog], fun a ha => just_l (h.recv a ha), h.tab, outs_same h.outs⟩
  | @deb m h0 _ =>
    refine ⟨fun a ha => just_l (h.main a ha), ?_, h.tab, outs_same h.outs⟩
    cases m <;> simp [Recv.prog, sendProg, Body.answers, Just]
  | @close e h0 =>
    exact ⟨fun a ha => just_l (h.main a ha), stop_just _ _ _ _, h.tab, outs_same h.outs⟩
  | @recvGo s1 cl a p more hm he =>
    have hmp := h.recv
    rw [hm, mkRecv_prog] at hmp
    have ha := hmp a List.mem_cons_self
    refine ⟨?_, ?_, tab_exec (s' := s1) h.tab ha he, outs_grow (s' := s1) h.outs ha he⟩
    · simp only [exec_main he]
      exact fun a ha => just_grow (exec_grow he) (h.main a ha)
    · intro x hx
      rw [mkRecv_prog] at hx
      rcases List.mem_append.1 hx with hx | hx
      · exact just_l (exec_just ha he x hx)
      · exact just_grow (exec_grow he) (hmp x (List.mem_cons_of_mem _ hx))
  | @recvDie a p h0 _ => exact ⟨fun a ha => just_l (h.main a ha), by simp [Recv.prog], h.tab, outs_same h.outs⟩
  | recvEnd h0 => exact ⟨fun a ha => just_l (h.main a ha), by simp [Recv.prog], h.tab, outs_same h.outs⟩

theorem hinv_trace {ls : List Lbl} {s : S} (h : Trace ls s) : HInv ls s := by
  induction h with
  | init => exact ⟨by simp [init, Main.prog], by simp [init, Recv.prog], by simp [init], by simp [init]⟩
  | step _ hs ih => exact hinv_step ih hs

/-! ## What the receive thread writes -/

/-- Actions of the receive thread. -/
def recvOk : Act → Bool
  | .write (.initResp _) | .write (.attachResp _) | .write (.launchResp _) | .write (.runIn _) => false
  | .write _ | .pop _ | .snapD | .snapE | .chkLaunch | .callLaunch | .clearLaunch | .chkTerm | .setTerm => true
  | _ => false

theorem flat_recvOk {l : List (Nat × ReqKind)} {f : Nat × ReqKind → Body} (hf : ∀ e, recvOk (.write (f e)) = true) :
    ∀ x ∈ (l.flatMap fun e => sendProg (f e)), recvOk x = true := by
  intro x hx
  obtain ⟨e, _, he⟩ := List.mem_flatMap.1 hx
  unfold sendProg at he
  rcases List.mem_cons.1 he with rfl | he
  · exact hf e
  · cases h : (f e).answers <;> rw [h] at he
    · cases he
    · rcases List.mem_singleton.1 he with rfl; rfl

theorem exec_recvOk {s s' : S} {a : Act} {more : List Act} (h : recvOk a = true) (he : exec s a = .go more s') :
    ∀ x ∈ more, recvOk x = true := by
  cases a <;> simp only [exec] at he <;> first | (cases h; done) | skip
  · cases he; exact flat_recvOk fun _ => rfl
  · cases he; exact flat_recvOk fun _ => rfl
  · cases he; simp
  · cases he; simp
  · cases hc : s.launchQ <;> rw [hc] at he <;> cases he <;> simp [recvOk]
  · cases hc : s.launchQ <;> rw [hc] at he <;> cases he; simp [recvOk]
  · cases he; simp
  · cases hc : s.flag <;> rw [hc] at he <;> cases he <;> simp [recvOk]
  · cases he; simp

theorem stop_recvOk (e : Bool) : ∀ a ∈ stopProg e true, recvOk a = true := by
  cases e <;> simp [stopProg, recvOk]

theorem recvOk_step {s s' : S} {l : Lbl} (h : ∀ a ∈ s.recv.prog, recvOk a = true) (hs : step s l = some s') :
    ∀ a ∈ s'.recv.prog, recvOk a = true := by
  have hst := step_iff s l s' hs
  cases hst with
  | @handled s2 c c' m p hm hh =>
    obtain ⟨e1, e2, e3, e4, e5, _⟩ := handle_rec hh
    simp only [e5]; exact h
  | @unhandled c m hm hh => cases m <;> exact h
  | @mainGo s1 ex b a p more hm he =>
    rcases exec_recv he with e | e | e <;> simp only [e]
    · exact h
    · simp [Recv.prog]
    · simp [Recv.prog]
  | @deb m h0 _ => cases m <;> simp [Recv.prog, sendProg, Body.answers, recvOk]
  | @close e h0 => exact stop_recvOk _
  | @recvGo s1 cl a p more hm he =>
    rw [hm, mkRecv_prog] at h
    intro x hx
    rw [mkRecv_prog] at hx
    rcases List.mem_append.1 hx with hx | hx
    · exact exec_recvOk (h a List.mem_cons_self) he x hx
    · exact h x (List.mem_cons_of_mem _ hx)
  | recvDie _ _ => simp [Recv.prog]
  | recvEnd _ => simp [Recv.prog]
  | _ => exact h

theorem recvOk_reach {s : S} (h : Reach s) : ∀ a ∈ s.recv.prog, recvOk a = true := by
  induction h with
  | init => simp [init, Recv.prog]
  | step _ hs ih => exact recvOk_step ih hs

/-! ## The configuration follows the response -/

def isStart : Body → Bool
  | .attachResp _ | .launchResp _ => true
  | _ => false

/-- The session was confirmed to the client, or is about to be. -/
def Started (outs : List Body) (p : List Act) : Prop :=
  ∃ b, isStart b = true ∧ (b ∈ outs ∨ .write b ∈ p)

theorem exec_start {s s' : S} {a : Act} {more : List Act} (he : exec s a = .go more s') (b : Body) (hb : isStart b = true)
    (h : b ∈ s'.outs ∨ .write b ∈ more) : b ∈ s.outs ∨ a = .write b ∨ .send .config ∈ more := by
  have flat : ∀ (l : List (Nat × ReqKind)) (f : Nat × ReqKind → Body), (∀ e, isStart (f e) = false) →
      .write b ∉ (l.flatMap fun e => sendProg (f e)) := by
    intro l f hf hx
    obtain ⟨e, _, he⟩ := List.mem_flatMap.1 hx
    unfold sendProg at he
    rcases List.mem_cons.1 he with h | he
    · cases h; rw [hf e] at hb; cases hb
    · cases h : (f e).answers <;> rw [h] at he
      · cases he
      · cases List.mem_singleton.1 he
  rcases h with h | h
  · rcases exec_outs he with e | ⟨b', e, hw⟩
    · rw [e] at h; exact .inl h
    · rw [e] at h
      rcases List.mem_append.1 h with h | h
      · exact .inl h
      · rcases List.mem_singleton.1 h with rfl
        rcases hw with rfl | ⟨q, _, rfl⟩
        · exact .inr (.inl rfl)
        · cases hb
  · cases a <;> simp only [exec] at he <;>
      first
      | (cases he; cases h; done)
      | (cases hc : s.cut <;> rw [hc] at he <;> cases he; cases h; done)
      | skip
    · cases he; exact absurd h (flat _ _ fun _ => rfl)
    · cases he; exact absurd h (flat _ _ fun _ => rfl)
    · cases hc : s.debSet <;> rw [hc] at he <;> cases he <;> simp at h
    · cases hc : s.recv.alive <;> rw [hc] at he <;> cases he; cases h
    · cases hc : s.launchQ <;> rw [hc] at he <;> cases he <;> simp at h
    · cases hc : s.launchQ <;> rw [hc] at he <;> cases he; simp at h
    · cases hc : s.flag <;> rw [hc] at he <;> cases he <;> simp at h
      rw [h] at hb; cases hb
    · cases hc : s.cancelled <;> rw [hc] at he <;> cases he; cases h
    · cases he; simp at h
    · cases hc : s.cancelled <;> rw [hc] at he <;> cases he
      right; right; simp

/-- The invariant. -/
def CfgInv (s : S) : Prop :=
  ∀ c p, s.main = .run c p → Started s.outs p → .send .config ∈ p ∨ .config ∈ s.toDeb

theorem exec_config {s s' : S} {a : Act} {p more : List Act} (he : exec s a = .go more s')
    (h : .send .config ∈ a :: p ∨ .config ∈ s.toDeb) : .send .config ∈ more ++ p ∨ .config ∈ s'.toDeb := by
  have keep : ∀ m, m ∈ s.toDeb → m ∈ s'.toDeb := by
    intro m hm
    cases a <;> simp only [exec] at he <;>
      first
      | (cases he; exact hm)
      | (cases hc : s.cut <;> rw [hc] at he <;> cases he; exact List.mem_append_left _ hm)
      | (cases hc : s.launchQ <;> rw [hc] at he <;> cases he; exact hm)
      | (cases hc : s.recv.alive <;> rw [hc] at he <;> cases he; exact hm)
      | (cases hc : s.cancelled <;> rw [hc] at he <;> cases he; first | exact hm | exact List.mem_append_left _ hm)
  rcases h with h | h
  · rcases List.mem_cons.1 h with rfl | h
    · simp only [exec] at he
      cases hc : s.cut <;> rw [hc] at he <;> cases he
      right; simp
    · exact .inl (List.mem_append_right _ h)
  · exact .inr (keep _ h)

theorem cfg_step {s s' : S} {l : Lbl} (hr : Reach s) (h : CfgInv s) (hs : step s l = some s') : CfgInv s' := by
  have thr : ∀ ex, ∀ s : S, CfgInv (thrown s ex) := by
    intro ex s c p hm; cases ex <;> cases hm
  have hst := step_iff s l s' hs
  cases hst with
  | @handled s2 c c' m p hm hh =>
    obtain ⟨e1, e2, e3, e4, e5, e6, _⟩ := handle_rec hh
    intro c1 p1 h1 ⟨b, hb, hw⟩
    cases h1
    simp only [e4, e6] at hw ⊢
    rcases hw with hw | hw
    · rcases h _ _ hm ⟨b, hb, .inl hw⟩ with h1 | h1
      · cases h1
      · exact .inr h1
    · left
      cases m with
      | bad => cases hh
      | runInResp r =>
        simp only [handle] at hh
        cases hg : Dict.get? s.runIn r <;> rw [hg] at hh <;> cases hh
        simp at hw
      | req k b' =>
        obtain ⟨rfl, _⟩ := handle_prog hh
        generalize s.debSet = d at hw ⊢
        cases d <;> cases k <;> simp [reqProg, sendProg, Body.answers] at hw ⊢
        subst hw; cases hb
  | @unhandled c m hm hh => exact thr false _
  | badInput h0 => exact thr false _
  | eof _ => exact h
  | leave h0 => intro c p hm; cases hm
  | @mainGo s1 ex b a p more hm he =>
    intro c1 p1 h1 ⟨b1, hb, hw⟩
    cases ex <;> cases h1
    rcases hw with hw | hw
    · rcases exec_start he b1 hb (.inl hw) with h1 | rfl | h1
      · exact exec_config (s' := s1) he (h _ _ hm ⟨b1, hb, .inl h1⟩)
      · exact exec_config (s' := s1) he (h _ _ hm ⟨b1, hb, .inr List.mem_cons_self⟩)
      · exact .inl (List.mem_append_left _ h1)
    · rcases List.mem_append.1 hw with hw | hw
      · rcases exec_start he b1 hb (.inr hw) with h1 | rfl | h1
        · exact exec_config (s' := s1) he (h _ _ hm ⟨b1, hb, .inl h1⟩)
        · exact exec_config (s' := s1) he (h _ _ hm ⟨b1, hb, .inr List.mem_cons_self⟩)
        · exact .inl (List.mem_append_left _ h1)
      · exact exec_config (s' := s1) he (h _ _ hm ⟨b1, hb, .inr (List.mem_cons_of_mem _ hw)⟩)
  | @mainThrow ex b a p hm he => exact thr ex _
  | @mainAlt b a p more hm he =>
    intro c1 p1 h1 ⟨b1, hb, hw⟩
    cases h1
    cases a <;> simp only [altProg] at he <;> try (cases he; done)
    · cases hcc : s.cancelled <;> rw [hcc] at he <;> cases he
      rcases h _ _ hm ⟨b1, hb, hw.imp id (List.mem_cons_of_mem _)⟩ with h1 | h1
      · rcases List.mem_cons.1 h1 with h1 | h1
        · cases h1
        · exact .inl h1
      · exact .inr h1
    · cases he
      have hw' : b1 ∈ s.outs ∨ .write b1 ∈ p := hw.imp id fun hw => by
        rcases List.mem_append.1 hw with hw | hw
        · simp [stopProg] at hw
        · exact hw
      rcases h _ _ hm ⟨b1, hb, hw'.imp id (List.mem_cons_of_mem _)⟩ with h1 | h1
      · rcases List.mem_cons.1 h1 with h1 | h1
        · cases h1
        · exact .inl (List.mem_append_right _ h1)
      · exact .inr h1
  | @mainRaise ex b a p hm he => exact thr ex _
  | finish h0 => intro c p hm; cases hm
  | @recvGo s1 cl a p more hm he =>
    have hok := recvOk_reach hr
    rw [hm, mkRecv_prog] at hok
    have ha := hok a List.mem_cons_self
    intro c1 p1 h1 ⟨b1, hb, hw⟩
    simp only [exec_main he] at h1
    have hw' : b1 ∈ s.outs ∨ .write b1 ∈ p1 := by
      rcases hw with hw | hw
      · rcases exec_start he b1 hb (.inl hw) with h2 | rfl | h2
        · exact .inl h2
        · cases b1 <;> first | (cases hb; done) | cases ha
        · have := exec_recvOk ha he _ h2; cases this
      · exact .inr hw
    rcases h _ _ h1 ⟨b1, hb, hw'⟩ with h2 | h2
    · exact .inl h2
    · right
      rcases exec_config (p := []) he (.inr h2) with h3 | h3
      · rw [List.append_nil] at h3
        have := exec_recvOk ha he _ h3; cases this
      · exact h3
  | _ => exact h

theorem cfg_reach {s : S} (h : Reach s) : CfgInv s := by
  induction h with
  | init => intro c p hm ⟨b, _, hb⟩; cases hm; simp [init] at hb
  | step h0 hs ih => exact cfg_step h0 ih hs

/-! ## Once stopping, the terminated event follows -/

/-- The terminated event was sent, or will be before the main thread does anything else. -/
def Doomed (s : S) : Prop :=
  .terminated ∈ s.outs ∨ s.main = .dead ∨ .chkTerm ∈ s.main.prog ∨ .write .terminated ∈ s.main.prog

theorem flag_out {s : S} (h : TInv s) (hf : s.flag = true) : .terminated ∈ s.outs := by
  have : tcount s ≠ 0 := by
    rcases h with h | h | h | h
    · rw [h.2.1]; simp
    · rw [h.1] at hf; cases hf
    · rw [h.1] at hf; cases hf
    · rw [h.2.1]; simp
  exact List.count_pos_iff.1 (by unfold tcount at this; omega)

theorem doomed_step {s s' : S} {l : Lbl} (ht : TInv s) (h : Doomed s) (hs : step s l = some s') : Doomed s' := by
  have thr : ∀ ex, ∀ s : S, Doomed (thrown s ex) := by
    intro ex s
    cases ex
    · right; right; left; simp [thrown, Main.prog, stopProg]
    · right; left; rfl
  have idle : s.main.prog = [] → s.main ≠ .dead → .terminated ∈ s.outs := by
    intro h1 h2
    rcases h with h | h | h | h
    · exact h
    · exact absurd h h2
    · rw [h1] at h; cases h
    · rw [h1] at h; cases h
  have grow : ∀ {s1 : S} {a : Act} {more : List Act}, exec s a = .go more s1 → .terminated ∈ s.outs → .terminated ∈ s1.outs := by
    intro s1 a more he h1
    obtain ⟨m, e⟩ := exec_grow he
    rw [e]; exact List.mem_append_left _ h1
  have hst := step_iff s l s' hs
  cases hst with
  | @handled s2 c c' m p hm hh =>
    obtain ⟨e1, e2, e3, e4, _⟩ := handle_rec hh
    left
    simp only [e4]
    exact idle (by rw [hm]; rfl) (by rw [hm]; simp)
  | @unhandled c m hm hh => exact thr false _
  | badInput h0 => exact thr false _
  | eof _ => exact h
  | leave h0 => left; exact idle (by rw [h0]; rfl) (by rw [h0]; simp)
  | @mainGo s1 ex b a p more hm he =>
    rcases h with h | h | h | h
    · exact .inl (grow (s1 := s1) he h)
    · rw [hm] at h; cases ex <;> cases h
    · rw [hm, mkMain_prog] at h
      rcases List.mem_cons.1 h with h | h
      · subst h
        simp only [exec] at he
        cases hf : s.flag with
        | true => rw [hf] at he; cases he; left; exact flag_out (s := s) ht hf
        | false => rw [hf] at he; cases he; right; right; right; simp
      · right; right; left; simp [h]
    · rw [hm, mkMain_prog] at h
      rcases List.mem_cons.1 h with h | h
      · subst h
        simp only [exec] at he
        cases he; left; simp
      · right; right; right; simp [h]
  | @mainThrow ex b a p hm he => exact thr ex _
  | @mainAlt b a p more hm he =>
    rcases h with h | h | h | h
    · exact .inl h
    · rw [hm] at h; cases h
    · rw [hm] at h
      rcases List.mem_cons.1 h with h | h
      · subst h; cases he
      · right; right; left; simp [Main.prog, h]
    · rw [hm] at h
      rcases List.mem_cons.1 h with h | h
      · subst h; cases he
      · right; right; right; simp [Main.prog, h]
  | @mainRaise ex b a p hm he => exact thr ex _
  | finish h0 => left; exact idle (by rw [h0]; rfl) (by rw [h0]; simp)
  | @recvGo s1 cl a p more hm he =>
    rcases h with h | h
    · exact .inl (grow (s1 := s1) he h)
    · right; simp only [exec_main he]; exact h
  | _ => exact h

theorem doomed_run {s s' : S} {ls : List Lbl} (h0 : Reach s) (h : Doomed s) (hs : run s ls = some s') : Doomed s' := by
  induction ls generalizing s with
  | nil => cases hs; exact h
  | cons l ls ih =>
    simp only [run] at hs
    cases h1 : step s l with
    | none => rw [h1] at hs; cases hs
    | some s1 =>
      rw [h1] at hs
      exact ih (.step h0 h1) (doomed_step (tout_reach h0).inv h h1) hs

end Verif.Server
