import Verif.Server.Shake

/-! # More about the programs of the threads -/

namespace Verif.Server

/-- Every response is followed at once by forgetting the request. -/
def paired : List Act → Prop
  | [] => True
  | .write b :: p => (∀ q, b.answers = some q → p.head? = some (.pop q)) ∧ paired p
  | _ :: p => paired p

theorem paired_send {b : Body} {p : List Act} (h : paired p) : paired (sendProg b ++ p) := by
  cases hb : b.answers with
  | none => simp [sendProg, hb, paired, h]
  | some q => simp [sendProg, hb, paired, h]

theorem paired_flat {l : List (Nat × ReqKind)} {f : Nat × ReqKind → Body} {p : List Act} (h : paired p) :
    paired ((l.flatMap fun e => sendProg (f e)) ++ p) := by
  induction l with
  | nil => exact h
  | cons e l ih => rw [List.flatMap_cons, List.append_assoc]; exact paired_send ih

theorem paired_stop (e f : Bool) {p : List Act} (h : paired p) : paired (stopProg e f ++ p) := by
  cases e <;> cases f <;> simp [stopProg, paired, h]

theorem exec_paired {s s' : S} {a : Act} {p more : List Act} (h : paired (a :: p)) (he : exec s a = .go more s') :
    paired (more ++ p) := by
  cases a <;> simp only [exec] at he <;> simp only [paired] at h
  · cases he; exact paired_flat h
  · cases he; exact paired_flat h
  · cases he; exact h.2
  · cases he; exact h
  · cases hc : s.debSet <;> rw [hc] at he <;> cases he <;> simpa [paired] using h
  · cases he; exact h
  · cases hc : s.recv.alive <;> rw [hc] at he <;> cases he; exact h
  · cases he; exact h
  · cases hc : s.launchQ <;> rw [hc] at he <;> cases he <;> simpa [paired] using h
  · cases hc : s.launchQ <;> rw [hc] at he <;> cases he; simpa [paired] using h
  · cases he; exact h
  · cases hc : s.flag <;> rw [hc] at he <;> cases he <;> simpa [paired, Body.answers] using h
  · cases he; exact h
  · cases hc : s.cut <;> rw [hc] at he <;> cases he; exact h
  · cases hc : s.cancelled <;> rw [hc] at he <;> cases he; exact h
  · cases he; exact h
  · cases he; exact h
  · cases he; exact h
  · cases he; exact h
  · cases he; exact h
  · cases hc : s.cancelled <;> rw [hc] at he <;> cases he
    rw [List.cons_append]
    simp only [paired]
    rw [List.append_assoc]
    exact paired_send h
  · cases he; exact h

/-- Actions that neither write a message nor touch the requests, nor start anything. -/
def mute : Act → Bool
  | .snapE | .stopDeb | .cancel | .join | .clearDeb | .chkLaunch | .chkTerm => true
  | _ => false

/-- Taking stock of the requests is followed only by the rest of `stop`. -/
def tidy (need : List Act → Prop) : List Act → Prop
  | [] => True
  | a :: p => ((a = .snapD ∨ a = .snapE) → (∀ b ∈ p, mute b = true) ∧ need p) ∧ tidy need p

theorem tidy_append {need : List Act → Prop} {m p : List Act} (hm : ∀ a ∈ m, a ≠ .snapD ∧ a ≠ .snapE) (h : tidy need p) :
    tidy need (m ++ p) := by
  induction m with
  | nil => exact h
  | cons a m ih =>
    have := hm a List.mem_cons_self
    refine ⟨fun h1 => ?_, ih fun x hx => hm x (List.mem_cons_of_mem _ hx)⟩
    rcases h1 with h1 | h1
    · exact absurd h1 this.1
    · exact absurd h1 this.2

theorem tidy_tail {need : List Act → Prop} {a : Act} {p : List Act} (h : tidy need (a :: p)) : tidy need p := h.2

theorem exec_nosnap {s s' : S} {a : Act} {more : List Act} (he : exec s a = .go more s') :
    ∀ x ∈ more, x ≠ .snapD ∧ x ≠ .snapE := by
  have flat : ∀ (l : List (Nat × ReqKind)) (f : Nat × ReqKind → Body),
      ∀ x ∈ (l.flatMap fun e => sendProg (f e)), x ≠ .snapD ∧ x ≠ .snapE := by
    intro l f x hx
    obtain ⟨e, _, he⟩ := List.mem_flatMap.1 hx
    unfold sendProg at he
    rcases List.mem_cons.1 he with rfl | he
    · simp
    · cases h : (f e).answers <;> rw [h] at he
      · cases he
      · rcases List.mem_singleton.1 he with rfl; simp
  cases a <;> simp only [exec] at he
  · cases he; exact flat _ _
  · cases he; exact flat _ _
  · cases he; simp
  · cases he; simp
  · cases hc : s.debSet <;> rw [hc] at he <;> cases he <;> simp
  · cases he; simp
  · cases hc : s.recv.alive <;> rw [hc] at he <;> cases he; simp
  · cases he; simp
  · cases hc : s.launchQ <;> rw [hc] at he <;> cases he <;> simp
  · cases hc : s.launchQ <;> rw [hc] at he <;> cases he; simp
  · cases he; simp
  · cases hc : s.flag <;> rw [hc] at he <;> cases he <;> simp
  · cases he; simp
  · cases hc : s.cut <;> rw [hc] at he <;> cases he; simp
  · cases hc : s.cancelled <;> rw [hc] at he <;> cases he; simp
  · cases he; simp
  · cases he; simp
  · cases he; simp
  · cases he; simp
  · cases he; simp
  · cases hc : s.cancelled <;> rw [hc] at he <;> cases he; simp [sendProg, Body.answers]
  · cases he; simp

theorem tidy_stopM (e : Bool) : tidy (fun p => .stopDeb ∈ p) (stopProg e false) := by
  cases e <;> simp [stopProg, tidy, mute]

theorem tidy_stopR (e : Bool) : tidy (fun _ => True) (stopProg e true) := by
  cases e <;> simp [stopProg, tidy, mute]

theorem msh_acc {deb alive : Bool} {n : Nat} {ex : Bool} {q : Nat} {p : List Act} (h : MSh deb alive n ex (.accept q :: p)) :
    p = [] ∧ n = 0 ∧ deb = true ∧ alive = false ∧ ex = false := by
  obtain ⟨q', t, h1, h2, h3, h4⟩ := h
  cases q' with
  | cons a q' =>
    rw [List.cons_append] at h1; cases h1
    have := h2 _ List.mem_cons_self
    cases this
  | nil =>
    rw [List.nil_append] at h1
    subst h1
    cases h3 with
    | tail _ _ h => rcases h with h | h | h | h | h | h <;> cases h
    | acc h1 h2 h3 => exact ⟨rfl, h1, h2, h3, rfl⟩

structure Sh (s : S) : Prop where
  pm : paired s.main.prog
  pr : paired s.recv.prog
  tm : tidy (fun p => .stopDeb ∈ p) s.main.prog
  tr : tidy (fun _ => True) s.recv.prog

theorem sh_step {s s' : S} {l : Lbl} (hc : Ctl s) (h : Sh s) (hs : step s l = some s') : Sh s' := by
  have thr : ∀ ex, Sh (thrown s ex) := by
    intro ex
    cases ex
    · refine ⟨?_, h.pr, tidy_stopM true, h.tr⟩
      have := paired_stop true false (p := []) trivial
      rw [List.append_nil] at this; exact this
    · exact ⟨trivial, h.pr, trivial, h.tr⟩
  have hst := step_iff s l s' hs
  cases hst with
  | @handled s2 c c' m p hm hh =>
    obtain ⟨e1, e2, e3, e4, e5, _⟩ := handle_rec hh
    have key : paired p ∧ tidy (fun p => .stopDeb ∈ p) p := by
      cases m with
      | bad => cases hh
      | runInResp r =>
        simp only [handle] at hh
        cases hg : Dict.get? s.runIn r <;> rw [hg] at hh <;> cases hh
        simp [paired, tidy]
      | req k b =>
        obtain ⟨rfl, _⟩ := handle_prog hh
        cases s.debSet <;> cases k <;> simp [reqProg, paired, tidy, sendProg, Body.answers]
    exact ⟨key.1, by simp only [e5]; exact h.pr, key.2, by simp only [e5]; exact h.tr⟩
  | @unhandled c m hm hh =>
    have h3 := thr false
    cases m <;> exact ⟨h3.1, h3.2, h3.3, h3.4⟩
  | badInput h0 => exact thr false
  | eof _ => exact h
  | leave h0 =>
    refine ⟨?_, h.pr, tidy_stopM false, h.tr⟩
    have := paired_stop false false (p := []) trivial
    rw [List.append_nil] at this; exact this
  | @mainGo s1 ex b a p more hm he =>
    have h1 := h.pm
    have h2 := h.tm
    rw [hm, mkMain_prog] at h1 h2
    have h3 := exec_paired h1 he
    have h4 := tidy_append (exec_nosnap he) (tidy_tail h2)
    refine ⟨by rw [mkMain_prog]; exact h3, ?_, by rw [mkMain_prog]; exact h4, ?_⟩
    · rcases exec_recv he with e | e | e <;> simp only [e]
      · exact h.pr
      · trivial
      · trivial
    · rcases exec_recv he with e | e | e <;> simp only [e]
      · exact h.tr
      · trivial
      · trivial
  | @mainThrow ex b a p hm he => exact thr ex
  | @mainAlt b a p more hm he =>
    have h1 := h.pm
    have h2 := h.tm
    rw [hm] at h1 h2
    have key : paired (more ++ p) ∧ tidy (fun p => .stopDeb ∈ p) (more ++ p) := by
      cases a <;> simp only [altProg] at he <;> try (cases he; done)
      · cases hcc : s.cancelled <;> rw [hcc] at he <;> cases he
        exact ⟨h1, h2.2⟩
      · cases he
        obtain ⟨rfl, _⟩ := msh_acc (hc.main false b _ hm)
        refine ⟨paired_stop _ _ trivial, ?_⟩
        rw [List.append_nil]; exact tidy_stopM _
    exact ⟨key.1, h.pr, key.2, h.tr⟩
  | @mainRaise ex b a p hm he => exact thr ex
  | finish h0 => exact ⟨trivial, h.pr, trivial, h.tr⟩
  | @deb m h0 _ =>
    refine ⟨h.pm, ?_, h.tm, ?_⟩
    · have := paired_send (b := .relay m) (p := []) trivial
      rw [List.append_nil] at this; exact this
    · cases m <;> simp [Recv.prog, sendProg, Body.answers, tidy]
  | @close e h0 =>
    refine ⟨h.pm, ?_, h.tm, tidy_stopR e⟩
    have := paired_stop e true (p := []) trivial
    rw [List.append_nil] at this; exact this
  | @recvGo s1 cl a p more hm he =>
    have h1 := h.pr
    have h2 := h.tr
    rw [hm, mkRecv_prog] at h1 h2
    have h3 := exec_paired h1 he
    have h4 := tidy_append (exec_nosnap he) (tidy_tail h2)
    refine ⟨?_, by rw [mkRecv_prog]; exact h3, ?_, by rw [mkRecv_prog]; exact h4⟩
    · simp only [exec_main he]; exact h.pm
    · simp only [exec_main he]; exact h.tm
  | @recvDie a p h0 _ => exact ⟨h.pm, trivial, h.tm, trivial⟩
  | recvEnd h0 => exact ⟨h.pm, trivial, h.tm, trivial⟩

theorem sh_reach {s : S} (h : Reach s) : Sh s := by
  induction h with
  | init => exact ⟨trivial, trivial, trivial, trivial⟩
  | step h0 hs ih => exact sh_step (ctl_reach h0) ih hs

/-! ## Before a debuggee is connected -/

/-- Actions around a debuggee that is not connected yet. -/
def unc : Act → Bool
  | .mkDeb | .connect | .writeRunIn _ | .register _ _ | .accept _ | .stopDeb | .clearDeb => true
  | _ => false

def Unc (s : S) (p : List Act) : Prop := s.debSet = false ∨ s.runIn ≠ [] ∨ ∃ a ∈ p, unc a = true

/-- In `start()`, while no debuggee is connected, nothing was sent and there is no receive thread. -/
def UInv (s : S) : Prop := ∀ c p, s.main = .run c p → Unc s p → s.recv = .none ∧ s.toDeb = []

theorem neutral_not_unc {p : List Act} (h : allP neutral p) : ¬ ∃ a ∈ p, unc a = true := by
  rintro ⟨a, ha, hu⟩
  have := h a ha
  cases a <;> simp [unc] at hu <;> simp [neutral, plain] at this

theorem msh_conn {deb alive : Bool} {n : Nat} {ex : Bool} {p : List Act} (h : MSh deb alive n ex (.connect :: p)) :
    allP neutral p ∧ n = 0 ∧ deb = true ∧ alive = false ∧ ex = false := by
  obtain ⟨q', t, h1, h2, h3, h4⟩ := h
  cases q' with
  | cons a q' =>
    rw [List.cons_append] at h1; cases h1
    have := h2 _ List.mem_cons_self
    cases this
  | nil =>
    rw [List.nil_append] at h1
    subst h1
    cases h3 with
    | tail _ _ h => rcases h with h | h | h | h | h | h <;> cases h
    | conn h1 h2 h3 h4 => exact ⟨h4, h1, h2, h3, rfl⟩

theorem exec_unc {s s' : S} {b : Bool} {a : Act} {p more : List Act} (hc : Ctl s) (hm : s.main = .run b (a :: p))
    (h : Unc s (a :: p) → s.recv = .none ∧ s.toDeb = []) (he : exec s a = .go more s') (hu : Unc s' (more ++ p)) :
    s'.recv = .none ∧ s'.toDeb = [] := by
  have flat : ∀ (l : List (Nat × ReqKind)) (f : Nat × ReqKind → Body),
      ∀ x ∈ (l.flatMap fun e => sendProg (f e)), unc x = false := by
    intro l f x hx
    obtain ⟨e, _, he⟩ := List.mem_flatMap.1 hx
    unfold sendProg at he
    rcases List.mem_cons.1 he with rfl | he
    · rfl
    · cases h : (f e).answers <;> rw [h] at he
      · cases he
      · rcases List.mem_singleton.1 he with rfl; rfl
  have old : s'.debSet = s.debSet → s'.runIn = s.runIn → (∀ x ∈ more, unc x = true → unc a = true) → Unc s (a :: p) := by
    intro h1 h2 h3
    rcases hu with hu | hu | ⟨x, hx, hux⟩
    · exact .inl (h1 ▸ hu)
    · exact .inr (.inl (h2 ▸ hu))
    · right; right
      rcases List.mem_append.1 hx with hx | hx
      · exact ⟨a, List.mem_cons_self, h3 x hx hux⟩
      · exact ⟨x, List.mem_cons_of_mem _ hx, hux⟩
  have self : unc a = true → Unc s (a :: p) := fun h => .inr (.inr ⟨a, List.mem_cons_self, h⟩)
  have hmsh := hc.main false b _ hm
  cases a <;> simp only [exec] at he
  · cases he; exact h (old rfl rfl fun x hx hu => by rw [flat _ _ x hx] at hu; cases hu)
  · cases he; exact h (old rfl rfl fun x hx hu => by rw [flat _ _ x hx] at hu; cases hu)
  · cases he; exact h (old rfl rfl (by simp))
  · cases he; exact h (old rfl rfl (by simp))
  · cases hd : s.debSet <;> rw [hd] at he <;> cases he <;> exact h (self rfl)
  · cases he; exact h (old rfl rfl (by simp))
  · cases hd : s.recv.alive <;> rw [hd] at he <;> cases he; exact h (old rfl rfl (by simp))
  · cases he; exact h (self rfl)
  · cases hd : s.launchQ <;> rw [hd] at he <;> cases he <;> exact h (old rfl rfl (by simp [unc]))
  · cases hd : s.launchQ <;> rw [hd] at he <;> cases he; exact h (old rfl rfl (by simp [unc]))
  · cases he; exact h (old rfl rfl (by simp))
  · cases hd : s.flag <;> rw [hd] at he <;> cases he <;> exact h (old rfl rfl (by simp [unc]))
  · cases he; exact h (old rfl rfl (by simp))
  · cases hd : s.cut <;> rw [hd] at he <;> cases he
    have := h (old rfl rfl (by simp))
    simp [S.cut, this.1] at hd
  · cases hd : s.cancelled <;> rw [hd] at he <;> cases he
    have := h (old rfl rfl (by simp))
    exact ⟨this.1, by simp [this.1, this.2]⟩
  · cases he
    exact ⟨rfl, (h (self rfl)).2⟩
  · cases he
    obtain ⟨h1, h2, h3, h4, _⟩ := msh_conn hmsh
    rcases hu with hu | hu | hu
    · simp only [h3] at hu; cases hu
    · exact absurd (List.length_eq_zero_iff.1 h2) hu
    · exact absurd hu (neutral_not_unc h1)
  · cases he; exact h (old rfl rfl (by simp))
  · cases he; exact h (self rfl)
  · cases he; exact h (self rfl)
  · cases hd : s.cancelled <;> rw [hd] at he <;> cases he
    obtain ⟨h1, h2, h3, h4, _⟩ := msh_acc hmsh
    subst h1
    rcases hu with hu | hu | hu
    · simp only [h3] at hu; cases hu
    · exact absurd (List.length_eq_zero_iff.1 h2) hu
    · simp [sendProg, Body.answers, unc] at hu
  · cases he; exact h (old rfl rfl (by simp))

theorem uinv_step {s s' : S} {l : Lbl} (hc : Ctl s) (h : UInv s) (hs : step s l = some s') : UInv s' := by
  have thr : ∀ ex, ∀ s : S, UInv (thrown s ex) := by
    intro ex s c p hm; cases ex <;> cases hm
  have hst := step_iff s l s' hs
  cases hst with
  | @handled s2 c c' m p hm hh =>
    obtain ⟨e1, e2, e3, e4, e5, e6, e7, e8, _⟩ := handle_rec hh
    intro c1 p1 h1 hu
    cases h1
    simp only [e5, e6]
    apply h _ _ hm
    cases m with
    | bad => cases hh
    | runInResp r =>
      simp only [handle] at hh
      cases hg : Dict.get? s.runIn r <;> rw [hg] at hh <;> cases hh
      right; left
      intro e; rw [e] at hg; cases hg
    | req k b =>
      obtain ⟨rfl, e9⟩ := handle_prog hh
      rcases hu with hu | hu | hu
      · exact .inl (e8 ▸ hu)
      · exact .inr (.inl (e9 ▸ hu))
      · cases hd : s.debSet with
        | false => exact .inl hd
        | true =>
          simp only [hd] at hu
          cases k <;> simp [reqProg, unc] at hu
  | @unhandled c m hm hh => exact thr false _
  | badInput h0 => exact thr false _
  | eof _ => exact h
  | leave h0 => intro c p hm; cases hm
  | @mainGo s1 ex b a p more hm he =>
    intro c1 p1 h1 hu
    cases ex <;> cases h1
    exact exec_unc (s' := s1) hc hm (h _ _ hm) he hu
  | @mainThrow ex b a p hm he => exact thr ex _
  | @mainAlt b a p more hm he =>
    intro c1 p1 h1 hu
    cases h1
    apply h _ _ hm
    rcases hu with hu | hu | ⟨x, hx, hux⟩
    · exact .inl hu
    · exact .inr (.inl hu)
    · right; right
      rcases List.mem_append.1 hx with hx | hx
      · cases a <;> simp only [altProg] at he <;> try (cases he; done)
        · cases hcc : s.cancelled <;> rw [hcc] at he <;> cases he; cases hx
        · exact ⟨_, List.mem_cons_self, rfl⟩
      · exact ⟨x, List.mem_cons_of_mem _ hx, hux⟩
  | @mainRaise ex b a p hm he => exact thr ex _
  | finish h0 => intro c p hm; cases hm
  | @deb m h0 _ =>
    intro c p hm hu
    have := h _ _ hm hu
    rw [h0] at this; cases this.1
  | @close e h0 =>
    intro c p hm hu
    have := h _ _ hm hu
    rw [h0] at this; cases this.1
  | @recvGo s1 cl a p more hm he =>
    intro c1 p1 h1 hu
    simp only [exec_main he] at h1
    exfalso
    have : Unc s p1 := by
      have hok : a ≠ .mkDeb ∧ a ≠ .clearDeb ∧ a ≠ .connect ∧ (∀ q, a ≠ .accept q) ∧ (∀ r q, a ≠ .register r q) := by
        cases cl with
        | false =>
          have := hc.loop _ hm a List.mem_cons_self
          cases a <;> simp [plain] at this <;> simp
        | true =>
          obtain ⟨q, t, h1, h2, h3⟩ := hc.closing _ hm
          cases q with
          | cons x q =>
            rw [List.cons_append] at h1; cases h1
            have := h2 _ List.mem_cons_self
            cases a <;> simp [plain] at this <;> simp
          | nil =>
            rw [List.nil_append] at h1; subst h1
            rcases h3 with h3 | h3
            · cases h3
            · rcases h3 with h | h | h | h | h | h <;> cases h <;> simp
      obtain ⟨k1, k2, k3, k4, k5⟩ := hok
      have keep : s1.debSet = s.debSet ∧ s1.runIn = s.runIn := by
        cases a <;> simp only [exec] at he <;>
          first
          | (cases he; exact ⟨rfl, rfl⟩)
          | exact absurd rfl k1
          | exact absurd rfl k2
          | exact absurd rfl k3
          | exact absurd rfl (k4 _)
          | exact absurd rfl (k5 _ _)
          | (cases hc : s.cancelled <;> rw [hc] at he <;> cases he; exact ⟨rfl, rfl⟩)
          | (cases hc : s.cut <;> rw [hc] at he <;> cases he; exact ⟨rfl, rfl⟩)
          | (cases hc : s.launchQ <;> rw [hc] at he <;> cases he; exact ⟨rfl, rfl⟩)
          | (cases hc : s.recv.alive <;> rw [hc] at he <;> cases he; exact ⟨rfl, rfl⟩)
      rcases hu with hu | hu | hu
      · exact .inl (keep.1 ▸ hu)
      · exact .inr (.inl (keep.2 ▸ hu))
      · exact .inr (.inr hu)
    have := (h _ _ h1 this).1
    rw [hm] at this; cases cl <;> cases this
  | @recvDie a p h0 _ =>
    intro c p hm hu
    have := h _ _ hm hu
    rw [h0] at this; cases this.1
  | recvEnd h0 =>
    intro c p hm hu
    have := h _ _ hm hu
    rw [h0] at this; cases this.1

theorem uinv_reach {s : S} (h : Reach s) : UInv s := by
  induction h with
  | init => intro c p _ _; exact ⟨rfl, rfl⟩
  | step h0 hs ih => exact uinv_step (ctl_reach h0) ih hs

end Verif.Server
