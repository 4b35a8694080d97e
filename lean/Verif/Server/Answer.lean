import Verif.Server.Term

/-! # Every outstanding request is answered when the server stops -/

namespace Verif.Server

/-- A response to the request `q` was written. -/
def Answered (outs : List Body) (q : Nat) : Prop := ∃ b ∈ outs, b.answers = some q

theorem Answered.mono {o o' : List Body} {q : Nat} (h : Answered o q) : Answered (o ++ o') q := by
  obtain ⟨b, hb, e⟩ := h
  exact ⟨b, List.mem_append_left _ hb, e⟩

/-- A request is forgotten only after its response was written. -/
def popsOk (P : Nat → Prop) : List Act → Prop
  | [] => True
  | .write b :: p => popsOk (fun q => P q ∨ b.answers = some q) p
  | .pop q :: p => P q ∧ popsOk P p
  | _ :: p => popsOk P p

theorem popsOk_mono {P Q : Nat → Prop} (h : ∀ q, P q → Q q) : ∀ {p : List Act}, popsOk P p → popsOk Q p
  | [], _ => trivial
  | a :: p, hp => by
    cases a <;> simp only [popsOk] at hp ⊢ <;>
      first
      | exact popsOk_mono h hp
      | exact ⟨h _ hp.1, popsOk_mono h hp.2⟩
      | exact popsOk_mono (fun q hq => hq.imp (h q) id) hp

theorem popsOk_append {P : Nat → Prop} : ∀ {p r : List Act}, popsOk P p → popsOk P r → popsOk P (p ++ r)
  | [], _, _, h => h
  | a :: p, r, hp, hr => by
    cases a <;> simp only [popsOk, List.cons_append] at hp ⊢ <;>
      first
      | exact popsOk_append hp hr
      | exact ⟨hp.1, popsOk_append hp.2 hr⟩
      | exact popsOk_append hp (popsOk_mono (fun q hq => .inl hq) hr)

theorem popsOk_send (P : Nat → Prop) (b : Body) : popsOk P (sendProg b) := by
  cases h : b.answers with
  | none => simp [sendProg, h, popsOk]
  | some q => simp [sendProg, h, popsOk]

theorem popsOk_flat (P : Nat → Prop) (f : Nat × ReqKind → Body) : ∀ l : List (Nat × ReqKind),
    popsOk P (l.flatMap fun e => sendProg (f e))
  | [] => trivial
  | e :: l => by
    rw [List.flatMap_cons]
    exact popsOk_append (popsOk_send P _) (popsOk_flat P f l)

theorem popsOk_stop (P : Nat → Prop) (e f : Bool) : popsOk P (stopProg e f) := by
  cases e <;> cases f <;> simp [stopProg, popsOk]

/-- Executing an action keeps the programs of both threads in order, and forgets only answered
requests. -/
theorem exec_pops {s s' : S} {a : Act} {p more : List Act} (hp : popsOk (Answered s.outs) (a :: p))
    (he : exec s a = .go more s') :
    popsOk (Answered s'.outs) (more ++ p) ∧ (∀ q, Answered s.outs q → Answered s'.outs q) ∧
    s'.reqs = s.reqs ∧ (∀ e ∈ s.incoming, e ∈ s'.incoming ∨ Answered s'.outs e.1) ∧
    (∀ e ∈ s'.incoming, e ∈ s.incoming) := by
  cases a <;> simp only [exec] at he <;> simp only [popsOk] at hp
  · cases he; exact ⟨popsOk_append (popsOk_flat _ _ _) hp, fun _ h => h, rfl, fun e h => .inl h, fun e h => h⟩
  · cases he; exact ⟨popsOk_append (popsOk_flat _ _ _) hp, fun _ h => h, rfl, fun e h => .inl h, fun e h => h⟩
  · cases he
    refine ⟨?_, fun q h => h.mono, rfl, fun e h => .inl h, fun e h => h⟩
    rw [List.nil_append]
    refine popsOk_mono ?_ hp
    rintro q (h | h)
    · exact h.mono
    · exact ⟨_, List.mem_append_right _ List.mem_cons_self, h⟩
  · next q =>
    cases he
    refine ⟨hp.2, fun _ h => h, rfl, ?_, ?_⟩
    · intro e h
      by_cases hq : e.1 = q
      · right; rw [hq]; exact hp.1
      · left; exact List.mem_filter.2 ⟨h, by simpa using hq⟩
    · intro e h; exact (List.mem_filter.1 h).1
  · cases he
    refine ⟨?_, fun _ h => h, rfl, fun e h => .inl h, fun e h => h⟩
    cases s.debSet
    · exact hp
    · exact hp
  · cases he; exact ⟨hp, fun _ h => h, rfl, fun e h => .inl h, fun e h => h⟩
  · cases hc : s.recv.alive <;> rw [hc] at he <;> cases he
    exact ⟨hp, fun _ h => h, rfl, fun e h => .inl h, fun e h => h⟩
  · cases he; exact ⟨hp, fun _ h => h, rfl, fun e h => .inl h, fun e h => h⟩
  · cases he
    refine ⟨?_, fun _ h => h, rfl, fun e h => .inl h, fun e h => h⟩
    cases s.launchQ <;> exact hp
  · cases hc : s.launchQ <;> rw [hc] at he <;> cases he
    exact ⟨hp, fun _ h => h, rfl, fun e h => .inl h, fun e h => h⟩
  · cases he; exact ⟨hp, fun _ h => h, rfl, fun e h => .inl h, fun e h => h⟩
  · cases he
    refine ⟨?_, fun _ h => h, rfl, fun e h => .inl h, fun e h => h⟩
    cases s.flag
    · simp only [cond_false, List.cons_append, List.nil_append, popsOk]
      exact popsOk_mono (fun q hq => .inl hq) hp
    · exact hp
  · cases he; exact ⟨hp, fun _ h => h, rfl, fun e h => .inl h, fun e h => h⟩
  · cases hc : s.cut <;> rw [hc] at he <;> cases he
    exact ⟨hp, fun _ h => h, rfl, fun e h => .inl h, fun e h => h⟩
  · cases hc : s.cancelled <;> rw [hc] at he <;> cases he
    exact ⟨hp, fun _ h => h, rfl, fun e h => .inl h, fun e h => h⟩
  · cases he; exact ⟨hp, fun _ h => h, rfl, fun e h => .inl h, fun e h => h⟩
  · cases he; exact ⟨hp, fun _ h => h, rfl, fun e h => .inl h, fun e h => h⟩
  · cases he; exact ⟨hp, fun _ h => h, rfl, fun e h => .inl h, fun e h => h⟩
  · cases he
    exact ⟨popsOk_mono (fun q hq => hq.mono) hp, fun _ h => h.mono, rfl, fun e h => .inl h, fun e h => h⟩
  · cases he; exact ⟨hp, fun _ h => h, rfl, fun e h => .inl h, fun e h => h⟩
  · cases hc : s.cancelled <;> rw [hc] at he <;> cases he
    refine ⟨?_, fun _ h => h, rfl, fun e h => .inl h, fun e h => h⟩
    refine popsOk_append (p := .closeLaunch :: _) ?_ hp
    exact popsOk_append (popsOk_send _ _) (by simp [popsOk])
  · cases he; exact ⟨hp, fun _ h => h, rfl, fun e h => .inl h, fun e h => h⟩

/-- Received requests are outstanding or answered. -/
structure AInv (s : S) : Prop where
  reqs : ∀ r ∈ s.reqs, (r.1, r.2.1) ∈ s.incoming ∨ Answered s.outs r.1
  main : popsOk (Answered s.outs) s.main.prog
  recv : popsOk (Answered s.outs) s.recv.prog

theorem set_mem {l : List (Nat × ReqKind)} {q : Nat} {k : ReqKind} (h : ∀ e ∈ l, e.1 ≠ q) :
    Dict.set l q k = l ++ [(q, k)] := by
  induction l with
  | nil => rfl
  | cons e l ih =>
    have h1 := h e List.mem_cons_self
    obtain ⟨a, b⟩ := e
    have h1' : a ≠ q := h1
    simp only [Dict.set, if_neg h1', List.cons_append]
    rw [ih (fun e he => h e (List.mem_cons_of_mem _ he))]

/-- Request numbers are fresh. -/
structure Nums (s : S) : Prop where
  inc : ∀ e ∈ s.incoming, e.1 < s.nextIn ∧ ∃ b, (e.1, e.2, b) ∈ s.reqs
  reqs : ∀ r ∈ s.reqs, r.1 < s.nextIn
  nodup : (s.reqs.map (·.1)).Nodup
  incNodup : (s.incoming.map (·.1)).Nodup

theorem nums_sub {s s' : S} (h : Nums s) (hs : s'.incoming.Sublist s.incoming)
    (hr : s'.reqs = s.reqs) (hn : s'.nextIn = s.nextIn) : Nums s' := by
  refine ⟨?_, ?_, ?_, ?_⟩
  · intro e he
    rw [hn, hr]; exact h.inc e (hs.subset he)
  · rw [hr, hn]; exact h.reqs
  · rw [hr]; exact h.nodup
  · exact (hs.map _).nodup h.incNodup

theorem exec_sub {s s' : S} {a : Act} {more : List Act} (he : exec s a = .go more s') :
    s'.incoming.Sublist s.incoming ∧ s'.reqs = s.reqs ∧ s'.nextIn = s.nextIn := by
  cases a <;> simp only [exec] at he <;>
    first
    | (cases he; exact ⟨List.Sublist.refl _, rfl, rfl⟩)
    | (cases he; exact ⟨List.filter_sublist, rfl, rfl⟩)
    | (cases hcc : s.cancelled <;> rw [hcc] at he <;> cases he; exact ⟨List.Sublist.refl _, rfl, rfl⟩)
    | (cases hcc : s.cut <;> rw [hcc] at he <;> cases he; exact ⟨List.Sublist.refl _, rfl, rfl⟩)
    | (cases hcc : s.launchQ <;> rw [hcc] at he <;> cases he <;> exact ⟨List.Sublist.refl _, rfl, rfl⟩)
    | (cases hcc : s.recv.alive <;> rw [hcc] at he <;> cases he; exact ⟨List.Sublist.refl _, rfl, rfl⟩)

/-- What receiving a message does to the records. -/
theorem handle_rec {s s2 : S} {q : Nat} {c c' : Bool} {m : CMsg} {p : List Act} (h : handle s q c m = some (s2, c', p)) :
    s2.incoming = (received s q m).incoming ∧ s2.reqs = (received s q m).reqs ∧ s2.nextIn = s.nextIn ∧
    s2.outs = s.outs ∧ s2.recv = s.recv ∧ s2.toDeb = s.toDeb ∧ s2.fromDeb = s.fromDeb ∧ s2.debSet = s.debSet ∧
    s2.cancelled = s.cancelled ∧ s2.launchQ = s.launchQ ∧ s2.flag = s.flag := by
  cases m with
  | bad => cases h
  | runInResp r =>
    simp only [handle] at h
    cases hg : Dict.get? s.runIn r with
    | none => rw [hg] at h; cases h
    | some q => rw [hg] at h; cases h; exact ⟨rfl, rfl, rfl, rfl, rfl, rfl, rfl, rfl, rfl, rfl, rfl⟩
  | req k b =>
    simp only [handle] at h
    cases hd : s.debSet <;> rw [hd] at h <;> cases k <;> simp only [cond_true, cond_false] at h <;> cases h <;>
      exact ⟨rfl, rfl, rfl, rfl, rfl, rfl, rfl, hd.symm ▸ rfl, rfl, rfl, rfl⟩

theorem received_nums {s : S} {m : CMsg} (h : Nums s) : Nums (received { s with nextIn := s.nextIn + 1 } s.nextIn m) := by
  cases m with
  | req k b =>
    have hfresh : ∀ e ∈ s.incoming, e.1 ≠ s.nextIn := fun e he => Nat.ne_of_lt (h.inc e he).1
    refine ⟨?_, ?_, ?_, ?_⟩
    · intro e he
      simp only [received, set_mem hfresh] at he ⊢
      rcases List.mem_append.1 he with he | he
      · obtain ⟨h1, b', h2⟩ := h.inc e he
        exact ⟨Nat.lt_succ_of_lt h1, b', List.mem_append_left _ h2⟩
      · simp at he; subst he
        exact ⟨Nat.lt_succ_self _, b, List.mem_append_right _ List.mem_cons_self⟩
    · intro r hr
      simp only [received] at hr ⊢
      rcases List.mem_append.1 hr with hr | hr
      · exact Nat.lt_succ_of_lt (h.reqs r hr)
      · simp at hr; subst hr; exact Nat.lt_succ_self _
    · simp only [received, List.map_append, List.map_cons, List.map_nil]
      rw [List.nodup_append]
      refine ⟨h.nodup, by simp, ?_⟩
      intro a ha b hb
      simp at hb; subst hb
      obtain ⟨r, hr, e⟩ := List.mem_map.1 ha
      rw [← e]; exact Nat.ne_of_lt (h.reqs r hr)
    · simp only [received, set_mem hfresh, List.map_append, List.map_cons, List.map_nil]
      rw [List.nodup_append]
      refine ⟨h.incNodup, by simp, ?_⟩
      intro a ha b hb
      simp at hb; subst hb
      obtain ⟨r, hr, e⟩ := List.mem_map.1 ha
      rw [← e]; exact hfresh r hr
  | runInResp r => exact ⟨fun e he => ⟨Nat.lt_succ_of_lt (h.inc e he).1, (h.inc e he).2⟩, fun r hr => Nat.lt_succ_of_lt (h.reqs r hr), h.nodup, h.incNodup⟩
  | bad => exact ⟨fun e he => ⟨Nat.lt_succ_of_lt (h.inc e he).1, (h.inc e he).2⟩, fun r hr => Nat.lt_succ_of_lt (h.reqs r hr), h.nodup, h.incNodup⟩

theorem nums_step {s s' : S} {l : Lbl} (h : Nums s) (hs : step s l = some s') : Nums s' := by
  have hst := step_iff s l s' hs
  cases hst with
  | @handled s2 c c' m p hm hh =>
    obtain ⟨e1, e2, e3, _⟩ := handle_rec hh
    have := received_nums (m := m) h
    refine ⟨?_, ?_, ?_, ?_⟩
    · intro e he
      have h1 := this.inc e (by rw [← e1]; exact he)
      refine ⟨?_, ?_⟩
      · simp only [e3]
        have h2 := h1.1
        cases m <;> exact h2
      · simp only [e2]; exact h1.2
    · intro r hr
      have h1 := this.reqs r (by rw [← e2]; exact hr)
      simp only [e3]
      cases m <;> exact h1
    · simp only [e2]; exact this.nodup
    · simp only [e1]; exact this.incNodup
  | @unhandled c m hm hh =>
    have := received_nums (m := m) h
    exact ⟨this.inc, this.reqs, this.nodup, this.incNodup⟩
  | badInput h0 => exact ⟨h.inc, h.reqs, h.nodup, h.incNodup⟩
  | eof _ => exact h
  | leave _ => exact ⟨h.inc, h.reqs, h.nodup, h.incNodup⟩
  | mainGo _ he => obtain ⟨a, b, c⟩ := exec_sub he; exact nums_sub h a b c
  | mainThrow _ _ => exact ⟨h.inc, h.reqs, h.nodup, h.incNodup⟩
  | mainAlt _ _ => exact ⟨h.inc, h.reqs, h.nodup, h.incNodup⟩
  | mainRaise _ _ => exact ⟨h.inc, h.reqs, h.nodup, h.incNodup⟩
  | finish _ => exact ⟨h.inc, h.reqs, h.nodup, h.incNodup⟩
  | deb _ _ => exact ⟨h.inc, h.reqs, h.nodup, h.incNodup⟩
  | close _ => exact ⟨h.inc, h.reqs, h.nodup, h.incNodup⟩
  | recvGo _ he => obtain ⟨a, b, c⟩ := exec_sub he; exact nums_sub h a b c
  | recvDie _ _ => exact ⟨h.inc, h.reqs, h.nodup, h.incNodup⟩
  | recvEnd _ => exact ⟨h.inc, h.reqs, h.nodup, h.incNodup⟩

theorem nums_reach {s : S} (h : Reach s) : Nums s := by
  induction h with
  | init => exact ⟨by intro e h; simp [init] at h, by intro e h; simp [init] at h, by simp [init], by simp [init]⟩
  | step _ hs ih => exact nums_step ih hs

theorem popsOk_handle {s s2 : S} {q : Nat} {c c' : Bool} {m : CMsg} {p : List Act} (P : Nat → Prop)
    (h : handle s q c m = some (s2, c', p)) : popsOk P p := by
  cases m with
  | bad => cases h
  | runInResp r =>
    simp only [handle] at h
    cases hg : Dict.get? s.runIn r with
    | none => rw [hg] at h; cases h
    | some q => rw [hg] at h; cases h; simp [popsOk]
  | req k b =>
    simp only [handle] at h
    cases hd : s.debSet <;> rw [hd] at h <;> cases k <;> simp only [cond_true, cond_false] at h <;> cases h <;>
      simp [popsOk, sendProg, Body.answers]

theorem received_reqs {s : S} {m : CMsg} (hn : Nums s) (h : AInv s) :
    ∀ r ∈ (received { s with nextIn := s.nextIn + 1 } s.nextIn m).reqs,
      (r.1, r.2.1) ∈ (received { s with nextIn := s.nextIn + 1 } s.nextIn m).incoming ∨ Answered s.outs r.1 := by
  cases m with
  | req k b =>
    have hfresh : ∀ e ∈ s.incoming, e.1 ≠ s.nextIn := fun e he => Nat.ne_of_lt (hn.inc e he).1
    intro r hr
    simp only [received, set_mem hfresh] at hr ⊢
    rcases List.mem_append.1 hr with hr | hr
    · exact (h.reqs r hr).imp (List.mem_append_left _) id
    · simp at hr; subst hr
      exact .inl (List.mem_append_right _ List.mem_cons_self)
  | runInResp r => exact h.reqs
  | bad => exact h.reqs

theorem ainv_step {s s' : S} {l : Lbl} (hn : Nums s) (h : AInv s) (hs : step s l = some s') : AInv s' := by
  have hst := step_iff s l s' hs
  have keep : ∀ {s1 : S} {p : List Act}, (∀ q, Answered s.outs q → Answered s1.outs q) →
      popsOk (Answered s.outs) p → popsOk (Answered s1.outs) p := fun h1 h2 => popsOk_mono h1 h2
  cases hst with
  | @handled s2 c c' m p hm hh =>
    obtain ⟨e1, e2, e3, e4, e5, _⟩ := handle_rec hh
    refine ⟨?_, ?_, ?_⟩
    · simp only [e1, e2, e4]; exact received_reqs hn h
    · exact popsOk_handle _ hh
    · simp only [e4, e5]; exact h.recv
  | @unhandled c m hm hh =>
    refine ⟨?_, ?_, ?_⟩
    · have := received_reqs (m := m) hn h
      cases m <;> exact this
    · cases m <;> exact popsOk_stop _ _ _
    · cases m <;> exact h.recv
  | badInput h0 => exact ⟨h.reqs, popsOk_stop _ _ _, h.recv⟩
  | eof _ => exact h
  | leave _ => exact ⟨h.reqs, popsOk_stop _ _ _, h.recv⟩
  | @mainGo s1 ex b a p more hm he =>
    have hp : popsOk (Answered s.outs) (a :: p) := by have := h.main; rw [hm, mkMain_prog] at this; exact this
    obtain ⟨e1, e2, e3, e4, e5⟩ := exec_pops hp he
    refine ⟨?_, ?_, ?_⟩
    · intro r hr
      simp only [e3] at hr
      rcases h.reqs r hr with h1 | h1
      · rcases e4 _ h1 with h2 | h2
        · exact .inl h2
        · exact .inr h2
      · exact .inr (e2 _ h1)
    · simp only [mkMain_prog]; exact e1
    · have hr : popsOk (Answered s.outs) s1.recv.prog := by
        have h0 := h.recv
        cases a <;> simp only [exec] at he <;>
          first
          | (cases he; exact h0)
          | (cases he; trivial)
          | (cases hcc : s.cancelled <;> rw [hcc] at he <;> cases he <;> first | exact h0 | trivial)
          | (cases hcc : s.cut <;> rw [hcc] at he <;> cases he <;> first | exact h0 | trivial)
          | (cases hcc : s.launchQ <;> rw [hcc] at he <;> cases he <;> exact h0)
          | (cases hcc : s.recv.alive <;> rw [hcc] at he <;> cases he; exact h0)
      exact popsOk_mono e2 hr
  | @mainThrow ex b a p hm he =>
    refine ⟨h.reqs, ?_, h.recv⟩
    cases ex
    · exact popsOk_stop _ _ _
    · trivial
  | @mainAlt b a p more hm he =>
    have hp : popsOk (Answered s.outs) (a :: p) := by have := h.main; rw [hm] at this; exact this
    refine ⟨h.reqs, ?_, h.recv⟩
    cases a <;> simp only [altProg] at he <;> try (cases he; done)
    · cases hcc : s.cancelled <;> rw [hcc] at he <;> cases he
      exact hp
    · cases he
      exact popsOk_append (popsOk_stop _ _ _) hp
  | @mainRaise ex b a p hm he =>
    refine ⟨h.reqs, ?_, h.recv⟩
    cases ex
    · exact popsOk_stop _ _ _
    · trivial
  | finish _ => exact ⟨h.reqs, trivial, h.recv⟩
  | @deb m _ _ => exact ⟨h.reqs, h.main, popsOk_send _ _⟩
  | close _ => exact ⟨h.reqs, h.main, popsOk_stop _ _ _⟩
  | @recvGo s1 cl a p more hm he =>
    have hp : popsOk (Answered s.outs) (a :: p) := by have := h.recv; rw [hm, mkRecv_prog] at this; exact this
    obtain ⟨e1, e2, e3, e4, e5⟩ := exec_pops hp he
    refine ⟨?_, ?_, ?_⟩
    · intro r hr
      simp only [e3] at hr
      rcases h.reqs r hr with h1 | h1
      · rcases e4 _ h1 with h2 | h2
        · exact .inl h2
        · exact .inr h2
      · exact .inr (e2 _ h1)
    · simp only [exec_main he]; exact popsOk_mono e2 h.main
    · simp only [mkRecv_prog]; exact e1
  | recvDie _ _ => exact ⟨h.reqs, h.main, trivial⟩
  | recvEnd _ => exact ⟨h.reqs, h.main, trivial⟩

theorem ainv_reach {s : S} (h : Reach s) : AInv s := by
  induction h with
  | init => exact ⟨by intro e h; simp [init] at h, trivial, trivial⟩
  | step h0 hs ih => exact ainv_step (nums_reach h0) ih hs

/-! ## What `stop` still has to answer -/

/-- A program that answers the outstanding requests with property `f`: it will look for them
(`snap`), or it has their responses in it. -/
def Will (snap : Act) (f : ReqKind → Bool) (inc : List (Nat × ReqKind)) (p : List Act) : Prop :=
  snap ∈ p ∨ ∀ e ∈ inc, f e.2 = true → .pop e.1 ∈ p

theorem will_exec {s s' : S} {a : Act} {p more : List Act} {snap : Act} {f : ReqKind → Bool}
    (hsnap : snap = .snapD ∧ f = (· == .disconnect) ∨ snap = .snapE ∧ f = (fun _ => true))
    (h : Will snap f s.incoming (a :: p)) (he : exec s a = .go more s') : Will snap f s'.incoming (more ++ p) := by
  have hsub := (exec_sub he).1
  by_cases ha : a = snap
  · subst ha
    right
    intro e he' hf
    apply List.mem_append_left
    rcases hsnap with ⟨rfl, rfl⟩ | ⟨rfl, rfl⟩
    · simp only [exec] at he; cases he
      refine List.mem_flatMap.2 ⟨e, List.mem_filter.2 ⟨he', hf⟩, ?_⟩
      simp [sendProg, Body.answers]
    · simp only [exec] at he; cases he
      refine List.mem_flatMap.2 ⟨e, he', ?_⟩
      simp [sendProg, Body.answers]
  · rcases h with h | h
    · left
      rcases List.mem_cons.1 h with h | h
      · exact absurd h.symm ha
      · exact List.mem_append_right _ h
    · right
      intro e he' hf
      rcases List.mem_cons.1 (h e (hsub.subset he') hf) with h1 | h1
      · exfalso
        subst h1
        simp only [exec] at he; cases he
        have := (List.mem_filter.1 he').2
        simp at this
      · exact List.mem_append_right _ h1

theorem will_sub {snap : Act} {f : ReqKind → Bool} {i i' : List (Nat × ReqKind)} {p : List Act}
    (h : Will snap f i p) (hs : i'.Sublist i) : Will snap f i' p :=
  h.imp id fun h e he hf => h e (hs.subset he) hf

/-- `__exit__` answers what is outstanding: disconnect requests always, all requests after an
exception. -/
structure EInv (s : S) : Prop where
  disc : ∀ e p, s.main = .exiting e p → Will .snapD (· == .disconnect) s.incoming p
  all : ∀ p, s.main = .exiting true p → Will .snapE (fun _ => true) s.incoming p
  doneD : ∀ e, s.main = .done e → ∀ r ∈ s.incoming, r.2 ≠ .disconnect
  doneA : s.main = .done true → s.incoming = []

theorem einv_thrown {s : S} {ex : Bool} : EInv (thrown s ex) := by
  refine ⟨?_, ?_, ?_, ?_⟩
  · intro e p h; cases ex <;> cases h; left; simp [stopProg]
  · intro p h; cases ex <;> cases h; left; simp [stopProg]
  · intro e h; cases ex <;> cases h
  · intro h; cases ex <;> cases h

theorem einv_step {s s' : S} {l : Lbl} (h : EInv s) (hs : step s l = some s') : EInv s' := by
  have hst := step_iff s l s' hs
  cases hst with
  | handled hm hh => exact ⟨fun _ _ h => by (cases h), fun _ h => by (cases h), fun _ h => by (cases h), fun h => by (cases h)⟩
  | unhandled hm hh => exact einv_thrown
  | badInput h0 => exact einv_thrown
  | eof _ => exact h
  | leave _ =>
    refine ⟨?_, ?_, fun _ h => by (cases h), fun h => by (cases h)⟩
    · intro e p h; cases h; left; simp [stopProg]
    · intro p h; cases h
  | @mainGo s1 ex b a p more hm he =>
    refine ⟨?_, ?_, ?_, ?_⟩
    · intro e p' h0; cases ex <;> cases h0
      have := will_exec (s' := s1) (.inl ⟨rfl, rfl⟩) (h.disc _ _ hm) he
      exact this
    · intro p' h0; cases ex <;> cases h0
      have := will_exec (s' := s1) (.inr ⟨rfl, rfl⟩) (h.all _ hm) he
      exact this
    · intro e h0; cases ex <;> cases h0
    · intro h0; cases ex <;> cases h0
  | mainThrow _ _ => exact einv_thrown
  | mainAlt _ _ => exact ⟨fun _ _ h => by (cases h), fun _ h => by (cases h), fun _ h => by (cases h), fun h => by (cases h)⟩
  | mainRaise _ _ => exact einv_thrown
  | @finish b hm =>
    refine ⟨fun _ _ h => by (cases h), fun _ h => by (cases h), ?_, ?_⟩
    · intro e _ r hr hd
      rcases h.disc _ _ hm with h1 | h1
      · cases h1
      · have := h1 r hr (by simp [hd])
        cases this
    · intro h0
      cases h0
      rcases h.all _ hm with h1 | h1
      · cases h1
      · match hi : s.incoming with
        | [] => rfl
        | e :: l =>
          have := h1 e (by rw [hi]; exact List.mem_cons_self) rfl
          cases this
  | deb _ _ => exact ⟨h.disc, h.all, h.doneD, h.doneA⟩
  | close _ => exact ⟨h.disc, h.all, h.doneD, h.doneA⟩
  | @recvGo s1 cl a p more hm he =>
    have hsub := (exec_sub he).1
    have hmain := exec_main he
    refine ⟨?_, ?_, ?_, ?_⟩
    · intro e p' h0; exact will_sub (h.disc e p' (hmain ▸ h0)) hsub
    · intro p' h0; exact will_sub (h.all p' (hmain ▸ h0)) hsub
    · intro e h0 r hr; exact h.doneD e (hmain ▸ h0) r (hsub.subset hr)
    · intro h0
      have := h.doneA (hmain ▸ h0)
      rw [this] at hsub
      exact List.sublist_nil.1 hsub
  | recvDie _ _ => exact ⟨h.disc, h.all, h.doneD, h.doneA⟩
  | recvEnd _ => exact ⟨h.disc, h.all, h.doneD, h.doneA⟩

theorem einv_reach {s : S} (h : Reach s) : EInv s := by
  induction h with
  | init => exact ⟨fun _ _ h => by (cases h), fun _ h => by (cases h), fun _ h => by (cases h), fun h => by (cases h)⟩
  | step _ hs ih => exact einv_step ih hs

end Verif.Server
