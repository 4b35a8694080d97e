import Verif.Server.Guard

/-! # What is relayed and forwarded, in which order -/

namespace Verif.Server

/-- The debuggee's messages among those written to the client. -/
def relays (outs : List Body) : List DMsg := outs.filterMap fun b => match b with | .relay m => some m | _ => none

def relA : Act → Option DMsg
  | .write (.relay m) => some m
  | _ => none

/-- The client's requests among the messages sent to the debuggee. -/
def fwd (l : List ToDeb) : List (Nat × ReqKind × Nat) :=
  l.filterMap fun m => match m with | .req k q b => some (q, k, b) | .config => none

def fwdA : Act → Option (Nat × ReqKind × Nat)
  | .send (.req k q b) | .sendQuiet (.req k q b) => some (q, k, b)
  | _ => none

theorem relA_none {p : List Act} (h : ∀ a ∈ p, relA a = none) : p.filterMap relA = [] :=
  List.filterMap_eq_nil_iff.2 h

/-- The output of an action. -/
theorem exec_relays {s s' : S} {a : Act} {more : List Act} (he : exec s a = .go more s') :
    relays s'.outs = relays s.outs ++ (relA a).toList ∧ (∀ x ∈ more, relA x = none) := by
  have flat : ∀ (l : List (Nat × ReqKind)) (f : Nat × ReqKind → Body), (∀ e, relA (.write (f e)) = none) →
      ∀ x ∈ (l.flatMap fun e => sendProg (f e)), relA x = none := by
    intro l f hf x hx
    obtain ⟨e, _, he⟩ := List.mem_flatMap.1 hx
    unfold sendProg at he
    rcases List.mem_cons.1 he with rfl | he
    · exact hf e
    · cases h : (f e).answers <;> rw [h] at he
      · cases he
      · rcases List.mem_singleton.1 he with rfl; rfl
  cases a <;> simp only [exec] at he
  · cases he; exact ⟨by simp [relA], flat _ _ fun _ => rfl⟩
  · cases he; exact ⟨by simp [relA], flat _ _ fun _ => rfl⟩
  · next b => cases he; exact ⟨by cases b <;> simp [relays, relA], by simp⟩
  · cases he; simp [relA]
  · cases hc : s.debSet <;> rw [hc] at he <;> cases he <;> simp [relA]
  · cases he; simp [relA]
  · cases hc : s.recv.alive <;> rw [hc] at he <;> cases he; simp [relA]
  · cases he; simp [relA]
  · cases hc : s.launchQ <;> rw [hc] at he <;> cases he <;> simp [relA]
  · cases hc : s.launchQ <;> rw [hc] at he <;> cases he; simp [relA]
  · cases he; simp [relA]
  · cases hc : s.flag <;> rw [hc] at he <;> cases he <;> simp [relA]
  · cases he; simp [relA]
  · cases hc : s.cut <;> rw [hc] at he <;> cases he; simp [relA]
  · cases hc : s.cancelled <;> rw [hc] at he <;> cases he; simp [relA]
  · cases he; simp [relA]
  · cases he; simp [relA]
  · cases he; simp [relA]
  · cases he; simp [relA, relays]
  · cases he; simp [relA]
  · cases hc : s.cancelled <;> rw [hc] at he <;> cases he; simp [relA, sendProg, Body.answers]
  · cases he; simp [relA]

theorem stop_relA (e f : Bool) : ∀ a ∈ stopProg e f, relA a = none := by
  cases e <;> cases f <;> simp [stopProg, relA]

theorem handle_relA {s s2 : S} {q : Nat} {c c' : Bool} {m : CMsg} {p : List Act}
    (h : handle s q c m = some (s2, c', p)) : ∀ a ∈ p, relA a = none := by
  cases m with
  | bad => cases h
  | runInResp r =>
    simp only [handle] at h
    cases hg : Dict.get? s.runIn r <;> rw [hg] at h <;> cases h
    simp [relA]
  | req k b =>
    obtain ⟨rfl, _⟩ := handle_prog h
    cases s.debSet <;> cases k <;> simp [reqProg, relA, sendProg, Body.answers]

/-- The relayed messages. -/
structure LInv (s : S) : Prop where
  rel : relays s.outs ++ s.recv.prog.filterMap relA = s.fromDeb
  main : ∀ a ∈ s.main.prog, relA a = none
  clos : ∀ p, s.recv = .closing p → ∀ a ∈ p, relA a = none

theorem exec_fromDeb {s s' : S} {a : Act} {more : List Act} (he : exec s a = .go more s') : s'.fromDeb = s.fromDeb := by
  cases a <;> simp only [exec] at he <;>
    first
    | (cases he; rfl)
    | (cases hc : s.cancelled <;> rw [hc] at he <;> cases he; rfl)
    | (cases hc : s.cut <;> rw [hc] at he <;> cases he; rfl)
    | (cases hc : s.launchQ <;> rw [hc] at he <;> cases he; rfl)
    | (cases hc : s.recv.alive <;> rw [hc] at he <;> cases he; rfl)

theorem exec_recv_dead {s s' : S} {ex : Bool} {a : Act} {p more : List Act}
    (hm : MSh s.debSet s.recv.alive s.runIn.length ex (a :: p)) (he : exec s a = .go more s') :
    s'.recv = s.recv ∨ s.recv.alive = false ∧ (s'.recv = .none ∨ s'.recv = .loop []) := by
  cases a <;> simp only [exec] at he <;>
    first
    | (cases he; exact .inl rfl)
    | (cases hc : s.cut <;> rw [hc] at he <;> cases he; exact .inl rfl)
    | (cases hc : s.launchQ <;> rw [hc] at he <;> cases he; exact .inl rfl)
    | (cases hc : s.recv.alive <;> rw [hc] at he <;> cases he; exact .inl rfl)
    | skip
  · cases hc : s.cancelled <;> rw [hc] at he <;> cases he; exact .inl rfl
  · cases he; exact .inr ⟨msh_starts hm (.inl rfl), .inl rfl⟩
  · cases he; exact .inr ⟨msh_starts hm (.inr (.inl rfl)), .inr rfl⟩
  · cases hc : s.cancelled <;> rw [hc] at he <;> cases he
    exact .inr ⟨msh_starts hm (.inr (.inr ⟨_, rfl⟩)), .inr rfl⟩

theorem linv_step {s s' : S} {l : Lbl} (hc : Ctl s) (h : LInv s) (hs : step s l = some s') : LInv s' := by
  have thr : ∀ ex, LInv (thrown s ex) := by
    intro ex
    refine ⟨h.rel, ?_, h.clos⟩
    cases ex
    · exact stop_relA true false
    · simp [thrown, Main.prog]
  have hst := step_iff s l s' hs
  cases hst with
  | @handled s2 c c' m p hm hh =>
    obtain ⟨e1, e2, e3, e4, e5, e6, e7, _⟩ := handle_rec hh
    exact ⟨by simp only [e4, e5, e7]; exact h.rel, handle_relA hh, by simp only [e5]; exact h.clos⟩
  | @unhandled c m hm hh =>
    have h3 := thr false
    cases m <;> exact ⟨h3.1, h3.2, h3.3⟩
  | badInput h0 => exact thr false
  | eof _ => exact h
  | leave h0 => exact ⟨h.rel, stop_relA false false, h.clos⟩
  | @mainGo s1 ex b a p more hm he =>
    have hmp := h.main
    rw [hm, mkMain_prog] at hmp
    obtain ⟨e1, e2⟩ := exec_relays he
    have ha := hmp a List.mem_cons_self
    have e1 : relays s1.outs = relays s.outs := by rw [e1, ha]; simp
    refine ⟨?_, ?_, ?_⟩
    · simp only [e1, exec_fromDeb he]
      rcases exec_recv_dead (hc.main _ _ _ hm) he with e | ⟨hd, e⟩
      · simp only [e]; exact h.rel
      · have h0 := h.rel
        rw [recv_dead_prog hd] at h0
        rcases e with e | e <;> simp only [e] <;> exact h0
    · intro x hx
      rw [mkMain_prog] at hx
      rcases List.mem_append.1 hx with hx | hx
      · exact e2 x hx
      · exact hmp x (List.mem_cons_of_mem _ hx)
    · intro p' hp'
      rcases exec_recv he with e | e | e <;> simp only [e] at hp'
      · exact h.clos p' hp'
      · cases hp'
      · cases hp'
  | @mainThrow ex b a p hm he => exact thr ex
  | @mainAlt b a p more hm he =>
    have hmp := h.main
    rw [hm] at hmp
    refine ⟨h.rel, ?_, h.clos⟩
    cases a <;> simp only [altProg] at he <;> try (cases he; done)
    · cases hcc : s.cancelled <;> rw [hcc] at he <;> cases he
      intro x hx
      exact hmp x (List.mem_cons_of_mem _ hx)
    · cases he
      intro x hx
      rcases List.mem_append.1 hx with hx | hx
      · exact stop_relA _ _ x hx
      · exact hmp x (List.mem_cons_of_mem _ hx)
  | @mainRaise ex b a p hm he => exact thr ex
  | finish h0 => exact ⟨h.rel, by simp [Main.prog], h.clos⟩
  | @deb m h0 _ =>
    refine ⟨?_, h.main, fun p hp => by cases hp⟩
    have h1 := h.rel
    rw [h0] at h1
    simp only [Recv.prog, List.filterMap_nil, List.append_nil] at h1
    simp only [Recv.prog, h1]
    cases m <;> simp [sendProg, Body.answers, relA]
  | @close e h0 =>
    have h1 := h.rel
    rw [h0] at h1
    refine ⟨?_, h.main, fun p hp => by cases hp; exact stop_relA _ _⟩
    simp only [Recv.prog, relA_none (stop_relA e true)]
    exact h1
  | @recvGo s1 cl a p more hm he =>
    obtain ⟨e1, e2⟩ := exec_relays he
    refine ⟨?_, ?_, ?_⟩
    · have h1 := h.rel
      rw [hm, mkRecv_prog] at h1
      simp only [mkRecv_prog, exec_fromDeb he, e1, List.filterMap_append, relA_none e2, List.nil_append]
      rw [← h1, List.append_assoc]
      congr 1
      cases hra : relA a <;> simp [hra]
    · simp only [exec_main he]; exact h.main
    · intro p' hp'
      cases cl <;> cases hp'
      intro x hx
      rcases List.mem_append.1 hx with hx | hx
      · exact e2 x hx
      · exact h.clos _ hm x (List.mem_cons_of_mem _ hx)
  | @recvDie a p h0 _ =>
    have h1 := h.rel
    rw [h0] at h1
    simp only [Recv.prog, relA_none (h.clos _ h0)] at h1
    exact ⟨h1, h.main, fun p hp => by cases hp⟩
  | recvEnd h0 =>
    have h1 := h.rel
    rw [h0] at h1
    exact ⟨h1, h.main, fun p hp => by cases hp⟩

theorem linv_reach {s : S} (h : Reach s) : LInv s := by
  induction h with
  | init => exact ⟨rfl, by simp [init, Main.prog], fun p hp => by cases hp⟩
  | step h0 hs ih => exact linv_step (ctl_reach h0) ih hs

/-! ## Forwarded requests -/

theorem exec_fwd {s s' : S} {a : Act} {more : List Act} (he : exec s a = .go more s') :
    (fwd s'.toDeb).Sublist (fwd s.toDeb ++ (fwdA a).toList) ∧ (∀ x ∈ more, fwdA x = none) := by
  have flat : ∀ (l : List (Nat × ReqKind)) (f : Nat × ReqKind → Body),
      ∀ x ∈ (l.flatMap fun e => sendProg (f e)), fwdA x = none := by
    intro l f x hx
    obtain ⟨e, _, he⟩ := List.mem_flatMap.1 hx
    unfold sendProg at he
    rcases List.mem_cons.1 he with rfl | he
    · rfl
    · cases h : (f e).answers <;> rw [h] at he
      · cases he
      · rcases List.mem_singleton.1 he with rfl; rfl
  cases a <;> simp only [exec] at he
  · cases he; exact ⟨by simp [fwdA], flat _ _⟩
  · cases he; exact ⟨by simp [fwdA], flat _ _⟩
  · cases he; simp [fwdA]
  · cases he; simp [fwdA]
  · cases hc : s.debSet <;> rw [hc] at he <;> cases he <;> simp [fwdA]
  · cases he; simp [fwdA]
  · cases hc : s.recv.alive <;> rw [hc] at he <;> cases he; simp [fwdA]
  · cases he; simp [fwdA]
  · cases hc : s.launchQ <;> rw [hc] at he <;> cases he <;> simp [fwdA]
  · cases hc : s.launchQ <;> rw [hc] at he <;> cases he; simp [fwdA]
  · cases he; simp [fwdA]
  · cases hc : s.flag <;> rw [hc] at he <;> cases he <;> simp [fwdA]
  · cases he; simp [fwdA]
  · next m => cases hc : s.cut <;> rw [hc] at he <;> cases he; cases m <;> simp [fwdA, fwd]
  · next m =>
    cases hc : s.cancelled <;> rw [hc] at he <;> cases he
    cases s.recv == .none <;> cases m <;> simp [fwdA, fwd]
  · cases he; simp [fwdA]
  · cases he; simp [fwdA]
  · cases he; simp [fwdA]
  · cases he; simp [fwdA]
  · cases he; simp [fwdA]
  · cases hc : s.cancelled <;> rw [hc] at he <;> cases he; simp [fwdA, sendProg, Body.answers]
  · cases he; simp [fwdA]

theorem stop_fwdA (e f : Bool) : ∀ a ∈ stopProg e f, fwdA a = none := by
  cases e <;> cases f <;> simp [stopProg, fwdA]

theorem fwdA_none {p : List Act} (h : ∀ a ∈ p, fwdA a = none) : p.filterMap fwdA = [] :=
  List.filterMap_eq_nil_iff.2 h

structure FInv (s : S) : Prop where
  sub : (fwd s.toDeb ++ s.main.prog.filterMap fwdA).Sublist s.reqs
  recv : ∀ a ∈ s.recv.prog, fwdA a = none

theorem sub_left {α : Type} {a b c : List α} (h : (a ++ b).Sublist c) : a.Sublist c :=
  (List.sublist_append_left a b).trans h

theorem finv_step {s s' : S} {l : Lbl} (h : FInv s) (hs : step s l = some s') : FInv s' := by
  have thr : ∀ ex, FInv (thrown s ex) := by
    intro ex
    refine ⟨?_, h.recv⟩
    cases ex
    · simp only [thrown, cond_false, Main.prog, fwdA_none (stop_fwdA true false), List.append_nil]
      exact sub_left h.sub
    · simp only [thrown, cond_true, Main.prog, List.filterMap_nil, List.append_nil]
      exact sub_left h.sub
  have hst := step_iff s l s' hs
  cases hst with
  | @handled s2 c c' m p hm hh =>
    obtain ⟨e1, e2, e3, e4, e5, e6, e7, _⟩ := handle_rec hh
    refine ⟨?_, by simp only [e5]; exact h.recv⟩
    have h1 := h.sub
    rw [hm] at h1
    simp only [Main.prog, List.filterMap_nil, List.append_nil] at h1
    simp only [e2, e6, Main.prog]
    cases m with
    | bad => cases hh
    | runInResp r =>
      simp only [handle] at hh
      cases hg : Dict.get? s.runIn r <;> rw [hg] at hh <;> cases hh
      exact (List.append_nil _).symm ▸ h1
    | req k b =>
      obtain ⟨rfl, _⟩ := handle_prog hh
      simp only [received]
      refine List.Sublist.append h1 ?_
      cases s.debSet <;> cases k <;> simp [reqProg, fwdA, sendProg, Body.answers]
  | @unhandled c m hm hh =>
    have h3 := thr false
    cases m with
    | req k b => exact ⟨h3.1.trans (by simp [received, thrown]), h3.2⟩
    | runInResp r => exact ⟨h3.1, h3.2⟩
    | bad => exact ⟨h3.1, h3.2⟩
  | badInput h0 => exact thr false
  | eof _ => exact h
  | leave h0 =>
    refine ⟨?_, h.recv⟩
    simp only [Main.prog, fwdA_none (stop_fwdA false false), List.append_nil]
    exact sub_left h.sub
  | @mainGo s1 ex b a p more hm he =>
    obtain ⟨e1, e2⟩ := exec_fwd he
    have h1 := h.sub
    rw [hm, mkMain_prog] at h1
    refine ⟨?_, ?_⟩
    · simp only [mkMain_prog, List.filterMap_append, fwdA_none e2, List.nil_append, (exec_sub he).2.1]
      refine List.Sublist.trans ?_ h1
      have : fwd s.toDeb ++ List.filterMap fwdA (a :: p) = (fwd s.toDeb ++ (fwdA a).toList) ++ List.filterMap fwdA p := by
        rw [List.append_assoc]; congr 1
        cases hra : fwdA a <;> simp [hra]
      rw [this]
      exact e1.append (List.Sublist.refl _)
    · rcases exec_recv he with e | e | e <;> simp only [e]
      · exact h.recv
      · simp [Recv.prog]
      · simp [Recv.prog]
  | @mainThrow ex b a p hm he => exact thr ex
  | @mainAlt b a p more hm he =>
    have h1 := h.sub
    rw [hm] at h1
    refine ⟨?_, h.recv⟩
    cases a <;> simp only [altProg] at he <;> try (cases he; done)
    · cases hcc : s.cancelled <;> rw [hcc] at he <;> cases he
      refine List.Sublist.trans ?_ h1
      refine List.Sublist.append (List.Sublist.refl _) ?_
      exact List.Sublist.filterMap _ (List.sublist_cons_self _ _)
    · cases he
      simp only [Main.prog, List.filterMap_append, fwdA_none (stop_fwdA false false), List.nil_append]
      exact h1
  | @mainRaise ex b a p hm he => exact thr ex
  | finish h0 =>
    refine ⟨?_, h.recv⟩
    simp only [Main.prog, List.filterMap_nil, List.append_nil]
    exact sub_left h.sub
  | @deb m h0 _ => exact ⟨h.sub, by cases m <;> simp [Recv.prog, sendProg, Body.answers, fwdA]⟩
  | @close e h0 => exact ⟨h.sub, stop_fwdA _ _⟩
  | @recvGo s1 cl a p more hm he =>
    obtain ⟨e1, e2⟩ := exec_fwd he
    have hr := h.recv
    rw [hm, mkRecv_prog] at hr
    have ha := hr a List.mem_cons_self
    rw [ha] at e1
    simp only [Option.toList_none, List.append_nil] at e1
    refine ⟨?_, ?_⟩
    · simp only [exec_main he, (exec_sub he).2.1]
      exact (e1.append (List.Sublist.refl _)).trans h.sub
    · intro x hx
      rw [mkRecv_prog] at hx
      rcases List.mem_append.1 hx with hx | hx
      · exact e2 x hx
      · exact hr x (List.mem_cons_of_mem _ hx)
  | @recvDie a p h0 _ => exact ⟨h.sub, by simp [Recv.prog]⟩
  | recvEnd h0 => exact ⟨h.sub, by simp [Recv.prog]⟩

theorem finv_reach {s : S} (h : Reach s) : FInv s := by
  induction h with
  | init => exact ⟨List.Sublist.refl _, by simp [init, Recv.prog]⟩
  | step h0 hs ih => exact finv_step ih hs

end Verif.Server
