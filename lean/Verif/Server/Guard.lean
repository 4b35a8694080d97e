import Verif.Server.Weight

/-! # The answer to a disconnect request comes before the terminated event -/

namespace Verif.Server

/-- Every terminated event among the messages comes after an answer to `q`. -/
def Before (q : Nat) (outs : List Body) : Prop :=
  ∀ pre post, outs = pre ++ .terminated :: post → Answered pre q

/-- The program does not write the terminated event, or answers `q` before (if `q` is an
outstanding disconnect request). -/
def guarded (q : Nat) : List Act → Prop
  | [] => True
  | .snapD :: _ => True
  | .chkTerm :: _ => False
  | .write b :: p => b.answers = some q ∨ b ≠ .terminated ∧ guarded q p
  | _ :: p => guarded q p

theorem guarded_quiet {q : Nat} : ∀ {m p : List Act}, tp m = [] → guarded q p → guarded q (m ++ p)
  | [], _, _, h => h
  | a :: m, p, hm, h => by
    have ha : isTerm a = false := by
      cases hx : isTerm a with
      | false => rfl
      | true => simp [tp, hx] at hm
    have hm' : tp m = [] := by rw [tp_cons_not ha] at hm; exact hm
    have ih := guarded_quiet (q := q) hm' h
    rw [List.cons_append]
    cases a <;> simp only [guarded] <;> first | exact ih | (simp [isTerm] at ha; done) | skip
    right
    refine ⟨?_, ih⟩
    intro e; subst e; simp [isTerm] at ha

theorem guarded_stop (q : Nat) (e f : Bool) (p : List Act) : guarded q (stopProg e f ++ p) := by
  cases e <;> cases f <;> simp [stopProg, guarded]

theorem guarded_flat {q : Nat} {k : ReqKind} : ∀ {l : List (Nat × ReqKind)} {p : List Act}, (q, k) ∈ l →
    guarded q ((l.flatMap fun e => sendProg (.discResp e.1)) ++ p)
  | (a, b) :: l, p, h => by
    simp only [List.flatMap_cons, sendProg, Body.answers, List.cons_append, List.nil_append, guarded]
    by_cases hq : a = q
    · left; rw [hq]
    · right
      refine ⟨by simp, ?_⟩
      have : (q, k) ∈ l := by
        rcases List.mem_cons.1 h with h | h
        · cases h; exact absurd rfl hq
        · exact h
      exact guarded_flat this

theorem before_snoc {q : Nat} {outs : List Body} {b : Body} (h : Before q outs)
    (hb : b = .terminated → Answered outs q) : Before q (outs ++ [b]) := by
  intro pre post e
  rcases List.eq_nil_or_concat post with rfl | ⟨post', x, rfl⟩
  · have e' : outs ++ [b] = pre ++ [.terminated] := e
    obtain ⟨h1, h2⟩ := List.append_inj' e' rfl
    cases h2
    rw [← h1]; exact hb rfl
  · have e' : outs ++ [b] = (pre ++ .terminated :: post') ++ [x] := by rw [e]; simp
    obtain ⟨h1, h2⟩ := List.append_inj' e' rfl
    exact h _ _ h1

/-- What an action appends to the output. -/
theorem exec_outs {s s' : S} {a : Act} {more : List Act} (he : exec s a = .go more s') :
    s'.outs = s.outs ∨ ∃ b, s'.outs = s.outs ++ [b] ∧ (a = .write b ∨ ∃ q, a = .writeRunIn q ∧ b = .runIn q) := by
  cases a <;> simp only [exec] at he <;>
    first
    | (cases he; exact .inl rfl)
    | (cases he; exact .inr ⟨_, rfl, .inl rfl⟩)
    | (cases he; exact .inr ⟨_, rfl, .inr ⟨_, rfl, rfl⟩⟩)
    | (cases hc : s.cancelled <;> rw [hc] at he <;> cases he; exact .inl rfl)
    | (cases hc : s.cut <;> rw [hc] at he <;> cases he; exact .inl rfl)
    | (cases hc : s.launchQ <;> rw [hc] at he <;> cases he; exact .inl rfl)
    | (cases hc : s.recv.alive <;> rw [hc] at he <;> cases he; exact .inl rfl)

/-- Executing an action. -/
theorem exec_guard {q : Nat} {s s' : S} {a : Act} {p more : List Act} (hb : Before q s.outs)
    (hg : guarded q (a :: p)) (hi : (q, ReqKind.disconnect) ∈ s.incoming) (he : exec s a = .go more s') :
    Before q s'.outs ∧ (Answered s'.outs q ∨ guarded q (more ++ p)) := by
  by_cases hs : a = .snapD
  · subst hs
    simp only [exec] at he
    cases he
    refine ⟨hb, .inr ?_⟩
    exact guarded_flat (k := .disconnect) (List.mem_filter.2 ⟨hi, by simp⟩)
  · cases ht : isTerm a with
    | true =>
      rcases isTerm_cases ht with rfl | rfl | rfl
      · exact hg.elim
      · simp only [exec] at he
        cases he
        exact ⟨hb, .inr hg⟩
      · rcases hg with h | h
        · cases h
        · exact absurd rfl h.1
    | false =>
      have h1 := (exec_nonterm ht he).1
      constructor
      · rcases exec_outs he with e | ⟨b, e, hw⟩
        · rw [e]; exact hb
        · rw [e]
          refine before_snoc hb fun hbt => ?_
          subst hbt
          rcases hw with rfl | ⟨_, _, hw⟩
          · cases ht
          · cases hw
      · cases a <;> simp only [guarded] at hg <;> first | exact .inr (guarded_quiet h1 hg) | exact absurd rfl hs | skip
        next b =>
          simp only [exec] at he
          cases he
          rcases hg with h | ⟨_, h⟩
          · left; exact ⟨b, by simp, h⟩
          · right; exact h

/-- The invariant for a disconnect request `q`. -/
structure GInv (q : Nat) (s : S) : Prop where
  before : Before q s.outs
  ok : Answered s.outs q ∨ guarded q s.main.prog ∧ guarded q s.recv.prog

theorem exec_recv {s s' : S} {a : Act} {more : List Act} (he : exec s a = .go more s') :
    s'.recv = s.recv ∨ s'.recv = .none ∨ s'.recv = .loop [] := by
  cases a <;> simp only [exec] at he <;>
    first
    | (cases he; first | exact .inl rfl | exact .inr (.inl rfl) | exact .inr (.inr rfl))
    | (cases hc : s.cancelled <;> rw [hc] at he <;> cases he; first | exact .inl rfl | exact .inr (.inr rfl))
    | (cases hc : s.cut <;> rw [hc] at he <;> cases he; exact .inl rfl)
    | (cases hc : s.launchQ <;> rw [hc] at he <;> cases he; exact .inl rfl)
    | (cases hc : s.recv.alive <;> rw [hc] at he <;> cases he; exact .inl rfl)

theorem before_answered_step {q : Nat} {s s' : S} {l : Lbl} (hs : step s l = some s') (hb : Before q s.outs)
    (ha : Answered s.outs q) : Before q s'.outs ∧ Answered s'.outs q := by
  have snoc : ∀ {s1 : S} {a : Act} {more : List Act}, exec s a = .go more s1 → Before q s1.outs ∧ Answered s1.outs q := by
    intro s1 a more he
    rcases exec_outs he with e | ⟨b, e, _⟩
    · rw [e]; exact ⟨hb, ha⟩
    · rw [e]; exact ⟨before_snoc hb fun _ => ha, ha.mono⟩
  have hst := step_iff s l s' hs
  cases hst with
  | @handled s2 c c' m p hm hh =>
    obtain ⟨e1, e2, e3, e4, _⟩ := handle_rec hh
    simp only [e4]; exact ⟨hb, ha⟩
  | @unhandled c m hm hh => cases m <;> exact ⟨hb, ha⟩
  | @mainGo s1 ex b a p more hm he => exact snoc (s1 := s1) he
  | @recvGo s1 cl a p more hm he => exact snoc (s1 := s1) he
  | _ => exact ⟨hb, ha⟩

theorem ginv_step {q b : Nat} {s s' : S} {l : Lbl} (hA : AInv s) (hr : (q, ReqKind.disconnect, b) ∈ s.reqs)
    (h : GInv q s) (hs : step s l = some s') : GInv q s' := by
  rcases h.ok with h1 | ⟨h1, h2⟩
  · obtain ⟨h2, h3⟩ := before_answered_step hs h.before h1
    exact ⟨h2, .inl h3⟩
  have hb := h.before
  rcases (hA.reqs _ hr).symm with ha | hi
  · obtain ⟨h2, h3⟩ := before_answered_step hs h.before ha
    exact ⟨h2, .inl h3⟩
  have thr : ∀ ex, GInv q (thrown s ex) := by
    intro ex
    refine ⟨hb, .inr ⟨?_, h2⟩⟩
    cases ex
    · have := guarded_stop q true false []
      rw [List.append_nil] at this; exact this
    · trivial
  have hst := step_iff s l s' hs
  cases hst with
  | @handled s2 c c' m p hm hh =>
    obtain ⟨e1, e2, e3, e4, e5, _⟩ := handle_rec hh
    obtain ⟨_, _, _, e6⟩ := handle_facts hh
    refine ⟨by simp only [e4]; exact hb, .inr ⟨?_, by simp only [e5]; exact h2⟩⟩
    have := guarded_quiet (q := q) (p := []) e6 trivial
    rw [List.append_nil] at this; exact this
  | @unhandled c m hm hh =>
    have h3 := thr false
    cases m <;> exact ⟨h3.1, h3.2⟩
  | badInput h0 => exact thr false
  | eof _ => exact h
  | leave h0 =>
    refine ⟨hb, .inr ⟨?_, h2⟩⟩
    have := guarded_stop q false false []
    rw [List.append_nil] at this; exact this
  | @mainGo s1 ex b a p more hm he =>
    rw [hm, mkMain_prog] at h1
    obtain ⟨h3, h4⟩ := exec_guard hb h1 hi he
    refine ⟨h3, h4.imp id fun h4 => ⟨by rw [mkMain_prog]; exact h4, ?_⟩⟩
    rcases exec_recv he with e | e | e <;> simp only [e]
    · exact h2
    · trivial
    · trivial
  | @mainThrow ex b a p hm he => exact thr ex
  | @mainAlt b a p more hm he =>
    rw [hm] at h1
    refine ⟨hb, .inr ⟨?_, h2⟩⟩
    cases a <;> simp only [altProg] at he <;> try (cases he; done)
    · cases hcc : s.cancelled <;> rw [hcc] at he <;> cases he
      exact h1
    · cases he
      exact guarded_stop _ _ _ _
  | @mainRaise ex b a p hm he => exact thr ex
  | finish h0 => exact ⟨hb, .inr ⟨trivial, h2⟩⟩
  | @deb m h0 _ =>
    refine ⟨hb, .inr ⟨h1, ?_⟩⟩
    have : tp (sendProg (.relay m)) = [] := by cases m <;> rfl
    have := guarded_quiet (q := q) (p := []) this trivial
    rw [List.append_nil] at this; exact this
  | close h0 =>
    refine ⟨hb, .inr ⟨h1, ?_⟩⟩
    have := guarded_stop q (by assumption) true []
    rw [List.append_nil] at this; exact this
  | @recvGo s1 cl a p more hm he =>
    rw [hm, mkRecv_prog] at h2
    obtain ⟨h3, h4⟩ := exec_guard hb h2 hi he
    refine ⟨h3, h4.imp id fun h4 => ⟨?_, by rw [mkRecv_prog]; exact h4⟩⟩
    simp only [exec_main he]; exact h1
  | recvDie _ _ => exact ⟨hb, .inr ⟨h1, trivial⟩⟩
  | recvEnd _ => exact ⟨hb, .inr ⟨h1, trivial⟩⟩

theorem reqs_grow {s s' : S} {l : Lbl} (hs : step s l = some s') : ∀ r ∈ s.reqs, r ∈ s'.reqs := by
  intro r hr
  have hst := step_iff s l s' hs
  cases hst with
  | @handled s2 c c' m p hm hh =>
    obtain ⟨e1, e2, _⟩ := handle_rec hh
    simp only [e2]
    cases m <;> simp [received] <;> first | exact .inl hr | exact hr
  | @unhandled c m hm hh => cases m <;> simp [thrown, received] <;> first | exact .inl hr | exact hr
  | @mainGo s1 ex b a p more hm he => simp only [(exec_sub he).2.1]; exact hr
  | @recvGo s1 cl a p more hm he => simp only [(exec_sub he).2.1]; exact hr
  | _ => exact hr

theorem ginv_run {q b : Nat} {s s' : S} {ls : List Lbl} (h0 : Reach s) (hr : (q, ReqKind.disconnect, b) ∈ s.reqs)
    (h : GInv q s) (hs : run s ls = some s') : GInv q s' := by
  induction ls generalizing s with
  | nil => cases hs; exact h
  | cons l ls ih =>
    simp only [run] at hs
    cases h1 : step s l with
    | none => rw [h1] at hs; cases hs
    | some s1 =>
      rw [h1] at hs
      exact ih (.step h0 h1) (reqs_grow h1 _ hr) (ginv_step (ainv_reach h0) hr h h1) hs

/-- The receive thread does not touch the terminated event unless it is stopping. -/
theorem guarded_loop {q : Nat} {s : S} (hc : Ctl s) (h : ∀ p, s.recv = .closing p → ∃ e, p = stopProg e true) :
    guarded q s.recv.prog := by
  cases hr : s.recv with
  | none => trivial
  | ended => trivial
  | loop p =>
    have := guarded_quiet (q := q) (p := []) (tp_plain (hc.loop p hr)) trivial
    rw [List.append_nil] at this; exact this
  | closing p =>
    obtain ⟨e, rfl⟩ := h p hr
    have := guarded_stop q e true []
    rw [List.append_nil] at this; exact this

/-- After the receipt of a disconnect request. -/
theorem ginv_start {s s' : S} {b : Nat} (h0 : Reach s) (ht : .terminated ∉ s.outs)
    (h : ∀ p, s.recv = .closing p → ∃ e, p = stopProg e true)
    (hs : step s (.client (.req .disconnect b)) = some s') :
    GInv s.nextIn s' ∧ (s.nextIn, ReqKind.disconnect, b) ∈ s'.reqs := by
  have hg := guarded_loop (q := s.nextIn) (ctl_reach h0) h
  have hb : Before s.nextIn s.outs := by
    intro pre post e
    exact absurd (by rw [e]; simp) ht
  have hst := step_iff s _ s' hs
  cases hst with
  | @handled s2 c c' m p hm hh =>
    obtain ⟨e1, e2, e3, e4, e5, _⟩ := handle_rec hh
    obtain ⟨_, _, _, e6⟩ := handle_facts hh
    refine ⟨⟨by simp only [e4]; exact hb, .inr ⟨?_, by simp only [e5]; exact hg⟩⟩, by simp only [e2]; simp [received]⟩
    have := guarded_quiet (q := s.nextIn) (p := []) e6 trivial
    rw [List.append_nil] at this; exact this
  | @unhandled c m hm hh =>
    refine ⟨⟨hb, .inr ⟨?_, hg⟩⟩, by simp [received, thrown]⟩
    have := guarded_stop s.nextIn true false []
    rw [List.append_nil] at this; exact this

end Verif.Server
