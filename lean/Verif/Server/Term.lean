import Verif.Server.Ctl

/-! # At most one terminated event -/

namespace Verif.Server

def isTerm : Act → Bool
  | .chkTerm | .setTerm | .write .terminated => true
  | _ => false

/-- The part of a program that deals with the terminated event. -/
def tp (p : List Act) : List Act := p.filter isTerm

@[simp] theorem tp_nil : tp [] = [] := rfl
theorem tp_append (p q : List Act) : tp (p ++ q) = tp p ++ tp q := List.filter_append ..

theorem neutral_not_term {a : Act} (h : neutral a = true) : isTerm a = false := by
  cases a <;> first | rfl | (simp [neutral, plain] at h; done) | skip
  next b => cases b <;> first | rfl | (simp [neutral, plain] at h; done)

theorem tp_neutral {p : List Act} (h : allP neutral p) : tp p = [] :=
  List.filter_eq_nil_iff.2 fun a ha => by rw [neutral_not_term (h a ha)]; simp

theorem tp_plain {p : List Act} (h : allP plain p) : tp p = [] := tp_neutral (allP_mono h)

/-- Nothing pending, or only the test. -/
def Quiet (x : List Act) : Prop := x = [] ∨ x = [.chkTerm]

theorem tail_tp {p : List Act} (h : Tail p) :
    tp p = [.chkTerm] ∨ p = [.write .terminated, .setTerm] ∨ p = [.setTerm] := by
  rcases h with h | h | h | h | h | h <;> subst h <;> simp [tp, isTerm]

theorem core_tp {deb alive : Bool} {n : Nat} {ex : Bool} {p : List Act} (h : Core deb alive n ex p) :
    Quiet (tp p) ∨ (p = [.write .terminated, .setTerm] ∨ p = [.setTerm]) ∧ alive = false := by
  cases h with
  | tail h1 h2 h3 =>
    rcases tail_tp h3 with h | h
    · exact .inl (.inr h)
    · exact .inr ⟨h, h2⟩
  | mkA _ _ _ h => 
    left
    have e := tp_neutral h
    left
    simpa [tp, isTerm] using e
  | conn _ _ _ h =>
    left; left
    have e := tp_neutral h
    simpa [tp, isTerm] using e
  | _ => left; simp [Quiet, tp, isTerm]

theorem msh_tp {deb alive : Bool} {n : Nat} {ex : Bool} {p : List Act} (h : MSh deb alive n ex p) :
    Quiet (tp p) ∨ (p = [.write .terminated, .setTerm] ∨ p = [.setTerm]) ∧ alive = false := by
  obtain ⟨q, t, h1, h2, h3, h4⟩ := h
  have e : tp p = tp t := by rw [h1, tp_append, tp_neutral h2, List.nil_append]
  rcases core_tp h3 with h | ⟨h, ha⟩
  · rw [e]; exact .inl h
  · right
    refine ⟨?_, ha⟩
    cases q with
    | nil => rw [h1]; exact h
    | cons a q =>
      exfalso
      apply h4 (by simp)
      rcases h with h | h <;> rw [h] <;> simp

/-- When the main thread tests for the terminated event the receive thread is not running. -/
theorem msh_chk {deb alive : Bool} {n : Nat} {ex : Bool} {p : List Act} (h : MSh deb alive n ex (.chkTerm :: p)) :
    alive = false ∧ p = [] := by
  obtain ⟨q, t, h1, h2, h3, h4⟩ := h
  cases q with
  | cons a q => 
    rw [List.cons_append] at h1
    cases h1
    have := h2 .chkTerm List.mem_cons_self
    cases this
  | nil =>
    rw [List.nil_append] at h1
    subst h1
    cases h3 with
    | tail _ h h' => rcases h' with h' | h' | h' | h' | h' | h' <;> cases h'; exact ⟨h, rfl⟩

theorem rsh_chk {p : List Act} (h : RSh (.chkTerm :: p)) : p = [] := by
  obtain ⟨q, t, h1, h2, h3⟩ := h
  cases q with
  | cons a q => 
    rw [List.cons_append] at h1
    cases h1
    have := h2 .chkTerm List.mem_cons_self
    cases this
  | nil =>
    rw [List.nil_append] at h1
    subst h1
    rcases h3 with h3 | h3
    · cases h3
    · rcases h3 with h' | h' | h' | h' | h' | h' <;> cases h'; rfl

/-- The number of terminated events written. -/
def tcount (s : S) : Nat := s.outs.count .terminated

/-- An action that does not deal with the terminated event. -/
theorem exec_nonterm {s s' : S} {a : Act} {more : List Act} (ha : isTerm a = false) (he : exec s a = .go more s') :
    tp more = [] ∧ s'.flag = s.flag ∧ tcount s' = tcount s := by
  cases hn : neutral a with
  | true =>
    obtain ⟨e1, _, _, _, _, e2⟩ := exec_neutral hn he
    refine ⟨tp_plain e1, e2, ?_⟩
    cases a <;> simp only [exec] at he <;>
      first
      | (cases he; rfl)
      | (cases hc : s.cancelled <;> rw [hc] at he <;> cases he; rfl)
      | (cases hc : s.cut <;> rw [hc] at he <;> cases he; rfl)
      | (simp [neutral, plain] at hn; done)
      | skip
    next b =>
      cases he
      simp only [tcount, List.count_append]
      cases b <;> first | (simp [isTerm] at ha; done) | simp
  | false =>
    cases a <;> simp only [exec] at he <;>
      first
      | (simp [isTerm] at ha; done)
      | (simp [neutral, plain] at hn; done)
      | (cases he; exact ⟨rfl, rfl, rfl⟩)
      | (cases hc : s.cancelled <;> rw [hc] at he <;> cases he; exact ⟨rfl, rfl, rfl⟩)
      | (cases hc : s.cut <;> rw [hc] at he <;> cases he; exact ⟨rfl, rfl, rfl⟩)
      | (cases hc : s.launchQ <;> rw [hc] at he <;> cases he <;> exact ⟨rfl, rfl, rfl⟩)
      | (cases hc : s.debSet <;> rw [hc] at he <;> cases he <;> exact ⟨rfl, rfl, rfl⟩)
      | (cases hc : s.recv.alive <;> rw [hc] at he <;> cases he; exact ⟨rfl, rfl, rfl⟩)
      | skip
    · next b => cases b <;> first | (simp [isTerm] at ha; done) | (simp [neutral, plain] at hn; done)
    · cases he
      refine ⟨rfl, rfl, ?_⟩
      simp [tcount, List.count_append]

/-- The state of the terminated event: sent, not sent, about to be sent by one of the threads, or
sent by a thread that has not yet noted it. -/
def TInv (s : S) : Prop :=
  (s.flag = true ∧ tcount s = 1 ∧ Quiet (tp s.main.prog) ∧ Quiet (tp s.recv.prog)) ∨
  (s.flag = false ∧ tcount s = 0 ∧ Quiet (tp s.main.prog) ∧ Quiet (tp s.recv.prog)) ∨
  (s.flag = false ∧ tcount s = 0 ∧
    (tp s.main.prog = [.write .terminated, .setTerm] ∧ Quiet (tp s.recv.prog) ∨
     Quiet (tp s.main.prog) ∧ tp s.recv.prog = [.write .terminated, .setTerm])) ∨
  (s.flag = false ∧ tcount s = 1 ∧
    (tp s.main.prog = [.setTerm] ∧ Quiet (tp s.recv.prog) ∨ Quiet (tp s.main.prog) ∧ tp s.recv.prog = [.setTerm]))

/-- Leaving `start()` always leads to the terminated event. -/
structure TOut (s : S) : Prop where
  inv : TInv s
  exiting : ∀ e p, s.main = .exiting e p → tp p ≠ [] ∨ s.flag = true
  done : ∀ e, s.main = .done e → s.flag = true

theorem quiet_of {s : S} {ex b : Bool} {p : List Act} (hc : Ctl s) (h : s.main = mkMain ex b p)
    (hal : s.recv.alive = true) : Quiet (tp s.main.prog) := by
  rcases msh_tp (hc.main ex b p h) with h' | ⟨_, h'⟩
  · rw [h, mkMain_prog]; exact h'
  · rw [hal] at h'; cases h'

theorem quiet_alive {s : S} (hc : Ctl s) (hal : s.recv.alive = true) : Quiet (tp s.main.prog) := by
  cases hm : s.main with
  | run b p => rw [← hm]; exact quiet_of (ex := false) hc hm hal
  | exiting b p => rw [← hm]; exact quiet_of (ex := true) hc hm hal
  | done b => exact .inl rfl
  | dead => exact .inl rfl

theorem recv_dead_prog {s : S} (h : s.recv.alive = false) : s.recv.prog = [] := by
  cases hr : s.recv <;> rw [hr] at h <;> first | rfl | cases h

theorem tinv_congr {s s' : S} (h : TInv s) (h1 : s'.flag = s.flag) (h2 : tcount s' = tcount s)
    (h3 : tp s'.main.prog = tp s.main.prog) (h4 : tp s'.recv.prog = tp s.recv.prog) : TInv s' := by
  unfold TInv at h ⊢
  rw [h1, h2, h3, h4]
  exact h

/-- Replacing a quiet program of the main thread by another quiet one. -/
theorem tinv_main {s s' : S} (h : TInv s) (h1 : s'.flag = s.flag) (h2 : tcount s' = tcount s)
    (h3 : Quiet (tp s.main.prog)) (h3' : Quiet (tp s'.main.prog)) (h4 : tp s'.recv.prog = tp s.recv.prog) : TInv s' := by
  have n1 : tp s.main.prog ≠ [.write .terminated, .setTerm] := by rcases h3 with e | e <;> rw [e] <;> simp
  have n2 : tp s.main.prog ≠ [.setTerm] := by rcases h3 with e | e <;> rw [e] <;> simp
  unfold TInv at h ⊢
  rw [h1, h2, h4]
  rcases h with ⟨a, b, c, d⟩ | ⟨a, b, c, d⟩ | ⟨a, b, ⟨c, d⟩ | ⟨c, d⟩⟩ | ⟨a, b, ⟨c, d⟩ | ⟨c, d⟩⟩
  · exact .inl ⟨a, b, h3', d⟩
  · exact .inr (.inl ⟨a, b, h3', d⟩)
  · exact absurd c n1
  · exact .inr (.inr (.inl ⟨a, b, .inr ⟨h3', d⟩⟩))
  · exact absurd c n2
  · exact .inr (.inr (.inr ⟨a, b, .inr ⟨h3', d⟩⟩))

/-- Replacing a quiet program of the receive thread by another quiet one. -/
theorem tinv_recv {s s' : S} (h : TInv s) (h1 : s'.flag = s.flag) (h2 : tcount s' = tcount s)
    (h3 : Quiet (tp s.recv.prog)) (h3' : Quiet (tp s'.recv.prog)) (h4 : tp s'.main.prog = tp s.main.prog) : TInv s' := by
  have n1 : tp s.recv.prog ≠ [.write .terminated, .setTerm] := by rcases h3 with e | e <;> rw [e] <;> simp
  have n2 : tp s.recv.prog ≠ [.setTerm] := by rcases h3 with e | e <;> rw [e] <;> simp
  unfold TInv at h ⊢
  rw [h1, h2, h4]
  rcases h with ⟨a, b, c, d⟩ | ⟨a, b, c, d⟩ | ⟨a, b, ⟨c, d⟩ | ⟨c, d⟩⟩ | ⟨a, b, ⟨c, d⟩ | ⟨c, d⟩⟩
  · exact .inl ⟨a, b, c, h3'⟩
  · exact .inr (.inl ⟨a, b, c, h3'⟩)
  · exact .inr (.inr (.inl ⟨a, b, .inl ⟨c, h3'⟩⟩))
  · exact absurd d n1
  · exact .inr (.inr (.inr ⟨a, b, .inl ⟨c, h3'⟩⟩))
  · exact absurd d n2

theorem tp_stop (e f : Bool) : tp (stopProg e f) = [.chkTerm] := by cases e <;> cases f <;> rfl

theorem tout_thrown {s : S} {ex b : Bool} {p : List Act} (hi : TOut s) (h : s.main = mkMain ex b p)
    (hq : Quiet (tp p)) : TOut (thrown s ex) := by
  have hq' : Quiet (tp s.main.prog) := by rw [h, mkMain_prog]; exact hq
  refine ⟨tinv_main hi.inv rfl rfl hq' ?_ rfl, ?_, ?_⟩
  · cases ex with
    | true => exact .inl rfl
    | false => exact .inr (tp_stop true false)
  · intro e p' hm
    cases ex <;> cases hm
    left; rw [tp_stop]; simp
  · intro e hm
    cases ex <;> cases hm

theorem handle_facts {s s2 : S} {q : Nat} {c c' : Bool} {m : CMsg} {p : List Act} (h : handle s q c m = some (s2, c', p)) :
    s2.flag = s.flag ∧ s2.outs = s.outs ∧ s2.recv = s.recv ∧ tp p = [] := by
  cases m with
  | bad => cases h
  | runInResp r =>
    simp only [handle] at h
    cases hg : Dict.get? s.runIn r with
    | none => rw [hg] at h; cases h
    | some q => rw [hg] at h; cases h; exact ⟨rfl, rfl, rfl, rfl⟩
  | req k b =>
    simp only [handle] at h
    cases hd : s.debSet <;> rw [hd] at h <;> cases k <;> simp only [cond_true, cond_false] at h <;> cases h <;>
      exact ⟨rfl, rfl, rfl, rfl⟩

theorem raise_quiet {s : S} {ex b : Bool} {a : Act} {p : List Act} (hc : Ctl s) (h : s.main = mkMain ex b (a :: p))
    (hr : exec s a = .raise ∨ canRaise a = true) : Quiet (tp (a :: p)) := by
  rcases msh_tp (hc.main ex b _ h) with h' | ⟨h' | h', _⟩
  · exact h'
  · exfalso
    cases h'
    rcases hr with hr | hr <;> cases hr
  · exfalso
    cases h'
    rcases hr with hr | hr <;> cases hr

theorem msh_starts {deb alive : Bool} {n : Nat} {ex : Bool} {a : Act} {p : List Act} (h : MSh deb alive n ex (a :: p))
    (ha : a = .mkDeb ∨ a = .connect ∨ ∃ q, a = .accept q) : alive = false := by
  obtain ⟨q, t, h1, h2, h3, h4⟩ := h
  cases q with
  | cons b q =>
    rw [List.cons_append] at h1; cases h1
    have := h2 _ List.mem_cons_self
    rcases ha with rfl | rfl | ⟨_, rfl⟩ <;> cases this
  | nil =>
    rw [List.nil_append] at h1; subst h1
    cases h3 with
    | mkA _ _ h _ => exact h
    | mkL _ _ h => exact h
    | conn _ _ h _ => exact h
    | acc _ _ h => exact h
    | tail _ h _ => exact h
    | _ => simp at ha

theorem tp_cons_not {a : Act} {p : List Act} (h : isTerm a = false) : tp (a :: p) = tp p := by
  simp [tp, h]

theorem isTerm_cases {a : Act} (h : isTerm a = true) : a = .chkTerm ∨ a = .setTerm ∨ a = .write .terminated := by
  cases a <;> simp [isTerm] at h <;> try simp
  next b => cases b <;> simp at h; rfl

theorem tout_step {s s' : S} {l : Lbl} (hc : Ctl s) (hi : TOut s) (hs : step s l = some s') : TOut s' := by
  have h := step_iff s l s' hs
  cases h with
  | @handled s2 c c' m p h hh =>
    obtain ⟨e1, e2, e3, e4⟩ := handle_facts hh
    refine ⟨tinv_main hi.inv e1 ?_ ?_ (.inl e4) ?_, ?_, ?_⟩
    · simp only [tcount]; rw [e2]
    · rw [h]; exact .inl rfl
    · simp only [e3]
    · intro e p' hm; cases hm
    · intro e hm; cases hm
  | @unhandled c m h hh =>
    have hi' : TOut (received { s with nextIn := s.nextIn + 1 } s.nextIn m) := by
      cases m <;> exact ⟨hi.inv, hi.exiting, hi.done⟩
    exact tout_thrown (ex := false) (b := c) (p := []) hi' (by cases m <;> exact h) (.inl rfl)
  | @badInput c h => exact tout_thrown (ex := false) (b := c) (p := []) hi h (.inl rfl)
  | eof h => exact hi
  | leave h =>
    refine ⟨tinv_main hi.inv rfl rfl ?_ (.inr (tp_stop _ _)) rfl, ?_, ?_⟩
    · rw [h]; exact .inl rfl
    · intro e p hm; cases hm; left; rw [tp_stop]; simp
    · intro e hm; cases hm
  | @mainGo s1 ex b a p more h he =>
    have hp : s.main.prog = a :: p := by rw [h]; simp
    cases ha : isTerm a with
    | false =>
      obtain ⟨e1, e2, e3⟩ := exec_nonterm ha he
      have er : tp s1.recv.prog = tp s.recv.prog := by
        cases a <;> simp only [exec] at he <;>
          first
          | (simp [isTerm] at ha; done)
          | (cases he; rfl)
          | (cases hcc : s.cancelled <;> rw [hcc] at he <;> cases he; rfl)
          | (cases hcc : s.cut <;> rw [hcc] at he <;> cases he; rfl)
          | (cases hcc : s.launchQ <;> rw [hcc] at he <;> cases he <;> rfl)
          | (cases hcc : s.debSet <;> rw [hcc] at he <;> cases he <;> rfl)
          | (cases hcc : s.recv.alive <;> rw [hcc] at he <;> cases he; rfl)
          | skip
        all_goals
          have hd : s.recv.alive = false := msh_starts (hc.main ex b _ h) (by simp)
          have := recv_dead_prog hd
          first
          | (cases he; rw [this]; rfl)
          | (cases hcc : s.cancelled <;> rw [hcc] at he <;> cases he; rw [this]; rfl)
          | (cases hcc : s.cut <;> rw [hcc] at he <;> cases he; rw [this]; rfl)
      have em : tp (more ++ p) = tp (a :: p) := by rw [tp_append, e1, List.nil_append, tp_cons_not ha]
      refine ⟨tinv_congr hi.inv e2 e3 ?_ er, ?_, ?_⟩
      · rw [hp]; simp only [mkMain_prog]; exact em
      · intro e p' hm
        cases ex <;> cases hm
        have := hi.exiting _ _ h
        rw [em]; simp only [e2]; exact this
      · intro e hm; cases ex <;> cases hm
    | true =>
      rcases isTerm_cases ha with rfl | rfl | rfl
      · -- the test
        obtain ⟨h1, rfl⟩ := msh_chk (hc.main ex b _ h)
        have hrp : tp s.recv.prog = [] := by rw [recv_dead_prog h1]; rfl
        have hmp : tp s.main.prog = [.chkTerm] := by rw [hp]; rfl
        simp only [exec] at he
        cases hf : s.flag with
        | true =>
          rw [hf] at he; cases he
          refine ⟨tinv_main hi.inv rfl rfl (.inr hmp) (by simp [Quiet]) rfl, ?_, ?_⟩
          · intro e p' hm; cases ex <;> cases hm; exact .inr hf
          · intro e hm; cases ex <;> cases hm
        | false =>
          rw [hf] at he; cases he
          have h0 : tcount s = 0 := by
            have := hi.inv
            unfold TInv at this
            rw [hf, hmp, hrp] at this
            simp [Quiet] at this
            exact this
          refine ⟨.inr (.inr (.inl ⟨hf, h0, .inl ⟨?_, .inl hrp⟩⟩)), ?_, ?_⟩
          · simp [tp, isTerm]
          · intro e p' hm; cases ex <;> cases hm; left; simp [tp, isTerm]
          · intro e hm; cases ex <;> cases hm
      · -- noting it
        rcases msh_tp (hc.main ex b _ h) with hq | ⟨hq | hq, hal⟩
        · rcases hq with hq | hq <;> simp [tp, List.filter_cons, isTerm] at hq
        · cases hq
        · cases hq
          simp only [exec] at he; cases he
          have hmp : tp s.main.prog = [.setTerm] := by rw [hp]; rfl
          have hrp : tp s.recv.prog = [] := by rw [recv_dead_prog hal]; rfl
          have h0 : tcount s = 1 := by
            have := hi.inv
            unfold TInv at this
            rw [hmp, hrp] at this
            simp [Quiet] at this
            exact this.2
          refine ⟨.inl ⟨rfl, h0, by simp [Quiet], .inl hrp⟩, ?_, ?_⟩
          · intro e p' hm; cases ex <;> cases hm; exact .inr rfl
          · intro e hm; cases ex <;> cases hm
      · -- sending it
        rcases msh_tp (hc.main ex b _ h) with hq | ⟨hq | hq, hal⟩
        · rcases hq with hq | hq <;> simp [tp, List.filter_cons, isTerm] at hq
        · cases hq
          simp only [exec] at he; cases he
          have hmp : tp s.main.prog = [.write .terminated, .setTerm] := by rw [hp]; rfl
          have hrp : tp s.recv.prog = [] := by rw [recv_dead_prog hal]; rfl
          have h0 : s.flag = false ∧ tcount s = 0 := by
            have := hi.inv
            unfold TInv at this
            rw [hmp, hrp] at this
            simp [Quiet] at this
            exact this
          refine ⟨.inr (.inr (.inr ⟨h0.1, ?_, .inl ⟨by simp [tp, isTerm], .inl hrp⟩⟩)), ?_, ?_⟩
          · have := h0.2
            simp only [tcount, List.count_append] at this ⊢
            rw [this]; rfl
          · intro e p' hm; cases ex <;> cases hm; left; simp [tp, isTerm]
          · intro e hm; cases ex <;> cases hm
        · cases hq
  | @mainThrow ex b a p h he => exact tout_thrown hi h (raise_quiet hc h (.inl he))
  | @mainAlt b a p more h he =>
    have hp : s.main.prog = a :: p := by rw [h]; rfl
    have hq : Quiet (tp (a :: p)) ∧ Quiet (tp (more ++ p)) := by
      have h1 := msh_tp (hc.main false b _ h)
      have hna : isTerm a = false := by cases a <;> first | rfl | cases he
      have h2 : Quiet (tp (a :: p)) := by
        rcases h1 with h1 | ⟨h1 | h1, _⟩
        · exact h1
        · cases h1; cases hna
        · cases h1; cases hna
      refine ⟨h2, ?_⟩
      cases a <;> simp only [altProg] at he <;> try (cases he; done)
      · cases hcc : s.cancelled <;> rw [hcc] at he <;> cases he
        rw [List.nil_append]; rw [tp_cons_not hna] at h2; exact h2
      · cases he
        have hp0 : p = [] := by
          obtain ⟨q, t, g1, g2, g3, g4⟩ := hc.main false b _ h
          cases q with
          | cons b q =>
            rw [List.cons_append] at g1; cases g1
            have := g2 _ List.mem_cons_self; cases this
          | nil =>
            rw [List.nil_append] at g1; subst g1
            generalize s.debSet = deb at g3
            generalize s.recv.alive = alive at g3
            generalize s.runIn.length = n at g3
            cases g3 with
            | acc _ _ _ => rfl
            | tail _ _ h => rcases h with h | h | h | h | h | h <;> cases h
        rw [hp0, List.append_nil]; exact .inr (tp_stop _ _)
    refine ⟨tinv_main hi.inv rfl rfl (by rw [hp]; exact hq.1) hq.2 rfl, ?_, ?_⟩
    · intro e p' hm; cases hm
    · intro e hm; cases hm
  | @mainRaise ex b a p h he => exact tout_thrown hi h (raise_quiet hc h (.inr he))
  | @finish b h =>
    have hf : s.flag = true := by
      rcases hi.exiting _ _ h with h' | h'
      · exact absurd rfl h'
      · exact h'
    refine ⟨tinv_main hi.inv rfl rfl (by rw [h]; exact .inl rfl) (.inl rfl) rfl, ?_, ?_⟩
    · intro e p' hm; cases hm
    · intro e _; exact hf
  | @deb m h hcan =>
    refine ⟨tinv_recv hi.inv rfl rfl (by rw [h]; exact .inl rfl) (.inl (tp_plain (plain_send (by simp)))) rfl, hi.exiting, hi.done⟩
  | @close e h =>
    refine ⟨tinv_recv hi.inv rfl rfl (by rw [h]; exact .inl rfl) (.inr (tp_stop _ _)) rfl, hi.exiting, hi.done⟩
  | @recvGo s1 cl a p more h he =>
    have hp : s.recv.prog = a :: p := by rw [h]; simp
    have hal : s.recv.alive = true := by rw [h]; simp
    have hqm := quiet_alive hc hal
    have hmain := exec_main he
    have hmdone : ∀ e, s.main ≠ .done e := by
      intro e hm
      have := hc.done e hm
      rw [hal] at this; cases this
    cases ha : isTerm a with
    | false =>
      obtain ⟨e1, e2, e3⟩ := exec_nonterm ha he
      have em : tp (more ++ p) = tp (a :: p) := by rw [tp_append, e1, List.nil_append, tp_cons_not ha]
      refine ⟨tinv_congr hi.inv e2 e3 ?_ ?_, ?_, ?_⟩
      · simp only [hmain]
      · rw [hp]; simp only [mkRecv_prog]; exact em
      · intro e p' hm
        have := hi.exiting e p' (hmain ▸ hm)
        simp only [e2]; exact this
      · intro e hm; exact absurd (hmain ▸ hm) (hmdone e)
    | true =>
      have hrsh : cl = true → RSh (a :: p) := by
        intro hcl; subst hcl; exact hc.closing _ h
      have hcl : cl = true := by
        cases cl with
        | true => rfl
        | false =>
          have := hc.loop _ h a List.mem_cons_self
          rw [neutral_not_term (neutral_of_plain this)] at ha; cases ha
      have hsh := hrsh hcl
      have hset : a = .setTerm ∨ a = .write .terminated → 
          a :: p = [.write .terminated, .setTerm] ∨ a :: p = [.setTerm] := by
        intro h0
        obtain ⟨q, t, g1, g2, g3⟩ := hsh
        cases q with
        | cons b q =>
          rw [List.cons_append] at g1; cases g1
          have := g2 _ List.mem_cons_self
          rcases h0 with rfl | rfl <;> cases this
        | nil =>
          rw [List.nil_append] at g1; subst g1
          rcases g3 with g3 | g3
          · cases g3
          · rcases g3 with g | g | g | g | g | g <;> cases g <;> simp at h0 ⊢
      have ex_keep : ∀ s2 : S, s2.main = s.main → s2.flag = true ∨ s2.flag = s.flag → ∀ e p', s2.main = .exiting e p' → tp p' ≠ [] ∨ s2.flag = true := by
        intro s2 hm hf e p' hm'
        rcases hf with hf | hf
        · exact .inr hf
        · rw [hf]; exact hi.exiting e p' (hm ▸ hm')
      rcases isTerm_cases ha with rfl | rfl | rfl
      · have hp0 := rsh_chk hsh
        subst hp0
        have hrp : tp s.recv.prog = [.chkTerm] := by rw [hp]; rfl
        simp only [exec] at he
        cases hf : s.flag with
        | true =>
          rw [hf] at he; cases he
          refine ⟨tinv_recv hi.inv rfl rfl (.inr hrp) (by simp [Quiet]) rfl, hi.exiting, hi.done⟩
        | false =>
          rw [hf] at he; cases he
          have h0 : tcount s = 0 := by
            have := hi.inv
            unfold TInv at this
            rw [hf, hrp] at this
            rcases hqm with hm | hm <;> rw [hm] at this <;> simpa [Quiet] using this
          refine ⟨.inr (.inr (.inl ⟨hf, h0, .inr ⟨hqm, by simp [tp, isTerm]⟩⟩)), hi.exiting, hi.done⟩
      · rcases hset (.inl rfl) with g | g <;> cases g
        simp only [exec] at he; cases he
        have hrp : tp s.recv.prog = [.setTerm] := by rw [hp]; rfl
        have h0 : tcount s = 1 := by
          have := hi.inv
          unfold TInv at this
          rw [hrp] at this
          rcases hqm with hm | hm <;> rw [hm] at this <;> simp [Quiet] at this <;> exact this.2
        refine ⟨.inl ⟨rfl, h0, hqm, by simp [Quiet]⟩, ?_, ?_⟩
        · intro e p' _; exact .inr rfl
        · intro e _; rfl
      · rcases hset (.inr rfl) with g | g <;> cases g
        simp only [exec] at he; cases he
        have hrp : tp s.recv.prog = [.write .terminated, .setTerm] := by rw [hp]; rfl
        have h0 : s.flag = false ∧ tcount s = 0 := by
          have := hi.inv
          unfold TInv at this
          rw [hrp] at this
          rcases hqm with hm | hm <;> rw [hm] at this <;> simpa [Quiet] using this
        refine ⟨.inr (.inr (.inr ⟨h0.1, ?_, .inr ⟨hqm, by simp [tp, isTerm]⟩⟩)), hi.exiting, hi.done⟩
        have := h0.2
        simp only [tcount, List.count_append] at this ⊢
        rw [this]; rfl
  | @recvDie a p h he =>
    have hq : Quiet (tp (a :: p)) := by
      obtain ⟨q, t, g1, g2, g3⟩ := hc.closing _ h
      cases q with
      | cons b q =>
        rw [List.cons_append] at g1; cases g1
        have := g2 _ List.mem_cons_self
        cases a <;> first | (simp [plain] at this; done) | (simp [exec] at he; done)
      | nil =>
        rw [List.nil_append] at g1; subst g1
        rcases g3 with g3 | g3
        · cases g3
        · rcases g3 with g | g | g | g | g | g <;> cases g <;> first | (simp [exec] at he; done) | exact .inr rfl
    refine ⟨tinv_recv hi.inv rfl rfl (by rw [h]; exact hq) (.inl rfl) rfl, hi.exiting, hi.done⟩
  | recvEnd h =>
    refine ⟨tinv_recv hi.inv rfl rfl (by rw [h]; exact .inl rfl) (.inl rfl) rfl, hi.exiting, hi.done⟩

/-- The receive thread ends by itself only after the terminated event. -/
theorem closing_step {s s' : S} {l : Lbl} (hc : Ctl s) (hi : ∀ p, s.recv = .closing p → tp p ≠ [] ∨ s.flag = true)
    (hs : step s l = some s') : ∀ p, s'.recv = .closing p → tp p ≠ [] ∨ s'.flag = true := by
  have h := step_iff s l s' hs
  cases h with
  | @handled s2 c c' m p h hh =>
    obtain ⟨e1, e2, e3, e4⟩ := handle_facts hh
    intro p' hp
    have := hi p' (e3 ▸ hp)
    simp only [e1]; exact this
  | @unhandled c m h hh => cases m <;> exact hi
  | badInput h => exact hi
  | eof h => exact hi
  | leave h => exact hi
  | @mainGo s1 ex b a p more h he =>
    intro p' hp
    have hr : s1.recv = .closing p' := hp
    have : s.recv = .closing p' ∧ (s1.flag = s.flag ∨ s1.flag = true) := by
      cases a <;> simp only [exec] at he <;>
        first
        | (cases he; exact ⟨hr, .inl rfl⟩)
        | (cases he; exact ⟨hr, .inr rfl⟩)
        | (cases he; cases hr)
        | (cases hcc : s.cancelled <;> rw [hcc] at he <;> cases he <;> first | exact ⟨hr, .inl rfl⟩ | cases hr)
        | (cases hcc : s.cut <;> rw [hcc] at he <;> cases he <;> first | exact ⟨hr, .inl rfl⟩ | cases hr)
        | (cases hcc : s.launchQ <;> rw [hcc] at he <;> cases he <;> exact ⟨hr, .inl rfl⟩)
        | (cases hcc : s.recv.alive <;> rw [hcc] at he <;> cases he; exact ⟨hr, .inl rfl⟩)
    rcases this.2 with hf | hf
    · simp only [hf]; exact hi p' this.1
    · exact .inr hf
  | mainThrow h he => exact hi
  | mainAlt h he => exact hi
  | mainRaise h he => exact hi
  | finish h => exact hi
  | deb h hcan => intro p hp; cases hp
  | close h => intro p hp; cases hp; left; rw [tp_stop]; simp
  | @recvGo s1 cl a p more h he =>
    intro p' hp
    cases cl <;> cases hp
    have hi0 := hi _ h
    cases ha : isTerm a with
    | false =>
      obtain ⟨e1, e2, e3⟩ := exec_nonterm ha he
      rw [tp_append, e1, List.nil_append]
      rw [tp_cons_not ha] at hi0
      simp only [e2]; exact hi0
    | true =>
      have hset : a = .write .terminated → p = [.setTerm] := by
        rintro rfl
        obtain ⟨q, t, g1, g2, g3⟩ := hc.closing _ h
        cases q with
        | cons b q =>
          rw [List.cons_append] at g1; cases g1
          have := g2 _ List.mem_cons_self
          cases this
        | nil =>
          rw [List.nil_append] at g1; subst g1
          rcases g3 with g3 | g3
          · cases g3
          · rcases g3 with g | g | g | g | g | g <;> cases g; rfl
      rcases isTerm_cases ha with rfl | rfl | rfl
      · simp only [exec] at he
        cases hf : s.flag <;> rw [hf] at he <;> cases he
        · left; simp [tp, isTerm]
        · exact .inr hf
      · simp only [exec] at he; cases he; exact .inr rfl
      · simp only [exec] at he; cases he
        rw [hset rfl]; left; simp [tp, isTerm]
  | recvDie h he => intro p hp; cases hp
  | recvEnd h => intro p hp; cases hp

theorem closing_reach {s : S} (h : Reach s) : ∀ p, s.recv = .closing p → tp p ≠ [] ∨ s.flag = true := by
  induction h with
  | init => intro p hp; cases hp
  | step h0 hs ih => exact closing_step (ctl_reach h0) ih hs

theorem tout_reach {s : S} (h : Reach s) : TOut s := by
  have : Ctl s ∧ TOut s := by
    induction h with
    | init =>
      refine ⟨ctl_init, .inr (.inl ⟨rfl, rfl, .inl rfl, .inl rfl⟩), ?_, ?_⟩
      · intro e p h; cases h
      · intro e h; cases h
    | step _ hs ih => exact ⟨ctl_step ih.1 hs, tout_step ih.1 ih.2 hs⟩
  exact this.2

end Verif.Server
