import Verif.Server.Step

/-! # Where the two threads can be -/

namespace Verif.Server

/-- Actions of both threads that do not touch the control state. -/
def plain : Act → Bool
  | .write .terminated => false
  | .write _ | .pop _ | .snapD | .snapE => true
  | _ => false

/-- Actions of the main thread that do not touch the control state. -/
def neutral : Act → Bool
  | .send _ | .sendQuiet _ | .cancel | .closeLaunch | .mkLaunch => true
  | a => plain a

def allP (f : Act → Bool) (p : List Act) : Prop := ∀ a ∈ p, f a = true

theorem neutral_of_plain {a : Act} (h : plain a = true) : neutral a = true := by
  cases a <;> simp_all [plain, neutral]

/-- The ends of `stop` after the debuggee's queue has been stopped. -/
def Tail (p : List Act) : Prop :=
  p = [.chkLaunch, .chkTerm] ∨ p = [.callLaunch, .chkTerm] ∨ p = [.clearLaunch, .chkTerm] ∨ p = [.chkTerm] ∨
  p = [.write .terminated, .setTerm] ∨ p = [.setTerm]

/-- What the main thread may have left, after neutral actions. `n` is the number of launches whose
terminal request has not been answered. -/
inductive Core (deb alive : Bool) (n : Nat) : Bool → List Act → Prop
  | idle : (n = 0 ∨ n = 1 ∧ deb = true ∧ alive = false) → (deb = false → alive = false) → Core deb alive n false []
  | fin : alive = false → Core deb alive n true []
  | join : deb = true → (n = 0 ∨ n = 1 ∧ alive = false) → Core deb alive n false [.join]
  | stop {ex : Bool} : (ex = false → n = 0) → (deb = false → alive = false) →
      Core deb alive n ex [.stopDeb, .chkLaunch, .chkTerm]
  | stopJ {ex : Bool} : (ex = false → n = 0) → deb = true → Core deb alive n ex [.join, .clearDeb, .chkLaunch, .chkTerm]
  | stopC {ex : Bool} : (ex = false → n = 0) → alive = false → Core deb alive n ex [.clearDeb, .chkLaunch, .chkTerm]
  | tail {ex : Bool} {p : List Act} : (ex = false → n = 0) → alive = false → Tail p → Core deb alive n ex p
  | mkA {p : List Act} : n = 0 → deb = false → alive = false → allP neutral p → Core deb alive n false (.mkDeb :: .connect :: p)
  | mkL {q : Nat} : n = 0 → deb = false → alive = false → Core deb alive n false [.mkDeb, .mkLaunch, .writeRunIn q]
  | conn {p : List Act} : n = 0 → deb = true → alive = false → allP neutral p → Core deb alive n false (.connect :: p)
  | wri {q : Nat} : n = 0 → deb = true → alive = false → Core deb alive n false [.writeRunIn q]
  | reg {r q : Nat} : n = 0 → deb = true → alive = false → Core deb alive n false [.register r q]
  | acc {q : Nat} : n = 0 → deb = true → alive = false → Core deb alive n false [.accept q]

/-- What the main thread may have left. -/
def MSh (deb alive : Bool) (n : Nat) (ex : Bool) (p : List Act) : Prop :=
  ∃ q t, p = q ++ t ∧ allP neutral q ∧ Core deb alive n ex t ∧ (q ≠ [] → .setTerm ∉ t)

/-- What the receive thread may have left in `connection_closed`. -/
def RSh (p : List Act) : Prop := ∃ q t, p = q ++ t ∧ allP plain q ∧ (t = [] ∨ Tail t)

/-- The control invariant. -/
structure Ctl (s : S) : Prop where
  main : ∀ ex b p, s.main = mkMain ex b p → MSh s.debSet s.recv.alive s.runIn.length ex p
  done : ∀ b, s.main = .done b → s.recv.alive = false
  loop : ∀ p, s.recv = .loop p → allP plain p
  closing : ∀ p, s.recv = .closing p → RSh p

theorem allP_app {f : Act → Bool} {p q : List Act} (h1 : allP f p) (h2 : allP f q) : allP f (p ++ q) := by
  intro a ha
  rcases List.mem_append.1 ha with h | h
  · exact h1 a h
  · exact h2 a h

theorem allP_tail {f : Act → Bool} {a : Act} {p : List Act} (h : allP f (a :: p)) : allP f p :=
  fun x hx => h x (List.mem_cons_of_mem _ hx)

theorem allP_nil {f : Act → Bool} : allP f [] := by intro a ha; cases ha

theorem allP_mono {p : List Act} (h : allP plain p) : allP neutral p := fun a ha => neutral_of_plain (h a ha)

theorem plain_send {b : Body} (h : b ≠ .terminated) : allP plain (sendProg b) := by
  intro a ha
  cases b <;> simp [sendProg, Body.answers] at ha <;>
    first
    | (rcases ha with rfl | rfl <;> simp_all [plain])
    | (subst ha; simp_all [plain])
    | skip
  · next m =>
    cases m <;> simp at ha
    · rcases ha with rfl | rfl <;> rfl
    · subst ha; rfl

theorem plain_flat {l : List (Nat × ReqKind)} {f : Nat × ReqKind → Body} (h : ∀ e, f e ≠ .terminated) :
    allP plain (l.flatMap fun e => sendProg (f e)) := by
  intro a ha
  obtain ⟨e, _, he⟩ := List.mem_flatMap.1 ha
  exact plain_send (h e) a he

/-- Plain actions. -/
theorem exec_plain {s s' : S} {a : Act} {more : List Act} (ha : plain a = true) (he : exec s a = .go more s') :
    allP plain more ∧ s'.debSet = s.debSet ∧ s'.recv = s.recv ∧ s'.runIn = s.runIn ∧ s'.main = s.main ∧
    s'.flag = s.flag ∧ s'.launchQ = s.launchQ ∧ s'.cancelled = s.cancelled := by
  cases a <;> simp only [exec] at he <;> first | (simp [plain] at ha; done) | skip
  · cases he; exact ⟨plain_flat (fun _ => by simp), rfl, rfl, rfl, rfl, rfl, rfl, rfl⟩
  · cases he; exact ⟨plain_flat (fun _ => by simp), rfl, rfl, rfl, rfl, rfl, rfl, rfl⟩
  · cases he; exact ⟨allP_nil, rfl, rfl, rfl, rfl, rfl, rfl, rfl⟩
  · cases he; exact ⟨allP_nil, rfl, rfl, rfl, rfl, rfl, rfl, rfl⟩

/-- Neutral actions. -/
theorem exec_neutral {s s' : S} {a : Act} {more : List Act} (ha : neutral a = true) (he : exec s a = .go more s') :
    allP plain more ∧ s'.debSet = s.debSet ∧ s'.recv = s.recv ∧ s'.runIn = s.runIn ∧ s'.main = s.main ∧ s'.flag = s.flag := by
  cases hp : plain a with
  | true =>
    obtain ⟨h1, h2, h3, h4, h5, h6, _⟩ := exec_plain hp he
    exact ⟨h1, h2, h3, h4, h5, h6⟩
  | false =>
    cases a <;> simp only [exec] at he <;> first | (simp [neutral, hp] at ha; done) | skip
    · cases he; exact ⟨allP_nil, rfl, rfl, rfl, rfl, rfl⟩
    · cases hc : s.cut <;> rw [hc] at he <;> cases he
      exact ⟨allP_nil, rfl, rfl, rfl, rfl, rfl⟩
    · cases hc : s.cancelled <;> rw [hc] at he <;> cases he
      exact ⟨allP_nil, rfl, rfl, rfl, rfl, rfl⟩
    · cases he; exact ⟨allP_nil, rfl, rfl, rfl, rfl, rfl⟩
    · cases he; exact ⟨allP_nil, rfl, rfl, rfl, rfl, rfl⟩

theorem exec_main {s s' : S} {a : Act} {more : List Act} (he : exec s a = .go more s') : s'.main = s.main := by
  cases a <;> simp only [exec] at he <;>
    first
    | (cases he; rfl)
    | (cases hc : s.cancelled <;> rw [hc] at he <;> cases he; rfl)
    | (cases hc : s.cut <;> rw [hc] at he <;> cases he; rfl)
    | (cases hc : s.launchQ <;> rw [hc] at he <;> cases he; rfl)
    | (cases hc : s.recv.alive <;> rw [hc] at he <;> cases he; rfl)

theorem core_dead {deb alive : Bool} {n : Nat} {ex : Bool} {p : List Act} (h : Core deb alive n ex p) :
    Core deb false n ex p := by
  cases h with
  | idle h1 h2 => exact .idle (h1.elim .inl fun h => .inr ⟨h.1, h.2.1, rfl⟩) (fun _ => rfl)
  | fin h => exact .fin rfl
  | join h1 h2 => exact .join h1 (h2.elim .inl fun h => .inr ⟨h.1, rfl⟩)
  | stop h1 h2 => exact .stop h1 (fun _ => rfl)
  | stopJ h1 h2 => exact .stopJ h1 h2
  | stopC h1 h2 => exact .stopC h1 rfl
  | tail h1 h2 h3 => exact .tail h1 rfl h3
  | mkA h1 h2 h3 h4 => exact .mkA h1 h2 rfl h4
  | mkL h1 h2 h3 => exact .mkL h1 h2 rfl
  | conn h1 h2 h3 h4 => exact .conn h1 h2 rfl h4
  | wri h1 h2 h3 => exact .wri h1 h2 rfl
  | reg h1 h2 h3 => exact .reg h1 h2 rfl
  | acc h1 h2 h3 => exact .acc h1 h2 rfl

theorem msh_dead {deb alive : Bool} {n : Nat} {ex : Bool} {p : List Act} (h : MSh deb alive n ex p) :
    MSh deb false n ex p := by
  obtain ⟨q, t, h1, h2, h3, h4⟩ := h
  exact ⟨q, t, h1, h2, core_dead h3, h4⟩

theorem msh_core {deb alive : Bool} {n : Nat} {ex : Bool} {p : List Act} (h : Core deb alive n ex p) :
    MSh deb alive n ex p := ⟨[], p, rfl, allP_nil, h, fun h => absurd rfl h⟩

theorem msh_neutral {deb alive : Bool} {n : Nat} {ex : Bool} {q p : List Act} (hq : allP neutral q) (h : MSh deb alive n ex p)
    (hs : .setTerm ∉ p) : MSh deb alive n ex (q ++ p) := by
  obtain ⟨q', t, h1, h2, h3, _⟩ := h
  refine ⟨q ++ q', t, by rw [h1, List.append_assoc], allP_app hq h2, h3, fun _ hm => ?_⟩
  rw [h1] at hs
  exact hs (List.mem_append_right _ hm)

theorem msh_stop {deb alive : Bool} {n : Nat} {ex : Bool} (e : Bool) (h1 : ex = false → n = 0) (h2 : deb = false → alive = false) :
    MSh deb alive n ex (stopProg e false) := by
  have : stopProg e false = (.snapD :: (bif e then [.snapE] else [])) ++ [.stopDeb, .chkLaunch, .chkTerm] := by
    cases e <;> rfl
  rw [this]
  refine msh_neutral ?_ (msh_core (.stop h1 h2)) (by simp)
  intro a ha
  cases e <;> simp at ha
  · subst ha; rfl
  · rcases ha with rfl | rfl <;> rfl

theorem rsh_stop (e : Bool) : RSh (stopProg e true) := by
  refine ⟨.snapD :: (bif e then [.snapE] else []), [.chkLaunch, .chkTerm], by cases e <;> rfl, ?_, .inr (.inl rfl)⟩
  intro a ha
  cases e <;> simp at ha
  · subst ha; rfl
  · rcases ha with rfl | rfl <;> rfl

/-- Is the debuggee gone whenever it is not set? -/
theorem core_deb {deb alive : Bool} {n : Nat} {ex : Bool} {p : List Act} (h : Core deb alive n ex p) :
    deb = false → alive = false := by
  intro hd
  cases h <;> simp_all

theorem tail_exec {s s' : S} {p more rest : List Act} {a : Act} (h : Tail (a :: p)) (he : exec s a = .go more s')
    (e : rest = more ++ p) :
    (rest = [] ∨ Tail rest) ∧ s'.debSet = s.debSet ∧ s'.recv = s.recv ∧ s'.runIn = s.runIn := by
  subst e
  rcases h with h | h | h | h | h | h <;> cases h <;> simp only [exec] at he
  · cases hl : s.launchQ <;> rw [hl] at he <;> cases he <;> refine ⟨.inr ?_, rfl, rfl, rfl⟩ <;> simp [Tail]
  · cases hl : s.launchQ <;> rw [hl] at he <;> cases he
    refine ⟨.inr ?_, rfl, rfl, rfl⟩; simp [Tail]
  · cases he; refine ⟨.inr ?_, rfl, rfl, rfl⟩; simp [Tail]
  · cases hl : s.flag <;> rw [hl] at he <;> cases he <;> refine ⟨?_, rfl, rfl, rfl⟩ <;> simp [Tail]
  · cases he; refine ⟨.inr ?_, rfl, rfl, rfl⟩; simp [Tail]
  · cases he; exact ⟨.inl rfl, rfl, rfl, rfl⟩

/-- Executing an action of the main thread keeps its shape. -/
theorem msh_exec {s s' : S} {ex : Bool} {a : Act} {p more : List Act}
    (h : MSh s.debSet s.recv.alive s.runIn.length ex (a :: p)) (he : exec s a = .go more s') :
    MSh s'.debSet s'.recv.alive s'.runIn.length ex (more ++ p) := by
  obtain ⟨q, t, h1, h2, h3, h4⟩ := h
  cases q with
  | cons b q =>
    rw [List.cons_append] at h1
    cases h1
    obtain ⟨e1, e2, e3, e4, _, _⟩ := exec_neutral (h2 _ List.mem_cons_self) he
    rw [e2, e3, e4, ← List.append_assoc]
    exact ⟨_, t, rfl, allP_app (allP_mono e1) (allP_tail h2), h3, fun _ => h4 (by simp)⟩
  | nil =>
    rw [List.nil_append] at h1
    subst h1
    generalize hdeb : s.debSet = deb at h3
    generalize hal : s.recv.alive = alive at h3
    generalize hn : s.runIn.length = n at h3
    cases h3 with
    | join d1 d2 =>
      simp only [exec, hal] at he
      cases alive <;> cases he
      refine msh_core ?_
      rw [hdeb, hal, hn]
      exact .idle (d2.elim .inl fun h => .inr ⟨h.1, d1, rfl⟩) (fun _ => rfl)
    | stop d1 d2 =>
      simp only [exec, hdeb] at he
      cases hd : deb with
      | true =>
        rw [hd] at he; cases he
        rw [hdeb, hal, hn]
        exact ⟨[.cancel], _, rfl, (by intro a ha; simp at ha; subst ha; rfl), .stopJ d1 hd, by simp⟩
      | false =>
        rw [hd] at he; cases he
        rw [hdeb, hal, hn]
        exact msh_core (.tail d1 (d2 hd) (.inl rfl))
    | stopJ d1 d0 =>
      simp only [exec, hal] at he
      cases alive <;> cases he
      rw [hdeb, hal, hn]
      exact msh_core (.stopC d1 rfl)
    | stopC d1 d2 =>
      simp only [exec] at he
      cases he
      simp only [hal, hn]
      exact msh_core (.tail d1 d2 (.inl rfl))
    | tail d1 d2 d3 =>
      obtain ⟨e1, e2, e3, e4⟩ := tail_exec d3 he rfl
      rw [e2, e3, e4, hdeb, hal, hn]
      rcases e1 with e1 | e1
      · rw [e1]
        refine msh_core ?_
        cases ex with
        | true => exact .fin d2
        | false => exact .idle (.inl (d1 rfl)) (fun _ => d2)
      · exact msh_core (.tail d1 d2 e1)
    | mkA d1 d2 d3 d4 =>
      simp only [exec] at he
      cases he
      simp only [hn]
      exact msh_core (.conn d1 rfl rfl d4)
    | mkL d1 d2 d3 =>
      simp only [exec] at he
      cases he
      simp only [hn]
      exact ⟨[.mkLaunch], _, rfl, (by intro a ha; simp at ha; subst ha; rfl), .wri d1 rfl rfl, by simp⟩
    | conn d1 d2 d3 d4 =>
      simp only [exec] at he
      cases he
      simp only [hn, hdeb]
      have := msh_neutral d4 (msh_core (ex := false) (Core.idle (deb := deb) (alive := true) (n := n) (.inl d1) (fun h => by simp [d2] at h))) (by simp)
      rw [List.append_nil] at this
      exact this
    | wri d1 d2 d3 =>
      simp only [exec] at he
      cases he
      simp only [hn, hdeb, hal]
      exact msh_core (.reg d1 d2 d3)
    | reg d1 d2 d3 =>
      simp only [exec] at he
      cases he
      have hr : s.runIn = [] := by rw [d1] at hn; exact List.length_eq_zero_iff.1 hn
      simp only [hr, Dict.set, List.length_cons, List.length_nil, hdeb, hal]
      exact msh_core (.idle (.inr ⟨rfl, d2, d3⟩) (fun _ => d3))
    | acc d1 d2 d3 =>
      simp only [exec] at he
      cases hc : s.cancelled <;> rw [hc] at he <;> cases he
      simp only [hn, hdeb]
      rw [List.append_nil]
      refine ⟨_, [], (List.append_nil _).symm, ?_, .idle (.inl d1) (fun h => by simp [d2] at h), by simp⟩
      intro a ha
      simp [sendProg, Body.answers] at ha
      rcases ha with rfl | rfl | rfl | rfl <;> rfl

theorem rsh_exec {s s' : S} {a : Act} {p more : List Act} (h : RSh (a :: p)) (he : exec s a = .go more s') :
    RSh (more ++ p) ∧ s'.debSet = s.debSet ∧ s'.recv = s.recv ∧ s'.runIn = s.runIn ∧ s'.main = s.main := by
  obtain ⟨q, t, h1, h2, h3⟩ := h
  cases q with
  | cons b q =>
    rw [List.cons_append] at h1
    cases h1
    obtain ⟨e1, e2, e3, e4, e5, _⟩ := exec_plain (h2 _ List.mem_cons_self) he
    refine ⟨?_, e2, e3, e4, e5⟩
    rw [← List.append_assoc]
    exact ⟨_, t, rfl, allP_app e1 (allP_tail h2), h3⟩
  | nil =>
    rw [List.nil_append] at h1
    subst h1
    rcases h3 with h3 | h3
    · cases h3
    · obtain ⟨e1, e2, e3, e4⟩ := tail_exec h3 he rfl
      exact ⟨⟨[], _, rfl, allP_nil, e1⟩, e2, e3, e4, exec_main he⟩

theorem msh_deb {s : S} {ex : Bool} {p : List Act} (h : MSh s.debSet s.recv.alive s.runIn.length ex p) :
    s.debSet = false → s.recv.alive = false := by
  obtain ⟨q, t, h1, h2, h3, _⟩ := h
  exact core_deb h3

theorem ctl_init : Ctl init := by
  refine ⟨?_, ?_, ?_, ?_⟩
  · intro ex b p h
    cases ex <;> cases h
    exact msh_core (.idle (.inl rfl) (fun _ => rfl))
  · intro b h; cases h
  · intro p h; cases h
  · intro p h; cases h

theorem alive_of_loop {s : S} {p : List Act} (h : s.recv = .loop p) : s.recv.alive = true := by rw [h]; rfl

theorem run_idle {s : S} {c : Bool} (hi : Ctl s) (h : s.main = .run c []) :
    (s.runIn.length = 0 ∨ s.runIn.length = 1 ∧ s.debSet = true ∧ s.recv.alive = false) ∧
    (s.debSet = false → s.recv.alive = false) := by
  obtain ⟨q, t, h1, h2, h3, _⟩ := hi.main false c [] h
  have ht : t = [] := by
    have := congrArg List.length h1
    simp only [List.length_nil, List.length_append] at this
    exact List.length_eq_zero_iff.1 (by omega)
  subst ht
  cases h3 with
  | idle a b => exact ⟨a, b⟩
  | tail _ _ h => rcases h with h | h | h | h | h | h <;> cases h

theorem ctl_thrown {s : S} {ex b : Bool} {p : List Act} (hi : Ctl s) (h : s.main = mkMain ex b p) : Ctl (thrown s ex) := by
  refine ⟨?_, ?_, hi.loop, hi.closing⟩
  · intro ex' b' p' hm
    cases ex with
    | true => cases ex' <;> cases hm
    | false =>
      cases ex' <;> cases hm
      exact msh_stop true (fun h => by cases h) (msh_deb (hi.main false b p h))
  · intro b' hm
    cases ex <;> cases hm

theorem ctl_step {s s' : S} {l : Lbl} (hi : Ctl s) (hs : step s l = some s') : Ctl s' := by
  have h := step_iff s l s' hs
  cases h with
  | @handled s2 c c' m p h hh =>
    obtain ⟨i1, i2⟩ := run_idle hi h
    have key : MSh s2.debSet s2.recv.alive s2.runIn.length false p ∧ s2.recv = s.recv := by
      cases m with
      | bad => cases hh
      | runInResp r =>
        simp only [handle] at hh
        cases hg : Dict.get? s.runIn r with
        | none => rw [hg] at hh; cases hh
        | some q =>
          rw [hg] at hh; cases hh
          rcases i1 with i1 | ⟨i1, i3, i4⟩
          · rw [List.length_eq_zero_iff.1 i1] at hg; cases hg
          · refine ⟨?_, rfl⟩
            simp only
            have hr : (Dict.erase s.runIn r).length = 0 := by
              match hrun : s.runIn with
              | [] => rw [hrun] at hg; cases hg
              | [e] =>
                rw [hrun] at hg
                simp only [Dict.get?] at hg
                split at hg
                · next e => simp [Dict.erase, e]
                · cases hg
              | e :: e' :: r => rw [hrun] at i1; simp at i1
            rw [hr, i3, i4]
            exact msh_core (.acc rfl rfl rfl)
      | req k b =>
        simp only [handle] at hh
        cases hd : s.debSet with
        | true =>
          rw [hd] at hh i1 i2
          have idle : MSh true s.recv.alive s.runIn.length false [] := msh_core (.idle i1 i2)
          cases k <;> simp only [cond_true] at hh <;> cases hh <;> refine ⟨?_, rfl⟩ <;> simp only [hd] <;>
            first
            | exact ⟨[.send _], [], rfl, (by intro a ha; simp at ha; subst ha; rfl), .idle i1 i2, by simp⟩
            | skip
          refine ⟨[.sendQuiet _, .cancel], [.join], rfl, ?_, .join rfl (i1.elim .inl fun h => .inr ⟨h.1, h.2.2⟩), by simp⟩
          intro a ha; simp at ha; rcases ha with rfl | rfl <;> rfl
        | false =>
          rw [hd] at hh i1 i2
          have i3 : s.runIn.length = 0 := by
            rcases i1 with h | h
            · exact h
            · simp at h
          have i4 := i2 rfl
          cases k <;> simp only [cond_false] at hh <;> cases hh <;> refine ⟨?_, rfl⟩ <;> simp only [hd]
          · rw [i3, i4]
            exact ⟨_, [], (List.append_nil _).symm, allP_mono (plain_send (by simp)), .idle (.inl rfl) (fun _ => rfl), by simp⟩
          · rw [i3, i4]
            refine msh_core (.mkA rfl rfl rfl (allP_app (allP_mono (plain_send (by simp))) ?_))
            intro a ha; simp at ha; subst ha; rfl
          · rw [i3, i4]
            exact msh_core (.mkL rfl rfl rfl)
    refine ⟨?_, ?_, ?_, ?_⟩
    · intro ex b p' hm
      cases ex <;> cases hm
      exact key.1
    · intro b hm; cases hm
    · intro p' hp; exact hi.loop p' (key.2 ▸ hp)
    · intro p' hp; exact hi.closing p' (key.2 ▸ hp)
  | @unhandled c m h hh =>
    have hi' : Ctl (received { s with nextIn := s.nextIn + 1 } s.nextIn m) := by
      cases m <;> exact ⟨hi.main, hi.done, hi.loop, hi.closing⟩
    exact ctl_thrown (ex := false) (b := c) (p := []) hi' (by cases m <;> exact h)
  | @badInput c h => exact ctl_thrown (ex := false) (b := c) (p := []) hi h
  | eof h => exact hi
  | leave h =>
    refine ⟨?_, ?_, hi.loop, hi.closing⟩
    · intro ex b p hm
      cases ex <;> cases hm
      exact msh_stop false (fun h => by cases h) (run_idle hi h).2
    · intro b hm; cases hm
  | @mainGo s1 ex b a p more h he =>
    have hm := msh_exec (hi.main ex b (a :: p) h) he
    refine ⟨?_, ?_, ?_, ?_⟩
    · intro ex' b' p' e
      obtain ⟨rfl, rfl, rfl⟩ := mkMain_inj e.symm
      exact hm
    · intro b' e
      cases ex <;> cases e
    · intro p' hp
      have hr : s1.recv = s.recv ∨ s1.recv = .none ∨ s1.recv = .loop [] := by
        cases a <;> simp only [exec] at he <;>
          first
          | (cases he; simp; done)
          | (cases hc : s.cancelled <;> rw [hc] at he <;> cases he <;> simp; done)
          | (cases hc : s.cut <;> rw [hc] at he <;> cases he <;> simp; done)
          | (cases hc : s.launchQ <;> rw [hc] at he <;> cases he <;> simp; done)
          | (cases hc : s.recv.alive <;> rw [hc] at he <;> cases he <;> simp; done)
      have hp' : s1.recv = .loop p' := hp
      rcases hr with hr | hr | hr
      · exact hi.loop p' (hr ▸ hp')
      · rw [hr] at hp'; cases hp'
      · rw [hr] at hp'; cases hp'; exact allP_nil
    · intro p' hp
      have hr : s1.recv = s.recv ∨ s1.recv = .none ∨ s1.recv = .loop [] := by
        cases a <;> simp only [exec] at he <;>
          first
          | (cases he; simp; done)
          | (cases hc : s.cancelled <;> rw [hc] at he <;> cases he <;> simp; done)
          | (cases hc : s.cut <;> rw [hc] at he <;> cases he <;> simp; done)
          | (cases hc : s.launchQ <;> rw [hc] at he <;> cases he <;> simp; done)
          | (cases hc : s.recv.alive <;> rw [hc] at he <;> cases he <;> simp; done)
      have hp' : s1.recv = .closing p' := hp
      rcases hr with hr | hr | hr
      · exact hi.closing p' (hr ▸ hp')
      · rw [hr] at hp'; cases hp'
      · rw [hr] at hp'; cases hp'
  | @mainThrow ex b a p h he => exact ctl_thrown hi h
  | @mainAlt b a p more h he =>
    refine ⟨?_, ?_, hi.loop, hi.closing⟩
    · intro ex' b' p' e
      cases ex' <;> cases e
      obtain ⟨q, t, h1, h2, h3, h4⟩ := hi.main false b (a :: p) h
      cases a <;> simp only [altProg] at he <;> try (cases he; done)
      · next m =>
        cases hc : s.cancelled <;> rw [hc] at he <;> cases he
        cases q with
        | cons a' q =>
          rw [List.cons_append] at h1
          cases h1
          exact ⟨q, t, rfl, allP_tail h2, h3, fun _ => h4 (by simp)⟩
        | nil =>
          rw [List.nil_append] at h1
          subst h1
          cases h3 with
          | tail _ _ h => rcases h with h | h | h | h | h | h <;> cases h
      · next qq =>
        cases he
        cases q with
        | cons a' q =>
          rw [List.cons_append] at h1
          cases h1
          have := h2 (.accept qq) List.mem_cons_self
          cases this
        | nil =>
          rw [List.nil_append] at h1
          subst h1
          generalize hdeb : s.debSet = deb at h3
          generalize hal : s.recv.alive = alive at h3
          generalize hn : s.runIn.length = n at h3
          cases h3 with
          | acc d1 d2 d3 =>
            have := msh_stop (deb := deb) (alive := alive) (n := n) (ex := false) false (fun _ => d1) (fun _ => d3)
            simp only [hdeb, hal, hn, List.append_nil]
            exact this
          | tail _ _ h => rcases h with h | h | h | h | h | h <;> cases h
    · intro b' e; cases e
  | @mainRaise ex b a p h he => exact ctl_thrown hi h
  | @finish b h =>
    refine ⟨?_, ?_, hi.loop, hi.closing⟩
    · intro ex' b' p' e; cases ex' <;> cases e
    · intro b' _
      obtain ⟨q, t, h1, h2, h3, _⟩ := hi.main true b [] h
      have ht : t = [] := by
        have := congrArg List.length h1
        simp only [List.length_nil, List.length_append] at this
        exact List.length_eq_zero_iff.1 (by omega)
      subst ht
      cases h3 with
      | fin h => exact h
      | tail _ h _ => exact h
  | @deb m h hc =>
    refine ⟨?_, ?_, ?_, ?_⟩
    · intro ex b p hm
      have := hi.main ex b p hm
      rw [alive_of_loop h] at this
      exact this
    · intro b hm
      have := hi.done b hm
      rw [alive_of_loop h] at this; cases this
    · intro p hp
      cases hp
      exact plain_send (by simp)
    · intro p hp; cases hp
  | @close e h =>
    refine ⟨?_, ?_, ?_, ?_⟩
    · intro ex b p hm
      have := hi.main ex b p hm
      rw [alive_of_loop h] at this
      exact this
    · intro b hm
      have := hi.done b hm
      rw [alive_of_loop h] at this; cases this
    · intro p hp; cases hp
    · intro p hp; cases hp; exact rsh_stop e
  | @recvGo s1 cl a p more h he =>
    have key : (cl = false → allP plain (more ++ p)) ∧ (cl = true → RSh (more ++ p)) ∧
        s1.debSet = s.debSet ∧ s1.recv = s.recv ∧ s1.runIn = s.runIn ∧ s1.main = s.main := by
      cases cl with
      | false =>
        have hp := hi.loop (a :: p) h
        obtain ⟨e1, e2, e3, e4, e5, _⟩ := exec_plain (hp a List.mem_cons_self) he
        exact ⟨fun _ => allP_app e1 (allP_tail hp), fun h => by simp at h, e2, e3, e4, e5⟩
      | true =>
        obtain ⟨e1, e2, e3, e4, e5⟩ := rsh_exec (hi.closing (a :: p) h) he
        exact ⟨fun h => by simp at h, fun _ => e1, e2, e3, e4, e5⟩
    obtain ⟨k1, k2, k3, k4, k5, k6⟩ := key
    have hal : s.recv.alive = true := by rw [h]; simp
    refine ⟨?_, ?_, ?_, ?_⟩
    · intro ex b p' hm
      have := hi.main ex b p' (k6 ▸ hm)
      rw [hal] at this
      simp only [k3, k5, mkRecv_alive]
      exact this
    · intro b hm
      have := hi.done b (k6 ▸ hm)
      rw [hal] at this; cases this
    · intro p' hp
      cases cl <;> cases hp
      exact k1 rfl
    · intro p' hp
      cases cl <;> cases hp
      exact k2 rfl
  | @recvDie a p h he =>
    exact ⟨fun ex b p' hm => msh_dead (hi.main ex b p' hm), fun _ _ => rfl, (fun p' hp => by cases hp), (fun p' hp => by cases hp)⟩
  | @recvEnd h =>
    exact ⟨fun ex b p' hm => msh_dead (hi.main ex b p' hm), fun _ _ => rfl, (fun p' hp => by cases hp), (fun p' hp => by cases hp)⟩

theorem ctl_reach {s : S} (h : Reach s) : Ctl s := by
  induction h with
  | init => exact ctl_init
  | step _ hs ih => exact ctl_step ih hs

end Verif.Server
