import Verif.Server.Shapes

/-! # At most one response, if the threads do not overtake each other -/

namespace Verif.Server

/-- Neither thread acts while the other is in the middle of something (the receive thread runs
while the main thread waits for it), the main thread was not killed inside `stop`, and the debuggee
answers only requests it was sent, once. -/
def Orderly (s : S) (l : Lbl) : Prop :=
  s.main ≠ .dead ∧
  match l with
  | .deb (.resp q _) => (s.main.prog = [] ∨ s.main.prog.head? = some .join) ∧
      (∃ k b, .req k q b ∈ s.toDeb) ∧ ∀ b, .resp q b ∉ s.fromDeb
  | .deb (.event _) | .close _ | .recv => s.main.prog = [] ∨ s.main.prog.head? = some .join
  | _ => s.recv.prog = []

/-- The states of orderly runs. -/
inductive OReach : S → Prop
  | init : OReach init
  | step {s s' : S} {l : Lbl} : OReach s → Orderly s l → step s l = some s' → OReach s'

theorem oreach_reach {s : S} (h : OReach s) : Reach s := by
  induction h with
  | init => exact .init
  | step _ _ hs ih => exact .step ih hs

/-- The number of responses to `q`. -/
def ansN (q : Nat) (outs : List Body) : Nat := total (fun b => if b.answers = some q then 1 else 0) outs

def penA (q : Nat) : Act → Nat
  | .write b => if b.answers = some q then 1 else 0
  | _ => 0

/-- The responses to `q`, written or about to be. -/
def allN (q : Nat) (s : S) : Nat := ansN q s.outs + total (penA q) s.main.prog + total (penA q) s.recv.prog

def launchA (q : Nat) : Act → Bool
  | .writeRunIn q' | .register _ q' | .accept q' => q' == q
  | _ => false

/-- Nothing more is received from the debuggee. -/
def Stopped (s : S) : Prop :=
  s.cancelled = true ∨ (∃ p, s.recv = .closing p) ∨ s.recv = .ended ∨ s.main = .dead ∨
  ((∃ e p, s.main = .exiting e p) ∨ ∃ e, s.main = .done e) ∧
    (s.recv.alive = false ∨ .stopDeb ∈ s.main.prog ∨ .cancel ∈ s.main.prog)

def keys (l : List (Nat × ReqKind)) : List Nat := l.map (·.1)

/-! ## Auxiliary facts -/

theorem snap_pen {q : Nat} {f : Nat × ReqKind → Body} (hf : ∀ e, (f e).answers = some e.1) :
    ∀ l : List (Nat × ReqKind), total (penA q) (l.flatMap fun e => sendProg (f e)) = (keys l).count q
  | [] => rfl
  | e :: l => by
    rw [List.flatMap_cons, total_append, snap_pen hf l]
    simp only [sendProg, hf e, keys, List.map_cons, List.count_cons, total_cons, total_nil, penA]
    by_cases h : e.1 = q
    · simp [h]; omega
    · simp [h]

/-- What an action adds to the responses of `q`. -/
def extra (s : S) (q : Nat) : Act → Nat
  | .snapD => (keys (s.incoming.filter (fun e => e.2 == .disconnect))).count q
  | .snapE => (keys s.incoming).count q
  | .accept q0 => if q0 = q then 1 else 0
  | _ => 0

theorem exec_all {q : Nat} {s s' : S} {a : Act} {more : List Act} (he : exec s a = .go more s') :
    ansN q s'.outs + total (penA q) more = ansN q s.outs + penA q a + extra s q a := by
  unfold ansN
  cases a <;> simp only [exec] at he
  · cases he; rw [snap_pen fun _ => rfl]; rfl
  · cases he; rw [snap_pen fun _ => rfl]; rfl
  · next b => cases he; simp [penA, extra]
  · cases he; simp [penA, extra]
  · cases hc : s.debSet <;> rw [hc] at he <;> cases he <;> simp [penA, extra]
  · cases he; simp [penA, extra]
  · cases hc : s.recv.alive <;> rw [hc] at he <;> cases he; simp [penA, extra]
  · cases he; simp [penA, extra]
  · cases hc : s.launchQ <;> rw [hc] at he <;> cases he <;> simp [penA, extra]
  · cases hc : s.launchQ <;> rw [hc] at he <;> cases he; simp [penA, extra]
  · cases he; simp [penA, extra]
  · cases hc : s.flag <;> rw [hc] at he <;> cases he <;> simp [penA, extra, Body.answers]
  · cases he; simp [penA, extra]
  · cases hc : s.cut <;> rw [hc] at he <;> cases he; simp [penA, extra]
  · cases hc : s.cancelled <;> rw [hc] at he <;> cases he; simp [penA, extra]
  · cases he; simp [penA, extra]
  · cases he; simp [penA, extra]
  · cases he; simp [penA, extra]
  · cases he; simp [penA, extra, Body.answers]
  · cases he; simp [penA, extra]
  · cases hc : s.cancelled <;> rw [hc] at he <;> cases he; simp [penA, extra, sendProg, Body.answers]
  · cases he; simp [penA, extra]

theorem mute_pen {q : Nat} {p : List Act} (h : ∀ b ∈ p, mute b = true) : total (penA q) p = 0 := by
  induction p with
  | nil => rfl
  | cons a p ih =>
    have h1 := h a List.mem_cons_self
    rw [total_cons, ih fun b hb => h b (List.mem_cons_of_mem _ hb)]
    cases a <;> first | rfl | cases h1

theorem extra_cases {s : S} {q : Nat} {a : Act} (hn : Nums s) :
    extra s q a = 0 ∨ extra s q a = 1 ∧ ((a = .snapD ∨ a = .snapE) ∧ q ∈ keys s.incoming ∨ a = .accept q) := by
  have cnt : ∀ l : List (Nat × ReqKind), l.Sublist s.incoming →
      (keys l).count q = 0 ∨ (keys l).count q = 1 ∧ q ∈ keys s.incoming := by
    intro l hl
    have hs : (keys l).Sublist (keys s.incoming) := hl.map _
    have h1 : (keys l).count q ≤ 1 := List.nodup_iff_count.1 (hs.nodup hn.incNodup) q
    rcases Nat.eq_zero_or_pos ((keys l).count q) with h | h
    · exact .inl h
    · exact .inr ⟨by omega, hs.subset (List.count_pos_iff.1 h)⟩
  cases a <;> first | exact .inl rfl | skip
  · rcases cnt _ List.filter_sublist with h | ⟨h1, h2⟩
    · exact .inl h
    · exact .inr ⟨h1, .inl ⟨.inl rfl, h2⟩⟩
  · rcases cnt _ (List.Sublist.refl _) with h | ⟨h1, h2⟩
    · exact .inl h
    · exact .inr ⟨h1, .inl ⟨.inr rfl, h2⟩⟩
  · next q0 =>
    by_cases h : q0 = q
    · exact .inr ⟨by simp [extra, h], .inr (by rw [h])⟩
    · exact .inl (by simp [extra, h])

theorem join_shape {deb alive : Bool} {n : Nat} {ex : Bool} {p : List Act} (h : MSh deb alive n ex (.join :: p)) :
    (∀ b ∈ p, mute b = true) ∧ (ex = false → alive = true → n = 0) ∧ .stopDeb ∉ p ∧ .cancel ∉ p := by
  obtain ⟨q', t, h1, h2, h3, h4⟩ := h
  cases q' with
  | cons a q' =>
    rw [List.cons_append] at h1; cases h1
    have := h2 _ List.mem_cons_self
    cases this
  | nil =>
    rw [List.nil_append] at h1
    subst h1
    cases h3 with
    | tail _ _ h => rcases h with h | h | h | h | h | h <;> cases h
    | join h1 h2 =>
      refine ⟨by simp, fun _ ha => ?_, by simp, by simp⟩
      rcases h2 with h2 | h2
      · exact h2
      · rw [h2.2] at ha; cases ha
    | stopJ h1 h2 => exact ⟨by simp [mute], fun h _ => h1 h, by simp, by simp⟩

/-- When the receive thread acts, the main thread has nothing to write and waits for nothing. -/
theorem main_quiet {s : S} (hc : Ctl s) (h : s.main.prog = [] ∨ s.main.prog.head? = some .join) :
    (∀ b ∈ s.main.prog, mute b = true) ∧ (s.recv.alive = true → (∃ c p, s.main = .run c p) → s.runIn = []) ∧
    .stopDeb ∉ s.main.prog ∧ .cancel ∉ s.main.prog := by
  rcases h with h | h
  · refine ⟨by simp [h], ?_, by simp [h], by simp [h]⟩
    rintro ha ⟨c, p, hm⟩
    rw [hm] at h
    simp only [Main.prog] at h
    subst h
    obtain ⟨q', t, h1, h2, h3, h4⟩ := hc.main false c _ hm
    have ht : t = [] := by
      cases t with
      | nil => rfl
      | cons a t => cases q' <;> cases h1
    subst ht
    rw [ha] at h3
    generalize hl : s.runIn.length = n at h3
    cases h3 with
    | idle h5 _ =>
      rcases h5 with h5 | h5
      · exact List.length_eq_zero_iff.1 (hl.trans h5)
      · cases h5.2.2
    | tail _ h _ => cases h
  · cases hm : s.main with
    | run c p =>
      rw [hm] at h
      cases p with
      | nil => cases h
      | cons a p =>
        have : a = .join := by simpa [Main.prog] using h
        subst this
        obtain ⟨h1, h2, h3, h4⟩ := join_shape (hc.main false c _ hm)
        refine ⟨?_, ?_, by simp [Main.prog, h3], by simp [Main.prog, h4]⟩
        · intro b hb
          rcases List.mem_cons.1 hb with rfl | hb
          · rfl
          · exact h1 b hb
        · intro ha _
          exact List.length_eq_zero_iff.1 (h2 rfl ha)
    | exiting c p =>
      rw [hm] at h
      cases p with
      | nil => cases h
      | cons a p =>
        have : a = .join := by simpa [Main.prog] using h
        subst this
        obtain ⟨h1, h2, h3, h4⟩ := join_shape (hc.main true c _ hm)
        refine ⟨?_, ?_, by simp [Main.prog, h3], by simp [Main.prog, h4]⟩
        · intro b hb
          rcases List.mem_cons.1 hb with rfl | hb
          · rfl
          · exact h1 b hb
        · rintro _ ⟨c', p', h⟩; cases h
    | done e => rw [hm] at h; cases h
    | dead => rw [hm] at h; cases h

theorem mute_launch {q : Nat} {p : List Act} (h : ∀ b ∈ p, mute b = true) : ∀ a ∈ p, launchA q a = false := by
  intro a ha
  have := h a ha
  cases a <;> first | rfl | cases this

theorem mute_fwd {p : List Act} (h : ∀ b ∈ p, mute b = true) : ∀ a ∈ p, fwdA a = none := by
  intro a ha
  have := h a ha
  cases a <;> first | rfl | cases this

theorem loop_nosnap_step {s s' : S} {l : Lbl} (h : ∀ p, s.recv = .loop p → ∀ a ∈ p, a ≠ .snapD ∧ a ≠ .snapE)
    (hs : step s l = some s') : ∀ p, s'.recv = .loop p → ∀ a ∈ p, a ≠ .snapD ∧ a ≠ .snapE := by
  have hst := step_iff s l s' hs
  cases hst with
  | @handled s2 c c' m p hm hh =>
    obtain ⟨e1, e2, e3, e4, e5, _⟩ := handle_rec hh
    simp only [e5]; exact h
  | @unhandled c m hm hh => cases m <;> exact h
  | @mainGo s1 ex b a p more hm he =>
    intro p' hp'
    rcases exec_recv he with e | e | e <;> simp only [e] at hp'
    · exact h p' hp'
    · cases hp'
    · cases hp'; simp
  | @deb m h0 _ =>
    intro p' hp'; cases hp'
    cases m <;> simp [sendProg, Body.answers]
  | @close e h0 => intro p' hp'; cases hp'
  | @recvGo s1 cl a p more hm he =>
    intro p' hp'
    cases cl <;> cases hp'
    intro x hx
    rcases List.mem_append.1 hx with hx | hx
    · exact exec_nosnap he x hx
    · exact h _ hm x (List.mem_cons_of_mem _ hx)
  | recvDie _ _ => intro p' hp'; cases hp'
  | recvEnd _ => intro p' hp'; cases hp'
  | _ => exact h

theorem loop_nosnap {s : S} (h : Reach s) : ∀ p, s.recv = .loop p → ∀ a ∈ p, a ≠ .snapD ∧ a ≠ .snapE := by
  induction h with
  | init => intro p hp; cases hp
  | step h0 hs ih => exact loop_nosnap_step ih hs

/-- The weight of a launched request. -/
theorem launched_lt {s : S} (h : Reach s) {q : Nat} (hq : q ∈ s.runIn.map (·.2) ∨ ∃ a ∈ s.main.prog, launchA q a = true) :
    q < s.nextIn ∧ ∀ k b, .req k q b ∉ s.toDeb := by
  have h1 := deal_one h q
  have mem1 : ∀ {α : Type} (f : α → Nat) (l : List α) (a : α), a ∈ l → f a ≤ total f l := by
    intro α f l a ha
    induction l with
    | nil => cases ha
    | cons b l ih =>
      rw [total_cons]
      rcases List.mem_cons.1 ha with rfl | ha
      · omega
      · have := ih ha; omega
  have pos : 1 ≤ total (fun e => (wDeal q).u e.2) s.runIn + total (wDeal q).w s.main.prog := by
    rcases hq with hq | ⟨a, ha, hl⟩
    · obtain ⟨e, he, e2⟩ := List.mem_map.1 hq
      have := mem1 (fun e => (wDeal q).u e.2) s.runIn e he
      simp only [wDeal, e2] at this ⊢
      simp at this ⊢; omega
    · have := mem1 (wDeal q).w s.main.prog a ha
      have h2 : (wDeal q).w a = 1 := by cases a <;> simp [launchA] at hl <;> simp [wDeal, hl]
      omega
  constructor
  · apply Classical.byContradiction
    intro hn
    rw [if_neg hn] at h1
    unfold W.sum at h1; omega
  · intro k b hk
    have := mem1 (wDeal q).x s.toDeb _ hk
    have h2 : (wDeal q).x (.req k q b) = 1 := by simp [wDeal]
    unfold W.sum at h1
    split at h1 <;> omega

/-! ## The invariant -/

structure OInv (s : S) : Prop where
  cnt : ∀ q, allN q s ≤ 1
  inc : ∀ q, 1 ≤ ansN q s.outs → q ∉ keys s.incoming ∨ s.main.prog.head? = some (.pop q) ∨ s.recv.prog.head? = some (.pop q)
  fresh : ∀ q, s.nextIn ≤ q → allN q s = 0
  lau : ∀ c p, s.main = .run c p → ∀ q, (q ∈ s.runIn.map (·.2) ∨ ∃ a ∈ p, launchA q a = true) → allN q s = 0
  fw : ∀ q k b, .req k q b ∈ s.toDeb → (∀ b, .resp q b ∉ s.fromDeb) → allN q s = 0 ∨ Stopped s
  pf : ∀ a ∈ s.main.prog, ∀ q k b, fwdA a = some (q, k, b) → allN q s = 0

theorem msh_exiting {deb alive : Bool} {n : Nat} {a : Act} {p : List Act} (h : MSh deb alive n true (a :: p)) :
    a ≠ .mkDeb ∧ a ≠ .connect ∧ (∀ q, a ≠ .accept q) := by
  obtain ⟨q', t, h1, h2, h3, h4⟩ := h
  cases q' with
  | cons b q' =>
    rw [List.cons_append] at h1; cases h1
    have := h2 _ List.mem_cons_self
    cases a <;> simp [neutral, plain] at this <;> simp
  | nil =>
    rw [List.nil_append] at h1
    subst h1
    generalize hex : true = ex at h3
    cases h3 with
    | tail _ _ h => rcases h with h | h | h | h | h | h <;> cases h <;> simp
    | _ => first | (cases hex; done) | simp

theorem exec_cancelled {s s' : S} {a : Act} {more : List Act} (he : exec s a = .go more s') (ha : a ≠ .mkDeb)
    (h : s.cancelled = true) : s'.cancelled = true := by
  cases a <;> simp only [exec] at he <;>
    first
    | exact absurd rfl ha
    | (cases he; exact h)
    | (cases he; rfl)
    | (cases hc : s.cut <;> rw [hc] at he <;> cases he; exact h)
    | (cases hc : s.launchQ <;> rw [hc] at he <;> cases he; exact h)
    | (cases hc : s.recv.alive <;> rw [hc] at he <;> cases he; exact h)
    | (rw [h] at he; cases he)

theorem exec_recv_same {s s' : S} {a : Act} {more : List Act} (he : exec s a = .go more s')
    (h1 : a ≠ .mkDeb) (h2 : a ≠ .connect) (h3 : ∀ q, a ≠ .accept q) : s'.recv = s.recv := by
  cases a <;> simp only [exec] at he <;>
    first
    | exact absurd rfl h1
    | exact absurd rfl h2
    | exact absurd rfl (h3 _)
    | (cases he; rfl)
    | (cases hc : s.cut <;> rw [hc] at he <;> cases he; rfl)
    | (cases hc : s.launchQ <;> rw [hc] at he <;> cases he; rfl)
    | (cases hc : s.recv.alive <;> rw [hc] at he <;> cases he; rfl)
    | (cases hc : s.cancelled <;> rw [hc] at he <;> cases he; rfl)

/-- In `start()`, the actions that start a debuggee find nothing sent before. -/
theorem start_clean {s : S} (hu : UInv s) {b : Bool} {a : Act} {p : List Act} (hm : s.main = .run b (a :: p))
    (ha : unc a = true) : s.toDeb = [] := (hu _ _ hm (.inr (.inr ⟨a, List.mem_cons_self, ha⟩))).2

theorem stopped_exec {s s' : S} {ex b : Bool} {a : Act} {p more : List Act} (hc : Ctl s) (hu : UInv s)
    (hm : s.main = mkMain ex b (a :: p)) (he : exec s a = .go more s') (h : Stopped s) (hne : s.toDeb ≠ []) :
    Stopped { s' with main := mkMain ex b (more ++ p) } := by
  have hst : a ≠ .mkDeb ∧ a ≠ .connect ∧ (∀ q, a ≠ .accept q) := by
    cases ex with
    | true => exact msh_exiting (hc.main true b _ hm)
    | false =>
      refine ⟨?_, ?_, ?_⟩
      · rintro rfl; exact hne (start_clean hu hm rfl)
      · rintro rfl; exact hne (start_clean hu hm rfl)
      · rintro q rfl; exact hne (start_clean hu hm rfl)
  have hrs := exec_recv_same he hst.1 hst.2.1 hst.2.2
  rcases h with h | h | h | h | ⟨h1, h2⟩
  · exact .inl (exec_cancelled (s' := s') he hst.1 h)
  · right; left; simp only [hrs]; exact h
  · right; right; left; simp only [hrs]; exact h
  · rw [hm] at h; cases ex <;> cases h
  · have hex : ex = true := by
      cases ex with
      | true => rfl
      | false =>
        rw [hm] at h1
        rcases h1 with ⟨e, p', h1⟩ | ⟨e, h1⟩ <;> cases h1
    subst hex
    rcases h2 with h2 | h2 | h2
    · right; right; right; right
      exact ⟨.inl ⟨b, more ++ p, rfl⟩, .inl (by simp only [hrs]; exact h2)⟩
    · rw [hm, mkMain_prog] at h2
      rcases List.mem_cons.1 h2 with rfl | h2
      · simp only [exec] at he
        cases hd : s.debSet with
        | true =>
          rw [hd] at he; cases he
          right; right; right; right
          exact ⟨.inl ⟨b, _, rfl⟩, .inr (.inr (by simp [Main.prog]))⟩
        | false =>
          rw [hd] at he; cases he
          right; right; right; right
          refine ⟨.inl ⟨b, _, rfl⟩, .inl ?_⟩
          obtain ⟨q', t, _, _, h3, _⟩ := hc.main true b _ hm
          exact core_deb h3 hd
      · right; right; right; right
        exact ⟨.inl ⟨b, _, rfl⟩, .inr (.inl (by simp [Main.prog, h2]))⟩
    · rw [hm, mkMain_prog] at h2
      rcases List.mem_cons.1 h2 with rfl | h2
      · left
        simp only [exec] at he; cases he; rfl
      · right; right; right; right
        exact ⟨.inl ⟨b, _, rfl⟩, .inr (.inr (by simp [Main.prog, h2]))⟩

theorem exec_toDeb {s s' : S} {a : Act} {more : List Act} (he : exec s a = .go more s') {m : ToDeb} (h : m ∈ s'.toDeb) :
    m ∈ s.toDeb ∨ a = .send m ∨ a = .sendQuiet m := by
  cases a <;> simp only [exec] at he <;>
    first
    | (cases he; exact .inl h)
    | (cases hc : s.launchQ <;> rw [hc] at he <;> cases he; exact .inl h)
    | (cases hc : s.recv.alive <;> rw [hc] at he <;> cases he; exact .inl h)
    | skip
  · cases hc : s.cut <;> rw [hc] at he <;> cases he
    rcases List.mem_append.1 h with h | h
    · exact .inl h
    · rcases List.mem_singleton.1 h with rfl; exact .inr (.inl rfl)
  · cases hc : s.cancelled <;> rw [hc] at he <;> cases he
    rcases List.mem_append.1 h with h | h
    · exact .inl h
    · cases hr : s.recv == .none <;> rw [hr] at h
      · rcases List.mem_singleton.1 h with rfl; exact .inr (.inr rfl)
      · cases h
  · cases hc : s.cancelled <;> rw [hc] at he <;> cases he; exact .inl h

theorem exec_launched {s s' : S} {a : Act} {more : List Act} (he : exec s a = .go more s') {q : Nat}
    (h : q ∈ s'.runIn.map (·.2) ∨ ∃ x ∈ more, launchA q x = true) :
    q ∈ s.runIn.map (·.2) ∨ launchA q a = true := by
  have flat : ∀ (l : List (Nat × ReqKind)) (f : Nat × ReqKind → Body),
      ∀ x ∈ (l.flatMap fun e => sendProg (f e)), launchA q x = false := by
    intro l f x hx
    obtain ⟨e, _, he⟩ := List.mem_flatMap.1 hx
    unfold sendProg at he
    rcases List.mem_cons.1 he with rfl | he
    · rfl
    · cases h : (f e).answers <;> rw [h] at he
      · cases he
      · rcases List.mem_singleton.1 he with rfl; rfl
  rcases h with h | ⟨x, hx, hl⟩
  · rcases exec_runIn he with e | ⟨r, q', rfl, e⟩
    · rw [e] at h; exact .inl h
    · rw [e] at h
      obtain ⟨⟨r1, q1⟩, he1, e1⟩ := List.mem_map.1 h
      simp only at e1; subst e1
      rcases mem_set he1 with h1 | ⟨_, h1⟩
      · exact .inl (List.mem_map.2 ⟨_, h1, rfl⟩)
      · right; simp [launchA, h1]
  · cases a <;> simp only [exec] at he
    · cases he; rw [flat _ _ x hx] at hl; cases hl
    · cases he; rw [flat _ _ x hx] at hl; cases hl
    · cases he; cases hx
    · cases he; cases hx
    · cases hc : s.debSet <;> rw [hc] at he <;> cases he <;> simp at hx
      rcases hx with rfl | rfl | rfl <;> cases hl
    · cases he; cases hx
    · cases hc : s.recv.alive <;> rw [hc] at he <;> cases he; cases hx
    · cases he; cases hx
    · cases hc : s.launchQ <;> rw [hc] at he <;> cases he <;> simp at hx
      subst hx; cases hl
    · cases hc : s.launchQ <;> rw [hc] at he <;> cases he; simp at hx; subst hx; cases hl
    · cases he; cases hx
    · cases hc : s.flag <;> rw [hc] at he <;> cases he <;> simp at hx
      rcases hx with rfl | rfl <;> cases hl
    · cases he; cases hx
    · cases hc : s.cut <;> rw [hc] at he <;> cases he; cases hx
    · cases hc : s.cancelled <;> rw [hc] at he <;> cases he; cases hx
    · cases he; cases hx
    · cases he; cases hx
    · cases he; cases hx
    · cases he; simp at hx; subst hx; exact .inr hl
    · cases he; cases hx
    · cases hc : s.cancelled <;> rw [hc] at he <;> cases he
      simp [sendProg, Body.answers] at hx
      rcases hx with rfl | rfl | rfl | rfl <;> cases hl
    · cases he; cases hx

/-- Answered by a write, which is followed by forgetting the request. -/
theorem inc_exec {q : Nat} {s s' : S} {a : Act} {p more : List Act} (hp : paired (a :: p)) (he : exec s a = .go more s')
    (h : 1 ≤ ansN q s'.outs) :
    1 ≤ ansN q s.outs ∨ (more ++ p).head? = some (.pop q) := by
  rcases exec_outs he with e | ⟨b, e, hw⟩
  · rw [e] at h; exact .inl h
  · rw [e] at h
    unfold ansN at h ⊢
    rw [total_append] at h
    rcases hw with rfl | ⟨q', rfl, rfl⟩
    · by_cases hb : b.answers = some q
      · right
        simp only [exec] at he
        cases he
        exact hp.1 q hb
      · left
        simp [hb] at h; exact h
    · left
      simp [Body.answers] at h; exact h

theorem erase_keys {l : List (Nat × ReqKind)} {q : Nat} : q ∉ keys (Dict.erase l q) := by
  unfold keys Dict.erase
  intro h
  obtain ⟨e, he, e2⟩ := List.mem_map.1 h
  have := (List.mem_filter.1 he).2
  simp [e2] at this

theorem run_snap_clean {s : S} {b : Bool} {a : Act} {p : List Act} (hc : Ctl s) (hm : s.main = .run b (a :: p))
    (ha : a = .snapD ∨ a = .snapE) (hp : .stopDeb ∈ p) : s.runIn = [] := by
  obtain ⟨q', t, h1, h2, h3, h4⟩ := hc.main false b _ hm
  have hin : .stopDeb ∈ t := by
    have : Act.stopDeb ∈ q' ++ t := by rw [← h1]; exact List.mem_cons_of_mem _ hp
    rcases List.mem_append.1 this with h | h
    · have := h2 _ h; cases this
    · exact h
  apply List.length_eq_zero_iff.1
  generalize s.runIn.length = n at h3
  generalize hex : false = ex at h3
  cases h3 with
  | stop h _ => exact h hex.symm
  | tail h _ _ => exact h hex.symm
  | mkA _ _ _ h =>
    simp at hin
    have := h _ hin; cases this
  | conn _ _ _ h =>
    simp at hin
    have := h _ hin; cases this
  | _ => simp at hin

theorem oinv_mainGo {s s1 : S} {ex b : Bool} {a : Act} {p more : List Act} (hr : Reach s) (h : OInv s)
    (hm : s.main = mkMain ex b (a :: p)) (he : exec s a = .go more s1) (hrp : s.recv.prog = []) :
    OInv { s1 with main := mkMain ex b (more ++ p) } := by
  have hc := ctl_reach hr
  have hn := nums_reach hr
  have hu := uinv_reach hr
  have hsh := sh_reach hr
  have hpm := hsh.pm
  have htm := hsh.tm
  rw [hm, mkMain_prog] at hpm htm
  have hmsh := hc.main ex b _ hm
  have hrp1 : s1.recv.prog = [] := by
    rcases exec_recv he with e | e | e <;> rw [e]
    · exact hrp
    · rfl
    · rfl
  have hA : ∀ q, allN q s = ansN q s.outs + (penA q a + total (penA q) p) := by
    intro q; simp [allN, hm, hrp]
  have hA' : ∀ q, allN q { s1 with main := mkMain ex b (more ++ p) } = allN q s + extra s q a := by
    intro q
    have := exec_all (q := q) he
    rw [hA]
    simp only [allN, hrp1, mkMain_prog, total_append, total_nil]; omega
  have hlau : ∀ q, ex = false → (q ∈ s.runIn.map (·.2) ∨ ∃ x ∈ a :: p, launchA q x = true) → allN q s = 0 := by
    intro q hex hq
    subst hex
    exact h.lau b _ hm q hq
  have snapfacts : (a = .snapD ∨ a = .snapE) → (∀ x ∈ p, mute x = true) ∧ .stopDeb ∈ p := fun ha => htm.1 ha
  -- an increase happens only if there was nothing before
  have key : ∀ q, extra s q a = 0 ∨ (extra s q a = 1 ∧ allN q s = 0 ∧
      ((a = .snapD ∨ a = .snapE) ∧ q ∈ keys s.incoming ∨ a = .accept q)) := by
    intro q
    rcases extra_cases (q := q) (a := a) hn with h0 | ⟨h0, h1⟩
    · exact .inl h0
    · right
      refine ⟨h0, ?_, h1⟩
      rcases h1 with ⟨h1, h2⟩ | rfl
      · have hmt := (snapfacts h1).1
        have hz : ansN q s.outs = 0 := by
          apply Classical.byContradiction
          intro hne
          rcases h.inc q (by omega) with h3 | h3 | h3
          · exact h3 h2
          · rw [hm, mkMain_prog] at h3
            rcases h1 with rfl | rfl <;> cases h3
          · rw [hrp] at h3; cases h3
        rw [hA, hz, mute_pen hmt]
        rcases h1 with rfl | rfl <;> rfl
      · obtain ⟨_, _, _, _, hex⟩ := msh_acc hmsh
        exact hlau q hex (.inr ⟨_, List.mem_cons_self, by simp [launchA]⟩)
  refine ⟨?_, ?_, ?_, ?_, ?_, ?_⟩
  · intro q
    rw [hA']
    rcases key q with h0 | ⟨h0, h1, _⟩
    · rw [h0]; exact h.cnt q
    · omega
  · intro q hq
    rcases inc_exec hpm he hq with h1 | h1
    · rcases h.inc q h1 with h2 | h2 | h2
      · left
        intro hk
        exact h2 (((exec_sub he).1.map _).subset hk)
      · rw [hm, mkMain_prog] at h2
        have : a = .pop q := by simpa using h2
        subst this
        left
        simp only [exec] at he
        cases he
        exact erase_keys
      · rw [hrp] at h2; cases h2
    · right; left; rw [mkMain_prog]; exact h1
  · intro q hq
    simp only [(exec_sub he).2.2] at hq
    rw [hA']
    have h1 := h.fresh q hq
    rcases key q with h0 | ⟨h0, _, h2⟩
    · omega
    · exfalso
      rcases h2 with ⟨_, h2⟩ | rfl
      · obtain ⟨e, he1, e2⟩ := List.mem_map.1 h2
        have := (hn.inc e he1).1
        rw [e2] at this; omega
      · have := (launched_lt hr (q := q) (.inr ⟨.accept q, by rw [hm, mkMain_prog]; exact List.mem_cons_self, by simp [launchA]⟩)).1
        omega
  · intro c p' hp' q hq
    cases ex <;> cases hp'
    rw [hA']
    have hq' : q ∈ s.runIn.map (·.2) ∨ ∃ x ∈ a :: p, launchA q x = true := by
      rcases hq with hq | ⟨x, hx, hl⟩
      · rcases exec_launched he (.inl hq) with h1 | h1
        · exact .inl h1
        · exact .inr ⟨a, List.mem_cons_self, h1⟩
      · rcases List.mem_append.1 hx with hx | hx
        · rcases exec_launched he (.inr ⟨x, hx, hl⟩) with h1 | h1
          · exact .inl h1
          · exact .inr ⟨a, List.mem_cons_self, h1⟩
        · exact .inr ⟨x, List.mem_cons_of_mem _ hx, hl⟩
    have h1 := hlau q rfl hq'
    rcases key q with h0 | ⟨h0, _, h2⟩
    · omega
    · exfalso
      rcases h2 with ⟨h2, _⟩ | rfl
      · obtain ⟨k1, k2⟩ := snapfacts h2
        have hnil := run_snap_clean hc hm h2 k2
        rcases hq' with hq' | ⟨x, hx, hl⟩
        · rw [hnil] at hq'; cases hq'
        · rcases List.mem_cons.1 hx with rfl | hx
          · rcases h2 with rfl | rfl <;> cases hl
          · rw [mute_launch k1 x hx] at hl; cases hl
      · obtain ⟨hpn, hn0, _, _, _⟩ := msh_acc hmsh
        subst hpn
        have hnil : s.runIn = [] := List.length_eq_zero_iff.1 hn0
        have hr1 : s1.runIn = s.runIn := by
          rcases exec_runIn he with e | ⟨r, q', e, _⟩
          · exact e
          · cases e
        rcases hq with hq | ⟨x, hx, hl⟩
        · simp only [hr1, hnil] at hq; cases hq
        · simp only [exec] at he
          cases hcc : s.cancelled <;> rw [hcc] at he <;> cases he
          simp [sendProg, Body.answers] at hx
          rcases hx with rfl | rfl | rfl | rfl <;> cases hl
  · intro q k b' hq hf
    simp only [exec_fromDeb he] at hf
    rw [hA']
    rcases exec_toDeb he hq with h1 | h1
    · have hne : s.toDeb ≠ [] := by intro e; rw [e] at h1; cases h1
      rcases h.fw q k b' h1 hf with h2 | h2
      · rcases key q with h0 | ⟨h0, _, h3⟩
        · left; omega
        · right
          rcases h3 with ⟨h3, _⟩ | rfl
          · obtain ⟨k1, k2⟩ := snapfacts h3
            cases ex with
            | false => exact absurd (hu _ _ hm (.inr (.inr ⟨_, List.mem_cons_of_mem _ k2, rfl⟩))).2 hne
            | true =>
              right; right; right; right
              refine ⟨.inl ⟨b, _, rfl⟩, .inr (.inl ?_)⟩
              rw [mkMain_prog]; exact List.mem_append_right _ k2
          · obtain ⟨_, _, _, _, hex⟩ := msh_acc hmsh
            subst hex
            exact absurd (start_clean hu hm rfl) hne
      · exact .inr (stopped_exec hc hu hm he h2 hne)
    · left
      have hpf : allN q s = 0 := by
        rcases h1 with rfl | rfl
        · exact h.pf _ (by rw [hm, mkMain_prog]; exact List.mem_cons_self) q k b' rfl
        · exact h.pf _ (by rw [hm, mkMain_prog]; exact List.mem_cons_self) q k b' rfl
      rw [hpf]
      rcases h1 with rfl | rfl <;> rfl
  · intro x hx q k b' hf
    rw [mkMain_prog] at hx
    rw [hA']
    rcases List.mem_append.1 hx with hx | hx
    · rw [(exec_fwd he).2 x hx] at hf; cases hf
    · have h1 := h.pf x (by rw [hm, mkMain_prog]; exact List.mem_cons_of_mem _ hx) q k b' hf
      rcases key q with h0 | ⟨h0, _, h2⟩
      · omega
      · exfalso
        rcases h2 with ⟨h2, _⟩ | rfl
        · rw [mute_fwd (snapfacts h2).1 x hx] at hf; cases hf
        · obtain ⟨hpn, _⟩ := msh_acc hmsh
          subst hpn; cases hx

theorem oinv_recvGo {s s1 : S} {cl : Bool} {a : Act} {p more : List Act} (hr : Reach s) (h : OInv s)
    (hm : s.recv = mkRecv cl (a :: p)) (he : exec s a = .go more s1)
    (hq0 : s.main.prog = [] ∨ s.main.prog.head? = some .join) :
    OInv { s1 with recv := mkRecv cl (more ++ p) } := by
  have hc := ctl_reach hr
  have hn := nums_reach hr
  have hsh := sh_reach hr
  have hpr := hsh.pr
  have htr := hsh.tr
  have hok := recvOk_reach hr
  rw [hm, mkRecv_prog] at hpr htr hok
  have ha := hok a List.mem_cons_self
  have halive : s.recv.alive = true := by rw [hm, mkRecv_alive]
  obtain ⟨m1, m2, m3, m4⟩ := main_quiet hc hq0
  have hmain := exec_main he
  have hA : ∀ q, allN q s = ansN q s.outs + (penA q a + total (penA q) p) := by
    intro q; simp [allN, hm, mute_pen m1]
  have hA' : ∀ q, allN q { s1 with recv := mkRecv cl (more ++ p) } = allN q s + extra s q a := by
    intro q
    have := exec_all (q := q) he
    rw [hA]
    simp only [allN, hmain, mkRecv_prog, total_append, mute_pen m1]; omega
  have key : ∀ q, extra s q a = 0 ∨ (extra s q a = 1 ∧ allN q s = 0 ∧ (a = .snapD ∨ a = .snapE) ∧ q ∈ keys s.incoming) := by
    intro q
    rcases extra_cases (q := q) (a := a) hn with h0 | ⟨h0, h1⟩
    · exact .inl h0
    · right
      rcases h1 with ⟨h1, h2⟩ | rfl
      · refine ⟨h0, ?_, h1, h2⟩
        have hmt := (htr.1 h1).1
        have hz : ansN q s.outs = 0 := by
          apply Classical.byContradiction
          intro hne
          rcases h.inc q (by omega) with h3 | h3 | h3
          · exact h3 h2
          · rcases hq0 with e | e
            · rw [e] at h3; cases h3
            · rw [e] at h3; cases h3
          · rw [hm, mkRecv_prog] at h3
            rcases h1 with rfl | rfl <;> cases h3
        rw [hA, hz, mute_pen hmt]
        rcases h1 with rfl | rfl <;> rfl
      · cases ha
  have hrun : s1.runIn = s.runIn := by
    rcases exec_runIn he with e | ⟨r, q', rfl, _⟩
    · exact e
    · cases ha
  refine ⟨?_, ?_, ?_, ?_, ?_, ?_⟩
  · intro q
    rw [hA']
    rcases key q with h0 | ⟨h0, h1, _⟩
    · rw [h0]; exact h.cnt q
    · omega
  · intro q hq
    rcases inc_exec hpr he hq with h1 | h1
    · rcases h.inc q h1 with h2 | h2 | h2
      · left
        intro hk
        exact h2 (((exec_sub he).1.map _).subset hk)
      · right; left; simp only [hmain]; exact h2
      · rw [hm, mkRecv_prog] at h2
        have : a = .pop q := by simpa using h2
        subst this
        left
        simp only [exec] at he
        cases he
        exact erase_keys
    · right; right; rw [mkRecv_prog]; exact h1
  · intro q hq
    simp only [(exec_sub he).2.2] at hq
    rw [hA']
    have h1 := h.fresh q hq
    rcases key q with h0 | ⟨h0, _, _, h2⟩
    · omega
    · exfalso
      obtain ⟨e, he1, e2⟩ := List.mem_map.1 h2
      have := (hn.inc e he1).1
      rw [e2] at this; omega
  · intro c p' hp' q hq
    simp only [hmain] at hp'
    exfalso
    rcases hq with hq | ⟨x, hx, hl⟩
    · simp only [hrun, m2 halive ⟨c, p', hp'⟩] at hq; cases hq
    · rw [hp'] at m1
      rw [mute_launch m1 x hx] at hl; cases hl
  · intro q k b' hq hf
    simp only [exec_fromDeb he] at hf
    rw [hA']
    have h1 : .req k q b' ∈ s.toDeb := by
      rcases exec_toDeb he hq with h1 | rfl | rfl
      · exact h1
      · cases ha
      · cases ha
    rcases h.fw q k b' h1 hf with h2 | h2
    · rcases key q with h0 | ⟨h0, _, h3, _⟩
      · left; omega
      · right
        cases cl with
        | true => right; left; exact ⟨_, rfl⟩
        | false =>
          have := loop_nosnap hr _ hm a List.mem_cons_self
          rcases h3 with h3 | h3
          · exact absurd h3 this.1
          · exact absurd h3 this.2
    · right
      rcases h2 with h2 | h2 | h2 | h2 | ⟨h2, h3⟩
      · have hne : a ≠ .mkDeb := by rintro rfl; cases ha
        exact .inl (exec_cancelled (s' := s1) he hne h2)
      · right; left
        cases cl with
        | true => exact ⟨_, rfl⟩
        | false => obtain ⟨p', h2⟩ := h2; rw [hm] at h2; cases h2
      · rw [hm] at h2; cases cl <;> cases h2
      · right; right; right; left; simp only [hmain]; exact h2
      · exfalso
        rcases h3 with h3 | h3 | h3
        · rw [halive] at h3; cases h3
        · exact m3 h3
        · exact m4 h3
  · intro x hx q k b' hf
    simp only [hmain] at hx
    rw [mute_fwd m1 x hx] at hf; cases hf

/-- An exception. -/
theorem oinv_thrown {s : S} {ex b : Bool} {p : List Act} (h : OInv s) (hm : s.main = mkMain ex b p)
    (hh : ∀ q, p.head? ≠ some (.pop q)) : OInv (thrown s ex) := by
  have hle : ∀ q, allN q (thrown s ex) ≤ allN q s := by
    intro q
    have : total (penA q) (thrown s ex).main.prog = 0 := by cases ex <;> rfl
    have e1 : (thrown s ex).outs = s.outs := rfl
    have e2 : (thrown s ex).recv = s.recv := rfl
    simp only [allN, this, e1, e2]; omega
  refine ⟨fun q => Nat.le_trans (hle q) (h.cnt q), ?_, ?_, ?_, ?_, ?_⟩
  · intro q hq
    rcases h.inc q hq with h1 | h1 | h1
    · exact .inl h1
    · rw [hm, mkMain_prog] at h1; exact absurd h1 (hh q)
    · exact .inr (.inr h1)
  · intro q hq
    have := h.fresh q hq
    have := hle q
    omega
  · intro c p' hp'; cases ex <;> cases hp'
  · intro q k b' hq hf
    right
    cases ex with
    | true => right; right; right; left; rfl
    | false =>
      right; right; right; right
      exact ⟨.inl ⟨_, _, rfl⟩, .inr (.inl (by simp [thrown, Main.prog, stopProg]))⟩
  · intro x hx q k b' hf
    cases ex with
    | true => cases hx
    | false => rw [stop_fwdA true false x hx] at hf; cases hf

theorem oinv_received {s : S} {m : CMsg} (hn : Nums s) (h : OInv s) :
    OInv (received { s with nextIn := s.nextIn + 1 } s.nextIn m) := by
  have hfresh : ∀ e ∈ s.incoming, e.1 ≠ s.nextIn := fun e he => Nat.ne_of_lt (hn.inc e he).1
  cases m with
  | req k b =>
    refine ⟨h.cnt, ?_, fun q hq => h.fresh q (Nat.le_of_succ_le hq), h.lau, h.fw, h.pf⟩
    intro q hq
    rcases h.inc q hq with h1 | h1
    · left
      simp only [received, set_mem hfresh, keys, List.map_append]
      intro hk
      rcases List.mem_append.1 hk with hk | hk
      · exact h1 hk
      · simp at hk
        subst hk
        have := h.fresh s.nextIn (Nat.le_refl _)
        simp only [allN] at this
        have hq' : 1 ≤ ansN s.nextIn s.outs := hq
        omega
    · exact .inr h1
  | runInResp r => exact ⟨h.cnt, h.inc, fun q hq => h.fresh q (Nat.le_of_succ_le hq), h.lau, h.fw, h.pf⟩
  | bad => exact ⟨h.cnt, h.inc, fun q hq => h.fresh q (Nat.le_of_succ_le hq), h.lau, h.fw, h.pf⟩

theorem raise_head {s : S} {a : Act} (h : exec s a = .raise ∨ canRaise a = true) : ∀ q, a ≠ .pop q := by
  rintro q rfl
  rcases h with h | h
  · cases h
  · cases h

theorem oinv_step {s s' : S} {l : Lbl} (hr : Reach s) (h : OInv s) (ho : Orderly s l) (hs : step s l = some s') : OInv s' := by
  have hc := ctl_reach hr
  have hn := nums_reach hr
  have hst := step_iff s l s' hs
  cases hst with
  | @handled s2 c c' m p hm hh =>
    have hrp : s.recv.prog = [] := by have := ho.2; exact this
    obtain ⟨e1, e2, e3, e4, e5, e6, e7, e8, e9, _⟩ := handle_rec hh
    have hr0 := oinv_received (m := m) hn h
    have hA : ∀ q, allN q s = ansN q s.outs := by intro q; simp [allN, hm, hrp, Main.prog]
    have hA' : ∀ q, allN q { s2 with main := .run c' p } = ansN q s.outs + total (penA q) p := by
      intro q; simp [allN, Main.prog, e4, e5, hrp]
    have hlt : ∀ k q b, .req k q b ∈ s.toDeb → q < s.nextIn := by
      intro k q b hq
      have h1 := (finv_reach hr).sub
      have : (q, k, b) ∈ fwd s.toDeb := List.mem_filterMap.2 ⟨_, hq, rfl⟩
      exact hn.reqs _ (h1.subset (List.mem_append_left _ this))
    have hf0 := h.fresh s.nextIn (Nat.le_refl _)
    have hpen : ∀ q, total (penA q) p = 0 ∨ total (penA q) p = 1 ∧ q = s.nextIn := by
      intro q
      cases m with
      | bad => cases hh
      | runInResp r =>
        simp only [handle] at hh
        cases hg : Dict.get? s.runIn r <;> rw [hg] at hh <;> cases hh
        left; rfl
      | req k b =>
        obtain ⟨rfl, _⟩ := handle_prog hh
        simp only
        cases s.debSet <;> cases k <;> simp [reqProg, penA, sendProg, Body.answers]
        · exact Decidable.or_iff_not_imp_left.2 fun h => by
            have : s.nextIn = q := Classical.byContradiction h
            exact ⟨this, this.symm⟩
        · exact Decidable.or_iff_not_imp_left.2 fun h => by
            have : s.nextIn = q := Classical.byContradiction h
            exact ⟨this, this.symm⟩
    have hsame : ∀ q, q ≠ s.nextIn → allN q { s2 with main := .run c' p } = allN q s := by
      intro q hq
      rw [hA', hA]
      rcases hpen q with h1 | ⟨_, h1⟩
      · omega
      · exact absurd h1 hq
    refine ⟨?_, ?_, ?_, ?_, ?_, ?_⟩
    · intro q
      by_cases hq : q = s.nextIn
      · rw [hA', hq]
        rw [hA] at hf0
        rcases hpen s.nextIn with h1 | ⟨h1, _⟩ <;> omega
      · rw [hsame q hq]; exact h.cnt q
    · intro q hq
      simp only [e4] at hq
      left
      simp only [e1]
      have hmr : ∀ m : CMsg, (received { s with nextIn := s.nextIn + 1 } s.nextIn m).outs = s.outs ∧
          (received { s with nextIn := s.nextIn + 1 } s.nextIn m).main = s.main ∧
          (received { s with nextIn := s.nextIn + 1 } s.nextIn m).recv = s.recv := by
        intro m; cases m <;> exact ⟨rfl, rfl, rfl⟩
      rcases hr0.inc q (by rw [(hmr m).1]; exact hq) with h1 | h1 | h1
      · exact h1
      · rw [(hmr m).2.1, hm] at h1; cases h1
      · rw [(hmr m).2.2, hrp] at h1; cases h1
    · intro q hq
      simp only [e3] at hq
      have hne : q ≠ s.nextIn := by intro e; rw [e] at hq; exact absurd hq (Nat.not_succ_le_self _)
      rw [hsame q hne]
      exact h.fresh q (Nat.le_of_succ_le hq)
    · intro c1 p1 hp1 q hq
      cases hp1
      cases m with
      | bad => cases hh
      | runInResp r =>
        simp only [handle] at hh
        cases hg : Dict.get? s.runIn r with
        | none => rw [hg] at hh; cases hh
        | some q0 =>
        rw [hg] at hh; cases hh
        have hin : q ∈ s.runIn.map (·.2) := by
          rcases hq with hq | ⟨x, hx, hl⟩
          · obtain ⟨e, he, e2⟩ := List.mem_map.1 hq
            exact List.mem_map.2 ⟨e, (List.mem_filter.1 he).1, e2⟩
          · rcases List.mem_singleton.1 hx with rfl
            have : q0 = q := by simpa [launchA] using hl
            exact List.mem_map.2 ⟨_, DL.mem_of_get hg, this⟩
        have h1 := h.lau _ _ hm q (.inl hin)
        rw [hA', ← hA, h1]; rfl
      | req k b =>
        obtain ⟨hp, hrun⟩ := handle_prog hh
        rcases hq with hq | ⟨x, hx, hl⟩
        · simp only [hrun] at hq
          have hlt := (launched_lt hr (q := q) (.inl hq)).1
          rw [hsame q (Nat.ne_of_lt hlt)]
          exact h.lau _ _ hm q (.inl hq)
        · have hk : q = s.nextIn ∧ ∀ q, total (penA q) p = 0 := by
            rw [hp] at hx ⊢
            generalize s.debSet = d at hx ⊢
            cases d <;> cases k <;> simp [reqProg, sendProg, Body.answers] at hx ⊢ <;>
              first
              | (rcases hx with rfl | rfl | rfl <;> simp [launchA] at hl; exact ⟨hl.symm, fun _ => ⟨rfl, rfl, rfl⟩⟩)
              | (rcases hx with rfl | rfl | rfl | rfl | rfl <;> simp [launchA] at hl; done)
              | (rcases hx with rfl | rfl | rfl <;> simp [launchA] at hl; done)
              | (rcases hx with rfl | rfl <;> simp [launchA] at hl; done)
              | (subst hx; simp [launchA] at hl; done)
          rw [hA', hk.1, hk.2]
          rw [hA] at hf0; omega
    · intro q k b hq hf
      simp only [e6] at hq
      simp only [e7] at hf
      rw [hsame q (Nat.ne_of_lt (hlt k q b hq))]
      rcases h.fw q k b hq hf with h1 | h1
      · exact .inl h1
      · right
        rcases h1 with h1 | h1 | h1 | h1 | ⟨h1, _⟩
        · exact .inl (by simp only [e9]; exact h1)
        · right; left; simp only [e5]; exact h1
        · right; right; left; simp only [e5]; exact h1
        · rw [hm] at h1; cases h1
        · rw [hm] at h1
          rcases h1 with ⟨_, _, h1⟩ | ⟨_, h1⟩ <;> cases h1
    · intro x hx q k b hf
      cases m with
      | bad => cases hh
      | runInResp r =>
        simp only [handle] at hh
        cases hg : Dict.get? s.runIn r <;> rw [hg] at hh <;> cases hh
        rcases List.mem_singleton.1 hx with rfl
        cases hf
      | req k' b' =>
        obtain ⟨hp, _⟩ := handle_prog hh
        have hk : q = s.nextIn ∧ ∀ q, total (penA q) p = 0 := by
          simp only [Main.prog] at hx
          rw [hp] at hx ⊢
          generalize s.debSet = d at hx ⊢
          cases d <;> cases k' <;> simp [reqProg, sendProg, Body.answers] at hx ⊢ <;>
            first
            | (rcases hx with rfl | rfl | rfl | rfl | rfl <;> cases hf; done)
            | (rcases hx with rfl | rfl | rfl <;> cases hf; exact ⟨rfl, fun _ => ⟨rfl, rfl, rfl⟩⟩)
            | (rcases hx with rfl | rfl | rfl <;> cases hf; done)
            | (rcases hx with rfl | rfl <;> cases hf; done)
            | (subst hx; cases hf; exact ⟨rfl, fun _ => rfl⟩)
        rw [hA', hk.1, hk.2]
        rw [hA] at hf0; omega
  | @unhandled c m hm hh =>
    have hr0 := oinv_received (m := m) hn h
    refine oinv_thrown (ex := false) (b := c) (p := []) hr0 ?_ (by simp)
    cases m <;> exact hm
  | @badInput c h0 => exact oinv_thrown (ex := false) (b := c) (p := []) h h0 (by simp)
  | eof _ => exact h
  | leave h0 =>
    have hA' : ∀ q, allN q { s with main := .exiting false (stopProg false false) } = allN q s := by
      intro q; simp [allN, h0, Main.prog, stopProg, penA]
    refine ⟨fun q => by rw [hA']; exact h.cnt q, ?_, fun q hq => by rw [hA']; exact h.fresh q hq, ?_, ?_, ?_⟩
    · intro q hq
      rcases h.inc q hq with h1 | h1 | h1
      · exact .inl h1
      · rw [h0] at h1; cases h1
      · exact .inr (.inr h1)
    · intro c p hp; cases hp
    · intro q k b hq hf
      right; right; right; right; right
      exact ⟨.inl ⟨_, _, rfl⟩, .inr (.inl (by simp [Main.prog, stopProg]))⟩
    · intro x hx q k b hf
      rw [stop_fwdA false false x hx] at hf; cases hf
  | @mainGo s1 ex b a p more hm he => exact oinv_mainGo hr h hm he ho.2
  | @mainThrow ex b a p hm he =>
    exact oinv_thrown h hm fun q e => raise_head (.inl he) q (by simpa using e)
  | @mainAlt b a p more hm he =>
    have key : (∀ q, total (penA q) (more ++ p) = total (penA q) (a :: p)) ∧ (∀ q, a ≠ .pop q) ∧
        (∀ q x, x ∈ more ++ p → launchA q x = true → x ∈ a :: p) ∧ (∀ x ∈ more ++ p, fwdA x ≠ none → x ∈ a :: p) := by
      cases a <;> simp only [altProg] at he <;> try (cases he; done)
      · cases hcc : s.cancelled <;> rw [hcc] at he <;> cases he
        exact ⟨fun q => by simp [penA], by simp, fun q x hx _ => List.mem_cons_of_mem _ hx, fun x hx _ => List.mem_cons_of_mem _ hx⟩
      · cases he
        refine ⟨fun q => by simp [penA, stopProg], by simp, ?_, ?_⟩
        · intro q x hx hl
          rcases List.mem_append.1 hx with hx | hx
          · simp [stopProg] at hx
            rcases hx with rfl | rfl | rfl | rfl <;> cases hl
          · exact List.mem_cons_of_mem _ hx
        · intro x hx hf
          rcases List.mem_append.1 hx with hx | hx
          · exact absurd (stop_fwdA false false x hx) hf
          · exact List.mem_cons_of_mem _ hx
    obtain ⟨k1, k2, k3, k4⟩ := key
    have hA' : ∀ q, allN q { s with main := .run b (more ++ p) } = allN q s := by
      intro q
      have := k1 q
      simp only [allN, hm, Main.prog, this]
    refine ⟨fun q => by rw [hA']; exact h.cnt q, ?_, fun q hq => by rw [hA']; exact h.fresh q hq, ?_, ?_, ?_⟩
    · intro q hq
      rcases h.inc q hq with h1 | h1 | h1
      · exact .inl h1
      · rw [hm] at h1
        exact absurd (by simpa [Main.prog] using h1) (k2 q)
      · exact .inr (.inr h1)
    · intro c1 p1 hp1 q hq
      cases hp1
      rw [hA']
      refine h.lau _ _ hm q (hq.imp id ?_)
      rintro ⟨x, hx, hl⟩
      exact ⟨x, k3 q x hx hl, hl⟩
    · intro q k b' hq hf
      rw [hA']
      rcases h.fw q k b' hq hf with h1 | h1
      · exact .inl h1
      · right
        rcases h1 with h1 | h1 | h1 | h1 | ⟨h1, _⟩
        · exact .inl h1
        · exact .inr (.inl h1)
        · exact .inr (.inr (.inl h1))
        · rw [hm] at h1; cases h1
        · rw [hm] at h1
          rcases h1 with ⟨_, _, h1⟩ | ⟨_, h1⟩ <;> cases h1
    · intro x hx q k b' hf
      rw [hA']
      refine h.pf x ?_ q k b' hf
      rw [hm]
      exact k4 x hx (by rw [hf]; simp)
  | @mainRaise ex b a p hm he =>
    exact oinv_thrown h hm fun q e => raise_head (s := s) (.inr he) q (by simpa using e)
  | @finish b h0 =>
    have hA' : ∀ q, allN q { s with main := .done b } = allN q s := by
      intro q; simp [allN, h0, Main.prog]
    refine ⟨fun q => by rw [hA']; exact h.cnt q, ?_, fun q hq => by rw [hA']; exact h.fresh q hq, ?_, ?_, ?_⟩
    · intro q hq
      rcases h.inc q hq with h1 | h1 | h1
      · exact .inl h1
      · rw [h0] at h1; cases h1
      · exact .inr (.inr h1)
    · intro c p hp; cases hp
    · intro q k b' hq hf
      right; right; right; right; right
      refine ⟨.inr ⟨_, rfl⟩, .inl ?_⟩
      have := (ctl_reach (.step hr hs)).done b rfl
      exact this
    · intro x hx; cases hx
  | @deb m h0 hcan =>
    have hq0 : s.main.prog = [] ∨ s.main.prog.head? = some .join := by
      have := ho.2
      cases m with
      | resp q b => exact this.1
      | event b => exact this
    obtain ⟨m1, m2, m3, m4⟩ := main_quiet hc hq0
    have hal : s.recv.alive = true := by rw [h0]; rfl
    have hns : ¬ Stopped s := by
      rintro (h1 | ⟨p, h1⟩ | h1 | h1 | ⟨h1, h2⟩)
      · rw [hcan] at h1; cases h1
      · rw [h0] at h1; cases h1
      · rw [h0] at h1; cases h1
      · exact ho.1 h1
      · rcases h2 with h2 | h2 | h2
        · rw [hal] at h2; cases h2
        · exact m3 h2
        · exact m4 h2
    have hA : ∀ q, allN q s = ansN q s.outs := by intro q; simp [allN, h0, Recv.prog, mute_pen m1]
    have hA' : ∀ q, allN q { s with recv := .loop (sendProg (.relay m)), fromDeb := s.fromDeb ++ [m] } =
        allN q s + total (penA q) (sendProg (.relay m)) := by
      intro q; rw [hA]; simp [allN, Recv.prog, mute_pen m1]
    have hg : ∀ q, total (penA q) (sendProg (.relay m)) = 0 ∨
        total (penA q) (sendProg (.relay m)) = 1 ∧ allN q s = 0 ∧ q < s.nextIn ∧ ∃ b, m = .resp q b := by
      intro q
      cases m with
      | event b => left; rfl
      | resp q' b =>
        by_cases hq : q' = q
        · subst hq
          right
          obtain ⟨_, ⟨k, b', hin⟩, hno⟩ := ho.2
          refine ⟨by simp [sendProg, Body.answers, penA], ?_, ?_, b, rfl⟩
          · rcases h.fw _ k b' hin hno with h1 | h1
            · exact h1
            · exact absurd h1 hns
          · have h1 := (finv_reach hr).sub
            have : (q', k, b') ∈ fwd s.toDeb := List.mem_filterMap.2 ⟨_, hin, rfl⟩
            exact hn.reqs _ (h1.subset (List.mem_append_left _ this))
        · left; simp [sendProg, Body.answers, penA, hq]
    refine ⟨?_, ?_, ?_, ?_, ?_, ?_⟩
    · intro q
      rw [hA']
      have := h.cnt q
      rcases hg q with h1 | ⟨h1, h2, _⟩ <;> omega
    · intro q hq
      rcases h.inc q hq with h1 | h1 | h1
      · exact .inl h1
      · rcases hq0 with e | e
        · rw [e] at h1; cases h1
        · rw [e] at h1; cases h1
      · rw [h0] at h1; cases h1
    · intro q hq
      rw [hA']
      have := h.fresh q hq
      rcases hg q with h1 | ⟨_, _, h2, _⟩
      · omega
      · exact absurd hq (Nat.not_le_of_lt h2)
    · intro c p hp q hq
      exfalso
      have hp' : s.main = .run c p := hp
      rcases hq with hq | ⟨x, hx, hl⟩
      · simp only [m2 hal ⟨c, p, hp'⟩] at hq; cases hq
      · rw [hp'] at m1
        rw [mute_launch m1 x hx] at hl; cases hl
    · intro q k b hq hf
      rw [hA']
      rcases hg q with h1 | ⟨_, _, _, b', rfl⟩
      · rcases h.fw q k b hq (fun b' hb => hf b' (List.mem_append_left _ hb)) with h2 | h2
        · left; omega
        · exact absurd h2 hns
      · exact absurd (List.mem_append_right _ List.mem_cons_self) (hf b')
    · intro x hx q k b hf
      rw [mute_fwd m1 x hx] at hf; cases hf
  | @close e h0 =>
    have hA' : ∀ q, allN q { s with recv := .closing (stopProg e true) } = allN q s := by
      intro q
      cases e <;> simp [allN, h0, Recv.prog, stopProg, penA]
    refine ⟨fun q => by rw [hA']; exact h.cnt q, ?_, fun q hq => by rw [hA']; exact h.fresh q hq,
      fun c p hp q hq => by rw [hA']; exact h.lau c p hp q hq, fun q k b hq hf => .inr (.inr (.inl ⟨_, rfl⟩)),
      fun x hx q k b hf => by rw [hA']; exact h.pf x hx q k b hf⟩
    intro q hq
    rcases h.inc q hq with h1 | h1 | h1
    · exact .inl h1
    · exact .inr (.inl h1)
    · rw [h0] at h1; cases h1
  | @recvGo s1 cl a p more hm he => exact oinv_recvGo hr h hm he ho.2
  | @recvDie a p h0 he =>
    have hle : ∀ q, allN q { s with recv := .ended } ≤ allN q s := by
      intro q; simp [allN, Recv.prog]
    refine ⟨fun q => Nat.le_trans (hle q) (h.cnt q), ?_, ?_, ?_, fun q k b hq hf => .inr (.inr (.inr (.inl rfl))), ?_⟩
    · intro q hq
      rcases h.inc q hq with h1 | h1 | h1
      · exact .inl h1
      · exact .inr (.inl h1)
      · rw [h0] at h1
        exact absurd (by simpa [Recv.prog] using h1) (raise_head (.inl he) q)
    · intro q hq; have := h.fresh q hq; have := hle q; omega
    · intro c p hp q hq; have := h.lau c p hp q hq; have := hle q; omega
    · intro x hx q k b hf; have := h.pf x hx q k b hf; have := hle q; omega
  | recvEnd h0 =>
    have hle : ∀ q, allN q { s with recv := .ended } ≤ allN q s := by
      intro q; simp [allN, Recv.prog]
    refine ⟨fun q => Nat.le_trans (hle q) (h.cnt q), ?_, ?_, ?_, fun q k b hq hf => .inr (.inr (.inr (.inl rfl))), ?_⟩
    · intro q hq
      rcases h.inc q hq with h1 | h1 | h1
      · exact .inl h1
      · exact .inr (.inl h1)
      · rw [h0] at h1; cases h1
    · intro q hq; have := h.fresh q hq; have := hle q; omega
    · intro c p hp q hq; have := h.lau c p hp q hq; have := hle q; omega
    · intro x hx q k b hf; have := h.pf x hx q k b hf; have := hle q; omega

theorem oinv_reach {s : S} (h : OReach s) : OInv s := by
  induction h with
  | init =>
    refine ⟨fun q => Nat.zero_le _, fun q hq => absurd hq (by simp [init, ansN]), fun q _ => rfl, fun _ _ _ q _ => rfl,
      fun q k b h => (by cases h), fun x hx => (by cases hx)⟩
  | step h0 ho hs ih => exact oinv_step (oreach_reach h0) ih ho hs

end Verif.Server
