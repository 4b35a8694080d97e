import Verif.Race.Wake
/-! # Disconnecting at any moment -/

namespace Verif.Race

/-- The playbook is on no way to a stop. -/
def calmP : P → Bool
  | .bpsIter _ it => it.size = 0
  | .decide _ found => found = false
  | .emit _ _ => false
  | .frameE _ _ => false
  | .addRead _ _ _ => false
  | .addWrite _ _ _ _ => false
  | .addEntry _ _ _ _ => false
  | .addList _ _ _ _ => false
  | .setResult _ _ _ _ => false
  | _ => true

/-- Nothing left to stop at. -/
def OffSh (s : S) : Prop := s.exc = false ∧ s.bpLen = 0

/-- No thread steps. -/
def NoStep (s : S) : Prop := ∀ t ∈ s.threads, s.state t ≠ .step

/-- The stages of a disconnect. -/
def OffPh (s : S) : Prop :=
  match s.r with
  | .clear st => st ≠ .step ∧ s.exc = false
  | .copy st => st ≠ .step ∧ OffSh s
  | .lock (some l) st => st ≠ .step ∧ OffSh s ∧ ∀ t ∈ s.threads, t ∈ l ∨ s.state t ≠ .step
  | .each l st => st ≠ .step ∧ OffSh s ∧ ∀ t ∈ s.threads, t ∈ l ∨ s.state t ≠ .step
  | .notify => OffSh s ∧ NoStep s
  | .unlock (.ok _) => OffSh s ∧ NoStep s
  | .answer (.ok _) => OffSh s ∧ NoStep s ∧ calmP s.p = true
  | .unlock (.error _) => True
  | .answer (.error _) => True
  | _ => False

/-- Disconnected. -/
def Off (s : S) : Prop := s.r = .idle ∧ OffSh s ∧ NoStep s ∧ calmP s.p = true

theorem calm_unlocked {p : P} (h : pLocked p = false) : calmP p = true := by
  cases p <;> simp_all [pLocked, calmP]

set_option maxHeartbeats 2000000 in
/-- What the playbook leaves as it is. -/
theorem pstep_off {fine b : Bool} {s s' : S} {o : List Obs} (hc : Ctl s) (h : pstep fine s b = some (s', o)) :
    s'.exc = s.exc ∧ s'.bpLen = s.bpLen ∧ (∀ t ∈ s'.threads, t ∈ s.threads ∨ s'.state t ≠ .step) ∧
    (∀ t, s'.state t = .step → s.state t = .step) := by
  unfold pstep at h
  split at h
  case h_1 => cases h
  all_goals rename_i hr
  all_goals (repeat' (split at h))
  all_goals first | (cases h; done) | skip
  all_goals simp only [Option.some.injEq, Prod.mk.injEq] at h
  all_goals obtain ⟨rfl, rfl⟩ := h
  all_goals refine ⟨rfl, rfl, ?_, ?_⟩
  all_goals try (intro t h; first | exact .inl h | exact h)
  all_goals try (simp [leave, raiseIn]; done)
  all_goals try (
    intro t h
    simp only [upd] at h
    split at h
    · cases h
    · exact h)
  all_goals try (intro t h; simp_all; done)
  · intro t h
    rcases List.mem_append.1 h with h | h
    · exact .inl h
    · simp only [List.mem_singleton] at h
      subst h
      refine .inr ?_
      simp only [hc.fresh s.nextT (Nat.le_refl _)]
      simp

set_option maxHeartbeats 2000000 in
theorem calm_step {fine b : Bool} {s s' : S} {o : List Obs} (hc : Ctl s) (ho : OffSh s) (hn : NoStep s) (hp : calmP s.p = true)
    (h : pstep fine s b = some (s', o)) : calmP s'.p = true ∧ stops o = [] := by
  have ht := hc.tp
  obtain ⟨ho1, ho2⟩ := ho
  unfold pstep at h
  split at h
  case h_1 => cases h
  all_goals rename_i hr
  all_goals rw [hr] at hp ht
  all_goals (repeat' (split at h))
  all_goals first | (cases h; done) | skip
  all_goals simp only [Option.some.injEq, Prod.mk.injEq] at h
  all_goals obtain ⟨rfl, rfl⟩ := h
  all_goals first
    | (cases hp; done)
    | exact ⟨rfl, rfl⟩
    | (refine ⟨?_, rfl⟩; simp_all [calmP, leave, raiseIn]; done)
    | skip
  · exfalso
    rename_i t found _ hq
    have := hn t (ht t rfl).1
    simp only [calmP, decide_eq_true_eq] at hp
    simp [this, hp] at hq

theorem off_call {fine : Bool} {s s' : S} {o : List Obs} {l : Lbl} (hq : quiet l = true) (hg : l ≠ .go) (hl : ∀ b, l ≠ .play b)
    (h : step fine s l = some (s', o)) : s'.exc = s.exc ∧ s'.bpLen = s.bpLen ∧ s'.threads = s.threads ∧ s'.state = s.state ∧ calmP s'.p = true ∧ stops o = [] := by
  cases l with
  | play b => exact absurd rfl (hl b)
  | go => exact absurd rfl hg
  | req q => cases hq
  | _ =>
    simp only [step] at h
    (repeat' (split at h))
    all_goals first | (cases h; done) | skip
    all_goals simp only [Option.some.injEq, Prod.mk.injEq] at h
    all_goals obtain ⟨rfl, rfl⟩ := h
    all_goals exact ⟨rfl, rfl, rfl, rfl, rfl, rfl⟩

/-- Steps of the playbook and calls of Ansible, together. -/
theorem other_off {fine : Bool} {s s' : S} {o : List Obs} {l : Lbl} (hc : Ctl s) (hq : quiet l = true) (hg : l ≠ .go) (h : step fine s l = some (s', o)) :
    s'.r = s.r ∧ answers o = [] ∧ s'.exc = s.exc ∧ s'.bpLen = s.bpLen ∧ (∀ t ∈ s'.threads, t ∈ s.threads ∨ s'.state t ≠ .step) ∧
    (∀ t, s'.state t = .step → s.state t = .step) ∧ (OffSh s → NoStep s → calmP s.p = true → calmP s'.p = true ∧ stops o = []) := by
  obtain ⟨h1, h2⟩ := step_r hq hg h
  by_cases e : ∃ b, l = .play b
  · obtain ⟨b, rfl⟩ := e
    obtain ⟨a1, a2, a3, a4⟩ := pstep_off hc h
    exact ⟨h1, h2, a1, a2, a3, a4, fun x y z => calm_step hc x y z h⟩
  · obtain ⟨a1, a2, a3, a4, a5, a6⟩ := off_call hq hg (fun b hb => e ⟨b, hb⟩) h
    exact ⟨h1, h2, a1, a2, fun t ht => .inl (by rw [← a3]; exact ht), fun t ht => by rw [← a4]; exact ht, fun _ _ _ => ⟨a5, a6⟩⟩

theorem off_step {fine : Bool} {s s' : S} {o : List Obs} {l : Lbl} (hc : Ctl s) (hi : Off s) (hq : quiet l = true) (h : step fine s l = some (s', o)) :
    Off s' ∧ stops o = [] := by
  obtain ⟨i1, i2, i3, i4⟩ := hi
  have hg : l ≠ .go := by
    rintro rfl
    simp [step, rstep, i1] at h
  obtain ⟨a1, _, a3, a4, a5, a6, a7⟩ := other_off hc hq hg h
  obtain ⟨b1, b2⟩ := a7 i2 i3 i4
  refine ⟨⟨a1.trans i1, ⟨a3.trans i2.1, a4.trans i2.2⟩, ?_, b1⟩, b2⟩
  intro t ht
  rcases a5 t ht with x | x
  · exact fun e => i3 t x (a6 t e)
  · exact x

theorem off_run {fine : Bool} : ∀ (ls : List Lbl) (s s' : S) (O : List Obs), Ctl s → Off s → (∀ l ∈ ls, quiet l = true) → run fine s ls = some (s', O) → stops O = []
  | [], s, s', O, hc, hi, _, h => by
    simp only [run, Option.some.injEq, Prod.mk.injEq] at h
    obtain ⟨rfl, rfl⟩ := h
    rfl
  | l :: ls, s, s', O, hc, hi, hq, h => by
    obtain ⟨s1, o, O', h1, h2, rfl⟩ := run_cons h
    obtain ⟨a, b⟩ := off_step hc hi (hq l (by simp)) h1
    rw [stops_append, b, off_run ls s1 s' O' (ctl_step hc h1) a (fun l hl => hq l (by simp [hl])) h2]
    rfl

set_option maxHeartbeats 2000000 in
theorem offph_go {fine : Bool} {s s' : S} {o : List Obs} (hc : Ctl s) (hi : OffPh s) (h : rstep fine s = some (s', o)) :
    (answers o = [] ∧ OffPh s') ∨ (∃ ids, answers o = [.ok ids] ∧ Off s') ∨ ∃ e, answers o = [.error e] ∧ s'.r = .idle := by
  have hrl := hc.rl
  have hpl := hc.pl
  unfold OffPh at hi
  unfold rstep at h
  split at h
  case h_1 => cases h
  all_goals rename_i hr
  all_goals rw [hr] at hi hrl
  all_goals try simp only at hi
  all_goals (repeat' (split at h))
  all_goals first | (cases h; done) | skip
  all_goals simp only [Option.some.injEq, Prod.mk.injEq] at h
  all_goals obtain ⟨rfl, rfl⟩ := h
  all_goals first
    | (exact hi.elim; done)
    | (refine .inl ⟨rfl, ?_⟩; simp_all [OffPh, OffSh, NoStep, rLocked]; done)
    | (refine .inl ⟨rfl, ?_⟩; simp only [OffPh, OffSh, NoStep] at *; grind [upd])
    | skip
  · rename_i a
    cases a with
    | error e => exact .inl ⟨rfl, trivial⟩
    | ok ids =>
      refine .inl ⟨rfl, hi.1, hi.2, ?_⟩
      have hl : s.lock = some false := hrl.2 rfl
      refine calm_unlocked ?_
      cases hp : pLocked s.p with
      | false => rfl
      | true =>
        have := hpl.2 hp
        rw [hl] at this
        cases this
  · rename_i a
    cases a with
    | error e => exact .inr (.inr ⟨e, rfl, rfl⟩)
    | ok ids => exact .inr (.inl ⟨ids, rfl, rfl, hi⟩)

theorem offph_step {fine : Bool} {s s' : S} {o : List Obs} {l : Lbl} (hc : Ctl s) (hi : OffPh s) (hq : quiet l = true) (h : step fine s l = some (s', o)) :
    (answers o = [] ∧ OffPh s') ∨ (∃ ids, answers o = [.ok ids] ∧ Off s') ∨ ∃ e, answers o = [.error e] ∧ s'.r = .idle := by
  by_cases hg : l = .go
  · subst hg
    exact offph_go hc hi h
  · obtain ⟨a1, a2, a3, a4, a5, a6, a7⟩ := other_off hc hq hg h
    refine .inl ⟨a2, ?_⟩
    have hO : OffSh s → OffSh s' := fun x => ⟨a3.trans x.1, a4.trans x.2⟩
    have hN : NoStep s → NoStep s' := by
      intro x t ht
      rcases a5 t ht with y | y
      · exact fun e => x t y (a6 t e)
      · exact y
    have hL : ∀ l : List Nat, (∀ t ∈ s.threads, t ∈ l ∨ s.state t ≠ .step) → ∀ t ∈ s'.threads, t ∈ l ∨ s'.state t ≠ .step := by
      intro l x t ht
      rcases a5 t ht with y | y
      · rcases x t y with z | z
        · exact .inl z
        · exact .inr fun e => z (a6 t e)
      · exact .inr y
    unfold OffPh at hi ⊢
    rw [a1]
    split at hi
    all_goals rename_i hr
    all_goals try rw [hr]
    all_goals try simp only
    · exact ⟨hi.1, a3.trans hi.2⟩
    · exact ⟨hi.1, hO hi.2⟩
    · exact ⟨hi.1, hO hi.2.1, hL _ hi.2.2⟩
    · exact ⟨hi.1, hO hi.2.1, hL _ hi.2.2⟩
    · exact ⟨hO hi.1, hN hi.2⟩
    · exact ⟨hO hi.1, hN hi.2⟩
    · exact ⟨hO hi.1, hN hi.2.1, (a7 hi.1 hi.2.1 hi.2.2).1⟩
    · exact hi.elim

theorem offph_run {fine : Bool} : ∀ (ls : List Lbl) (s s' : S) (O : List Obs), Ctl s → OffPh s → (∀ l ∈ ls, quiet l = true) → run fine s ls = some (s', O) →
    (answers O = [] ∧ OffPh s') ∨ (∃ ids, answers O = [.ok ids] ∧ Off s') ∨ ∃ e, answers O = [.error e] ∧ s'.r = .idle
  | [], s, s', O, hc, hi, _, h => by
    simp only [run, Option.some.injEq, Prod.mk.injEq] at h
    obtain ⟨rfl, rfl⟩ := h
    exact .inl ⟨rfl, hi⟩
  | l :: ls, s, s', O, hc, hi, hq, h => by
    obtain ⟨s1, o, O', h1, h2, rfl⟩ := run_cons h
    have hc1 := ctl_step hc h1
    have hq' : ∀ l ∈ ls, quiet l = true := fun l hl => hq l (by simp [hl])
    rw [answers_append]
    rcases offph_step hc hi (hq l (by simp)) h1 with ⟨e, a⟩ | ⟨ids, e, a⟩ | ⟨x, e, a⟩
    · rw [e]
      exact offph_run ls s1 s' O' hc1 a hq' h2
    · refine .inr (.inl ⟨ids, ?_, ?_⟩)
      · rw [e, (idle_run ls s1 s' O' a.1 hq' h2).2]; rfl
      · exact off_keep ls s1 s' O' hc1 a hq' h2
    · refine .inr (.inr ⟨x, ?_, ?_⟩)
      · rw [e, (idle_run ls s1 s' O' a hq' h2).2]; rfl
      · exact (idle_run ls s1 s' O' a hq' h2).1
where
  off_keep {fine : Bool} : ∀ (ls : List Lbl) (s s' : S) (O : List Obs), Ctl s → Off s → (∀ l ∈ ls, quiet l = true) → run fine s ls = some (s', O) → Off s'
  | [], s, s', O, hc, hi, _, h => by
    simp only [run, Option.some.injEq, Prod.mk.injEq] at h
    obtain ⟨rfl, rfl⟩ := h
    exact hi
  | l :: ls, s, s', O, hc, hi, hq, h => by
    obtain ⟨s1, o, O', h1, h2, rfl⟩ := run_cons h
    exact off_keep ls s1 s' O' (ctl_step hc h1) (off_step hc hi (hq l (by simp)) h1).1 (fun l hl => hq l (by simp [hl])) h2

/-! ## The exception filter -/

/-- The exception filter once the request being handled is done. -/
def nextExc (s : S) : Bool :=
  match s.r with
  | .setExc on => on
  | _ => s.exc

theorem addNext_exc (s : S) (f n : Nat) (got : List Nat) (sc : Bool) : nextExc { s with r := addNext f n got sc } = s.exc := by
  cases n <;> cases sc <;> rfl

set_option maxHeartbeats 2000000 in
theorem exc_rstep {fine : Bool} {s s' : S} {o : List Obs} (h : rstep fine s = some (s', o)) : nextExc s' = nextExc s := by
  unfold rstep at h
  split at h
  case h_1 => cases h
  all_goals rename_i hr
  all_goals (repeat' (split at h))
  all_goals first | (cases h; done) | skip
  all_goals simp only [Option.some.injEq, Prod.mk.injEq] at h
  all_goals obtain ⟨rfl, rfl⟩ := h
  all_goals first
    | (simp only [nextExc, hr]; done)
    | (refine (addNext_exc _ _ _ _ _).trans ?_; simp only [nextExc, hr]; done)
    | (simp only [nextExc, hr]; split <;> simp_all; done)
    | skip

theorem exc_step {fine : Bool} {s s' : S} {o : List Obs} {l : Lbl} (hc : Ctl s) (h : step fine s l = some (s', o)) :
    nextExc s' = filterSet (nextExc s) [l] := by
  by_cases hg : l = .go
  · subst hg; exact exc_rstep h
  · by_cases hq : quiet l = true
    · obtain ⟨a1, _, a3, _⟩ := other_off hc hq hg h
      have : filterSet (nextExc s) [l] = nextExc s := by
        cases l <;> first | rfl | cases hq
      rw [this]
      simp only [nextExc, a1, a3]
    · cases l with
      | req q =>
        simp only [step] at h
        split at h
        · rename_i hi
          simp only [Option.some.injEq, Prod.mk.injEq] at h
          obtain ⟨rfl, rfl⟩ := h
          cases q <;> simp [nextExc, filterSet, startReq, hi]
        · cases h
      | _ => exact absurd rfl hq

theorem filterSet_cons (b : Bool) (l : Lbl) (ls : List Lbl) : filterSet b (l :: ls) = filterSet (filterSet b [l]) ls := by
  cases l with
  | req q => cases q <;> rfl
  | _ => rfl

theorem exc_run {fine : Bool} : ∀ (ls : List Lbl) (s s' : S) (O : List Obs), Ctl s → run fine s ls = some (s', O) → nextExc s' = filterSet (nextExc s) ls
  | [], s, s', O, hc, h => by
    simp only [run, Option.some.injEq, Prod.mk.injEq] at h
    obtain ⟨rfl, rfl⟩ := h
    rfl
  | l :: ls, s, s', O, hc, h => by
    obtain ⟨s1, o, O', h1, h2, rfl⟩ := run_cons h
    rw [exc_run ls s1 s' O' (ctl_step hc h1) h2, exc_step hc h1, ← filterSet_cons]

/-- No filter is set if the last setExceptionBreakpoints request, now done, set none. -/
theorem exc_off {fine : Bool} {ls : List Lbl} {s : S} {O : List Obs} (h : run fine {} ls = some (s, O)) (hf : filterSet false ls = false) (hi : s.r = .idle) :
    s.exc = false := by
  have := exc_run ls {} s O (reach_ctl (fine := fine) ⟨[], [], rfl⟩) h
  rw [show nextExc {} = false from rfl, hf] at this
  simpa only [nextExc, hi] using this

end Verif.Race
