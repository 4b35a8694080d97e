import Verif.Race.Ans
/-! # A request handled while the playbook sleeps comes to an end -/

namespace Verif.Race

/-- How many steps are left at most. -/
def left (s : S) : R → Nat
  | .idle => 0
  | .clear _ => 7 + s.threads.length
  | .copy _ => 6 + s.threads.length
  | .lock (some l) _ => 5 + l.length
  | .lock none _ => 5 + 2 * s.threads.length
  | .each l _ => 4 + l.length
  | .iter it _ => 4 + 2 * (s.threads.length - it.pos)
  | .setOne _ it _ => 5 + 2 * (s.threads.length - it.pos)
  | .notify => 3
  | .unlock _ => 2
  | .frame _ => 20
  | .variable _ n => 4 + 4 * n
  | .addRead _ n _ _ => 7 + 4 * n
  | .addWrite _ _ n _ _ => 6 + 4 * n
  | .addEntry _ _ n _ _ => 5 + 4 * n
  | .addList _ _ n _ _ => 4 + 4 * n
  | .result _ _ => 3
  | .resultVar _ _ => 2
  | .thread t => 3 + 2 * (s.stack t).length
  | .frames t i _ => 2 + 2 * ((s.stack t).length - i)
  | .frameOf t i _ _ => 3 + 2 * ((s.stack t).length - (i + 1))
  | .threads it _ => 2 + (s.threads.length - it.pos)
  | .bpClear _ n => 3 + n
  | .bpAdd n => 2 + n
  | .setExc _ => 2
  | .answer _ => 1

theorem left_next (s : S) (f n : Nat) (got : List Nat) (sc : Bool) : left s (addNext f n got sc) ≤ 3 + 4 * n := by
  cases n with
  | zero => simp only [addNext, added]; split <;> simp [left]
  | succ n => simp only [addNext, left]; omega

set_option maxHeartbeats 2000000 in
/-- Each step brings the end nearer. -/
theorem left_step {fine : Bool} {s s' : S} {o : List Obs} (h : rstep fine s = some (s', o)) : left s' s'.r < left s s.r := by
  unfold rstep at h
  split at h
  case h_1 => cases h
  all_goals rename_i hr
  all_goals rw [hr]
  all_goals (repeat' (split at h))
  all_goals first | (cases h; done) | skip
  all_goals simp only [Option.some.injEq, Prod.mk.injEq] at h
  all_goals obtain ⟨rfl, rfl⟩ := h
  all_goals try (simp [left]; done)
  all_goals try (simp only [left, List.length_cons]; omega)
  all_goals try (
    rename_i hq
    have := (List.getElem?_eq_some_iff.1 hq).1
    simp only [left]
    omega)
  all_goals try (
    refine Nat.lt_of_le_of_lt (left_next _ _ _ _ _) ?_
    simp only [left]
    omega)

set_option maxHeartbeats 2000000 in
/-- The thread that handles requests only ever waits for the lock. -/
theorem rstep_some {fine : Bool} {s : S} (h1 : s.r ≠ .idle) (h2 : ∀ ids st, s.r = .lock ids st → s.lock = none) : ∃ s' o, rstep fine s = some (s', o) := by
  unfold rstep
  split
  all_goals rename_i hr
  all_goals (repeat' split)
  all_goals first
    | exact ⟨_, _, rfl⟩
    | (rename_i hn; exact absurd (h2 _ _ hr) hn)
    | exact absurd hr h1

theorem lock_free {s : S} (hc : Ctl s) (hp : pLocked s.p = false) : ∀ ids st, s.r = .lock ids st → s.lock = none := by
  intro ids st hr
  cases hl : s.lock with
  | none => rfl
  | some b =>
    cases b with
    | true =>
      have := hc.pl.1 hl
      rw [hp] at this
      cases this
    | false =>
      have := hc.rl.1 hl
      rw [hr] at this
      cases this

/-- The request is answered. -/
theorem pend_done : ∀ (n : Nat) (s : S) (a : Ans), left s s.r ≤ n → Pend s a →
    ∃ m s', run false s (List.replicate m .go) = some (s', [.answer a]) ∧ s'.r = .idle
  | 0, s, a, hn, hi => by
    have : s.r = .idle := by
      cases hr : s.r with
      | lock ids st => cases ids <;> (rw [hr] at hn; simp [left] at hn)
      | idle => rfl
      | _ => rw [hr] at hn; simp [left] at hn
    have ho := hi.out
    rw [this] at ho
    cases ho
  | n + 1, s, a, hn, hi => by
    have hr : s.r ≠ .idle := by
      intro e
      have ho := hi.out
      rw [e] at ho
      cases ho
    have hl : ∀ ids st, s.r = .lock ids st → s.lock = none := by
      rcases hi.how with ⟨⟨t, k, hp⟩, _⟩ | hs
      · exact lock_free hi.ctl (by rw [hp]; rfl)
      · intro ids st e
        rw [e] at hs
        cases hs
    obtain ⟨s1, o, h⟩ := rstep_some (fine := false) hr hl
    have hlt := left_step h
    have hc := ctl_step (l := .go) hi.ctl h
    have hd := dat_step (l := .go) hi.dat h
    have key : (s1.r = .idle ∧ o = [.answer a]) ∨ (o = [] ∧ Pend s1 a) := by
      rcases hi.how with ⟨⟨t, k, hp⟩, hs⟩ | hs
      · rcases asleep_step hi.ctl hi.dat hs hp hi.out h with e | ⟨rfl, e2, e3⟩
        · exact .inl e
        · refine .inr ⟨rfl, hc, hd, e2, ?_⟩
          rcases e3 with ⟨e3, e4⟩ | e3
          · exact .inl ⟨⟨t, k, e3⟩, e4⟩
          · exact .inr e3
      · rcases settled_step hs hi.out h with e | ⟨rfl, e2, e3⟩
        · exact .inl e
        · exact .inr ⟨rfl, hc, hd, e2, .inr e3⟩
    rcases key with ⟨e1, rfl⟩ | ⟨rfl, e2⟩
    · exact ⟨1, s1, run_of_cons (l := .go) (ls := []) h rfl, e1⟩
    · obtain ⟨m, s2, h2, h3⟩ := pend_done n s1 a (by omega) e2
      exact ⟨m + 1, s2, run_of_cons (l := .go) (ls := List.replicate m .go) h h2, h3⟩

end Verif.Race
