import Verif.Race.Done
/-! # References handed out at any moment -/

namespace Verif.Race

/-- New references, in order. -/
def New (lo hi : Nat) (l : List Nat) : Prop := l.Pairwise (· < ·) ∧ ∀ v ∈ l, lo ≤ v ∧ v < hi

theorem new_nil (lo hi : Nat) : New lo hi [] := ⟨.nil, by simp⟩

theorem new_mono {lo hi hi' : Nat} {l : List Nat} (h : New lo hi l) (hh : hi ≤ hi') : New lo hi' l :=
  ⟨h.1, fun v hv => ⟨(h.2 v hv).1, by have := (h.2 v hv).2; omega⟩⟩

theorem new_snoc {lo hi : Nat} {l : List Nat} (h : New lo hi l) (hh : lo ≤ hi) : New lo (hi + 1) (l ++ [hi]) := by
  refine ⟨List.pairwise_append.2 ⟨h.1, List.pairwise_singleton _ _, ?_⟩, ?_⟩
  · intro a ha b hb
    simp only [List.mem_singleton] at hb
    subst hb
    exact (h.2 a ha).2
  · intro v hv
    rcases List.mem_append.1 hv with hv | hv
    · have := h.2 v hv
      omega
    · simp only [List.mem_singleton] at hv
      omega

/-- What a request has got so far; `m` is how many it wants, `sc` whether it is a scopes request. -/
def Got (lo m : Nat) (sc : Bool) (s : S) : Prop :=
  lo ≤ s.nextV ∧
  match s.r with
  | .frame _ => sc = true ∧ m = 4
  | .variable _ n => sc = false ∧ n = m
  | .addRead _ n got sc' => sc' = sc ∧ New lo s.nextV got ∧ got.length + n + 1 = m
  | .addEntry _ v n got sc' => sc' = sc ∧ New lo s.nextV (got ++ [v]) ∧ got.length + n + 1 = m
  | .addList _ v n got sc' => sc' = sc ∧ New lo s.nextV (got ++ [v]) ∧ got.length + n + 1 = m
  | .result _ got => sc = true ∧ New lo s.nextV got ∧ got.length = m
  | .resultVar _ got => sc = true ∧ New lo s.nextV got ∧ got.length = m
  | .answer (.ok ids) => ∃ res got, ids = res ++ got ∧ res.length ≤ (if sc = true then 1 else 0) ∧ New lo s.nextV got ∧ got.length = m
  | .answer (.error e) => e = .key
  | _ => False

theorem got_next {lo m f n : Nat} {sc : Bool} {got : List Nat} {s : S} (h1 : lo ≤ s.nextV) (hn : New lo s.nextV got) (hm : got.length + n = m)
    (hr : s.r = addNext f n got sc) : Got lo m sc s := by
  refine ⟨h1, ?_⟩
  rw [hr]
  cases n with
  | zero =>
    cases sc with
    | true => exact ⟨rfl, hn, hm⟩
    | false => exact ⟨[], got, rfl, by simp, hn, hm⟩
  | succ n => exact ⟨rfl, hn, by omega⟩

set_option maxHeartbeats 2000000 in
theorem got_go {lo m : Nat} {sc : Bool} {s s' : S} {o : List Obs} (hi : Got lo m sc s) (h : rstep false s = some (s', o)) :
    (answers o = [] ∧ Got lo m sc s') ∨ (s'.r = .idle ∧ s'.nextV = s.nextV ∧ ∃ a, answers o = [a] ∧ s.r = .answer a) := by
  obtain ⟨h1, hi⟩ := hi
  unfold rstep at h
  split at h
  case h_1 => cases h
  all_goals rename_i hr
  all_goals rw [hr] at hi
  all_goals try simp only at hi
  all_goals (repeat' (split at h))
  all_goals first | (cases h; done) | skip
  all_goals simp only [Option.some.injEq, Prod.mk.injEq] at h
  all_goals obtain ⟨rfl, rfl⟩ := h
  all_goals first | (exact hi.elim; done) | skip
  case h_11.isTrue => exact .inl ⟨rfl, h1, hi.1.symm, new_nil _ _, hi.2.symm⟩
  case h_11.isFalse => exact .inl ⟨rfl, h1, rfl⟩
  case h_1 => exact .inl ⟨rfl, h1, rfl⟩
  case h_2 =>
    refine .inl ⟨rfl, ?_⟩
    obtain ⟨rfl, rfl⟩ := hi
    exact got_next h1 (new_nil _ _) (by simp) rfl
  case h_13.isTrue => rename_i hq; cases hq
  case h_13.isFalse => exact .inl ⟨rfl, Nat.le_succ_of_le h1, hi.1, new_snoc hi.2.1 h1, hi.2.2⟩
  case h_15 => exact .inl ⟨rfl, h1, hi⟩
  case h_16 =>
    refine .inl ⟨rfl, ?_⟩
    obtain ⟨rfl, b, c⟩ := hi
    exact got_next h1 b (by simp; omega) rfl
  case h_17.isTrue => exact .inl ⟨rfl, h1, [], _, rfl, by simp, hi.2.1, hi.2.2⟩
  case h_17.isFalse => exact .inl ⟨rfl, h1, hi⟩
  case h_1 => exact .inl ⟨rfl, h1, rfl⟩
  case h_2 => exact .inl ⟨rfl, h1, [_], _, rfl, by simp [hi.1], hi.2.1, hi.2.2⟩
  case h_27 => exact .inr ⟨rfl, rfl, _, rfl, hr⟩

set_option maxHeartbeats 2000000 in
theorem nextV_mono {fine : Bool} {s s' : S} {o : List Obs} {l : Lbl} (h : step fine s l = some (s', o)) : s.nextV ≤ s'.nextV := by
  cases l with
  | play b =>
    simp only [step] at h
    unfold pstep at h
    split at h
    case h_1 => cases h
    all_goals (repeat' (split at h))
    all_goals first | (cases h; done) | skip
    all_goals simp only [Option.some.injEq, Prod.mk.injEq] at h
    all_goals obtain ⟨rfl, rfl⟩ := h
    all_goals simp [leave, raiseIn]
  | go =>
    simp only [step] at h
    unfold rstep at h
    split at h
    case h_1 => cases h
    all_goals (repeat' (split at h))
    all_goals first | (cases h; done) | skip
    all_goals simp only [Option.some.injEq, Prod.mk.injEq] at h
    all_goals obtain ⟨rfl, rfl⟩ := h
    all_goals simp
  | _ =>
    simp only [step] at h
    (repeat' (split at h))
    all_goals first | (cases h; done) | skip
    all_goals simp only [Option.some.injEq, Prod.mk.injEq] at h
    all_goals obtain ⟨rfl, rfl⟩ := h
    all_goals simp [leave]

theorem run_mono {fine : Bool} : ∀ (ls : List Lbl) (s s' : S) (O : List Obs), run fine s ls = some (s', O) → s.nextV ≤ s'.nextV
  | [], s, s', O, h => by
    simp only [run, Option.some.injEq, Prod.mk.injEq] at h
    obtain ⟨rfl, rfl⟩ := h
    exact Nat.le_refl _
  | l :: ls, s, s', O, h => by
    obtain ⟨s1, o, O', h1, h2, rfl⟩ := run_cons h
    have := nextV_mono h1
    have := run_mono ls s1 s' O' h2
    omega

theorem got_other {lo m : Nat} {sc : Bool} {s s' : S} (hi : Got lo m sc s) (hr : s'.r = s.r) (hv : s.nextV ≤ s'.nextV) : Got lo m sc s' := by
  obtain ⟨h1, hi⟩ := hi
  refine ⟨Nat.le_trans h1 hv, ?_⟩
  rw [hr]
  split at hi
  all_goals rename_i e
  all_goals try rw [e]
  all_goals try simp only
  all_goals try exact hi
  all_goals try exact ⟨hi.1, new_mono hi.2.1 hv, hi.2.2⟩
  all_goals try (obtain ⟨res, got, a, b, c, d⟩ := hi; exact ⟨res, got, a, b, new_mono c hv, d⟩)
  all_goals exact hi.elim

theorem got_run {lo m : Nat} {sc : Bool} : ∀ (ls : List Lbl) (s s' : S) (O : List Obs), Got lo m sc s → (∀ l ∈ ls, quiet l = true) → run false s ls = some (s', O) →
    (answers O = [] ∧ Got lo m sc s') ∨ (∃ s1 a, answers O = [a] ∧ Got lo m sc s1 ∧ s1.r = .answer a ∧ s1.nextV ≤ s'.nextV)
  | [], s, s', O, hi, _, h => by
    simp only [run, Option.some.injEq, Prod.mk.injEq] at h
    obtain ⟨rfl, rfl⟩ := h
    exact .inl ⟨rfl, hi⟩
  | l :: ls, s, s', O, hi, hq, h => by
    obtain ⟨s1, o, O', h1, h2, rfl⟩ := run_cons h
    have hq' : ∀ l ∈ ls, quiet l = true := fun l hl => hq l (by simp [hl])
    rw [answers_append]
    by_cases hg : l = .go
    · subst hg
      rcases got_go hi h1 with ⟨e, a⟩ | ⟨e, ev, a, e2, e3⟩
      · rw [e]
        exact got_run ls s1 s' O' a hq' h2
      · refine .inr ⟨s, a, ?_, hi, e3, ?_⟩
        · rw [e2, (idle_run ls s1 s' O' e hq' h2).2]; rfl
        · have := run_mono ls s1 s' O' h2
          omega
    · obtain ⟨e1, e2⟩ := step_r (hq l (by simp)) hg h1
      rw [e2]
      exact got_run ls s1 s' O' (got_other hi e1 (nextV_mono h1)) hq' h2

end Verif.Race
