import Verif.Race.DatR
/-! # Requests handled while the playbook sleeps -/

namespace Verif.Race

/-- The references or frames together with the result, if that is there. -/
def withResult (s : S) (f : Nat) (got : List Nat) : Ans := .ok ((if s.result f = 0 then [] else [s.result f]) ++ got)

/-- The answer after adding variables. -/
def addAns (s : S) (f : Nat) (got : List Nat) (sc : Bool) : Ans := if sc = true then withResult s f got else .ok got

/-- The answer a request will get if the playbook keeps sleeping. -/
def outcome (s : S) : R → Option Ans
  | .idle => none
  | .clear _ => some (.ok [])
  | .copy _ => some (.ok [])
  | .lock (some l) _ => some (if ∀ x ∈ l, x ∈ s.threads then .ok [] else .error .key)
  | .lock none _ => some (.ok [])
  | .each l _ => some (if ∀ x ∈ l, x ∈ s.threads then .ok [] else .error .key)
  | .iter _ _ => some (.ok [])
  | .setOne _ _ _ => some (.ok [])
  | .notify => some (.ok [])
  | .unlock a => some a
  | .frame f => some (if f ∈ s.live then withResult s f (List.range' s.nextV 4) else .error .key)
  | .variable v n => some (match s.vars v with | none => .error .key | some _ => .ok (List.range' s.nextV n))
  | .addRead f n got sc => some (addAns s f (got ++ List.range' s.nextV (n + 1)) sc)
  | .addWrite f v n got sc => some (addAns s f (got ++ v :: List.range' (s.nextV + 1) n) sc)
  | .addEntry f v n got sc => some (addAns s f (got ++ v :: List.range' s.nextV n) sc)
  | .addList f v n got sc => some (addAns s f (got ++ v :: List.range' s.nextV n) sc)
  | .result f got => some (withResult s f got)
  | .resultVar v got => some (.ok (v :: got))
  | .thread t => some (if t ∈ s.threads then .ok (s.stack t) else .error .key)
  | .frames t i got => some (.ok (got ++ (s.stack t).drop i))
  | .frameOf t i f got => some (.ok (got ++ f :: (s.stack t).drop (i + 1)))
  | .threads it got => some (.ok (got ++ s.threads.drop it.pos))
  | .bpClear _ _ => some (.ok [])
  | .bpAdd _ => some (.ok [])
  | .setExc _ => some (.ok [])
  | .answer a => some a

/-- What is known in between. -/
structure Sound (s : S) : Prop where
  it : ∀ it got, s.r = .threads it got → it.size = s.threads.length
  fo : ∀ t i f got, s.r = .frameOf t i f got → (s.stack t)[i]? = some f
  rv : ∀ v got, s.r = .resultVar v got → ∃ f ∈ s.live, v ∈ s.fvars f
  rf : ∀ f got, s.r = .result f got → f ∈ s.live
  af : ∀ f n got, (s.r = .addRead f n got true ∨ ∃ v, s.r = .addEntry f v n got true ∨ s.r = .addList f v n got true) → f ∈ s.live

/-- The request is as good as answered. -/
def settled : R → Bool
  | .unlock _ => true
  | .answer _ => true
  | _ => false

/-- The request is being handled and will get this answer. -/
structure Pend (s : S) (a : Ans) : Prop where
  ctl : Ctl s
  dat : Dat s
  out : outcome s s.r = some a
  how : ((∃ t k, s.p = .asleep t k false) ∧ Sound s) ∨ settled s.r = true

theorem range_succ (v n : Nat) : List.range' v (n + 1) = v :: List.range' (v + 1) n := rfl

theorem addAns_next (s : S) (f n : Nat) (got : List Nat) (sc : Bool) :
    outcome s (addNext f n got sc) = some (addAns s f (got ++ List.range' s.nextV n) sc) := by
  cases n with
  | zero =>
    simp only [addNext, added, addAns, List.range'_zero, List.append_nil]
    split <;> rfl
  | succ n => rfl

/-- Places where nothing is to be known. -/
def easy : R → Bool
  | .threads _ _ => false
  | .frameOf _ _ _ _ => false
  | .resultVar _ _ => false
  | .result _ _ => false
  | .addRead _ _ _ _ => false
  | .addEntry _ _ _ _ _ => false
  | .addList _ _ _ _ _ => false
  | _ => true

theorem sound_easy {s : S} (h : easy s.r = true) : Sound s := by
  constructor
  · intro it got e; rw [e] at h; cases h
  · intro t i f got e; rw [e] at h; cases h
  · intro v got e; rw [e] at h; cases h
  · intro f got e; rw [e] at h; cases h
  · intro f n got e
    rcases e with e | ⟨v, e | e⟩ <;> (rw [e] at h; cases h)

theorem sound_add {s : S} {f : Nat} {sc : Bool} (hf : sc = true → f ∈ s.live) (n : Nat) (got : List Nat)
    (h : s.r = .addRead f n got sc ∨ s.r = .result f got ∧ sc = true ∨ (∃ v, s.r = .addEntry f v n got sc ∨ s.r = .addList f v n got sc) ∨ ∃ a, s.r = .answer a) :
    Sound s := by
  rcases h with h | ⟨h, hsc⟩ | ⟨v, h | h⟩ | ⟨a, h⟩
  all_goals
    constructor
    all_goals rw [h]
    all_goals intros
    all_goals simp_all

theorem sound_next {s : S} {f n : Nat} {got : List Nat} {sc : Bool} (hf : sc = true → f ∈ s.live) (h : s.r = addNext f n got sc) : Sound s := by
  cases n with
  | zero =>
    simp only [addNext, added] at h
    split at h
    · exact sound_add hf 0 got (.inr (.inl ⟨h, ‹_›⟩))
    · exact sound_add hf 0 got (.inr (.inr (.inr ⟨_, h⟩)))
  | succ n => exact sound_add hf n got (.inl h)

set_option maxHeartbeats 2000000 in
/-- One step of a request while the playbook sleeps. -/
theorem asleep_step {s s' : S} {o : List Obs} {a : Ans} {t : Nat} {k : Ctx} (hc : Ctl s) (hd : Dat s) (hs : Sound s) (hp : s.p = .asleep t k false)
    (ho : outcome s s.r = some a) (h : rstep false s = some (s', o)) :
    (s'.r = .idle ∧ o = [.answer a]) ∨ (o = [] ∧ outcome s' s'.r = some a ∧ ((s'.p = .asleep t k false ∧ Sound s') ∨ settled s'.r = true)) := by
  have ri := hc.ri
  have rs := hc.rs
  obtain ⟨s1, s2, s3, s4, s5⟩ := hs
  unfold rstep at h
  split at h
  case h_1 => cases h
  all_goals rename_i hr
  all_goals rw [hr] at ho ri rs s1 s2 s3 s4 s5
  all_goals (repeat' (split at h))
  all_goals first | (cases h; done) | skip
  all_goals simp only [Option.some.injEq, Prod.mk.injEq] at h
  all_goals obtain ⟨rfl, rfl⟩ := h
  all_goals simp only [outcome, Option.some.injEq] at ho
  all_goals subst ho
  all_goals try (refine .inr ⟨rfl, ?_, .inl ⟨hp, sound_easy ?_⟩⟩ <;> simp_all [outcome, easy]; done)
  all_goals try (refine .inr ⟨rfl, ?_, .inr rfl⟩ <;> simp_all [outcome]; done)
  all_goals try (refine .inl ⟨rfl, rfl⟩; done)
  case h_7.isTrue => rename_i hq; exact absurd (ri _ rfl _ _ _ hp) hq.symm
  case h_11.isTrue =>
    rename_i hq
    refine .inr ⟨rfl, ?_, .inl ⟨hp, ?_⟩⟩
    · rw [if_pos hq]; rfl
    · constructor <;> intros <;> simp_all
  case h_2 =>
    rename_i hq
    refine .inr ⟨rfl, ?_, .inl ⟨hp, sound_next (by simp) rfl⟩⟩
    rw [hq]
    simp only [addAns_next]
    simp [addAns]
  case h_13.isFalse =>
    rename_i f n got sc _
    refine .inr ⟨rfl, rfl, .inl ⟨hp, sound_add (f := f) (sc := sc) ?_ n got (.inr (.inr (.inl ⟨_, .inl rfl⟩)))⟩⟩
    rintro rfl
    exact s5 f n got (.inl rfl)
  case h_14 => exact absurd hr (hd.rw _ _ _ _ _)
  case h_15 =>
    rename_i f v n got sc
    refine .inr ⟨rfl, rfl, .inl ⟨hp, sound_add (f := f) (sc := sc) ?_ n got (.inr (.inr (.inl ⟨_, .inr rfl⟩)))⟩⟩
    rintro rfl
    exact s5 f n got (.inr ⟨_, .inl rfl⟩)
  case h_16 =>
    rename_i f v n got sc
    refine .inr ⟨rfl, ?_, .inl ⟨hp, sound_next (f := f) (sc := sc) ?_ rfl⟩⟩
    · simp only [addAns_next]
      simp [addAns, withResult]
    · rintro rfl
      exact s5 f n got (.inr ⟨_, .inr rfl⟩)
  case h_17.isTrue =>
    rename_i hq
    refine .inr ⟨rfl, ?_, .inr rfl⟩
    simp [outcome, withResult, hq]
  case h_17.isFalse =>
    rename_i f got hq
    refine .inr ⟨rfl, ?_, .inl ⟨hp, ?_⟩⟩
    · simp [outcome, withResult, hq]
    · have hl := s4 f got rfl
      have hv := hd.rs f hq
      constructor <;> intros <;> simp_all
      exact ⟨f, hl, hv⟩
  case h_1 =>
    rename_i hq
    obtain ⟨f, hl, hv⟩ := s3 _ _ rfl
    rw [hd.al f hl _ hv] at hq
    cases hq
  case h_2 =>
    rename_i hq
    refine .inr ⟨rfl, ?_, .inl ⟨hp, ?_⟩⟩
    · obtain ⟨hi, e⟩ := List.getElem?_eq_some_iff.1 hq
      simp only [outcome]
      rw [List.drop_eq_getElem_cons hi, e]
    · constructor <;> intros <;> simp_all
  case h_21.isFalse =>
    rename_i hq
    exact absurd (hd.sl _ _ (List.mem_of_getElem? (s2 _ _ _ _ rfl))) hq
  case h_2 =>
    rename_i hq
    refine .inr ⟨rfl, ?_, .inl ⟨hp, ?_⟩⟩
    · obtain ⟨hi, e⟩ := List.getElem?_eq_some_iff.1 hq
      simp only [outcome]
      rw [List.drop_eq_getElem_cons hi, e]
      simp
    · have := s1 _ _ rfl
      constructor <;> intros <;> simp_all
      obtain ⟨rfl, _⟩ := ‹_ ∧ _›
      rfl

theorem answers_append (O O' : List Obs) : answers (O ++ O') = answers O ++ answers O' := by
  induction O with
  | nil => rfl
  | cons o O ih => cases o <;> simp [answers, ih]

theorem stops_append (O O' : List Obs) : stops (O ++ O') = stops O ++ stops O' := by
  induction O with
  | nil => rfl
  | cons o O ih => cases o <;> simp [stops, ih]

set_option maxHeartbeats 2000000 in
theorem pstep_r {fine b : Bool} {s s' : S} {o : List Obs} (h : pstep fine s b = some (s', o)) : s'.r = s.r ∧ answers o = [] := by
  unfold pstep at h
  split at h
  case h_1 => cases h
  all_goals (repeat' (split at h))
  all_goals first | (cases h; done) | skip
  all_goals simp only [Option.some.injEq, Prod.mk.injEq] at h
  all_goals obtain ⟨rfl, rfl⟩ := h
  all_goals exact ⟨rfl, rfl⟩

/-- Only requests and their handling change what is to be answered. -/
theorem step_r {fine : Bool} {s s' : S} {o : List Obs} {l : Lbl} (hq : quiet l = true) (hg : l ≠ .go) (h : step fine s l = some (s', o)) :
    s'.r = s.r ∧ answers o = [] := by
  cases l with
  | play b => exact pstep_r h
  | go => exact absurd rfl hg
  | req q => cases hq
  | _ =>
    simp only [step] at h
    (repeat' (split at h))
    all_goals first | (cases h; done) | skip
    all_goals simp only [Option.some.injEq, Prod.mk.injEq] at h
    all_goals obtain ⟨rfl, rfl⟩ := h
    all_goals exact ⟨rfl, rfl⟩

theorem run_cons {fine : Bool} {s s' : S} {l : Lbl} {ls : List Lbl} {O : List Obs} (h : run fine s (l :: ls) = some (s', O)) :
    ∃ s1 o O', step fine s l = some (s1, o) ∧ run fine s1 ls = some (s', O') ∧ O = o ++ O' := by
  simp only [run] at h
  split at h
  · cases h
  · rename_i s1 o h1
    split at h
    · cases h
    · rename_i s2 O' h2
      simp only [Option.some.injEq, Prod.mk.injEq] at h
      obtain ⟨rfl, rfl⟩ := h
      exact ⟨s1, o, O', h1, h2, rfl⟩

theorem run_of_cons {fine : Bool} {s s1 s' : S} {l : Lbl} {ls : List Lbl} {o O' : List Obs} (h1 : step fine s l = some (s1, o))
    (h2 : run fine s1 ls = some (s', O')) : run fine s (l :: ls) = some (s', o ++ O') := by
  simp only [run, h1, h2]

theorem idle_run {fine : Bool} : ∀ (ls : List Lbl) (s s' : S) (O : List Obs), s.r = .idle → (∀ l ∈ ls, quiet l = true) → run fine s ls = some (s', O) →
    s'.r = .idle ∧ answers O = []
  | [], s, s', O, hr, _, h => by
    simp only [run, Option.some.injEq, Prod.mk.injEq] at h
    obtain ⟨rfl, rfl⟩ := h
    exact ⟨hr, rfl⟩
  | l :: ls, s, s', O, hr, hq, h => by
    obtain ⟨s1, o, O', h1, h2, rfl⟩ := run_cons h
    have hg : l ≠ .go := by
      rintro rfl
      simp [step, rstep, hr] at h1
    obtain ⟨e1, e2⟩ := step_r (hq l (by simp)) hg h1
    obtain ⟨a, b⟩ := idle_run ls s1 s' O' (e1.trans hr) (fun l hl => hq l (by simp [hl])) h2
    exact ⟨a, by rw [answers_append, e2, b]; rfl⟩

theorem asleep_only {fine : Bool} {s s' : S} {o : List Obs} {l : Lbl} {t : Nat} {k : Ctx} (hp : s.p = .asleep t k false) (hq : quiet l = true)
    (h : step fine s l = some (s', o)) : l = .go := by
  cases l with
  | play b => simp [step, pstep, hp] at h
  | go => rfl
  | req q => cases hq
  | _ => simp [step, hp] at h

theorem settled_step {fine : Bool} {s s' : S} {o : List Obs} {a : Ans} (hs : settled s.r = true) (ho : outcome s s.r = some a) (h : rstep fine s = some (s', o)) :
    (s'.r = .idle ∧ o = [.answer a]) ∨ (o = [] ∧ outcome s' s'.r = some a ∧ settled s'.r = true) := by
  unfold rstep at h
  cases hr : s.r <;> rw [hr] at hs ho h <;> simp [settled] at hs
  all_goals
    simp only [outcome, Option.some.injEq] at ho h
    simp only [Prod.mk.injEq] at h
    obtain ⟨rfl, rfl⟩ := h
    subst ho
  · exact .inr ⟨rfl, rfl, rfl⟩
  · exact .inl ⟨rfl, rfl⟩

/-- One step of anything. -/
theorem pend_step {s s' : S} {o : List Obs} {l : Lbl} {a : Ans} (hi : Pend s a) (hq : quiet l = true) (h : step false s l = some (s', o)) :
    (s'.r = .idle ∧ answers o = [a]) ∨ (answers o = [] ∧ Pend s' a) := by
  have hc := ctl_step hi.ctl h
  have hd := dat_step hi.dat h
  rcases hi.how with ⟨⟨t, k, hp⟩, hs⟩ | hs
  · cases asleep_only hp hq h
    rcases asleep_step hi.ctl hi.dat hs hp hi.out h with ⟨e1, rfl⟩ | ⟨rfl, e2, e3⟩
    · exact .inl ⟨e1, rfl⟩
    · refine .inr ⟨rfl, hc, hd, e2, ?_⟩
      rcases e3 with ⟨e3, e4⟩ | e3
      · exact .inl ⟨⟨t, k, e3⟩, e4⟩
      · exact .inr e3
  · by_cases hg : l = .go
    · subst hg
      rcases settled_step hs hi.out h with ⟨e1, rfl⟩ | ⟨rfl, e2, e3⟩
      · exact .inl ⟨e1, rfl⟩
      · exact .inr ⟨rfl, hc, hd, e2, .inr e3⟩
    · obtain ⟨e1, e2⟩ := step_r hq hg h
      refine .inr ⟨e2, hc, hd, ?_, .inr (by rw [e1]; exact hs)⟩
      rw [e1, ← hi.out]
      cases hr : s.r <;> rw [hr] at hs <;> simp [settled] at hs
      all_goals rfl

theorem pend_run : ∀ (ls : List Lbl) (s s' : S) (O : List Obs) (a : Ans), Pend s a → (∀ l ∈ ls, quiet l = true) → run false s ls = some (s', O) →
    (answers O = [] ∧ Pend s' a) ∨ (answers O = [a] ∧ s'.r = .idle)
  | [], s, s', O, a, hi, _, h => by
    simp only [run, Option.some.injEq, Prod.mk.injEq] at h
    obtain ⟨rfl, rfl⟩ := h
    exact .inl ⟨rfl, hi⟩
  | l :: ls, s, s', O, a, hi, hq, h => by
    obtain ⟨s1, o, O', h1, h2, rfl⟩ := run_cons h
    have hq' : ∀ l ∈ ls, quiet l = true := fun l hl => hq l (by simp [hl])
    rcases pend_step hi (hq l (by simp)) h1 with ⟨e1, e2⟩ | ⟨e1, e2⟩
    · obtain ⟨a1, a2⟩ := idle_run ls s1 s' O' e1 hq' h2
      exact .inr ⟨by rw [answers_append, e2, a2]; rfl, a1⟩
    · rcases pend_run ls s1 s' O' a e2 hq' h2 with ⟨b1, b2⟩ | ⟨b1, b2⟩
      · exact .inl ⟨by rw [answers_append, e1, b1]; rfl, b2⟩
      · exact .inr ⟨by rw [answers_append, e1, b1]; rfl, b2⟩

/-- The beginning of a request while the playbook sleeps. -/
theorem pend_start {s s' : S} {o : List Obs} {q : Req} {t : Nat} {k : Ctx} (hc : Ctl s) (hd : Dat s) (hp : s.p = .asleep t k false)
    (h : step false s (.req q) = some (s', o)) : o = [] ∧ Pend s' (expected s q) ∧ ∃ t k, s'.p = .asleep t k false := by
  have hc' := ctl_step hc h
  have hd' := dat_step hd h
  simp only [step] at h
  split at h
  · simp only [Option.some.injEq, Prod.mk.injEq] at h
    obtain ⟨rfl, rfl⟩ := h
    refine ⟨rfl, ⟨hc', hd', ?_, .inl ⟨⟨t, k, hp⟩, ?_⟩⟩, ⟨t, k, hp⟩⟩
    · cases q with
      | variables v n =>
        simp only [startReq, expected]
        cases hv : s.vars v <;> simp [outcome, hv]
      | _ => simp [startReq, outcome, expected, withResult]
    · cases q
      case threads => constructor <;> intros <;> simp_all [startReq] <;> grind
      all_goals exact sound_easy rfl
  · cases h

end Verif.Race
