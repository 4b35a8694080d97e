import Verif.Single.Model
/-!
# C101 One debugger per process
-/

namespace Verif.Props.Single
open Verif.Single

theorem run_append (as bs : List Act) : ∀ s, run s (as ++ bs) = match run s as with
    | none => none
    | some (s', e) => match run s' bs with
      | none => none
      | some (s'', e') => some (s'', e ++ e') := by
  induction as with
  | nil => intro s; simp only [List.nil_append, run]; cases run s bs <;> simp
  | cons a as ih =>
    intro s
    simp only [List.cons_append, run]
    cases step s a with
    | none => rfl
    | some r =>
      obtain ⟨s', e⟩ := r
      simp only [ih]
      cases run s' as with
      | none => rfl
      | some r => obtain ⟨s'', e'⟩ := r; simp only; cases run s'' bs <;> simp

/-- Every reachable state: objects are told apart by their number, and what is stored was made. -/
structure Inv (s : St) (es : List Ev) : Prop where
  inst : ∀ c o, s.inst c = some o → Ev.made c o ∈ es
  store : ∀ t c o, s.pc t = .store c o → Ev.made c o ∈ es
  read : ∀ t c, s.pc t = .read c → s.inst c ≠ none
  made : ∀ c o, Ev.made c o ∈ es → o < s.made
  own : ∀ c c' o, Ev.made c o ∈ es → Ev.made c' o ∈ es → c = c'
  got : ∀ t c o, Ev.got t c o ∈ es → Ev.made c o ∈ es
  key : ∀ t c, Ev.keyError t c ∉ es

theorem inv_step {s s' : St} {es e : List Ev} {a : Act} (h : Inv s es) (hs : step s a = some (s', e)) : Inv s' (es ++ e) := by
  have ⟨h1, h2, h3, h4, h5, h6, h7⟩ := h
  unfold step at hs
  split at hs
  · split at hs <;> simp only [Option.some.injEq, Prod.mk.injEq, reduceCtorEq] at hs
    obtain ⟨rfl, rfl⟩ := hs
    refine ⟨?_, ?_, ?_, ?_, ?_, ?_, ?_⟩ <;> simp only [go, List.append_nil] <;> try assumption
    · intro t' c' o ht; split at ht
      · split at ht <;> cases ht
      · exact h2 _ _ _ ht
    · intro t' c' ht; split at ht
      · split at ht <;> cases ht; simp_all
      · exact h3 _ _ ht
  · split at hs <;> simp only [Option.some.injEq, Prod.mk.injEq, reduceCtorEq] at hs
    obtain ⟨rfl, rfl⟩ := hs
    rename_i t c hp
    refine ⟨?_, ?_, ?_, ?_, ?_, ?_, ?_⟩ <;> simp only [go, List.mem_append, List.mem_singleton, Ev.made.injEq, reduceCtorEq, or_false]
    · intro c o ho; exact .inl (h1 c o ho)
    · intro t' c' o ht; split at ht
      · cases ht; exact .inr ⟨rfl, rfl⟩
      · exact .inl (h2 _ _ _ ht)
    · intro t' c' ht; split at ht
      · cases ht
      · exact h3 _ _ ht
    · rintro c o (h | ⟨rfl, rfl⟩)
      · have := h4 c o h; omega
      · omega
    · rintro c1 c2 o (g1 | ⟨rfl, rfl⟩) (g2 | ⟨rfl, g⟩)
      · exact h5 _ _ _ g1 g2
      · subst g; have := h4 _ _ g1; omega
      · have := h4 _ _ g2; omega
      · rfl
    · intro t c o ho; exact .inl (h6 t c o ho)
    · exact h7
  · split at hs <;> simp only [Option.some.injEq, Prod.mk.injEq, reduceCtorEq] at hs
    obtain ⟨rfl, rfl⟩ := hs
    refine ⟨?_, ?_, ?_, ?_, ?_, ?_, ?_⟩ <;> simp only [go, List.mem_append, List.mem_singleton, reduceCtorEq, or_false] <;> try assumption
    · intro t' c' o ht; split at ht
      · cases ht
      · exact h2 _ _ _ ht
    · intro t' c' ht; split at ht
      · cases ht
      · exact h3 _ _ ht
  · split at hs <;> simp only [Option.some.injEq, Prod.mk.injEq, reduceCtorEq] at hs
    obtain ⟨rfl, rfl⟩ := hs
    rename_i t c o hp
    refine ⟨?_, ?_, ?_, ?_, ?_, ?_, ?_⟩ <;> simp only [go, List.append_nil] <;> try assumption
    · intro d o' ho; split at ho
      · rename_i hd; subst hd; cases ho; exact h2 _ _ _ hp
      · exact h1 _ _ ho
    · intro t' c' o ht; split at ht
      · cases ht
      · exact h2 _ _ _ ht
    · intro t' c' ht; split at ht
      · cases ht; simp
      · split
        · simp
        · exact h3 _ _ ht
  · split at hs <;> simp only [Option.some.injEq, Prod.mk.injEq, reduceCtorEq] at hs
    obtain ⟨rfl, rfl⟩ := hs
    rename_i t _ c hp
    have hr := h3 t c hp
    cases hi : s.inst c with
    | none => exact absurd hi hr
    | some o =>
      simp only
      refine ⟨?_, ?_, ?_, ?_, ?_, ?_, ?_⟩ <;> simp only [go, List.mem_append, List.mem_singleton, Ev.got.injEq, reduceCtorEq, or_false] <;> try assumption
      · intro t' c' o ht; split at ht
        · cases ht
        · exact h2 _ _ _ ht
      · intro t' c' ht; split at ht
        · cases ht
        · exact h3 _ _ ht
      · rintro t' c' o' (g | ⟨rfl, rfl, rfl⟩)
        · exact h6 _ _ _ g
        · exact h1 _ _ hi

theorem inv_run (as : List Act) : ∀ s es s' e, Inv s es → run s as = some (s', e) → Inv s' (es ++ e) := by
  induction as with
  | nil => intro s es s' e h hr; cases hr; simpa using h
  | cons a as ih =>
    intro s es s' e h hr
    simp only [run] at hr
    split at hr
    · cases hr
    · rename_i s1 e1 hs
      split at hr
      · cases hr
      · rename_i s2 e2 hr2
        cases hr
        rw [← List.append_assoc]
        exact ih _ _ _ _ (inv_step h hs) hr2

theorem inv_init : Inv {} [] := by
  constructor <;> simp

/-- **C101, every execution.** Whatever the threads do, a call never fails in the lookup, returns an object its own class
made, and no object is an instance of two classes. -/
theorem C101_own_instance (as : List Act) (s : St) (es : List Ev) (h : run {} as = some (s, es)) :
    (∀ t c o, Ev.got t c o ∈ es → Ev.made c o ∈ es) ∧ (∀ t c, Ev.keyError t c ∉ es) ∧
    (∀ t t' c c' o, Ev.got t c o ∈ es → Ev.got t' c' o ∈ es → c = c') := by
  have hi := inv_run as {} [] s es inv_init h
  rw [List.nil_append] at hi
  exact ⟨hi.got, hi.key, fun t t' c c' o g g' => hi.own c c' o (hi.got _ _ _ g) (hi.got _ _ _ g')⟩

/-- Nobody is about to make an instance of the class. -/
def Quiet (s : St) (c : Nat) : Prop := ∀ t, s.pc t ≠ .build c ∧ ∀ o, s.pc t ≠ .store c o

theorem settled_step {s s' : St} {e : List Ev} {a : Act} {c o : Nat} (hi : s.inst c = some o) (hq : Quiet s c)
    (hs : step s a = some (s', e)) :
    s'.inst c = some o ∧ Quiet s' c ∧ (∀ t o', Ev.got t c o' ∈ e → o' = o) ∧ ∀ o', Ev.made c o' ∉ e := by
  unfold step at hs
  split at hs
  · split at hs <;> simp only [Option.some.injEq, Prod.mk.injEq, reduceCtorEq] at hs
    obtain ⟨rfl, rfl⟩ := hs
    rename_i t c' _ hp
    refine ⟨hi, ?_, by simp, by simp⟩
    intro u
    simp only [go]
    split
    · split
      · rename_i hn
        have : c' ≠ c := by rintro rfl; simp [hi] at hn
        simp [this]
      · simp
    · exact hq u
  · split at hs <;> simp only [Option.some.injEq, Prod.mk.injEq, reduceCtorEq] at hs
    obtain ⟨rfl, rfl⟩ := hs
    rename_i t _ c' hp
    have hc : c' ≠ c := by rintro rfl; exact (hq t).1 hp
    refine ⟨hi, ?_, by simp, by simp [Ne.symm hc]⟩
    intro u
    simp only [go]
    split
    · simp [hc]
    · exact hq u
  · split at hs <;> simp only [Option.some.injEq, Prod.mk.injEq, reduceCtorEq] at hs
    obtain ⟨rfl, rfl⟩ := hs
    refine ⟨hi, ?_, by simp, by simp⟩
    intro u
    simp only [go]
    split
    · simp
    · exact hq u
  · split at hs <;> simp only [Option.some.injEq, Prod.mk.injEq, reduceCtorEq] at hs
    obtain ⟨rfl, rfl⟩ := hs
    rename_i t _ c' o' hp
    have hc : c' ≠ c := by rintro rfl; exact (hq t).2 _ hp
    refine ⟨by simp [go, Ne.symm hc, hi], ?_, by simp, by simp⟩
    intro u
    simp only [go]
    split
    · simp
    · exact hq u
  · split at hs <;> simp only [Option.some.injEq, Prod.mk.injEq, reduceCtorEq] at hs
    obtain ⟨rfl, rfl⟩ := hs
    rename_i t c' hp
    refine ⟨hi, ?_, ?_, ?_⟩
    · intro u
      simp only [go]
      split
      · simp
      · exact hq u
    · intro t' o' hm
      simp only [List.mem_singleton] at hm
      split at hm
      · rename_i o2 h2
        cases hm
        rw [hi] at h2; cases h2; rfl
      · cases hm
    · intro o' hm
      simp only [List.mem_singleton] at hm
      split at hm <;> cases hm

theorem settled_run (as : List Act) {c o : Nat} : ∀ s s' e, s.inst c = some o → Quiet s c → run s as = some (s', e) →
    (∀ t o', Ev.got t c o' ∈ e → o' = o) ∧ ∀ o', Ev.made c o' ∉ e := by
  induction as with
  | nil => intro s s' e hi hq hr; cases hr; simp
  | cons a as ih =>
    intro s s' e hi hq hr
    simp only [run] at hr
    split at hr
    · cases hr
    · rename_i s1 e1 hs
      split at hr
      · cases hr
      · rename_i s2 e2 hr2
        cases hr
        obtain ⟨a1, a2, a3, a4⟩ := settled_step hi hq hs
        obtain ⟨b1, b2⟩ := ih _ _ _ a1 a2 hr2
        constructor
        · intro t o' hm
          rcases List.mem_append.1 hm with hm | hm
          · exact a3 t o' hm
          · exact b1 t o' hm
        · intro o' hm
          rcases List.mem_append.1 hm with hm | hm
          · exact a4 o' hm
          · exact b2 o' hm

/-- Who does it. -/
def who : Act → Nat
  | .call t _ => t
  | .built t => t
  | .raised t => t
  | .stored t => t
  | .ret t => t

/-- One thread at work: the others are not in a call, and the instance of a class is made only while there is none. -/
structure Solo (t : Nat) (s : St) (es : List Ev) : Prop where
  others : ∀ u, u ≠ t → s.pc u = .idle
  build : ∀ c, s.pc t = .build c → s.inst c = none ∧ ∀ o, Ev.made c o ∉ es
  store : ∀ c o, s.pc t = .store c o → s.inst c = none ∧ ∀ o', Ev.made c o' ∈ es → o' = o
  inst : ∀ c o, s.inst c = some o → ∀ o', Ev.made c o' ∈ es → o' = o
  fresh : ∀ c, s.inst c = none → (∀ o, s.pc t ≠ .store c o) → ∀ o, Ev.made c o ∉ es

theorem solo_step {t : Nat} {s s' : St} {es e : List Ev} {a : Act} (h : Solo t s es) (hw : who a = t)
    (hs : step s a = some (s', e)) : Solo t s' (es ++ e) := by
  have ⟨h1, h2, h3, h4, h5⟩ := h
  unfold step at hs
  split at hs <;> simp only [who] at hw <;> subst hw
  · split at hs <;> simp only [Option.some.injEq, Prod.mk.injEq, reduceCtorEq] at hs
    obtain ⟨rfl, rfl⟩ := hs
    rename_i c hp
    refine ⟨?_, ?_, ?_, ?_, ?_⟩ <;> simp only [go, List.append_nil, if_true] <;> try assumption
    · intro u hu; simp [hu, h1 u hu]
    · intro d hd
      split at hd
      · rename_i hn; cases hd
        rw [Option.isNone_iff_eq_none] at hn
        exact ⟨hn, h5 _ hn (by simp [hp])⟩
      · cases hd
    · intro d o hd; split at hd <;> cases hd
    · intro d hd ho; exact h5 d hd (by simp [hp])
  · split at hs <;> simp only [Option.some.injEq, Prod.mk.injEq, reduceCtorEq] at hs
    obtain ⟨rfl, rfl⟩ := hs
    rename_i c hp
    obtain ⟨g1, g2⟩ := h2 c hp
    refine ⟨?_, ?_, ?_, ?_, ?_⟩ <;> simp only [go, List.mem_append, List.mem_singleton, Ev.made.injEq, if_true, Pc.store.injEq, reduceCtorEq]
    · intro u hu; simp [hu, h1 u hu]
    · simp
    · rintro d o ⟨rfl, rfl⟩
      exact ⟨g1, fun o' h => h.elim (fun h => absurd h (g2 o')) (fun h => h.2)⟩
    · rintro d o hd o' (h | ⟨rfl, rfl⟩)
      · exact h4 d o hd o' h
      · rw [g1] at hd; cases hd
    · rintro d hd ho o (h | ⟨rfl, rfl⟩)
      · exact h5 d hd (by simp [hp]) o h
      · exact ho _ rfl
  · split at hs <;> simp only [Option.some.injEq, Prod.mk.injEq, reduceCtorEq] at hs
    obtain ⟨rfl, rfl⟩ := hs
    rename_i c hp
    refine ⟨?_, ?_, ?_, ?_, ?_⟩ <;> simp only [go, List.mem_append, List.mem_singleton, reduceCtorEq, or_false, if_true] <;> try assumption
    · intro u hu; simp [hu, h1 u hu]
    · simp
    · simp
    · intro d hd ho; exact h5 d hd (by simp [hp])
  · split at hs <;> simp only [Option.some.injEq, Prod.mk.injEq, reduceCtorEq] at hs
    obtain ⟨rfl, rfl⟩ := hs
    rename_i c o hp
    obtain ⟨g1, g2⟩ := h3 c o hp
    refine ⟨?_, ?_, ?_, ?_, ?_⟩ <;> simp only [go, List.append_nil, if_true, reduceCtorEq]
    · intro u hu; simp [hu, h1 u hu]
    · simp
    · simp
    · intro d o' hd o2 hm
      split at hd
      · rename_i hdc; subst hdc; cases hd; exact g2 o2 hm
      · exact h4 d o' hd o2 hm
    · intro d hd ho
      split at hd
      · cases hd
      · rename_i hdc
        exact h5 d hd (by intro o' hs; rw [hp] at hs; cases hs; exact hdc rfl)
  · split at hs <;> simp only [Option.some.injEq, Prod.mk.injEq, reduceCtorEq] at hs
    obtain ⟨rfl, rfl⟩ := hs
    rename_i t _ c hp
    have hm : ∀ d o, Ev.made d o ∈ es ++ [match s.inst c with | some o => Ev.got t c o | none => Ev.keyError t c] → Ev.made d o ∈ es := by
      intro d o h
      rcases List.mem_append.1 h with h | h
      · exact h
      · simp only [List.mem_singleton] at h
        split at h <;> cases h
    refine ⟨?_, ?_, ?_, ?_, ?_⟩ <;> simp only [go, if_true, reduceCtorEq]
    · intro u hu; simp [hu, h1 u hu]
    · simp
    · simp
    · intro d o hd o' h; exact h4 d o hd o' (hm _ _ h)
    · intro d hd ho o h; exact h5 d hd (by simp [hp]) o (hm _ _ h)

theorem solo_run {t : Nat} (as : List Act) : ∀ s es s' e, Solo t s es → (∀ a ∈ as, who a = t) → run s as = some (s', e) →
    Solo t s' (es ++ e) := by
  induction as with
  | nil => intro s es s' e h _ hr; cases hr; simpa using h
  | cons a as ih =>
    intro s es s' e h hw hr
    simp only [run] at hr
    split at hr
    · cases hr
    · rename_i s1 e1 hs
      split at hr
      · cases hr
      · rename_i s2 e2 hr2
        cases hr
        rw [← List.append_assoc]
        exact ih _ _ _ _ (solo_step h (hw a (by simp)) hs) (fun b hb => hw b (by simp [hb])) hr2

/-- **C101, from one thread.** However often one thread asks for the instance of a class, whatever the constructor does
and in between instances of other classes are made: only one object of the class is ever made, and every call returns it. -/
theorem C101_one_thread_partial (t : Nat) (as : List Act) (s : St) (es : List Ev) (hw : ∀ a ∈ as, who a = t)
    (h : run {} as = some (s, es)) :
    (∀ c o o', Ev.made c o ∈ es → Ev.made c o' ∈ es → o = o') ∧
    (∀ u u' c o o', Ev.got u c o ∈ es → Ev.got u' c o' ∈ es → o = o') := by
  have hs : Solo t s es := by
    have := solo_run (t := t) as {} [] s es (by constructor <;> simp) hw h
    simpa using this
  have hone : ∀ c o o', Ev.made c o ∈ es → Ev.made c o' ∈ es → o = o' := by
    intro c o o' ho ho'
    cases hi : s.inst c with
    | some x => rw [hs.inst c x hi o ho, hs.inst c x hi o' ho']
    | none =>
      by_cases hst : ∃ x, s.pc t = .store c x
      · obtain ⟨x, hx⟩ := hst
        rw [(hs.store c x hx).2 o ho, (hs.store c x hx).2 o' ho']
      · exact absurd ho (hs.fresh c hi (fun x hx => hst ⟨x, hx⟩) o)
  obtain ⟨g, -, -⟩ := C101_own_instance as s es h
  exact ⟨hone, fun u u' c o o' h1 h2 => hone c o o' (g _ _ _ h1) (g _ _ _ h2)⟩

/-- **C101, several threads.** Once the instance of the class is there and no thread is still making one, it is the only
one for good: every later call of every thread returns it and the constructor is not run again. -/
theorem C101_settled_partial (as bs : List Act) (s s' : St) (es es' : List Ev) (c o : Nat) (h : run {} as = some (s, es))
    (hi : s.inst c = some o) (hq : Quiet s c) (h' : run s bs = some (s', es')) :
    Ev.made c o ∈ es ∧ (∀ t o', Ev.got t c o' ∈ es' → o' = o) ∧ ∀ o', Ev.made c o' ∉ es' := by
  have hinv := inv_run as {} [] s es inv_init h
  rw [List.nil_append] at hinv
  exact ⟨hinv.inst c o hi, settled_run bs s s' es' hi hq h'⟩

/-- **C101, after a constructor that raised.** The call fails with that exception, nothing is stored, and the next call
starts again. -/
theorem C101_retry (s : St) (t c : Nat) (hp : s.pc t = .idle) (hn : s.inst c = none) :
    ∃ s', run s [.call t c, .raised t] = some (s', [.failed t c]) ∧ s'.inst = s.inst ∧ s'.pc t = .idle ∧
      ∃ s'' o, run s' [.call t c, .built t, .stored t, .ret t] = some (s'', [.made c o, .got t c o]) := by
  refine ⟨go (go s t (.build c)) t .idle, ?_, rfl, by simp [go], ?_⟩
  · simp [run, step, hp, hn, go]
  · simp only [run, step, hp, hn, go]
    simp only [if_true, Option.isNone_none, List.nil_append, List.append_nil]
    exact ⟨_, s.made, rfl⟩

/-- **C101, refuted for several threads.** Two threads that ask for the first instance at the same time get two different
objects: nothing holds a lock between the test and the assignment. -/
theorem C101_refuted : ∃ as s es, run {} as = some (s, es) ∧ Ev.got 0 7 0 ∈ es ∧ Ev.got 1 7 1 ∈ es := by
  refine ⟨[.call 0 7, .call 1 7, .built 0, .built 1, .stored 0, .ret 0, .stored 1, .ret 1], _, _, rfl, ?_, ?_⟩ <;> decide

/-- The callback plugin's call, then that of the strategy plugin, with another singleton in between. -/
example : (run {} [.call 0 7, .built 0, .stored 0, .ret 0, .call 0 8, .built 0, .stored 0, .ret 0, .call 0 7, .ret 0]).map (·.2) =
    some [.made 7 0, .got 0 7 0, .made 8 1, .got 0 8 1, .got 0 7 0] := by decide

/-- A settled state with two threads, one of them making an instance of another class. -/
example : ∃ s es, run {} [.call 0 7, .built 0, .stored 0, .call 1 8] = some (s, es) ∧ s.inst 7 = some 0 ∧ Quiet s 7 := by
  refine ⟨_, _, rfl, rfl, ?_⟩
  intro t
  simp only [go]
  split
  · simp
  · simp
    split <;> simp_all

end Verif.Props.Single
