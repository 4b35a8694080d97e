import Verif.Strat.Desc
/-!
# Stacks of hosts whose tasks are well nested
-/

namespace Verif.Strat
open Verif

/-- The dynamic includes a task stands in, innermost first. -/
def Chain (t : Task) : List Nat := (t.parents.filter fun n => n.isTask && n.isInclude).map (·.uuid)

/-- The task stands directly in a play, or directly in the file of a dynamic include: its block has
no parent, or the include as its parent. -/
def Direct (t : Task) : Prop :=
  (∃ b : Node, b.isTask = false ∧ t.parents = [b]) ∨
  ∃ b i : Node, ∃ r, b.isTask = false ∧ i.isTask = true ∧ i.isInclude = true ∧ t.parents = b :: i :: r

/-- Where a host is: before its first task, in a task, or after a task. -/
inductive Pos where
  | idle
  | busy (t : Task)
  | after (t : Task)

/-- The includes a host is in after a task: those of the task, and the task itself if it is one. -/
def Pos.left : Pos → List Nat
  | .idle => []
  | .busy t => t.node.uuid :: Chain t
  | .after t => if t.node.isInclude = true then t.node.uuid :: Chain t else Chain t

/-- The next task stands in exactly these includes, or in all but the innermost. -/
def Fits (e : List Nat) (t : Task) : Prop := e = Chain t ∨ ∃ x, e = x :: Chain t ∧ (Chain t).head? ≠ some x

/-- Not a step of host `h`, nor one that takes threads away. -/
def Foreign (h : Nat) : Label → Prop
  | .start h' _ _ _ _ => h' ≠ h
  | .done h' _ _ _ => h' ≠ h
  | .refresh => False
  | .newPlay => False
  | _ => True

/-- A history in which the tasks of host `h` are well nested: each is direct, each starts after the
one before has ended, and it leaves at most one include. Anything else may happen in between. -/
inductive Nested (h : Nat) : Pos → List Label → Pos → Prop where
  | nil (p) : Nested h p [] p
  | first {t tv a c ls q} : Direct t → Fits [] t → Nested h (.busy t) ls q → Nested h .idle (.start h t tv a c :: ls) q
  | next {t' t tv a c ls q} : Direct t → Fits (Pos.after t').left t → Nested h (.busy t) ls q →
      Nested h (.after t') (.start h t tv a c :: ls) q
  | done {t r res ls q} : Nested h (.after t) ls q → Nested h (.busy t) (.done h t r res :: ls) q
  | removed {p l ls q} : Removes l → Nested h .idle ls q → Nested h p (l :: ls) q
  | other {p l ls q} : Foreign h l → Nested h p ls q → Nested h p (l :: ls) q

/-- The uuids of a stack. -/
def uuids (l : List (Nat × Option Task)) : List (Option Nat) := l.map fun e => e.2.map (·.node.uuid)

/-- The stack of the host fits its position. -/
def Good (h : Nat) (p : Pos) (s : DS) : Prop :=
  ∀ k L, view s k = some (some h, L) → match p with
    | .idle => L = []
    | .busy t => (∃ i r, L = (i, some t) :: r ∧ uuids r = (Chain t).map some) ∧ ∀ inc, s.pc ≠ .waitEnd k inc
    | .after t => ((∃ inc, s.pc = .waitEnd k inc) ∧ s.pc = .waitEnd k t.node.isInclude ∧ ∃ i r, L = (i, some t) :: r ∧ uuids r = (Chain t).map some) ∨
        ((∀ inc, s.pc ≠ .waitEnd k inc) ∧ uuids L = (Pos.after t).left.map some)

theorem main_nohost {s : DS} (c : s.core) (h : OnlyMain s) (k h' : Nat) (L) : view s k ≠ some (some h', L) := by
  intro hv
  simp only [view] at hv
  cases hg : s.threads.get? k with
  | none => rw [hg] at hv; cases hv
  | some th =>
    have := h k th hg
    subst this
    obtain ⟨m, m1, m2, -⟩ := c.tmain
    rw [hg] at m1; cases m1
    rw [hg] at hv
    simp [m2] at hv

theorem view_host {s : DS} (c : s.core) {k h : Nat} {L} (hv : view s k = some (some h, L)) :
    ∃ th, threadOf s h = some th ∧ th.id = k ∧ s.threads.get? k = some th ∧ L = viewF s.frames th.frames := by
  simp only [view] at hv
  cases hg : s.threads.get? k with
  | none => rw [hg] at hv; cases hv
  | some th =>
    rw [hg] at hv
    simp only [Option.map_some, Option.some.injEq, Prod.mk.injEq] at hv
    exact ⟨th, threadOf_of_get c hg hv.1, (c.tid hg).1, rfl, hv.2.symm⟩

theorem synced_fits {t : Task} {L : List (Nat × Option Task)} {e : List Nat} (hd : Direct t) (hf : Fits e t)
    (hL : uuids L = e.map some) : uuids (synced t L) = (Chain t).map some := by
  rcases hd with ⟨b, hb, hp⟩ | ⟨b, i, r, hb, h1, h2, hp⟩
  · have hc : Chain t = [] := by simp [Chain, hp, hb]
    unfold Fits at hf
    rcases hf with rfl | ⟨x, rfl, -⟩
    · rw [hc] at hL ⊢
      have : L = [] := by simpa [uuids] using hL
      rw [this]; rfl
    · rw [hc] at hL ⊢
      cases L with
      | nil => simp [uuids] at hL
      | cons y ys =>
        simp only [uuids, List.map_cons, List.map_nil, List.cons.injEq] at hL
        simp only [synced, hp]
        exact hL.2
  · have hc : Chain t = i.uuid :: (r.filter fun n => n.isTask && n.isInclude).map (·.uuid) := by simp [Chain, hp, hb, h1, h2]
    rcases hf with rfl | ⟨x, rfl, hx⟩
    · rw [← hL]
      cases L with
      | nil => rfl
      | cons y ys =>
        rw [hc] at hL
        simp only [uuids, List.map_cons, List.cons.injEq] at hL
        simp only [synced, hp, hL.1, if_true]
    · cases L with
      | nil => simp [uuids] at hL
      | cons y ys =>
        simp only [uuids, List.map_cons, List.cons.injEq] at hL
        simp only [synced, hp, hL.1]
        have : ¬ (some x = some i.uuid) := by
          rw [hc] at hx
          intro e; apply hx; simp [Option.some.inj e]
        rw [if_neg this]
        exact hL.2

/-- A step by others keeps the stack of the host good. -/
theorem good_foreign {h : Nat} {p : Pos} {s s' : DS} {l : Label} {o : List Out} (hi : Inv s) (hm : Over s → OnlyMain s)
    (hs : step s l = some (s', o)) (hf : Foreign h l) (g : Good h p s) : Good h p s' := by
  by_cases ho : Over s'
  · intro k L hv
    exact absurd hv (main_nohost (inv_step hi hs).core (main_step hi hs hm ho) k h L)
  -- the stack of the host is the same, and the playbook waits for its end iff it did before
  · have key : (∀ k L, view s' k = some (some h, L) → view s k = some (some h, L) ∧
        ((∀ inc, s'.pc = .waitEnd k inc ↔ s.pc = .waitEnd k inc))) → Good h p s' := by
      intro hk k L hv
      obtain ⟨h1, h2⟩ := hk k L hv
      have := g k L h1
      cases p with
      | idle => exact this
      | busy t => exact ⟨this.1, fun inc he => this.2 inc ((h2 inc).1 he)⟩
      | after t =>
        rcases this with ⟨⟨inc, a1⟩, a2, a3⟩ | ⟨a1, a2⟩
        · exact .inl ⟨⟨inc, (h2 inc).2 a1⟩, (h2 _).2 a2, a3⟩
        · exact .inr ⟨fun inc he => a1 inc ((h2 inc).1 he), a2⟩
    cases l with
    | start host t tv a c =>
      have hne : host ≠ h := hf
      simp only [step] at hs
      split at hs
      · rename_i hp
        rw [fst_eq hs] at ho key ⊢
        obtain ⟨a1, a2, -⟩ := view_start hi hp host t tv a c ho
        have hpc : ∀ k inc, (startTask s host t tv a c).1.pc ≠ .waitEnd k inc := by
          rcases start_spec hi hp host t tv a c with ⟨e, -, he⟩ | ⟨s1, th1, -, -, -, -, e4, -⟩
          · exact absurd (.inr ⟨e, by rw [he]; rfl⟩) ho
          · intro k inc
            rw [e4]
            split <;> simp
        refine key fun k L hv => ?_
        by_cases hk : k = (hostThread s host).2.1.id
        · rw [hk, a2] at hv
          cases hv; exact absurd rfl hne
        · rw [a1 k hk] at hv
          exact ⟨hv, fun inc => ⟨fun he => absurd he (hpc k inc), fun he => by rw [hp] at he; cases he⟩⟩
      · cases hs
    | done host t r res =>
      have hne : host ≠ h := hf
      simp only [step] at hs
      split at hs
      · rename_i hp
        rw [fst_eq hs] at ho key ⊢
        obtain ⟨th, b0, b1, -, b3⟩ := view_end hi host t r res ho
        obtain ⟨t1, t2⟩ := threadOf_some hi.core b0
        have hid : ∀ k L, view (endTask s host t r res).1 k = some (some h, L) → k ≠ th.id := by
          rintro k L hv rfl
          have hv0 : view s th.id = some (some host, viewF s.frames th.frames) := by simp [view, t2, t1]
          rcases b3 with ⟨-, b3⟩ | ⟨-, b3⟩
          · rw [b3, hv0] at hv; cases hv; exact hne rfl
          · rw [b3, hv0] at hv; simp at hv; exact hne hv.1
        refine key fun k L hv => ?_
        have hk := hid k L hv
        rw [b1 k hk] at hv
        refine ⟨hv, fun inc => ⟨fun he => ?_, fun he => by rw [hp] at he; cases he⟩⟩
        rcases b3 with ⟨b3, -⟩ | ⟨b3, -⟩
        · rw [b3] at he; cases he; exact absurd rfl hk
        · rw [b3] at he; cases he
      · cases hs
    | refresh => exact absurd hf id
    | newPlay => exact absurd hf id
    | reg p l ty =>
      simp only [step] at hs
      split at hs
      · rw [fst_eq hs] at ho key ⊢
        rcases registerLine_cases s p l ty with hr | ⟨e, -, hr⟩ <;> rw [hr] at ho key ⊢
        · exact key fun k L hv => ⟨hv, fun _ => Iff.rfl⟩
        · exact absurd (.inr ⟨_, rfl⟩) ho
      · cases hs
    | env hp => cases hs; exact key fun k L hv => ⟨hv, fun _ => Iff.rfl⟩
    | wake =>
      simp only [step] at hs
      split at hs
      · rename_i tid hpc
        split at hs
        · rw [fst_eq hs] at ho; exact absurd (.inr ⟨_, rfl⟩) ho
        · split at hs
          · cases hs
          · split at hs
            · rw [fst_eq hs] at ho; exact absurd (.inl rfl) ho
            · rw [fst_eq hs] at key ⊢
              exact key fun k L hv => ⟨hv, fun inc => ⟨fun he => (by cases he), fun he => (by rw [hpc] at he; cases he)⟩⟩
      · rename_i tid inc hpc
        split at hs
        · rw [fst_eq hs] at ho; exact absurd (.inr ⟨_, rfl⟩) ho
        · split at hs
          · cases hs
          · rw [fst_eq hs] at ho ⊢
            obtain ⟨b1, b2, -⟩ := view_endAfter hi.core tid inc ho
            have hrun : (endAfter s tid inc).1.pc = .running := by
              rcases (endAfter_spec hi.core tid inc).2 with h1 | h1
              · exact absurd h1 ho
              · exact h1.1
            intro k L hv
            by_cases hk : k = tid
            · subst hk
              rw [b2] at hv
              cases hv0 : view s k with
              | none => rw [hv0] at hv; cases hv
              | some w =>
                obtain ⟨w1, w2⟩ := w
                rw [hv0] at hv
                simp only [Option.map_some, Option.some.injEq, Prod.mk.injEq] at hv
                obtain ⟨rfl, hv⟩ := hv
                have := g k w2 hv0
                cases p with
                | idle =>
                  simp only at this ⊢
                  rw [← hv, this]; simp
                | busy t => exact absurd hpc (this.2 inc)
                | after t =>
                  rcases this with ⟨-, a2, i, r, a3, a4⟩ | ⟨a1, -⟩
                  · right
                    rw [hpc] at a2; cases a2
                    refine ⟨fun inc he => (by rw [hrun] at he; cases he), ?_⟩
                    rw [← hv, a3]
                    simp only [Pos.left]
                    split
                    · simp only [uuids, List.map_cons, Option.map_some] at a4 ⊢; rw [a4]
                    · exact a4
                  · exact absurd hpc (a1 inc)
            · rw [b1 k hk] at hv
              have := g k L hv
              have np : ∀ j, s.pc ≠ .waitEnd k j := by
                intro j he; rw [hpc] at he; cases he; exact hk rfl
              have np' : ∀ j, (endAfter s tid inc).1.pc ≠ .waitEnd k j := by
                intro j he; rw [hrun] at he; cases he
              cases p with
              | idle => exact this
              | busy t => exact ⟨this.1, np'⟩
              | after t =>
                rcases this with ⟨⟨j, a1⟩, -⟩ | ⟨-, a2⟩
                · exact absurd a1 (np j)
                · exact .inr ⟨np', a2⟩
      · cases hs
    | req r =>
      rw [fst_eq hs] at key ⊢
      refine key fun k L hv => ?_
      rw [view_request hi r k] at hv
      exact ⟨hv, fun inc => by rw [request_pc s hi r]⟩

/-- The start of a fitting task. -/
theorem good_start {h : Nat} {p : Pos} {s s' : DS} {t : Task} {tv a : Addr} {c : Nat → Bool} {o : List Out} (hi : Inv s)
    (hm : Over s → OnlyMain s) (hs : step s (.start h t tv a c) = some (s', o)) (hd : Direct t) (hf : Fits p.left t)
    (hb : ∀ t, p ≠ .busy t) (hn : p = .idle → ∀ k L, view s k = some (some h, L) → L = []) (g : Good h p s)
    (hnone : threadOf s h = none → p.left = [] ∨ Fits [] t) : Good h (.busy t) s' := by
  by_cases ho : Over s'
  · intro k L hv
    exact absurd hv (main_nohost (inv_step hi hs).core (main_step hi hs hm ho) k h L)
  · simp only [step] at hs
    split at hs
    · rename_i hp
      rw [fst_eq hs] at ho ⊢
      obtain ⟨a1, a2, -⟩ := view_start hi hp h t tv a c ho
      have hpc : ∀ k inc, (startTask s h t tv a c).1.pc ≠ .waitEnd k inc := by
        rcases start_spec hi hp h t tv a c with ⟨e, -, he⟩ | ⟨s1, th1, -, -, -, -, e4, -⟩
        · exact absurd (.inr ⟨e, by rw [he]; rfl⟩) ho
        · intro k inc
          rw [e4]
          split <;> simp
      intro k L hv
      refine ⟨?_, fun inc => hpc k inc⟩
      by_cases hk : k = (hostThread s h).2.1.id
      · rw [hk, a2] at hv
        cases hv
        refine ⟨_, _, rfl, ?_⟩
        cases hto : threadOf s h with
        | none =>
          have e : hostStack s h = [] := by simp [hostStack, hto]
          rcases hnone hto with hl | hl
          · exact synced_fits hd (by rw [hl] at hf; exact hf) (by rw [e]; rfl)
          · exact synced_fits hd hl (by rw [e]; rfl)
        | some th =>
          obtain ⟨t1, t2⟩ := threadOf_some hi.core hto
          have hv0 : view s th.id = some (some h, hostStack s h) := by simp [view, t2, t1, hostStack, hto]
          have := g th.id _ hv0
          cases p with
          | idle => 
            simp only at this
            exact synced_fits hd hf (by rw [this]; rfl)
          | busy t => exact absurd rfl (hb t)
          | after t' =>
            rcases this with ⟨⟨j, b1⟩, -⟩ | ⟨-, b2⟩
            · rw [hp] at b1; cases b1
            · exact synced_fits hd hf b2
      · exfalso
        rw [a1 k hk] at hv
        obtain ⟨th, b1, b2, -⟩ := view_host hi.core hv
        apply hk
        simp only [hostThread, b1]
        exact b2.symm
    · cases hs

/-- The end of the task a host is in. -/
theorem good_done {h : Nat} {s s' : DS} {t : Task} {r : Result} {res : Addr} {o : List Out} (hi : Inv s)
    (hm : Over s → OnlyMain s) (hs : step s (.done h t r res) = some (s', o)) (g : Good h (.busy t) s) : Good h (.after t) s' := by
  by_cases ho : Over s'
  · intro k L hv
    exact absurd hv (main_nohost (inv_step hi hs).core (main_step hi hs hm ho) k h L)
  · simp only [step] at hs
    split at hs
    · rw [fst_eq hs] at ho ⊢
      obtain ⟨th, b0, b1, -, b3⟩ := view_end hi h t r res ho
      obtain ⟨t1, t2⟩ := threadOf_some hi.core b0
      intro k L hv
      by_cases hk : k = th.id
      · subst hk
        rcases b3 with ⟨c1, c2⟩ | ⟨c1, c2⟩
        · rw [c2] at hv
          obtain ⟨a1, -⟩ := g _ _ hv
          exact .inl ⟨⟨_, c1⟩, c1, a1⟩
        · rw [c2] at hv
          cases hv0 : view s th.id with
          | none => rw [hv0] at hv; cases hv
          | some w =>
            obtain ⟨w1, w2⟩ := w
            rw [hv0] at hv
            simp only [Option.map_some, Option.some.injEq, Prod.mk.injEq] at hv
            obtain ⟨rfl, hv⟩ := hv
            obtain ⟨⟨i, rr, a1, a2⟩, -⟩ := g _ _ hv0
            right
            refine ⟨fun inc he => (by rw [c1] at he; cases he), ?_⟩
            rw [← hv, a1]
            simp only [Pos.left]
            split
            · simp only [uuids, List.map_cons, Option.map_some] at a2 ⊢; rw [a2]
            · exact a2
      · exfalso
        rw [b1 k hk] at hv
        obtain ⟨th', d1, d2, -⟩ := view_host hi.core hv
        rw [b0] at d1; cases d1
        exact hk d2.symm
    · cases hs

theorem good_removed {h : Nat} {s s' : DS} {l : Label} {o : List Out} (hi : Inv s) (hs : step s l = some (s', o)) (hr : Removes l) :
    OnlyMain s' ∧ Good h .idle s' := by
  have : OnlyMain s' := by
    cases l with
    | refresh =>
      simp only [step] at hs
      split at hs
      · rw [fst_eq hs]; exact finish_main s .running
      · cases hs
    | newPlay =>
      simp only [step] at hs
      split at hs
      · rw [fst_eq hs]
        intro k th hk
        simp only [Dict.get?] at hk
        split at hk
        · rename_i e; simpa using Eq.symm e
        · cases hk
      · cases hs
    | _ => exact absurd hr id
  exact ⟨this, fun k L hv => absurd hv (main_nohost (inv_step hi hs).core this k h L)⟩

/-- Threads stay until they are taken away or the run is over. -/
theorem host_stays {s s' : DS} {l : Label} {o : List Out} (hi : Inv s) (hs : step s l = some (s', o)) (hr : ¬ Removes l) (ho : ¬ Over s')
    {k : Nat} {x L} (hv : view s k = some (x, L)) : ∃ L', view s' k = some (x, L') := by
  cases l with
  | start host t tv a c =>
    simp only [step] at hs
    split at hs
    · rename_i hp
      rw [fst_eq hs] at ho ⊢
      obtain ⟨a1, a2, -⟩ := view_start hi hp host t tv a c ho
      by_cases hk : k = (hostThread s host).2.1.id
      · rw [hk, a2]
        have : x = some host := by
          cases hto : threadOf s host with
          | none =>
            exfalso
            have e : (hostThread s host).2.1.id = s.nextT := by simp [hostThread, hto, addThread]
            rw [hk, e] at hv
            simp only [view] at hv
            cases hg : s.threads.get? s.nextT with
            | none => rw [hg] at hv; cases hv
            | some th => have := (hi.core.tid hg).2; omega
          | some th =>
            obtain ⟨t1, t2⟩ := threadOf_some hi.core hto
            have e : (hostThread s host).2.1.id = th.id := by simp [hostThread, hto]
            rw [hk, e] at hv
            simp only [view, t2, Option.map_some, Option.some.injEq, Prod.mk.injEq] at hv
            rw [← hv.1, t1]
        rw [this]
        exact ⟨_, rfl⟩
      · rw [a1 k hk]; exact ⟨L, hv⟩
    · cases hs
  | done host t r res =>
    simp only [step] at hs
    split at hs
    · rw [fst_eq hs] at ho ⊢
      obtain ⟨th, b0, b1, -, b3⟩ := view_end hi host t r res ho
      by_cases hk : k = th.id
      · subst hk
        rcases b3 with ⟨-, b3⟩ | ⟨-, b3⟩
        · rw [b3]; exact ⟨L, hv⟩
        · rw [b3, hv]; exact ⟨_, rfl⟩
      · rw [b1 k hk]; exact ⟨L, hv⟩
    · cases hs
  | refresh => exact absurd trivial hr
  | newPlay => exact absurd trivial hr
  | reg p l ty =>
    simp only [step] at hs
    split at hs
    · rw [fst_eq hs] at ho ⊢
      rcases registerLine_cases s p l ty with hr | ⟨e, -, hr⟩ <;> rw [hr] at ho ⊢
      · exact ⟨L, hv⟩
      · exact absurd (.inr ⟨_, rfl⟩) ho
    · cases hs
  | env hp => cases hs; exact ⟨L, hv⟩
  | wake =>
    simp only [step] at hs
    split at hs
    · split at hs
      · rw [fst_eq hs] at ho; exact absurd (.inr ⟨_, rfl⟩) ho
      · split at hs
        · cases hs
        · split at hs
          · rw [fst_eq hs] at ho; exact absurd (.inl rfl) ho
          · rw [fst_eq hs]; exact ⟨L, hv⟩
    · rename_i tid inc hpc
      split at hs
      · rw [fst_eq hs] at ho; exact absurd (.inr ⟨_, rfl⟩) ho
      · split at hs
        · cases hs
        · rw [fst_eq hs] at ho ⊢
          obtain ⟨b1, b2, -⟩ := view_endAfter hi.core tid inc ho
          by_cases hk : k = tid
          · subst hk; rw [b2, hv]; exact ⟨_, rfl⟩
          · rw [b1 k hk]; exact ⟨L, hv⟩
    · cases hs
  | req r => rw [fst_eq hs, view_request hi r k]; exact ⟨L, hv⟩

/-- Once it has started a task a host has a thread, unless the run is over. -/
def HasThread (h : Nat) (p : Pos) (s : DS) : Prop := p = .idle ∨ Over s ∨ ∃ k L, view s k = some (some h, L)

theorem has_step {h : Nat} {p q : Pos} {s s' : DS} {l : Label} {o : List Out} (hi : Inv s) (hs : step s l = some (s', o))
    (hr : ¬ Removes l) (hp : p = .idle → q = .idle) (g : HasThread h p s) : HasThread h q s' := by
  by_cases ho : Over s'
  · exact .inr (.inl ho)
  · rcases g with g | g | ⟨k, L, g⟩
    · exact .inl (hp g)
    · exact absurd (over_step hi hs g) ho
    · obtain ⟨L', h'⟩ := host_stays hi hs hr ho g
      exact .inr (.inr ⟨k, L', h'⟩)

theorem nested_good {h : Nat} {p q : Pos} {ls : List Label} (hn : Nested h p ls q) : ∀ {s s' : DS} {os : List Out}, Run s ls s' os → Inv s →
    (Over s → OnlyMain s) → Good h p s → HasThread h p s → Inv s' ∧ Good h q s' := by
  induction hn with
  | nil => intro s s' os hr hi hm g _; cases hr; exact ⟨hi, g⟩
  | @first t tv a c ls q hd hf _ ih =>
    intro s s' os hr hi hm g ht
    cases hr with
    | @cons _ s1 _ _ _ _ _ h1 h2 =>
      refine ih h2 (inv_step hi h1) (main_step hi h1 hm) ?_ ?_
      · exact good_start (p := .idle) hi hm h1 hd hf (fun _ => by simp) (fun _ => g) g (fun _ => .inl rfl)
      · by_cases ho : Over s1
        · exact .inr (.inl ho)
        · simp only [step] at h1
          split at h1
          · rename_i hp
            rw [fst_eq h1] at ho ⊢
            exact .inr (.inr ⟨_, _, (view_start hi hp h t tv a c ho).2.1⟩)
          · cases h1
  | @next t' t tv a c ls q hd hf _ ih =>
    intro s s' os hr hi hm g ht
    cases hr with
    | cons h1 h2 =>
      have hp : s.pc = .running := by
        simp only [step] at h1
        split at h1
        · assumption
        · cases h1
      refine ih h2 (inv_step hi h1) (main_step hi h1 hm) ?_ ?_
      · refine good_start hi hm h1 hd hf (fun _ => by simp) (fun e => by cases e) g ?_
        intro hto
        rcases ht with e | e | ⟨k, L, e⟩
        · cases e
        · exact absurd e (not_over_of (.inl hp))
        · obtain ⟨th, e1, -⟩ := view_host hi.core e
          rw [hto] at e1; cases e1
      · exact has_step hi h1 (fun x => x) (fun e => by cases e) ht
  | done _ ih =>
    intro s s' os hr hi hm g ht
    cases hr with
    | cons h1 h2 =>
      exact ih h2 (inv_step hi h1) (main_step hi h1 hm) (good_done hi hm h1 g) (has_step hi h1 (fun x => x) (fun e => by cases e) ht)
  | removed hrm _ ih =>
    intro s s' os hr hi hm g ht
    cases hr with
    | cons h1 h2 => exact ih h2 (inv_step hi h1) (main_step hi h1 hm) (good_removed hi h1 hrm).2 (.inl rfl)
  | @other p l ls q hf _ ih =>
    intro s s' os hr hi hm g ht
    cases hr with
    | cons h1 h2 =>
      refine ih h2 (inv_step hi h1) (main_step hi h1 hm) (good_foreign hi hm h1 hf g) (has_step hi h1 ?_ id ht)
      intro hrm
      cases l <;> first | exact hf | exact hrm

theorem good_init (h : Nat) : Good h .idle {} := fun k L hv => absurd hv (main_nohost (s := {}) core_init init_main k h L)

end Verif.Strat
