import Verif.Bp.Lemmas
/-!
# The numbers of the kept breakpoints

For every history, also one in which registrations or requests raise: the kept breakpoints stand in the order of their numbers.
-/

namespace Verif.Bp
open Verif

/-- The kept breakpoints stand in the order of their numbers, each under its own number, and the next number is larger than all. -/
structure Ordered (s : Dbg) : Prop where
  sorted : (s.bps.map (·.1)).Pairwise (· < ·)
  below : ∀ e ∈ s.bps, e.1 < s.counter
  own : ∀ e ∈ s.bps, e.2.id = e.1

theorem ordered_init : Ordered {} := ⟨List.Pairwise.nil, (by intro e he; cases he), (by intro e he; cases he)⟩

theorem refresh_ids (path : Str) (fl : FileLines) : ∀ d : Dict Nat LineBp,
    (refresh path fl d).1.map (fun e => (e.1, e.2.id)) = d.map (fun e => (e.1, e.2.id)) := by
  intro d
  induction d with
  | nil => rfl
  | cons a rest ih =>
    obtain ⟨k, b⟩ := a
    unfold refresh
    split
    · simp only [List.map_cons, ih]
    · split
      · rfl
      · cases differs b.bp _ with
        | true => simp only [cond_true, List.map_cons, ih]
        | false => simp only [cond_false, List.map_cons, ih]

theorem addBps_ordered (src : Source) (m : Bool) (actual spath : Str) (si : Option FileLines) : ∀ (ls : List Int) (c : Nat) (d : Dict Nat LineBp),
    (d.map (·.1)).Pairwise (· < ·) → (∀ e ∈ d, e.1 < c) → (∀ e ∈ d, e.2.id = e.1) →
    ((addBps src m actual spath si ls c d).1.map (·.1)).Pairwise (· < ·) ∧
      (∀ e ∈ (addBps src m actual spath si ls c d).1, e.1 < (addBps src m actual spath si ls c d).2.1) ∧
      (∀ e ∈ (addBps src m actual spath si ls c d).1, e.2.id = e.1) := by
  intro ls
  induction ls with
  | nil => intro c d h1 h2 h3; exact ⟨h1, h2, h3⟩
  | cons l ls ih =>
    intro c d h1 h2 h3
    have h2' : ∀ e ∈ d, e.1 < c + 1 := fun e he => Nat.lt_succ_of_lt (h2 e he)
    unfold addBps
    cases m with
    | true => exact ih (c + 1) d h1 h2' h3
    | false =>
      simp only [cond_false]
      split
      · exact ⟨h1, h2', h3⟩
      · rename_i bp _
        have hf : c ∉ d.map (·.1) := by
          intro hc
          obtain ⟨e, he, rfl⟩ := List.mem_map.1 hc
          exact absurd (h2 e he) (by omega)
        rw [Dict.set_fresh d c _ hf]
        refine ih (c + 1) _ ?_ ?_ ?_
        · rw [List.map_append, List.pairwise_append]
          refine ⟨h1, by simp, ?_⟩
          intro a ha b hb
          simp only [List.map_cons, List.map_nil, List.mem_singleton] at hb
          subst hb
          obtain ⟨e, he, rfl⟩ := List.mem_map.1 ha
          exact h2 e he
        · intro e he
          rcases List.mem_append.1 he with he | he
          · exact h2' e he
          · simp only [List.mem_singleton] at he; subst he; exact Nat.lt_succ_self c
        · intro e he
          rcases List.mem_append.1 he with he | he
          · exact h3 e he
          · simp only [List.mem_singleton] at he; subst he; rfl

theorem ordered_step {s : Dbg} (h : Ordered s) (a : Act) : Ordered (step s a).1 := by
  cases a with
  | setExc q fs => exact ⟨h.sorted, h.below, h.own⟩
  | config ms => exact ⟨h.sorted, h.below, h.own⟩
  | disconnect => exact ⟨List.Pairwise.nil, (by intro e he; cases he), (by intro e he; cases he)⟩
  | setBps q src m ls =>
    simp only [step, setBreakpoints]
    obtain ⟨g1, g2, g3⟩ := addBps_ordered src m (toActual s.mappings (src.path.getD [])) (src.path.getD []) (s.info.get? (toActual s.mappings (src.path.getD []))) ls s.counter
      (s.bps.filter fun e => decide (e.2.sourcePath ≠ src.path.getD [])) (h.sorted.sublist ((List.filter_sublist).map _))
      (fun e he => h.below e (List.mem_filter.1 he).1) (fun e he => h.own e (List.mem_filter.1 he).1)
    exact ⟨g1, g2, g3⟩
  | reg p l t =>
    simp only [step, register]
    split
    · exact ⟨h.sorted, h.below, h.own⟩
    · rename_i fl' _
      have hm := refresh_ids p fl' s.bps
      have back : ∀ e ∈ (refresh p fl' s.bps).1, ∃ e' ∈ s.bps, e'.1 = e.1 ∧ e'.2.id = e.2.id := by
        intro e he
        have : (e.1, e.2.id) ∈ s.bps.map (fun e => (e.1, e.2.id)) := by
          rw [← hm]; exact List.mem_map_of_mem (f := fun e : Nat × LineBp => (e.1, e.2.id)) he
        obtain ⟨e', he', hx⟩ := List.mem_map.1 this
        simp only [Prod.mk.injEq] at hx
        exact ⟨e', he', hx.1, hx.2⟩
      have hk : (refresh p fl' s.bps).1.map (·.1) = s.bps.map (·.1) := by
        have := congrArg (List.map Prod.fst) hm
        simpa only [List.map_map, Function.comp_def] using this
      refine ⟨?_, ?_, ?_⟩
      · show ((refresh p fl' s.bps).1.map (·.1)).Pairwise (· < ·)
        rw [hk]; exact h.sorted
      · intro e he
        obtain ⟨e', he', h1, -⟩ := back e he
        rw [← h1]; exact h.below e' he'
      · intro e he
        obtain ⟨e', he', h1, h2⟩ := back e he
        rw [← h1, ← h2]; exact h.own e' he'

theorem ordered_run : ∀ (as : List Act) (s : Dbg), Ordered s → Ordered (run s as).1 := by
  intro as
  induction as with
  | nil => intro s h; exact h
  | cons a as ih => intro s h; exact ih _ (ordered_step h a)

end Verif.Bp
