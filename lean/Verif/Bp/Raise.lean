import Verif.Bp.Lemmas
import Verif.Bp.Spec
/-!
# When registering a line raises

The exceptions of `register_path_breakpoint` (/repo/src/ansibug/_debuggee.py:530-577), exactly.
-/

namespace Verif.Bp
open Verif

/-- The table of a file begins with an entry. -/
def Begins (fl : FileLines) : Prop := ∃ t tl, fl = some t :: tl

theorem Begins.pos {fl : FileLines} (h : Begins fl) : 0 < fl.length := by
  obtain ⟨t, tl, rfl⟩ := h; simp

theorem pyGet_none {α : Type} (l : List α) (i : Int) : pyGet l i = none ↔ (l.length : Int) ≤ i ∨ i + l.length < 0 := by
  unfold pyGet
  split
  · rw [List.getElem?_eq_none_iff]; constructor <;> intro h <;> omega
  · split
    · rw [List.getElem?_eq_none_iff]; constructor <;> intro h <;> omega
    · constructor <;> intro h
      · omega
      · rfl

theorem pyGet_zero {fl : FileLines} {s : Int} (hs : s = 0 ∨ s + fl.length = 0) (h : Begins fl) : ∃ t, pyGet fl s = some (some t) := by
  obtain ⟨t, tl, rfl⟩ := h
  refine ⟨t, ?_⟩
  unfold pyGet
  rcases hs with rfl | hs
  · simp
  · have : ¬ 0 ≤ s := by simp at hs; omega
    rw [if_neg this, if_pos (by omega), hs]
    simp

/-- The search for the entry that governs a line succeeds unless it begins outside of the table. -/
theorem walkDown_ok {fl : FileLines} (h : Begins fl) : ∀ (n : Nat) (s : Int), (s + fl.length).toNat = n → 0 ≤ s + fl.length → s < fl.length →
    ∃ r, walkDown fl s = .ok r := by
  intro n
  induction n using Nat.strongRecOn with
  | ind n ih =>
    intro s hn h0 h1
    rw [walkDown]
    split
    · rename_i hg
      rcases (pyGet_none fl s).1 hg with hg | hg <;> omega
    · exact ⟨_, rfl⟩
    · rename_i hg
      have hne : s + fl.length ≠ 0 := by
        intro he
        obtain ⟨t, ht⟩ := pyGet_zero (.inr he) h
        rw [ht] at hg; cases hg
      exact ih _ (by omega) (s - 1) rfl (by omega) (by omega)

theorem walkDown_fails {fl : FileLines} {s : Int} (h : s + fl.length < 0) : walkDown fl s = .error .index := by
  rw [walkDown]
  have : pyGet fl s = none := (pyGet_none fl s).2 (.inr h)
  split
  · rfl
  · rename_i hg; rw [this] at hg; cases hg
  · rename_i hg; rw [this] at hg; cases hg

/-- The location of a breakpoint can be computed unless its line is too far below zero. -/
theorem calculate_fails_iff {fl : FileLines} (h : Begins fl) (id : Nat) (src : Source) (line : Int) :
    (∃ e, calculate id src line fl = .error e) ↔ line + fl.length < 0 := by
  have hp := h.pos
  unfold calculate
  by_cases hl : line + fl.length < 0
  · have : min line ((fl.length : Int) - 1) = line := by omega
    simp only [this, walkDown_fails hl, hl, iff_true]
    exact ⟨_, rfl⟩
  · obtain ⟨r, hr⟩ := walkDown_ok h _ (min line ((fl.length : Int) - 1)) rfl (by omega) (by omega)
    simp only [hr, hl, iff_false]
    rintro ⟨e, he⟩
    cases he

theorem calculate_fails_index {fl : FileLines} (id : Nat) (src : Source) {line : Int} (e : PyErr) (he : calculate id src line fl = .error e) (h : Begins fl) : e = .index := by
  have hl := (calculate_fails_iff h id src line).1 ⟨e, he⟩
  have hp := h.pos
  have : min line ((fl.length : Int) - 1) = line := by omega
  unfold calculate at he
  simp only [this, walkDown_fails hl] at he
  cases he; rfl

theorem refresh_fails_iff {fl : FileLines} (h : Begins fl) (path : Str) : ∀ (d : Dict Nat LineBp),
    (∃ e, (refresh path fl d).2.2 = some e) ↔ ∃ k b, (k, b) ∈ d ∧ b.actualPath = path ∧ b.reqLine + fl.length < 0 := by
  intro d
  induction d with
  | nil => simp [refresh]
  | cons x rest ih =>
    obtain ⟨k, b⟩ := x
    unfold refresh
    by_cases hp : b.actualPath = path
    · rw [if_neg (by simpa using hp)]
      have hc := calculate_fails_iff h b.id b.source b.reqLine
      cases hcalc : calculate b.id b.source b.reqLine fl with
      | error e =>
        have := hc.1 ⟨e, hcalc⟩
        simp only
        exact ⟨fun _ => ⟨k, b, by simp, hp, this⟩, fun _ => ⟨e, rfl⟩⟩
      | ok bp =>
        have hn : ¬ b.reqLine + fl.length < 0 := fun hl => by obtain ⟨e, he⟩ := hc.2 hl; rw [hcalc] at he; cases he
        have key : (∃ e, (refresh path fl rest).2.2 = some e) ↔ ∃ k' b', (k', b') ∈ (k, b) :: rest ∧ b'.actualPath = path ∧ b'.reqLine + fl.length < 0 := by
          rw [ih]
          constructor
          · rintro ⟨k', b', h1, h2⟩
            exact ⟨k', b', List.mem_cons_of_mem _ h1, h2⟩
          · rintro ⟨k', b', h1, h2⟩
            rcases List.mem_cons.1 h1 with h1 | h1
            · cases h1; exact absurd h2.2 hn
            · exact ⟨k', b', h1, h2⟩
        simp only
        cases hd : differs b.bp bp <;> simpa only [cond_true, cond_false] using key
    · rw [if_pos (by simpa using hp)]
      simp only
      rw [ih]
      constructor
      · rintro ⟨k', b', h1, h2⟩
        exact ⟨k', b', List.mem_cons_of_mem _ h1, h2⟩
      · rintro ⟨k', b', h1, h2⟩
        rcases List.mem_cons.1 h1 with h1 | h1
        · cases h1; exact absurd h2.1 hp
        · exact ⟨k', b', h1, h2⟩

theorem refresh_fails_index {fl : FileLines} (h : Begins fl) (path : Str) : ∀ (d : Dict Nat LineBp) (e : PyErr), (refresh path fl d).2.2 = some e → e = .index := by
  intro d
  induction d with
  | nil => intro e he; cases he
  | cons x rest ih =>
    obtain ⟨k, b⟩ := x
    intro e he
    unfold refresh at he
    split at he
    · exact ih e he
    · split at he
      · rename_i e' hc
        simp only [Option.some.injEq] at he
        subst he
        exact calculate_fails_index _ _ _ hc h
      · simp only at he
        rename_i bp hc
        cases hd : differs b.bp bp <;> (rw [hd] at he; exact ih e he)

/-- How many lines of a file are known, line 0 included. -/
def tableLength (s : Dbg) (p : Str) : Nat := ((s.info.get? p).getD [some 0]).length

/-- All tables begin with an entry. -/
def Tables (s : Dbg) : Prop := ∀ p fl, s.info.get? p = some fl → Begins fl

theorem Tables.at {s : Dbg} (h : Tables s) (p : Str) : Begins ((s.info.get? p).getD [some 0]) := by
  cases hp : s.info.get? p with
  | none => exact ⟨0, [], rfl⟩
  | some fl => exact h p fl hp

theorem begins_append {fl : FileLines} (h : Begins fl) (x : FileLines) : Begins (fl ++ x) := by
  obtain ⟨t, tl, rfl⟩ := h; exact ⟨t, tl ++ x, rfl⟩

theorem begins_set {fl : FileLines} (h : Begins fl) (i ty : Nat) : Begins (fl.set i (some ty)) := by
  obtain ⟨t, tl, rfl⟩ := h
  cases i with
  | zero => exact ⟨ty, tl, rfl⟩
  | succ i => exact ⟨t, tl.set i (some ty), rfl⟩

theorem begins_regLine {fl fl' : FileLines} (h : Begins fl) {line : Int} {ty : Nat} (hr : regLine fl line ty = some fl') :
    Begins fl' ∧ fl'.length = max fl.length (1 + line).toNat := by
  unfold regLine pySet at hr
  have hl : (fl ++ List.replicate (1 + line - (fl.length : Int)).toNat none).length = max fl.length (1 + line).toNat := by
    rw [List.length_append, List.length_replicate]; omega
  split at hr
  · split at hr
    · cases hr
      exact ⟨begins_set (begins_append h _) _ _, by rw [List.length_set, hl]⟩
    · cases hr
  · split at hr
    · cases hr
      exact ⟨begins_set (begins_append h _) _ _, by rw [List.length_set, hl]⟩
    · cases hr

theorem regLine_fails_iff (fl : FileLines) (line : Int) (ty : Nat) : regLine fl line ty = none ↔ line + fl.length < 0 := by
  unfold regLine pySet
  by_cases h0 : 0 ≤ line
  · rw [if_pos h0, if_pos (by rw [List.length_append, List.length_replicate]; omega)]
    simp only [reduceCtorEq, false_iff]; omega
  · have hz : (1 + line - (fl.length : Int)).toNat = 0 := by omega
    rw [if_neg h0, hz]
    simp only [List.replicate_zero, List.append_nil]
    split
    · simp only [reduceCtorEq, false_iff]; omega
    · simp only [true_iff]; omega

/-- **Registering a line raises** exactly if the line or that of a kept breakpoint of the file lies too far below zero. -/
theorem register_fails_iff {s : Dbg} (h : Tables s) (p : Str) (line : Int) (ty : Nat) :
    (∃ e, (register p line ty s).2.2 = some e) ↔ line + tableLength s p < 0 ∨
      ∃ k b, (k, b) ∈ s.bps ∧ b.actualPath = p ∧ b.reqLine + (max (tableLength s p) (1 + line).toNat : Nat) < 0 := by
  have hb := h.at p
  unfold register tableLength
  simp only
  generalize (s.info.get? p).getD [some 0] = fl at hb ⊢
  cases hr : regLine fl line ty with
  | none =>
    have := (regLine_fails_iff fl line ty).1 hr
    simp only
    exact ⟨fun _ => .inl this, fun _ => ⟨_, rfl⟩⟩
  | some fl' =>
    have hn : ¬ line + fl.length < 0 := fun hl => by rw [(regLine_fails_iff fl line ty).2 hl] at hr; cases hr
    obtain ⟨g1, g2⟩ := begins_regLine hb hr
    simp only [hn, false_or]
    rw [refresh_fails_iff g1, g2]

/-- The exception is an IndexError. -/
theorem register_fails_index {s : Dbg} (h : Tables s) (p : Str) (line : Int) (ty : Nat) (e : PyErr) (he : (register p line ty s).2.2 = some e) : e = .index := by
  have hb := h.at p
  unfold register at he
  simp only at he
  generalize (s.info.get? p).getD [some 0] = fl at hb he
  cases hr : regLine fl line ty with
  | none => rw [hr] at he; cases he; rfl
  | some fl' =>
    rw [hr] at he
    exact refresh_fails_index (begins_regLine hb hr).1 _ _ _ he

theorem tables_set {s : Dbg} (h : Tables s) (p : Str) {fl : FileLines} (hf : Begins fl) (q : Str) (fl' : FileLines) (hq : (s.info.set p fl).get? q = some fl') : Begins fl' := by
  rw [Dict.get?_set] at hq
  split at hq
  · cases hq; exact hf
  · exact h q fl' hq

theorem tables_step {s : Dbg} (h : Tables s) (a : Act) : Tables (step s a).1 := by
  cases a with
  | setBps seq src m ls => exact h
  | setExc seq fs => exact h
  | config ms => exact h
  | disconnect => exact h
  | reg p line ty =>
    have hb := h.at p
    simp only [step, register]
    generalize (s.info.get? p).getD [some 0] = fl at hb ⊢
    cases hr : regLine fl line ty with
    | none => exact tables_set h p (begins_append hb _)
    | some fl' => exact tables_set h p (begins_regLine hb hr).1

theorem tables_run : ∀ (as : List Act) (s : Dbg), Tables s → Tables (run s as).1
  | [], _, h => h
  | a :: as, s, h => tables_run as (step s a).1 (tables_step h a)

theorem tables_init : Tables {} := by intro p fl h; cases h

/-- Nothing is raised where no kept breakpoint and no registered line is negative. -/
theorem register_fine {s : Dbg} (h : Tables s) (hk : ∀ e ∈ s.bps, 0 ≤ e.2.reqLine) (p : Str) {line : Int} (hl : 0 ≤ line) (ty : Nat) :
    (register p line ty s).2.2 = none := by
  cases hr : (register p line ty s).2.2 with
  | none => rfl
  | some e =>
    rcases (register_fails_iff h p line ty).1 ⟨e, hr⟩ with h1 | ⟨k, b, h1, -, h3⟩
    · omega
    · have := hk _ h1
      simp only at this
      omega

/-- The lines asked for stay the same. -/
theorem refresh_reqLine (path : Str) (fl : FileLines) : ∀ (d : Dict Nat LineBp), ∀ e ∈ (refresh path fl d).1, ∃ e' ∈ d, e'.2.reqLine = e.2.reqLine := by
  intro d
  induction d with
  | nil => intro e he; cases he
  | cons x rest ih =>
    obtain ⟨k, b⟩ := x
    intro e he
    have tail : ∀ e ∈ (refresh path fl rest).1, ∃ e' ∈ (k, b) :: rest, e'.2.reqLine = e.2.reqLine := by
      intro e he
      obtain ⟨e', h1, h2⟩ := ih e he
      exact ⟨e', List.mem_cons_of_mem _ h1, h2⟩
    unfold refresh at he
    split at he
    · rcases List.mem_cons.1 he with rfl | he
      · exact ⟨(k, b), by simp, rfl⟩
      · exact tail e he
    · split at he
      · exact ⟨e, he, rfl⟩
      · rename_i bp hc
        simp only at he
        cases hd : differs b.bp bp <;> rw [hd] at he <;> rcases List.mem_cons.1 he with rfl | he
        · exact ⟨(k, b), by simp, rfl⟩
        · exact tail e he
        · exact ⟨(k, b), by simp, rfl⟩
        · exact tail e he

theorem register_reqLine (p : Str) (line : Int) (ty : Nat) (s : Dbg) : ∀ e ∈ (register p line ty s).1.bps, ∃ e' ∈ s.bps, e'.2.reqLine = e.2.reqLine := by
  unfold register
  simp only
  split
  · intro e he; exact ⟨e, he, rfl⟩
  · exact refresh_reqLine _ _ _

theorem addBps_reqLine (src : Source) (m : Bool) (actual spath : Str) (si : Option FileLines) (P : Int → Prop) : ∀ (ls : List Int) (c : Nat) (d : Dict Nat LineBp),
    (∀ e ∈ d, P e.2.reqLine) → (∀ l ∈ ls, P l) → ∀ e ∈ (addBps src m actual spath si ls c d).1, P e.2.reqLine := by
  intro ls
  induction ls with
  | nil => intro c d hd _; exact hd
  | cons l ls ih =>
    intro c d hd hl
    unfold addBps
    cases m with
    | true => exact ih _ _ hd fun l h => hl l (List.mem_cons_of_mem _ h)
    | false =>
      simp only [cond_false]
      split
      · exact hd
      · refine ih _ _ ?_ fun l h => hl l (List.mem_cons_of_mem _ h)
        intro e he
        rcases Dict.mem_set _ _ _ _ he with rfl | h
        · exact hl l List.mem_cons_self
        · exact hd e h

/-- All tables begin with an entry, and no kept breakpoint was requested at a negative line. -/
structure Mild (s : Dbg) : Prop where
  tables : Tables s
  lines : ∀ e ∈ s.bps, 0 ≤ e.2.reqLine

theorem mild_init : Mild {} := ⟨tables_init, by intro e he; cases he⟩

theorem mild_step {s : Dbg} (h : Mild s) (a : Act) (ha : Sane a) : Mild (step s a).1 := by
  refine ⟨tables_step h.1 a, ?_⟩
  cases a with
  | setBps seq src m ls =>
    refine addBps_reqLine _ _ _ _ _ (fun l => 0 ≤ l) ls _ _ ?_ ha
    intro e he; exact h.2 e (List.mem_filter.1 he).1
  | setExc seq fs => exact h.2
  | config ms => exact h.2
  | disconnect => intro e he; cases he
  | reg p line ty =>
    intro e he
    obtain ⟨e', h1, h2⟩ := register_reqLine p line ty s e he
    rw [← h2]; exact h.2 e' h1

theorem mild_run : ∀ (as : List Act) (s : Dbg), Mild s → (∀ a ∈ as, Sane a) → Mild (run s as).1
  | [], _, h, _ => h
  | a :: as, s, h, ha => mild_run as (step s a).1 (mild_step h a (ha a List.mem_cons_self)) fun a h => ha a (List.mem_cons_of_mem _ h)

end Verif.Bp
