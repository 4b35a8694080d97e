import Verif.Bp.Inv
/-! The client's mirror of the breakpoints. -/

namespace Verif.Bp
open Verif

/-- Fold of events over one breakpoint. -/
def upd (ev : List Bp) (b : Bp) : Bp := ev.foldl (fun b m => if b.id = m.id then m else b) b

theorem upd_none (ev : List Bp) (b : Bp) (h : ∀ m ∈ ev, m.id ≠ b.id) : upd ev b = b := by
  induction ev generalizing b with
  | nil => rfl
  | cons m t ih =>
    simp only [upd, List.foldl_cons]
    rw [if_neg (fun e => h m List.mem_cons_self e.symm)]
    exact ih b (fun m' hm => h m' (List.mem_cons_of_mem _ hm))

theorem upd_mem (ev : List Bp) (b m : Bp) (hm : m ∈ ev) (hid : m.id = b.id)
    (hu : ∀ m' ∈ ev, m'.id = b.id → m' = m) : upd ev b = m := by
  induction ev generalizing b with
  | nil => cases hm
  | cons x t ih =>
    simp only [upd, List.foldl_cons]
    have hu' : ∀ m' ∈ t, m'.id = b.id → m' = m := fun m' h' => hu m' (List.mem_cons_of_mem _ h')
    by_cases hx : b.id = x.id
    · rw [if_pos hx]
      have hxm := hu x List.mem_cons_self hx.symm
      subst hxm
      by_cases hmt : x ∈ t
      · exact ih x hmt rfl (fun m' h' e => hu' m' h' (by rw [e, hid]))
      · apply upd_none
        intro m' h' e
        exact hmt ((hu' m' h' (by rw [e, hid])) ▸ h')
    · rw [if_neg hx]
      rcases List.mem_cons.1 hm with rfl | hm
      · exact absurd hid.symm hx
      · exact ih b hm hid hu'

theorem upd_id (ev : List Bp) (b : Bp) : (upd ev b).id = b.id := by
  induction ev generalizing b with
  | nil => rfl
  | cons m t ih =>
    simp only [upd, List.foldl_cons]
    have := ih (if b.id = m.id then m else b)
    unfold upd at this
    rw [this]
    split
    · rename_i h; exact h.symm
    · rfl

theorem get?_map_val {κ α β : Type} [DecidableEq κ] (d : Dict κ α) (f : α → β) (k : κ) :
    Dict.get? (d.map fun e => (e.1, f e.2)) k = (Dict.get? d k).map f := by
  induction d with
  | nil => rfl
  | cons a t ih =>
    obtain ⟨k', v⟩ := a
    simp only [List.map_cons, Dict.get?]
    split
    · rfl
    · exact ih

/-- The breakpoints in a list of events. -/
def evBps (os : List Out) : List Bp := os.filterMap fun | .bpChanged bp => some bp | _ => none

theorem view_events (sp : Str) (os : List Out) (h : ∀ o ∈ os, ∃ bp, o = .bpChanged bp) : ∀ (v : View) (p : Str),
    ((os.foldl (View.recv sp) v).get? p).getD [] = ((v.get? p).getD []).map (upd (evBps os)) := by
  induction os with
  | nil => intro v p; simp [evBps, show upd [] = id from rfl]
  | cons o t ih =>
    intro v p
    obtain ⟨bp, rfl⟩ := h o List.mem_cons_self
    rw [List.foldl_cons, ih (fun o ho => h o (List.mem_cons_of_mem _ ho))]
    have : (View.recv sp v (.bpChanged bp)).get? p = (v.get? p).map (List.map fun b => if b.id = bp.id then bp else b) :=
      get?_map_val v _ p
    rw [this]
    cases v.get? p with
    | none => rfl
    | some l =>
      simp only [Option.map_some, Option.getD_some, List.map_map]
      rfl

theorem changes_ev (path : Str) (fl : FileLines) (d : Dict Nat LineBp) : ∀ o ∈ changes path fl d, ∃ bp, o = .bpChanged bp := by
  intro o ho
  obtain ⟨e, he, h⟩ := List.mem_filterMap.1 ho
  split at h
  · exact ⟨_, (Option.some.inj h).symm⟩
  · cases h

theorem evBps_changes (path : Str) (fl : FileLines) (d : Dict Nat LineBp) (m : Bp) :
    m ∈ evBps (changes path fl d) ↔ ∃ e ∈ d, e.2.actualPath = path ∧ e.2.bp ≠ theBp fl e.2 ∧ m = theBp fl e.2 := by
  unfold evBps changes
  simp only [List.mem_filterMap]
  constructor
  · rintro ⟨o, ⟨e, he, h⟩, ho⟩
    split at h
    · rename_i hc
      cases h
      simp only [Option.some.injEq] at ho
      exact ⟨e, he, hc.1, hc.2, ho.symm⟩
    · cases h
  · rintro ⟨e, he, h1, h2, rfl⟩
    exact ⟨_, ⟨e, he, if_pos ⟨h1, h2⟩⟩, rfl⟩

structure Mirror (v : View) (s : Dbg) : Prop where
  same : ∀ p, ((v.get? p).getD []).filter (fun b => b.line.isSome) =
    (s.bps.filter fun e => decide (e.2.sourcePath = p)).map (·.2.bp)
  rest : ∀ p, ∀ b ∈ (v.get? p).getD [], b.line = none → b.verified = false ∧ b.id < s.counter ∧ b.id ∉ s.bps.map (·.1)

theorem current_line {R : Str → List (Nat × Nat)} {b : LineBp} (h : Current R b) : b.bp.line.isSome = true ∧ b.bp.id = b.id := by
  obtain ⟨req, -, ⟨-, h⟩ | ⟨-, e, z, v, -, h⟩⟩ := h
  · rw [h]; exact ⟨rfl, rfl⟩
  · rw [h]; exact ⟨rfl, rfl⟩

theorem sorted_inj {d : Dict Nat LineBp} (h : (d.map (·.1)).Pairwise (· < ·)) {a b : Nat × LineBp} (ha : a ∈ d) (hb : b ∈ d)
    (hab : a.1 = b.1) : a = b := by
  induction d with
  | nil => cases ha
  | cons x t ih =>
    rw [List.map_cons, List.pairwise_cons] at h
    rcases List.mem_cons.1 ha with rfl | ha'
    · rcases List.mem_cons.1 hb with rfl | hb'
      · rfl
      · exact absurd (h.1 b.1 (List.mem_map_of_mem hb')) (by omega)
    · rcases List.mem_cons.1 hb with rfl | hb'
      · exact absurd (h.1 a.1 (List.mem_map_of_mem ha')) (by omega)
      · exact ih h.2 ha' hb'

theorem mirror_reg {R : Str → List (Nat × Nat)} {v : View} {s : Dbg} (hi : Inv R s) (hm : Mirror v s) (p : Str) (l ty : Nat) :
    Mirror ((register p (l : Int) ty s).2.1.foldl (View.recv []) v) (register p (l : Int) ty s).1 := by
  obtain ⟨fl', hrep, h1, h2⟩ := register_ok hi p l ty
  rw [h1]
  simp only
  have hkey : ∀ e ∈ s.bps, (renew p fl' e).2.bp = upd (evBps (changes p fl' s.bps)) e.2.bp := by
    intro e he
    have hid : ∀ a ∈ s.bps, a.2.actualPath = p → (theBp fl' a.2).id = a.1 := by
      intro a ha hp
      have := (current_line (h2.bps (renew p fl' a) (List.mem_map_of_mem ha)).2.2)
      have h3 := (h2.bps (renew p fl' a) (List.mem_map_of_mem ha)).1
      unfold renew at this h3
      rw [if_pos hp] at this h3
      simp only at this h3
      rw [this.2, ← h3]
    have hide : e.2.bp.id = e.1 := by rw [(current_line (hi.bps e he).2.2).2, (hi.bps e he).1]
    unfold renew
    by_cases hp : e.2.actualPath = p
    · rw [if_pos hp]
      by_cases hc : e.2.bp = theBp fl' e.2
      · rw [upd_none]
        · exact hc.symm
        · intro m hmm hme
          obtain ⟨a, ha, g1, g2, rfl⟩ := (evBps_changes _ _ _ _).1 hmm
          have : a = e := sorted_inj hi.sorted ha he (by rw [← hid a ha g1, hme, hide])
          subst this
          exact g2 hc
      · symm
        apply upd_mem
        · exact (evBps_changes _ _ _ _).2 ⟨e, he, hp, hc, rfl⟩
        · rw [hid e he hp, hide]
        · intro m hmm hme
          obtain ⟨a, ha, g1, g2, rfl⟩ := (evBps_changes _ _ _ _).1 hmm
          have : a = e := sorted_inj hi.sorted ha he (by rw [← hid a ha g1, hme, hide])
          subst this
          rfl
    · rw [if_neg hp, upd_none]
      intro m hmm hme
      obtain ⟨a, ha, g1, g2, rfl⟩ := (evBps_changes _ _ _ _).1 hmm
      have : a = e := sorted_inj hi.sorted ha he (by rw [← hid a ha g1, hme, hide])
      subst this
      exact hp g1
  have hkeys : (s.bps.map (renew p fl')).map (·.1) = s.bps.map (·.1) := by
    rw [List.map_map]
    apply List.map_congr_left
    intro a _
    simp only [Function.comp, renew]
    split <;> rfl
  -- entries of the view that are not kept are untouched
  have hrest : ∀ q, ∀ b ∈ (v.get? q).getD [], b.line = none → upd (evBps (changes p fl' s.bps)) b = b := by
    intro q b hb hl
    obtain ⟨-, -, h3⟩ := hm.rest q b hb hl
    apply upd_none
    intro m hmm hme
    obtain ⟨a, ha, g1, g2, rfl⟩ := (evBps_changes _ _ _ _).1 hmm
    apply h3
    have h4 := (current_line (h2.bps (renew p fl' a) (List.mem_map_of_mem ha)).2.2)
    have h5 := (h2.bps (renew p fl' a) (List.mem_map_of_mem ha)).1
    unfold renew at h4 h5
    rw [if_pos g1] at h4 h5
    simp only at h4 h5
    rw [← hme, h4.2, ← h5]
    exact List.mem_map_of_mem ha
  have hkept : ∀ q, ∀ b ∈ (v.get? q).getD [], b.line.isSome = true →
      ∃ e ∈ s.bps, e.2.bp = b := by
    intro q b hb hl
    have : b ∈ ((v.get? q).getD []).filter (fun b => b.line.isSome) := List.mem_filter.2 ⟨hb, hl⟩
    rw [hm.same q] at this
    obtain ⟨e, he, rfl⟩ := List.mem_map.1 this
    exact ⟨e, (List.mem_filter.1 he).1, rfl⟩
  have hline : ∀ q, ∀ b ∈ (v.get? q).getD [], (upd (evBps (changes p fl' s.bps)) b).line.isSome = b.line.isSome := by
    intro q b hb
    cases hl : b.line with
    | none => rw [hrest q b hb hl, hl]
    | some x =>
      obtain ⟨e, he, rfl⟩ := hkept q b hb (by rw [hl]; rfl)
      rw [← hkey e he, (current_line (h2.bps (renew p fl' e) (List.mem_map_of_mem he)).2.2).1]
      rfl
  constructor
  · intro q
    rw [view_events _ _ (changes_ev _ _ _), List.filter_map]
    have : ((v.get? q).getD []).filter ((fun b => b.line.isSome) ∘ upd (evBps (changes p fl' s.bps))) =
        ((v.get? q).getD []).filter (fun b => b.line.isSome) := by
      apply List.filter_congr
      intro b hb
      exact hline q b hb
    rw [this, hm.same q, List.map_map, List.filter_map, List.map_map]
    have hf : s.bps.filter ((fun e => decide (e.2.sourcePath = q)) ∘ renew p fl') =
        s.bps.filter (fun e => decide (e.2.sourcePath = q)) := by
      apply List.filter_congr
      intro a _
      simp only [Function.comp, renew]
      split <;> rfl
    rw [hf]
    apply List.map_congr_left
    intro e he
    exact (hkey e (List.mem_filter.1 he).1).symm
  · intro q b hb hl
    rw [view_events _ _ (changes_ev _ _ _)] at hb
    obtain ⟨b', hb', rfl⟩ := List.mem_map.1 hb
    have hl' : b'.line = none := by
      have := hline q b' hb'
      rw [hl] at this
      cases hb'l : b'.line with
      | none => rfl
      | some x => rw [hb'l] at this; cases this
    rw [hrest q b' hb' hl', hkeys]
    exact hm.rest q b' hb' hl'

theorem newEntries_filter (src : Source) (actual spath : Str) (f : Nat → Int → Bp) (c : Nat) (ls : List Int) (p : Str) :
    (newEntries src actual spath f c ls).filter (fun e => decide (e.2.sourcePath = p)) =
      if spath = p then newEntries src actual spath f c ls else [] := by
  split
  · rename_i h
    rw [List.filter_eq_self]
    intro e he
    obtain ⟨k, l, -, -, -, rfl⟩ := newEntries_mem _ _ _ _ _ _ e he
    simpa using h
  · rename_i h
    rw [List.filter_eq_nil_iff]
    intro e he
    obtain ⟨k, l, -, -, -, rfl⟩ := newEntries_mem _ _ _ _ _ _ e he
    simpa using h

theorem filter_other (d : Dict Nat LineBp) (sp p : Str) :
    (d.filter fun e => decide (e.2.sourcePath ≠ sp)).filter (fun e => decide (e.2.sourcePath = p)) =
      if sp = p then [] else d.filter (fun e => decide (e.2.sourcePath = p)) := by
  rw [List.filter_filter]
  split
  · rename_i h
    subst h
    rw [List.filter_eq_nil_iff]
    intro e _
    simp
  · rename_i h
    apply List.filter_congr
    intro e _
    by_cases he : e.2.sourcePath = p
    · have h' : p ≠ sp := fun x => h x.symm
      simp [he, h']
    · simp [he]

theorem mirror_set {R : Str → List (Nat × Nat)} {v : View} {s : Dbg} (hi : Inv R s) (hm : Mirror v s)
    (seq : Nat) (src : Source) (m : Bool) (ls : List Int) (hl : ∀ l ∈ ls, 0 ≤ l) :
    Mirror ((setBreakpoints seq src m ls s).2.foldl (View.recv (src.path.getD [])) v) (setBreakpoints seq src m ls s).1 := by
  have hother : ∀ (x : List Bp) (q : Str), ((Dict.set v (src.path.getD []) x).get? q).getD [] =
      if src.path.getD [] = q then x else (v.get? q).getD [] := by
    intro x q
    rw [Dict.get?_set]
    split <;> rfl
  have hkeep : ∀ e, e ∈ s.bps.filter (fun e => decide (e.2.sourcePath ≠ src.path.getD [])) → e ∈ s.bps :=
    fun e he => (List.mem_filter.1 he).1
  cases m with
  | true =>
    rw [setBreakpoints_modified]
    simp only [List.foldl_cons, List.foldl_nil, View.recv]
    constructor
    · intro q
      rw [hother, filter_other]
      split
      · rw [List.map_nil, List.filter_eq_nil_iff]
        intro b hb
        obtain ⟨i, -, rfl⟩ := List.mem_map.1 hb
        simp [modifiedBp]
      · exact hm.same q
    · intro q b hb hbl
      rw [hother] at hb
      split at hb
      · obtain ⟨i, hi', rfl⟩ := List.mem_map.1 hb
        have hr := List.mem_range'_1.1 hi'
        refine ⟨rfl, by simp only [modifiedBp]; omega, ?_⟩
        intro hc
        obtain ⟨e, he, hei⟩ := List.mem_map.1 hc
        have := (hi.bps e (hkeep e he)).2.1
        simp only [modifiedBp] at hei
        omega
      · obtain ⟨g1, g2, g3⟩ := hm.rest q b hb hbl
        refine ⟨g1, by simp only; omega, ?_⟩
        intro hc
        obtain ⟨e, he, hei⟩ := List.mem_map.1 hc
        exact g3 (hei ▸ List.mem_map_of_mem (hkeep e he))
  | false =>
    have hinv := inv_setBreakpoints hi seq src false ls hl
    rw [setBreakpoints_ok hi seq src ls hl] at hinv ⊢
    simp only [List.foldl_cons, List.foldl_nil, View.recv]
    constructor
    · intro q
      rw [hother, List.filter_append, filter_other, newEntries_filter]
      split
      · rw [List.nil_append, List.filter_eq_self]
        intro b hb
        obtain ⟨e, he, rfl⟩ := List.mem_map.1 hb
        exact (current_line (hinv.bps e (List.mem_append_right _ he)).2.2).1
      · rw [List.append_nil]
        exact hm.same q
    · intro q b hb hbl
      rw [hother] at hb
      split at hb
      · obtain ⟨e, he, rfl⟩ := List.mem_map.1 hb
        have := (current_line (hinv.bps e (List.mem_append_right _ he)).2.2).1
        rw [hbl] at this
        cases this
      · obtain ⟨g1, g2, g3⟩ := hm.rest q b hb hbl
        refine ⟨g1, by simp only; omega, ?_⟩
        intro hc
        rw [List.map_append, List.mem_append] at hc
        rcases hc with hc | hc
        · obtain ⟨e, he, hei⟩ := List.mem_map.1 hc
          exact g3 (hei ▸ List.mem_map_of_mem (hkeep e he))
        · rw [newEntries_ids] at hc
          have := List.mem_range'_1.1 hc
          omega

theorem mirror_step {h : List Act} {v : View} {s : Dbg} (hi : Inv (regsOf h) s) (hm : Mirror v s) (a : Act) (ha : Sane a) :
    Mirror (v.step a (step s a).2) (step s a).1 := by
  cases a with
  | setBps seq src m ls => exact mirror_set hi hm seq src m ls ha
  | setExc seq fs => exact ⟨hm.same, hm.rest⟩
  | config ms => exact ⟨hm.same, hm.rest⟩
  | disconnect => exact ⟨fun _ => rfl, fun _ b hb => by simp [View.step, Dict.get?] at hb⟩
  | reg p l t =>
    obtain ⟨n, rfl⟩ : ∃ n : Nat, l = n := ⟨l.toNat, by have : (0 : Int) ≤ l := ha; omega⟩
    exact mirror_reg hi hm p n t

theorem mirror_run {h : List Act} : ∀ (h0 : List Act) (v : View) (s : Dbg), Inv (regsOf h0) s → Mirror v s → (∀ a ∈ h, Sane a) →
    Mirror (View.run v s h) (run s h).1 := by
  induction h with
  | nil => intro h0 v s _ hm _; exact hm
  | cons a t ih =>
    intro h0 v s hi hm hs
    exact ih (h0 ++ [a]) _ _ (inv_step hi a (hs a List.mem_cons_self)) (mirror_step hi hm a (hs a List.mem_cons_self))
      (fun b hb => hs b (List.mem_cons_of_mem _ hb))

theorem mirror_hist (h : List Act) (hs : ∀ a ∈ h, Sane a) : Mirror (View.run [] {} h) (run {} h).1 :=
  mirror_run [] [] {} inv_init ⟨fun _ => rfl, fun _ b hb => by simp [Dict.get?] at hb⟩ hs

end Verif.Bp
