import Verif.Bp.Race
import Verif.Bp.Heal
import Verif.Bp.RaceView
import Verif.Bp.Scan
/-!
# Breakpoints (C21 - C31)

Model: `Verif.Bp.Model` (and `Verif.Bp.Race` for thread interleavings); specification vocabulary:
`Verif.Bp.Spec`. Histories start in the state of a new debuggee (`{}`) and contain setBreakpoints
and setExceptionBreakpoints requests, configuration events, disconnects and registrations.
-/

namespace Verif.Props.Bp
open Verif Verif.Bp

/-- A file `site.yml` with a play at line 1, a task at 3, an explicit block at 5 and tasks at 6
and 9, for the examples. -/
def exPath : Str := py!"site.yml"
/-- The source of that file. -/
def exSrc : Source := { name := none, path := some exPath }
/-- A history that loads the file after a breakpoint was set at line 7. -/
def exHist : List Act :=
  [.setBps 1 exSrc false [7], .reg exPath 1 1, .reg exPath 3 1, .reg exPath 5 0, .reg exPath 6 1, .reg exPath 9 1]

theorem exSane : ∀ a ∈ exHist, Sane a := by
  intro a ha
  simp only [exHist, List.mem_cons, List.not_mem_nil, or_false] at ha
  rcases ha with rfl | rfl | rfl | rfl | rfl | rfl <;> simp [Sane]

/-! ## C21 -/

/-- **C21.** After any history, a setBreakpoints request for an unmodified source is answered, and
the breakpoint for a requested line is: if the file is loaded, the range from the greatest known
entry at or before the line up to the last line before the next entry (or the last known line),
verified iff that entry can be stopped at; if it is not loaded, unverified at the requested line. -/
theorem C21_answer_is_snapped (h : List Act) (hs : ∀ a ∈ h, Sane a) (seq : Nat) (src : Source) (reqs : List Nat) :
    ∃ bps : List Bp, (step (run {} h).1 (.setBps seq src false (reqs.map Int.ofNat))).2 = [.setBpsResp seq bps] ∧
      bps.length = reqs.length ∧
      ∀ (i : Nat) req bp, reqs[i]? = some req → bps[i]? = some bp →
        Shown (regsOf h (toActual (run {} h).1.mappings (src.path.getD []))) req bp := by
  have hi := inv_hist h hs
  have hl : ∀ l ∈ reqs.map Int.ofNat, 0 ≤ l := by
    intro l hl
    obtain ⟨n, -, rfl⟩ := List.mem_map.1 hl
    exact Int.natCast_nonneg n
  refine ⟨_, by rw [step, setBreakpoints_ok hi seq src _ hl], ?_, ?_⟩
  · have := newEntries_ids src (toActual (run {} h).1.mappings (src.path.getD [])) (src.path.getD [])
      (answer src ((run {} h).1.info.get? (toActual (run {} h).1.mappings (src.path.getD [])))) (reqs.map Int.ofNat) (run {} h).1.counter
    have := congrArg List.length this
    simpa using this
  · suffices H : ∀ (c i : Nat) req bp, reqs[i]? = some req →
        ((newEntries src (toActual (run {} h).1.mappings (src.path.getD [])) (src.path.getD [])
          (answer src ((run {} h).1.info.get? (toActual (run {} h).1.mappings (src.path.getD [])))) c (reqs.map Int.ofNat)).map (·.2.bp))[i]? = some bp →
        Shown (regsOf h (toActual (run {} h).1.mappings (src.path.getD []))) req bp from
      fun i req bp h1 h2 => H _ i req bp h1 h2
    clear hl
    induction reqs with
    | nil => intro c i req bp h1; simp at h1
    | cons r t ih =>
      intro c i req bp h1 h2
      cases i with
      | zero =>
        simp only [List.getElem?_cons_zero, Option.some.injEq] at h1
        subst h1
        simp only [List.map_cons, newEntries, List.getElem?_cons_zero, Option.some.injEq] at h2
        subst h2
        rcases (fresh_ok hi src (toActual (run {} h).1.mappings (src.path.getD [])) c r).2 with ⟨g1, g2⟩ | ⟨g1, e, z, v, g2, g3⟩
        · exact ⟨fun _ => by erw [g2]; exact ⟨rfl, rfl, rfl⟩, fun hn => absurd g1 hn⟩
        · exact ⟨fun hn => absurd hn g1, fun _ => ⟨e, z, by erw [g3]; exact g2, by erw [g3]; rfl, by erw [g3]; rfl⟩⟩
      | succ i =>
        exact ih (c + 1) i req bp (by simpa using h1) (by simpa [newEntries] using h2)

/-- The range in C21 is unique: the registrations of the file determine what is shown. -/
theorem C21_unique (regs : List (Nat × Nat)) (req : Nat) (a b : Bp) (ha : Shown regs req a) (hb : Shown regs req b) :
    a.verified = b.verified ∧ a.line = b.line ∧ a.endLine = b.endLine := by
  by_cases h : regs = []
  · obtain ⟨a1, a2, a3⟩ := ha.1 h
    obtain ⟨b1, b2, b3⟩ := hb.1 h
    exact ⟨a1.trans b1.symm, a2.trans b2.symm, a3.trans b3.symm⟩
  · obtain ⟨e, z, h1, h2, h3⟩ := ha.2 h
    obtain ⟨e', z', g1, g2, g3⟩ := hb.2 h
    obtain ⟨rfl, rfl, hv⟩ := snapped_unique h1 g1
    exact ⟨hv, h2.trans g2.symm, h3.trans g3.symm⟩

/-- The range always exists. -/
theorem C21_exists (regs : List (Nat × Nat)) (req : Nat) : ∃ e z v, Snapped regs req e z v := by
  obtain ⟨fl, h⟩ : ∃ fl, Rep regs fl := by
    induction regs using snocInd with
    | h0 => exact ⟨_, rep_nil⟩
    | h1 l r ih =>
      obtain ⟨fl, h⟩ := ih
      obtain ⟨fl', -, h'⟩ := rep_reg h r.1 r.2
      exact ⟨fl', h'⟩
  obtain ⟨e, z, v, -, h2⟩ := calculate_nat h 0 ⟨none, none⟩ req
  exact ⟨e, z, v, h2⟩

/-- Line 7 of the example file belongs to the task at 6 (lines 6 to 8), line 5 to the block, which
cannot be stopped at. -/
example : (step (run {} exHist).1 (.setBps 2 exSrc false [7, 5, 100])).2 =
    [.setBpsResp 2 [
      { id := 2, verified := true, message := none, source := exSrc, line := some 6, endLine := some 8 },
      { id := 3, verified := false, message := some msgCannot, source := exSrc, line := some 5, endLine := some 5 },
      { id := 4, verified := true, message := none, source := exSrc, line := some 9, endLine := some 9 }]] := by decide +kernel

/-- Why lines must not be negative: on a loaded file a negative line is answered with an error
although the breakpoints of the source are already gone. -/
theorem C21_negative_line_partial : (step (run {} exHist).1 (.setBps 2 exSrc false [-100])).2 = [.error 2] ∧
    (run {} exHist).1.bps ≠ [] ∧ (step (run {} exHist).1 (.setBps 2 exSrc false [-100])).1.bps = [] := by decide +kernel

/-! ## C22 -/

/-- **C22.** After any history, every breakpoint the debuggee keeps shows what the registrations of
its file so far determine. -/
theorem C22_kept_up_to_date (h : List Act) (hs : ∀ a ∈ h, Sane a) :
    ∀ e ∈ (run {} h).1.bps, ∃ req : Nat, e.2.reqLine = (req : Int) ∧ Shown (regsOf h e.2.actualPath) req e.2.bp := by
  intro e he
  obtain ⟨-, -, req, hr, hc⟩ := (inv_hist h hs).bps e he
  refine ⟨req, hr, ?_⟩
  rcases hc with ⟨g1, g2⟩ | ⟨g1, e', z, v, g2, g3⟩
  · exact ⟨fun _ => by rw [g2]; exact ⟨rfl, rfl, rfl⟩, fun hn => absurd g1 hn⟩
  · exact ⟨fun hn => absurd hn g1, fun _ => ⟨e', z, by rw [g3]; exact g2, by rw [g3]; rfl, by rw [g3]; rfl⟩⟩

/-- In particular a breakpoint of a file that is not loaded is unverified. -/
theorem C22_not_loaded_unverified (h : List Act) (hs : ∀ a ∈ h, Sane a) :
    ∀ e ∈ (run {} h).1.bps, regsOf h e.2.actualPath = [] → e.2.bp.verified = false := by
  intro e he hn
  obtain ⟨req, -, hsh⟩ := C22_kept_up_to_date h hs e he
  exact (hsh.1 hn).1

/-- **C22.** Every kept breakpoint carries the source it was set for and says why it is not verified: the file was not
loaded yet, or the place is none to stop at; a verified one says nothing. (What the client holds is the same, C23.) -/
theorem C22_reason (h : List Act) (hs : ∀ a ∈ h, Sane a) :
    ∀ e ∈ (run {} h).1.bps, e.2.bp.source = e.2.source ∧
      (regsOf h e.2.actualPath = [] →
        e.2.bp.message = some py!"File has not been loaded by Ansible, cannot detect breakpoints yet.") ∧
      (regsOf h e.2.actualPath ≠ [] →
        e.2.bp.message = if e.2.bp.verified = true then none else some py!"Breakpoint cannot be set here.") := by
  intro e he
  obtain ⟨-, -, req, -, hc⟩ := (inv_hist h hs).bps e he
  rcases hc with ⟨g1, g2⟩ | ⟨g1, e', z, v, g2, g3⟩
  · exact ⟨by rw [g2]; rfl, fun _ => by rw [g2]; rfl, fun hn => absurd g1 hn⟩
  · exact ⟨by rw [g3]; rfl, fun hn => absurd hn g1, fun _ => by rw [g3]; cases v <;> rfl⟩

/-- The breakpoint set before the file was loaded ended up on the task at line 6. -/
example : (run {} exHist).1.bps = [(1, { id := 1, source := exSrc, reqLine := 7, actualPath := exPath, sourcePath := exPath, bp :=
    { id := 1, verified := true, message := none, source := exSrc, line := some 6, endLine := some 8 } })] := by decide +kernel

/-! ## C23 -/

/-- **C23.** After any history, what the client holds for a source (leaving out the entries without
a location) is exactly the list of breakpoints the debuggee keeps for it. -/
theorem C23_client_view (h : List Act) (hs : ∀ a ∈ h, Sane a) (p : Str) :
    (((View.run [] {} h).get? p).getD []).filter (fun b => b.line.isSome) =
      ((run {} h).1.bps.filter fun e => decide (e.2.sourcePath = p)).map (·.2.bp) :=
  (mirror_hist h hs).same p

/-- **C23.** The entries without a location are those of a modified source: they are unverified and
not kept by the debuggee. -/
theorem C23_client_rest (h : List Act) (hs : ∀ a ∈ h, Sane a) (p : Str) :
    ∀ b ∈ ((View.run [] {} h).get? p).getD [], b.line = none →
      b.verified = false ∧ ∀ e ∈ (run {} h).1.bps, e.2.id ≠ b.id := by
  intro b hb hl
  obtain ⟨h1, -, h3⟩ := (mirror_hist h hs).rest p b hb hl
  refine ⟨h1, fun e he hid => h3 ?_⟩
  rw [← hid, ← ((inv_hist h hs).bps e he).1]
  exact List.mem_map_of_mem he

/-- **C23.** After any history, a registration sends exactly one event per kept breakpoint whose
shown data it changed, in order, with the new data. -/
theorem C23_events_are_changes (h : List Act) (hs : ∀ a ∈ h, Sane a) (p : Str) (l t : Nat) :
    (step (run {} h).1 (.reg p l t)).2 =
      (((run {} h).1.bps.zip (step (run {} h).1 (.reg p l t)).1.bps).filterMap fun x =>
        if x.1.2.bp ≠ x.2.2.bp then some (.bpChanged x.2.2.bp) else none) := by
  obtain ⟨fl', -, h1, -⟩ := register_ok (inv_hist h hs) p l t
  simp only [step, h1]
  generalize (run {} h).1.bps = d
  induction d with
  | nil => rfl
  | cons a t ih =>
    simp only [List.map_cons, List.zip_cons_cons, List.filterMap_cons, changes]
    simp only [changes] at ih
    rw [ih]
    by_cases hp : a.2.actualPath = p
    · simp only [hp, renew, if_true, true_and]
    · simp only [hp, renew, if_false, false_and, ne_eq, not_true_eq_false]

/-- The events of the example: the breakpoint moves when the play, the tasks at 3 and 6 and the
block at 5 are found, and again when the task at 9 ends its range. -/
example : (run {} exHist).2.length = 6 ∧ View.run [] {} exHist =
    [(exPath, [{ id := 1, verified := true, message := none, source := exSrc, line := some 6, endLine := some 8 }])] := by decide +kernel

/-! ## C24 -/

/-- **C24.** In any state with no negative lines, a request for a modified source is answered with
one unverified breakpoint per entry, none of which is kept. -/
theorem C24_modified (seq : Nat) (src : Source) (ls : List Int) (s : Dbg) :
    (step s (.setBps seq src true ls)).2 = [.setBpsResp seq ((List.range' s.counter ls.length).map fun i => modifiedBp i src)] ∧
    (∀ e ∈ (step s (.setBps seq src true ls)).1.bps, e ∈ s.bps ∧ e.2.sourcePath ≠ src.path.getD []) := by
  rw [step, setBreakpoints_modified]
  refine ⟨rfl, fun e he => ?_⟩
  have := List.mem_filter.1 he
  exact ⟨this.1, by simpa using this.2⟩

/-- **C24.** They have no location and say that the source is modified. -/
theorem C24_modified_reason (seq : Nat) (src : Source) (ls : List Int) (s : Dbg) :
    ∃ bps, (step s (.setBps seq src true ls)).2 = [.setBpsResp seq bps] ∧ bps.length = ls.length ∧
      ∀ b ∈ bps, b.verified = false ∧ b.line = none ∧ b.endLine = none ∧ b.source = src ∧
        b.message = some py!"Cannot set breakpoint on a modified source." := by
  refine ⟨_, (C24_modified seq src ls s).1, by simp, fun b hb => ?_⟩
  obtain ⟨i, -, rfl⟩ := List.mem_map.1 hb
  exact ⟨rfl, rfl, rfl, rfl, rfl⟩

/-- **C24.** After any history a request is answered with exactly one breakpoint per entry, and
their ids are the next free numbers in order; the answer of an unmodified source lists the kept
breakpoints of that source, whose requested lines are the requested ones in order. -/
theorem C24_one_per_entry (h : List Act) (hs : ∀ a ∈ h, Sane a) (seq : Nat) (src : Source) (m : Bool) (ls : List Int)
    (hl : ∀ l ∈ ls, 0 ≤ l) :
    ∃ bps, (step (run {} h).1 (.setBps seq src m ls)).2 = [.setBpsResp seq bps] ∧
      bps.map (·.id) = List.range' (run {} h).1.counter ls.length ∧
      (m = false → bps = ((step (run {} h).1 (.setBps seq src m ls)).1.bps.filter
        fun e => decide (e.2.sourcePath = src.path.getD [])).map (·.2.bp)) := by
  have hi := inv_hist h hs
  cases m with
  | true =>
    refine ⟨_, by rw [step, setBreakpoints_modified], ?_, by simp⟩
    rw [List.map_map]
    simp [Function.comp_def, modifiedBp]
  | false =>
    have hinv := inv_setBreakpoints hi seq src false ls hl
    rw [setBreakpoints_ok hi seq src ls hl] at hinv
    refine ⟨_, by rw [step, setBreakpoints_ok hi seq src ls hl], ?_, ?_⟩
    · rw [← newEntries_ids src (toActual (run {} h).1.mappings (src.path.getD [])) (src.path.getD [])
        (answer src ((run {} h).1.info.get? (toActual (run {} h).1.mappings (src.path.getD [])))) ls, List.map_map]
      apply List.map_congr_left
      intro e he
      have := hinv.bps e (List.mem_append_right _ he)
      simp only [Function.comp]
      rw [(current_line this.2.2).2, this.1]
    · intro _
      rw [step, setBreakpoints_ok hi seq src ls hl]
      simp only
      rw [List.filter_append, filter_other, newEntries_filter, if_pos rfl, if_pos rfl, List.nil_append]

theorem ids_step {h : List Act} {s : Dbg} (hi : Inv (regsOf h) s) (a : Act) (ha : Sane a) :
    ∃ n, idsGiven (step s a).2 = List.range' s.counter n ∧ (step s a).1.counter = s.counter + n := by
  cases a with
  | setBps seq src m ls =>
    cases m with
    | true =>
      refine ⟨ls.length, ?_, by rw [step, setBreakpoints_modified]⟩
      rw [step, setBreakpoints_modified]
      simp [idsGiven, Function.comp_def, modifiedBp]
    | false =>
      have hinv := inv_setBreakpoints hi seq src false ls ha
      rw [setBreakpoints_ok hi seq src ls ha] at hinv
      refine ⟨ls.length, ?_, by rw [step, setBreakpoints_ok hi seq src ls ha]⟩
      rw [step, setBreakpoints_ok hi seq src ls ha]
      simp only [idsGiven, List.flatMap_cons, List.flatMap_nil, List.append_nil]
      rw [← newEntries_ids src (toActual s.mappings (src.path.getD [])) (src.path.getD [])
        (answer src (s.info.get? (toActual s.mappings (src.path.getD [])))) ls, List.map_map]
      apply List.map_congr_left
      intro e he
      have := hinv.bps e (List.mem_append_right _ he)
      simp only [Function.comp]
      rw [(current_line this.2.2).2, this.1]
  | setExc seq fs => exact ⟨0, rfl, rfl⟩
  | config ms => exact ⟨0, rfl, rfl⟩
  | disconnect => exact ⟨0, rfl, rfl⟩
  | reg p l t =>
    obtain ⟨n, rfl⟩ : ∃ n : Nat, l = n := ⟨l.toNat, by have : (0 : Int) ≤ l := ha; omega⟩
    obtain ⟨fl', -, h1, -⟩ := register_ok hi p n t
    refine ⟨0, ?_, by simp [step, h1]⟩
    simp only [step, h1, idsGiven, List.range'_zero, List.flatMap_eq_nil_iff]
    intro o ho
    obtain ⟨bp, rfl⟩ := changes_ev _ _ _ o ho
    rfl

theorem ids_run (h : List Act) : ∀ (h0 : List Act) (s : Dbg), Inv (regsOf h0) s → (∀ a ∈ h, Sane a) →
    ∃ n, idsGiven (run s h).2 = List.range' s.counter n ∧ (run s h).1.counter = s.counter + n := by
  induction h with
  | nil => intro h0 s _ _; exact ⟨0, rfl, rfl⟩
  | cons a t ih =>
    intro h0 s hi hs
    have ha := hs a List.mem_cons_self
    obtain ⟨n, h1, h2⟩ := ids_step hi a ha
    obtain ⟨m, g1, g2⟩ := ih (h0 ++ [a]) (step s a).1 (inv_step hi a ha) (fun b hb => hs b (List.mem_cons_of_mem _ hb))
    refine ⟨n + m, ?_, by simp only [run]; omega⟩
    have : idsGiven (run s (a :: t)).2 = idsGiven (step s a).2 ++ idsGiven (run (step s a).1 t).2 := by
      simp [run, idsGiven, List.flatMap_append]
    rw [this, h1, g1, h2, List.range'_append_1]

/-- **C24.** No id is ever given out twice, over the whole life of the debuggee (so also across
disconnects). -/
theorem C24_ids_never_reused (h : List Act) (hs : ∀ a ∈ h, Sane a) : (idsGiven (run {} h).2).Nodup := by
  obtain ⟨n, h1, -⟩ := ids_run h [] {} inv_init hs
  rw [h1]
  exact List.nodup_range'

example : idsGiven (run {} (exHist ++ [.setBps 2 exSrc true [1, 2], .disconnect, .setBps 3 exSrc false [3]])).2 = [1, 2, 3, 4] := by
  decide +kernel

/-! ## C25 -/

/-- **C25.** After a request for an unmodified source, the kept breakpoints of that source are
exactly the requested lines, in order, each set on the Ansible path of the source. -/
theorem C25_replaces_source (h : List Act) (hs : ∀ a ∈ h, Sane a) (seq : Nat) (src : Source) (ls : List Int)
    (hl : ∀ l ∈ ls, 0 ≤ l) :
    (((step (run {} h).1 (.setBps seq src false ls)).1.bps.filter fun e => decide (e.2.sourcePath = src.path.getD [])).map
      fun e => (e.2.reqLine, e.2.actualPath)) =
      ls.map fun l => (l, toActual (run {} h).1.mappings (src.path.getD [])) := by
  have hi := inv_hist h hs
  rw [step, setBreakpoints_ok hi seq src ls hl]
  simp only
  rw [List.filter_append, filter_other, newEntries_filter, if_pos rfl, if_pos rfl, List.nil_append]
  generalize (run {} h).1.counter = c
  generalize answer src ((run {} h).1.info.get? (toActual (run {} h).1.mappings (src.path.getD []))) = f
  induction ls generalizing c with
  | nil => rfl
  | cons l t ih =>
    simp only [newEntries, List.map_cons, List.cons.injEq, true_and]
    exact ih (fun l hl' => hl l (List.mem_cons_of_mem _ hl')) (c + 1)

/-- **C25.** A request for a modified source leaves no breakpoint of that source. -/
theorem C25_modified_clears (s : Dbg) (seq : Nat) (src : Source) (ls : List Int) :
    ((step s (.setBps seq src true ls)).1.bps.filter fun e => decide (e.2.sourcePath = src.path.getD [])) = [] := by
  rw [step, setBreakpoints_modified]
  simp only
  rw [filter_other, if_pos rfl]

/-- **C25.** A request leaves the breakpoints of every other source as they are. -/
theorem C25_other_sources_unchanged (h : List Act) (hs : ∀ a ∈ h, Sane a) (seq : Nat) (src : Source) (m : Bool) (ls : List Int)
    (hl : ∀ l ∈ ls, 0 ≤ l) (p : Str) (hp : p ≠ src.path.getD []) :
    ((step (run {} h).1 (.setBps seq src m ls)).1.bps.filter fun e => decide (e.2.sourcePath = p)) =
      (run {} h).1.bps.filter fun e => decide (e.2.sourcePath = p) := by
  have hp' : ¬ src.path.getD [] = p := fun e => hp e.symm
  cases m with
  | true =>
    rw [step, setBreakpoints_modified]
    simp only
    rw [filter_other, if_neg hp']
  | false =>
    rw [step, setBreakpoints_ok (inv_hist h hs) seq src ls hl]
    simp only
    rw [List.filter_append, filter_other, newEntries_filter, if_neg hp', if_neg hp', List.append_nil]

example : ((run {} [.setBps 1 exSrc false [3, 8], .setBps 2 { name := none, path := some py!"b.yml" } false [4],
    .setBps 3 exSrc false [5]]).1.bps.map fun e => (e.1, e.2.reqLine)) = [(3, 4), (4, 5)] := by decide +kernel

/-! ## C26 -/

theorem find_sorted {d : Dict Nat LineBp} {q : LineBp → Bool} (hs : (d.map (·.1)).Pairwise (· < ·)) (b : LineBp) :
    (d.map (·.2)).find? q = some b ↔
      q b = true ∧ ∃ k, (k, b) ∈ d ∧ ∀ k' b', (k', b') ∈ d → q b' = true → k ≤ k' := by
  induction d with
  | nil => simp
  | cons a t ih =>
    obtain ⟨k0, b0⟩ := a
    rw [List.map_cons, List.pairwise_cons] at hs
    simp only [List.map_cons, List.find?_cons]
    cases hq : q b0 with
    | true =>
      simp only [Option.some.injEq]
      constructor
      · rintro rfl
        refine ⟨hq, k0, List.mem_cons_self, fun k' b' hm _ => ?_⟩
        rcases List.mem_cons.1 hm with h | h
        · cases h; exact Nat.le_refl _
        · exact Nat.le_of_lt (hs.1 k' (List.mem_map_of_mem (f := (·.1)) h))
      · rintro ⟨-, k, hm, hmin⟩
        rcases List.mem_cons.1 hm with h | h
        · cases h; rfl
        · have h1 := hmin k0 b0 List.mem_cons_self hq
          have h2 := hs.1 k (List.mem_map_of_mem (f := (·.1)) h)
          simp only at h2
          omega
    | false =>
      simp only
      rw [ih hs.2]
      constructor
      · rintro ⟨h1, k, h2, h3⟩
        refine ⟨h1, k, List.mem_cons_of_mem _ h2, fun k' b' hm hq' => ?_⟩
        rcases List.mem_cons.1 hm with h | h
        · cases h; rw [hq] at hq'; cases hq'
        · exact h3 k' b' h hq'
      · rintro ⟨h1, k, h2, h3⟩
        refine ⟨h1, k, ?_, fun k' b' hm hq' => h3 k' b' (List.mem_cons_of_mem _ hm) hq'⟩
        rcases List.mem_cons.1 h2 with h | h
        · cases h; rw [hq] at h1; cases h1
        · exact h

theorem known_loaded {regs : List (Nat × Nat)} {l : Nat} (h : known regs l ≠ none) (h0 : l ≠ 0) : regs ≠ [] := by
  rintro rfl
  simp [known_nil, h0] at h

theorem covers_iff {h : List Act} {s : Dbg} (hi : Inv (regsOf h) s) (p : Str) (l : Nat) (h0 : l ≠ 0)
    (hk : known (regsOf h p) l ≠ none) (e : Nat × LineBp) (he : e ∈ s.bps) :
    covers p l e.2 = true ↔ e.2.actualPath = p ∧ ∃ req : Nat, e.2.reqLine = (req : Int) ∧ Governs (regsOf h p) req l := by
  obtain ⟨-, -, req, hr, hc⟩ := hi.bps e he
  unfold covers
  by_cases hp : e.2.actualPath = p
  · have hne := known_loaded hk h0
    rcases hc with ⟨g1, -⟩ | ⟨-, e', z, v, g2, g3⟩
    · rw [hp] at g1; exact absurd g1 hne
    · rw [hp] at g2
      rw [g3]
      simp only [mkBp, hp, beq_self_eq_true, Bool.true_and, Bool.and_eq_true, decide_eq_true_eq, true_and]
      constructor
      · rintro ⟨a, b⟩
        refine ⟨req, hr, ?_⟩
        have : l = e' := by
          by_cases hle : l = e'
          · exact hle
          · exact absurd (g2.2.1.2.2.1 l (by omega) (by omega)) hk
        rw [this]; exact g2.1
      · rintro ⟨req', hr', hg⟩
        obtain rfl : req = req' := by omega
        obtain rfl := governs_unique hg g2.1
        exact ⟨by omega, by have := g2.2.1.1; omega⟩
  · have : (e.2.actualPath == p) = false := by simp [hp]
    simp [this, hp]

/-- **C26.** After any history, for a task (or any other entry) at line `l` of file `p`, the
debuggee finds breakpoint `b` iff `b` is kept for that file, was requested at a line governed by
that very entry, and has the smallest id of all such breakpoints. -/
theorem C26_stop_iff_snapped (h : List Act) (hs : ∀ a ∈ h, Sane a) (p : Str) (l : Nat) (h0 : l ≠ 0)
    (hk : known (regsOf h p) l ≠ none) (b : LineBp) :
    getBreakpoint (run {} h).1 p l = some b ↔
      (b.actualPath = p ∧ ∃ req : Nat, b.reqLine = (req : Int) ∧ Governs (regsOf h p) req l) ∧
      (b.id, b) ∈ (run {} h).1.bps ∧
      ∀ e ∈ (run {} h).1.bps, (e.2.actualPath = p ∧ ∃ req : Nat, e.2.reqLine = (req : Int) ∧ Governs (regsOf h p) req l) → b.id ≤ e.2.id := by
  have hi := inv_hist h hs
  unfold getBreakpoint
  rw [find_sorted hi.sorted]
  constructor
  · rintro ⟨h1, k, h2, h3⟩
    have hid : k = b.id := (hi.bps _ h2).1
    subst hid
    refine ⟨(covers_iff hi p l h0 hk _ h2).1 h1, h2, fun e he hg => ?_⟩
    rw [← (hi.bps e he).1]
    exact h3 e.1 e.2 he ((covers_iff hi p l h0 hk e he).2 hg)
  · rintro ⟨h1, h2, h3⟩
    refine ⟨(covers_iff hi p l h0 hk _ h2).2 h1, b.id, h2, fun k' b' hm hc => ?_⟩
    have := h3 (k', b') hm ((covers_iff hi p l h0 hk _ hm).1 hc)
    rw [← (hi.bps _ hm).1] at this
    exact this

/-- **C26.** There is none iff no kept breakpoint of the file was requested at a line governed by
the entry. -/
theorem C26_no_stop_iff (h : List Act) (hs : ∀ a ∈ h, Sane a) (p : Str) (l : Nat) (h0 : l ≠ 0)
    (hk : known (regsOf h p) l ≠ none) :
    getBreakpoint (run {} h).1 p l = none ↔
      ∀ e ∈ (run {} h).1.bps, ¬ (e.2.actualPath = p ∧ ∃ req : Nat, e.2.reqLine = (req : Int) ∧ Governs (regsOf h p) req l) := by
  have hi := inv_hist h hs
  unfold getBreakpoint
  rw [List.find?_eq_none]
  constructor
  · intro hn e he hg
    exact hn e.2 (List.mem_map_of_mem he) ((covers_iff hi p l h0 hk e he).2 hg)
  · intro hn b hb
    obtain ⟨e, he, rfl⟩ := List.mem_map.1 hb
    intro hc
    exact hn e he ((covers_iff hi p l h0 hk e he).1 hc)

/-- In the example the task at 6 has the breakpoint requested at 7, the tasks at 3 and 9 have
none. -/
example : (getBreakpoint (run {} exHist).1 exPath 6).map (·.id) = some 1 ∧
    getBreakpoint (run {} exHist).1 exPath 9 = none ∧ getBreakpoint (run {} exHist).1 exPath 3 = none := by decide +kernel

example : known (regsOf exHist exPath) 6 ≠ none ∧ Governs (regsOf exHist exPath) 7 6 := by
  refine ⟨by decide, by decide, by decide, fun i h1 h2 => ?_⟩
  obtain rfl : i = 7 := by omega
  decide

/-! ## C27 -/

/-- Registrations as actions. -/
def regActs (rs : List (Str × Nat × Nat)) : List Act := rs.map fun r => .reg r.1 (r.2.1 : Int) r.2.2

theorem regActs_sane (rs : List (Str × Nat × Nat)) : ∀ a ∈ regActs rs, Sane a := by
  intro a ha
  obtain ⟨r, -, rfl⟩ := List.mem_map.1 ha
  exact Int.natCast_nonneg _

theorem run_append (h h' : List Act) : ∀ s, (run s (h ++ h')).1 = (run (run s h).1 h').1 := by
  induction h with
  | nil => intro s; rfl
  | cons a t ih => intro s; simp [run, ih]

/-- What registrations do to a breakpoint, given the tables afterwards. -/
def settle (info : Dict Str FileLines) (touched : Str → Prop) [DecidablePred touched] (e : Nat × LineBp) : Nat × LineBp :=
  if touched e.2.actualPath then (e.1, { e.2 with bp := theBp ((info.get? e.2.actualPath).getD [some 0]) e.2 }) else e

theorem regs_frame (rs : List (Str × Nat × Nat)) : ∀ s, (run s (regActs rs)).1.counter = s.counter ∧
    (run s (regActs rs)).1.mappings = s.mappings ∧ (run s (regActs rs)).1.exc = s.exc := by
  induction rs with
  | nil => intro s; exact ⟨rfl, rfl, rfl⟩
  | cons r t ih =>
    intro s
    obtain ⟨h1, h2, h3⟩ := ih (step s (.reg r.1 (r.2.1 : Int) r.2.2)).1
    have hs : ∀ x : Dbg, (run x (regActs (r :: t))).1 = (run (step x (.reg r.1 (r.2.1 : Int) r.2.2)).1 (regActs t)).1 := fun _ => rfl
    rw [hs, h1, h2, h3]
    simp only [step, register]
    split <;> exact ⟨rfl, rfl, rfl⟩

/-- The data of a kept breakpoint other than what is shown. -/
def asked (e : Nat × LineBp) : Nat × Nat × Source × Int × Str × Str :=
  (e.1, e.2.id, e.2.source, e.2.reqLine, e.2.actualPath, e.2.sourcePath)

theorem regs_asked (rs : List (Str × Nat × Nat)) : ∀ (h0 : List Act) (s : Dbg), Inv (regsOf h0) s →
    (run s (regActs rs)).1.bps.map asked = s.bps.map asked := by
  induction rs with
  | nil => intro h0 s _; rfl
  | cons r t ih =>
    intro h0 s hi
    obtain ⟨fl', -, h1, -⟩ := register_ok hi r.1 r.2.1 r.2.2
    have := ih (h0 ++ [.reg r.1 (r.2.1 : Int) r.2.2]) (step s (.reg r.1 (r.2.1 : Int) r.2.2)).1 (inv_step hi (.reg r.1 (r.2.1 : Int) r.2.2) (Int.natCast_nonneg r.2.1))
    show (run (step s (.reg r.1 (r.2.1 : Int) r.2.2)).1 (regActs t)).1.bps.map asked = _
    rw [this, step, h1]
    simp only [List.map_map]
    apply List.map_congr_left
    intro e _
    simp only [Function.comp, renew, asked]
    split <;> rfl

theorem known_perm {a b : List (Nat × Nat)} (h : a.Perm b) (hn : (a.map (·.1)).Nodup) (l : Nat) : known a l = known b l := by
  unfold known
  have hp := h.filter (fun r => decide (r.1 = l))
  have hlen : (a.filter (fun r => decide (r.1 = l))).length ≤ 1 := by
    have hn' : ((a.filter (fun r => decide (r.1 = l))).map (·.1)).Nodup := hn.sublist ((List.filter_sublist).map _)
    match hf : a.filter (fun r => decide (r.1 = l)) with
    | [] => rw [hf]; simp
    | [x] => rw [hf]; simp
    | x :: y :: t =>
      have hx : x ∈ a.filter (fun r => decide (r.1 = l)) := by rw [hf]; simp
      have hy : y ∈ a.filter (fun r => decide (r.1 = l)) := by rw [hf]; simp
      have h1 : x.1 = l := by simpa using (List.mem_filter.1 hx).2
      have h2 : y.1 = l := by simpa using (List.mem_filter.1 hy).2
      rw [hf] at hn'
      simp [h1, h2] at hn'
  match hf : a.filter (fun r => decide (r.1 = l)), hg : b.filter (fun r => decide (r.1 = l)) with
  | [], [] => rw [hf, hg]
  | [], y :: t => rw [hf, hg] at hp; exact absurd hp.length_eq (by simp)
  | [x], [] => rw [hf, hg] at hp; exact absurd hp.length_eq (by simp)
  | [x], [y] =>
    rw [hf, hg] at hp
    have := hp.mem_iff (a := x)
    simp at this
    subst this
    rw [hf, hg]
  | [x], y :: z :: t => rw [hf, hg] at hp; exact absurd hp.length_eq (by simp)
  | x :: y :: t, _ => rw [hf] at hlen; simp at hlen

theorem known_append_left (a b : List (Nat × Nat)) (l : Nat) :
    known (a ++ b) l = if l ∈ b.map (·.1) then known b l else known a l := by
  unfold known
  rw [List.filter_append, List.getLast?_append]
  cases hb : (b.filter fun r => decide (r.1 = l)).getLast? with
  | none =>
    have : b.filter (fun r => decide (r.1 = l)) = [] := by simpa using hb
    have hno : l ∉ b.map (·.1) := by
      intro hm
      obtain ⟨r, hr, rfl⟩ := List.mem_map.1 hm
      have := List.filter_eq_nil_iff.1 this r hr
      simp at this
    rw [if_neg hno]
    simp
  | some r =>
    have hr := List.mem_of_getLast? hb
    have hrl : r.1 = l := by simpa using (List.mem_filter.1 hr).2
    have : l ∈ b.map (·.1) := hrl ▸ List.mem_map_of_mem (List.mem_filter.1 hr).1
    rw [if_pos this]
    simp

theorem lastLine_append (a b : List (Nat × Nat)) : lastLine (a ++ b) = max (lastLine a) (lastLine b) := by
  unfold lastLine
  induction a with
  | nil => simp
  | cons x t ih => simp only [List.cons_append, List.foldr_cons, ih]; omega

theorem lastLine_perm {a b : List (Nat × Nat)} (h : a.Perm b) : lastLine a = lastLine b := by
  unfold lastLine
  induction h with
  | nil => rfl
  | cons x _ ih => simp [ih]
  | swap x y l => simp only [List.foldr_cons]; omega
  | trans _ _ ih1 ih2 => exact ih1.trans ih2

theorem regsOf_regActs (rs : List (Str × Nat × Nat)) (p : Str) :
    regsOf (regActs rs) p = (rs.filter fun r => decide (r.1 = p)).map fun r => (r.2.1, r.2.2) := by
  unfold regsOf regActs
  induction rs with
  | nil => rfl
  | cons r t ih =>
    simp only [List.map_cons, List.filterMap_cons, List.filter_cons]
    by_cases h : r.1 = p
    · simp only [h, if_true, decide_true, List.map_cons, Int.toNat_natCast]; rw [ih]
    · simp only [h, if_false, decide_false, Bool.false_eq_true]; rw [ih]

theorem regs_perm_rep {h : List Act} {rs rs' : List (Str × Nat × Nat)} (hp : rs.Perm rs')
    (hn : (rs.map fun r => (r.1, r.2.1)).Nodup) (p : Str) (fl : FileLines) (hr : Rep (regsOf (h ++ regActs rs) p) fl) :
    Rep (regsOf (h ++ regActs rs') p) fl := by
  rw [regsOf_append, regsOf_regActs] at hr ⊢
  have hperm : ((rs.filter fun r => decide (r.1 = p)).map fun r => (r.2.1, r.2.2)).Perm
      ((rs'.filter fun r => decide (r.1 = p)).map fun r => (r.2.1, r.2.2)) := (hp.filter _).map _
  have hnod : (((rs.filter fun r => decide (r.1 = p)).map fun r => (r.2.1, r.2.2)).map (·.1)).Nodup := by
    rw [List.map_map]
    have h1 : ((rs.filter fun r => decide (r.1 = p)).map fun r => (r.1, r.2.1)).Nodup := hn.sublist ((List.filter_sublist).map _)
    unfold List.Nodup at h1 ⊢
    rw [List.pairwise_map] at h1 ⊢
    apply h1.imp_of_mem
    intro a b ha hb hab heq
    apply hab
    have h2 : a.1 = p := by simpa using (List.mem_filter.1 ha).2
    have h3 : b.1 = p := by simpa using (List.mem_filter.1 hb).2
    simp only [Function.comp] at heq
    rw [h2, h3, heq]
  refine ⟨?_, fun i => ?_⟩
  · rw [hr.1, lastLine_append, lastLine_append, lastLine_perm hperm]
  · rw [hr.2, known_append_left, known_append_left]
    rw [known_perm hperm hnod i]
    have : (i ∈ ((rs.filter fun r => decide (r.1 = p)).map fun r => (r.2.1, r.2.2)).map (·.1)) ↔
        (i ∈ ((rs'.filter fun r => decide (r.1 = p)).map fun r => (r.2.1, r.2.2)).map (·.1)) := (hperm.map _).mem_iff
    simp only [this]

theorem asked_ext {a b : Nat × LineBp} (h : asked a = asked b) (hb : a.2.bp = b.2.bp) : a = b := by
  obtain ⟨k, x⟩ := a
  obtain ⟨k', y⟩ := b
  cases x; cases y
  simp only [asked, Prod.mk.injEq] at h
  obtain ⟨rfl, rfl, rfl, rfl, rfl, rfl⟩ := h
  simp only at hb
  subst hb
  rfl

theorem map_ext_asked (d d' : Dict Nat LineBp) (h : d.map asked = d'.map asked)
    (hb : ∀ e ∈ d, ∀ e' ∈ d', asked e = asked e' → e.2.bp = e'.2.bp) : d = d' := by
  induction d generalizing d' with
  | nil => cases d' with
    | nil => rfl
    | cons x t => simp at h
  | cons a t ih => cases d' with
    | nil => simp at h
    | cons x t' =>
      simp only [List.map_cons, List.cons.injEq] at h
      rw [asked_ext h.1 (hb a List.mem_cons_self x List.mem_cons_self h.1),
        ih t' h.2 (fun e he e' he' => hb e (List.mem_cons_of_mem _ he) e' (List.mem_cons_of_mem _ he'))]

/-- **C27.** After any history, registering entries at distinct places in any two orders leads to
the same kept breakpoints with the same data, and to the same known lines for every file. -/
theorem C27_order_irrelevant (h : List Act) (hs : ∀ a ∈ h, Sane a) (rs rs' : List (Str × Nat × Nat)) (hp : rs.Perm rs')
    (hn : (rs.map fun r => (r.1, r.2.1)).Nodup) :
    (run {} (h ++ regActs rs)).1.bps = (run {} (h ++ regActs rs')).1.bps ∧
    ∀ p, (run {} (h ++ regActs rs)).1.info.get? p = (run {} (h ++ regActs rs')).1.info.get? p := by
  have hs1 : ∀ a ∈ h ++ regActs rs, Sane a := by
    intro a ha
    rcases List.mem_append.1 ha with ha | ha
    · exact hs a ha
    · exact regActs_sane rs a ha
  have hs2 : ∀ a ∈ h ++ regActs rs', Sane a := by
    intro a ha
    rcases List.mem_append.1 ha with ha | ha
    · exact hs a ha
    · exact regActs_sane rs' a ha
  have i1 := inv_hist _ hs1
  have i2 := inv_hist _ hs2
  have hempty : ∀ p, regsOf (h ++ regActs rs) p = [] ↔ regsOf (h ++ regActs rs') p = [] := by
    intro p
    rw [regsOf_append, regsOf_append, regsOf_regActs, regsOf_regActs, List.append_eq_nil_iff, List.append_eq_nil_iff]
    have hperm : ((rs.filter fun r => decide (r.1 = p)).map fun r => (r.2.1, r.2.2)).Perm
      ((rs'.filter fun r => decide (r.1 = p)).map fun r => (r.2.1, r.2.2)) := (hp.filter _).map _
    constructor
    · rintro ⟨a, b⟩
      rw [b] at hperm
      exact ⟨a, hperm.symm.eq_nil⟩
    · rintro ⟨a, b⟩
      rw [b] at hperm
      exact ⟨a, hperm.eq_nil⟩
  have hinfo : ∀ p, (run {} (h ++ regActs rs)).1.info.get? p = (run {} (h ++ regActs rs')).1.info.get? p := by
    intro p
    rcases i1.info p with ⟨a1, a2⟩ | ⟨fl, a1, a2, a3⟩
    · rcases i2.info p with ⟨b1, -⟩ | ⟨fl', -, b2, -⟩
      · rw [a1, b1]
      · exact absurd ((hempty p).1 a2) b2
    · rcases i2.info p with ⟨-, b2⟩ | ⟨fl', b1, -, b3⟩
      · exact absurd ((hempty p).2 b2) a2
      · rw [a1, b1, rep_unique (regs_perm_rep hp hn p fl a3) b3]
  refine ⟨?_, hinfo⟩
  have ib := inv_hist h hs
  apply map_ext_asked
  · rw [run_append, run_append, regs_asked rs h _ ib, regs_asked rs' h _ ib]
  · intro e he e' he' ha
    obtain ⟨-, -, req, r1, c1⟩ := i1.bps e he
    obtain ⟨-, -, req', r2, c2⟩ := i2.bps e' he'
    simp only [asked, Prod.mk.injEq] at ha
    obtain ⟨-, q2, q3, q4, q5, -⟩ := ha
    obtain rfl : req = req' := by rw [q4] at r1; omega
    rw [← q2, ← q3, ← q5] at c2
    rcases c1 with ⟨a1, a2⟩ | ⟨a1, x, z, v, a2, a3⟩
    · rcases c2 with ⟨-, b2⟩ | ⟨b1, -⟩
      · rw [a2, b2]
      · exact absurd ((hempty _).1 a1) b1
    · rcases c2 with ⟨b1, -⟩ | ⟨-, x', z', v', b2, b3⟩
      · exact absurd ((hempty _).2 b1) a1
      · obtain ⟨fl, -, -, hrep⟩ : ∃ fl, (run {} (h ++ regActs rs)).1.info.get? e.2.actualPath = some fl ∧
            regsOf (h ++ regActs rs) e.2.actualPath ≠ [] ∧ Rep (regsOf (h ++ regActs rs) e.2.actualPath) fl := by
          rcases i1.info e.2.actualPath with ⟨-, w⟩ | w
          · exact absurd w a1
          · exact w
        have w1 := snapped_calc hrep e.2.id e.2.source a2
        have w2 := snapped_calc (regs_perm_rep hp hn _ fl hrep) e.2.id e.2.source b2
        rw [w1] at w2
        rw [a3, b3]
        exact Except.ok.inj w2

/-- **C27.** After any history, registering an entry that is already known with that type changes
nothing and sends nothing. -/
theorem C27_idempotent (h : List Act) (hs : ∀ a ∈ h, Sane a) (p : Str) (l t : Nat) (hl : regsOf h p ≠ [])
    (hk : known (regsOf h p) l = some t) :
    (step (run {} h).1 (.reg p l t)).2 = [] ∧ (step (run {} h).1 (.reg p l t)).1.bps = (run {} h).1.bps ∧
    ∀ q, (step (run {} h).1 (.reg p l t)).1.info.get? q = (run {} h).1.info.get? q := by
  have hi := inv_hist h hs
  obtain ⟨fl', h1, h2, h3⟩ := register_ok hi p l t
  obtain ⟨fl, g1, -, g3⟩ : ∃ fl, (run {} h).1.info.get? p = some fl ∧ regsOf h p ≠ [] ∧ Rep (regsOf h p) fl := by
    rcases hi.info p with ⟨-, w⟩ | w
    · exact absurd w hl
    · exact w
  have heq : fl' = fl := by
    apply rep_unique (regs := regsOf h p) _ g3
    refine ⟨?_, fun i => ?_⟩
    · rw [h1.1, lastLine_snoc]
      have : l ≤ lastLine (regsOf h p) := by
        by_cases hc : l ≤ lastLine (regsOf h p)
        · exact hc
        · rw [known_after _ _ (by omega)] at hk; cases hk
      simp only; omega
    · rw [h1.2, known_snoc]
      split
      · rename_i e; simp only at e; rw [e, hk]
      · rfl
  subst heq
  have hsame : ∀ e ∈ (run {} h).1.bps, e.2.actualPath = p → theBp fl' e.2 = e.2.bp := by
    intro e he hp
    obtain ⟨-, -, req, r1, c1⟩ := hi.bps e he
    rcases c1 with ⟨a1, -⟩ | ⟨-, x, z, v, a2, a3⟩
    · rw [hp] at a1; exact absurd a1 hl
    · rw [hp] at a2
      unfold theBp
      rw [r1, snapped_calc g3 _ _ a2, a3]
  refine ⟨?_, ?_, fun q => ?_⟩
  · simp only [step, h2, changes, List.filterMap_eq_nil_iff]
    intro e he
    rw [if_neg]
    rintro ⟨hp, hc⟩
    exact hc (hsame e he hp).symm
  · simp only [step, h2]
    conv => rhs; rw [← List.map_id (run {} h).1.bps]
    apply List.map_congr_left
    intro e he
    unfold renew
    split
    · rename_i hp
      rw [hsame e he hp]
      rfl
    · rfl
  · simp only [step, h2, Dict.get?_set]
    split
    · rename_i e; rw [← e, g1]
    · rfl

/-- The example file found in another order. -/
example : (run {} (exHist.take 1 ++ regActs [(exPath, 9, 1), (exPath, 1, 1), (exPath, 5, 0), (exPath, 6, 1), (exPath, 3, 1)])).1.bps
    = (run {} exHist).1.bps := by decide +kernel

/-! ## C28 -/

/-- **C28.** Scanning blocks whose locations are well formed succeeds and registers exactly: every
task in a block, rescue or always section at any depth, as a possible stop, and every explicit
block, as not a stop. -/
theorem C28_blocks (blocks : List Item) (hok : TreeOk blocks) :
    ∃ rs, blockRegs blocks = .ok rs ∧ ∀ p l t, (p, l, t) ∈ rs ↔
      ∃ n : Nat, l = (n : Int) ∧ ((t = 1 ∧ TaskAt blocks p n) ∨ (t = 0 ∧ BlockAt blocks p n)) :=
  itemsRegs_ok blocks hok

/-- The blocks of a play: its tasks, its handlers and the handlers of its roles. -/
def playItems (p : Play) : List Item := p.compiled ++ p.handlers ++ p.roleHandlers.flatten

/-- **C28.** Scanning plays registers exactly the play lines, the tasks and the explicit blocks of
all of them. -/
theorem C28_plays (plays : List Play) (hloc : ∀ p ∈ plays, ∃ f l, p.loc = pathText f l) (hok : ∀ p ∈ plays, TreeOk (playItems p)) :
    ∃ rs, playRegs plays = .ok rs ∧ ∀ f l t, (f, l, t) ∈ rs ↔
      ∃ n : Nat, l = (n : Int) ∧ ∃ p ∈ plays,
        (t = 1 ∧ (p.loc = pathText f n ∨ TaskAt (playItems p) f n)) ∨ (t = 0 ∧ BlockAt (playItems p) f n) := by
  induction plays with
  | nil => exact ⟨[], rfl, by simp⟩
  | cons p ps ih =>
    obtain ⟨f0, l0, h0⟩ := hloc p List.mem_cons_self
    obtain ⟨r1, g1, k1⟩ := C28_blocks (playItems p) (hok p List.mem_cons_self)
    obtain ⟨r2, g2, k2⟩ := ih (fun q hq => hloc q (List.mem_cons_of_mem _ hq)) (fun q hq => hok q (List.mem_cons_of_mem _ hq))
    refine ⟨[(f0, (l0 : Int), 1)] ++ (r1 ++ r2), ?_, fun f l t => ?_⟩
    · unfold playRegs
      apply seqRegs_ok _ (seqRegs_ok g1 g2)
      rw [h0, split_pathText]
    · rw [List.mem_append, List.mem_append, k1, k2, List.mem_singleton]
      simp only [Prod.mk.injEq, List.mem_cons]
      constructor
      · rintro (⟨rfl, rfl, rfl⟩ | ⟨n, hn, ⟨ht, h⟩ | ⟨ht, h⟩⟩ | ⟨n, hn, q, hq, h⟩)
        · exact ⟨l0, rfl, p, .inl rfl, .inl ⟨rfl, .inl h0⟩⟩
        · exact ⟨n, hn, p, .inl rfl, .inl ⟨ht, .inr h⟩⟩
        · exact ⟨n, hn, p, .inl rfl, .inr ⟨ht, h⟩⟩
        · exact ⟨n, hn, q, .inr hq, h⟩
      · rintro ⟨n, hn, q, rfl | hq, h⟩
        · rcases h with ⟨ht, h | h⟩ | ⟨ht, h⟩
          · left
            rw [h0] at h
            have h1 := split_pathText f0 l0
            rw [h, split_pathText] at h1
            injection h1 with h1
            simp only [Prod.mk.injEq] at h1
            exact ⟨h1.1, by rw [hn]; exact h1.2, ht⟩
          · exact .inr (.inl ⟨n, hn, .inl ⟨ht, h⟩⟩)
          · exact .inr (.inl ⟨n, hn, .inr ⟨ht, h⟩⟩)
        · exact .inr (.inr ⟨n, hn, q, hq, h⟩)

theorem applyRegs_run (rs : List (Str × Int × Nat)) : ∀ s, applyRegs rs s = (run s (rs.map fun r => .reg r.1 r.2.1 r.2.2)).1 := by
  induction rs with
  | nil => intro s; rfl
  | cons r t ih => intro s; exact ih _

theorem regsOf_map (rs : List (Str × Int × Nat)) (p : Str) :
    regsOf (rs.map fun r => .reg r.1 r.2.1 r.2.2) p = (rs.filter fun r => decide (r.1 = p)).map fun r => (r.2.1.toNat, r.2.2) := by
  unfold regsOf
  induction rs with
  | nil => rfl
  | cons r t ih =>
    simp only [List.map_cons, List.filterMap_cons, List.filter_cons]
    by_cases h : r.1 = p
    · simp only [h, if_true, decide_true, List.map_cons, Int.toNat_natCast]; rw [ih]
    · simp only [h, if_false, decide_false, Bool.false_eq_true]; rw [ih]

theorem known_of_all (regs : List (Nat × Nat)) (l t : Nat) (hm : ∃ r ∈ regs, r.1 = l) (hu : ∀ r ∈ regs, r.1 = l → r.2 = t) :
    known regs l = some t := by
  unfold known
  cases h : (regs.filter fun r => decide (r.1 = l)).getLast? with
  | none =>
    have h' : regs.filter (fun r => decide (r.1 = l)) = [] := by simpa using h
    obtain ⟨r, hr, hrl⟩ := hm
    have := List.filter_eq_nil_iff.1 h' r hr
    simp [hrl] at this
  | some r =>
    have hr := List.mem_of_getLast? h
    have := List.mem_filter.1 hr
    rw [← hu r this.1 (by simpa using this.2)]

/-- **C28, seen by the client.** After scanning plays on a new debuggee, a breakpoint requested at
the line of a task or play (on which no explicit block starts) is placed there and verified. -/
theorem C28_task_line_verified (plays : List Play) (hloc : ∀ p ∈ plays, ∃ f l, p.loc = pathText f l)
    (hok : ∀ p ∈ plays, TreeOk (playItems p)) (f : Str) (n : Nat)
    (ht : ∃ p ∈ plays, p.loc = pathText f n ∨ TaskAt (playItems p) f n)
    (hb : ∀ p ∈ plays, ¬ BlockAt (playItems p) f n) (seq : Nat) (nm : Option Str) :
    ∃ rs, playRegs plays = .ok rs ∧ ∃ bp,
      (step (applyRegs rs {}) (.setBps seq { name := nm, path := some f } false [(n : Int)])).2 = [.setBpsResp seq [bp]] ∧
      bp.verified = true ∧ bp.line = some (n : Int) := by
  obtain ⟨rs, h1, h2⟩ := C28_plays plays hloc hok
  refine ⟨rs, h1, ?_⟩
  have hsane : ∀ a ∈ rs.map (fun r => Act.reg r.1 r.2.1 r.2.2), Sane a := by
    intro a ha
    obtain ⟨r, hr, rfl⟩ := List.mem_map.1 ha
    obtain ⟨m, hm, -⟩ := (h2 r.1 r.2.1 r.2.2).1 hr
    simp only [Sane, hm]; exact Int.natCast_nonneg m
  rw [applyRegs_run]
  obtain ⟨bps, g1, g2, g3⟩ := C21_answer_is_snapped _ hsane seq { name := nm, path := some f } [n]
  have hmap : (run {} (rs.map fun r => Act.reg r.1 r.2.1 r.2.2)).1.mappings = [] := by
    have : ∀ (rs : List (Str × Int × Nat)) (s : Dbg), (run s (rs.map fun r => Act.reg r.1 r.2.1 r.2.2)).1.mappings = s.mappings := by
      intro rs
      induction rs with
      | nil => intro s; rfl
      | cons r t ih =>
        intro s
        show (run (step s (.reg r.1 r.2.1 r.2.2)).1 _).1.mappings = _
        rw [ih]
        simp only [step, register]
        split <;> rfl
    exact this rs {}
  match bps, g2 with
  | [bp], _ =>
    have hsh := g3 0 n bp rfl rfl
    rw [hmap] at hsh
    simp only [Option.getD_some, toActual, mapPath] at hsh
    have hk : known (regsOf (rs.map fun r => Act.reg r.1 r.2.1 r.2.2) f) n = some 1 := by
      apply known_of_all
      · obtain ⟨p, hp, ht⟩ := ht
        refine ⟨(n, 1), ?_, rfl⟩
        rw [regsOf_map, List.mem_map]
        exact ⟨(f, (n : Int), 1), List.mem_filter.2 ⟨(h2 f n 1).2 ⟨n, rfl, p, hp, .inl ⟨rfl, ht⟩⟩, by simp⟩, by simp⟩
      · intro r hr hrl
        rw [regsOf_map, List.mem_map] at hr
        obtain ⟨x, hx, rfl⟩ := hr
        obtain ⟨hx1, hx2⟩ := List.mem_filter.1 hx
        obtain ⟨m, hm, p, hp, h | h⟩ := (h2 x.1 x.2.1 x.2.2).1 hx1
        · exact h.1
        · exfalso
          have hxf : x.1 = f := by simpa using hx2
          have hmn : m = n := by rw [hm] at hrl; simpa using hrl
          apply hb p hp
          rw [← hxf, ← hmn]; exact h.2
    have hne : regsOf (rs.map fun r => Act.reg r.1 r.2.1 r.2.2) f ≠ [] := by
      obtain ⟨p, hp, ht⟩ := ht
      intro hc
      have : ((n : Nat), 1) ∈ regsOf (rs.map fun r => Act.reg r.1 r.2.1 r.2.2) f := by
        rw [regsOf_map, List.mem_map]
        exact ⟨(f, (n : Int), 1), List.mem_filter.2 ⟨(h2 f n 1).2 ⟨n, rfl, p, hp, .inl ⟨rfl, ht⟩⟩, by simp⟩, by simp⟩
      rw [hc] at this
      cases this
    obtain ⟨e, z, s1, s2, s3⟩ := hsh.2 hne
    have he : e = n := governs_unique s1.1 ⟨by rw [hk]; simp, Nat.le_refl _, fun i hi hi' => by omega⟩
    subst he
    refine ⟨bp, g1, ?_, s2⟩
    rw [s1.2.2, hk]; simp

/-- A play with a block holding a task, a rescue with a nested block, and an always section. -/
def exPlay : Play :=
  { loc := pathText exPath 1
    compiled := [.block none [.task (some (pathText exPath 4)),
      .block (some (pathText exPath 6)) [.task (some (pathText exPath 7))] [.block none [.task (some (pathText exPath 9))] [] []]
        [.task none, .task (some (pathText exPath 11))]] [] []]
    handlers := [], roleHandlers := [] }

example : playRegs [exPlay] = .ok [(exPath, 1, 1), (exPath, 4, 1), (exPath, 6, 0), (exPath, 7, 1), (exPath, 9, 1), (exPath, 11, 1)] := by
  have h : ∀ p l, locReg (some (pathText p l)) 1 = .ok [(p, (l : Int), 1)] := fun p l => by
    unfold locReg; rw [truthy_pathText]; simp only [split_pathText]
  have h' : ∀ p l, locReg (some (pathText p l)) 0 = .ok [(p, (l : Int), 0)] := fun p l => by
    unfold locReg; rw [truthy_pathText]; simp only [split_pathText]
  have hn : ∀ t, locReg none t = .ok [] := fun _ => rfl
  simp [playRegs, exPlay, split_pathText, blockRegs, itemRegs, itemsRegs, h, h', hn, seqRegs]

example : TaskAt (playItems exPlay) exPath 9 := by
  refine .inBlock (l := none) List.mem_cons_self (.inRescue (List.mem_cons_of_mem _ List.mem_cons_self) (.inBlock List.mem_cons_self (.here List.mem_cons_self)))

/-! ## C29 -/

/-- **C29 is false.** A request handled while the strategy thread registers the first line of the
file can leave the breakpoint unverified although the line is known: the handler looked for the
file before the registration and stored the breakpoint after the scan. Only a later registration in
the file repairs it. -/
theorem C29_lost_update_refuted :
    ∃ zs, Shuffle (handlerOps 1 exSrc [3]) (registerOps exPath 3 1) zs ∧
      ∃ e ∈ (execAll {} zs).d.bps, e.2.actualPath = exPath ∧ ¬ Shown (opRegs zs exPath) 3 e.2.bp := by
  refine ⟨[.hRead exSrc, .rTable exPath 3 1, .rScan exPath, .hClear exSrc, .hCompute exSrc 3, .hStore, .hReply 1], ?_, ?_⟩
  · exact .left (.right (.right (.left (.left (.left (.left .nil))))))
  · refine ⟨(1, { id := 1, source := exSrc, reqLine := 3, bp := (pendingBp 1 exSrc 3), actualPath := exPath, sourcePath := exPath }), by decide, rfl, ?_⟩
    intro h
    obtain ⟨e, z, -, -, h3⟩ := h.2 (by decide)
    cases h3

/-- The same without the file being new: the answer is computed from the old lines and stored after
the scan, so it misses the task at line 5. -/
theorem C29_stale_update_refuted :
    ∃ zs, Shuffle (handlerOps 1 exSrc [6]) (registerOps exPath 5 1) zs ∧
      ∃ e ∈ (execAll {} (registerOps exPath 3 1 ++ zs)).d.bps, e.2.actualPath = exPath ∧
        ¬ Shown (opRegs (registerOps exPath 3 1 ++ zs) exPath) 6 e.2.bp := by
  refine ⟨[.hRead exSrc, .hClear exSrc, .hCompute exSrc 6, .rTable exPath 5 1, .rScan exPath, .hStore, .hReply 1], ?_, ?_⟩
  · exact .left (.left (.left (.right (.right (.left (.left .nil))))))
  · refine ⟨(1, ⟨1, exSrc, 6, mkBp 1 exSrc 3 3 true, exPath, exPath⟩), by decide +kernel, rfl, ?_⟩
    intro h
    obtain ⟨e, z, h1, h2, -⟩ := h.2 (by decide)
    simp only [mkBp, Option.some.injEq] at h2
    obtain rfl : e = 3 := by omega
    exact absurd (h1.1.2.2 5 (by decide) (by decide)) (by decide)

/-- **C29, what holds.** In every interleaving of any number of requests and registrations, whenever
a scan of a file ends, every breakpoint kept for that file shows what is known of the file; so a
breakpoint can only stay wrong until the next entry of its file is registered. -/
theorem C29_scan_heals_partial (ops : List Op) (hs : ∀ o ∈ ops, OpSane o) (p : Str) (hl : opRegs ops p ≠ []) :
    ∀ e ∈ (execAll {} (ops ++ [.rScan p])).d.bps, e.2.actualPath = p →
      ∃ req : Nat, e.2.reqLine = (req : Int) ∧ Shown (opRegs ops p) req e.2.bp := by
  have hi : RInv (opRegs ops) (execAll {} ops) := by simpa using rinv_all ops [] {} rinv_init hs
  intro e he hp
  have : (execAll {} (ops ++ [.rScan p])).d.bps =
      (refresh p (((execAll {} ops).d.info.get? p).getD [some 0]) (execAll {} ops).d.bps).1 := by
    simp [execAll, List.foldl_append, exec]
  rw [this] at he
  obtain ⟨req, x, z, h1, h2, h3, h4⟩ := (refresh_any (rinv_table hi p) p _ hi.bps).2.2 e he hp
  exact ⟨req, h1, fun hn => absurd hn hl, fun _ => ⟨x, z, h2, h3, h4⟩⟩

/-- **C29, what holds.** Without interleaving the pieces do what the handlers of the sequential
model do, so `C22` applies. -/
theorem C29_sequential_partial (h : List Act) (hs : ∀ a ∈ h, Sane a) (seq : Nat) (src : Source) (ls : List Int)
    (hl : ∀ l ∈ ls, 0 ≤ l) (p : Str) (l t : Nat) :
    (execAll { d := (run {} h).1 } (handlerOps seq src ls)).d = (step (run {} h).1 (.setBps seq src false ls)).1 ∧
    (execAll { d := (run {} h).1 } (handlerOps seq src ls)).out = (step (run {} h).1 (.setBps seq src false ls)).2 ∧
    (execAll { d := (run {} h).1 } (registerOps p (l : Int) t)).d = (step (run {} h).1 (.reg p l t)).1 ∧
    (execAll { d := (run {} h).1 } (registerOps p (l : Int) t)).out = (step (run {} h).1 (.reg p l t)).2 := by
  have hi := inv_hist h hs
  obtain ⟨a, b⟩ := handler_ops { d := (run {} h).1 } hi seq src ls hl
  obtain ⟨c, d⟩ := register_ops { d := (run {} h).1 } hi p l t
  exact ⟨a, b.trans (List.nil_append _), c, d.trans (List.nil_append _)⟩

/-- A registration in file `p` slipped in between the handler looking the file up and the handler storing a
breakpoint, and no scan of `p` followed the storing. -/
def Overtaken (src : Source) (p : Str) (zs : List Op) : Prop :=
  ∃ u v w, zs = u ++ .hRead src :: (v ++ .hStore :: w) ∧ (∃ l t, Op.rTable p l t ∈ v) ∧ Op.rScan p ∉ w

theorem execAll_maps (ops : List Op) : ∀ s : RS, (execAll s ops).d.mappings = s.d.mappings := by
  induction ops with
  | nil => intro s; rfl
  | cons o t ih =>
    intro s
    show (execAll (exec s o) t).d.mappings = _
    rw [ih]
    cases o with
    | hCompute src l =>
      simp only [exec]
      cases s.failed with
      | true => rfl
      | false => simp only [cond_false]; split <;> rfl
    | hStore => simp only [exec]; split <;> rfl
    | rTable p l t => simp only [exec]; split <;> rfl
    | _ => rfl

/-- **C29, what holds.** After anything whatever, let one setBreakpoints request race with any number of registrations, in
any interleaving. Unless a registration in the file of the request slipped in between looking the file up and storing
a breakpoint and the file was not scanned again after the storing, every breakpoint kept for the source of
the request shows what is known of the file, with all the entries registered during the race. So the two refutations
above are the only way to lose an update. -/
theorem C29_unless_overtaken_partial (ms : List (Str × Str)) (before : List Op) (hb : ∀ o ∈ before, OpSane o)
    (seq : Nat) (src : Source) (ls : List Int) (hl : ∀ l ∈ ls, 0 ≤ l)
    (rs : List (Str × Int × Nat)) (hr : ∀ r ∈ rs, 0 ≤ r.2.1) (zs : List Op)
    (hz : Shuffle (handlerOps seq src ls) (rs.flatMap fun r => registerOps r.1 r.2.1 r.2.2) zs)
    (ho : ¬ Overtaken src (toActual ms (src.path.getD [])) zs) :
    ∀ e ∈ (execAll { d := { mappings := ms } } (before ++ zs)).d.bps, e.2.sourcePath = src.path.getD [] →
      e.2.actualPath = toActual ms (src.path.getD []) ∧
      ∃ req : Nat, e.2.reqLine = (req : Int) ∧ Shown (opRegs (before ++ zs) (toActual ms (src.path.getD []))) req e.2.bp := by
  have h0 : RInv (opRegs []) { d := { mappings := ms } } :=
    ⟨fun _ => .inl ⟨rfl, rfl⟩, fun _ h => absurd h (List.not_mem_nil), fun _ h => by cases h⟩
  have hi : RInv (opRegs before) (execAll { d := { mappings := ms } } before) := by simpa using rinv_all before [] _ h0 hb
  have hsp : execAll { d := { mappings := ms } } (before ++ zs) = execAll (execAll { d := { mappings := ms } } before) zs := by
    simp [execAll, List.foldl_append]
  obtain ⟨g, m⟩ := mid_run (ms := ms) (src := src) rfl hz 0 False none before _ (rest_handler seq src ls hl) (due_regs rs hr) (by simp)
    ⟨hi, execAll_maps before _, fun h => by omega, fun h => by omega, fun h => by omega, fun h => by omega, fun h => by omega, fun h => by omega⟩
    (fun h => by omega) (fun _ u v w e hg => Classical.byContradiction fun hn => ho ⟨u, v, w, e, hg, hn⟩)
  intro e he hs
  rw [hsp] at he
  obtain ⟨h1, h2⟩ := m.bps (by omega) e he hs
  refine ⟨h1, ?_⟩
  rcases h2 with h2 | h2
  · exact h2
  · cases h2

/-- A race the theorem applies to: the registration falls in the middle of the request, but its scan comes last. -/
example : Shuffle (handlerOps 1 exSrc [3]) (([(exPath, 3, 1)] : List (Str × Int × Nat)).flatMap fun r => registerOps r.1 r.2.1 r.2.2)
      [.hRead exSrc, .hClear exSrc, .rTable exPath 3 1, .hCompute exSrc 3, .hStore, .rScan exPath, .hReply 1] ∧
    ((execAll {} [.hRead exSrc, .hClear exSrc, .rTable exPath 3 1, .hCompute exSrc 3, .hStore, .rScan exPath, .hReply 1]).d.bps.map
      fun e => (e.2.bp.verified, e.2.bp.line)) = [(true, some 3)] ∧
    ¬ Overtaken exSrc (toActual [] (exSrc.path.getD []))
      [.hRead exSrc, .hClear exSrc, .rTable exPath 3 1, .hCompute exSrc 3, .hStore, .rScan exPath, .hReply 1] := by
  refine ⟨.left (.left (.right (.left (.left (.right (.left .nil)))))), by decide +kernel, ?_⟩
  rintro ⟨u, v, w, h1, -, h3⟩
  have hw : w = [.rScan exPath, .hReply 1] := by
    rcases u with _ | ⟨a, u⟩
    · rcases v with _ | ⟨a, _ | ⟨b, _ | ⟨c, _ | ⟨d, _ | ⟨e, _ | ⟨f, v⟩⟩⟩⟩⟩⟩ <;> simp_all
    · rcases u with _ | ⟨a, _ | ⟨b, _ | ⟨c, _ | ⟨d, _ | ⟨e, _ | ⟨f, _ | ⟨f', v⟩⟩⟩⟩⟩⟩⟩ <;> simp_all
  exact h3 (by
    rw [hw]
    have : toActual [] (exSrc.path.getD []) = exPath := by decide
    rw [this]; exact List.mem_cons_self)

example : opRegs ([.hRead exSrc] ++ registerOps exPath 3 1 ++ [.hClear exSrc, .hCompute exSrc 3, .hStore, .hReply 1, .rTable exPath 9 1]) exPath ≠ [] := by decide +kernel

/-! ## C111 -/

/-- The file was scanned after the handler stored a breakpoint and before it sent its answer. -/
def AnsweredLate (p : Str) (seq : Nat) (zs : List Op) : Prop :=
  ∃ u v w, zs = u ++ .hStore :: (v ++ .hReply seq :: w) ∧ Op.rScan p ∈ v

/-- The pieces by which the tables of a history were made. -/
def tableOps (h : List Act) : List Op := h.filterMap fun | .reg q l t => some (.rTable q l t) | _ => none

theorem opRegs_tableOps (h : List Act) : opRegs (tableOps h) = regsOf h := by
  funext p
  induction h with
  | nil => rfl
  | cons a t ih =>
    have ih : List.filterMap _ (List.filterMap _ t) = List.filterMap _ t := ih
    unfold opRegs tableOps regsOf
    rw [List.filterMap_cons, List.filterMap_cons]
    cases a with
    | reg q l k =>
      simp only [List.filterMap_cons]
      split <;> simp only [ih]
    | _ => exact ih

/-- **C111** (what holds). After any history let one setBreakpoints request race with any number of registrations, in any
interleaving. Unless the file of the request was scanned between the storing of a breakpoint and the sending of the
answer, the client, having handled all messages in the order they were sent, holds for every source exactly what the debuggee keeps. -/
theorem C111_unless_answered_late_partial (h : List Act) (hs : ∀ a ∈ h, Sane a)
    (seq : Nat) (src : Source) (ls : List Int) (hl : ∀ l ∈ ls, 0 ≤ l)
    (rs : List (Str × Int × Nat)) (hr : ∀ r ∈ rs, 0 ≤ r.2.1) (zs : List Op)
    (hz : Shuffle (handlerOps seq src ls) (rs.flatMap fun r => registerOps r.1 r.2.1 r.2.2) zs)
    (ho : ¬ AnsweredLate (toActual (run {} h).1.mappings (src.path.getD [])) seq zs) (q : Str) :
    ((((execAll { d := (run {} h).1 } zs).out.foldl (View.recv (src.path.getD [])) (View.run [] {} h)).get? q).getD []).filter (fun b => b.line.isSome) =
      ((execAll { d := (run {} h).1 } zs).d.bps.filter fun e => decide (e.2.sourcePath = q)).map (·.2.bp) := by
  have hi := inv_hist h hs
  have hm := mirror_hist h hs
  have h0 : Seen (run {} h).1.mappings (src.path.getD []) (toActual (run {} h).1.mappings (src.path.getD [])) (run {} h).1.counter 0 False (tableOps h)
      { d := (run {} h).1 } (View.run [] {} h) := by
    refine ⟨⟨?_, ?_, fun b hb => by cases hb⟩, rfl, ?_, hi.sorted, Nat.le_refl _, (by omega), (by omega), (by omega), ?_, fun q _ => hm.same q, (by omega), (by omega)⟩
    · rw [opRegs_tableOps]; exact hi.info
    · intro e he
      obtain ⟨req, h1, -⟩ := (hi.bps e he).2.2
      rw [h1]; exact Int.natCast_nonneg _
    · intro e he
      obtain ⟨h1, h2, h3⟩ := hi.bps e he
      obtain ⟨h4, h5⟩ := current_line h3
      exact ⟨h1, by rw [h5, h1], h2, h4⟩
    · intro q b hb hbl
      exact (hm.rest q b hb hbl).2
  obtain ⟨outs, g, h1, h2⟩ := seen_run (seq := seq) rfl hz 0 False none _ _ _ (left_handler seq src ls hl) (due_regs rs hr) h0
    (fun u v w e hn => ho ⟨u, v, w, e, hn⟩) (by omega)
  have h1 : (execAll { d := (run {} h).1 } zs).out = outs := h1
  rw [h1]
  exact h2.same q (.inr (by omega))

/-- The order of messages in which the answer is out of date when it is sent. -/
def exLate : List Op := [.hRead exSrc, .hClear exSrc, .hCompute exSrc 3, .hStore, .rTable exPath 3 1, .rScan exPath, .hReply 1]

deriving instance DecidableEq for RS

/-- **C111 is false of the code.** The scan moves the breakpoint while the answer is being put together: the event
comes first, names a breakpoint the client has never heard of, and the answer then gives the old data. The client
takes the breakpoint to be unverified for ever, whatever number of times Ansible loads the file again, while the debuggee
stops there. -/
theorem C111_answered_late_refuted (n : Nat) :
    Shuffle (handlerOps 1 exSrc [3]) (registerOps exPath 3 1) exLate ∧
    (((execAll {} (exLate ++ (List.replicate n (registerOps exPath 3 1)).flatten)).out.foldl (View.recv exPath) []).get? exPath).map
      (List.map fun b => (b.id, b.verified)) = some [(1, false)] ∧
    (execAll {} (exLate ++ (List.replicate n (registerOps exPath 3 1)).flatten)).d.bps.map (fun e => (e.2.bp.id, e.2.bp.verified)) = [(1, true)] ∧
    (getBreakpoint (execAll {} (exLate ++ (List.replicate n (registerOps exPath 3 1)).flatten)).d exPath 3).map (·.id) = some 1 := by
  have hn : ∀ n, execAll (execAll {} exLate) (List.replicate n (registerOps exPath 3 1)).flatten = execAll {} exLate := by
    intro n
    induction n with
    | zero => rfl
    | succ n ih =>
      have e1 : execAll (execAll {} exLate) (registerOps exPath 3 1) = execAll {} exLate := by decide +kernel
      have e2 : execAll (execAll {} exLate) (List.replicate (n + 1) (registerOps exPath 3 1)).flatten =
          execAll (execAll (execAll {} exLate) (registerOps exPath 3 1)) (List.replicate n (registerOps exPath 3 1)).flatten := by
        simp [List.replicate_succ, execAll, List.foldl_append]
      rw [e2, e1, ih]
  have hs : execAll {} (exLate ++ (List.replicate n (registerOps exPath 3 1)).flatten) = execAll {} exLate := by
    rw [← hn n]
    simp [execAll, List.foldl_append]
  rw [hs]
  exact ⟨.left (.left (.left (.left (.right (.right (.left .nil)))))), by decide +kernel, by decide +kernel, by decide +kernel⟩

/-- A race the theorem applies to: both pieces of the registration fall between pieces of the request. -/
example : ¬ AnsweredLate exPath 1 [.hRead exSrc, .hClear exSrc, .rTable exPath 3 1, .hCompute exSrc 3, .rScan exPath, .hStore, .hReply 1] ∧
    Shuffle (handlerOps 1 exSrc [3]) (registerOps exPath 3 1) [.hRead exSrc, .hClear exSrc, .rTable exPath 3 1, .hCompute exSrc 3, .rScan exPath, .hStore, .hReply 1] := by
  refine ⟨?_, .left (.left (.right (.left (.right (.left (.left .nil))))))⟩
  rintro ⟨u, v, w, h1, h2⟩
  have hv : v = [] := by
    rcases u with _ | ⟨a, _ | ⟨b, _ | ⟨c, _ | ⟨d, _ | ⟨e, _ | ⟨f, u⟩⟩⟩⟩⟩⟩
    · simp at h1
    · simp at h1
    · simp at h1
    · simp at h1
    · simp at h1
    · rcases v with _ | ⟨x, v⟩
      · rfl
      · simp at h1
    · rcases u with _ | ⟨g, _ | ⟨g', u⟩⟩ <;> simp at h1
  rw [hv] at h2
  cases h2

/-! ## C30 -/

/-- The filters of the most recent setExceptionBreakpoints request, none at first. -/
def lastFilters : List Act → List Str → List Str
  | [], fs => fs
  | .setExc _ fs :: t, _ => lastFilters t fs
  | _ :: t, fs => lastFilters t fs

theorem exc_foldl (fs : List Str) (f : Str) : ∀ d : Dict Str Bool,
    ((fs.foldl (fun d f => Dict.set d f true) d).get? f).getD false = (decide (f ∈ fs) || (d.get? f).getD false) := by
  induction fs with
  | nil => intro d; simp
  | cons x t ih =>
    intro d
    rw [List.foldl_cons, ih, Dict.get?_set]
    by_cases hx : x = f
    · subst hx; simp
    · have hx' : f ≠ x := fun e => hx e.symm
      simp [hx, hx']

theorem exc_run (h : List Act) (f : Str) : ∀ (s : Dbg) (fs : List Str), (∀ g, shouldStop s g = decide (g ∈ fs)) →
    shouldStop (run s h).1 f = decide (f ∈ lastFilters h fs) := by
  induction h with
  | nil => intro s fs hs; exact hs f
  | cons a t ih =>
    intro s fs hs
    cases a with
    | setExc seq gs =>
      apply ih
      intro g
      simp only [step, setExceptions, shouldStop]
      rw [exc_foldl]
      simp [Dict.get?]
    | setBps seq src m ls => exact ih _ fs hs
    | config ms => exact ih _ fs hs
    | disconnect => exact ih _ fs hs
    | reg p l ty =>
      apply ih _ fs
      intro g
      rw [← hs g]
      simp only [step, register, shouldStop]
      split <;> rfl

/-- **C30.** After any history the debuggee stops on a kind of result iff that filter was in the
most recent setExceptionBreakpoints request. -/
theorem C30_last_filters (h : List Act) (f : Str) :
    shouldStop (run {} h).1 f = true ↔ f ∈ lastFilters h [] := by
  rw [exc_run h f {} [] (fun g => by simp [shouldStop, Dict.get?])]
  simp

example : shouldStop (run {} [.setExc 1 [py!"on_error", py!"on_skipped"], .setExc 2 [py!"on_skipped"], .setBps 3 exSrc false [1]]).1 py!"on_error" = false
    ∧ shouldStop (run {} [.setExc 1 [py!"on_error"], .setExc 2 [py!"on_skipped"]]).1 py!"on_skipped" = true := by decide +kernel

/-! ## C31 -/

/-- **C31 is false.** With `/a` mapped to `/x` and `/b` mapped to `/x/b`, a breakpoint set on
`/b/t.yml` is put on `/x/b/t.yml`, which is reported back to the client as `/a/b/t.yml`. -/
theorem C31_roundtrip_refuted : ∃ ms p, toClient ms (toActual ms p) ≠ p ∧ ∃ m ∈ ms, m.1.isPrefixOf p = true :=
  ⟨[(py!"/a", py!"/x"), (py!"/b", py!"/x/b")], py!"/b/t.yml", by decide, (py!"/b", py!"/x/b"), by decide, by decide⟩

/-- Also false for a path under no mapping, when it lies under a remote root. -/
theorem C31_unmapped_refuted : ∃ ms p, toClient ms (toActual ms p) ≠ p ∧ ∀ m ∈ ms, m.1.isPrefixOf p = false :=
  ⟨[(py!"/a", py!"/x")], py!"/x/t.yml", by decide, by decide⟩

/-- And a mapping applies to paths that merely start with the same characters: `/home/abc/t.yml` is
moved by the mapping of `/home/a`. -/
theorem C31_no_boundary_refuted : ∃ ms p, ms = [(py!"/home/a", py!"/srv/a")] ∧ p = py!"/home/abc/t.yml" ∧ toActual ms p ≠ p :=
  ⟨_, _, rfl, rfl, by decide⟩

theorem mapPath_none (ms : List (Str × Str)) (p : Str) (h : ∀ m ∈ ms, m.1.isPrefixOf p = false) : mapPath ms p = p := by
  induction ms with
  | nil => rfl
  | cons m t ih =>
    obtain ⟨a, b⟩ := m
    rw [mapPath, if_neg (by rw [h (a, b) List.mem_cons_self]; simp), ih (fun m hm => h m (List.mem_cons_of_mem _ hm))]

theorem mapPath_first (ms : List (Str × Str)) (p : Str) (h : ∃ m ∈ ms, m.1.isPrefixOf p = true) :
    ∃ m ∈ ms, ∃ r, p = m.1 ++ r ∧ mapPath ms p = m.2 ++ r := by
  induction ms with
  | nil => obtain ⟨m, hm, -⟩ := h; cases hm
  | cons x t ih =>
    obtain ⟨a, b⟩ := x
    rw [mapPath]
    split
    · rename_i hp
      obtain ⟨r, hr⟩ := List.isPrefixOf_iff_prefix.1 hp
      exact ⟨(a, b), List.mem_cons_self, r, hr.symm, by rw [← hr]; simp⟩
    · rename_i hp
      obtain ⟨m, hm, hmp⟩ := h
      rcases List.mem_cons.1 hm with rfl | hm
      · exact absurd hmp hp
      · obtain ⟨m', h1, r, h2, h3⟩ := ih ⟨m, hm, hmp⟩
        exact ⟨m', List.mem_cons_of_mem _ h1, r, h2, h3⟩

theorem mapPath_at (ms : List (Str × Str)) (m : Str × Str) (hm : m ∈ ms) (r : Str)
    (hu : ∀ m' ∈ ms, m'.1.isPrefixOf (m.1 ++ r) = true → m' = m) : mapPath ms (m.1 ++ r) = m.2 ++ r := by
  induction ms with
  | nil => cases hm
  | cons x t ih =>
    obtain ⟨a, b⟩ := x
    rw [mapPath]
    split
    · rename_i hp
      have := hu (a, b) List.mem_cons_self hp
      subst this
      simp
    · rename_i hp
      rcases List.mem_cons.1 hm with rfl | hm
      · exact absurd (List.isPrefixOf_iff_prefix.2 ⟨r, rfl⟩) hp
      · exact ih hm (fun m' hm' => hu m' (List.mem_cons_of_mem _ hm'))

/-- **C31, what holds.** If no remote root is a prefix of the remote root of another mapping, every
path under a mapped local root comes back to the client unchanged. -/
theorem C31_roundtrip_partial (ms : List (Str × Str))
    (hr : ∀ m ∈ ms, ∀ m' ∈ ms, m.2 <+: m'.2 → m = m') (p : Str) (hp : ∃ m ∈ ms, m.1.isPrefixOf p = true) :
    toClient ms (toActual ms p) = p := by
  obtain ⟨m, hm, r, h1, h2⟩ := mapPath_first ms p hp
  unfold toClient toActual
  rw [h2, h1]
  refine mapPath_at (ms.map fun m => (m.2, m.1)) (m.2, m.1) (List.mem_map_of_mem (f := fun m : Str × Str => (m.2, m.1)) hm) r ?_
  intro x hx hpre
  obtain ⟨m', hm', rfl⟩ := List.mem_map.1 hx
  have hpre' : m'.2 <+: m.2 ++ r := List.isPrefixOf_iff_prefix.1 hpre
  have : m' = m := by
    rcases List.prefix_or_prefix_of_prefix hpre' (List.prefix_append m.2 r) with h | h
    · exact hr m' hm' m hm h
    · exact (hr m hm m' hm' h).symm
  rw [this]

/-- **C31, what holds.** A path under neither a local nor a remote root is left alone both ways. -/
theorem C31_unmapped_partial (ms : List (Str × Str)) (p : Str) (hl : ∀ m ∈ ms, m.1.isPrefixOf p = false)
    (hr : ∀ m ∈ ms, m.2.isPrefixOf p = false) : toClient ms (toActual ms p) = p := by
  unfold toClient toActual
  rw [mapPath_none ms p hl]
  apply mapPath_none
  intro m hm
  obtain ⟨m', hm', rfl⟩ := List.mem_map.1 hm
  exact hr m' hm'

/-- The mapping of the configured ones that applies to a path, and the rest of the path: the first one, in the order of the configuration, whose root is the
beginning of the path. `near` are the roots looked at, `far` the ones put in their place. -/
def Applies (ms : List (Str × Str)) (near _far : Str × Str → Str) (p : Str) (m : Str × Str) (rest : Str) : Prop :=
  ∃ pre post, ms = pre ++ m :: post ∧ (∀ m' ∈ pre, ¬ near m' <+: p) ∧ p = near m ++ rest

theorem mapPath_applies (ms : List (Str × Str)) (near far : Str × Str → Str) (p : Str) (m : Str × Str) (rest : Str) (h : Applies ms near far p m rest) :
    mapPath (ms.map fun m => (near m, far m)) p = far m ++ rest := by
  obtain ⟨pre, post, rfl, hpre, rfl⟩ := h
  induction pre with
  | nil =>
    simp only [List.nil_append, List.map_cons, mapPath]
    rw [if_pos (List.isPrefixOf_iff_prefix.2 ⟨rest, rfl⟩), List.drop_left]
  | cons x xs ih =>
    simp only [List.cons_append, List.map_cons, mapPath]
    rw [if_neg (fun h => hpre x List.mem_cons_self (List.isPrefixOf_iff_prefix.1 h)), ih fun m' hm' => hpre m' (List.mem_cons_of_mem _ hm')]

theorem applies_or (ms : List (Str × Str)) (near far : Str × Str → Str) (p : Str) : (∃ m rest, Applies ms near far p m rest) ∨ ∀ m ∈ ms, ¬ near m <+: p := by
  induction ms with
  | nil => right; intro m hm; cases hm
  | cons x xs ih =>
    by_cases hx : near x <+: p
    · obtain ⟨rest, hr⟩ := hx
      exact .inl ⟨x, rest, [], xs, rfl, by simp, hr.symm⟩
    · rcases ih with ⟨m, rest, pre, post, rfl, h1, h2⟩ | h
      · refine .inl ⟨m, rest, x :: pre, post, rfl, ?_, h2⟩
        intro m' hm'
        rcases List.mem_cons.1 hm' with rfl | h
        · exact hx
        · exact h1 m' h
      · right
        intro m hm
        rcases List.mem_cons.1 hm with rfl | h'
        · exact hx
        · exact h m h'

theorem mapPath_id (ms : List (Str × Str)) (near far : Str × Str → Str) (p : Str) (h : ∀ m ∈ ms, ¬ near m <+: p) :
    mapPath (ms.map fun m => (near m, far m)) p = p := by
  apply mapPath_none
  intro m hm
  obtain ⟨m', hm', rfl⟩ := List.mem_map.1 hm
  exact Bool.eq_false_iff.2 fun h' => h m' hm' (List.isPrefixOf_iff_prefix.1 h')

/-- **C31.** Which mapping is used for a path: the first one, in the order of the configuration, whose root the path begins with; the root is replaced and the rest of the path
is kept. Without one the path is left alone. The same for both directions. -/
theorem C31_first_applies_partial (ms : List (Str × Str)) (p : Str) :
    (∀ m rest, Applies ms Prod.fst Prod.snd p m rest → toActual ms p = m.2 ++ rest) ∧ ((∀ m ∈ ms, ¬ m.1 <+: p) → toActual ms p = p) ∧
    (∀ m rest, Applies ms Prod.snd Prod.fst p m rest → toClient ms p = m.1 ++ rest) ∧ ((∀ m ∈ ms, ¬ m.2 <+: p) → toClient ms p = p) := by
  have e : ms.map (fun m => (m.1, m.2)) = ms := by simp
  refine ⟨fun m rest h => ?_, fun h => ?_, fun m rest h => mapPath_applies ms Prod.snd Prod.fst p m rest h, fun h => mapPath_id ms Prod.snd Prod.fst p h⟩
  · have := mapPath_applies ms Prod.fst Prod.snd p m rest h
    rw [e] at this; exact this
  · have := mapPath_id ms Prod.fst Prod.snd p h
    rw [e] at this; exact this

/-- Two mappings move the same tree: one maps a directory, the other one a part of it, to the corresponding part. -/
def Agree (m m' : Str × Str) : Prop := ∃ x, (m.1 = m'.1 ++ x ∧ m.2 = m'.2 ++ x) ∨ (m'.1 = m.1 ++ x ∧ m'.2 = m.2 ++ x)

theorem agree_iff {near far : Str × Str → Str} {m m' : Str × Str} {rest rest' : Str} (h : far m ++ rest = far m' ++ rest') :
    near m' ++ rest' = near m ++ rest ↔ ∃ x, (near m = near m' ++ x ∧ far m = far m' ++ x) ∨ (near m' = near m ++ x ∧ far m' = far m ++ x) := by
  rcases List.append_eq_append_iff.1 h with ⟨x, h1, h2⟩ | ⟨x, h1, h2⟩
  · -- far m' = far m ++ x, rest = x ++ rest'
    subst h2
    constructor
    · intro e
      rw [← List.append_assoc] at e
      exact ⟨x, .inr ⟨List.append_cancel_right e, h1⟩⟩
    · rintro ⟨y, ⟨e1, e2⟩ | ⟨e1, e2⟩⟩
      · have : x = [] ∧ y = [] := by
          rw [e2, List.append_assoc] at h1
          have := congrArg List.length h1
          simp only [List.length_append] at this
          constructor <;> apply List.eq_nil_of_length_eq_zero <;> omega
        obtain ⟨rfl, rfl⟩ := this
        simp [e1]
      · rw [h1] at e2
        rw [e1, List.append_cancel_left e2, List.append_assoc]
  · subst h2
    constructor
    · intro e
      rw [← List.append_assoc] at e
      exact ⟨x, .inl ⟨(List.append_cancel_right e).symm, h1⟩⟩
    · rintro ⟨y, ⟨e1, e2⟩ | ⟨e1, e2⟩⟩
      · rw [h1] at e2
        rw [e1, List.append_cancel_left e2, List.append_assoc]
      · have : x = [] ∧ y = [] := by
          rw [h1, List.append_assoc] at e2
          have := congrArg List.length e2
          simp only [List.length_append] at this
          constructor <;> apply List.eq_nil_of_length_eq_zero <;> omega
        obtain ⟨rfl, rfl⟩ := this
        simp [e1]

/-- **C31, exactly when it holds.** A path of the client is converted and comes back: if a mapping `m` applies to it, then some mapping applies to the converted path, and the path
comes back unchanged exactly if that one agrees with `m`. If no mapping applies to it, it comes back unchanged exactly if none applies on the way back, or the one
that does has equal roots. -/
theorem C31_exact_partial (ms : List (Str × Str)) (p : Str) :
    (∀ m rest, Applies ms Prod.fst Prod.snd p m rest →
      ∃ m' rest', Applies ms Prod.snd Prod.fst (toActual ms p) m' rest' ∧ (toClient ms (toActual ms p) = p ↔ Agree m m')) ∧
    ((∀ m ∈ ms, ¬ m.1 <+: p) →
      (toClient ms (toActual ms p) = p ↔ ∀ m rest, Applies ms Prod.snd Prod.fst p m rest → m.1 = m.2)) := by
  obtain ⟨a1, a2, a3, a4⟩ := C31_first_applies_partial ms p
  constructor
  · intro m rest h
    rw [a1 m rest h]
    obtain ⟨b1, b2, b3, b4⟩ := C31_first_applies_partial ms (m.2 ++ rest)
    obtain ⟨pre, post, hms, hpre, rfl⟩ := h
    rcases applies_or ms Prod.snd Prod.fst (m.2 ++ rest) with ⟨m', rest', h'⟩ | h'
    · refine ⟨m', rest', h', ?_⟩
      rw [b3 m' rest' h']
      obtain ⟨_, _, _, _, e⟩ := h'
      exact agree_iff (near := Prod.fst) (far := Prod.snd) e
    · exact absurd (List.prefix_append _ _) (h' m (by rw [hms]; simp))
  · intro h
    rw [a2 h]
    constructor
    · intro e m rest hm
      rw [a3 m rest hm] at e
      obtain ⟨_, _, _, _, e'⟩ := hm
      rw [e'] at e
      exact List.append_cancel_right e
    · intro hall
      rcases applies_or ms Prod.snd Prod.fst p with ⟨m', rest', h'⟩ | h'
      · rw [a3 m' rest' h', hall m' rest' h']
        obtain ⟨_, _, _, _, e⟩ := h'
        exact e.symm
      · exact a4 h'

/-- **C31, exactly when it holds, the other way.** A path of the debuggee is shown to the client and sent back by it. -/
theorem C31_exact_back_partial (ms : List (Str × Str)) (p : Str) :
    (∀ m rest, Applies ms Prod.snd Prod.fst p m rest →
      ∃ m' rest', Applies ms Prod.fst Prod.snd (toClient ms p) m' rest' ∧ (toActual ms (toClient ms p) = p ↔ Agree m m')) ∧
    ((∀ m ∈ ms, ¬ m.2 <+: p) →
      (toActual ms (toClient ms p) = p ↔ ∀ m rest, Applies ms Prod.fst Prod.snd p m rest → m.1 = m.2)) := by
  obtain ⟨a1, a2, a3, a4⟩ := C31_first_applies_partial ms p
  constructor
  · intro m rest h
    rw [a3 m rest h]
    obtain ⟨b1, b2, b3, b4⟩ := C31_first_applies_partial ms (m.1 ++ rest)
    obtain ⟨pre, post, hms, hpre, rfl⟩ := h
    rcases applies_or ms Prod.fst Prod.snd (m.1 ++ rest) with ⟨m', rest', h'⟩ | h'
    · refine ⟨m', rest', h', ?_⟩
      rw [b1 m' rest' h']
      obtain ⟨_, _, _, _, e⟩ := h'
      rw [agree_iff (near := Prod.snd) (far := Prod.fst) e]
      unfold Agree
      constructor <;> rintro ⟨x, ⟨e1, e2⟩ | ⟨e1, e2⟩⟩ <;> first | exact ⟨x, .inl ⟨e2, e1⟩⟩ | exact ⟨x, .inr ⟨e2, e1⟩⟩
    · exact absurd (List.prefix_append _ _) (h' m (by rw [hms]; simp))
  · intro h
    rw [a4 h]
    constructor
    · intro e m rest hm
      rw [a1 m rest hm] at e
      obtain ⟨_, _, _, _, e'⟩ := hm
      rw [e'] at e
      exact (List.append_cancel_right e).symm
    · intro hall
      rcases applies_or ms Prod.fst Prod.snd p with ⟨m', rest', h'⟩ | h'
      · rw [a1 m' rest' h', ← hall m' rest' h']
        obtain ⟨_, _, _, _, e⟩ := h'
        exact e.symm
      · exact a2 h'

/-- Two mappings that agree, the part first. -/
example : Agree (py!"/home/me/proj/roles", py!"/srv/proj/roles") (py!"/home/me/proj", py!"/srv/proj") ∧
    Applies [(py!"/home/me/proj/roles", py!"/srv/proj/roles"), (py!"/home/me/proj", py!"/srv/proj")] Prod.fst Prod.snd py!"/home/me/proj/a.yml" (py!"/home/me/proj", py!"/srv/proj") py!"/a.yml" ∧
    toClient [(py!"/home/me/proj/roles", py!"/srv/proj/roles"), (py!"/home/me/proj", py!"/srv/proj")] py!"/srv/proj/roles/x" = py!"/home/me/proj/roles/x" := by
  refine ⟨⟨py!"/roles", .inl ⟨rfl, rfl⟩⟩, ⟨[_], [], rfl, ?_, rfl⟩, by decide +kernel⟩
  intro m hm
  rw [List.mem_singleton.1 hm]
  decide +kernel

/-- **C31, what holds.** With no mappings every path is left alone. -/
theorem C31_no_mappings_partial (p : Str) : toActual [] p = p ∧ toClient [] p = p := ⟨rfl, rfl⟩

/-- The action does not touch the path mappings of the session. -/
def KeepsMappings : Act → Prop
  | .config _ => False
  | .disconnect => False
  | _ => True

theorem keeps_mappings (h : List Act) : ∀ s : Dbg, (∀ a ∈ h, KeepsMappings a) → (run s h).1.mappings = s.mappings := by
  induction h with
  | nil => intro s _; rfl
  | cons a t ih =>
    intro s hk
    show (run (step s a).1 t).1.mappings = _
    rw [ih _ (fun b hb => hk b (by simp [hb]))]
    have ha := hk a (by simp)
    cases a with
    | setBps seq src m ls => rfl
    | setExc seq fs => rfl
    | config ms => exact ha.elim
    | disconnect => exact ha.elim
    | reg p l t =>
      simp only [step, register]
      split <;> rfl

theorem run_split (h h' : List Act) : ∀ s : Dbg, (run s (h ++ h')).1 = (run (run s h).1 h').1 := by
  induction h with
  | nil => intro s; rfl
  | cons a t ih => intro s; exact ih _

/-- **C31, what holds.** The mappings in force are those of the last session start, until the client disconnects; from
then on, and before the first session, there are none, so a later session never sees those of an earlier one. -/
theorem C31_in_force_partial (h h' : List Act) (hk : ∀ a ∈ h', KeepsMappings a) :
    (∀ ms, (run {} (h ++ .config ms :: h')).1.mappings = ms) ∧
    (run {} (h ++ .disconnect :: h')).1.mappings = [] ∧ (run {} h').1.mappings = [] := by
  refine ⟨fun ms => ?_, ?_, keeps_mappings h' _ hk⟩
  · rw [run_split]
    show (run (step _ _).1 h').1.mappings = _
    rw [keeps_mappings h' _ hk]; rfl
  · rw [run_split]
    show (run (step _ _).1 h').1.mappings = _
    rw [keeps_mappings h' _ hk]; rfl

example : ∀ a ∈ exHist, KeepsMappings a := by
  intro a ha
  simp only [exHist, List.mem_cons, List.not_mem_nil, or_false] at ha
  rcases ha with rfl | rfl | rfl | rfl | rfl | rfl <;> trivial

example : (∀ m ∈ [(py!"/home/me/proj", py!"/srv/proj"), (py!"/home/me/roles", py!"/srv/roles")],
    ∀ m' ∈ [(py!"/home/me/proj", py!"/srv/proj"), (py!"/home/me/roles", py!"/srv/roles")], m.2 <+: m'.2 → m = m') ∧
    toActual [(py!"/home/me/proj", py!"/srv/proj")] py!"/home/me/proj/a.yml" = py!"/srv/proj/a.yml" := by decide +kernel

end Verif.Props.Bp
