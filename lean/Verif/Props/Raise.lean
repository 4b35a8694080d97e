import Verif.Props.WireBps
import Verif.Props.StratRole
import Verif.Bp.Raise
/-!
# Breakpoints do not make the playbook fail (C103)

Model: `registerLine` of `Verif.Strat.State` and `register` of `Verif.Bp.Model`
(/repo/src/ansibug/_debuggee.py:530-577, 822-857). The lines of a file that Ansible loads are registered by the playbook's
thread, which recomputes the kept breakpoints of that file; an exception there ends the run.
-/

namespace Verif.Props.Raise
open Verif Verif.Strat Verif.Props.Strat

/-- How many lines of a file the debugger knows of after a history, line 0 included: up to the largest
line of a task or block that was loaded. -/
def knownLines (h : List Bp.Act) (p : Str) : Nat := ((Bp.regsOf h p).map (·.1 + 1)).foldl max 1

theorem foldl_max (l : List Nat) : ∀ a, l.foldl max a = max a (l.foldl max 0) := by
  induction l with
  | nil => intro a; simp
  | cons x l ih => intro a; rw [List.foldl_cons, ih, List.foldl_cons, ih (max 0 x)]; omega

theorem known_pos (h : List Bp.Act) (p : Str) : 1 ≤ knownLines h p := by
  unfold knownLines; rw [foldl_max]; omega

theorem known_append (h : List Bp.Act) (a : Bp.Act) (p : Str) : knownLines (h ++ [a]) p = max (knownLines h p) (knownLines [a] p) := by
  have e : Bp.regsOf (h ++ [a]) p = Bp.regsOf h p ++ Bp.regsOf [a] p := by unfold Bp.regsOf; rw [List.filterMap_append]
  unfold knownLines
  rw [e, List.map_append, List.foldl_append]
  generalize (Bp.regsOf h p).map (·.1 + 1) = x
  generalize (Bp.regsOf [a] p).map (·.1 + 1) = y
  have h1 := foldl_max y (x.foldl max 1)
  have h2 := foldl_max y 1
  have h3 := foldl_max x 1
  omega

theorem table_known (h : List Bp.Act) (p : Str) : Bp.tableLength (Bp.run {} h).1 p = knownLines h p := by
  induction h using Bp.snocInd with
  | h0 => rfl
  | h1 h a ih =>
    rw [known_append, ← ih, bp_run_append]
    show Bp.tableLength (Bp.step (Bp.run {} h).1 a).1 p = _
    have ht := Bp.tables_run h {} Bp.tables_init
    generalize (Bp.run {} h).1 = s at ht
    have hs := (ht.at p).pos
    have other : ∀ s' : Bp.Dbg, s'.info = s.info → knownLines [a] p = 1 → Bp.tableLength s' p = max (Bp.tableLength s p) (knownLines [a] p) := by
      intro s' h1 h2
      rw [h2]; unfold Bp.tableLength; rw [h1]; omega
    cases a with
    | setBps seq src m ls => exact other _ rfl rfl
    | setExc seq fs => exact other _ rfl rfl
    | config ms => exact other _ rfl rfl
    | disconnect => exact other _ rfl rfl
    | reg q l ty =>
      have hq := ht.at q
      by_cases hqp : q = p
      · subst hqp
        have hk : knownLines [.reg q l ty] q = max 1 (l.toNat + 1) := by simp [knownLines, Bp.regsOf]
        rw [hk]
        unfold Bp.tableLength at *
        simp only [Bp.step, Bp.register]
        generalize (s.info.get? q).getD [some 0] = fl at *
        cases hr : Bp.regLine fl l ty with
        | none =>
          have := (Bp.regLine_fails_iff fl l ty).1 hr
          simp only [Dict.get?_set, if_true, Option.getD_some, List.length_append, List.length_replicate]
          omega
        | some fl' =>
          have := (Bp.begins_regLine hq hr).2
          simp only [Dict.get?_set, if_true, Option.getD_some, this]
          omega
      · have hk : knownLines [.reg q l ty] p = 1 := by simp [knownLines, Bp.regsOf, hqp]
        rw [hk]
        unfold Bp.tableLength at *
        simp only [Bp.step, Bp.register]
        cases hr : Bp.regLine ((s.info.get? q).getD [some 0]) l ty with
        | none => simp only [Dict.get?_set, hqp, if_false]; omega
        | some fl' => simp only [Dict.get?_set, hqp, if_false]; omega

/-- **C103** (exactly). After any history, loading a task or block at a line ends the run of the playbook with
an exception if and only if a breakpoint is kept for that file that was requested at a line further below
zero than lines of the file are known (with the new one), or the line itself is. It is an IndexError. -/
theorem C103_exactly {s s' : DS} {ls : List Label} {os o : List Out} {p : Str} {line : Int} {ty : Nat} (hr : Run {} ls s os)
    (hs : step s (.reg p line ty) = some (s', o)) :
    ((∃ e, s'.pc = .crashed e) ↔ line + knownLines (bpActs ls) p < 0 ∨
      ∃ b ∈ s.dbg.bps, b.2.actualPath = p ∧ b.2.reqLine + knownLines (bpActs ls ++ [.reg p line ty]) p < 0) ∧
    ∀ e, s'.pc = .crashed e → e = .index := by
  have hd := dbg_run inv_init hr
  have ht : Bp.Tables s.dbg := by rw [hd]; exact Bp.tables_run _ _ Bp.tables_init
  have hlen : Bp.tableLength s.dbg p = knownLines (bpActs ls) p := by rw [hd, table_known]
  have hiff := Bp.register_fails_iff ht p line ty
  have h1 := known_pos (bpActs ls) p
  have hmax : knownLines (bpActs ls ++ [.reg p line ty]) p = max (knownLines (bpActs ls) p) (1 + line).toNat := by
    rw [known_append]
    have : knownLines [.reg p line ty] p = max 1 (line.toNat + 1) := by simp [knownLines, Bp.regsOf]
    rw [this]; omega
  have hcr : (∃ e, s'.pc = .crashed e) ↔ ∃ e, (Bp.register p line ty s.dbg).2.2 = some e := by
    simp only [step] at hs
    split at hs
    · rename_i hp
      rw [fst_eq hs]
      unfold registerLine
      cases he : (Bp.register p line ty s.dbg).2.2 with
      | none => simp only [bpStep, hp]; constructor <;> rintro ⟨e, h⟩ <;> cases h
      | some e => exact ⟨fun _ => ⟨e, rfl⟩, fun _ => ⟨e, rfl⟩⟩
    · cases hs
  refine ⟨?_, ?_⟩
  · rw [hcr, hiff, hlen, hmax]
    constructor
    · rintro (h | ⟨k, b, h1, h2, h3⟩)
      · exact .inl h
      · exact .inr ⟨(k, b), h1, h2, h3⟩
    · rintro (h | ⟨⟨k, b⟩, h1, h2, h3⟩)
      · exact .inl h
      · exact .inr ⟨k, b, h1, h2, h3⟩
  · intro e he
    simp only [step] at hs
    split at hs
    · rename_i hp
      rw [fst_eq hs] at he
      unfold registerLine at he
      cases hre : (Bp.register p line ty s.dbg).2.2 with
      | none => rw [hre] at he; simp only [bpStep, hp] at he; cases he
      | some e' =>
        rw [hre] at he
        cases he
        exact Bp.register_fails_index ht p line ty e hre
    · cases hs

/-- **C103.** As long as no negative line was requested or loaded, the playbook goes on after a file was loaded,
whatever breakpoints were requested. -/
theorem C103_goes_on_partial {s s' : DS} {ls : List Label} {os o : List Out} {p : Str} {line : Int} {ty : Nat} (hr : Run {} ls s os)
    (hreq : ∀ seq src m lines, .req (.setBps seq src m lines) ∈ ls → ∀ l ∈ lines, 0 ≤ l) (hreg : ∀ q l t, .reg q l t ∈ ls → 0 ≤ l) (hl : 0 ≤ line)
    (hs : step s (.reg p line ty) = some (s', o)) : s'.pc = .running ∧ ∀ m ∈ o, ∃ b, m = .bp (.bpChanged b) := by
  have hsane : ∀ x ∈ bpActs ls, Bp.Sane x := by
    have : ∀ ls' : List Label, (∀ l ∈ ls', l ∈ ls) → ∀ x ∈ bpActs ls', Bp.Sane x := by
      intro ls'
      induction ls' with
      | nil => intro _ x hx; cases hx
      | cons l ls' ih =>
        intro hsub x hx
        rw [bpActs_cons] at hx
        rcases List.mem_append.1 hx with hx | hx
        · have hl := hsub l List.mem_cons_self
          cases l with
          | reg q n t => rw [List.mem_singleton.1 hx]; exact hreg q n t hl
          | req r =>
            cases r with
            | setBps seq src m lines => rw [List.mem_singleton.1 hx]; exact hreq seq src m lines hl
            | setExc seq fs => rw [List.mem_singleton.1 hx]; trivial
            | config ms => rw [List.mem_singleton.1 hx]; trivial
            | disconnect y => rw [List.mem_singleton.1 hx]; trivial
            | terminate => rw [List.mem_singleton.1 hx]; trivial
            | closed => rw [List.mem_singleton.1 hx]; trivial
            | _ => cases hx
          | _ => cases hx
        · exact ih (fun l h => hsub l (List.mem_cons_of_mem _ h)) x hx
    exact this ls fun _ h => h
  have hm : Bp.Mild s.dbg := by rw [dbg_run inv_init hr]; exact Bp.mild_run _ _ Bp.mild_init hsane
  have hf := Bp.register_fine hm.tables hm.lines p hl ty
  simp only [step] at hs
  split at hs
  · rename_i hp
    have e1 := fst_eq hs
    have e2 := snd_eq hs
    simp only [registerLine, hf] at e1 e2
    refine ⟨by rw [e1]; exact hp, fun m hm => ?_⟩
    rw [e2] at hm
    simp only [bpStep, Bp.step, List.mem_map] at hm
    obtain ⟨b, hb, rfl⟩ := hm
    obtain ⟨b', hb'⟩ := Verif.Props.WireStops.reg_out p line ty s.dbg b hb
    exact ⟨b', by rw [hb']⟩
  · cases hs

/-- **C103.** No request by itself ends the playbook or makes it go on: only the playbook's own steps do. -/
theorem C103_requests {s s' : DS} {r : Req} {o : List Out} (hr : Reachable s) (hs : step s (.req r) = some (s', o)) : s'.pc = s.pc := by
  rw [fst_eq hs]; exact request_pc s (reach_inv hr) r

/-- A setBreakpoints request for a line below zero. It conforms to the protocol. -/
def negativeDoc : List (Str × Json) := [(py!"seq", .int 7), (py!"type", .str py!"request"), (py!"command", .str py!"setBreakpoints"),
  (py!"arguments", .obj [(py!"source", .obj [(py!"path", .str py!"/r.yml")]), (py!"breakpoints", .arr [.obj [(py!"line", .int (-9))]])])]

open Verif.Wire in
/-- **C103, refuted for negative lines.** A client sends a conforming setBreakpoints document with a negative line for a
file that was not loaded. It gets a response with a breakpoint. When Ansible loads the file later, at line 3, the
playbook dies of an IndexError. -/
theorem C103_refuted : Dap.Schema.Valid true (Dap.Schema.ref .SetBreakpointsRequest) (.obj negativeDoc) ∧
    ∃ m, Dap.unpack (.obj negativeDoc) = .ok m ∧
      ((handle Verif.Props.Wire.env0 {} m).2.map fun a => match a.attr? py!"success" with | some (.bool b) => b | _ => false) = [true] ∧
      ((step (handle Verif.Props.Wire.env0 {} m).1 (.reg py!"/r.yml" 3 1)).map fun x => x.1.pc) = some (.crashed .index) := by
  refine ⟨Dap.Schema.validB_ok 6 _ _ (by decide +kernel), ?_⟩
  have key : ∀ x : Except PyErr Dap.Val, (x.toOption.map fun m => decide
      (((handle Verif.Props.Wire.env0 {} m).2.map fun a => match a.attr? py!"success" with | some (.bool b) => b | _ => false) = [true] ∧
      ((step (handle Verif.Props.Wire.env0 {} m).1 (.reg py!"/r.yml" 3 1)).map fun x => x.1.pc) = some (.crashed .index))) = some true →
      ∃ m, x = .ok m ∧ ((handle Verif.Props.Wire.env0 {} m).2.map fun a => match a.attr? py!"success" with | some (.bool b) => b | _ => false) = [true] ∧
      ((step (handle Verif.Props.Wire.env0 {} m).1 (.reg py!"/r.yml" 3 1)).map fun x => x.1.pc) = some (.crashed .index) := by
    intro x hx
    cases x with
    | error e => cases hx
    | ok m => exact ⟨m, rfl, by simpa [Except.toOption] using hx⟩
  exact key _ (by decide +kernel)

/-! ### Non-vacuity -/

/-- Breakpoints at lines 3 and 0 of a file, which is loaded afterwards. -/
def before : List Label := [.req (.setBps 1 { name := none, path := some py!"/r.yml" } false [3, 0])]

example : Run {} before (stF {} before) (ouF {} before) ∧
    ((step (stF {} before) (.reg py!"/r.yml" 2 1)).map fun x => (x.1.pc, x.2.length)) = some (.running, 2) :=
  ⟨run_of (by decide +kernel), by decide +kernel⟩

/-- Both sides of `C103_exactly` occur: with lines up to 3 known, line -4 is fine and line -5 is not. -/
example : (∀ n : Int, n = -4 → Run {} [.req (.setBps 1 { name := none, path := some py!"/r.yml" } false [n])] (stF {} [.req (.setBps 1 { name := none, path := some py!"/r.yml" } false [n])])
      (ouF {} [.req (.setBps 1 { name := none, path := some py!"/r.yml" } false [n])])) ∧
    ((step (stF {} [.req (.setBps 1 { name := none, path := some py!"/r.yml" } false [-4])]) (.reg py!"/r.yml" 3 1)).map fun x => x.1.pc) = some .running ∧
    ((step (stF {} [.req (.setBps 1 { name := none, path := some py!"/r.yml" } false [-5])]) (.reg py!"/r.yml" 3 1)).map fun x => x.1.pc) = some (.crashed .index) ∧
    knownLines [.reg py!"/r.yml" 3 1] py!"/r.yml" = 4 := by
  refine ⟨?_, by decide +kernel, by decide +kernel, by decide +kernel⟩
  rintro _ rfl
  exact run_of (by decide +kernel)

end Verif.Props.Raise
