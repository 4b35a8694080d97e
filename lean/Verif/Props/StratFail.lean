import Verif.Props.StratEdit
/-!
# C104: an edit that fails changes nothing
-/

namespace Verif.Props.Strat
open Verif Verif.Strat

/-- Nothing the client or the playbook can see differs: the containers there were, the variables of the hosts
given to the variable manager, and the answer to every variables request (for references whose container is
there). -/
structure Untouched (s s' : DS) : Prop where
  containers : ∀ a, a < s.heap.length → s'.heap[a]? = s.heap[a]?
  hosts : s'.hostStore = s.hostStore
  refs : s'.vars = s.vars ∧ s'.frames = s.frames
  seen : ∀ ref, (∀ v, s.vars.get? ref = some v → v.addr < s.heap.length) → shown s' ref = shown s ref

theorem untouched_of {s s' : DS} {objs : List Obj} (h : s'.heap = s.heap ++ objs) (h1 : s'.hostStore = s.hostStore)
    (h2 : s'.vars = s.vars) (h3 : s'.frames = s.frames) : Untouched s s' := by
  refine ⟨fun a ha => by rw [h, List.getElem?_append_left ha], h1, ⟨h2, h3⟩, fun ref hv => ?_⟩
  rw [shown_eq, shown_eq, h2, h]
  cases hr : s.vars.get? ref with
  | none => rfl
  | some v => simp only [Option.map_some, listing_append objs (hv v hr)]

theorem untouched_refl (s : DS) : Untouched s s :=
  untouched_of (objs := []) (List.append_nil _).symm rfl rfl rfl

/-- There is a `dict` at the address. -/
def IsDict (h : Heap) (a : Addr) : Prop := ∃ es, h[a]? = some (.dict true es)

theorem setItem_keeps {h h' : Heap} {a b : Addr} {n : Str} {x : Val} (hs : setItem h b n x = .ok h') (ha : IsDict h a) : IsDict h' a := by
  obtain ⟨es, h1, rfl⟩ := setItem_ok hs
  by_cases hb : b = a
  · subst hb; exact ⟨_, List.getElem?_set_self (get_lt h1)⟩
  · obtain ⟨es', h2⟩ := ha
    exact ⟨es', by rw [List.getElem?_set_ne hb, h2]⟩

theorem setIndex_keeps {h h' : Heap} {a b : Addr} {n : Str} {x : Val} (hs : setIndex h b n x = .ok h') (ha : IsDict h a) : IsDict h' a := by
  unfold setIndex at hs
  split at hs
  · cases hs
  · split at hs
    · rename_i xs hb
      split at hs
      · cases hs
      · cases hs
        obtain ⟨es', h2⟩ := ha
        refine ⟨es', ?_⟩
        rw [List.getElem?_set_ne, h2]
        rintro rfl
        rw [h2] at hb; cases hb
    · cases hs

theorem setItem_total {h : Heap} {a : Addr} (n : Str) (x : Val) (ha : IsDict h a) : ∃ h', setItem h a n x = .ok h' := by
  obtain ⟨es, h1⟩ := ha
  unfold setItem; rw [h1]; exact ⟨_, rfl⟩

theorem setVal_keeps {h : Heap} {hs : List (Str × Str × Val)} {v : Var} {n : Str} {x : Val} {a : Addr} (ha : IsDict h a) :
    IsDict (setVal h hs v n x).1 a := by
  unfold setVal
  cases v.kind with
  | list =>
    dsimp only
    cases hh : setIndex h v.addr n x with
    | error => exact ha
    | ok => exact setIndex_keeps hh ha
  | dict =>
    dsimp only
    cases hh : setItem h v.addr n x with
    | error => exact ha
    | ok => exact setItem_keeps hh ha
  | hostVars =>
    dsimp only
    cases hh : setItem h v.addr n x with
    | error => exact ha
    | ok => exact setItem_keeps hh ha
  | rawStore raw =>
    dsimp only
    cases hh : setItem h v.addr n x with
    | error => exact ha
    | ok h' =>
      dsimp only
      cases hh2 : setItem h' raw n x with
      | error => exact setItem_keeps hh ha
      | ok => exact setItem_keeps hh2 (setItem_keeps hh ha)

theorem setVal_total {h : Heap} (hs : List (Str × Str × Val)) {v : Var} (n : Str) (x : Val) (hk : v.kind ≠ .list) (ha : IsDict h v.addr)
    (hw : ∀ raw, v.kind = .rawStore raw → IsDict h raw) : (setVal h hs v n x).2.2 = none := by
  unfold setVal
  obtain ⟨h', hh⟩ := setItem_total n x ha
  cases hk' : v.kind with
  | list => exact absurd hk' hk
  | dict => dsimp only; rw [hh]
  | hostVars => dsimp only; rw [hh]
  | rawStore raw =>
    dsimp only; rw [hh]; dsimp only
    obtain ⟨h'', hh2⟩ := setItem_total n x (setItem_keeps hh (hw raw hk'))
    rw [hh2]

/-- If the arguments of the task are a `dict`, the assignment changes everything it should or nothing. -/
theorem setVal_fail {h : Heap} {hs : List (Str × Str × Val)} {v : Var} {n : Str} {x : Val} {e : PyErr}
    (hw : ∀ raw, v.kind = .rawStore raw → ∃ es, h[raw]? = some (.dict true es)) (he : (setVal h hs v n x).2.2 = some e) :
    (setVal h hs v n x).1 = h ∧ (setVal h hs v n x).2.1 = hs := by
  unfold setVal at he ⊢
  cases hk : v.kind with
  | list =>
    rw [hk] at he; dsimp only at he ⊢
    cases hh : setIndex h v.addr n x with
    | error => exact ⟨rfl, rfl⟩
    | ok => rw [hh] at he; cases he
  | dict =>
    rw [hk] at he; dsimp only at he ⊢
    cases hh : setItem h v.addr n x with
    | error => exact ⟨rfl, rfl⟩
    | ok => rw [hh] at he; cases he
  | hostVars host =>
    rw [hk] at he; dsimp only at he ⊢
    cases hh : setItem h v.addr n x with
    | error => exact ⟨rfl, rfl⟩
    | ok => rw [hh] at he; cases he
  | rawStore raw =>
    rw [hk] at he; dsimp only at he ⊢
    cases hh : setItem h v.addr n x with
    | error => exact ⟨rfl, rfl⟩
    | ok h' =>
      rw [hh] at he; dsimp only at he ⊢
      obtain ⟨es, hes⟩ := hw raw hk
      obtain ⟨es0, h1, h2⟩ := setItem_ok hh
      have : ∃ es', h'[raw]? = some (.dict true es') := by
        rw [h2]
        by_cases ha : v.addr = raw
        · subst ha; exact ⟨_, List.getElem?_set_self (get_lt h1)⟩
        · exact ⟨es, by rw [List.getElem?_set_ne ha, hes]⟩
      obtain ⟨es', hes'⟩ := this
      have : ∃ h'', setItem h' raw n x = .ok h'' := by
        unfold setItem; rw [hes']; exact ⟨_, rfl⟩
      obtain ⟨h'', hh''⟩ := this
      rw [hh''] at he; cases he

/-- The arguments of a task, which Module Options writes to, are a `dict` (they are in Ansible). -/
def ArgsAreDicts (s : DS) : Prop :=
  ∀ ref v raw, s.vars.get? ref = some v → v.kind = .rawStore raw → ∃ es, s.heap[raw]? = some (.dict true es)

theorem ArgsAreDicts.at {s : DS} (ha : ArgsAreDicts s) (objs : List Obj) {ref : Nat} {v : Var} (hv : s.vars.get? ref = some v) :
    ∀ raw, v.kind = .rawStore raw → ∃ es, (s.heap ++ objs)[raw]? = some (.dict true es) := by
  intro raw hk
  obtain ⟨es, h⟩ := ha ref v raw hv hk
  exact ⟨es, by rw [List.getElem?_append_left (get_lt h), h]⟩

/-- **C104** (setVariable). A setVariable request that is answered with an error changed nothing: whatever the
reference, the name, the value and the outcome of templating it. -/
theorem C104_set {s s' : DS} {ref : Nat} {name : Str} {t : Templated} {e : PyErr} (ha : ArgsAreDicts s)
    (h : step s (.req (.setVariable ref name t)) = some (s', [.error e])) : Untouched s s' := by
  have e1 := fst_eq h
  have e2 := snd_eq h
  simp only [request, setVariable] at e1 e2
  cases hv : s.vars.get? ref with
  | none => rw [hv] at e1; rw [e1]; exact untouched_refl s
  | some v =>
    rw [hv] at e1 e2
    cases t with
    | none => rw [e1]; exact untouched_refl s
    | some t =>
      obtain ⟨objs, x⟩ := t
      dsimp only at e1 e2
      cases he : (setVal (s.heap ++ objs) s.hostStore v name x).2.2 with
      | some e =>
        rw [he] at e1
        obtain ⟨h1, h2⟩ := setVal_fail (ha.at objs hv) he
        rw [e1]
        exact untouched_of h1 h2 rfl rfl
      | none => rw [he] at e2; cases x <;> cases e2

/-- **C104** (console). A `set_option`, a `remove_option` and a `set_hostvar` for a frame whose scopes were
handed out completely and are still what they were (a task's variables in a `dict` or not, the host's in a
`dict`), answered with an error, changed nothing. -/
theorem C104_console_partial {s s' : DS} {fid : Nat} {c : Eval} {e : PyErr} (ha : ArgsAreDicts s)
    (hc : ∀ name t fr, c = .setHostvar name t → s.frames.get? fid = some fr →
      ∃ w hs, s.vars.get? fr.hostvarsId = some w ∧ w.kind ≠ .list ∧ s.heap[w.addr]? = some (.dict true hs))
    (h : step s (.req (.evaluate fid c)) = some (s', [.error e])) : Untouched s s' := by
  have e1 := fst_eq h
  have e2 := snd_eq h
  simp only [request, evaluate] at e1 e2
  cases hf : s.frames.get? fid with
  | none => rw [hf] at e1; rw [e1]; exact untouched_refl s
  | some fr =>
    rw [hf] at e1 e2
    cases c with
    | expr => cases e2
    | text => cases e2
    | removeOption n =>
      dsimp only at e1 e2
      cases hv : s.vars.get? fr.optionsId with
      | none => rw [hv] at e1; rw [e1]; exact untouched_refl s
      | some v =>
        rw [hv] at e1 e2
        dsimp only at e1 e2
        cases hd : removeVal s.heap v n with
        | error => rw [hd] at e1; rw [e1]; exact untouched_refl s
        | ok => rw [hd] at e2; cases e2
    | setOption n t =>
      cases t with
      | none => rw [e1]; exact untouched_refl s
      | some t =>
        obtain ⟨objs, x⟩ := t
        simp only [setAll] at e1 e2
        cases hv : s.vars.get? fr.optionsId with
        | none => rw [hv] at e1; rw [e1]; exact untouched_of rfl rfl rfl rfl
        | some v =>
          rw [hv] at e1 e2
          dsimp only at e1 e2
          cases he : (setVal (s.heap ++ objs) s.hostStore v n x).2.2 with
          | none => rw [he] at e2; cases e2
          | some e =>
            rw [he] at e1
            obtain ⟨h1, h2⟩ := setVal_fail (ha.at objs hv) he
            rw [e1]
            exact untouched_of h1 h2 rfl rfl
    | setHostvar n t =>
      cases t with
      | none => rw [e1]; exact untouched_refl s
      | some t =>
        obtain ⟨objs, x⟩ := t
        simp only [setAll] at e1 e2
        cases hv : s.vars.get? fr.taskvarId with
        | none => rw [hv] at e1; rw [e1]; exact untouched_of rfl rfl rfl rfl
        | some v =>
          rw [hv] at e1 e2
          dsimp only at e1 e2
          cases he : (setVal (s.heap ++ objs) s.hostStore v n x).2.2 with
          | some e =>
            rw [he] at e1
            obtain ⟨h1, h2⟩ := setVal_fail (ha.at objs hv) he
            rw [e1]
            exact untouched_of h1 h2 rfl rfl
          | none =>
            rw [he] at e1 e2
            dsimp only at e1 e2
            obtain ⟨w, hs, hw, hwk, hwd⟩ := hc n _ fr rfl hf
            rw [hw] at e1 e2
            dsimp only at e1 e2
            have hd : IsDict (s.heap ++ objs) w.addr := ⟨hs, by rw [List.getElem?_append_left (get_lt hwd), hwd]⟩
            rw [setVal_total _ n x hwk (setVal_keeps hd) (fun raw hr => setVal_keeps (ha.at objs hw raw hr))] at e2
            cases e2

/-- Why a setVariable request fails, and the exception. -/
inductive Refused (s : DS) (ref : Nat) (name : Str) (t : Templated) : PyErr → Prop
  /-- no such reference, or no longer -/
  | unknown : s.vars.get? ref = none → Refused s ref name t .key
  /-- the text does not evaluate -/
  | text {v} : s.vars.get? ref = some v → t = none → Refused s ref name t .other
  /-- the item of a list is named by a text that is no number -/
  | noNumber {v o} : s.vars.get? ref = some v → t = some o → v.kind = .list → pyInt name = none → Refused s ref name t .value
  /-- a tuple or another sequence whose items cannot be replaced -/
  | fixed {v o i} : s.vars.get? ref = some v → t = some o → v.kind = .list → pyInt name = some i →
      (∀ xs, s.heap[v.addr]? ≠ some (.seq true xs)) → Refused s ref name t .type
  /-- the list is shorter -/
  | range {v o i xs} : s.vars.get? ref = some v → t = some o → v.kind = .list → pyInt name = some i →
      s.heap[v.addr]? = some (.seq true xs) → (i < -(xs.length : Int) ∨ (xs.length : Int) ≤ i) → Refused s ref name t .index
  /-- a mapping that cannot be assigned to -/
  | readOnly {v o} : s.vars.get? ref = some v → t = some o → v.kind ≠ .list →
      (∀ es, s.heap[v.addr]? ≠ some (.dict true es)) → Refused s ref name t .type

theorem pySet_none {α : Type} (l : List α) (i : Int) (x : α) : Bp.pySet l i x = none ↔ (i < -(l.length : Int) ∨ (l.length : Int) ≤ i) := by
  unfold Verif.Bp.pySet
  constructor
  · intro h
    split at h
    · split at h
      · cases h
      · omega
    · split at h
      · cases h
      · omega
  · intro h
    split
    · rw [if_neg (by omega)]
    · rw [if_neg (by omega)]

theorem setItem_err {h : Heap} {a : Addr} {n : Str} {x : Val} {e : PyErr} (hs : setItem h a n x = .error e) :
    e = .type ∧ ∀ es, h[a]? ≠ some (.dict true es) := by
  unfold setItem at hs
  split at hs
  · cases hs
  · rename_i hn
    cases hs
    exact ⟨rfl, fun es he => hn es he⟩

theorem refused_one {s : DS} {ref : Nat} {name : Str} {t : Templated} {e e' : PyErr} (h : Refused s ref name t e)
    (h' : Refused s ref name t e') : e = e' := by
  cases h <;> cases h' <;> simp_all

/-- **C104** (exactly when). A setVariable request for a container that is there fails exactly in the six cases,
each with its exception; in all others it is answered with success. -/
theorem C104_why {s s' : DS} {ref : Nat} {name : Str} {t : Templated} {o : List Out} (ha : ArgsAreDicts s)
    (hl : ∀ v, s.vars.get? ref = some v → v.addr < s.heap.length)
    (h : step s (.req (.setVariable ref name t)) = some (s', o)) :
    (∀ e, o = [.error e] ↔ Refused s ref name t e) ∧ ((∃ e, o = [.error e]) ∨ ∃ r, o = [.setVar r]) := by
  have e2 := snd_eq h
  simp only [request, setVariable] at e2
  -- one direction and the shape of the answer
  have key : (∃ e, o = [.error e] ∧ Refused s ref name t e) ∨ ((∃ r, o = [.setVar r]) ∧ ∀ e, ¬ Refused s ref name t e) := by
    cases hv : s.vars.get? ref with
    | none => rw [hv] at e2; exact .inl ⟨_, e2, .unknown hv⟩
    | some v =>
      rw [hv] at e2
      cases t with
      | none => exact .inl ⟨_, e2, .text hv rfl⟩
      | some t =>
        obtain ⟨objs, x⟩ := t
        dsimp only at e2
        have hh : (s.heap ++ objs)[v.addr]? = s.heap[v.addr]? := List.getElem?_append_left (hl v hv)
        cases he : (setVal (s.heap ++ objs) s.hostStore v name x).2.2 with
        | some e =>
          rw [he] at e2
          refine .inl ⟨e, e2, ?_⟩
          by_cases hk : v.kind = .list
          · unfold setVal at he
            rw [hk] at he
            dsimp only at he
            unfold setIndex at he
            rw [hh] at he
            cases hi : pyInt name with
            | none => rw [hi] at he; cases he; exact .noNumber hv rfl hk hi
            | some i =>
              rw [hi] at he
              dsimp only at he
              split at he
              · rename_i e' hx
                cases he
                split at hx
                · rename_i xs hxs
                  split at hx
                  · rename_i hp
                    cases hx
                    exact .range hv rfl hk hi hxs ((pySet_none _ _ _).1 hp)
                  · cases hx
                · rename_i hn
                  cases hx
                  exact .fixed hv rfl hk hi fun xs hx => hn xs hx
              · cases he
          · by_cases hd : IsDict (s.heap ++ objs) v.addr
            · rw [setVal_total _ name x hk hd (ha.at objs hv)] at he; cases he
            · have : e = .type := by
                have hno : ∀ e', setItem (s.heap ++ objs) v.addr name x = .error e' → e' = .type := fun e' h => (setItem_err h).1
                unfold setVal at he
                cases hq : setItem (s.heap ++ objs) v.addr name x with
                | ok => obtain ⟨es, h1, -⟩ := setItem_ok hq; exact absurd ⟨es, h1⟩ hd
                | error e' =>
                  have := hno e' hq
                  subst this
                  rw [hq] at he
                  cases hk' : v.kind with
                  | list => exact absurd hk' hk
                  | dict => rw [hk'] at he; cases he; rfl
                  | hostVars => rw [hk'] at he; cases he; rfl
                  | rawStore => rw [hk'] at he; cases he; rfl
              subst this
              exact .readOnly hv rfl hk fun es hes => hd ⟨es, by rw [hh, hes]⟩
        | none =>
          rw [he] at e2
          refine .inr ⟨by cases x <;> exact ⟨_, e2⟩, ?_⟩
          intro e hr
          cases hr with
          | unknown h1 => rw [hv] at h1; cases h1
          | text h1 h2 => cases h2
          | noNumber h1 _ hk hi =>
            rw [hv] at h1; cases h1
            unfold setVal at he
            rw [hk] at he
            simp only [setIndex, hi] at he
            cases he
          | fixed h1 _ hk hi hn =>
            rw [hv] at h1; cases h1
            unfold setVal at he
            rw [hk] at he
            simp only [setIndex, hi, hh] at he
            cases he
          | range h1 _ hk hi hx hr =>
            rw [hv] at h1; cases h1
            unfold setVal at he
            rw [hk] at he
            simp only [setIndex, hi, hh, hx, (pySet_none _ _ _).2 hr] at he
            cases he
          | readOnly h1 _ hk hn =>
            rw [hv] at h1; cases h1
            cases hq : setItem (s.heap ++ objs) v.addr name x with
            | ok => obtain ⟨es, h1, -⟩ := setItem_ok hq; exact hn es (by rw [← hh, h1])
            | error e' =>
              unfold setVal at he
              rw [hq] at he
              cases hk' : v.kind with
              | list => exact absurd hk' hk
              | dict => rw [hk'] at he; cases he
              | hostVars => rw [hk'] at he; cases he
              | rawStore => rw [hk'] at he; cases he
  rcases key with ⟨e, rfl, hr⟩ | ⟨⟨r, rfl⟩, hn⟩
  · refine ⟨fun e' => ⟨fun h => ?_, fun h => ?_⟩, .inl ⟨e, rfl⟩⟩
    · cases h; exact hr
    · rw [refused_one hr h]
  · exact ⟨fun e' => ⟨(fun h => by cases h), fun h => absurd h (hn e')⟩, .inr ⟨r, rfl⟩⟩

/-- A check for examples. -/
def argsB (s : DS) : Bool := s.vars.all fun e => match e.2.kind with
  | .rawStore raw => match s.heap[raw]? with
    | some (.dict true _) => true
    | _ => false
  | _ => true

theorem args_of {s : DS} (h : argsB s = true) : ArgsAreDicts s := by
  intro ref v raw hv hk
  have := List.all_eq_true.1 h _ (Dict.mem_of_get? _ _ _ hv)
  simp only [hk] at this
  split at this
  · exact ⟨_, by assumption⟩
  · cases this

/-- **C104** fails for `set_hostvar`: if the variables of the host cannot be listed, so that the scopes request
failed half-way, the command is answered with an error (there is no Host Variables scope), but the variable of
the task has been changed. -/
theorem C104_hostvar_refuted : ∃ s s' : DS, Reachable s ∧ ArgsAreDicts s ∧
    step s (.req (.evaluate 1 (.setHostvar py!"x" (some ([], .atom py!"9"))))) = some (s', [.error .key]) ∧
    entry s.heap 0 py!"x" = some (.atom py!"1") ∧ entry s'.heap 0 py!"x" = some (.atom py!"9") :=
  ⟨stF v0 [.req (.scopes 1 (some []) none)], stF (stF v0 [.req (.scopes 1 (some []) none)]) [.req (.evaluate 1 (.setHostvar py!"x" (some ([], .atom py!"9"))))],
    reach_append v0_reachable (run_of (by decide +kernel)), args_of (by decide +kernel),
    (step_of (by decide +kernel)).trans (congrArg some (Prod.ext rfl (by decide +kernel))), by decide +kernel, by decide +kernel⟩

/-- Non-vacuity: an unknown reference, a name that is no number, a number too large, an option of a frame
without scopes; the assumption about the arguments. -/
example : argsB (stF v0 [.req scopes1, .req (.variables 4)]) = true ∧
    ouF (stF v0 [.req scopes1, .req (.variables 4)]) [.req (.setVariable 77 py!"x" (some ([], .atom py!"9")))] = [.error .key] ∧
    ouF (stF v0 [.req scopes1, .req (.variables 4)]) [.req (.setVariable 5 py!"x" (some ([], .atom py!"9")))] = [.error .value] ∧
    ouF (stF v0 [.req scopes1, .req (.variables 4)]) [.req (.setVariable 5 py!"2" (some ([], .atom py!"9")))] = [.error .index] ∧
    ouF (stF v0 [.req scopes1, .req (.variables 4)]) [.req (.setVariable 5 py!"-2" (some ([], .atom py!"9")))] = [.setVar 0] ∧
    ouF (stF v0 [.req scopes1, .req (.variables 4)]) [.req (.setVariable 5 py!"1" none)] = [.error .other] ∧
    ouF v0 [.req (.evaluate 1 (.setOption py!"x" (some ([], .atom py!"9"))))] = [.error .key] := by decide +kernel

end Verif.Props.Strat
