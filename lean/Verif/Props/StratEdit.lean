import Verif.Strat.Ids
import Verif.Props.StratVars
/-!
# C82: edits made while stopped reach the task

The arguments the task will be run with are the dictionary at `fr.args` (`task.args`); the calls of the
variable manager are recorded in `hostStore`.
-/

namespace Verif.Props.Strat
open Verif Verif.Strat

theorem reach_ids {s : DS} (hr : Reachable s) : IdsOk s := by
  obtain ⟨ls, os, hr⟩ := hr
  exact ids_run hr inv_init (fun f fr hf => by cases hf)

/-- A successful assignment to a variable with raw arguments behind it. -/
theorem setVal_raw {h : Heap} {hs : List (Str × Str × Val)} {v : Var} {n : Str} {x : Val} {raw : Addr}
    (hk : v.kind = .rawStore raw) (hr : (setVal h hs v n x).2.2 = none) :
    ∃ es, h[raw]? = some (.dict true es) ∧ (setVal h hs v n x).1[raw]? = some (.dict true (es.set (.str n) x)) := by
  have h1 : ∃ es0, h[v.addr]? = some (.dict true es0) := by
    unfold setVal at hr
    rw [hk] at hr
    simp only at hr
    cases he : setItem h v.addr n x with
    | error e => rw [he] at hr; cases hr
    | ok h1 => obtain ⟨es0, e, -⟩ := setItem_ok he; exact ⟨es0, e⟩
  obtain ⟨es0, hc⟩ := h1
  obtain ⟨-, -, -, d4, -, d6⟩ := setVal_dict hc (show setVal h hs v n x = ((setVal h hs v n x).1, (setVal h hs v n x).2.1, none) by rw [← hr])
  obtain ⟨es, hw⟩ := d6 raw hk
  exact ⟨es, hw, d4 raw hk es hw⟩

/-- A successful assignment to a host variable. -/
theorem setVal_host {h : Heap} {hs : List (Str × Str × Val)} {v : Var} {n : Str} {x : Val} {host : Str}
    (hk : v.kind = .hostVars host) (hr : (setVal h hs v n x).2.2 = none) :
    (setVal h hs v n x).2.1 = hs ++ [(host, n, x)] := by
  unfold setVal at hr ⊢
  rw [hk] at hr ⊢
  simp only at hr ⊢
  cases he : setItem h v.addr n x with
  | error e => rw [he] at hr; cases hr
  | ok h1 => rfl

/-- **C82** (set_option). In every reachable state: if the command is answered without an error, then there is a frame, and the
option has the new value in the arguments its task is run with, whatever else is in them. -/
theorem C82_set_option {s s' : DS} {fid : Nat} {name : Str} {objs : List Obj} {x : Val}
    (hr : Reachable s) (h : step s (.req (.evaluate fid (.setOption name (some (objs, x))))) = some (s', [.ok])) :
    ∃ fr raw, s.frames.get? fid = some fr ∧ (s.heap ++ objs)[fr.args]? = some (.dict true raw) ∧
      s'.heap[fr.args]? = some (.dict true (raw.set (.str name) x)) := by
  have e1 := fst_eq h
  have e2 := snd_eq h
  cases hf : s.frames.get? fid with
  | none => simp only [request, evaluate, hf] at e2; cases e2
  | some fr =>
  have ok := reach_ids hr fid fr hf
  simp only [request, evaluate, hf, setAll] at e1 e2
  cases hv : s.vars.get? fr.optionsId with
  | none => rw [hv] at e2; cases e2
  | some v =>
    rw [hv] at e1 e2
    simp only at e1 e2
    have hk : v.kind = .rawStore fr.args := by
      rcases ok.opt with e | ⟨-, v', h1, h2⟩
      · obtain ⟨ls, os, hr⟩ := hr
        have := ((inv_run hr inv_init).core.vlt hv).1
        omega
      · rw [hv] at h1; cases h1; exact h2
    cases he : (setVal (s.heap ++ objs) s.hostStore v name x).2.2 with
    | some e => rw [he] at e2; cases e2
    | none =>
      rw [he] at e1
      rw [e1]
      obtain ⟨raw, r1, r2⟩ := setVal_raw hk he
      exact ⟨fr, raw, rfl, r1, r2⟩

/-- **C82** (remove_option). If the command is answered without an error, then there is a frame, the option is in the
arguments its task is run with no more, and all other arguments are as before. -/
theorem C82_remove_option {s s' : DS} {fid : Nat} {name : Str}
    (hr : Reachable s) (h : step s (.req (.evaluate fid (.removeOption name))) = some (s', [.ok])) :
    ∃ fr m raw raw', s.frames.get? fid = some fr ∧ s.heap[fr.args]? = some (.dict m raw) ∧ s'.heap[fr.args]? = some (.dict m raw') ∧
      raw'.get? (.str name) = none ∧ ∀ k, k ≠ .str name → raw'.get? k = raw.get? k := by
  have e1 := fst_eq h
  have e2 := snd_eq h
  cases hf : s.frames.get? fid with
  | none => simp only [request, evaluate, hf] at e2; cases e2
  | some fr =>
  have ok := reach_ids hr fid fr hf
  simp only [request, evaluate, hf] at e1 e2
  cases hv : s.vars.get? fr.optionsId with
  | none => rw [hv] at e2; cases e2
  | some v =>
    rw [hv] at e1 e2
    simp only at e1 e2
    have hk : v.kind = .rawStore fr.args := by
      rcases ok.opt with e | ⟨-, v', h1, h2⟩
      · obtain ⟨ls, os, hr⟩ := hr
        have := ((inv_run hr inv_init).core.vlt hv).1
        omega
      · rw [hv] at h1; cases h1; exact h2
    cases he : removeVal s.heap v name with
    | error e => rw [he] at e2; cases e2
    | ok hp =>
      rw [he] at e1
      rw [e1]
      unfold removeVal at he
      rw [hk] at he
      simp only at he
      -- one deletion at an address, seen at `fr.args`
      have del : ∀ {g g' : Heap} {a : Addr}, (match g[a]? with
            | some (.dict m es) =>
              if (es.get? (.str name)).isNone = true then Except.ok g
              else if m = true then .ok (g.set a (.dict m (es.erase (.str name)))) else .error PyErr.type
            | _ => .error PyErr.type) = .ok g' →
          (∀ m d, g[fr.args]? = some (.dict m d) → ∃ d', g'[fr.args]? = some (.dict m d') ∧ (∀ k, k ≠ .str name → d'.get? k = d.get? k) ∧
            (a = fr.args → d'.get? (.str name) = none)) ∧ (∀ m d, g'[fr.args]? = some (.dict m d) → ∃ d', g[fr.args]? = some (.dict m d')) ∧
          ∃ m d, g[a]? = some (.dict m d) := by
        intro g g' a hd
        split at hd
        · rename_i m es hga
          split at hd
          · rename_i hn
            cases hd
            refine ⟨?_, fun m d hg => ⟨d, hg⟩, ⟨_, _, hga⟩⟩
            intro m d hg
            refine ⟨d, hg, fun _ _ => rfl, ?_⟩
            rintro rfl
            rw [hg] at hga; cases hga
            simpa using hn
          · split at hd
            · cases hd
              by_cases ha : a = fr.args
              · subst ha
                refine ⟨?_, ?_, ⟨_, _, hga⟩⟩
                · intro m d hg
                  rw [hg] at hga; cases hga
                  refine ⟨_, List.getElem?_set_self (get_lt hg), ?_, ?_⟩
                  · intro k hk; rw [DL.get_erase, if_neg hk]
                  · intro _; rw [DL.get_erase, if_pos rfl]
                · intro m d hg
                  rw [List.getElem?_set_self (get_lt hga)] at hg
                  cases hg
                  exact ⟨_, hga⟩
              · refine ⟨fun m d hg => ⟨d, by rw [List.getElem?_set_ne ha, hg], fun _ _ => rfl, fun e => absurd e ha⟩, ?_, ⟨_, _, hga⟩⟩
                intro m d hg
                rw [List.getElem?_set_ne ha] at hg
                exact ⟨d, hg⟩
            · cases hd
        · cases hd
      split at he
      · cases he
      · rename_i h' hd1
        obtain ⟨p1, p2, -⟩ := del hd1
        obtain ⟨q1, -, m, d, hg1⟩ := del he
        obtain ⟨raw, hw⟩ := p2 m d hg1
        obtain ⟨d1, g1, g2, -⟩ := p1 m raw hw
        obtain ⟨d2, k1, k2, k4⟩ := q1 m d1 g1
        exact ⟨fr, m, raw, d2, rfl, hw, k1, k4 rfl, fun k hk => by rw [k2 k hk, g2 k hk]⟩

/-- The variable behind a reference of an earlier scopes answer, as long as its frame is there. -/
theorem scope_var {s s1 s2 : DS} {fid : Nat} {args : Option (Dict Key Val)} {hv : Option (Str × List (Str × Val))} {ss : List (Str × Nat)} {ls : List Label} {os : List Out}
    (hr : Reachable s) (h : step s (.req (.scopes fid args hv)) = some (s1, [.scopes ss])) (hrun : Run s1 ls s2 os) {m : Nat} {v : Var}
    (hm : m < s1.nextV) (hx : s1.vars.get? m = some v) {w : Var} (hy : s2.vars.get? m = some w) : w = v := by
  obtain ⟨l0, o0, hr⟩ := hr
  have hi := inv_run hr inv_init
  rcases (mono_run hrun (inv_step hi h)).var m hm with e | e
  · rw [e, hx] at hy; cases hy; rfl
  · rw [e] at hy; cases hy

/-- **C82** (editing Module Options in the variables pane). If a scopes answer gave the reference `m`
for Module Options of a frame, then at any later time an edit under `m` that is answered without an
error is in the arguments the task of that frame is run with, which has the frame still, and keeps everything else there. -/
theorem C82_edit_options {s s1 s2 s3 : DS} {fid : Nat} {args : Option (Dict Key Val)} {hv : Option (Str × List (Str × Val))} {ss : List (Str × Nat)}
    {ls : List Label} {os : List Out} {m : Nat} {name : Str} {objs : List Obj} {x : Val} {r : Nat}
    (hr : Reachable s) (h : step s (.req (.scopes fid args hv)) = some (s1, [.scopes ss])) (hm : (py!"Module Options", m) ∈ ss)
    (hrun : Run s1 ls s2 os) (h2 : step s2 (.req (.setVariable m name (some (objs, x)))) = some (s3, [.setVar r])) :
    ∃ fr raw, s2.frames.get? fid = some fr ∧ (s2.heap ++ objs)[fr.args]? = some (.dict true raw) ∧
      s3.heap[fr.args]? = some (.dict true (raw.set (.str name) x)) := by
  have e1 := fst_eq h
  have e2 := snd_eq h
  simp only [request] at e1 e2
  obtain ⟨fr0, es, host, hvs, g, q1, -, -, -, -, q2, q3, q4, -⟩ := scopes_ok e2.symm
  have hm' : m = s.nextV := by
    rw [q2] at hm
    simp only [List.mem_append, List.mem_cons, Prod.mk.injEq, List.not_mem_nil, or_false] at hm
    rcases hm with hm | hm
    · split at hm
      · cases hm
      · simp at hm
    · simpa using hm
  subst hm'
  have f1 := fst_eq h2
  have f2 := snd_eq h2
  simp only [request] at f1 f2
  obtain ⟨w, w1, w2, w3, -, -, -⟩ := setVariable_ok f2.symm
  have hwv := scope_var hr h hrun (m := s.nextV) (by rw [e1, q3]; omega) (by rw [e1, q4, if_pos rfl]) w1
  have hi1 : Inv s1 := by
    obtain ⟨l0, o0, hr⟩ := hr
    exact inv_step (inv_run hr inv_init) h
  -- the frame of the reference is there
  cases hf : s2.frames.get? fid with
  | none =>
    obtain ⟨fr, e, -⟩ := (inv_run hrun hi1).core.vf w1
    rw [hwv, hf] at e
    cases e
  | some fr =>
  -- the arguments of the frame are those of the scopes answer
  have hargs : fr.args = fr0.args := by
    have k := (getScopes_ext s fid args hv).frames fid
    rw [← e1, q1] at k
    cases hs1 : s1.frames.get? fid with
    | none => simp [hs1] at k
    | some fr1 =>
      rw [hs1] at k
      simp only [Option.map_some, Option.some.injEq, Prod.mk.injEq] at k
      have e := (mono_run hrun hi1).fra fid (hi1.core.fid hs1)
      simp only [frameTask, hs1, hf, Option.map_some, Option.some.injEq, Prod.mk.injEq, reduceCtorEq, or_false] at e
      rw [e.2.2, k.2.2]
  obtain ⟨raw, r1, r2⟩ := setVal_raw (raw := fr.args) (by rw [hwv, hargs]) w2
  exact ⟨fr, raw, rfl, r1, by rw [f1, w3]; exact r2⟩

/-- **C82** (editing Host Variables in the variables pane). If a scopes answer gave the reference `m` for
the Host Variables of the host `host`, then at any later time an edit under `m` that is answered without
an error is given to the variable manager for that host. -/
theorem C82_edit_hostvars {s s1 s2 s3 : DS} {fid : Nat} {args : Option (Dict Key Val)} {host : Str} {hvs : List (Str × Val)} {ss : List (Str × Nat)}
    {ls : List Label} {os : List Out} {m : Nat} {name : Str} {objs : List Obj} {x : Val} {r : Nat}
    (hr : Reachable s) (h : step s (.req (.scopes fid args (some (host, hvs)))) = some (s1, [.scopes ss])) (hm : (py!"Host Variables", m) ∈ ss)
    (hrun : Run s1 ls s2 os)
    (h2 : step s2 (.req (.setVariable m name (some (objs, x)))) = some (s3, [.setVar r])) :
    s3.hostStore = s2.hostStore ++ [(host, name, x)] := by
  have e1 := fst_eq h
  have e2 := snd_eq h
  simp only [request] at e1 e2
  obtain ⟨fr0, es, host', hvs', g, q1, -, q5, -, -, q2, q3, q4, -⟩ := scopes_ok e2.symm
  cases q5
  have hm' : m = s.nextV + 2 := by
    rw [q2] at hm
    simp only [List.mem_append, List.mem_cons, Prod.mk.injEq, List.not_mem_nil, or_false] at hm
    rcases hm with hm | hm
    · split at hm
      · cases hm
      · simp at hm
    · simpa using hm
  subst hm'
  have f1 := fst_eq h2
  have f2 := snd_eq h2
  simp only [request] at f1 f2
  obtain ⟨w, w1, w2, -, w3, -, -⟩ := setVariable_ok f2.symm
  have hwv := scope_var hr h hrun (m := s.nextV + 2) (by rw [e1, q3]; omega)
    (by rw [e1, q4, if_neg (by omega), if_neg (by omega), if_pos rfl]) w1
  rw [f1, w3]
  exact setVal_host (by rw [hwv]) w2

/-- **C82** (before the scopes were asked for). A console command that sets or removes an option in a
frame whose scopes were never asked for is an error and changes nothing - although the frame is
there. -/
theorem C82_before_scopes_fails {s : DS} {fid : Nat} {fr : Frame} (hr : Reachable s) (hf : s.frames.get? fid = some fr) (h0 : fr.optionsId = 0) :
    (∀ n, step s (.req (.evaluate fid (.removeOption n))) = some (s, [.error .key])) ∧
    ∀ n objs x, ∃ s', step s (.req (.evaluate fid (.setOption n (some (objs, x))))) = some (s', [.error .key]) ∧
      s'.heap = s.heap ++ objs := by
  have hn : s.vars.get? 0 = none := by
    cases h : s.vars.get? 0 with
    | none => rfl
    | some v =>
      obtain ⟨ls, os, hr⟩ := hr
      have := ((inv_run hr inv_init).core.vlt h).1
      omega
  refine ⟨fun n => ?_, fun n objs x => ⟨{ s with heap := s.heap ++ objs }, ?_, rfl⟩⟩
  · simp [step, request, evaluate, hf, h0, hn]
  · simp [step, request, evaluate, setAll, hf, h0, hn]

/-- Non-vacuity: the state stopped in a task, its scopes asked for, an option set, edited and removed,
a host variable edited; and before any scopes request, the frame is there with no id. -/
example : Reachable v0 ∧ (v0.frames.get? 1).map (fun fr => (fr.optionsId, fr.args)) = some (0, 2) ∧
    ouF v0 [.req scopes1] = [.scopes [(py!"Module Options", 1), (py!"Task Variables", 2), (py!"Host Variables", 3), (py!"Global Variables", 4)]] ∧
    (stF v0 [.req scopes1]).heap[2]? = some (.dict true [(.str py!"name", .atom py!"'a'")]) ∧
    ouF (stF v0 [.req scopes1]) [.req (.setVariable 1 py!"name" (some ([], .atom py!"'c'"))), .req (.evaluate 1 (.setOption py!"state" (some ([], .atom py!"'b'")))),
      .req (.setVariable 3 py!"y" (some ([], .atom py!"4"))), .req (.evaluate 1 (.removeOption py!"name"))] = [.setVar 0, .ok, .setVar 0, .ok] ∧
    (stF (stF v0 [.req scopes1]) [.req (.setVariable 1 py!"name" (some ([], .atom py!"'c'"))), .req (.evaluate 1 (.setOption py!"state" (some ([], .atom py!"'b'")))),
      .req (.setVariable 3 py!"y" (some ([], .atom py!"4"))), .req (.evaluate 1 (.removeOption py!"name"))]).heap[2]? = some (.dict true [(.str py!"state", .atom py!"'b'")]) := by
  refine ⟨v0_reachable, ?_, ?_, ?_, ?_, ?_⟩ <;> decide +kernel

end Verif.Props.Strat
