import Verif.Strat.Shown
import Verif.Strat.Events
import Verif.Props.StratRun
/-!
# Variables, scopes and thread events (C42 - C45, C66)

`given o` are the references a message brings that were made for it, `resultRefs o` that of a
Module Result scope, which was made when the task ended. A reference *resolves* in `s` if
`s.vars.get?` finds it; what it denotes is a container (`addr`) seen from a frame. `shown s ref` is
what the client gets to see in answer to a variables request.
-/

namespace Verif.Props.Strat
open Verif Verif.Strat

/-! ## C42 -/

theorem result_of {s s' : DS} {l : Label} {o : List Out} (h : step s l = some (s', o)) {v : Nat} (hv : v ∈ o.flatMap resultRefs) :
    ∃ f fr a hv', l = .req (.scopes f a hv') ∧ s.frames.get? f = some fr ∧ v = fr.resultId ∧ v ≠ 0 := by
  by_cases hq : ∀ r, l ≠ .req r
  · rw [result_nil (step_norefs h hq)] at hv; cases hv
  · simp only [Classical.not_forall, Classical.not_not] at hq
    obtain ⟨r, rfl⟩ := hq
    rw [snd_eq h] at hv
    by_cases hs : ∀ f a hv', r ≠ .scopes f a hv'
    · rw [request_result s r hs] at hv; cases hv
    · simp only [Classical.not_forall, Classical.not_not] at hs
      obtain ⟨f, a, hv', rfl⟩ := hs
      rcases getScopes_out s f a hv' with ⟨e, h1⟩ | ⟨ss', h1⟩
      · simp only [request, h1] at hv; simp [resultRefs] at hv
      · obtain ⟨fr, es, host, hvs, g, h2, -, -, -, -, h3, -⟩ := scopes_ok h1
        have hl : (getScopes s f a hv').2.flatMap resultRefs = if fr.resultId = 0 then [] else [fr.resultId] := by
          rw [h1, h3]
          simp only [List.flatMap_cons, List.flatMap_nil, List.append_nil, resultRefs]
          split <;> rfl
        simp only [request, hl] at hv
        refine ⟨f, fr, a, hv', rfl, h2, ?_⟩
        split at hv
        · cases hv
        · rename_i hz; rw [List.mem_singleton.1 hv]; exact ⟨rfl, hz⟩

/-- The Module Result references handed out so far are none of the others. -/
def Apart (os : List Out) (s : DS) : Prop := ∀ v ∈ os.flatMap resultRefs, v < s.nextV ∧ v ∉ os.flatMap given

theorem apart_run {s s' : DS} {ls : List Label} {o : List Out} (h : Run s ls s' o) :
    ∀ {os : List Out}, Inv s → Handed os s → Apart os s → Apart (os ++ o) s' := by
  induction h with
  | nil => intro os _ _ h; simpa using h
  | @cons s s1 s2 l ls o o2 h1 _ ih =>
    intro os hi hd ha
    have hd1 := handed_step hi hd h1
    have hm := mono_step hi h1
    rw [← List.append_assoc]
    refine ih (inv_step hi h1) hd1 ?_
    obtain ⟨-, q⟩ := step_fresh hi h1
    intro v hv
    rw [List.flatMap_append, List.mem_append] at hv
    have old : v < s.nextV → v ∉ os.flatMap given → v < s1.nextV ∧ v ∉ (os ++ o).flatMap given := by
      intro h1 h2
      refine ⟨Nat.lt_of_lt_of_le h1 hm.nv, ?_⟩
      rw [List.flatMap_append, List.mem_append]
      rintro (h | h)
      · exact h2 h
      · have := (q v h).1; omega
    rcases hv with hv | hv
    · exact old (ha v hv).1 (ha v hv).2
    · obtain ⟨f, fr, a, hv', rfl, hf, rfl, hz⟩ := result_of h1 hv
      rcases hi.core.fids hf fr.resultId (.inl rfl) with e | e
      · exact absurd e hz
      · obtain ⟨x, hx, -⟩ := (hi.core.fv hf).2 _ e
        exact old (hi.core.vlt hx).2 (hd.res f _ (by simp [resId, hf]))

/-- **C42** (no reference is handed out twice). Over the whole session the references handed to the
client, in the order in which it gets them, are strictly increasing and positive; so none is ever
handed out twice, neither in one answer nor in two. Only Module Result, the result of the task, keeps
its reference from one scopes request to the next; that one is never used for anything else. -/
theorem C42_never_reused {s : DS} {ls : List Label} {os : List Out} (h : Run {} ls s os) :
    (os.flatMap given).Pairwise (· < ·) ∧ (∀ v ∈ os.flatMap given, 0 < v) ∧ (∀ v ∈ os.flatMap resultRefs, v ∉ os.flatMap given) := by
  have h1 := handed_run h inv_init handed_init
  have h2 := apart_run h inv_init handed_init (by intro v hv; cases hv)
  exact ⟨h1.inc, h1.pos, fun v hv => (h2 v hv).2⟩

/-- **C42** (references resolve). Every reference in an answer resolves when the answer is sent. -/
theorem C42_resolves {s s' : DS} {r : Req} {o : List Out} (hr : Reachable s) (h : step s (.req r) = some (s', o)) :
    ∀ v ∈ o.flatMap refsOf, ∃ x, s'.vars.get? v = some x := by
  obtain ⟨ls, os, hr⟩ := hr
  have hi := inv_run hr inv_init
  intro v hv
  obtain ⟨x, hx, hv⟩ := List.mem_flatMap.1 hv
  rcases List.mem_append.1 hv with hv | hv
  · exact ((step_fresh hi h).2 v (List.mem_flatMap.2 ⟨x, hx, hv⟩)).2.2
  · obtain ⟨f, fr, a, hv', hl, hf, rfl, hz⟩ := result_of h (List.mem_flatMap.2 ⟨x, hx, hv⟩)
    cases hl
    rcases hi.core.fids hf fr.resultId (.inl rfl) with e | e
    · exact absurd e hz
    · obtain ⟨x, hx, -⟩ := (hi.core.fv hf).2 _ e
      rw [fst_eq h]
      exact ⟨x, (getScopes_ext s f a hv').vars hx (hi.core.vlt hx).2⟩

/-- **C42** (references keep their meaning). A reference that was handed out denotes the same
container of the same frame in every later state, or does not resolve any more; and once it does not
resolve it never will again. The same holds of the ids of frames, of which the tasks and their variables are meant. -/
theorem C42_meaning {s s' : DS} {ls : List Label} {os os' : List Out} {ls0 : List Label} (h0 : Run {} ls0 s os) (h : Run s ls s' os') :
    (∀ v ∈ os.flatMap refsOf, s'.vars.get? v = s.vars.get? v ∨ s'.vars.get? v = none) ∧
    (∀ v ∈ os.flatMap refsOf, s.vars.get? v = none → s'.vars.get? v = none ∧ v ∉ os'.flatMap given) ∧
    (∀ f fr, s.frames.get? f = some fr →
      s'.frames.get? f = none ∨ ∃ fr', s'.frames.get? f = some fr' ∧ fr'.task = fr.task ∧ fr'.taskVars = fr.taskVars ∧ fr'.args = fr.args) ∧
    (∀ s'' ls' os'' f fr, s.frames.get? f = some fr → s'.frames.get? f = none → Run s' ls' s'' os'' → s''.frames.get? f = none) := by
  have hi := inv_run h0 inv_init
  have hi' := inv_run h hi
  have m := mono_run h hi
  have hd := handed_run h0 inv_init handed_init
  have ha := apart_run h0 inv_init handed_init (by intro v hv; cases hv)
  have hd2 := handed_run h hi hd
  have lt : ∀ v ∈ os.flatMap refsOf, v < s.nextV := by
    intro v hv
    obtain ⟨x, hx, hv⟩ := List.mem_flatMap.1 hv
    rcases List.mem_append.1 hv with hv | hv
    · exact hd.lt v (List.mem_flatMap.2 ⟨x, hx, hv⟩)
    · exact (ha v (List.mem_flatMap.2 ⟨x, hx, hv⟩)).1
  refine ⟨fun v hv => m.var v (lt v hv), fun v hv hn => ⟨?_, ?_⟩, ?_, ?_⟩
  · rcases m.var v (lt v hv) with e | e
    · rw [e, hn]
    · exact e
  · -- later references are at least `s.nextV`
    have key : ∀ {a b : DS} {l o}, Run a l b o → Inv a → ∀ w ∈ o.flatMap given, a.nextV ≤ w := by
      intro a b l o hab
      induction hab with
      | nil => intro _ w hw; cases hw
      | cons k1 _ ih =>
        intro ia w hw
        rw [List.flatMap_append, List.mem_append] at hw
        rcases hw with hw | hw
        · exact ((step_fresh ia k1).2 w hw).1
        · exact Nat.le_trans (mono_step ia k1).nv (ih (inv_step ia k1) w hw)
    intro hm
    have := key h hi v hm
    have := lt v hv
    omega
  · intro f fr hf
    have e := m.fra f (hi.core.fid hf)
    simp only [frameTask, hf, Option.map_some] at e
    cases hg : s'.frames.get? f with
    | none => exact .inl rfl
    | some fr' =>
      rw [hg] at e
      simp only [Option.map_some, Option.some.injEq, Prod.mk.injEq, reduceCtorEq, or_false] at e
      exact .inr ⟨fr', rfl, e⟩
  · intro s'' ls' os'' f fr hf hg h2
    have hlt : f < s'.nextF := Nat.lt_of_lt_of_le (hi.core.fid hf) m.nf
    have e := (mono_run h2 hi').fra f hlt
    simp only [frameTask, hg, Option.map_none, or_self, Option.map_eq_none_iff] at e
    exact e

/-- **C42** (references end with their frame). Whenever a reference resolves, so does its frame; and
a request for a reference that does not resolve is an error that changes nothing. -/
theorem C42_frame {s : DS} (hr : Reachable s) (v : Nat) :
    (∀ x, s.vars.get? v = some x → ∃ fr, s.frames.get? x.frame = some fr) ∧
    (s.vars.get? v = none → (∃ e, step s (.req (.variables v)) = some (s, [.error e])) ∧
      ∀ n t, ∃ e, step s (.req (.setVariable v n t)) = some (s, [.error e])) := by
  obtain ⟨ls, os, hr⟩ := hr
  have hi := inv_run hr inv_init
  constructor
  · intro x hx
    obtain ⟨fr, hf, -⟩ := hi.core.vf hx
    exact ⟨fr, hf⟩
  · intro hn
    exact ⟨⟨.key, by simp [step, request, getVariables, hn]⟩, fun n t => ⟨.key, by simp [step, request, setVariable, hn]⟩⟩

theorem pop_gone {s s' : DS} (c : s.core) {th th' : Thread} (ht : s.threads.get? th.id = some th) {f : Nat} {fs : List Nat} (hf : th.frames = f :: fs)
    (h : popFrame s th = .ok (s', th')) : s'.frames.get? f = none ∧ ∀ v x, s'.vars.get? v = some x → x.frame ≠ f := by
  obtain ⟨s1, g0, g1, -, g3, -⟩ := popFrame_ok c ht hf
  rw [h] at g0; cases g0
  have hn : s'.frames.get? f = none := by rw [g3, DL.get_erase]; simp
  refine ⟨hn, ?_⟩
  rintro v x hx rfl
  obtain ⟨fr, hfr, -⟩ := g1.vf hx
  rw [hn] at hfr; cases hfr

/-- **C42** (the frame of a task ends with it). When a task that is no include has finished - at once,
or after a stop because of its result - the id of its frame does not resolve any more, and no
reference that was made for it does. -/
theorem C42_ends {s s' : DS} {o : List Out} {h : Nat} {t : Task} {th : Thread} {f : Nat} {fs : List Nat} {l : Label} (hr : Reachable s)
    (hth : threadOf s h = some th) (hf : th.frames = f :: fs) (hl : (∃ r res, l = .done h t r res ∧ t.node.isInclude = false) ∨ (l = .wake ∧ s.pc = .waitEnd th.id false))
    (hs : step s l = some (s', o)) (hrun : s'.pc = .running) :
    s'.frames.get? f = none ∧ ∀ v x, s'.vars.get? v = some x → x.frame ≠ f := by
  obtain ⟨ls, os, hr⟩ := hr
  have hi := inv_run hr inv_init
  obtain ⟨h1, h2⟩ := threadOf_some hi.core hth
  have after : ∀ {s'}, (endAfter s th.id false).1 = s' → s'.pc = .running → s'.frames.get? f = none ∧ ∀ v x, s'.vars.get? v = some x → x.frame ≠ f := by
    intro s' he hp
    unfold endAfter at he
    rw [h2] at he
    simp only [Bool.false_eq_true, if_false] at he
    split at he
    · rw [← he] at hp; cases hp
    · split at he
      · rw [← he] at hp; cases hp
      · rename_i s2 th2 hpop
        obtain ⟨p1, p2⟩ := pop_gone hi.core h2 hf hpop
        subst he
        exact ⟨p1, p2⟩
  rcases hl with ⟨r, res, rfl, hinc⟩ | ⟨rfl, hw⟩
  · simp only [step] at hs
    split at hs
    · have e := fst_eq hs
      unfold endTask at e
      rw [hth] at e
      simp only at e
      cases hx : whyException t.parents r (filters s) with
      | none =>
        rw [hx] at e
        simp only [hinc] at e
        exact after e.symm hrun
      | some ex =>
        exfalso
        rw [hx, hf] at e
        obtain ⟨fr, hfr⟩ := hi.core.tf h2 (f := f) (by rw [hf]; simp)
        simp only [hfr] at e
        rw [e] at hrun
        cases hrun
    · cases hs
  · simp only [step, hw, h2] at hs
    split at hs
    · cases hs
    · exact after (fst_eq hs).symm hrun

/-- A heap for the examples: 0 the task variables, with `vars` a dictionary, 1; 2 the arguments of
the task; 3 a list. -/
def heap0 : Heap :=
  [.dict true [(.str py!"vars", .ref 1), (.str py!"x", .atom py!"1"), (.other 5 py!"5", .atom py!"2")],
   .dict true [(.str py!"l", .ref 3)],
   .dict true [(.str py!"name", .atom py!"'a'")],
   .seq true [.atom py!"1", .atom py!"2"]]

/-- Host 7 stopped at the task of line 1. -/
def v0 : DS := stF (stF {} setup) [.env heap0, .start 7 (tk 50 1) 0 2 yes]

/-- Templated arguments and host variables for the examples. -/
def scopes1 : Req := .scopes 1 (some [(.str py!"name", .atom py!"'a'")]) (some (py!"h7", [(py!"y", .atom py!"3")]))

theorem v0_reachable : Reachable v0 :=
  reach_append ⟨setup, _, run_of (by decide +kernel)⟩ (run_of (ls := [.env heap0, .start 7 (tk 50 1) 0 2 yes]) (by decide +kernel))

/-- Non-vacuity: references of two scopes requests, of a listing of the global variables and of a
variable set to a list; the answers to the requests. -/
example : (ouF v0 [.req scopes1, .req (.variables 4), .req scopes1, .req (.setVariable 2 py!"z" (some ([.seq true []], .ref 4)))]).flatMap refsOf =
    [1, 2, 3, 4, 5, 6, 7, 8, 9, 10] := by decide +kernel

/-- Non-vacuity: the references are gone after the task. -/
example : ((stF v0 [.req scopes1]).vars.get? 4).isSome = true ∧
    ((stF v0 [.req scopes1, .req (.cont 2 false), .wake, .done 7 (tk 50 1) fine 0]).vars.get? 4) = none := by decide +kernel

/-! ## C43 -/

theorem entry_append {h : Heap} {a : Addr} {n : Str} {v : Val} (k : Heap) (e : entry h a n = some v) : entry (h ++ k) a n = some v := by
  unfold entry at e ⊢
  split at e
  · rename_i he
    rw [List.getElem?_append_left (get_lt he), he]; exact e
  · cases e

theorem entry_lt {h : Heap} {a : Addr} {n : Str} {v : Val} (e : entry h a n = some v) : a < h.length := by
  unfold entry at e
  split at e
  · rename_i he; exact get_lt he
  · cases e

theorem listing_append {h : Heap} {a : Addr} (k : Heap) (e : a < h.length) : listing (h ++ k) a = listing h a := by
  unfold listing
  rw [List.getElem?_append_left e]

theorem listing_append2 {h : Heap} {a : Addr} (k l : Heap) (e : a < h.length) : listing (h ++ k ++ l) a = listing h a := by
  rw [List.append_assoc]; exact listing_append _ e

theorem listing_dict {h : Heap} {a : Addr} {m : Bool} {es : Dict Key Val} (e : h[a]? = some (.dict m es)) : listing h a = shows es := by
  simp only [listing, e, shows]

/-- First entry with a name. -/
def lookupName (n : Str) (l : List (Str × Val)) : Option Val := (l.find? fun e => decide (e.1 = n)).map (·.2)

theorem amalgamate_get (n : Str) (tv : List (Str × Val)) : ∀ d : Dict Key Val,
    (tv.foldl (fun d e => match d.get? (.str e.1) with | some _ => d | none => d.set (.str e.1) e.2) d).get? (.str n) =
      match d.get? (.str n) with | some v => some v | none => lookupName n tv := by
  induction tv with
  | nil => intro d; cases h : d.get? (.str n) <;> simp [h, lookupName]
  | cons e tv ih =>
    intro d
    obtain ⟨m, x⟩ := e
    rw [List.foldl_cons, ih]
    by_cases hm : m = n
    · subst hm
      cases hd : d.get? (.str m) with
      | some v => simp only [hd]
      | none => simp [DL.get_set, lookupName]
    · have : (match d.get? (.str m) with | some _ => d | none => d.set (.str m) x : Dict Key Val).get? (.str n) = d.get? (.str n) := by
        cases hd : d.get? (.str m) with
        | some v => rfl
        | none => simp only [DL.get_set]; rw [if_neg (by intro h; exact hm (by cases h; rfl))]
      simp only [this]
      cases d.get? (.str n) with
      | some v => rfl
      | none => simp [lookupName, hm]

theorem hv_get (n : Str) (hv : List (Str × Val)) : Dict.get? (hv.map fun e => (Key.str e.1, e.2)) (.str n) = lookupName n hv := by
  induction hv with
  | nil => rfl
  | cons e hv ih =>
    obtain ⟨m, x⟩ := e
    by_cases hm : m = n
    · subst hm; simp [Dict.get?, lookupName]
    · have : Key.str m ≠ Key.str n := by intro h; cases h; exact hm rfl
      simp only [List.map_cons, Dict.get?, if_neg this, ih]
      simp [lookupName, hm]

/-- **C43.** For a frame that does not exist, a scopes request is an error and changes nothing. For a
frame that exists, if the arguments of the task can be templated (to `es`), the variables of the host
are there (`hvs`) and the task variables have the mapping `vars` (`g`), it is answered with the
scopes Module Options, Task Variables, Host Variables and Global Variables in this order, preceded by
Module Result if the task has stopped because of its result. Their references are new, and show the
templated arguments, the task variables of the frame, the variables of the host with the task
variables it does not have, and the mapping `vars`. -/
theorem C43_scopes {s : DS} (hr : Reachable s) (fid : Nat) (args : Option (Dict Key Val)) (hv : Option (Str × List (Str × Val))) :
    (s.frames.get? fid = none → step s (.req (.scopes fid args hv)) = some (s, [.error .key])) ∧
    (∀ fr es host hvs g, s.frames.get? fid = some fr → args = some es → hv = some (host, hvs) →
      entry s.heap fr.taskVars py!"vars" = some (.ref g) → g < s.heap.length →
      ∃ s' m t h gl, ∃ hd : Dict Key Val, step s (.req (.scopes fid args hv)) = some (s', [.scopes ((if fr.resultId = 0 then [] else [(py!"Module Result", fr.resultId)]) ++
          [(py!"Module Options", m), (py!"Task Variables", t), (py!"Host Variables", h), (py!"Global Variables", gl)])]) ∧
        (∀ v ∈ [m, t, h, gl], s.vars.get? v = none) ∧
        shown s' m = some (shows es) ∧ shown s' t = some (listing s.heap fr.taskVars) ∧ shown s' gl = some (listing s.heap g) ∧
        shown s' h = some (shows hd) ∧
        (∀ n, hd.get? (.str n) = match lookupName n hvs with | some v => some v | none => lookupName n (listing s.heap fr.taskVars)) ∧
        (fr.resultId ≠ 0 → ∃ x, s'.vars.get? fr.resultId = some x ∧ x.frame = fid)) := by
  obtain ⟨ls, os, hr⟩ := hr
  have hi := inv_run hr inv_init
  constructor
  · intro h; simp [step, request, getScopes, h]
  · intro fr es host hvs g hf ha hh hg hlt
    have hok : ∃ ss, (getScopes s fid args hv).2 = [.scopes ss] := by
      unfold getScopes
      rw [hf, ha, hh]
      simp only
      have hx : ∀ {hp : Heap}, hp = s.heap ++ [.dict true es] ++ [.dict true (amalgamate hvs (listing (s.heap ++ [.dict true es]) fr.taskVars))] →
          entry hp fr.taskVars py!"vars" = some (.ref g) := by
        intro hp e; rw [e]; exact entry_append _ (entry_append _ hg)
      rw [hx]
      · exact ⟨_, rfl⟩
      · simp only [(updFrame_vars _ _ _).2.2.1, addVar]
    obtain ⟨ss, hok⟩ := hok
    obtain ⟨fr', es', host', hvs', g', h1, h2, h3, h4, h5, h6, h7, h8, -⟩ := scopes_ok hok
    rw [hf] at h1; cases h1
    rw [ha] at h2; cases h2
    rw [hh] at h3; cases h3
    have hgg : g' = g := by
      rw [h4, entry_append _ (entry_append _ hg)] at h5; cases h5; rfl
    subst hgg
    have htl := entry_lt hg
    refine ⟨(getScopes s fid args hv).1, s.nextV, s.nextV + 1, s.nextV + 2, s.nextV + 3,
      amalgamate hvs (listing (s.heap ++ [.dict true es]) fr.taskVars), ?_, ?_, ?_, ?_, ?_, ?_, ?_, ?_⟩
    · simp only [step, request, ← h6, ← hok]
    · intro v hv'
      cases hx : s.vars.get? v with
      | none => rfl
      | some x =>
        have := (hi.core.vlt hx).2
        simp at hv'
        omega
    · rw [shown_eq, h8 s.nextV, if_pos rfl]
      simp only [Option.map_some]
      rw [h4]
      have : (s.heap ++ [Obj.dict true es] ++ [Obj.dict true (amalgamate hvs (listing (s.heap ++ [.dict true es]) fr.taskVars))])[s.heap.length]? = some (.dict true es) := by
        rw [List.getElem?_append_left (by simp)]; simp
      rw [listing_dict this]
    · rw [shown_eq, h8 (s.nextV + 1), if_neg (by omega), if_pos rfl]
      simp only [Option.map_some]
      rw [h4, listing_append2 _ _ htl]
    · rw [shown_eq, h8 (s.nextV + 3), if_neg (by omega), if_neg (by omega), if_neg (by omega), if_pos rfl]
      simp only [Option.map_some]
      rw [h4, listing_append2 _ _ hlt]
    · rw [shown_eq, h8 (s.nextV + 2), if_neg (by omega), if_neg (by omega), if_pos rfl]
      simp only [Option.map_some]
      rw [h4]
      have : (s.heap ++ [Obj.dict true es] ++ [Obj.dict true (amalgamate hvs (listing (s.heap ++ [.dict true es]) fr.taskVars))])[s.heap.length + 1]? =
          some (.dict true (amalgamate hvs (listing (s.heap ++ [.dict true es]) fr.taskVars))) := by
        rw [List.getElem?_append_right (by simp)]; simp
      rw [listing_dict this]
    · intro n
      rw [listing_append _ htl]
      refine (amalgamate_get n (listing s.heap fr.taskVars) (hvs.map fun e => (Key.str e.1, e.2))).trans ?_
      rw [hv_get]
    · intro hz
      rcases hi.core.fids hf fr.resultId (.inl rfl) with e | e
      · exact absurd e hz
      · obtain ⟨x, hx, hxf⟩ := (hi.core.fv hf).2 _ e
        have := (hi.core.vlt hx).2
        exact ⟨x, (getScopes_ext s fid args hv).vars hx this, hxf⟩

/-- **C43** (exactly when it fails). A scopes request is answered with an error exactly if the frame is not there,
the arguments of the task cannot be templated, the variables of the host are not there or the task variables have
no container `vars`; else with scopes. -/
theorem C43_fails {s s' : DS} {o : List Out} {fid : Nat} {args : Option (Dict Key Val)} {hv : Option (Str × List (Str × Val))}
    (h : step s (.req (.scopes fid args hv)) = some (s', o)) (hl : ∀ fr, s.frames.get? fid = some fr → fr.taskVars < s.heap.length) :
    (∀ e, o = [.error e] ↔ (s.frames.get? fid = none ∧ e = .key) ∨ ∃ fr, s.frames.get? fid = some fr ∧
      ((args = none ∧ e = .other) ∨ (args ≠ none ∧ (hv = none ∨ ∀ g, entry s.heap fr.taskVars py!"vars" ≠ some (.ref g)) ∧ e = .key))) ∧
    ((∃ e, o = [.error e]) ∨ ∃ ss, o = [.scopes ss]) := by
  have e2 := snd_eq h
  simp only [request] at e2
  unfold getScopes at e2
  cases hf : s.frames.get? fid with
  | none =>
    rw [hf] at e2
    subst e2
    exact ⟨fun e => by simp [eq_comm], .inl ⟨_, rfl⟩⟩
  | some fr =>
    rw [hf] at e2
    cases args with
    | none =>
      dsimp only at e2
      subst e2
      exact ⟨fun e => by simp [eq_comm], .inl ⟨_, rfl⟩⟩
    | some es =>
      cases hv with
      | none =>
        dsimp only at e2
        subst e2
        exact ⟨fun e => by simp [eq_comm], .inl ⟨_, rfl⟩⟩
      | some hv =>
        obtain ⟨host, hvs⟩ := hv
        dsimp only at e2
        have hx : ∀ {hp : Heap}, hp = s.heap ++ [.dict true es] ++ [.dict true (amalgamate hvs (listing (s.heap ++ [.dict true es]) fr.taskVars))] →
            entry hp fr.taskVars py!"vars" = entry s.heap fr.taskVars py!"vars" := by
          intro hp e
          rw [e]
          unfold entry
          rw [List.getElem?_append_left (by rw [List.length_append]; exact Nat.lt_of_lt_of_le (hl fr hf) (Nat.le_add_right _ _)), List.getElem?_append_left (hl fr hf)]
        rw [hx (by simp only [(updFrame_vars _ _ _).2.2.1, addVar])] at e2
        cases hg : entry s.heap fr.taskVars py!"vars" with
        | none =>
          rw [hg] at e2
          dsimp only at e2
          subst e2
          exact ⟨fun e => by simp [hg, eq_comm], .inl ⟨_, rfl⟩⟩
        | some v =>
          rw [hg] at e2
          cases v with
          | atom r =>
            dsimp only at e2
            subst e2
            exact ⟨fun e => by simp [hg, eq_comm], .inl ⟨_, rfl⟩⟩
          | ref g =>
            dsimp only at e2
            subst e2
            exact ⟨fun e => by simp [hg], .inr ⟨_, rfl⟩⟩

/-- Non-vacuity. -/
example : (v0.frames.get? 1).map (·.taskVars) = some 0 ∧ entry v0.heap 0 py!"vars" = some (.ref 1) ∧ 1 < v0.heap.length ∧
    shown (stF v0 [.req scopes1]) 3 = some [(py!"y", .atom py!"3"), (py!"vars", .ref 1), (py!"x", .atom py!"1"), (py!"5", .atom py!"2")] := by
  refine ⟨?_, ?_, ?_, ?_⟩ <;> decide +kernel

/-! ## C44 -/

/-- **C44** (dictionaries). After a successful setVariable of `name` to `x` on a reference to a
dictionary, in which no key that is no string looks like `name` (`OnlyStr`), every reference to that
dictionary shows `name` exactly once, with `x`; all other entries as before; in the same order, with
`name` last if it is new. Containers other than the dictionary (and the raw arguments behind Module
Options) show what they showed. If `x` is a container the answer has a reference to it, else 0. -/
theorem C44_dict_partial {s s' : DS} {ref : Nat} {name : Str} {objs : List Obj} {x : Val} {r : Nat} {v : Var} {m : Bool} {es : Dict Key Val}
    (hr : Reachable s) (hv : s.vars.get? ref = some v) (hc : s.heap[v.addr]? = some (.dict m es)) (hn : (es.map (·.1)).Nodup)
    (ho : OnlyStr es name) (h : step s (.req (.setVariable ref name (some (objs, x)))) = some (s', [.setVar r])) :
    (∃ l', (∀ ref' v', s.vars.get? ref' = some v' → v'.addr = v.addr → shown s ref' = some (shows es) ∧ shown s' ref' = some l') ∧
      l'.filter (fun e => decide (e.1 = name)) = [(name, x)] ∧
      l'.filter (fun e => decide (e.1 ≠ name)) = (shows es).filter (fun e => decide (e.1 ≠ name)) ∧
      l'.map (·.1) = if name ∈ (shows es).map (·.1) then (shows es).map (·.1) else (shows es).map (·.1) ++ [name]) ∧
    (∀ ref' v', s.vars.get? ref' = some v' → v'.addr < s.heap.length → v'.addr ≠ v.addr →
      (∀ raw, v.kind = .rawStore raw → v'.addr ≠ raw) → shown s' ref' = shown s ref') ∧
    (∀ a, x = .ref a → ∃ y, s'.vars.get? r = some y ∧ y.addr = a) ∧ (∀ t, x = .atom t → r = 0) := by
  obtain ⟨ls, os, hr⟩ := hr
  have hi := inv_run hr inv_init
  have h1 : (setVariable s ref name (some (objs, x))).2 = [.setVar r] := (snd_eq h).symm
  have e1 : s' = (setVariable s ref name (some (objs, x))).1 := fst_eq h
  obtain ⟨v2, g1, g2, g3, g4, g5, g6⟩ := setVariable_ok h1
  rw [hv] at g1; cases g1
  rw [← e1] at g3 g4 g5
  have ex : VarExt s s' := by rw [e1]; exact setVariable_ext hi.core ref name _
  have hc' : (s.heap ++ objs)[v.addr]? = some (.dict m es) := by rw [List.getElem?_append_left (get_lt hc), hc]
  obtain ⟨d1, d2, d3, -, -, -⟩ := setVal_dict hc' (show setVal (s.heap ++ objs) s.hostStore v name x =
    ((setVal (s.heap ++ objs) s.hostStore v name x).1, (setVal (s.heap ++ objs) s.hostStore v name x).2.1, none) by rw [← g2])
  rw [← g3] at d2 d3
  refine ⟨⟨shows (es.set (.str name) x), ?_, set_shows es name x hn ho⟩, ?_, ?_, g6⟩
  · intro ref' v' hv' ha
    rw [shown_eq, shown_eq, hv', ex.vars hv' (hi.core.vlt hv').2]
    simp only [Option.map_some, listing, ha, hc, d2]
    exact ⟨rfl, rfl⟩
  · intro ref' v' hv' hlt hne hraw
    rw [shown_eq, shown_eq, hv', ex.vars hv' (hi.core.vlt hv').2]
    simp only [Option.map_some, listing]
    rw [d3 v'.addr hne hraw, List.getElem?_append_left hlt]
  · intro a ha
    exact ⟨_, (g5 a ha).2, rfl⟩

theorem mem_set_other {es : Dict Key Val} {k : Key} {x : Val} {e : Key × Val} (he : e ∈ es) (hk : e.1 ≠ k) : e ∈ es.set k x := by
  induction es with
  | nil => cases he
  | cons y es ih =>
    obtain ⟨k0, v0⟩ := y
    simp only [Dict.set]
    split
    · rename_i h0
      rcases List.mem_cons.1 he with rfl | he
      · exact absurd (by simpa using h0) hk
      · exact List.mem_cons_of_mem _ he
    · rcases List.mem_cons.1 he with rfl | he
      · exact List.mem_cons_self
      · exact List.mem_cons_of_mem _ (ih he)

theorem mem_set_self (es : Dict Key Val) (k : Key) (x : Val) : (k, x) ∈ es.set k x := by
  induction es with
  | nil => simp [Dict.set]
  | cons y es ih =>
    obtain ⟨k0, v0⟩ := y
    simp only [Dict.set]
    split
    · rename_i h0
      rw [show k0 = k by simpa using h0]
      exact List.mem_cons_self
    · exact List.mem_cons_of_mem _ ih

theorem set_shows_rest (es : Dict Key Val) (name : Str) (x : Val) :
    (shows (es.set (.str name) x)).filter (fun e => decide (e.1 ≠ name)) = (shows es).filter (fun e => decide (e.1 ≠ name)) := by
  induction es with
  | nil => simp [Dict.set, shows, Key.text]
  | cons y es ih =>
    obtain ⟨k, v⟩ := y
    by_cases hk : k = .str name
    · subst hk; simp [Dict.set, shows, Key.text]
    · have hset : Dict.set ((k, v) :: es) (.str name) x = (k, v) :: Dict.set es (.str name) x := by simp [Dict.set, hk]
      rw [hset]
      show List.filter _ ((k.text, v) :: shows _) = List.filter _ ((k.text, v) :: shows es)
      simp only [List.filter_cons, ih]

theorem set_shows_once (es : Dict Key Val) (name : Str) (x : Val) (hn : (es.map (·.1)).Nodup) :
    (shows (es.set (.str name) x)).filter (fun e => decide (e.1 = name)) = [(name, x)] ↔ OnlyStr es name := by
  refine ⟨fun h e he ht => ?_, fun ho => (set_shows es name x hn ho).1⟩
  by_cases hk : e.1 = .str name
  · exact hk
  have m1 : e ∈ (es.set (.str name) x).filter (fun e => decide (e.1.text = name)) := List.mem_filter.2 ⟨mem_set_other he hk, by simp [ht]⟩
  have m2 : (Key.str name, x) ∈ (es.set (.str name) x).filter (fun e => decide (e.1.text = name)) :=
    List.mem_filter.2 ⟨mem_set_self es _ x, by simp [Key.text]⟩
  have hlen : ((es.set (.str name) x).filter (fun e => decide (e.1.text = name))).length = 1 := by
    have := congrArg List.length h
    simp only [shows, List.filter_map, List.length_map, List.length_singleton] at this
    exact this
  obtain ⟨z, hz⟩ := List.length_eq_one_iff.1 hlen
  rw [hz] at m1 m2
  rw [List.mem_singleton.1 m1, ← List.mem_singleton.1 m2]

/-- **C44** (dictionaries), exactly: after a successful setVariable of `name` to `x` on a reference to any dictionary, every reference to it shows `x` under `name`, and the
entries under other names as before; it shows nothing else under `name` iff no key that is no string was shown as `name` before. -/
theorem C44_exact_partial {s s' : DS} {ref : Nat} {name : Str} {objs : List Obj} {x : Val} {r : Nat} {v : Var} {m : Bool} {es : Dict Key Val}
    (hr : Reachable s) (hv : s.vars.get? ref = some v) (hc : s.heap[v.addr]? = some (.dict m es)) (hn : (es.map (·.1)).Nodup)
    (h : step s (.req (.setVariable ref name (some (objs, x)))) = some (s', [.setVar r])) :
    ∃ l l', (∀ ref' v', s.vars.get? ref' = some v' → v'.addr = v.addr → shown s ref' = some l ∧ shown s' ref' = some l') ∧
      (name, x) ∈ l' ∧ l'.filter (fun e => decide (e.1 ≠ name)) = l.filter (fun e => decide (e.1 ≠ name)) ∧
      (l'.filter (fun e => decide (e.1 = name)) = [(name, x)] ↔ ∀ e ∈ es, e.1.text = name → ∃ t, e.1 = .str t) := by
  obtain ⟨ls, os, hr⟩ := hr
  have hi := inv_run hr inv_init
  have h1 : (setVariable s ref name (some (objs, x))).2 = [.setVar r] := (snd_eq h).symm
  have e1 : s' = (setVariable s ref name (some (objs, x))).1 := fst_eq h
  obtain ⟨v2, g1, g2, g3, g4, g5, g6⟩ := setVariable_ok h1
  rw [hv] at g1; cases g1
  rw [← e1] at g3 g4 g5
  have ex : VarExt s s' := by rw [e1]; exact setVariable_ext hi.core ref name _
  have hc' : (s.heap ++ objs)[v.addr]? = some (.dict m es) := by rw [List.getElem?_append_left (get_lt hc), hc]
  obtain ⟨d1, d2, d3, -, -, -⟩ := setVal_dict hc' (show setVal (s.heap ++ objs) s.hostStore v name x =
    ((setVal (s.heap ++ objs) s.hostStore v name x).1, (setVal (s.heap ++ objs) s.hostStore v name x).2.1, none) by rw [← g2])
  rw [← g3] at d2 d3
  refine ⟨shows es, shows (es.set (.str name) x), ?_, ?_, set_shows_rest es name x, (set_shows_once es name x hn).trans ?_⟩
  · intro ref' v' hv' ha
    rw [shown_eq, shown_eq, hv', ex.vars hv' (hi.core.vlt hv').2]
    simp only [Option.map_some, listing, ha, hc, d2]
    exact ⟨rfl, rfl⟩
  · exact List.mem_map.2 ⟨_, mem_set_self es (.str name) x, rfl⟩
  · constructor
    · intro ho e he ht
      exact ⟨name, ho e he ht⟩
    · intro ho e he ht
      obtain ⟨t, h⟩ := ho e he ht
      rw [h] at ht
      rw [h, ← ht]; rfl

/-- **C44** (lists). After a successful setVariable of the entry named `i` to `x` on a reference to a
list, every reference to the list shows the old entries with the one at `i` replaced; other containers
show what they showed. -/
theorem C44_list_partial {s s' : DS} {ref : Nat} {i : Nat} {objs : List Obj} {x : Val} {r : Nat} {v : Var} {m : Bool} {xs : List Val}
    (hr : Reachable s) (hv : s.vars.get? ref = some v) (hc : s.heap[v.addr]? = some (.seq m xs))
    (h : step s (.req (.setVariable ref (natDec i) (some (objs, x)))) = some (s', [.setVar r])) :
    i < xs.length ∧
    (∀ ref' v', s.vars.get? ref' = some v' → v'.addr = v.addr →
      shown s ref' = some (xs.zipIdx.map fun e => (natDec e.2, e.1)) ∧ shown s' ref' = some ((xs.set i x).zipIdx.map fun e => (natDec e.2, e.1))) ∧
    (∀ ref' v', s.vars.get? ref' = some v' → v'.addr < s.heap.length → v'.addr ≠ v.addr → shown s' ref' = shown s ref') ∧
    (∀ a, x = .ref a → ∃ y, s'.vars.get? r = some y ∧ y.addr = a) ∧ (∀ t, x = .atom t → r = 0) := by
  obtain ⟨ls, os, hr⟩ := hr
  have hi := inv_run hr inv_init
  have h1 : (setVariable s ref (natDec i) (some (objs, x))).2 = [.setVar r] := (snd_eq h).symm
  have e1 : s' = (setVariable s ref (natDec i) (some (objs, x))).1 := fst_eq h
  obtain ⟨v2, g1, g2, g3, g4, g5, g6⟩ := setVariable_ok h1
  rw [hv] at g1; cases g1
  rw [← e1] at g3 g4 g5
  have ex : VarExt s s' := by rw [e1]; exact setVariable_ext hi.core ref (natDec i) _
  have hc' : (s.heap ++ objs)[v.addr]? = some (.seq m xs) := by rw [List.getElem?_append_left (get_lt hc), hc]
  obtain ⟨d1, d2, d3, ⟨j, xs', d4, d5, d6⟩, d7⟩ := setVal_list hc' (show setVal (s.heap ++ objs) s.hostStore v (natDec i) x =
    ((setVal (s.heap ++ objs) s.hostStore v (natDec i) x).1, (setVal (s.heap ++ objs) s.hostStore v (natDec i) x).2.1, none) by rw [← g2])
  rw [← g3] at d6 d7
  rw [Verif.Conn.pyInt_natDec] at d4
  cases d4
  unfold Bp.pySet at d5
  rw [if_pos (Int.natCast_nonneg i)] at d5
  simp only [Int.toNat_natCast] at d5
  split at d5
  · rename_i hlt
    cases d5
    refine ⟨hlt, ?_, ?_, ?_, g6⟩
    · intro ref' v' hv' ha
      rw [shown_eq, shown_eq, hv', ex.vars hv' (hi.core.vlt hv').2]
      simp only [Option.map_some, listing, ha, hc, d6]
      exact ⟨trivial, trivial⟩
    · intro ref' v' hv' hlt hne
      rw [shown_eq, shown_eq, hv', ex.vars hv' (hi.core.vlt hv').2]
      simp only [Option.map_some, listing]
      rw [d7 v'.addr hne, List.getElem?_append_left hlt]
    · intro a ha
      exact ⟨_, (g5 a ha).2, rfl⟩
  · cases d5

/-- Non-vacuity: `x` among the task variables, entry 1 of the list. -/
example : (exec (stF v0 [.req scopes1]) [.req (.setVariable 2 py!"x" (some ([], .atom py!"9")))]).map (·.2) = some [.setVar 0] ∧
    (exec (stF v0 [.req scopes1, .req (.variables 4)]) [.req (.setVariable 5 (natDec 1) (some ([.seq true []], .ref 6)))]).map (·.2) = some [.setVar 6] := by
  decide +kernel

/-- **C44** fails for an entry whose key is not a string but shown like one: setting the variable
shown as `5` adds a second entry of that name, and the first one, which the client wanted to set,
keeps its value. -/
theorem C44_key_refuted : ∃ s s' : DS, Reachable s ∧
    shown s 2 = some [(py!"vars", .ref 1), (py!"x", .atom py!"1"), (py!"5", .atom py!"2")] ∧
    step s (.req (.setVariable 2 py!"5" (some ([], .atom py!"9")))) = some (s', [.setVar 0]) ∧
    shown s' 2 = some [(py!"vars", .ref 1), (py!"x", .atom py!"1"), (py!"5", .atom py!"2"), (py!"5", .atom py!"9")] :=
  ⟨stF v0 [.req scopes1], stF (stF v0 [.req scopes1]) [.req (.setVariable 2 py!"5" (some ([], .atom py!"9")))],
    reach_append v0_reachable (run_of (by decide +kernel)), by decide +kernel,
    (step_of (by decide +kernel)).trans (congrArg some (Prod.ext rfl (by decide +kernel))), by decide +kernel⟩

/-! ## C45 -/

/-- **C45.** In every history: the ids of the started events are strictly increasing from 2 on, so a
thread is announced at most once and never thread 1; no thread exits twice; before each exited event
there is the started event of that thread; and the threads that were started are exactly those that
exited and the hosts' threads there are now. -/
theorem C45_paired {s : DS} {ls : List Label} {os : List Out} (h : Run {} ls s os) :
    (os.filterMap startId).Pairwise (· < ·) ∧ (∀ t ∈ os.filterMap startId, 2 ≤ t) ∧ (os.filterMap exitId).Nodup ∧
    (∀ a b t, os = a ++ Out.exited t :: b → Out.started t ∈ a) ∧
    (∀ t, Out.started t ∈ os ↔ (Out.exited t ∈ os ∨ t ≠ 1 ∧ ∃ th, s.threads.get? t = some th)) ∧
    (∀ t th, s.threads.get? t = some th → t ≠ 1 → Out.exited t ∉ os) := by
  have p := paired_run h inv_init paired_init
  rw [List.nil_append] at p
  have nd : (os.filterMap startId).Nodup := p.inc.imp (fun h => Nat.ne_of_lt h)
  have nd2 := p.perm.nodup_iff.1 nd
  have me : ∀ t, t ∈ os.filterMap exitId ↔ Out.exited t ∈ os := by
    intro t
    rw [List.mem_filterMap]
    constructor
    · rintro ⟨x, hx, h⟩
      cases x <;> simp [exitId] at h
      subst h; exact hx
    · intro h; exact ⟨_, h, rfl⟩
  have mh : ∀ t, t ∈ s.hostThreads ↔ (t ≠ 1 ∧ ∃ th, s.threads.get? t = some th) := by
    intro t
    simp only [DS.hostThreads, DS.keys, List.mem_filter]
    rw [DL.get_some_key]
    simp [and_comm]
  refine ⟨p.inc, fun t ht => (p.bd t ht).1, (List.nodup_append.1 nd2).1, p.order, ?_, ?_⟩
  · intro t
    rw [← mem_starts, p.perm.mem_iff, List.mem_append, me, mh]
  · intro t th ht h1 hex
    exact (List.nodup_append.1 nd2).2.2 t ((me t).2 hex) t ((mh t).2 ⟨h1, th, ht⟩) rfl

/-- **C45** (end of a play). When a play has ended - the next one begins, or the run is over - every
thread that was started has exited. -/
theorem C45_all_exit {s : DS} {ls : List Label} {os : List Out} (h : Run {} ls s os) (he : Over s ∨ ∃ ls', ls = ls' ++ [.newPlay]) :
    ∀ t, Out.started t ∈ os → Out.exited t ∈ os := by
  intro t ht
  rcases ((C45_paired h).2.2.2.2.1 t).1 ht with h1 | ⟨h1, th, h2⟩
  · exact h1
  · rcases he with he | ⟨ls', rfl⟩
    · exact absurd (reach_main ⟨ls, os, h⟩ he t th h2) h1
    · exfalso
      have key : ∀ {a b : DS} {l o}, Run a (l ++ [.newPlay]) b o → b.threads = [(1, { id := 1 })] := by
        intro a b l
        induction l generalizing a with
        | nil =>
          intro o h
          cases h with
          | cons k1 k2 =>
            cases k2
            simp only [step] at k1
            split at k1
            · rw [fst_eq k1]
            · cases k1
        | cons x l ih =>
          intro o h
          cases h with
          | cons _ k2 => exact ih k2
      rw [key h] at h2
      simp only [Dict.get?] at h2
      split at h2
      · rename_i e; exact h1 e.symm
      · cases h2

/-- **C45** (the threads request). In every history the answer to a threads request changes nothing
and names, each once, the main thread 1 and exactly the threads that were announced started and not
yet announced exited. -/
theorem C45_threads_answer {s s1 : DS} {ls : List Label} {os o : List Out} (h : Run {} ls s os) (h1 : step s (.req .threads) = some (s1, o)) :
    s1 = s ∧ ∃ ids, o = [.threads ids] ∧ ids.Nodup ∧ ∀ t, t ∈ ids ↔ t = 1 ∨ (Out.started t ∈ os ∧ Out.exited t ∉ os) := by
  have hi := reach_inv ⟨ls, os, h⟩
  obtain ⟨-, p2, -, p4, p5, p6⟩ := C45_paired h
  rw [fst_eq h1, snd_eq h1]
  refine ⟨rfl, s.threads.map (·.1), rfl, hi.core.tnd, ?_⟩
  intro t
  rw [← DL.get_some_key]
  constructor
  · rintro ⟨th, ht⟩
    by_cases e : t = 1
    · exact .inl e
    · exact .inr ⟨(p5 t).2 (.inr ⟨e, th, ht⟩), p6 t th ht e⟩
  · rintro (rfl | ⟨a, b⟩)
    · obtain ⟨th, ht, -⟩ := hi.core.tmain
      exact ⟨th, ht⟩
    · rcases (p5 t).1 a with c | ⟨-, th, ht⟩
      · exact absurd c b
      · exact ⟨th, ht⟩

/-- Non-vacuity: two hosts, then the next play, then one of the hosts again. -/
example : (ouF {} [.start 7 (tk 50 1) 0 0 yes, .start 8 (tk 50 1) 0 0 yes, .done 7 (tk 50 1) fine 0, .done 8 (tk 50 1) fine 0, .newPlay,
    .start 7 (tk 60 1) 0 0 yes]) = [.started 2, .started 3, .exited 2, .exited 3, .started 4] := by decide +kernel

/-! ## C66 -/

/-- **C66** (options). After a `set_option` command that is answered without an error the option has
the new value in the scope Module Options that was handed out last and in the arguments the task will
be run with; nothing else in them is changed. -/
theorem C66_option {s s' : DS} {fid : Nat} {fr : Frame} {name : Str} {objs : List Obj} {x : Val} {v : Var} {es raw : Dict Key Val}
    (hf : s.frames.get? fid = some fr) (hv : s.vars.get? fr.optionsId = some v) (hk : v.kind = .rawStore fr.args)
    (hc : s.heap[v.addr]? = some (.dict true es)) (hw : s.heap[fr.args]? = some (.dict true raw))
    (h : step s (.req (.evaluate fid (.setOption name (some (objs, x))))) = some (s', [.ok])) :
    s'.heap[v.addr]? = some (.dict true (es.set (.str name) x)) ∧ s'.heap[fr.args]? = some (.dict true (raw.set (.str name) x)) ∧
    (∀ a, a < s.heap.length → a ≠ v.addr → a ≠ fr.args → s'.heap[a]? = s.heap[a]?) ∧ s'.vars = s.vars ∧ s'.hostStore = s.hostStore := by
  have e1 := fst_eq h
  have e2 := snd_eq h
  simp only [request, evaluate, hf, setAll, hv] at e1 e2
  cases he : (setVal (s.heap ++ objs) s.hostStore v name x).2.2 with
  | some e => rw [he] at e2; cases e2
  | none =>
    rw [he] at e1
    simp only at e1
    have hc' : (s.heap ++ objs)[v.addr]? = some (.dict true es) := by rw [List.getElem?_append_left (get_lt hc), hc]
    have hw' : (s.heap ++ objs)[fr.args]? = some (.dict true raw) := by rw [List.getElem?_append_left (get_lt hw), hw]
    obtain ⟨-, d2, d3, d4, d5, -⟩ := setVal_dict hc' (show setVal (s.heap ++ objs) s.hostStore v name x =
      ((setVal (s.heap ++ objs) s.hostStore v name x).1, (setVal (s.heap ++ objs) s.hostStore v name x).2.1, none) by rw [← he])
    rw [e1]
    refine ⟨d2, d4 fr.args hk raw hw', ?_, rfl, ?_⟩
    · intro a ha h1 h2
      show (setVal (s.heap ++ objs) s.hostStore v name x).1[a]? = _
      rw [d3 a h1 (fun r hr => by rw [hk] at hr; cases hr; exact h2), List.getElem?_append_left ha]
    · rw [hk] at d5; exact d5

/-- **C66** (host variables). After a `set_hostvar` command that is answered without an error the
variable has the new value in the scopes Task Variables and Host Variables that were handed out last,
and was given to the variable manager for the host, so that it outlasts the task. -/
theorem C66_hostvar {s s' : DS} {fid : Nat} {fr : Frame} {name host : Str} {objs : List Obj} {x : Val} {v w : Var} {es hs : Dict Key Val}
    (hf : s.frames.get? fid = some fr) (hv : s.vars.get? fr.taskvarId = some v) (hw : s.vars.get? fr.hostvarsId = some w)
    (hk : v.kind = .dict) (hk2 : w.kind = .hostVars host) (hne : v.addr ≠ w.addr)
    (hc : s.heap[v.addr]? = some (.dict true es)) (hc2 : s.heap[w.addr]? = some (.dict true hs))
    (h : step s (.req (.evaluate fid (.setHostvar name (some (objs, x))))) = some (s', [.ok])) :
    s'.heap[v.addr]? = some (.dict true (es.set (.str name) x)) ∧ s'.heap[w.addr]? = some (.dict true (hs.set (.str name) x)) ∧
    s'.hostStore = s.hostStore ++ [(host, name, x)] ∧
    (∀ a, a < s.heap.length → a ≠ v.addr → a ≠ w.addr → s'.heap[a]? = s.heap[a]?) ∧ s'.vars = s.vars := by
  have e1 := fst_eq h
  have e2 := snd_eq h
  simp only [request, evaluate, hf, setAll, hv] at e1 e2
  cases he : (setVal (s.heap ++ objs) s.hostStore v name x).2.2 with
  | some e => rw [he] at e2; cases e2
  | none =>
    rw [he] at e1 e2
    simp only [hw] at e1 e2
    have hc' : (s.heap ++ objs)[v.addr]? = some (.dict true es) := by rw [List.getElem?_append_left (get_lt hc), hc]
    obtain ⟨-, d2, d3, -, d5, -⟩ := setVal_dict hc' (show setVal (s.heap ++ objs) s.hostStore v name x =
      ((setVal (s.heap ++ objs) s.hostStore v name x).1, (setVal (s.heap ++ objs) s.hostStore v name x).2.1, none) by rw [← he])
    rw [hk] at d5 d3
    have d3' := fun b hb => d3 b hb (fun raw hr => by cases hr)
    generalize setVal (s.heap ++ objs) s.hostStore v name x = p at *
    cases he2 : (setVal p.1 p.2.1 w name x).2.2 with
    | some e => rw [he2] at e2; cases e2
    | none =>
      rw [he2] at e1
      simp only at e1
      have hcw : p.1[w.addr]? = some (.dict true hs) := by
        rw [d3' w.addr (Ne.symm hne), List.getElem?_append_left (get_lt hc2), hc2]
      obtain ⟨-, f2, f3, -, f5, -⟩ := setVal_dict hcw (show setVal p.1 p.2.1 w name x =
        ((setVal p.1 p.2.1 w name x).1, (setVal p.1 p.2.1 w name x).2.1, none) by rw [← he2])
      rw [hk2] at f5 f3
      have f3' := fun b hb => f3 b hb (fun raw hr => by cases hr)
      rw [e1]
      refine ⟨?_, f2, ?_, ?_, rfl⟩
      · show (setVal p.1 p.2.1 w name x).1[v.addr]? = _
        rw [f3' _ hne, d2]
      · show (setVal p.1 p.2.1 w name x).2.1 = _
        rw [f5]; simp only [d5]
      · intro a ha h1 h2
        show (setVal p.1 p.2.1 w name x).1[a]? = _
        rw [f3' a h2, d3' a h1, List.getElem?_append_left ha]

/-- Non-vacuity: after a scopes request, an option and a host variable. -/
example : (exec (stF v0 [.req scopes1]) [.req (.evaluate 1 (.setOption py!"name" (some ([], .atom py!"'b'"))))]).map (·.2) = some [.ok] ∧
    (stF v0 [.req scopes1, .req (.evaluate 1 (.setOption py!"name" (some ([], .atom py!"'b'"))))]).heap[2]? = some (.dict true [(.str py!"name", .atom py!"'b'")]) ∧
    (stF v0 [.req scopes1, .req (.evaluate 1 (.setHostvar py!"y" (some ([], .atom py!"4"))))]).hostStore = [(py!"h7", py!"y", .atom py!"4")] := by
  decide +kernel

end Verif.Props.Strat
