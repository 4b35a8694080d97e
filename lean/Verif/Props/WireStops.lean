import Verif.Props.Wire
import Verif.Props.StratRun
import Verif.Strat.Events
/-!
# What the client is told about stops (C86)

`play e s l` is a step of the playbook in the debug state `s`, with the messages it queues for the client. `After cmd h tid a s`,
`BpHits`, `SameLevel`, `Waits`, ... are the vocabulary of C32 to C37 (Strat/Spec.lean).
-/

namespace Verif.Props.WireStops
open Verif Verif.Wire Verif.Strat Verif.Props.Strat
open Verif.Dap (Cls Instance toJson)
open Verif.Dap.Schema (Valid ref)

/-- A stopped event for one thread: nothing is said about the other threads being stopped. -/
structure StopReport (a : Dap.Val) (tid : Nat) (reason description : Str) (hits : List Nat) (text : Option Str) : Prop where
  inst : Instance .StoppedEvent a
  thread : a.attr? py!"thread_id" = some (.int tid)
  reason : a.attr? py!"reason" = some (.enum .StoppedReason reason)
  description : a.attr? py!"description" = some (.str description)
  hits : a.attr? py!"hit_breakpoint_ids" = some (.list (hits.map fun i : Nat => Dap.Val.int i))
  text : a.attr? py!"text" = some (match text with | none => .null | some t => .str t)
  all : a.attr? py!"all_threads_stopped" = some (.bool false)
  focus : a.attr? py!"preserve_focus_hint" = some (.bool false)

theorem report_step (e : Env) (h : Heap) (get : Str → Option Val) (tid : Nat) (w : Why) (d : Str)
    (hw : (w = .over ∧ d = py!"Step over") ∨ (w = .out ∧ d = py!"Step out") ∨ (w = .into ∧ d = py!"Step in")) :
    StopReport (stoppedEvent e h get tid (.brk w)) tid py!"step" d [] none := by
  rcases hw with ⟨rfl, rfl⟩ | ⟨rfl, rfl⟩ | ⟨rfl, rfl⟩
  all_goals
    refine ⟨stopped_typed _ _ _ _ _, ?_, ?_, ?_, ?_, ?_, ?_, ?_⟩
    · exact build_given (by decide +kernel) rfl
    · exact build_given (by decide +kernel) rfl
    · exact build_given (by decide +kernel) rfl
    · exact build_rest rfl rfl
    · exact build_rest rfl rfl
    · exact build_rest rfl rfl
    · exact build_rest rfl rfl

theorem report_bp (e : Env) (h : Heap) (get : Str → Option Val) (tid b : Nat) :
    StopReport (stoppedEvent e h get tid (.brk (.bp b))) tid py!"breakpoint" py!"Breakpoint hit" [b] none := by
  refine ⟨stopped_typed _ _ _ _ _, ?_, ?_, ?_, ?_, ?_, ?_, ?_⟩
  · exact build_given (by decide +kernel) rfl
  · exact build_given (by decide +kernel) rfl
  · exact build_given (by decide +kernel) rfl
  · exact build_given (by decide +kernel) rfl
  · exact build_rest rfl rfl
  · exact build_rest rfl rfl
  · exact build_rest rfl rfl

theorem report_exc (e : Env) (h : Heap) (get : Str → Option Val) (tid : Nat) (x : Exc) :
    StopReport (stoppedEvent e h get tid (.exc x)) tid py!"exception" (details e h get x).1 [] (some (details e h get x).2) := by
  refine ⟨stopped_typed _ _ _ _ _, ?_, ?_, ?_, ?_, ?_, ?_, ?_⟩
  all_goals exact build_given (by decide +kernel) rfl

theorem stopped_thread (e : Env) (h : Heap) (get : Str → Option Val) (tid : Nat) (w : Strat.Stop) :
    (stoppedEvent e h get tid w).attr? py!"thread_id" = some (.int tid) := by
  cases w with
  | brk y =>
    cases y with
    | bp i => exact (report_bp e h get tid i).thread
    | over => exact (report_step e h get tid _ _ (.inl ⟨rfl, rfl⟩)).thread
    | out => exact (report_step e h get tid _ _ (.inr (.inl ⟨rfl, rfl⟩))).thread
    | into => exact (report_step e h get tid _ _ (.inr (.inr ⟨rfl, rfl⟩))).thread
  | exc x => exact (report_exc e h get tid x).thread

theorem cls_of {c d : Cls} {v : Dap.Val} {asg : Dict Str Dap.Val} (h : Instance c v) (e : v = build d asg) : c = d := by
  obtain ⟨val, rfl, -, -⟩ := Verif.Props.Wire.inst_val h
  injection e

/-- The stopped events among the messages. -/
theorem stopped_mem {e : Env} {s : DS} {get : Str → Option Val} {os : List Out} {a : Dap.Val}
    (ha : a ∈ os.map (render e s .ProtocolMessage .null get)) (hi : Instance .StoppedEvent a) :
    ∃ tid w, Out.stopped tid w ∈ os ∧ a = stoppedEvent e s.heap get tid w := by
  obtain ⟨o, ho, rfl⟩ := List.mem_map.1 ha
  cases o with
  | stopped t w => exact ⟨t, w, ho, rfl⟩
  | bp b => cases b <;> cases cls_of hi rfl
  | _ => cases cls_of hi rfl

theorem play_step {e : Env} {s s' : DS} {l : Label} {ms : List Dap.Val} (h : play e s l = some (s', ms)) :
    ∃ o, step s l = some (s', o) ∧ ms = o.map (render e s' .ProtocolMessage .null (labelGet s.heap l)) := by
  unfold play at h
  cases hs : step s l with
  | none => rw [hs] at h; cases h
  | some p =>
    rw [hs] at h
    simp only [Option.map_some, Option.some.injEq, Prod.mk.injEq] at h
    obtain ⟨h1, h2⟩ := h
    subst h1
    exact ⟨p.2, rfl, h2.symm⟩

theorem bpFor_hits {s : DS} {t : Task} {c : Nat → Bool} {i : Nat} (h : bpFor s t c = some i) : BpHits s t c i := by
  unfold bpFor at h
  split at h
  · cases h
  · rename_i p l hp
    split at h
    · cases h
    · rename_i b hb
      split at h
      · rename_i hc
        cases h
        exact ⟨p, l, b, hp, hb, rfl, hc⟩
      · cases h

/-- C86: every stopped event that is sent as a host starts a task is about that host's thread, for which the playbook now waits; it reports either
a breakpoint, naming just the breakpoint of the client that applies to the task, or a step. And if the playbook waits, it was sent. -/
theorem C86_start {e : Env} {h : Nat} {t : Task} {tv ar : Addr} {c : Nat → Bool} {s s' : DS} {ms : List Dap.Val} (hr : Reachable s) (ht : ¬ Failed s')
    (hs : play e s (.start h t tv ar c) = some (s', ms)) :
    (∀ a ∈ ms, Instance .StoppedEvent a → ∃ tid, Waits tid s' ∧ (∃ th, s'.threads.get? tid = some th ∧ th.host = some h) ∧
      ((∃ i, BpHits s t c i ∧ StopReport a tid py!"breakpoint" py!"Breakpoint hit" [i] none) ∨
       ∃ d ∈ [py!"Step over", py!"Step in", py!"Step out"], StopReport a tid py!"step" d [] none)) ∧
    ∀ tid, Waits tid s' → ∃ a ∈ ms, Instance .StoppedEvent a ∧ a.attr? py!"thread_id" = some (.int tid) := by
  have hi := reach_inv hr
  obtain ⟨o, hst, rfl⟩ := play_step hs
  constructor
  · intro a ha hins
    obtain ⟨tid, w, hm, rfl⟩ := stopped_mem ha hins
    obtain ⟨g1, g2⟩ := start_stopped hi hst ⟨w, hm⟩
    obtain ⟨-, y, rfl, hy⟩ := (start_stops hi hst ht tid w).1 hm
    refine ⟨tid, .inl g1, ?_, ?_⟩
    · unfold ctl at g2
      cases hg : s'.threads.get? tid with
      | none => rw [hg] at g2; cases g2
      | some th =>
        rw [hg] at g2
        refine ⟨th, rfl, ?_⟩
        simp only [Option.map_some, Option.some.injEq, Prod.mk.injEq] at g2
        exact g2.2.2
    · cases y with
      | bp i =>
        left
        refine ⟨i, bpFor_hits ?_, report_bp _ _ _ _ _⟩
        unfold whyStop at hy
        (repeat' (split at hy))
        · cases hy
        · unfold whyBreak at hy
          (repeat' (split at hy)) <;> cases hy
          assumption
      | over => exact .inr ⟨_, by simp, report_step _ _ _ _ _ _ (.inl ⟨rfl, rfl⟩)⟩
      | out => exact .inr ⟨_, by simp, report_step _ _ _ _ _ _ (.inr (.inl ⟨rfl, rfl⟩))⟩
      | into => exact .inr ⟨_, by simp, report_step _ _ _ _ _ _ (.inr (.inr ⟨rfl, rfl⟩))⟩
  · intro tid hw
    have hp : s.pc = .running := by
      simp only [step] at hst; split at hst
      · assumption
      · cases hst
    obtain ⟨p, hsy⟩ := sync_fine hi hst ht
    simp only [step, hp, if_true] at hst
    rcases start_spec hi hp h t tv ar c with ⟨e, he, -⟩ | ⟨s1, th1, -, e1, -, -, e4, -⟩
    · rw [hsy] at he; cases he
    · have ho := snd_eq hst
      have hs' := fst_eq hst
      rw [e1] at ho
      cases hy : whyStop s (hostThread s h).2.1 t c with
      | none =>
        rw [hy] at e4
        rcases hw with hw | ⟨i, hw⟩ <;> (rw [hs', e4] at hw; cases hw)
      | some y =>
        rw [hy] at e4 ho
        have : tid = (hostThread s h).2.1.id := by
          rcases hw with hw | ⟨i, hw⟩ <;> (rw [hs', e4] at hw; cases hw)
          rfl
        subst this
        refine ⟨_, List.mem_map.2 ⟨.stopped (hostThread s h).2.1.id (.brk y), by rw [ho]; simp, rfl⟩, stopped_typed _ _ _ _ _, stopped_thread _ _ _ _ _⟩

/-- The message of an outcome is among the messages. -/
theorem told {e : Env} {s s' : DS} {l : Label} {ms : List Dap.Val} {o : List Out} (hs : play e s l = some (s', ms)) (ho : step s l = some (s', o)) {tid : Nat} {w : Strat.Stop}
    (h : Out.stopped tid w ∈ o) : stoppedEvent e s'.heap (labelGet s.heap l) tid w ∈ ms := by
  obtain ⟨o', h1, rfl⟩ := play_step hs
  rw [ho] at h1
  obtain rfl : o = o' := by injection h1 with h1; injection h1
  exact List.mem_map.2 ⟨_, h, rfl⟩

/-- C86: told to step over, the host reports `step`, `Step over` when it starts the next task in the same include, and the breakpoint when it
starts a task elsewhere that has one. -/
theorem C86_step_over {e : Env} {h tid : Nat} {a t : Task} {tv ar : Addr} {c : Nat → Bool} {s s' : DS} {ms : List Dap.Val}
    (hA : After (.next tid) h tid a s) (ht : ¬ Failed s') (hp : t.path ≠ none) (hs : play e s (.start h t tv ar c) = some (s', ms)) :
    (SameLevel t a → ∃ m ∈ ms, StopReport m tid py!"step" py!"Step over" [] none) ∧
    ∀ i, ¬ SameLevel t a → BpHits s t c i → ∃ m ∈ ms, StopReport m tid py!"breakpoint" py!"Breakpoint hit" [i] none := by
  obtain ⟨o, ho, -⟩ := play_step hs
  obtain ⟨-, h2, h3⟩ := C32_step_over_partial hA ht ho
  exact ⟨fun hl => ⟨_, told hs ho (h2.2 ⟨hp, hl⟩), report_step _ _ _ _ _ _ (.inl ⟨rfl, rfl⟩)⟩,
    fun i hl hb => ⟨_, told hs ho ((h3 i).2 ⟨hp, hl, hb⟩), report_bp _ _ _ _ _⟩⟩

/-- C86: told to step into an include, the host reports `step`, `Step in` at the next task. -/
theorem C86_step_in {e : Env} {h tid : Nat} {a t : Task} {tv ar : Addr} {c : Nat → Bool} {s s' : DS} {ms : List Dap.Val}
    (hA : After (.stepIn tid) h tid a s) (hinc : a.node.isInclude = true) (ht : ¬ Failed s') (hp : t.path ≠ none)
    (hs : play e s (.start h t tv ar c) = some (s', ms)) : ∃ m ∈ ms, StopReport m tid py!"step" py!"Step in" [] none := by
  obtain ⟨o, ho, -⟩ := play_step hs
  exact ⟨_, told hs ho ((C33_step_in hA hinc ht ho).2 hp), report_step _ _ _ _ _ _ (.inr (.inr ⟨rfl, rfl⟩))⟩

/-- C86: told to step out of an include, the host reports `step`, `Step out` at the first task that is not directly in it. -/
theorem C86_step_out {e : Env} {h tid inc : Nat} {a t : Task} {tv ar : Addr} {c : Nat → Bool} {s s' : DS} {ms : List Dap.Val}
    (hA : After (.stepOut tid) h tid a s) (hinc : EnclInclude a = some inc) (him : NoImports t) (ht : ¬ Failed s') (hp : t.path ≠ none)
    (hl : EnclInclude t ≠ some inc) (hs : play e s (.start h t tv ar c) = some (s', ms)) :
    ∃ m ∈ ms, StopReport m tid py!"step" py!"Step out" [] none := by
  obtain ⟨o, ho, -⟩ := play_step hs
  obtain ⟨h1, h2⟩ := C34_step_out_partial hA hinc him ht ho
  exact ⟨_, told hs ho (h2 (h1.2 ⟨hp, hl⟩)), report_step _ _ _ _ _ _ (.inr (.inl ⟨rfl, rfl⟩))⟩

/-- C86: a host that is running freely reports a breakpoint when it starts a task that has one. -/
theorem C86_breakpoint {e : Env} {h tid x : Nat} {single : Bool} {a t : Task} {tv ar : Addr} {c : Nat → Bool} {s s' : DS} {ms : List Dap.Val}
    (hA : After (.cont x single) h tid a s) (hx : single = false ∨ x = tid) (ht : ¬ Failed s') {i : Nat} (hb : BpHits s t c i)
    (hs : play e s (.start h t tv ar c) = some (s', ms)) : ∃ m ∈ ms, StopReport m tid py!"breakpoint" py!"Breakpoint hit" [i] none := by
  obtain ⟨o, ho, -⟩ := play_step hs
  exact ⟨_, told hs ho ((C35_continued hA hx ht ho _).2 ⟨i, rfl, hb⟩), report_bp _ _ _ _ _⟩

/-! ### Exceptions -/

/-- What is said of a failed or unreachable result, before the exception: its `msg`, else its `stdout`, else a fixed text. `x k` is the value of
its key `k`, `str` is Python's. -/
inductive MainText (x : Str → Option Val) (str : Val → Str) : Str → Prop
  | msg {v} (h : x py!"msg" = some v) : MainText x str (str v)
  | stdout {v} (h : x py!"msg" = none) (h' : x py!"stdout" = some v) : MainText x str (str v)
  | unknown (h : x py!"msg" = none) (h' : x py!"stdout" = none) : MainText x str py!"Unknown error"

/-- What is said of a failed or unreachable result: the main text, followed by its `exception` if it has one; where Ansible
gives the exception as an error summary, the formatted summary instead. -/
inductive FailureText (x : Str → Option Val) (str : Val → Str) (truthy : Val → Bool) (summary : Val → Option Str) : Str → Prop
  | plain {t} (h : MainText x str t) (h' : ∀ v, x py!"exception" = some v → truthy v = false) : FailureText x str truthy summary t
  | trace {t v} (h : MainText x str t) (h' : x py!"exception" = some v) (ht : truthy v = true) (hs : summary v = none) :
      FailureText x str truthy summary (t ++ py!"\n\n" ++ str v)
  | summary {v t} (h' : x py!"exception" = some v) (ht : truthy v = true) (hs : summary v = some t) : FailureText x str truthy summary t

/-- What is said of a skipped result: its `skip_reason`, and its `false_condition` if it has one that is not None. -/
inductive SkipText (x : Str → Option Val) (str : Val → Str) : Str → Prop
  | plain {r} (hr : (∃ v, x py!"skip_reason" = some v ∧ r = str v) ∨ (x py!"skip_reason" = none ∧ r = py!"Unknown reason"))
      (hc : x py!"false_condition" = none ∨ x py!"false_condition" = some (.atom py!"None")) : SkipText x str (py!"Task skipped\n" ++ r)
  | cond {r v} (hr : (∃ v, x py!"skip_reason" = some v ∧ r = str v) ∨ (x py!"skip_reason" = none ∧ r = py!"Unknown reason"))
      (hc : x py!"false_condition" = some v) (hn : v ≠ .atom py!"None") : SkipText x str (py!"Task skipped\n" ++ r ++ py!"\n\nFalse condition: " ++ str v)

theorem format_text (e : Env) (h : Heap) (x : Str → Option Val) : FailureText x (e.strOf h) (e.truthy h) (e.summary h) (formatException e h x) := by
  have main : MainText x (e.strOf h) (match x py!"msg" with
    | some v => e.strOf h v
    | none => match x py!"stdout" with
      | some v => e.strOf h v
      | none => py!"Unknown error") := by
    cases h1 : x py!"msg" with
    | some v => exact .msg h1
    | none =>
      cases h2 : x py!"stdout" with
      | some v => exact .stdout h1 h2
      | none => exact .unknown h1 h2
  unfold formatException
  simp only
  cases hx : x py!"exception" with
  | none => exact .plain main (by intro v hv; rw [hx] at hv; cases hv)
  | some v =>
    simp only
    by_cases ht : e.truthy h v = true
    · rw [if_pos ht]
      cases hs : e.summary h v with
      | some t => exact .summary hx ht hs
      | none => exact .trace main hx ht hs
    · rw [if_neg ht]
      exact .plain main (by intro w hw; rw [hx] at hw; cases hw; simpa using ht)

theorem skip_text (e : Env) (h : Heap) (x : Str → Option Val) : SkipText x (e.strOf h) (formatSkipped e h x) := by
  unfold formatSkipped
  cases hx : x py!"skip_reason" with
  | some w =>
    have hr : (∃ v, x py!"skip_reason" = some v ∧ e.strOf h w = e.strOf h v) ∨ (x py!"skip_reason" = none ∧ e.strOf h w = py!"Unknown reason") := .inl ⟨w, hx, rfl⟩
    cases hc : x py!"false_condition" with
    | none => exact .plain hr (.inl hc)
    | some v =>
      simp only
      by_cases hv : v = .atom py!"None"
      · rw [if_pos hv]; subst hv; exact .plain hr (.inr hc)
      · rw [if_neg hv]; exact .cond hr hc hv
  | none =>
    have hr : (∃ v, x py!"skip_reason" = some v ∧ py!"Unknown reason" = e.strOf h v) ∨ (x py!"skip_reason" = none ∧ py!"Unknown reason" = py!"Unknown reason") := .inr ⟨hx, rfl⟩
    cases hc : x py!"false_condition" with
    | none => exact .plain hr (.inl hc)
    | some v =>
      simp only
      by_cases hv : v = .atom py!"None"
      · rw [if_pos hv]; subst hv; exact .plain hr (.inr hc)
      · rw [if_neg hv]; exact .cond hr hc hv

theorem end_heap (s : DS) (h : Nat) (t : Task) (r : Result) (res : Addr) (hw : ∃ k, Stops k (endTask s h t r res).2) :
    (endTask s h t r res).1.heap = s.heap := by
  revert hw
  unfold endTask
  split
  · rintro ⟨k, w, hk⟩; simp [crash, finish, exitThreads] at hk
  · split
    · rintro ⟨k, w, hk⟩
      unfold endAfter at hk
      (repeat' (split at hk)) <;> simp [crash, finish, exitThreads] at hk
    · simp only
      split
      · rintro ⟨k, w, hk⟩; simp [crash, finish, exitThreads] at hk
      · split
        · rintro ⟨k, w, hk⟩; simp [crash, finish, exitThreads] at hk
        · intro _; rfl

theorem why_failed {p : List Node} {r : Result} {f : Filters} (h : whyException p r f = some .failed) : r.failed = true ∧ r.ignoreErrors = false ∧ f.onError = true := by
  unfold whyException at h
  (repeat' (split at h)) <;> cases h
  simp_all

theorem why_unreachable {p : List Node} {r : Result} {f : Filters} (h : whyException p r f = some .unreachable) :
    r.unreachable = true ∧ r.ignoreUnreachable = false ∧ f.onUnreachable = true := by
  unfold whyException at h
  (repeat' (split at h)) <;> cases h
  simp_all

theorem why_skipped {p : List Node} {r : Result} {f : Filters} (h : whyException p r f = some .skipped) : r.skipped = true ∧ f.onSkipped = true := by
  unfold whyException at h
  (repeat' (split at h)) <;> cases h
  simp_all

/-- C86: every stopped event that is sent as a host ends a task is about that host's thread, for which the playbook now waits, and reports
an exception: a failed, unreachable or skipped result according to the filter that made it stop, with the text of that result. -/
theorem C86_exception {e : Env} {h : Nat} {t : Task} {r : Result} {res : Addr} {s s' : DS} {ms : List Dap.Val} (hr : Reachable s)
    (hs : play e s (.done h t r res) = some (s', ms)) (a : Dap.Val) (ha : a ∈ ms) (hi : Instance .StoppedEvent a) :
    ∃ th text, threadOf s h = some th ∧ Waits th.id s' ∧
      ((r.failed = true ∧ r.ignoreErrors = false ∧ FilterOn s py!"on_error" ∧ StopReport a th.id py!"exception" py!"Task failed" [] (some text) ∧
          FailureText (entry s.heap res) (e.strOf s.heap) (e.truthy s.heap) (e.summary s.heap) text) ∨
       (r.unreachable = true ∧ r.ignoreUnreachable = false ∧ FilterOn s py!"on_unreachable" ∧ StopReport a th.id py!"exception" py!"Host unreachable" [] (some text) ∧
          FailureText (entry s.heap res) (e.strOf s.heap) (e.truthy s.heap) (e.summary s.heap) text) ∨
       (r.skipped = true ∧ FilterOn s py!"on_skipped" ∧ StopReport a th.id py!"exception" py!"Task skipped" [] (some text) ∧
          SkipText (entry s.heap res) (e.strOf s.heap) text)) := by
  have hinv := reach_inv hr
  obtain ⟨o, hst, rfl⟩ := play_step hs
  obtain ⟨tid, w, hm, rfl⟩ := stopped_mem ha hi
  simp only [step] at hst
  split at hst
  · have ho := snd_eq hst
    have hs' := fst_eq hst
    have hheap : s'.heap = s.heap := by
      rw [hs']; exact end_heap s h t r res ⟨tid, w, by rw [← ho]; exact hm⟩
    rcases end_spec hinv h t r res with ⟨-, hn⟩ | ⟨-, e2, -⟩ | ⟨th, x, e1, e2, e3, e4, -⟩
    · rw [← ho] at hn; exact absurd ⟨w, hm⟩ (hn tid)
    · rw [ho, e2] at hm; cases hm
    · rw [ho, e3] at hm
      simp only [List.mem_singleton, Out.stopped.injEq] at hm
      obtain ⟨rfl, rfl⟩ := hm
      have hw : Waits th.id s' := .inr ⟨_, by rw [hs']; exact e4⟩
      have rep := report_exc e s'.heap (labelGet s.heap (.done h t r res)) th.id x
      rw [hheap] at rep ⊢
      cases x with
      | failed =>
        refine ⟨th, _, e1, hw, .inl ⟨?_, ?_, ?_, rep, format_text e s.heap _⟩⟩
        all_goals first | exact (why_failed e2).1 | exact (why_failed e2).2.1 | exact (why_failed e2).2.2
      | unreachable =>
        refine ⟨th, _, e1, hw, .inr (.inl ⟨?_, ?_, ?_, rep, format_text e s.heap _⟩)⟩
        all_goals first | exact (why_unreachable e2).1 | exact (why_unreachable e2).2.1 | exact (why_unreachable e2).2.2
      | skipped =>
        refine ⟨th, _, e1, hw, .inr (.inr ⟨?_, ?_, rep, skip_text e s.heap _⟩)⟩
        all_goals first | exact (why_skipped e2).1 | exact (why_skipped e2).2
  · cases hst

/-- Is the step a request? -/
def IsReq : Label → Prop
  | .req _ => True
  | _ => False

theorem exits_out {s : DS} {m : Out} (h : m ∈ (exitThreads s).2) : ∃ k, m = .exited k := by
  simp only [exitThreads, List.mem_map] at h
  obtain ⟨k, -, rfl⟩ := h
  exact ⟨k, rfl⟩

theorem crash_out {s : DS} {o : List Out} {x : PyErr} {m : Out} (h : m ∈ (crash s o x).2) : m ∈ o ∨ ∃ k, m = .exited k := by
  simp only [crash, finish, List.mem_append] at h
  exact h.imp id exits_out

theorem endAfter_out {s : DS} {tid : Nat} {i : Bool} {m : Out} (h : m ∈ (endAfter s tid i).2) : ∃ k, m = .exited k := by
  unfold endAfter at h
  (repeat' (split at h))
  · exact (crash_out h).resolve_left (by simp)
  · exact exits_out h
  · cases h
  · exact (crash_out h).resolve_left (by simp)
  · cases h

theorem refresh_out (path : Str) (fl : Bp.FileLines) : ∀ (d : Dict Nat Bp.LineBp), ∀ m ∈ (Bp.refresh path fl d).2.1, ∃ b, m = .bpChanged b
  | [], m, h => by cases h
  | (k, b) :: rest, m, h => by
    have ih := refresh_out path fl rest
    unfold Bp.refresh at h
    split at h
    · exact ih m h
    · split at h
      · cases h
      · rename_i bp _
        simp only at h
        cases hd : Bp.differs b.bp bp with
        | false => rw [hd] at h; exact ih m h
        | true =>
          rw [hd] at h
          rcases List.mem_cons.1 h with h | h
          · exact ⟨_, h⟩
          · exact ih m h

theorem reg_out (p : Str) (l : Int) (ty : Nat) (s : Bp.Dbg) (m : Bp.Out) (h : m ∈ (Bp.register p l ty s).2.1) : ∃ b, m = .bpChanged b := by
  unfold Bp.register at h
  simp only at h
  split at h
  · cases h
  · exact refresh_out _ _ _ m h

theorem play_out {s s' : DS} {l : Label} {o : List Out} (hl : ¬ IsReq l) (h : step s l = some (s', o)) (m : Out) (hm : m ∈ o) :
    (∃ k, m = .started k) ∨ (∃ k, m = .exited k) ∨ (∃ k w, m = .stopped k w) ∨ ∃ b, m = .bp (.bpChanged b) := by
  cases l with
  | req r => exact absurd trivial hl
  | env h' => simp only [step] at h; rw [snd_eq h] at hm; cases hm
  | reg p l ty =>
    simp only [step] at h
    split at h
    · rw [snd_eq h] at hm
      have key : m ∈ (bpStep s (.reg p l ty)).2 → ∃ b, m = .bp (.bpChanged b) := by
        intro hm
        simp only [bpStep, Bp.step, List.mem_map] at hm
        obtain ⟨b, hb, rfl⟩ := hm
        obtain ⟨b', hb'⟩ := reg_out p l ty s.dbg b hb
        exact ⟨b', by rw [hb']⟩
      rcases registerLine_cases s p l ty with hr | ⟨e, -, hr⟩ <;> rw [hr] at hm
      · exact .inr (.inr (.inr (key hm)))
      · rcases crash_out hm with hm | hm
        · exact .inr (.inr (.inr (key hm)))
        · exact .inr (.inl hm)
    · cases h
  | refresh =>
    simp only [step] at h
    split at h
    · rw [snd_eq h] at hm; exact .inr (.inl (exits_out hm))
    · cases h
  | newPlay =>
    simp only [step] at h
    split at h
    · rw [snd_eq h] at hm; exact .inr (.inl (exits_out hm))
    · cases h
  | wake =>
    simp only [step] at h
    (repeat' (split at h)) <;> first | cases h | (rw [snd_eq h] at hm)
    · exact .inr (.inl ((crash_out hm).resolve_left (by simp)))
    · exact .inr (.inl (exits_out hm))
    · cases hm
    · exact .inr (.inl ((crash_out hm).resolve_left (by simp)))
    · exact .inr (.inl (endAfter_out hm))
  | start host t tv ar c =>
    simp only [step] at h
    split at h
    · rw [snd_eq h, startTask_eq] at hm
      have h0 := hostThread_out s host
      split at hm
      · rcases crash_out hm with hm | hm
        · exact .inl (h0 _ hm)
        · exact .inr (.inl hm)
      · simp only [List.mem_append] at hm
        rcases hm with hm | hm
        · exact .inl (h0 _ hm)
        · unfold decideStop at hm
          (repeat' (split at hm))
          · cases hm
          · cases hm
          · exact .inr (.inr (.inl ⟨_, _, List.mem_singleton.1 hm⟩))
    · cases h
  | done host t r res =>
    simp only [step] at h
    split at h
    · rw [snd_eq h] at hm
      unfold endTask at hm
      simp only at hm
      (repeat' (split at hm))
      · exact .inr (.inl ((crash_out hm).resolve_left (by simp)))
      · exact .inr (.inl (endAfter_out hm))
      · exact .inr (.inl ((crash_out hm).resolve_left (by simp)))
      · exact .inr (.inl ((crash_out hm).resolve_left (by simp)))
      all_goals exact .inr (.inr (.inl ⟨_, _, List.mem_singleton.1 hm⟩))
    · cases h

/-- C86: whatever the playbook does, all it tells the client are thread, stopped and breakpoint events, well typed and conforming to the
schema of the protocol. -/
theorem C86_events {e : Env} {s s' : DS} {l : Label} {ms : List Dap.Val} (hl : ¬ IsReq l) (hs : play e s l = some (s', ms)) (a : Dap.Val) (ha : a ∈ ms) :
    ∃ c ∈ [Cls.ThreadEvent, .StoppedEvent, .BreakpointEvent], Instance c a ∧ Valid false (ref c) (toJson a) := by
  have conf : ∀ c ∈ [Cls.ThreadEvent, .StoppedEvent, .BreakpointEvent], Instance c a → Valid false (ref c) (toJson a) := by
    intro c hc hi
    refine Dap.Schema.instance_valid Verif.Props.DapSchema.conforming_fits ?_ hi
    revert hc
    simp only [List.mem_cons, List.not_mem_nil, or_false]
    rintro (rfl | rfl | rfl) <;> decide +kernel
  have : ∃ c ∈ [Cls.ThreadEvent, .StoppedEvent, .BreakpointEvent], Instance c a := by
    obtain ⟨o, ho, rfl⟩ := play_step hs
    obtain ⟨m, hm, rfl⟩ := List.mem_map.1 ha
    rcases play_out hl ho m hm with ⟨k, rfl⟩ | ⟨k, rfl⟩ | ⟨k, w, rfl⟩ | ⟨b, rfl⟩
    · exact ⟨_, by simp, threadEvent_typed _ _ (by simp)⟩
    · exact ⟨_, by simp, threadEvent_typed _ _ (by simp)⟩
    · exact ⟨.StoppedEvent, by simp, stopped_typed _ _ _ _ _⟩
    · exact ⟨.BreakpointEvent, by simp, bpEvent_typed _⟩
  obtain ⟨c, hc, hi⟩ := this
  exact ⟨c, hc, hi, conf c hc hi⟩

/-- C86: only a host that starts or ends a task can make the client hear of a stop. -/
theorem C86_only {e : Env} {s s' : DS} {l : Label} {ms : List Dap.Val} (hs : play e s l = some (s', ms)) (hl : ¬ IsReq l) (a : Dap.Val) (ha : a ∈ ms)
    (hi : Instance .StoppedEvent a) : (∃ h t tv ar c, l = .start h t tv ar c) ∨ ∃ h t r res, l = .done h t r res := by
  obtain ⟨o, ho, rfl⟩ := play_step hs
  obtain ⟨tid, w, hm, -⟩ := stopped_mem ha hi
  cases l with
  | start h t tv ar c => exact .inl ⟨h, t, tv, ar, c, rfl⟩
  | done h t r res => exact .inr ⟨h, t, r, res, rfl⟩
  | req r => exact absurd trivial hl
  | env h' => simp only [step] at ho; rw [snd_eq ho] at hm; cases hm
  | reg p l ty =>
    simp only [step] at ho
    split at ho
    · rw [snd_eq ho] at hm; exact absurd ⟨w, hm⟩ (registerLine_stops s p l ty tid)
    · cases ho
  | refresh =>
    simp only [step] at ho
    split at ho
    · rw [snd_eq ho] at hm; obtain ⟨k, hk⟩ := exits_out hm; cases hk
    · cases ho
  | newPlay =>
    simp only [step] at ho
    split at ho
    · rw [snd_eq ho] at hm; obtain ⟨k, hk⟩ := exits_out hm; cases hk
    · cases ho
  | wake =>
    exfalso
    simp only [step] at ho
    (repeat' (split at ho)) <;> first | cases ho | (rw [snd_eq ho] at hm)
    · obtain ⟨k, hk⟩ := (crash_out hm).resolve_left (by simp); cases hk
    · obtain ⟨k, hk⟩ := exits_out hm; cases hk
    · cases hm
    · obtain ⟨k, hk⟩ := (crash_out hm).resolve_left (by simp); cases hk
    · obtain ⟨k, hk⟩ := endAfter_out hm; cases hk

/-- A thread event: the thread started, or exited. -/
structure ThreadReport (a : Dap.Val) (reason : Str) (tid : Nat) : Prop where
  inst : Instance .ThreadEvent a
  reason : a.attr? py!"reason" = some (.str reason)
  thread : a.attr? py!"thread_id" = some (.int tid)

theorem report_thread (r : Str) (t : Nat) (h : r ∈ [py!"started", py!"exited"]) : ThreadReport (threadEvent r t) r t :=
  ⟨threadEvent_typed r t h, build_given (by decide +kernel) rfl, build_given (by decide +kernel) rfl⟩

theorem thread_mem {e : Env} {s : DS} {get : Str → Option Val} {os : List Out} {a : Dap.Val}
    (ha : a ∈ os.map (render e s .ProtocolMessage .null get)) {r : Str} {k : Nat} (hi : ThreadReport a r k) :
    (Out.started k ∈ os ∧ r = py!"started") ∨ (Out.exited k ∈ os ∧ r = py!"exited") := by
  obtain ⟨o, ho, rfl⟩ := List.mem_map.1 ha
  have eq : ∀ r' t, ThreadReport (threadEvent r' t) r k → r' ∈ [py!"started", py!"exited"] → r = r' ∧ k = t := by
    intro r' t h hr
    have h' := report_thread r' t hr
    have h1 := h.reason
    have h2 := h.thread
    rw [h'.reason] at h1
    rw [h'.thread] at h2
    cases h1
    simp only [Option.some.injEq, Dap.Val.int.injEq] at h2
    exact ⟨rfl, by omega⟩
  cases o with
  | started t =>
    obtain ⟨h1, rfl⟩ := eq _ t hi (by simp)
    exact .inl ⟨ho, h1⟩
  | exited t =>
    obtain ⟨h1, rfl⟩ := eq _ t hi (by simp)
    exact .inr ⟨ho, h1⟩
  | bp b => cases b <;> cases cls_of hi.inst rfl
  | stopped t w =>
    obtain ⟨v, e1, -⟩ := Verif.Props.Wire.inst_val hi.inst
    obtain ⟨v', e2, -⟩ := Verif.Props.Wire.inst_val (stopped_typed e s.heap get t w)
    simp only [render] at e1
    rw [e2] at e1
    injection e1 with e3 _
    cases e3
  | _ => cases cls_of hi.inst rfl

/-- C86: whatever happens in the playbook, the client is sent a thread event `started` for every thread that is new, and one with `exited` for every thread that is gone
afterwards. No event says `started` of a thread there was before, nor `exited` of one there is afterwards; a thread said to have started is there
afterwards, unless it is also said to have exited. -/
theorem C86_threads {e : Env} {s s' : DS} {l : Label} {ms : List Dap.Val} (hr : Reachable s) (hs : play e s l = some (s', ms)) (k : Nat) :
    (s.threads.get? k = none → s'.threads.get? k ≠ none → ∃ a ∈ ms, ThreadReport a py!"started" k) ∧
    (s.threads.get? k ≠ none → s'.threads.get? k = none → ∃ a ∈ ms, ThreadReport a py!"exited" k) ∧
    (∀ a ∈ ms, ThreadReport a py!"started" k → s.threads.get? k = none ∧ (s'.threads.get? k ≠ none ∨ ∃ b ∈ ms, ThreadReport b py!"exited" k)) ∧
    (∀ a ∈ ms, ThreadReport a py!"exited" k → s'.threads.get? k = none) := by
  have hi := reach_inv hr
  obtain ⟨o, ho, rfl⟩ := play_step hs
  obtain ⟨b1, b2, h1, h2, -⟩ := step_thr hi ho
  have key : ∀ (s : DS), s.threads.get? k ≠ none ↔ k ∈ s.keys := by
    intro s
    rw [DS.keys, ← DL.get_some_key]
    cases s.threads.get? k <;> simp
  have key' : ∀ (s : DS), s.threads.get? k = none ↔ k ∉ s.keys := by
    intro s; rw [← key s]; simp
  have one : 1 ∈ s.keys := by
    obtain ⟨th, h, -⟩ := hi.core.tmain
    exact DL.get_some_key.1 ⟨th, h⟩
  have fresh : s.nextT ∉ s.keys := by
    intro h
    obtain ⟨th, h⟩ := DL.get_some_key.2 h
    have := (hi.core.tid h).2
    omega
  have fresh1 : s.nextT ≠ 1 := fun h => fresh (h ▸ one)
  have ms : ∀ x, isEvent x = true → (x ∈ o ↔ x ∈ o.filter isEvent) := by intro x hx; simp [hx]
  have tell : Out.started k ∈ o → ∃ a ∈ o.map (render e s' .ProtocolMessage .null (labelGet s.heap l)), ThreadReport a py!"started" k :=
    fun h => ⟨_, List.mem_map.2 ⟨_, h, rfl⟩, report_thread _ _ (by simp)⟩
  have tell' : Out.exited k ∈ o → ∃ a ∈ o.map (render e s' .ProtocolMessage .null (labelGet s.heap l)), ThreadReport a py!"exited" k :=
    fun h => ⟨_, List.mem_map.2 ⟨_, h, rfl⟩, report_thread _ _ (by simp)⟩
  have hst : Out.started k ∈ o ↔ (b1 = true ∧ k = s.nextT) := by
    rw [ms _ rfl, h2]
    cases b1 <;> cases b2 <;> simp
  have hex : Out.exited k ∈ o ↔ (b2 = true ∧ k ≠ 1 ∧ (k ∈ s.keys ∨ (b1 = true ∧ k = s.nextT))) := by
    rw [ms _ rfl, h2]
    cases b1 <;> cases b2 <;> simp [and_comm] <;> grind
  rw [key' s, key' s', key s, key s', h1]
  refine ⟨?_, ?_, ?_, ?_⟩
  · intro g1 g2
    apply tell; rw [hst]
    cases b1 <;> cases b2 <;> simp_all
  · intro g1 g2
    apply tell'; rw [hex]
    cases b1 <;> cases b2 <;> simp_all
  · intro a ha hrep
    obtain ⟨h, -⟩ := (thread_mem ha hrep).resolve_right (fun h => absurd h.2 (by decide))
    obtain ⟨rfl, rfl⟩ := hst.1 h
    refine ⟨fresh, ?_⟩
    cases b2 with
    | false => left; simp
    | true => right; exact tell' (hex.2 ⟨rfl, fresh1, .inr ⟨rfl, rfl⟩⟩)
  · intro a ha hrep
    obtain ⟨h, -⟩ := (thread_mem ha hrep).resolve_left (fun h => absurd h.2 (by decide))
    obtain ⟨rfl, g, -⟩ := hex.1 h
    simpa using g

/-! ### Non-vacuity -/

open Verif.Props.Wire (env0 texts)

/-- Host 7 runs into the breakpoint of line 1. -/
example : (play env0 (stF {} setup) (.start 7 (tinc 50 1) 0 0 yes)).map (fun r => texts r.2) =
    some [py!"{\"seq\": 0, \"type\": \"event\", \"event\": \"thread\", \"body\": {\"reason\": \"started\", \"threadId\": 2}}",
      py!"{\"seq\": 0, \"type\": \"event\", \"event\": \"stopped\", \"body\": {\"reason\": \"breakpoint\", \"description\": \"Breakpoint hit\", \"threadId\": 2, \"preserveFocusHint\": false, \"text\": null, \"allThreadsStopped\": false, \"hitBreakpointIds\": [1]}}"] := by
  decide +kernel

example : Reachable (stF {} setup) ∧ ((play env0 (stF {} setup) (.start 7 (tinc 50 1) 0 0 yes)).map fun r => r.1.pc) = some (.waitStart 2) :=
  ⟨⟨_, _, run_of (ls := setup) (by decide +kernel)⟩, by decide +kernel⟩

/-- It is told to step over (`e3`, see C32), and reports the step at the next task. -/
example : (play env0 (stF e3 inside) (.start 7 (tk 52 2) 0 0 yes)).map (fun r => texts r.2) =
    some [py!"{\"seq\": 0, \"type\": \"event\", \"event\": \"stopped\", \"body\": {\"reason\": \"step\", \"description\": \"Step over\", \"threadId\": 2, \"preserveFocusHint\": false, \"text\": null, \"allThreadsStopped\": false, \"hitBreakpointIds\": []}}"] := by
  decide +kernel

/-- A state with the filter for failures on, in which host 7 runs a task; its result is at address 0. -/
def failing : DS := stF {} [.req (.setExc 1 [py!"on_error"]), .env [.dict true [(.str py!"msg", .atom py!"boom"), (.str py!"exception", .atom py!"Traceback")]],
  .start 7 (tk 10 1) 0 0 yes]

example : Reachable failing := ⟨_, _, run_of (by decide +kernel)⟩

/-- The task fails. -/
example : (play env0 failing (.done 7 (tk 10 1) bad 0)).map (fun r => texts r.2) =
    some [py!"{\"seq\": 0, \"type\": \"event\", \"event\": \"stopped\", \"body\": {\"reason\": \"exception\", \"description\": \"Task failed\", \"threadId\": 2, \"preserveFocusHint\": false, \"text\": \"boom\\n\\nTraceback\", \"allThreadsStopped\": false, \"hitBreakpointIds\": []}}"] := by
  decide +kernel

end Verif.Props.WireStops
