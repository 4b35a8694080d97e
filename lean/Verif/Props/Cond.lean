import Verif.Props.StratCond
import Verif.Props.WireBps
import Verif.Bp.CondLemmas
import Verif.Strat.Role
/-!
# Conditions belong to their breakpoints (C102)

`Bp.Cond` is the model of the kept breakpoints with the conditions of the client's `setBreakpoints` requests. Without the
conditions it is the model used everywhere else (`Bp.Cond.eraseRun`).
-/

namespace Verif.Props.Cond
open Verif
open Verif.Bp (Source LineBp)
open Verif.Bp.Cond (SrcBp St Act run step)

/-- The condition of the breakpoint does not keep it from stopping: it has none, an empty one, or one that evaluates to true. -/
def Passes (eval : Str → Option Bool) (c : Option Str) : Prop := ∀ t, c = some t → t ≠ [] → eval t = some true

theorem holds_iff (eval : Str → Option Bool) (c : Option Str) : Bp.Cond.holds eval c = true ↔ Passes eval c := by
  unfold Bp.Cond.holds Passes
  split
  · exact ⟨(fun _ t h => by cases h), fun _ => rfl⟩
  · exact ⟨(fun _ t h hn => by cases h; exact absurd rfl hn), fun _ => rfl⟩
  · rename_i t hne
    constructor
    · intro h t' ht _
      cases ht
      cases he : eval t with
      | none => rw [he] at h; cases h
      | some b => rw [he] at h; simpa using h
    · intro h
      rw [h t rfl (fun e => hne (by rw [e]))]
      rfl

/-- **C102**: the client sets breakpoints at any point of any history and is answered with numbers. As long as a breakpoint of one of these numbers
is kept, whatever happens, its condition, line and source are those of the entry at that place of the request. -/
theorem C102_belongs (pre post : List Act) (seq : Nat) (src : Source) (m : Bool) (es : List SrcBp) (bs : List Bp.Bp)
    (ha : (step (run {} pre).1 (.setBps seq src m es)).2 = [.setBpsResp seq bs]) (i : Nat) (e : SrcBp) (b : Bp.Bp) (he : es[i]? = some e) (hb : bs[i]? = some b)
    (k : LineBp) (c : Option Str) (hk : (b.id, k, c) ∈ (run {} (pre ++ .setBps seq src m es :: post)).1.bps) :
    c = e.condition ∧ k.reqLine = e.line ∧ k.source = src ∧ m = false := by
  rw [Bp.Cond.run_append] at hk
  have h0 : (run (run {} pre).1 (.setBps seq src m es :: post)).1 = (run (step (run {} pre).1 (.setBps seq src m es)).1 post).1 := rfl
  simp only [h0] at hk
  obtain ⟨h1, h2⟩ := Bp.Cond.step_spec (run {} pre).1 (.setBps seq src m es)
  obtain ⟨-, -, h3, -⟩ := Bp.Cond.addBps_spec src m (Bp.toActual (run {} pre).1.mappings (src.path.getD []))
    ((run {} pre).1.info.get? (Bp.toActual (run {} pre).1.mappings (src.path.getD []))) es (run {} pre).1.counter
    ((run {} pre).1.bps.filter fun e => decide (e.2.1.sourcePath ≠ src.path.getD [])) _ rfl
  simp only [step, Bp.Cond.setBreakpoints] at ha
  split at ha
  · simp only [List.cons.injEq, Bp.Out.setBpsResp.injEq, true_and, and_true] at ha
    rw [ha] at h3
    obtain ⟨g1, g2, -, -⟩ := h3 i b hb
    rcases (Bp.Cond.run_spec post _).2 _ _ hk with ⟨y, hy, hs⟩ | hlt
    · rcases h2 _ _ hy with ⟨z, hz, -⟩ | ⟨seq', src', es', i', e', heq, q1, q2, -, q4⟩
      · have := (Bp.Cond.run_keys pre _ _ hz).1
        omega
      · cases heq
        have : i' = i := by omega
        subst this
        rw [he] at q1; cases q1
        obtain ⟨r1, -, r3, r4, -⟩ := Bp.Cond.made_same q4 hs
        exact ⟨r1, r4, r3, rfl⟩
    · have : (step (run {} pre).1 (.setBps seq src m es)).1.counter ≤ b.id := hlt
      have g2 : (run {} pre).1.counter + i < (step (run {} pre).1 (.setBps seq src m es)).1.counter := g2
      omega
  · cases ha

/-- **C102**: every kept breakpoint was asked for: it has the condition, line and source of an entry of a request of the history, on an unmodified source, and
its number is the one that entry was given. -/
theorem C102_asked (as : List Act) (n : Nat) (k : LineBp) (c : Option Str) (h : (n, k, c) ∈ (run {} as).1.bps) :
    ∃ pre seq src es i e post, as = pre ++ .setBps seq src false es :: post ∧ es[i]? = some e ∧ n = (run {} pre).1.counter + i ∧
      c = e.condition ∧ k.reqLine = e.line ∧ k.source = src := by
  obtain ⟨-, pre, seq, src, es, i, e, post, h1, h2, h3, h4, -, h5, h6, -⟩ := Bp.Cond.run_keys as n (k, c) h
  exact ⟨pre, seq, src, es, i, e, post, h1, h2, h3, h4, h6, h5⟩

/-- The outcomes of the conditions of the kept breakpoints, by number. -/
def Outcomes (s : St) (eval : Str → Option Bool) (cond : Nat → Bool) : Prop := ∀ n k c, (n, k, c) ∈ s.bps → cond n = Bp.Cond.holds eval c

open Verif.Strat Verif.Props.Strat in
/-- The breakpoints of a debug session, with the conditions. -/
theorem session_bps {ls : List Label} {s : DS} {os : List Out} (hr : Run {} ls s os) (as : List Act) (has : bpActs ls = as.map Act.erase) :
    s.dbg = Bp.Cond.erase (run {} as).1 := by
  have := dbg_run inv_init hr
  rw [this, has]
  have h := Bp.Cond.eraseRun as {}
  have e : Bp.Cond.erase {} = (({} : DS)).dbg := rfl
  rw [← e, h]

open Verif.Strat Verif.Props.Strat in
/-- **C102**: a freely running host that stops at a task stops for a breakpoint that the client asked for with a condition that holds for that task (or with
none): the number in the event is the one that entry was answered with. -/
theorem C102_stops_for {ls : List Label} {s s' : DS} {os : List Out} (hr : Run {} ls s os) (as : List Act) (has : bpActs ls = as.map Act.erase)
    (eval : Str → Option Bool) (cond : Nat → Bool) (hc : Outcomes (run {} as).1 eval cond)
    {h tid : Nat} {t : Task} {tv ar : Addr} {o : List Out} (hA : FreeHost h tid s o) (ht : ¬ Failed s') (hs : Strat.step s (.start h t tv ar cond) = some (s', o))
    (w : Verif.Strat.Stop) (hw : Out.stopped tid w ∈ o) :
    ∃ pre seq src es i e post, as = pre ++ .setBps seq src false es :: post ∧ es[i]? = some e ∧ w = .brk (.bp ((run {} pre).1.counter + i)) ∧ Passes eval e.condition := by
  obtain ⟨b, ⟨k, hk⟩, -, hb, rfl⟩ := C72_stop_has_true_condition_partial hA ht hs w hw
  rw [session_bps hr as has] at hk
  obtain ⟨⟨k', b', c⟩, hm, heq⟩ := List.mem_map.1 hk
  simp only [Prod.mk.injEq] at heq
  obtain ⟨rfl, rfl⟩ := heq
  obtain ⟨-, pre, seq, src, es, i, e, post, h1, h2, h3, h4, h5, -⟩ := Bp.Cond.run_keys as k' (b', c) hm
  simp only at h4 h5
  refine ⟨pre, seq, src, es, i, e, post, h1, h2, by rw [← h3, h5], ?_⟩
  rw [← h4, ← holds_iff, ← hc _ _ _ hm, ← h5]
  exact hb

open Verif.Strat Verif.Props.Strat in
/-- **C102**: a freely running host that comes to a task with a kept breakpoint on its line stops there if the condition the client gave holds, or if it gave none, for each of
the kept breakpoints of that line. -/
theorem C102_stops {ls : List Label} {s s' : DS} {os : List Out} (hr : Run {} ls s os) (as : List Act) (has : bpActs ls = as.map Act.erase)
    (eval : Str → Option Bool) (cond : Nat → Bool) (hc : Outcomes (run {} as).1 eval cond)
    {h tid : Nat} {t : Task} {tv ar : Addr} {o : List Out} (hA : FreeHost h tid s o) (ht : ¬ Failed s') (hs : Strat.step s (.start h t tv ar cond) = some (s', o))
    (n : Nat) (b : LineBp) (c : Option Str) (hb : (n, b, c) ∈ (run {} as).1.bps) (hcov : Covers b t)
    (hall : ∀ n' b' c', (n', b', c') ∈ (run {} as).1.bps → Covers b' t → Passes eval c') :
    ∃ w, Out.stopped tid w ∈ o := by
  have he := session_bps hr as has
  have kept : ∀ b', Kept s b' → ∃ n' c', (n', b', c') ∈ (run {} as).1.bps := by
    rintro b' ⟨k, hk⟩
    rw [he] at hk
    obtain ⟨⟨k', b', c'⟩, hm, heq⟩ := List.mem_map.1 hk
    simp only [Prod.mk.injEq] at heq
    obtain ⟨rfl, rfl⟩ := heq
    exact ⟨k', c', hm⟩
  obtain ⟨b', -, -, hw⟩ := C72_stops_partial hA ht hs b ⟨n, by rw [he]; exact List.mem_map.2 ⟨(n, b, c), hb, rfl⟩⟩ hcov (by
    intro b' hk' hcov'
    obtain ⟨n', c', hm⟩ := kept b' hk'
    have hid := (Bp.Cond.run_keys as n' (b', c') hm).2
    obtain ⟨pre, seq, src, es, i, e, post, h1, h2, h3, -, h5, -⟩ := hid
    simp only at h5
    rw [h5, hc _ _ _ hm, holds_iff]
    exact hall n' b' c' hm hcov')
  exact ⟨_, hw⟩

/-- The breakpoint that counts at a line is the first kept one that covers it, if its condition passes. -/
theorem C102_counts (s : St) (path : Str) (line : Int) (eval : Str → Option Bool) (b : LineBp) :
    Bp.Cond.breakpointFor s path line eval = some b ↔ ∃ c, (s.bps.map (·.2)).find? (fun x => Bp.covers path line x.1) = some (b, c) ∧ Passes eval c := by
  unfold Bp.Cond.breakpointFor
  cases (s.bps.map (·.2)).find? (fun x => Bp.covers path line x.1) with
  | none => simp
  | some x =>
    obtain ⟨b', c⟩ := x
    simp only [Option.some.injEq, Prod.mk.injEq]
    constructor
    · intro h
      split at h
      · rename_i hh
        cases h
        exact ⟨c, ⟨rfl, rfl⟩, (holds_iff eval c).1 hh⟩
      · cases h
    · rintro ⟨c', ⟨rfl, rfl⟩, hp⟩
      rw [if_pos ((holds_iff eval c).2 hp)]

/-! ### On documents -/

/-- `msg.breakpoints` (_debuggee.py:691): the entries of a request object, as the debuggee reads them. -/
def entriesOf (m : Dap.Val) : List SrcBp :=
  (Wire.listAttr m py!"breakpoints").map fun b => ⟨(Wire.intAttr b py!"line").getD 0, Wire.strAttr b py!"condition"⟩

open Verif.Props.WireBps in
/-- What the document of a breakpoint says: its line, and its condition if there is one that is not null. -/
def Says (j : Json) (e : SrcBp) : Prop := ∃ l, j = .obj l ∧ Dict.get? l py!"line" = some (.int e.line) ∧ said l py!"condition" = e.condition.map Json.str

/-- The documents say the entries, in order. -/
def SaysAll : List Json → List SrcBp → Prop
  | [], [] => True
  | j :: js, e :: es => Says j e ∧ SaysAll js es
  | _, _ => False

open Verif.Props.WireBps Verif.Dap.Schema in
theorem entries_reads : ∀ {js : List Json} {v : Dap.Val} {es : List SrcBp}, Reads (.arr (ref .SourceBreakpoint)) (.arr js) v → SaysAll js es →
    ∃ vs, v = .list vs ∧ vs.map (fun b => SrcBp.mk ((Wire.intAttr b py!"line").getD 0) (Wire.strAttr b py!"condition")) = es := by
  intro js
  induction js with
  | nil =>
    intro v es h hl
    cases es with
    | nil => cases h with | nil => exact ⟨[], rfl, rfl⟩
    | cons n ns => cases hl
  | cons j js ih =>
    intro v es h hl
    cases es with
    | nil => cases hl
    | cons e es =>
      obtain ⟨⟨l, rfl, h1, h2⟩, hl⟩ := hl
      cases h with
      | cons _ _ w _ vs hw hvs =>
        obtain ⟨vs', eq, h3⟩ := ih hvs hl
        cases eq
        refine ⟨_, rfl, ?_⟩
        rw [List.map_cons, h3]
        congr 1
        obtain ⟨y, hy, hry⟩ := nested_reads hw (m := req py!"line" .int) (by decide +kernel) (by decide) (x := .int e.line) (by simp only [said, req, h1])
        cases hry
        have hy : w.attr? py!"line" = some (.int e.line) := hy
        have hc : Wire.strAttr w py!"condition" = e.condition := by
          cases hcc : e.condition with
          | none =>
            rw [hcc] at h2
            have := nested_unsaid hw (m := opt py!"condition" .str) (by decide +kernel) (by decide) rfl h2
            simp only [Wire.strAttr, show w.attr? py!"condition" = some .null from this]
          | some t =>
            rw [hcc] at h2
            obtain ⟨z, hz, hrz⟩ := nested_reads hw (m := opt py!"condition" .str) (by decide +kernel) (by decide) (x := .str t) h2
            cases hrz
            simp only [Wire.strAttr, show w.attr? py!"condition" = some (.str t) from hz]
        simp only [Wire.intAttr, hy, hc, Option.getD_some]

open Verif.Props.WireBps Verif.Dap.Schema Verif.Props.DapSchema in
/-- **C102** on documents: the entries the debuggee reads from a conforming setBreakpoints document are those the document says, each with its line and its condition; a null condition is
none. -/
theorem C102_document (strict : Bool) (l args : List (Str × Json)) (hv : Valid strict (ref .SetBreakpointsRequest) (.obj l)) (ht : Without py!"__types" (.obj l))
    (ha : Dict.get? l py!"arguments" = some (.obj args)) (js : List Json) (hb : said args py!"breakpoints" = some (.arr js)) (es : List SrcBp) (he : SaysAll js es)
    (m : Dap.Val) (hm : Dap.unpack (.obj l) = .ok m) : entriesOf m = es := by
  obtain ⟨z, hz, hrz⟩ := arg_reads (c := .SetBreakpointsRequest) rfl hv ht (by simp) (by simp) ha (m := opt py!"breakpoints" (.arr (ref .SourceBreakpoint)))
    (by decide +kernel) hb hm
  obtain ⟨vs, rfl, h3⟩ := entries_reads hrz he
  have hz : m.attr? py!"breakpoints" = some (.list vs) := hz
  simp only [entriesOf, Wire.listAttr, hz]
  exact h3

/-- The lines the debuggee reads are those of the entries. -/
theorem entries_lines (m : Dap.Val) : Wire.linesOf m = (entriesOf m).map (·.line) := by
  simp only [Wire.linesOf, entriesOf, List.map_map]; rfl

/-! ### Examples -/

/-- Two breakpoints on a file, the second with a condition; the file is loaded later. -/
def hist : List Act := [.setBps 1 ⟨none, some py!"/a"⟩ false [⟨3, none⟩, ⟨7, some py!"x"⟩], .reg py!"/a" 2 1, .reg py!"/a" 6 1]

example : ((run {} hist).1.bps.map fun e => (e.1, e.2.1.reqLine, e.2.1.bp.line, e.2.2)) = [(1, 3, some 2, none), (2, 7, some 6, some py!"x")] := by decide +kernel

/-- The condition decides; one that cannot be evaluated does not hold. -/
example : (Bp.Cond.breakpointFor (run {} hist).1 py!"/a" 6 fun _ => some true).map (·.id) = some 2 ∧
    Bp.Cond.breakpointFor (run {} hist).1 py!"/a" 6 (fun _ => some false) = none ∧ Bp.Cond.breakpointFor (run {} hist).1 py!"/a" 6 (fun _ => none) = none ∧
    (Bp.Cond.breakpointFor (run {} hist).1 py!"/a" 2 fun _ => none).map (·.id) = some 1 := by decide +kernel

/-- Setting the breakpoints of the file again replaces the conditions, under new numbers. -/
example : ((run {} (hist ++ [.setBps 2 ⟨none, some py!"/a"⟩ false [⟨7, some py!"y"⟩]])).1.bps.map fun e => (e.1, e.2.2)) = [(3, some py!"y")] := by decide +kernel

example : entriesOf ((Dap.unpack DapSchema.breakpointsDoc).toOption.getD .null) = [⟨3, some py!"x"⟩, ⟨9, none⟩] := by decide +kernel

open Verif.Strat Verif.Props.Strat in
/-- The two theorems apply: a host new to the session stops at the breakpoint with the condition. -/
example : ∃ (ls : List Label) (as : List Act) (cond : Nat → Bool), bpActs ls = as.map Act.erase ∧ Outcomes (run {} as).1 (fun _ => some true) cond ∧
    Out.stopped 2 (.brk (.bp 1)) ∈ ouF (stF {} ls) [.start 7 (tk 10 2) 0 0 cond] := by
  refine ⟨[.reg py!"a.yml" 2 1, .req (.setBps 1 ⟨none, some py!"a.yml"⟩ false [2])], [.reg py!"a.yml" 2 1, .setBps 1 ⟨none, some py!"a.yml"⟩ false [⟨2, some py!"x"⟩]],
    fun _ => true, rfl, ?_, by decide +kernel⟩
  intro n k c hm
  obtain ⟨pre, seq, src, es, i, e, post, h1, h2, -, rfl, -⟩ := C102_asked _ n k c hm
  symm
  rw [holds_iff]
  intro t _ _
  rfl

end Verif.Props.Cond
