import Verif.Props.WireVars
import Verif.Props.WireStops
/-!
# Breakpoint, disconnect and terminate requests on the wire (C90)
-/

namespace Verif.Props.WireBps
open Verif Verif.Wire Verif.Strat Verif.Props.Strat Verif.Props.WireEval Verif.Props.WireVars
open Verif.Dap (Cls Instance toJson unpack)
open Verif.Dap.Schema (Valid ref Reads bodyMembers topMembers attrName)
open Verif.Props.DapSchema (Without)

/-- What a document says about an argument: a member that is there and not null. -/
def said (l : List (Str × Json)) (k : Str) : Option Json :=
  match Dict.get? l k with
  | some .null => none
  | x => x

theorem said_some {l : List (Str × Json)} {k : Str} {x : Json} (h : said l k = some x) : Dict.get? l k = some x ∧ x ≠ .null := by
  unfold said at h
  split at h
  · cases h
  · rename_i hn
    exact ⟨h, fun e => hn (by rw [h, e])⟩

theorem said_none {l : List (Str × Json)} {k : Str} {x : Json} (h : said l k = none) (hx : Dict.get? l k = some x) : x = .null := by
  unfold said at h
  rw [hx] at h
  split at h
  · rename_i e; cases e; rfl
  · cases h

/-- The attribute of an argument that the document gives. -/
theorem arg_reads {strict : Bool} {c : Cls} (hc : c.base = some .Request) {l args : List (Str × Json)} (hv : Valid strict (ref c) (.obj l))
    (ht : Without py!"__types" (.obj l)) (he : c = .SetExceptionBreakpointsRequest → Without py!"exceptionOptions" (.obj l))
    (hx : (c = .StepInRequest → Without py!"targetId" (.obj l)) ∧ c ≠ .AttachRequest ∧ c ≠ .LaunchRequest) (ha : Dict.get? l py!"arguments" = some (.obj args))
    {m : Dap.Schema.Member} (hm : m ∈ bodyMembers c) {x : Json} (hg : said args m.key = some x) {v : Dap.Val} (h : unpack (.obj l) = .ok v) :
    ∃ y, v.attr? (attrName c m.key) = some y ∧ Reads m.sch x y := by
  obtain ⟨hg, hne⟩ := said_some hg
  obtain ⟨v', h', hr⟩ := Verif.Props.DapSchema.C84_read_partial strict c hc (.obj l) hv ht he hx
  rw [h] at h'
  cases h'
  have hargs : ∃ mm ∈ topMembers c, mm.key = py!"arguments" ∧ mm.sch = .obj (.body c) := by
    have : Dap.allCls.all (fun c => c.base != some .Request || (bodyMembers c).isEmpty ||
      (topMembers c).any fun mm => mm.key == py!"arguments" && mm.sch == .obj (.body c)) = true := by decide +kernel
    have := List.all_eq_true.1 this c (Dap.mem_allCls c)
    simp only [hc, bne_self_eq_false, Bool.false_or, Bool.or_eq_true, List.isEmpty_iff, List.any_eq_true, Bool.and_eq_true, beq_iff_eq] at this
    rcases this with h | h
    · rw [h] at hm; cases hm
    · exact h
  obtain ⟨mm, hmm, hk, hsch⟩ := hargs
  cases hr with
  | obj _ _ attrs top body h1 h2 h3 h4 _ =>
    have g := h3 mm hmm args (by rw [hk]; exact ha) hsch m hm x hg hne
    have r := h4 mm hmm args (by rw [hk]; exact ha) hsch m hm x hg hne
    exact ⟨_, g, r⟩

/-- The attribute of a nested object. -/
theorem nested_reads {c : Cls} {l : List (Str × Json)} {v : Dap.Val} (hr : Reads (ref c) (.obj l) v) {m : Dap.Schema.Member} (hm : m ∈ topMembers c)
    (hb : m.sch ≠ .obj (.body c)) {x : Json} (hg : said l m.key = some x) : ∃ y, v.attr? (attrName c m.key) = some y ∧ Reads m.sch x y := by
  obtain ⟨hg, hne⟩ := said_some hg
  cases hr with
  | obj _ _ attrs top body h1 h2 h3 h4 _ => exact ⟨_, h1 m hm x hg hne hb, h2 m hm x hg hne hb⟩

/-- The attribute of a nested object for a member that is not said. -/
theorem nested_unsaid {c : Cls} {l : List (Str × Json)} {v : Dap.Val} (hr : Reads (ref c) (.obj l) v) {m : Dap.Schema.Member} (hm : m ∈ topMembers c)
    (hb : m.sch ≠ .obj (.body c)) (ho : m.required = false) (hg : said l m.key = none) : v.attr? (attrName c m.key) = some (Dap.Schema.unsaid m) := by
  cases hr with
  | obj _ _ attrs top body h1 h2 h3 h4 h5 => exact h5 m hm ho hb (fun x hx => said_none hg hx)

/-- A text of a source. -/
theorem source_text {src : List (Str × Json)} {y : Dap.Val} (hr : Reads (ref .Source) (.obj src) y) {k : Str} (hk : Dap.Schema.opt k .str ∈ topMembers .Source)
    (hu : Dap.Schema.unsaid (Dap.Schema.opt k .str) = .null) {x : Option Str} (h : said src k = x.map Json.str) : strAttr y (attrName .Source k) = x := by
  cases x with
  | none =>
    have := nested_unsaid hr hk (by simp [Dap.Schema.opt]) rfl h
    rw [hu] at this
    simp only [strAttr, show y.attr? (attrName .Source k) = some .null from this]
  | some t =>
    obtain ⟨z, hz, hrz⟩ := nested_reads hr hk (by simp [Dap.Schema.opt]) h
    cases hrz
    simp only [strAttr, show y.attr? (attrName .Source k) = some (.str t) from hz]

/-- The line of a breakpoint in a document. -/
def lineOf : Json → Option Int
  | .obj l => match Dict.get? l py!"line" with
    | some (.int n) => some n
    | _ => none
  | _ => none

theorem lines_reads : ∀ {js : List Json} {v : Dap.Val} {lines : List Int}, Reads (.arr (ref .SourceBreakpoint)) (.arr js) v → js.map lineOf = lines.map some →
    ∃ vs, v = .list vs ∧ vs.map (fun b => (intAttr b py!"line").getD 0) = lines := by
  intro js
  induction js with
  | nil =>
    intro v lines h hl
    cases lines with
    | nil => cases h with | nil => exact ⟨[], rfl, rfl⟩
    | cons n ns => cases hl
  | cons j js ih =>
    intro v lines h hl
    cases lines with
    | nil => cases hl
    | cons n ns =>
      simp only [List.map_cons, List.cons.injEq] at hl
      cases h with
      | cons _ _ w _ vs h1 h2 =>
        obtain ⟨vs', e, h3⟩ := ih h2 hl.2
        cases e
        refine ⟨_, rfl, ?_⟩
        rw [List.map_cons, h3]
        congr 1
        have hj := hl.1
        unfold lineOf at hj
        split at hj
        · split at hj
          · rename_i l n' hg
            cases hj
            obtain ⟨y, hy, hry⟩ := nested_reads h1 (m := Dap.Schema.req py!"line" .int) (by decide +kernel) (by decide) (x := .int n) (by simp only [said, Dap.Schema.req, hg])
            cases hry
            have hy : w.attr? py!"line" = some (.int n) := hy
            simp only [intAttr, hy]; rfl
          · cases hj
        · cases hj

theorem strs_reads : ∀ {js : List Json} {v : Dap.Val}, Reads (.arr .str) (.arr js) v →
    ∃ ts : List Str, js = ts.map Json.str ∧ v = .list (ts.map Dap.Val.str) := by
  intro js
  induction js with
  | nil => intro v h; cases h with | nil => exact ⟨[], rfl, rfl⟩
  | cons j js ih =>
    intro v h
    cases h with
    | cons _ _ _ _ vs h1 h2 =>
      obtain ⟨ts, e1, e2⟩ := ih h2
      cases h1 with
      | str t => cases e2; exact ⟨t :: ts, by rw [e1]; rfl, rfl⟩

/-- What an answer or event says of a breakpoint. -/
def BpShows (b : Bp.Bp) (v : Dap.Val) : Prop :=
  Instance .Breakpoint v ∧ v.attr? py!"id" = some (.int b.id) ∧ v.attr? py!"verified" = some (.bool b.verified) ∧
    v.attr? py!"message" = some (match b.message with | none => .null | some t => .str t) ∧
    v.attr? py!"line" = some (match b.line with | none => .null | some i => .int i) ∧
    v.attr? py!"end_line" = some (match b.endLine with | none => .null | some i => .int i) ∧
    ∃ src, v.attr? py!"source" = some src ∧ src.attr? py!"path" = some (match b.source.path with | none => .null | some t => .str t) ∧
      src.attr? py!"name" = some (match b.source.name with | none => .null | some t => .str t)

theorem optStr_eq (x : Option Str) : optStr x = match x with | none => .null | some t => .str t := by cases x <;> rfl
theorem optInt_eq (x : Option Int) : optInt x = match x with | none => .null | some t => .int t := by cases x <;> rfl

theorem bp_shows (b : Bp.Bp) : BpShows b (bpVal b) := by
  refine ⟨bp_typed b, build_given (by decide +kernel) rfl, build_given (by decide +kernel) rfl, ?_, ?_, ?_, _, build_given (by decide +kernel) rfl, ?_, ?_⟩
  · rw [← optStr_eq]; exact build_given (by decide +kernel) rfl
  · rw [← optInt_eq]; exact build_given (by decide +kernel) rfl
  · rw [← optInt_eq]; exact build_given (by decide +kernel) rfl
  · rw [← optStr_eq]; exact build_given (by decide +kernel) rfl
  · rw [← optStr_eq]; exact build_given (by decide +kernel) rfl

/-- C90: a setBreakpoints request whose document names a file `p` and gives breakpoints at `lines` is carried out as that: the breakpoints of `p` are
set at these lines, in this order (`sourceModified` as given, else false; without breakpoints, none at all; a source that has no path or
no name is taken as having none). What it does is said by C21 to C25. The answer
shows the breakpoints it was answered with there, one for each. -/
theorem C90_set_breakpoints_partial (strict : Bool) (e : Env) (s : DS) (l args src : List (Str × Json)) (hv : Valid strict (ref .SetBreakpointsRequest) (.obj l))
    (ht : Without py!"__types" (.obj l)) (ha : Dict.get? l py!"arguments" = some (.obj args)) (hsrc : said args py!"source" = some (.obj src))
    (p : Option Str) (hp : said src py!"path" = p.map Json.str) (name : Option Str) (hname : said src py!"name" = name.map Json.str) (lines : List Int)
    (hl : (∃ bps, said args py!"breakpoints" = some (.arr bps) ∧ bps.map lineOf = lines.map some) ∨ (said args py!"breakpoints" = none ∧ lines = []))
    (modified : Bool) (hmod : said args py!"sourceModified" = some (.bool modified) ∨ (said args py!"sourceModified" = none ∧ modified = false))
    (m : Dap.Val) (hm : unpack (.obj l) = .ok m) :
    (handle e s m).1 = (request s (.setBps 0 ⟨name, p⟩ modified lines)).1 ∧
      ∀ bs, (request s (.setBps 0 ⟨name, p⟩ modified lines)).2 = [.bp (.setBpsResp 0 bs)] →
        ∃ a vs, (handle e s m).2 = [a] ∧ a.attr? py!"breakpoints" = some (.list vs) ∧ vs.length = bs.length ∧
          ∀ (i : Nat) b, bs[i]? = some b → ∃ v, vs[i]? = some v ∧ BpShows b v := by
  have hx : (Cls.SetBreakpointsRequest = .StepInRequest → Without py!"targetId" (.obj l)) ∧ Cls.SetBreakpointsRequest ≠ .AttachRequest ∧ Cls.SetBreakpointsRequest ≠ .LaunchRequest := by simp
  have hu : ∀ k, said args k = none → Dap.Schema.Unsaid l k := by
    intro k hk l' v h1 h2
    rw [ha] at h1; cases h1
    exact said_none hk h2
  obtain ⟨y, hy, hry⟩ := arg_reads (c := .SetBreakpointsRequest) rfl hv ht (by simp) hx ha (m := Dap.Schema.req py!"source" (ref .Source)) (by decide +kernel) hsrc hm
  have hyp : strAttr y py!"path" = p := source_text hry (k := py!"path") (by decide +kernel) rfl hp
  have hyn : strAttr y py!"name" = name := source_text hry (k := py!"name") (by decide +kernel) rfl hname
  have hy : m.attr? py!"source" = some y := hy
  have hsource : sourceOf m = ⟨name, p⟩ := by simp only [sourceOf, hy, hyp, hyn]
  have hlines : linesOf m = lines := by
    rcases hl with ⟨bps, h1, h2⟩ | ⟨h1, rfl⟩
    · obtain ⟨z, hz, hrz⟩ := arg_reads (c := .SetBreakpointsRequest) rfl hv ht (by simp) hx ha (m := Dap.Schema.opt py!"breakpoints" (.arr (ref .SourceBreakpoint))) (by decide +kernel) h1 hm
      obtain ⟨vs, rfl, h3⟩ := lines_reads hrz h2
      have hz : m.attr? py!"breakpoints" = some (.list vs) := hz
      simp only [linesOf, listAttr, hz]; exact h3
    · obtain ⟨v, h2, h3⟩ := Verif.Props.DapSchema.C84_unsaid_partial strict .SetBreakpointsRequest (by decide +kernel) l hv ht (Dap.Schema.opt py!"breakpoints" (.arr (ref .SourceBreakpoint)))
        (by decide +kernel) rfl (by simp) (hu _ h1)
      rw [hm] at h2; cases h2
      have h3 : m.attr? py!"breakpoints" = some (.list []) := h3
      simp only [linesOf, listAttr, h3]; rfl
  have hmodified : boolAttr m py!"source_modified" = modified := by
    rcases hmod with h1 | ⟨h1, rfl⟩
    · obtain ⟨z, hz, hrz⟩ := arg_reads (c := .SetBreakpointsRequest) rfl hv ht (by simp) hx ha (m := Dap.Schema.opt py!"sourceModified" .bool) (by decide +kernel) h1 hm
      cases hrz
      have hz : m.attr? py!"source_modified" = some (.bool modified) := hz
      simp only [boolAttr, hz]
    · obtain ⟨v, h2, h3⟩ := Verif.Props.DapSchema.C84_unsaid_partial strict .SetBreakpointsRequest (by decide +kernel) l hv ht (Dap.Schema.opt py!"sourceModified" .bool)
        (by decide +kernel) rfl (by simp) (hu _ h1)
      rw [hm] at h2; cases h2
      have h3 : m.attr? py!"source_modified" = some (.bool false) := h3
      simp only [boolAttr, h3]
  obtain ⟨attrs, rfl⟩ := Verif.Props.Wire.unpack_cls (c := .SetBreakpointsRequest) rfl hv (by simp) (by simp) hm
  have hcall : callOf e s .SetBreakpointsRequest (.obj .SetBreakpointsRequest attrs) = .req (.setBps 0 ⟨name, p⟩ modified lines) := by
    simp only [callOf, hsource, hlines, hmodified]
  refine ⟨by simp only [handle, hcall], ?_⟩
  · intro bs hbs
    refine ⟨respond .SetBreakpointsResponse (.obj .SetBreakpointsRequest attrs) [(py!"breakpoints", .list (bs.map bpVal))], bs.map bpVal, ?_, build_given (by decide +kernel) rfl, by simp, ?_⟩
    · simp only [handle, hcall, hbs, List.map_cons, List.map_nil, render]
    · intro i b hb
      exact ⟨bpVal b, by rw [List.getElem?_map, hb]; rfl, bp_shows b⟩

/-- The full C90 fails: a setExceptionBreakpoints request with exception options without a path conforms to the schema but cannot be read, so that no filter is ever turned on by it. -/
theorem C90_refuted : ∃ j, Valid true (ref .SetExceptionBreakpointsRequest) j ∧ ∀ m, unpack j ≠ .ok m := by
  refine ⟨Verif.Props.DapSchema.exceptionsDoc, Verif.Props.DapSchema.C84_exception_options_refuted.1, fun m h => ?_⟩
  rw [Verif.Props.DapSchema.C84_exception_options_refuted.2] at h
  cases h

/-- C90: a setExceptionBreakpoints request turns on exactly the filters of its document; all others are off. -/
theorem C90_set_exceptions_partial (strict : Bool) (e : Env) (s : DS) (l args : List (Str × Json)) (hv : Valid strict (ref .SetExceptionBreakpointsRequest) (.obj l))
    (ht : Without py!"__types" (.obj l)) (he : Without py!"exceptionOptions" (.obj l)) (ha : Dict.get? l py!"arguments" = some (.obj args))
    (filters : List Str) (hf : said args py!"filters" = some (.arr (filters.map Json.str))) (m : Dap.Val) (hm : unpack (.obj l) = .ok m) :
    (∀ f, Bp.shouldStop (handle e s m).1.dbg f = decide (f ∈ filters)) ∧ (handle e s m).1 = { s with dbg := { s.dbg with exc := (handle e s m).1.dbg.exc } } ∧
      ∃ a, (handle e s m).2 = [a] ∧ Instance .SetExceptionBreakpointsResponse a := by
  have hx : (Cls.SetExceptionBreakpointsRequest = .StepInRequest → Without py!"targetId" (.obj l)) ∧ Cls.SetExceptionBreakpointsRequest ≠ .AttachRequest ∧ Cls.SetExceptionBreakpointsRequest ≠ .LaunchRequest := by simp
  obtain ⟨y, hy, hry⟩ := arg_reads (c := .SetExceptionBreakpointsRequest) rfl hv ht (fun _ => he) hx ha (m := Dap.Schema.req py!"filters" (.arr .str)) (by decide +kernel) hf hm
  obtain ⟨ts, h1, rfl⟩ := strs_reads hry
  have hts : filters = ts := by
    have : ∀ a b : List Str, a.map Json.str = b.map Json.str → a = b := by
      intro a
      induction a with
      | nil => intro b h; cases b with | nil => rfl | cons _ _ => cases h
      | cons x xs ih =>
        intro b h
        cases b with
        | nil => cases h
        | cons y ys =>
          simp only [List.map_cons, List.cons.injEq, Json.str.injEq] at h
          rw [h.1, ih ys h.2]
    exact this _ _ h1
  subst hts
  have hy : m.attr? py!"filters" = some (.list (filters.map Dap.Val.str)) := hy
  obtain ⟨attrs, rfl⟩ := Verif.Props.Wire.unpack_cls (c := .SetExceptionBreakpointsRequest) rfl hv (by simp) (by simp) hm
  have hfs : filtersOf (.obj .SetExceptionBreakpointsRequest attrs) = filters := by
    simp only [filtersOf, listAttr, hy]
    have : ∀ xs : List Str, (xs.map Dap.Val.str).filterMap (fun x => match x with | Dap.Val.str s => some s | _ => none) = xs := by
      intro xs
      induction xs with
      | nil => rfl
      | cons x xs ih => simp only [List.map_cons, List.filterMap_cons, ih]
    exact this filters
  have hcall : callOf e s .SetExceptionBreakpointsRequest (.obj .SetExceptionBreakpointsRequest attrs) = .req (.setExc 0 filters) := by
    simp only [callOf, hfs]
  have hh : handle e s (.obj .SetExceptionBreakpointsRequest attrs) = ({ s with dbg := { s.dbg with exc := filters.foldl (fun d f => d.set f true) [] } },
      [respond .SetExceptionBreakpointsResponse (.obj .SetExceptionBreakpointsRequest attrs) []]) := by
    simp only [handle, hcall, request, bpStep, Bp.step, Bp.setExceptions, List.map_cons, List.map_nil, render]
  rw [hh]
  refine ⟨?_, rfl, _, rfl, ?_⟩
  · intro f
    have key : ∀ (fs : List Str) (d : Dict Str Bool), ((fs.foldl (fun d f => d.set f true) d).get? f).getD false = (decide (f ∈ fs) || (d.get? f).getD false) := by
      intro fs
      induction fs with
      | nil => intro d; simp
      | cons x xs ih =>
        intro d
        rw [List.foldl_cons, ih, DL.get_set]
        by_cases hx : f = x
        · subst hx; simp
        · rw [if_neg (by first | exact hx | exact fun h => hx h.symm)]
          simp [hx]
    have := key filters []
    simp only [Bp.shouldStop, this]
    simp [Dict.get?]
  · exact respond_instance _ _ _ (by decide +kernel) (show restOk .SetExceptionBreakpointsResponse [py!"request_seq"] = true by decide +kernel) rfl tnil

/-- C90: a disconnect request is a disconnect that ends the playbook if its document gives `terminateDebuggee` as true, and one that lets it go on if it is false
or not given (C38, C39 say what that means). The debuggee does not answer it. -/
theorem C90_disconnect_partial (strict : Bool) (e : Env) (s : DS) (l : List (Str × Json)) (hv : Valid strict (ref .DisconnectRequest) (.obj l))
    (ht : Without py!"__types" (.obj l)) (b : Bool)
    (hb : (∃ args, Dict.get? l py!"arguments" = some (.obj args) ∧ said args py!"terminateDebuggee" = some (.bool b)) ∨
      (Dap.Schema.Unsaid l py!"terminateDebuggee" ∧ b = false)) (m : Dap.Val) (hm : unpack (.obj l) = .ok m) :
    handle e s m = ((request s (.disconnect b)).1, []) := by
  have hx : (Cls.DisconnectRequest = .StepInRequest → Without py!"targetId" (.obj l)) ∧ Cls.DisconnectRequest ≠ .AttachRequest ∧ Cls.DisconnectRequest ≠ .LaunchRequest := by simp
  have hbool : boolAttr m py!"terminate_debuggee" = b := by
    rcases hb with ⟨args, ha, h1⟩ | ⟨h1, rfl⟩
    · obtain ⟨z, hz, hrz⟩ := arg_reads (c := .DisconnectRequest) rfl hv ht (by simp) hx ha (m := Dap.Schema.opt py!"terminateDebuggee" .bool) (by decide +kernel) h1 hm
      cases hrz
      have hz : m.attr? py!"terminate_debuggee" = some (.bool b) := hz
      simp only [boolAttr, hz]
    · obtain ⟨v, h2, h3⟩ := Verif.Props.DapSchema.C84_unsaid_partial strict .DisconnectRequest (by decide +kernel) l hv ht (Dap.Schema.opt py!"terminateDebuggee" .bool)
        (by decide +kernel) rfl (by simp) h1
      rw [hm] at h2; cases h2
      have h3 : m.attr? py!"terminate_debuggee" = some .null := h3
      simp only [boolAttr, h3]
  obtain ⟨attrs, rfl⟩ := Verif.Props.Wire.unpack_cls (c := .DisconnectRequest) rfl hv (by simp) (by simp) hm
  simp only [handle, callOf, hbool]
  rfl

/-- C90: a terminate request ends the playbook (C38), a configurationDone request changes nothing in the session; both get their response. -/
theorem C90_terminate_partial (e : Env) (s : DS) :
    (∀ m, Instance .TerminateRequest m → (handle e s m).1 = (request s .terminate).1 ∧ ∃ a, (handle e s m).2 = [a] ∧ Instance .TerminateResponse a) ∧
    (∀ m, Instance .ConfigurationDoneRequest m → (handle e s m).1 = s ∧ ∃ a, (handle e s m).2 = [a] ∧ Instance .ConfigurationDoneResponse a) := by
  constructor
  · intro m hm
    obtain ⟨attrs, rfl⟩ := inst_obj hm
    exact ⟨rfl, _, rfl, respond_instance .TerminateResponse _ _ (by decide +kernel) (show restOk .TerminateResponse [py!"request_seq"] = true by decide +kernel) rfl tnil⟩
  · intro m hm
    obtain ⟨attrs, rfl⟩ := inst_obj hm
    exact ⟨rfl, _, rfl, respond_instance .ConfigurationDoneResponse _ _ (by decide +kernel) (show restOk .ConfigurationDoneResponse [py!"request_seq"] = true by decide +kernel) rfl tnil⟩

/-- C90: when Ansible loads a block or task and breakpoints move because of it (C22, C23), the client is sent a breakpoint event with reason `changed` for each of them, in their order;
and nothing else, unless the registration raises (C103), when thread events follow. -/
theorem C90_changed_partial (e : Env) (s s' : DS) (p : Str) (line : Int) (ty : Nat) (ms : List Dap.Val) (h : play e s (.reg p line ty) = some (s', ms)) :
    s'.dbg = (Bp.step s.dbg (.reg p line ty)).1 ∧ ((Bp.register p line ty s.dbg).2.2 = none → ms.length = (Bp.step s.dbg (.reg p line ty)).2.length) ∧
    (∀ a ∈ ms.drop (Bp.step s.dbg (.reg p line ty)).2.length, Instance .ThreadEvent a) ∧
    ∀ (i : Nat) b, (Bp.step s.dbg (.reg p line ty)).2[i]? = some (.bpChanged b) →
      ∃ a v, ms[i]? = some a ∧ Instance .BreakpointEvent a ∧ a.attr? py!"reason" = some (.str py!"changed") ∧ a.attr? py!"breakpoint" = some v ∧ BpShows b v := by
  obtain ⟨o, h1, h2⟩ := Verif.Props.WireStops.play_step h
  simp only [step] at h1
  split at h1
  · have e1 := fst_eq h1
    have e2 := snd_eq h1
    have key : ∃ x, o = (bpStep s (.reg p line ty)).2 ++ x ∧ ((Bp.register p line ty s.dbg).2.2 = none → x = []) ∧ (∀ m ∈ x, ∃ k, m = .exited k) ∧
        s'.dbg = (Bp.step s.dbg (.reg p line ty)).1 := by
      rcases registerLine_cases s p line ty with hr | ⟨e, he, hr⟩
      · exact ⟨[], by rw [e2, hr]; simp, fun _ => rfl, (fun m hm => by cases hm), by rw [e1, hr]; rfl⟩
      · refine ⟨(exitThreads (bpStep s (.reg p line ty)).1).2, by rw [e2, hr]; rfl, fun hn => ?_, fun m hm => Verif.Props.WireStops.exits_out hm, by rw [e1, hr]; rfl⟩
        rw [he] at hn; cases hn
    obtain ⟨x, k1, k2, k3, k4⟩ := key
    have hlen : (bpStep s (.reg p line ty)).2.length = (Bp.step s.dbg (.reg p line ty)).2.length := by simp [bpStep]
    refine ⟨k4, fun hn => by rw [h2, k1, k2 hn]; simp [bpStep], ?_, ?_⟩
    · intro a ha
      rw [h2, k1, ← hlen, List.map_append, ← List.length_map (as := (bpStep s (.reg p line ty)).2) (f := render e s' Cls.ProtocolMessage Dap.Val.null (labelGet s.heap (Label.reg p line ty))), List.drop_left] at ha
      obtain ⟨m, hm, rfl⟩ := List.mem_map.1 ha
      obtain ⟨k, rfl⟩ := k3 m hm
      exact threadEvent_typed _ _ (by simp)
    intro i b hb
    have : o[i]? = some (.bp (.bpChanged b)) := by
      have hb' : (bpStep s (.reg p line ty)).2[i]? = some (.bp (.bpChanged b)) := by simp only [bpStep, List.getElem?_map, hb, Option.map_some]
      have hlt : i < (bpStep s (.reg p line ty)).2.length := by
        rcases Nat.lt_or_ge i (bpStep s (.reg p line ty)).2.length with h | h
        · exact h
        · rw [List.getElem?_eq_none h] at hb'; cases hb'
      rw [k1, List.getElem?_append_left hlt]; exact hb'
    refine ⟨build .BreakpointEvent [(py!"reason", .str py!"changed"), (py!"breakpoint", bpVal b)], bpVal b, ?_, ?_, build_given (by decide +kernel) rfl, build_given (by decide +kernel) rfl, bp_shows b⟩
    · rw [h2, List.getElem?_map, this]; rfl
    · exact bpEvent_typed b
  · cases h1

/-! ### Non-vacuity -/

open Verif.Props.Wire (env0 texts)
open Verif.Props.DapSchema (breakpointsDoc)

/-- A setBreakpoints request with two breakpoints, handled before the file is loaded. -/
example : (unpack breakpointsDoc).toOption.map (fun m => (handle env0 {} m).2.map fun a => match a.attr? py!"breakpoints" with | some (.list l) => l.map (intAttr · py!"line") | _ => []) =
    some [[some 3, some 9]] := by decide +kernel

def excDoc : List (Str × Json) := [(py!"seq", .int 7), (py!"type", .str py!"request"), (py!"command", .str py!"setExceptionBreakpoints"),
  (py!"arguments", .obj [(py!"filters", .arr [.str py!"on_error"])])]

example : Valid true (ref .SetExceptionBreakpointsRequest) (.obj excDoc) ∧ Without py!"__types" (.obj excDoc) ∧ Without py!"exceptionOptions" (.obj excDoc) ∧
    ((unpack (.obj excDoc)).toOption.map fun m => Bp.shouldStop (handle env0 {} m).1.dbg py!"on_error") = some true :=
  ⟨Dap.Schema.validB_ok 6 _ _ (by decide +kernel), by unfold Without; decide +kernel, by unfold Without; decide +kernel, by decide +kernel⟩

def discDoc (b : Bool) : List (Str × Json) := [(py!"seq", .int 7), (py!"type", .str py!"request"), (py!"command", .str py!"disconnect"),
  (py!"arguments", .obj [(py!"terminateDebuggee", .bool b)])]

example : Valid true (ref .DisconnectRequest) (.obj (discDoc true)) ∧ Without py!"__types" (.obj (discDoc true)) ∧ said [(py!"terminateDebuggee", Json.bool true)] py!"terminateDebuggee" = some (.bool true) :=
  ⟨Dap.Schema.validB_ok 6 _ _ (by decide +kernel), by unfold Without; decide +kernel, rfl⟩

/-- Loading a task moves a breakpoint of line 7, set before, to line 6. -/
example : ((Bp.step (Bp.run {} [.setBps 0 ⟨none, some py!"/a"⟩ false [7]]).1 (.reg py!"/a" 6 1)).2.map fun | .bpChanged b => b.line | _ => none) = [some 6] := by decide +kernel

end Verif.Props.WireBps
