import Verif.Props.Launch
/-!
# C70: what the options of the command line mean

A command line is the action, a list of options (`Given`), the playbook and its arguments.
-/

namespace Verif.Props.Launch
open Verif Verif.Launch

/-- An option as the user writes it: a switch, or a name with a value, as two words or as one with `=`. -/
inductive Given where
  | switch (name : Str)
  | value (name v : Str) (oneWord : Bool)
deriving DecidableEq

/-- The words of an option. -/
def Given.words : Given → List Str
  | .switch n => [n]
  | .value n v true => [n ++ 61 :: v]
  | .value n v false => [n, v]

/-- The value given for a name, if any: the last one counts. -/
def lastValue (gs : List Given) (name : Str) : Option Str :=
  (gs.filterMap fun g => match g with
    | .value n v _ => if n = name then some v else none
    | .switch _ => none).getLast?

/-- The switches and the options with a value of `ansibug listen`. -/
def listenSwitches : List Str := [py!"--no-wait", py!"--wrap-tls"]
def listenValues : List Str := [py!"--addr", py!"--log-file", py!"--log-level", py!"--tls-cert", py!"--tls-key", py!"--tls-key-pass", py!"--tls-client-ca"]
/-- The same for `ansibug connect`. -/
def connectSwitches : List Str := [py!"--no-wait"]
def connectValues : List Str := [py!"--addr", py!"--log-file", py!"--log-level"]

/-- The same for `ansibug dap`, which has no switches. -/
def dapValues : List Str := [py!"--log-file", py!"--log-level", py!"--temp-dir"]

/-- The options are known ones, a log level is one of the four, and a value that is a word of its own
does not start with a dash. -/
def Proper (switches values : List Str) (gs : List Given) : Prop := ∀ g ∈ gs, match g with
  | .switch n => n ∈ switches
  | .value n v one => n ∈ values ∧ (n = py!"--log-level" → v ∈ logLevels) ∧ (one = false → v.head? ≠ some 45)

/-! ## Proofs -/

/-- What an option leaves behind. -/
def store (ns : Dict Str Str) : Given → Dict Str Str
  | .switch n => ns.set n []
  | .value n v _ => ns.set n v

theorem partEq_eq (n v : Str) (h : 61 ∉ n) : partEq (n ++ 61 :: v) = (n, some v) := by
  induction n with
  | nil => simp [partEq]
  | cons c n ih =>
    simp only [List.mem_cons, not_or] at h
    simp [partEq, ih h.2, Ne.symm h.1]

/-- A word that is an option, for the parser. -/
def TblOk (tbl : OptTbl) (g : Given) : Prop := match g with
  | .switch n => Dict.get? tbl n = some .flag ∧ n ≠ [45, 45] ∧ n.head? = some 45
  | .value n v one => Dict.get? tbl n = some .value ∧ n ≠ [45, 45] ∧ n.head? = some 45 ∧ 2 ≤ n.length ∧ 61 ∉ n ∧ valueOk n v = true ∧ (one = false → v.head? ≠ some 45)

theorem parse_known (tbl : OptTbl) (n : Str) (k : OptKind) (h : Dict.get? tbl n = some k) (hd : n.head? = some 45) :
    parseOptional tbl n = .opt n k none := by
  cases n with
  | nil => cases hd
  | cons c r =>
    cases hd
    simp [parseOptional, h]

theorem parse_eq (tbl : OptTbl) (hno : ∀ o ∈ tbl, 61 ∉ o.1) (n v : Str) (k : OptKind) (h : Dict.get? tbl n = some k) (hd : n.head? = some 45)
    (hne : 61 ∉ n) : parseOptional tbl (n ++ 61 :: v) = .opt n k (some v) := by
  have hg : Dict.get? tbl (n ++ 61 :: v) = none := by
    rw [DL.get_none]
    intro hm
    obtain ⟨o, ho, e⟩ := List.mem_map.1 hm
    exact hno o ho (by rw [e]; simp)
  have hp := partEq_eq n v hne
  cases n with
  | nil => cases hd
  | cons c r =>
    cases hd
    rw [List.cons_append] at hg hp ⊢
    simp only [parseOptional, hg, hp, h]
    simp

theorem consume_given (tbl : OptTbl) (hno : ∀ o ∈ tbl, 61 ∉ o.1) (gs : List Given) (rest : List Str) :
    ∀ ns, (∀ g ∈ gs, TblOk tbl g) → consume (classify tbl (gs.flatMap Given.words ++ rest)) ns = consume (classify tbl rest) (gs.foldl store ns) := by
  induction gs with
  | nil => intro ns _; rfl
  | cons g gs ih =>
    intro ns h
    have hg := h g List.mem_cons_self
    have ih := fun ns => ih ns (fun g hg => h g (List.mem_cons_of_mem _ hg))
    cases g with
    | switch n =>
      obtain ⟨h1, h2, h3⟩ := hg
      simp only [List.flatMap_cons, Given.words, List.cons_append, List.nil_append, classify, if_neg h2, parse_known tbl n _ h1 h3, consume, ih]
      rfl
    | value n v one =>
      obtain ⟨h1, h2, h3, h4, h5, h6, h7⟩ := hg
      cases one with
      | true =>
        have hne : n ++ 61 :: v ≠ [45, 45] := by
          intro e
          have : 61 ∈ ([45, 45] : Str) := by rw [← e]; simp
          simp at this
        simp only [List.flatMap_cons, Given.words, List.cons_append, List.nil_append, classify, if_neg hne, parse_eq tbl hno n v _ h1 h3 h5, consume, h6, if_true, ih]
        rfl
      | false =>
        have hv := h7 rfl
        have hvn : v ≠ [45, 45] := by rintro rfl; exact hv rfl
        simp only [List.flatMap_cons, Given.words, List.cons_append, List.nil_append, classify, if_neg h2, if_neg hvn, parse_known tbl n _ h1 h3,
          parseOptional_arg tbl v hv, consume, h6, if_true, ih]
        rfl

theorem given_dash (tbl : OptTbl) (gs : List Given) (h : ∀ g ∈ gs, TblOk tbl g) : [45, 45] ∉ gs.flatMap Given.words := by
  intro hm
  obtain ⟨g, hg, hm⟩ := List.mem_flatMap.1 hm
  have := h g hg
  cases g with
  | switch n => simp only [Given.words, List.mem_singleton] at hm; exact this.2.1 hm.symm
  | value n v one =>
    obtain ⟨h1, h2, h3, h4, h5, h6, h7⟩ := this
    cases one with
    | true =>
      simp only [Given.words, List.mem_singleton] at hm
      have : 61 ∈ ([45, 45] : Str) := by rw [hm]; simp
      simp at this
    | false =>
      simp only [Given.words, List.mem_cons, List.not_mem_nil, or_false] at hm
      rcases hm with e | e
      · exact h2 e.symm
      · exact h7 rfl (by rw [← e]; rfl)

theorem given_plain (tbl : OptTbl) (hno : ∀ o ∈ tbl, 61 ∉ o.1) (gs : List Given) (h : ∀ g ∈ gs, TblOk tbl g) :
    ∀ a ∈ gs.flatMap Given.words, parseOptional tbl a ≠ .ambiguous := by
  intro a ha
  obtain ⟨g, hg, hm⟩ := List.mem_flatMap.1 ha
  have := h g hg
  cases g with
  | switch n =>
    simp only [Given.words, List.mem_singleton] at hm
    rw [hm, parse_known tbl n _ this.1 this.2.2]; simp
  | value n v one =>
    obtain ⟨h1, h2, h3, h4, h5, h6, h7⟩ := this
    cases one with
    | true =>
      simp only [Given.words, List.mem_singleton] at hm
      rw [hm, parse_eq tbl hno n v _ h1 h3 h5]; simp
    | false =>
      simp only [Given.words, List.mem_cons, List.not_mem_nil, or_false] at hm
      rcases hm with e | e
      · rw [e, parse_known tbl n _ h1 h3]; simp
      · rw [e, parseOptional_arg tbl v (h7 rfl)]; simp

/-- The options and the remainder of a sub parser. -/
theorem sub_given (eager : Bool) (tbl : OptTbl) (hno : ∀ o ∈ tbl, 61 ∉ o.1) (gs : List Given) (p : Str) (args : List Str)
    (h : ∀ g ∈ gs, TblOk tbl g) (hp : p.head? ≠ some 45) (hamb : eager = true → ∀ a ∈ args, a = [45, 45] ∨ parseOptional tbl a ≠ .ambiguous) :
    subParse eager tbl true (gs.flatMap Given.words ++ p :: args) = some (gs.foldl store [], p :: args) := by
  refine subParse_remainder eager tbl _ p args _ (given_dash tbl gs h) ?_ hp ?_
  · have := consume_given tbl hno gs [] [] h
    rw [List.append_nil] at this
    rw [this]; rfl
  · intro he a ha
    rcases List.mem_append.1 ha with ha | ha
    · exact .inr (given_plain tbl hno gs h a ha)
    · exact hamb he a ha

theorem store_value (gs : List Given) (n : Str) (hn : ∀ g ∈ gs, g ≠ .switch n) : ∀ ns : Dict Str Str,
    (gs.foldl store ns).get? n = match lastValue gs n with | some v => some v | none => ns.get? n := by
  induction gs with
  | nil => intro ns; rfl
  | cons g gs ih =>
    intro ns
    rw [List.foldl_cons, ih (fun g hg => hn g (List.mem_cons_of_mem _ hg))]
    cases g with
    | switch m =>
      have hm : m ≠ n := fun e => hn _ List.mem_cons_self (by rw [e])
      have : lastValue (.switch m :: gs) n = lastValue gs n := by simp [lastValue]
      rw [this]
      simp [store, DL.get_set, hm]
    | value m v one =>
      by_cases hm : m = n
      · subst hm
        have : lastValue (.value m v one :: gs) m = match lastValue gs m with | some w => some w | none => some v := by
          simp only [lastValue, List.filterMap_cons, if_true]
          rw [List.getLast?_cons]
          generalize (List.filterMap _ gs).getLast? = q
          cases q <;> rfl
        rw [this]
        cases lastValue gs m with
        | none => simp [store, DL.get_set]
        | some w => rfl
      · have : lastValue (.value m v one :: gs) n = lastValue gs n := by simp [lastValue, hm]
        rw [this]
        simp [store, DL.get_set, hm]

theorem store_switch (gs : List Given) (n : Str) (hn : ∀ v o, Given.value n v o ∉ gs) : ∀ ns : Dict Str Str,
    ((gs.foldl store ns).get? n).isSome = (decide (Given.switch n ∈ gs) || (ns.get? n).isSome) := by
  induction gs with
  | nil => intro ns; simp
  | cons g gs ih =>
    intro ns
    rw [List.foldl_cons, ih (fun v o hm => hn v o (List.mem_cons_of_mem _ hm))]
    cases g with
    | switch m =>
      by_cases hm : m = n
      · subst hm; simp [store, DL.get_set]
      · have : Given.switch n ≠ Given.switch m := fun e => hm (by cases e; rfl)
        simp [store, DL.get_set, hm, this]
    | value m v one =>
      have hm : m ≠ n := fun e => hn v one (by rw [← e]; exact List.mem_cons_self)
      simp [store, DL.get_set, hm]

theorem listen_tbl {gs : List Given} (h : Proper listenSwitches listenValues gs) : ∀ g ∈ gs, TblOk listenOpts g := by
  intro g hg
  have := h g hg
  cases g with
  | switch n =>
    simp only [listenSwitches, List.mem_cons, List.not_mem_nil, or_false] at this
    rcases this with rfl | rfl <;> (refine ⟨?_, ?_, ?_⟩ <;> decide)
  | value n v one =>
    obtain ⟨h1, h2, h3⟩ := this
    have hv : valueOk n v = true := by
      by_cases e : n = py!"--log-level"
      · have := h2 e
        simp only [logLevels, List.mem_cons, List.not_mem_nil, or_false] at this
        subst e
        rcases this with rfl | rfl | rfl | rfl <;> decide
      · simp [valueOk, e]
    simp only [listenValues, List.mem_cons, List.not_mem_nil, or_false] at h1
    refine ⟨?_, ?_, ?_, ?_, ?_, hv, h3⟩ <;> (rcases h1 with rfl | rfl | rfl | rfl | rfl | rfl | rfl <;> decide)

theorem connect_tbl {gs : List Given} (h : Proper connectSwitches connectValues gs) : ∀ g ∈ gs, TblOk connectOpts g := by
  intro g hg
  have := h g hg
  cases g with
  | switch n =>
    simp only [connectSwitches, List.mem_cons, List.not_mem_nil, or_false] at this
    subst this
    refine ⟨?_, ?_, ?_⟩ <;> decide
  | value n v one =>
    obtain ⟨h1, h2, h3⟩ := this
    have hv : valueOk n v = true := by
      by_cases e : n = py!"--log-level"
      · have := h2 e
        simp only [logLevels, List.mem_cons, List.not_mem_nil, or_false] at this
        subst e
        rcases this with rfl | rfl | rfl | rfl <;> decide
      · simp [valueOk, e]
    simp only [connectValues, List.mem_cons, List.not_mem_nil, or_false] at h1
    refine ⟨?_, ?_, ?_, ?_, ?_, hv, h3⟩ <;> (rcases h1 with rfl | rfl | rfl <;> decide)

theorem no_switch {sw vals : List Str} {gs : List Given} (h : Proper sw vals gs) {n : Str} (hn : n ∉ sw) : ∀ g ∈ gs, g ≠ .switch n := by
  rintro g hg rfl
  exact hn (h _ hg)

theorem no_value {sw vals : List Str} {gs : List Given} (h : Proper sw vals gs) {n : Str} (hn : n ∉ vals) : ∀ v o, Given.value n v o ∉ gs :=
  fun _ _ hg => hn (h _ hg).1

/-! ## The theorems -/

/-- **C70** (`ansibug listen OPTIONS PLAYBOOK ARGS...`). Whatever options are given, in whatever order
and number: the debugger is started in listen mode at the address given (`uds://` if none is), does not
wait exactly with `--no-wait`, uses TLS exactly with `--wrap-tls`, with the certificate, key, password
and client CA given (the password from the environment if none is), logs to the file and at the level
given (`info` if none is); the last value of an option counts; and everything from the playbook on is
left to ansible-playbook. -/
theorem C70_listen_options (eager : Bool) (absPath : Str → Str) (environ : Dict Str Str) (gs : List Given) (p : Str) (args : List Str)
    (hgs : Proper listenSwitches listenValues gs) (hp : p.head? ≠ some 45)
    (hamb : eager = true → ∀ a ∈ args, a = py!"--" ∨ (partEq a).1 ∉ ambigListen) :
    ∃ o, (parseArgs eager (py!"listen" :: (gs.flatMap Given.words ++ p :: args))).bind (startOpts absPath environ) = some (o, p :: args) ∧
      o.mode = py!"listen" ∧
      o.addr = (lastValue gs py!"--addr").getD py!"uds://" ∧
      (o.noWait = true ↔ .switch py!"--no-wait" ∈ gs) ∧
      (o.useTls = true ↔ .switch py!"--wrap-tls" ∈ gs) ∧
      o.tlsCert = (lastValue gs py!"--tls-cert").map absPath ∧
      o.tlsKey = (lastValue gs py!"--tls-key").map absPath ∧
      o.tlsPassword = effective (lastValue gs py!"--tls-key-pass") environ py!"ANSIBUG_TLS_KEY_PASS" ∧
      o.tlsClientCa = (lastValue gs py!"--tls-client-ca").map absPath ∧
      o.logFile = (lastValue gs py!"--log-file").map absPath ∧
      o.logLevel = (lastValue gs py!"--log-level").getD py!"info" := by
  have hsub := sub_given eager listenOpts (by decide) gs p args (listen_tbl hgs) hp (fun he a ha => by
    rcases hamb he a ha with h | h
    · exact .inl h
    · exact .inr fun e => h (ambig_listen a e))
  have val : ∀ n, n ∉ listenSwitches → (gs.foldl store []).get? n = lastValue gs n := fun n hn => by
    rw [store_value gs n (no_switch hgs hn)]
    cases lastValue gs n <;> rfl
  have sw : ∀ n, n ∉ listenValues → (((gs.foldl store []).get? n).isSome = true ↔ .switch n ∈ gs) := fun n hn => by
    rw [store_switch gs n (no_value hgs hn)]
    simp [Dict.get?]
  have hparse : parseArgs eager (py!"listen" :: (gs.flatMap Given.words ++ p :: args)) = some (.listen (gs.foldl store []) (p :: args)) := by
    simp only [parseArgs]
    rw [if_neg (by decide), if_neg (by decide), if_pos trivial, hsub]
    rfl
  rw [hparse]
  refine ⟨_, rfl, rfl, ?_, ?_, ?_, ?_, ?_, ?_, ?_, ?_, ?_⟩
  · simp only; rw [val _ (by decide)]
  · exact sw _ (by decide)
  · exact sw _ (by decide)
  · simp only; rw [val _ (by decide)]
  · simp only; rw [val _ (by decide)]
  · simp only; rw [val _ (by decide)]; cases lastValue gs py!"--tls-key-pass" <;> rfl
  · simp only; rw [val _ (by decide)]
  · simp only; rw [val _ (by decide)]
  · simp only; rw [val _ (by decide)]

/-- **C70** (`ansibug connect OPTIONS PLAYBOOK ARGS...`). The address is required: without one nothing is
started. With one, the debugger is started in connect mode at the last address given, without TLS, and
the other options mean what they mean for listen. -/
theorem C70_connect_options (eager : Bool) (absPath : Str → Str) (environ : Dict Str Str) (gs : List Given) (p : Str) (args : List Str)
    (hgs : Proper connectSwitches connectValues gs) (hp : p.head? ≠ some 45)
    (hamb : eager = true → ∀ a ∈ args, a = py!"--" ∨ (partEq a).1 ∉ ambigConnect) :
    match lastValue gs py!"--addr" with
    | none => parseArgs eager (py!"connect" :: (gs.flatMap Given.words ++ p :: args)) = none
    | some addr => ∃ o, (parseArgs eager (py!"connect" :: (gs.flatMap Given.words ++ p :: args))).bind (startOpts absPath environ) = some (o, p :: args) ∧
      o.mode = py!"connect" ∧ o.addr = addr ∧ (o.noWait = true ↔ .switch py!"--no-wait" ∈ gs) ∧ o.useTls = false ∧
      o.logFile = (lastValue gs py!"--log-file").map absPath ∧ o.logLevel = (lastValue gs py!"--log-level").getD py!"info" := by
  have hsub := sub_given eager connectOpts (by decide) gs p args (connect_tbl hgs) hp (fun he a ha => by
    rcases hamb he a ha with h | h
    · exact .inl h
    · exact .inr fun e => h (ambig_connect a e))
  have val : ∀ n, n ∉ connectSwitches → (gs.foldl store []).get? n = lastValue gs n := fun n hn => by
    rw [store_value gs n (no_switch hgs hn)]
    cases lastValue gs n <;> rfl
  have sw : ∀ n, n ∉ connectValues → (((gs.foldl store []).get? n).isSome = true ↔ .switch n ∈ gs) := fun n hn => by
    rw [store_switch gs n (no_value hgs hn)]
    simp [Dict.get?]
  have hv := val py!"--addr" (by decide)
  have hparse : parseArgs eager (py!"connect" :: (gs.flatMap Given.words ++ p :: args)) =
      if (lastValue gs py!"--addr").isSome then some (.connect (gs.foldl store []) (p :: args)) else none := by
    simp only [parseArgs, if_true, hsub, hv]
  cases ha : lastValue gs py!"--addr" with
  | none => simp only; rw [hparse, ha]; rfl
  | some addr =>
    simp only
    rw [hparse, ha, Option.isSome_some, if_pos rfl]
    rw [ha] at hv
    refine ⟨_, rfl, rfl, ?_, ?_, rfl, ?_, ?_⟩
    · simp only; rw [hv]; rfl
    · exact sw _ (by decide)
    · simp only; rw [val _ (by decide)]
    · simp only; rw [val _ (by decide)]

theorem dap_tbl {gs : List Given} (h : Proper [] dapValues gs) : ∀ g ∈ gs, TblOk dapOpts g := by
  intro g hg
  have := h g hg
  cases g with
  | switch n => cases this
  | value n v one =>
    obtain ⟨h1, h2, h3⟩ := this
    have hv : valueOk n v = true := by
      by_cases e : n = py!"--log-level"
      · have := h2 e
        simp only [logLevels, List.mem_cons, List.not_mem_nil, or_false] at this
        subst e
        rcases this with rfl | rfl | rfl | rfl <;> decide
      · simp [valueOk, e]
    simp only [dapValues, List.mem_cons, List.not_mem_nil, or_false] at h1
    refine ⟨?_, ?_, ?_, ?_, ?_, hv, h3⟩ <;> (rcases h1 with rfl | rfl | rfl <;> decide)

/-- **C70** (`ansibug dap OPTIONS`). Whatever options are given, in whatever order and number: the adapter logs to the file and at the level given (`info` if none is), and puts
its launch scripts into the directory given; the last value of an option counts. A word that is no option ends the process with a usage error. -/
theorem C70_dap_options (eager : Bool) (absPath expand : Str → Str) (gs : List Given) (hgs : Proper [] dapValues gs) :
    (parseArgs eager (py!"dap" :: gs.flatMap Given.words)).bind (dapStart absPath expand) = some {
      logFile := (lastValue gs py!"--log-file").map absPath
      logLevel := (lastValue gs py!"--log-level").getD py!"info"
      tempDir := (lastValue gs py!"--temp-dir").map expand } ∧
    ∀ p args, p.head? ≠ some 45 → parseArgs eager (py!"dap" :: (gs.flatMap Given.words ++ p :: args)) = none := by
  have htbl := dap_tbl hgs
  have hc := consume_given dapOpts (by decide) gs [] [] htbl
  rw [List.append_nil] at hc
  have val : ∀ n, (gs.foldl store []).get? n = lastValue gs n := fun n => by
    rw [store_value gs n (no_switch hgs (by simp))]
    cases lastValue gs n <;> rfl
  have hall : (classify dapOpts (gs.flatMap Given.words)).any (fun c => c.2 = .ambiguous) = false := by
    rw [List.any_eq_false]
    intro c hm
    have hcl : ∀ (l : List Str), [45, 45] ∉ l → ∀ c ∈ classify dapOpts l, ∃ a ∈ l, c.2 = parseOptional dapOpts a := by
      intro l
      induction l with
      | nil => intro _ c hc; cases hc
      | cons a as ih =>
        intro hd c hc
        simp only [List.mem_cons, not_or] at hd
        simp only [classify, if_neg (Ne.symm hd.1), List.mem_cons] at hc
        rcases hc with rfl | hc
        · exact ⟨a, List.mem_cons_self, rfl⟩
        · obtain ⟨b, hb, e⟩ := ih hd.2 c hc
          exact ⟨b, List.mem_cons_of_mem _ hb, e⟩
    obtain ⟨a, ha, e⟩ := hcl _ (given_dash dapOpts gs htbl) c hm
    rw [e]
    simpa using given_plain dapOpts (by decide) gs htbl a ha
  constructor
  · have : parseArgs eager (py!"dap" :: gs.flatMap Given.words) = some (.dap (gs.foldl store [])) := by
      simp only [parseArgs]
      rw [if_neg (by decide), if_pos trivial]
      simp only [subParse, hall, hc]
      simp [classify, consume]
    rw [this]
    simp only [Option.bind_some, dapStart, val]
  · intro p args hp
    simp only [parseArgs]
    rw [if_neg (by decide), if_pos trivial]
    simp only [subParse]
    split
    · rfl
    · rw [consume_given dapOpts (by decide) gs _ [] htbl]
      have hpd : p ≠ [45, 45] := by rintro rfl; exact hp rfl
      simp only [classify, if_neg hpd, parseOptional_arg dapOpts p hp, consume]
      rfl

/-- Non-vacuity: options of `ansibug dap`, the level twice. -/
example : Proper [] dapValues [.value py!"--log-level" py!"debug" true, .value py!"--temp-dir" py!"/t" false, .value py!"--log-level" py!"error" false] := by
  intro g hg
  simp only [List.mem_cons, List.not_mem_nil, or_false] at hg
  rcases hg with rfl | rfl | rfl <;> (refine ⟨by decide, by decide, by decide⟩)

/-- Non-vacuity: repeated options, both ways of writing a value, a value with a dash and one with `=`. -/
example : Proper listenSwitches listenValues [.value py!"--addr" py!"tcp://:0" true, .switch py!"--wrap-tls", .value py!"--tls-cert" py!"/c=1.pem" false,
      .value py!"--tls-key-pass" py!"-x=y" true, .value py!"--addr" py!"uds://" false] ∧
    lastValue [.value py!"--addr" py!"tcp://:0" true, .switch py!"--wrap-tls", .value py!"--addr" py!"uds:///s" false] py!"--addr" = some py!"uds:///s" := by
  refine ⟨?_, by decide⟩
  intro g hg
  simp only [List.mem_cons, List.not_mem_nil, or_false] at hg
  rcases hg with rfl | rfl | rfl | rfl | rfl <;> simp [listenSwitches, listenValues]

example : Proper connectSwitches connectValues [.switch py!"--no-wait", .value py!"--log-level" py!"debug" false, .value py!"--addr" py!"uds:///s" true] := by
  intro g hg
  simp only [List.mem_cons, List.not_mem_nil, or_false] at hg
  rcases hg with rfl | rfl | rfl <;> simp [connectSwitches, connectValues, logLevels]

end Verif.Props.Launch
