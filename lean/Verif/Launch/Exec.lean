import Verif.Launch.Args
import Verif.Json.Model
/-!
# Starting ansible-playbook

Model of /repo/src/ansibug/_exec_playbook.py and of `main` in
/repo/src/ansibug/__main__.py:209-238: the argument vector and the environment given to
`os.execve`.

Environment parameters: `environ` is `os.environ`; `dump` the parsed output of
`ansible-config dump --format json`; `pkg` the absolute path of the ansibug package and
`parent` its parent directory; `absPath` stands for
`str(pathlib.Path(os.path.expanduser(os.path.expandvars(p))).absolute())`.
The coverage hook (_exec_playbook.py:162-163) has no effect on the arguments and is left out.
-/

namespace Verif.Launch
open Verif

/-- `s.split(c)` for a one character separator. -/
def splitCh (sep : Nat) : Str → List Str
  | [] => [[]]
  | c :: cs =>
    if c = sep then [] :: splitCh sep cs
    else
      match splitCh sep cs with
      | [] => [[c]]
      | p :: ps => (c :: p) :: ps

/-- `c.join(l)` for a one character separator. -/
def joinCh (sep : Nat) : List Str → Str
  | [] => []
  | [x] => x
  | x :: xs => x ++ sep :: joinCh sep xs

/-- The items `list.extend(value)` appends when `value` came out of `json.loads`: an array's
items, a string's characters, an object's keys; anything else is a TypeError. -/
def iterJson : Json → Except PyErr (List Json)
  | .arr l => .ok l
  | .str s => .ok (s.map fun c => .str [c])
  | .obj l => .ok (l.map fun e => .str e.1)
  | _ => .error .type

/-- `sep.join(items)`: every item has to be a string. -/
def strItems : List Json → Except PyErr (List Str)
  | [] => .ok []
  | .str s :: r => match strItems r with
    | .ok ss => .ok (s :: ss)
    | .error e => .error e
  | _ :: _ => .error .type

/-- State of the loop over the configuration (_exec_playbook.py:199-218): the callbacks and the collection
paths collected so far, and whether each name is still in `to_check`. -/
structure CfgSt where
  callbacks : List Json
  paths : List Json
  wantCb : Bool := true
  wantCp : Bool := true

/-- One configuration entry (_exec_playbook.py:201-211). -/
def cfgEntry (st : CfgSt) (entry : Json) : Except PyErr CfgSt :=
  match entry with
  | .obj e =>
    match Dict.get? e py!"name" with
    | some (.str n) =>
      if n = py!"CALLBACKS_ENABLED" then
        if st.wantCb then
          match Dict.get? e py!"value" with
          | some v => match iterJson v with
            | .ok l => .ok { st with callbacks := st.callbacks ++ l, wantCb := false }
            | .error x => .error x
          | none => .error .key
        else .error .key
      else if n = py!"COLLECTIONS_PATHS" then
        if st.wantCp then
          match Dict.get? e py!"value" with
          | some v => match iterJson v with
            | .ok l => .ok { st with paths := st.paths ++ l, wantCp := false }
            | .error x => .error x
          | none => .error .key
        else .error .key
      else .ok st
    | _ => .ok st
  | _ => .error .attribute

/-- The loop with its early exit (_exec_playbook.py:200-218).  After an entry without a name (`continue`) the
exit test is skipped; it cannot have become true meanwhile. -/
def cfgLoop : CfgSt → List Json → Except PyErr CfgSt
  | st, [] => .ok st
  | st, e :: es =>
    match cfgEntry st e with
    | .error x => .error x
    | .ok st' => if !st'.wantCb && !st'.wantCp then .ok st' else cfgLoop st' es

/-- Iterating over the dump itself (_exec_playbook.py:200): a list, or an object (whose keys are strings
without a `get` attribute). -/
def dumpItems : Json → Except PyErr (List Json) := iterJson

/-- `_configure_ansible_env()` (/repo/src/ansibug/_exec_playbook.py:168-229). -/
def configureEnv (environ : Dict Str Str) (dump : Json) (pkg parent : Str) : Except PyErr (Dict Str Str) :=
  match dumpItems dump with
  | .error x => .error x
  | .ok entries =>
    match cfgLoop { callbacks := [.str py!"ansibug.dap.debug"], paths := [.str pkg] } entries with
    | .error x => .error x
    | .ok st =>
      let pp := parent :: (splitCh 58 ((environ.get? py!"PYTHONPATH").getD [])).filter (· ≠ [])
      match strItems st.callbacks with
      | .error x => .error x
      | .ok cbs =>
        match strItems st.paths with
        | .error x => .error x
        | .ok cps => .ok [
            (py!"ANSIBLE_CALLBACKS_ENABLED", joinCh 44 cbs),
            (py!"ANSIBLE_COLLECTIONS_PATH", joinCh 58 cps),
            (py!"ANSIBLE_STRATEGY", py!"ansibug.dap.debug"),
            (py!"PYTHONPATH", joinCh 58 pp)]

/-- `str(b).lower()`. -/
def lowBool (b : Bool) : Str := if b then py!"true" else py!"false"
/-- `str(b)`. -/
def capBool (b : Bool) : Str := if b then py!"True" else py!"False"

/-- The options of one start (the keyword arguments of `exec_playbook_connect` and
`exec_playbook_listen`, paths already made absolute). -/
structure StartOpts where
  mode : Str
  addr : Str
  noWait : Bool
  useTls : Bool := false
  tlsCert : Option Str := none
  tlsKey : Option Str := none
  tlsPassword : Option Str := none
  tlsClientCa : Option Str := none
  logFile : Option Str := none
  logLevel : Str := py!"info"

/-- An optional environment entry. -/
def optEntry (k : Str) : Option Str → Dict Str Str
  | some v => [(k, v)]
  | none => []

/-- `mode_env` (/repo/src/ansibug/_exec_playbook.py:52, _exec_playbook.py:108-121); the password is skipped
when empty. -/
def modeEnv (o : StartOpts) : Dict Str Str :=
  optEntry py!"ANSIBUG_TLS_SERVER_CERTFILE" o.tlsCert ++
  optEntry py!"ANSIBUG_TLS_SERVER_KEYFILE" o.tlsKey ++
  optEntry py!"ANSIBUG_TLS_SERVER_KEY_PASSWORD" (o.tlsPassword.filter (· ≠ [])) ++
  optEntry py!"ANSIBUG_TLS_CLIENT_CA" o.tlsClientCa

/-- The environment built by `_exec_playbook` (/repo/src/ansibug/_exec_playbook.py:147-155). -/
def finalEnv (environ conf : Dict Str Str) (o : StartOpts) : Dict Str Str :=
  let env := Dict.union (Dict.union environ (modeEnv o)) conf
  let env := env.set py!"ANSIBUG_DEBUG_ADDR" o.addr
  let env := env.set py!"ANSIBUG_MODE" o.mode
  let env := env.set py!"ANSIBUG_NO_WAIT_FOR_CONFIG_DONE" (lowBool o.noWait)
  let env := env.set py!"ANSIBUG_USE_TLS" (capBool o.useTls)
  match o.logFile with
  | some f => (env.set py!"ANSIBUG_LOG_FILE" f).set py!"ANSIBUG_LOG_LEVEL" o.logLevel
  | none => env

/-- `_exec_playbook` (/repo/src/ansibug/_exec_playbook.py:135-165): argument vector and
environment of the `execve` call. -/
def execPlaybook (exe : Str) (environ : Dict Str Str) (dump : Json) (pkg parent : Str)
    (o : StartOpts) (playbookArgs : List Str) : Except PyErr (List Str × Dict Str Str) :=
  match configureEnv environ dump pkg parent with
  | .error x => .error x
  | .ok conf => .ok ([exe, py!"-m", py!"ansible", py!"playbook"] ++ playbookArgs, finalEnv environ conf o)

/-- The keyword arguments `main` passes on (/repo/src/ansibug/__main__.py:209-238), with the
defaults of the parsers: `--addr uds://` when listening (__main__.py:181), `--log-level info` (__main__.py:51) and
the password from `ANSIBUG_TLS_KEY_PASS` (__main__.py:82). -/
def startOpts (absPath : Str → Str) (environ : Dict Str Str) : Command → Option (StartOpts × List Str)
  | .connect ns rest => some ({
      mode := py!"connect"
      addr := (ns.get? py!"--addr").getD []
      noWait := (ns.get? py!"--no-wait").isSome
      logFile := (ns.get? py!"--log-file").map absPath
      logLevel := (ns.get? py!"--log-level").getD py!"info" }, rest)
  | .listen ns rest => some ({
      mode := py!"listen"
      addr := (ns.get? py!"--addr").getD py!"uds://"
      noWait := (ns.get? py!"--no-wait").isSome
      useTls := (ns.get? py!"--wrap-tls").isSome
      tlsCert := (ns.get? py!"--tls-cert").map absPath
      tlsKey := (ns.get? py!"--tls-key").map absPath
      tlsPassword := match ns.get? py!"--tls-key-pass" with
        | some p => some p
        | none => environ.get? py!"ANSIBUG_TLS_KEY_PASS"
      tlsClientCa := (ns.get? py!"--tls-client-ca").map absPath
      logFile := (ns.get? py!"--log-file").map absPath
      logLevel := (ns.get? py!"--log-level").getD py!"info" }, rest)
  | .dap _ => none

/-- What `start_dap` is called with and does with it (/repo/src/ansibug/__main__.py:212-214, _debug_adapter.py:205-212): where to log to and at
what level (no file: no logging), and the directory for launch scripts. -/
structure DapOpts where
  logFile : Option Str
  logLevel : Str
  tempDir : Option Str
deriving DecidableEq, Repr

/-- `main()` for the action `dap` (/repo/src/ansibug/__main__.py:212-214, __main__.py:39-54, __main__.py:143-165). `expand` is `_parse_path` (__main__.py:102-103), `absPath`
that followed by `absolute()`. -/
def dapStart (absPath expand : Str → Str) : Command → Option DapOpts
  | .dap ns => some {
      logFile := (ns.get? py!"--log-file").map absPath
      logLevel := (ns.get? py!"--log-level").getD py!"info"
      tempDir := (ns.get? py!"--temp-dir").map expand }
  | _ => none

/-- `main()` for the two playbook actions (/repo/src/ansibug/__main__.py:209-238): the
`execve` call made for a command line, `none` if the process ends or raises instead. -/
def mainExec (eager : Bool) (absPath : Str → Str) (exe : Str) (environ : Dict Str Str) (dump : Json)
    (pkg parent : Str) (argv : List Str) : Option (List Str × Dict Str Str) :=
  match (parseArgs eager argv).bind (startOpts absPath environ) with
  | none => none
  | some (o, rest) =>
    match execPlaybook exe environ dump pkg parent o rest with
    | .ok r => some r
    | .error _ => none

/-! ## Facts -/

theorem splitCh_ne_nil (sep : Nat) (s : Str) : splitCh sep s ≠ [] := by
  cases s with
  | nil => simp [splitCh]
  | cons c cs =>
    rw [splitCh]
    split
    · simp
    · split <;> simp

theorem splitCh_no (sep : Nat) (s : Str) (h : sep ∉ s) : splitCh sep s = [s] := by
  induction s with
  | nil => rfl
  | cons c cs ih =>
    simp only [List.mem_cons, not_or] at h
    rw [splitCh, if_neg (Ne.symm h.1), ih h.2]

theorem splitCh_append (sep : Nat) (a b : Str) (h : sep ∉ a) : splitCh sep (a ++ sep :: b) = a :: splitCh sep b := by
  induction a with
  | nil => simp [splitCh]
  | cons c cs ih =>
    simp only [List.mem_cons, not_or] at h
    rw [List.cons_append, splitCh, if_neg (Ne.symm h.1), ih h.2]

/-- Splitting the joined list gives the list back. -/
theorem splitCh_join (sep : Nat) (l : List Str) (hne : l ≠ []) (h : ∀ x ∈ l, sep ∉ x) :
    splitCh sep (joinCh sep l) = l := by
  induction l with
  | nil => exact absurd rfl hne
  | cons x xs ih =>
    cases xs with
    | nil => simp [joinCh, splitCh_no sep x (h x (by simp))]
    | cons y ys =>
      rw [joinCh, splitCh_append sep x _ (h x (by simp)), ih (by simp) (fun z hz => h z (by simp [hz]))]
      simp

/-- The parts do not contain the separator. -/
theorem splitCh_parts (sep : Nat) (s : Str) : ∀ p ∈ splitCh sep s, sep ∉ p := by
  induction s with
  | nil => simp [splitCh]
  | cons c cs ih =>
    rw [splitCh]
    split
    · intro p hp
      rcases List.mem_cons.1 hp with rfl | hp
      · simp
      · exact ih p hp
    · rename_i hc
      split
      · rename_i h; exact absurd h (splitCh_ne_nil sep cs)
      · rename_i q qs h
        intro p hp
        rcases List.mem_cons.1 hp with rfl | hp
        · have := ih q (by simp [h])
          simp only [List.mem_cons, not_or]
          exact ⟨Ne.symm hc, this⟩
        · exact ih p (by simp [h, hp])

theorem get_union {κ α : Type} [DecidableEq κ] (d e : Dict κ α) (k : κ) (h : k ∉ e.map (·.1)) :
    (Dict.union d e).get? k = d.get? k := by
  unfold Dict.union
  induction e generalizing d with
  | nil => rfl
  | cons a e ih =>
    simp only [List.map_cons, List.mem_cons, not_or] at h
    rw [List.foldl_cons, ih _ h.2, DL.get_set, if_neg (fun e => h.1 e.symm)]

theorem finalEnv_get (environ conf : Dict Str Str) (o : StartOpts) (k : Str) :
    (finalEnv environ conf o).get? k =
      if k = py!"ANSIBUG_LOG_LEVEL" ∧ o.logFile.isSome then some o.logLevel
      else if k = py!"ANSIBUG_LOG_FILE" ∧ o.logFile.isSome then o.logFile
      else if k = py!"ANSIBUG_USE_TLS" then some (capBool o.useTls)
      else if k = py!"ANSIBUG_NO_WAIT_FOR_CONFIG_DONE" then some (lowBool o.noWait)
      else if k = py!"ANSIBUG_MODE" then some o.mode
      else if k = py!"ANSIBUG_DEBUG_ADDR" then some o.addr
      else (Dict.union (Dict.union environ (modeEnv o)) conf).get? k := by
  unfold finalEnv
  cases hl : o.logFile with
  | none => simp only [DL.get_set, eq_comm (b := k)]; simp
  | some f => simp only [DL.get_set, eq_comm (b := k)]; simp

/-- The keys of the configured variables. -/
theorem configureEnv_keys {environ : Dict Str Str} {dump : Json} {pkg parent : Str} {conf : Dict Str Str}
    (hc : configureEnv environ dump pkg parent = .ok conf) :
    conf.map (·.1) = [py!"ANSIBLE_CALLBACKS_ENABLED", py!"ANSIBLE_COLLECTIONS_PATH",
        py!"ANSIBLE_STRATEGY", py!"PYTHONPATH"] := by
  unfold configureEnv at hc
  split at hc
  · cases hc
  split at hc
  · cases hc
  simp only at hc
  split at hc
  · cases hc
  split at hc
  · cases hc
  cases hc; rfl

end Verif.Launch
