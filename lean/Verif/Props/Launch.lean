import Verif.Server.Mappings
import Verif.Launch.ArgsProof
import Verif.Launch.Types
import Verif.Launch.Request
/-!
# Properties of starting playbooks (C61-C64, C69-C71)

The environment (file system, Ansible's configuration, exit codes of programs, the Python
version's treatment of ambiguous options) is universally quantified everywhere.
-/

namespace Verif.Props.Launch
open Verif Verif.Launch

/-! ## C61: the user's environment and configuration are kept -/

/-- The environment variables ansibug always sets. -/
def AlwaysSet : List Str := [py!"ANSIBLE_CALLBACKS_ENABLED", py!"ANSIBLE_COLLECTIONS_PATH",
  py!"ANSIBLE_STRATEGY", py!"PYTHONPATH", py!"ANSIBUG_DEBUG_ADDR", py!"ANSIBUG_MODE",
  py!"ANSIBUG_NO_WAIT_FOR_CONFIG_DONE", py!"ANSIBUG_USE_TLS"]

/-- The environment variables ansibug sets only if the option was given. -/
def SetIf (o : StartOpts) : List Str :=
  (if o.tlsCert.isSome then [py!"ANSIBUG_TLS_SERVER_CERTFILE"] else []) ++
  (if o.tlsKey.isSome then [py!"ANSIBUG_TLS_SERVER_KEYFILE"] else []) ++
  (if o.tlsPassword.isSome then [py!"ANSIBUG_TLS_SERVER_KEY_PASSWORD"] else []) ++
  (if o.tlsClientCa.isSome then [py!"ANSIBUG_TLS_CLIENT_CA"] else []) ++
  (if o.logFile.isSome then [py!"ANSIBUG_LOG_FILE", py!"ANSIBUG_LOG_LEVEL"] else [])

theorem optEntry_keys (k : Str) (v : Option Str) : (optEntry k v).map (·.1) = if v.isSome then [k] else [] := by
  cases v <;> rfl

/-- Every variable of the user that ansibug does not set has the same value (or is just as
unset) in the environment of ansible-playbook; and the arguments are the interpreter, the
ansible-playbook entry point and the given arguments. -/
theorem C61_environment_kept_partial (exe pkg parent : Str) (environ : Dict Str Str) (dump : Json) (o : StartOpts)
    (args argv : List Str) (env : Dict Str Str)
    (h : execPlaybook exe environ dump pkg parent o args = .ok (argv, env)) :
    (∀ k, k ∉ AlwaysSet → k ∉ SetIf o → env.get? k = environ.get? k) ∧
    argv = [exe, py!"-m", py!"ansible", py!"playbook"] ++ args := by
  unfold execPlaybook at h
  cases hc : configureEnv environ dump pkg parent with
  | error x => simp [hc] at h
  | ok conf =>
    have hkeys := configureEnv_keys hc
    simp only [hc, Except.ok.injEq, Prod.mk.injEq] at h
    obtain ⟨rfl, rfl⟩ := h
    refine ⟨?_, rfl⟩
    intro k hk1 hk2
    simp only [AlwaysSet, List.mem_cons, List.not_mem_nil, or_false, not_or] at hk1
    have base : (Dict.union (Dict.union environ (modeEnv o)) conf).get? k = environ.get? k := by
      rw [get_union _ conf k (by rw [hkeys]; simp; exact ⟨hk1.1, hk1.2.1, hk1.2.2.1, hk1.2.2.2.1⟩)]
      apply get_union
      intro hm
      apply hk2
      simp only [modeEnv, List.map_append, optEntry_keys, List.mem_append] at hm
      simp only [SetIf, List.mem_append]
      rcases hm with ((hm | hm) | hm) | hm
      · exact Or.inl (Or.inl (Or.inl (Or.inl hm)))
      · exact Or.inl (Or.inl (Or.inl (Or.inr hm)))
      · refine Or.inl (Or.inl (Or.inr ?_))
        cases hp : o.tlsPassword with
        | none => simp [hp] at hm
        | some p =>
          simp only [hp] at hm
          split at hm
          · simpa using hm
          · simp at hm
      · exact Or.inl (Or.inr hm)
    rw [finalEnv_get, base, if_neg, if_neg, if_neg hk1.2.2.2.2.2.2.2, if_neg hk1.2.2.2.2.2.2.1, if_neg hk1.2.2.2.2.2.1,
      if_neg hk1.2.2.2.2.1]
    · rintro ⟨rfl, hs⟩
      exact hk2 (by simp [SetIf, hs])
    · rintro ⟨rfl, hs⟩
      exact hk2 (by simp [SetIf, hs])

/-- With a configuration dump whose `CALLBACKS_ENABLED` and `COLLECTIONS_PATHS` entries are the
lists of strings `cbs` and `cps`, the start succeeds, and what Ansible reads back (the
environment variables, split at their separators) is ansibug's own entry followed by the
user's entries in their order; likewise `PYTHONPATH`, without empty entries.
Missing: entries with the separator in them (they cannot be passed on in a variable) and the
empty entries of `PYTHONPATH`, which are lost (`C61_empty_entry_refuted`). -/
theorem C61_configuration_kept_partial (exe pkg parent : Str) (environ : Dict Str Str) (es : List Json) (o : StartOpts)
    (args : List Str) (cbs cps : List Str) (hd : DumpOk es)
    (hcb : userList es py!"CALLBACKS_ENABLED" = cbs.map .str)
    (hcp : userList es py!"COLLECTIONS_PATHS" = cps.map .str) :
    ∃ argv env, execPlaybook exe environ (.arr es) pkg parent o args = .ok (argv, env) ∧
      ((∀ x ∈ cbs, 44 ∉ x) → (env.get? py!"ANSIBLE_CALLBACKS_ENABLED").map (splitCh 44) = some (py!"ansibug.dap.debug" :: cbs)) ∧
      ((∀ x ∈ pkg :: cps, 58 ∉ x) → (env.get? py!"ANSIBLE_COLLECTIONS_PATH").map (splitCh 58) = some (pkg :: cps)) ∧
      (58 ∉ parent → (env.get? py!"PYTHONPATH").map (splitCh 58) =
        some (parent :: (splitCh 58 ((environ.get? py!"PYTHONPATH").getD [])).filter (· ≠ []))) ∧
      env.get? py!"ANSIBLE_STRATEGY" = some py!"ansibug.dap.debug" ∧
      env.get? py!"ANSIBUG_DEBUG_ADDR" = some o.addr ∧ env.get? py!"ANSIBUG_MODE" = some o.mode := by
  obtain ⟨st, h1, h2, h3⟩ := cfgLoop_spec es { callbacks := [.str py!"ansibug.dap.debug"], paths := [.str pkg] } hd
    (by simp) (by simp)
  have s1 : strItems st.callbacks = .ok (py!"ansibug.dap.debug" :: cbs) := by
    rw [h2, hcb]; exact strItems_strs (py!"ansibug.dap.debug" :: cbs)
  have s2 : strItems st.paths = .ok (pkg :: cps) := by
    rw [h3, hcp]; exact strItems_strs (pkg :: cps)
  have hconf : configureEnv environ (.arr es) pkg parent = .ok [
            (py!"ANSIBLE_CALLBACKS_ENABLED", joinCh 44 (py!"ansibug.dap.debug" :: cbs)),
            (py!"ANSIBLE_COLLECTIONS_PATH", joinCh 58 (pkg :: cps)),
            (py!"ANSIBLE_STRATEGY", py!"ansibug.dap.debug"),
            (py!"PYTHONPATH", joinCh 58 (parent :: (splitCh 58 ((environ.get? py!"PYTHONPATH").getD [])).filter (· ≠ [])))] := by
    simp only [configureEnv, dumpItems, iterJson, h1, s1, s2]
  unfold execPlaybook
  simp only [hconf]
  refine ⟨_, _, rfl, ?_⟩
  generalize hconfd : ([
            (py!"ANSIBLE_CALLBACKS_ENABLED", joinCh 44 (py!"ansibug.dap.debug" :: cbs)),
            (py!"ANSIBLE_COLLECTIONS_PATH", joinCh 58 (pkg :: cps)),
            (py!"ANSIBLE_STRATEGY", py!"ansibug.dap.debug"),
            (py!"PYTHONPATH", joinCh 58 (parent :: (splitCh 58 ((environ.get? py!"PYTHONPATH").getD [])).filter (· ≠ [])))] : Dict Str Str) = conf
  have hkn : (conf.map (·.1)).Nodup := by rw [← hconfd, configureEnv_keys hconf]; decide
  have hall : ∀ k v, k ∈ [py!"ANSIBLE_CALLBACKS_ENABLED", py!"ANSIBLE_COLLECTIONS_PATH", py!"ANSIBLE_STRATEGY", py!"PYTHONPATH"] →
      Dict.get? conf k = some v → (finalEnv environ conf o).get? k = some v := by
    intro k v hk hv
    have hv := get_union_in (Dict.union environ (modeEnv o)) conf k v hv hkn
    simp only [List.mem_cons, List.not_mem_nil, or_false] at hk
    rw [finalEnv_get, hv]
    rcases hk with rfl | rfl | rfl | rfl <;> simp
  refine ⟨?_, ?_, ?_, ?_, ?_, ?_⟩
  · intro hx
    rw [hall py!"ANSIBLE_CALLBACKS_ENABLED" (joinCh 44 (py!"ansibug.dap.debug" :: cbs)) (by simp) (by rw [← hconfd]; rfl)]
    simp only [Option.map_some]
    rw [splitCh_join 44 _ (by simp)]
    intro x hm
    rcases List.mem_cons.1 hm with rfl | hm
    · decide
    · exact hx x hm
  · intro hx
    rw [hall py!"ANSIBLE_COLLECTIONS_PATH" (joinCh 58 (pkg :: cps)) (by simp) (by rw [← hconfd]; rfl)]
    simp only [Option.map_some]
    rw [splitCh_join 58 _ (by simp) hx]
  · intro hx
    rw [hall py!"PYTHONPATH" (joinCh 58 (parent :: (splitCh 58 ((environ.get? py!"PYTHONPATH").getD [])).filter (· ≠ []))) (by simp) (by rw [← hconfd]; rfl)]
    simp only [Option.map_some]
    rw [splitCh_join 58 _ (by simp)]
    intro x hm
    rcases List.mem_cons.1 hm with rfl | hm
    · exact hx
    · exact splitCh_parts 58 _ x (List.mem_filter.1 hm).1
  · exact hall py!"ANSIBLE_STRATEGY" _ (by simp) (by rw [← hconfd]; rfl)
  · rw [finalEnv_get]; simp
  · rw [finalEnv_get]; simp

/-- A dump with two settings of the user, among others. -/
def exampleDump : List Json := [
  .obj [(py!"name", .str py!"ACTION_WARNINGS"), (py!"value", .bool true)],
  .obj [(py!"name", .str py!"CALLBACKS_ENABLED"), (py!"value", .arr [.str py!"timer", .str py!"profile"])],
  .obj [(py!"default", .null)],
  .obj [(py!"name", .str py!"COLLECTIONS_PATHS"), (py!"value", .arr [.str py!"/c1", .str py!"/c2"])]]

/-- The hypotheses of `C61_configuration_kept_partial` are met by a realistic dump. -/
example : DumpOk exampleDump ∧ userList exampleDump py!"CALLBACKS_ENABLED" = [py!"timer", py!"profile"].map .str ∧
    userList exampleDump py!"COLLECTIONS_PATHS" = [py!"/c1", py!"/c2"].map .str := by
  refine ⟨⟨?_, ?_, ?_⟩, rfl, rfl⟩
  · intro e he; simp [exampleDump] at he; rcases he with rfl | rfl | rfl | rfl <;> exact ⟨_, rfl⟩
  · intro e he; simp [exampleDump] at he
    rcases he with rfl | rfl | rfl | rfl <;> simp [Named, HasList, Dict.get?]
  · simp [exampleDump, Named, Dict.get?]

/-- Exactly when the user's entries reach Ansible as they were, for every environment and every dump
of the usual form: the enabled callbacks, as Ansible reads them from its variable, are ansibug's own
followed by the user's iff no entry contains a comma; the collection paths are ansibug's directory
followed by the user's iff neither contains a colon; and `PYTHONPATH`, set by the user to `t`, is
ansibug's parent directory followed by the entries of `t` iff that directory contains no colon and no
entry of `t` is empty. -/
theorem C61_exact_partial (exe pkg parent : Str) (environ : Dict Str Str) (es : List Json) (o : StartOpts)
    (args : List Str) (cbs cps : List Str) (t : Str) (hd : DumpOk es)
    (hcb : userList es py!"CALLBACKS_ENABLED" = cbs.map .str)
    (hcp : userList es py!"COLLECTIONS_PATHS" = cps.map .str)
    (ht : environ.get? py!"PYTHONPATH" = some t) :
    ∃ argv env, execPlaybook exe environ (.arr es) pkg parent o args = .ok (argv, env) ∧
      ((env.get? py!"ANSIBLE_CALLBACKS_ENABLED").map (splitCh 44) = some (py!"ansibug.dap.debug" :: cbs) ↔
        ∀ x ∈ cbs, 44 ∉ x) ∧
      ((env.get? py!"ANSIBLE_COLLECTIONS_PATH").map (splitCh 58) = some (pkg :: cps) ↔ ∀ x ∈ pkg :: cps, 58 ∉ x) ∧
      ((env.get? py!"PYTHONPATH").map (splitCh 58) = some (parent :: splitCh 58 t) ↔
        58 ∉ parent ∧ [] ∉ splitCh 58 t) := by
  obtain ⟨argv, env, h, h1, h2, h3, -⟩ := C61_configuration_kept_partial exe pkg parent environ es o args cbs cps hd hcb hcp
  have parts : ∀ (sep : Nat) (v : Option Str) (l : List Str), v.map (splitCh sep) = some l → ∀ x ∈ l, sep ∉ x := by
    intro sep v l hv x hx
    cases v with
    | none => cases hv
    | some w =>
      simp only [Option.map_some, Option.some.injEq] at hv
      subst hv
      exact splitCh_parts sep w x hx
  refine ⟨argv, env, h, ⟨?_, h1⟩, ⟨parts 58 _ _, h2⟩, ?_, ?_⟩
  · intro hv x hx
    exact parts 44 _ _ hv x (List.mem_cons_of_mem _ hx)
  · intro hv
    have hp := parts 58 _ _ hv parent (List.mem_cons_self)
    refine ⟨hp, ?_⟩
    have := h3 hp
    rw [hv, ht] at this
    simp only [Option.getD_some, Option.some.injEq, List.cons.injEq, true_and] at this
    intro hm
    rw [this] at hm
    simpa using (List.mem_filter.1 hm).2
  · rintro ⟨hp, he⟩
    rw [h3 hp, ht]
    simp only [Option.getD_some, Option.some.injEq, List.cons.injEq, true_and]
    rw [List.filter_eq_self]
    intro x hx
    simp only [ne_eq, decide_not, Bool.not_eq_eq_eq_not, Bool.not_true, decide_eq_false_iff_not]
    rintro rfl
    exact he hx

/-- Both sides of `C61_exact_partial` occur. -/
example : [] ∉ splitCh 58 py!"/a:/b" ∧ [] ∈ splitCh 58 py!"/a::/b" ∧ [] ∈ splitCh 58 py!"" := by decide +kernel

/-- The property fails for empty entries of the python path (the current directory, to Python):
they are dropped. -/
theorem C61_empty_entry_refuted : ∃ environ conf, configureEnv environ (.arr exampleDump) py!"/site/ansibug" py!"/site" = .ok conf ∧
    splitCh 58 ((Dict.get? environ py!"PYTHONPATH").getD []) = [py!"/a", py!"", py!"/b"] ∧
    (Dict.get? conf py!"PYTHONPATH").map (splitCh 58) = some [py!"/site", py!"/a", py!"/b"] :=
  ⟨[(py!"PYTHONPATH", py!"/a::/b")], _, rfl, by rfl, by rfl⟩

/-- A repeated setting makes the start fail with a KeyError (`to_check.remove`). -/
theorem C61_repeated_setting_fails : ∃ es : List Json, ∀ environ pkg parent,
    configureEnv environ (.arr es) pkg parent = .error .key :=
  ⟨[.obj [(py!"name", .str py!"CALLBACKS_ENABLED"), (py!"value", .arr [])],
    .obj [(py!"name", .str py!"CALLBACKS_ENABLED"), (py!"value", .arr [])]], fun _ _ _ => rfl⟩

/-! ## C62: the launch script -/

/-- The clean-up program: it connects to the socket whose name is given in base 64. -/
def cleanUp (sn : Str) : Str :=
  py!"\nimport base64\nimport socket\n\nn = base64.b64decode('" ++ sn ++
  py!"').decode()\ntry:\n    with socket.socket(socket.AF_UNIX, socket.SOCK_STREAM) as s:\n        s.connect(n)\nexcept OSError:\n    pass\n"

/-- Whatever the interpreter path (absolute), the ansibug arguments, the socket path and the
arguments of the script are (text that can be encoded, without NUL, as for every file name
and argument), and whichever of the started programs fail: the shell runs exactly `rm -f` on
the script, then (if that worked) the interpreter with exactly the ansibug arguments and the
arguments given to the script, then the interpreter with the clean-up program, in which the
only foreign text is the base 64 form of the socket path, which has no quote or backslash and
decodes to the socket path. -/
theorem C62_launch_script (exe path : Str) (args : List Str) (exeB : Str) (argsB : List Str)
    (hexe : enc exe = some exeB) (hargs : encAll args = some argsB) (hpath : (utf8Encode path).isSome)
    (habs : exe.head? = some 47) (hz : 0 ∉ exe) (haz : ∀ a ∈ args, 0 ∉ a) (hne : args ≠ []) :
    ∃ text bytes sn, launchScript exe (py!"uds://" ++ path) args = some text ∧ enc text = some bytes ∧
      (∀ c ∈ sn, isB64 c = true) ∧ (b64Decode sn).bind utf8Decode = some path ∧
      ∀ ok zero uargs, runScript ok bytes zero uargs = some (
        if ok [[py!"rm", py!"-f", zero]] then
          [[py!"rm", py!"-f", zero], exeB :: (argsB ++ uargs), [exeB, py!"-c", cleanUp sn]]
        else [[py!"rm", py!"-f", zero], [exeB, py!"-c", cleanUp sn]]) := by
  obtain ⟨pathB, hp⟩ := Option.isSome_iff_exists.1 hpath
  have habs' : ∃ r, exe = 47 :: r := by
    cases exe with
    | nil => simp at habs
    | cons c r => exact ⟨r, by simp at habs; rw [habs]⟩
  obtain ⟨text, bytes, h1, h2, h3⟩ := launch_script_runs exe path args exeB argsB pathB hexe hargs hp habs' hz haz hne
  refine ⟨text, bytes, b64Encode pathB, h1, h2, b64Encode_safe pathB, ?_, ?_⟩
  · rw [b64_roundtrip]; exact utf8Decode_encode path pathB hp
  · intro ok zero uargs
    rw [h3 ok zero uargs]; rfl

/-- Hostile names: an interpreter path with quotes, blanks, `$`, a newline and a non-ASCII
letter, and an argument made of shell syntax. -/
example : (enc py!"/o'p t/$(x)\né").isSome ∧ (py!"/o'p t/$(x)\né").head? = some 47 ∧ 0 ∉ py!"/o'p t/$(x)\né" ∧
    (encAll [py!"--addr", py!"'; rm -rf / #", py!""]).isSome := by decide +kernel

example : runScript (fun _ => true) (scriptText py!"QQ==" (shQuote py!"/p y") (joinSp ([py!"-m", py!"a'b"].map shQuote)))
    py!"/tmp/s" [py!"pl$ay.yml", py!""] = some
    [[py!"rm", py!"-f", py!"/tmp/s"], [py!"/p y", py!"-m", py!"a'b", py!"pl$ay.yml", py!""],
     [py!"/p y", py!"-c", cleanUp py!"QQ=="]] := by decide +kernel

/-! ## C63: TLS -/

/-- The adapter's TLS context checks the debuggee's certificate and host name, except when the
setting is exactly `ignore`; then it checks neither. -/
theorem C63_verification_off_only_on_request (fs : TlsFs) (verify : Json) (cert key pw : Option Str) (c : TlsCtx)
    (h : clientCtx fs verify cert key pw = .ok c) :
    (verify = .str py!"ignore" → c.verifyMode = .certNone ∧ c.checkHostname = false) ∧
    (verify ≠ .str py!"ignore" → c.verifyMode = .certRequired ∧ c.checkHostname = true) := by
  have hchain : ∀ (c0 : TlsCtx), (match cert with
      | some f => if f ≠ [] then loadChain fs c0 f key pw else .ok c0
      | none => .ok c0) = Except.ok c → c.verifyMode = c0.verifyMode ∧ c.checkHostname = c0.checkHostname := by
    intro c0 h
    split at h
    · split at h
      · unfold loadChain at h
        split at h
        · cases h; exact ⟨rfl, rfl⟩
        · cases h
      · cases h; exact ⟨rfl, rfl⟩
    · cases h; exact ⟨rfl, rfl⟩
  have hload : ∀ s c1, loadVerify fs serverAuthCtx s = .ok c1 → c1.verifyMode = .certRequired ∧ c1.checkHostname = true := by
    intro s c1 h
    simp only [loadVerify, addCa] at h
    split at h
    · split at h
      · cases h; exact ⟨rfl, rfl⟩
      · cases h
    · split at h
      · split at h
        · cases h; exact ⟨rfl, rfl⟩
        · cases h
      · cases h
  unfold clientCtx at h
  cases verify with
  | str s =>
    simp only at h
    by_cases hs : s = py!"ignore"
    · subst hs
      simp only [if_true] at h
      have := hchain _ h
      exact ⟨fun _ => this, fun hne => absurd rfl hne⟩
    · rw [if_neg hs] at h
      refine ⟨fun e => absurd (by simpa using e) hs, fun _ => ?_⟩
      by_cases hv : s = py!"verify"
      · rw [if_neg (by simpa using hv)] at h
        exact hchain _ h
      · rw [if_pos hv] at h
        cases hl : loadVerify fs serverAuthCtx s with
        | error x => simp [hl] at h
        | ok c1 =>
          simp only [hl] at h
          have h1 := hchain _ h
          have h2 := hload s c1 hl
          exact ⟨h1.1.trans h2.1, h1.2.trans h2.2⟩
  | _ => simp at h

/-- A custom CA path that does not exist is a ValueError; one that exists is loaded, as a
directory or as a file, in addition to the system's CAs. -/
theorem C63_custom_ca (fs : TlsFs) (path : Str) (hp : path ≠ py!"ignore" ∧ path ≠ py!"verify") (key pw : Option Str) :
    (fs.isDir (fs.expand path) = false → fs.exists_ (fs.expand path) = false →
      ∀ cert, clientCtx fs (.str path) cert key pw = .error .value) ∧
    (∀ c, clientCtx fs (.str path) none key pw = .ok c →
      c.cas = [.system, if fs.isDir (fs.expand path) then .dir (fs.absolute (fs.expand path))
        else .file (fs.absolute (fs.expand path))]) := by
  refine ⟨?_, ?_⟩
  · intro h1 h2 cert
    simp [clientCtx, hp.1, hp.2, loadVerify, h1, h2]
  · intro c h
    simp only [clientCtx, hp.1, hp.2, if_false, ne_eq, not_false_eq_true, if_true, loadVerify, addCa] at h
    split at h
    · cases h
    · rename_i c1 hc1
      cases h
      split at hc1
      · rename_i hd
        split at hc1
        · cases hc1; simp [serverAuthCtx, hd]
        · cases hc1
      · rename_i hd
        split at hc1
        · split at hc1
          · cases hc1; simp [serverAuthCtx, hd]
          · cases hc1
        · cases hc1

/-- The listening side demands a certificate from the client exactly if a client CA was given,
and then trusts nothing but that CA; the certificate given is the one it presents. -/
theorem C63_client_certificate (fs : TlsFs) (cert key pw ca : Option Str) (c : TlsCtx)
    (h : serverCtx fs cert key pw ca = .ok c) :
    (c.verifyMode = .certRequired ↔ ∃ p, ca = some p ∧ p ≠ []) ∧ c.verifyMode ≠ .certOptional ∧
    (∀ p, ca = some p → p ≠ [] → c.cas = [if fs.isDir (fs.expand p) then .dir (fs.absolute (fs.expand p))
        else .file (fs.absolute (fs.expand p))]) ∧
    ∃ f, cert = some f ∧ c.chain = some (f, key, pw) := by
  unfold serverCtx at h
  split at h
  · cases h
  · rename_i f
    split at h
    · cases h
    · rename_i c0 hc0
      have hc0' : c0 = { clientAuthCtx with chain := some (f, key, pw) } := by
        unfold loadChain at hc0
        split at hc0
        · cases hc0; rfl
        · cases hc0
      subst hc0'
      split at h
      · rename_i p
        split at h
        · rename_i hp
          simp only [loadVerify, addCa] at h
          split at h
          · rename_i hd
            split at h
            · cases h
              refine ⟨⟨fun _ => ⟨p, rfl, hp⟩, fun _ => rfl⟩, by simp, ?_, f, rfl, rfl⟩
              intro q hq _; cases hq; simp [clientAuthCtx, hd]
            · cases h
          · rename_i hd
            split at h
            · split at h
              · cases h
                refine ⟨⟨fun _ => ⟨p, rfl, hp⟩, fun _ => rfl⟩, by simp, ?_, f, rfl, rfl⟩
                intro q hq _; cases hq; simp [clientAuthCtx, hd]
              · cases h
            · cases h
        · rename_i hp
          cases h
          refine ⟨⟨fun e => by simp [clientAuthCtx] at e, ?_⟩, by simp [clientAuthCtx], ?_, f, rfl, rfl⟩
          · rintro ⟨q, hq, hq'⟩; cases hq; exact absurd hq' hp
          · intro q hq hq'; cases hq; exact absurd hq' hp
      · cases h
        refine ⟨⟨fun e => by simp [clientAuthCtx] at e, ?_⟩, by simp [clientAuthCtx], ?_, f, rfl, rfl⟩
        · rintro ⟨q, hq, hq'⟩; cases hq
        · intro q hq hq'; cases hq

/-- The debuggee talks TLS exactly if that was asked for and it is the listening side. -/
theorem C63_tls_iff_requested (fs : TlsFs) (unfrack : Str → Str) (env : Dict Str Str) (r : CallbackStart)
    (h : callbackStart fs unfrack env = .ok r) :
    r.tls.isSome ↔ ((env.get? py!"ANSIBUG_USE_TLS").map ansBool = some true ∧
      env.get? py!"ANSIBUG_MODE" = some py!"listen") := by
  unfold callbackStart at h
  simp only at h
  split at h
  · cases h
  · rename_i c hc
    cases h
    simp only
    split at hc
    · rename_i hb
      simp only [Bool.and_eq_true, beq_iff_eq] at hb
      split at hc
      · cases hc
        refine ⟨fun _ => ⟨?_, hb.2⟩, fun _ => rfl⟩
        cases hu : (env.get? py!"ANSIBUG_USE_TLS").map ansBool with
        | none => simp [hu] at hb
        | some b => simp [hu] at hb; simp [hb.1]
      · cases hc
    · rename_i hb
      cases hc
      refine ⟨fun e => by simp at e, ?_⟩
      rintro ⟨h1, h2⟩
      exact absurd (by simp [h1, h2]) hb

/-- The adapter: an attach connects with TLS exactly if the debuggee's process information (when
attaching by process id) or the request asks for it; and then with verification unless the
request says `ignore`. -/
theorem C63_attach (fz : Str → Bool) (floatOk : Json → Bool) (str : Json → Str) (pidDir : Str → Option Str)
    (fs : TlsFs) (data : List (Str × Json)) (addr : Json) (tls : Option TlsCtx)
    (h : attachConnect fz floatOk str pidDir fs data = some (addr, tls)) :
    ∃ a useTls, Server.attachFromJson fz floatOk data = some a ∧
      Server.connTuple fz str pidDir a = some (addr, useTls) ∧
      (tls.isSome ↔ Server.truthy fz useTls = true) ∧
      ∀ c, tls = some c → (c.verifyMode = .certRequired ∧ c.checkHostname = true) ∨
        Dict.get? data py!"tlsVerification" = some (.str py!"ignore") := by
  unfold attachConnect at h
  simp only [Option.bind_eq_bind, Option.bind_eq_some_iff] at h
  obtain ⟨a, ha, ⟨addr', useTls⟩, hc, h⟩ := h
  refine ⟨a, useTls, ha, ?_, ?_⟩
  · split at h
    · simp only [Option.bind_eq_some_iff] at h
      obtain ⟨_, _, _, _, _, _, h⟩ := h
      split at h
      · cases h; exact hc
      · cases h
    · cases h; exact hc
  · split at h
    · rename_i ht
      simp only [Option.bind_eq_some_iff] at h
      obtain ⟨cert, _, key, _, pw, _, h⟩ := h
      split at h
      · rename_i c hctx
        cases h
        refine ⟨⟨fun _ => ht, fun _ => rfl⟩, ?_⟩
        intro c' hc'
        cases hc'
        have := C63_verification_off_only_on_request fs _ cert key pw c hctx
        by_cases hv : Server.getD data py!"tlsVerification" (.str py!"verify") = .str py!"ignore"
        · right
          unfold Server.getD at hv
          cases hg : Dict.get? data py!"tlsVerification" with
          | none => rw [hg] at hv; simp at hv
          | some v => rw [hg] at hv; simp at hv; rw [hv]
        · left; exact this.2 hv
      · cases h
    · rename_i ht
      cases h
      exact ⟨⟨fun e => by simp at e, fun e => absurd e (by simpa using ht)⟩, by simp⟩

/-- The adapter: an attach request that is accepted, finds an address and asks for TLS connects with TLS if it names no certificate or null, and does not name an authority. -/
theorem C63_attach_plain (fz : Str → Bool) (floatOk : Json → Bool) (str : Json → Str) (pidDir : Str → Option Str) (fs : TlsFs) (data : List (Str × Json))
    (a : Server.AttachArgs) (addr tls : Json) (ha : Server.attachFromJson fz floatOk data = some a) (hc : Server.connTuple fz str pidDir a = some (addr, tls))
    (ht : Server.truthy fz tls = true)
    (hn : ∀ k ∈ [py!"tlsCertificate", py!"tlsKey", py!"tlsKeyPassword"], Dict.get? data k = none ∨ Dict.get? data k = some .null)
    (hv : Dict.get? data py!"tlsVerification" = none ∨ Dict.get? data py!"tlsVerification" = some (.str py!"verify")) :
    ∃ c, attachConnect fz floatOk str pidDir fs data = some (addr, some c) ∧ c.chain = none ∧ c.verifyMode = .certRequired ∧ c.checkHostname = true := by
  have opt : ∀ k ∈ [py!"tlsCertificate", py!"tlsKey", py!"tlsKeyPassword"], optStr data k = some none := by
    intro k hk
    unfold optStr Server.getD
    rcases hn k hk with h | h <;> rw [h] <;> rfl
  have hv' : Server.getD data py!"tlsVerification" (.str py!"verify") = .str py!"verify" := by
    unfold Server.getD
    rcases hv with h | h <;> rw [h] <;> rfl
  refine ⟨serverAuthCtx, ?_, rfl, rfl, rfl⟩
  unfold attachConnect
  simp only [ha, hc, Option.bind_eq_bind, Option.bind_some, ht, if_true]
  rw [opt _ (by simp), opt _ (by simp), opt _ (by simp), hv']
  rfl

/-- The adapter: a certificate named in the attach request is presented, with the key and the password of the request;
without one (missing, null or empty) none is. -/
theorem C63_attach_certificate (fz : Str → Bool) (floatOk : Json → Bool) (str : Json → Str) (pidDir : Str → Option Str)
    (fs : TlsFs) (data : List (Str × Json)) (addr : Json) (c : TlsCtx)
    (h : attachConnect fz floatOk str pidDir fs data = some (addr, some c)) :
    (∀ f, Dict.get? data py!"tlsCertificate" = some (.str f) → f ≠ [] → ∃ key pw, c.chain = some (f, key, pw) ∧
      (∀ k, key = some k ↔ Dict.get? data py!"tlsKey" = some (.str k)) ∧
      (∀ p, pw = some p ↔ Dict.get? data py!"tlsKeyPassword" = some (.str p))) ∧
    ((∀ f, Dict.get? data py!"tlsCertificate" = some (.str f) → f = []) → c.chain = none) := by
  unfold attachConnect at h
  simp only [Option.bind_eq_bind, Option.bind_eq_some_iff] at h
  obtain ⟨a, ha, ⟨addr', useTls⟩, hc, h⟩ := h
  split at h
  · simp only [Option.bind_eq_some_iff] at h
    obtain ⟨cert, h1, key, h2, pw, h3, h⟩ := h
    split at h
    · rename_i c' hctx
      cases h
      have hopt : ∀ k x, optStr data k = some x → ∀ y, x = some y ↔ Dict.get? data k = some (.str y) := by
        intro k x hx y
        unfold optStr Server.getD at hx
        cases hg : Dict.get? data k with
        | none => simp [hg] at hx; subst hx; simp
        | some v =>
          simp only [hg, Option.getD_some] at hx
          cases v <;> simp at hx <;> subst hx <;> simp
      have hc1 : ∀ c1 : TlsCtx, c1.chain = none → (match cert with
          | some f => if f ≠ [] then loadChain fs c1 f key pw else .ok c1
          | none => .ok c1) = Except.ok c →
          (∀ f, cert = some f → f ≠ [] → c.chain = some (f, key, pw)) ∧ ((∀ f, cert = some f → f = []) → c.chain = none) := by
        intro c1 hn hm
        cases cert with
        | none => cases hm; exact ⟨by simp, fun _ => hn⟩
        | some f =>
          simp only at hm
          split at hm
          · rename_i hf
            unfold loadChain at hm
            split at hm <;> cases hm
            exact ⟨by rintro f' hf' -; cases hf'; rfl, fun hall => absurd (hall f rfl) hf⟩
          · rename_i hf
            cases hm
            refine ⟨by rintro f' hf' hne; cases hf'; exact absurd hne hf, fun _ => hn⟩
      have key0 : (∀ f, cert = some f → f ≠ [] → c.chain = some (f, key, pw)) ∧ ((∀ f, cert = some f → f = []) → c.chain = none) := by
        unfold clientCtx at hctx
        simp only at hctx
        split at hctx
        · cases hctx
        · rename_i c1 hc1'
          refine hc1 c1 ?_ hctx
          split at hc1'
          · split at hc1'
            · cases hc1'; rfl
            · split at hc1'
              · unfold loadVerify addCa at hc1'
                simp only at hc1'
                split at hc1'
                · split at hc1' <;> cases hc1'; rfl
                · split at hc1'
                  · split at hc1' <;> cases hc1'; rfl
                  · cases hc1'
              · cases hc1'; rfl
          · cases hc1'
      refine ⟨fun f hf hne => ⟨key, pw, key0.1 f ((hopt _ _ h1 f).2 hf) hne, hopt _ _ h2, hopt _ _ h3⟩, fun hall => ?_⟩
      exact key0.2 fun f hf => hall f ((hopt _ _ h1 f).1 hf)
    · cases h
  · cases h

/-- A file system where everything exists. -/
def exampleFs : TlsFs := ⟨id, id, fun p => p == py!"/ca.d", fun _ => true, fun _ => true, fun _ _ _ => true⟩

example : (attachConnect (fun _ => false) (fun _ => true) (fun _ => []) (fun _ => none) exampleFs
    [(py!"address", .str py!"tcp://h:1"), (py!"useTls", .bool true), (py!"tlsCertificate", .str py!"/c.pem"), (py!"tlsKeyPassword", .str py!"pw")]).map
      (fun r => r.2.map (·.chain)) = some (some (some (py!"/c.pem", none, some py!"pw"))) := by rfl

example : clientCtx exampleFs (.str py!"/ca.pem") none none none = .ok ⟨.certRequired, true, [.system, .file py!"/ca.pem"], none⟩ := rfl
example : (serverCtx exampleFs (some py!"/c.pem") none none (some py!"/ca.d")).toOption.isSome = true := rfl
example : ((attachConnect (fun _ => false) (fun _ => true) (fun _ => []) (fun _ => none) exampleFs
    [(py!"address", .str py!"tcp://h:1"), (py!"useTls", .bool true)]).map (·.2.map (·.verifyMode))) =
    some (some .certRequired) := by decide +kernel

/-! ## C64: variable types -/

/-- Python does not allow a class to derive from two of `str`, `int`, `float` and `tuple`
(their memory layouts conflict). -/
def OneLayout (c : PyCls) : Prop :=
  ∀ a b, a ∈ [Builtin.str, .int, .float, .tuple] → b ∈ [Builtin.str, .int, .float, .tuple] →
    Derives c a → Derives c b → a = b

theorem derives_int_of_bool {c : PyCls} (h : Derives c .bool) : Derives c .int := by
  generalize hb : Builtin.bool = b at h
  induction h with
  | builtin h =>
    subst hb
    rename_i a
    refine .builtin ?_
    cases a <;> simp_all [Builtin.sub]
  | base hc _ ih => exact .base hc (ih hb)

/-- For every class, however deep its hierarchy: strings of any kind are `str`; `bool` is `bool`
although it is an integer; other integers are `int`; floats `float`; tuples (named tuples)
`tuple` although they are sequences; otherwise mappings are `dict`, sequences are `list`,
and everything else is shown with its own class name. -/
theorem C64_friendly_types (c : PyCls) (hl : OneLayout c) :
    (Derives c .str → friendlyType c = py!"str") ∧
    (Derives c .bool → friendlyType c = py!"bool") ∧
    (Derives c .int → ¬ Derives c .bool → friendlyType c = py!"int") ∧
    (Derives c .float → friendlyType c = py!"float") ∧
    (Derives c .tuple → friendlyType c = py!"tuple") ∧
    ((∀ b ∈ [Builtin.str, .int, .float, .tuple], ¬ Derives c b) →
      (Derives c .mapping → friendlyType c = py!"dict") ∧
      (¬ Derives c .mapping → Derives c .sequence → friendlyType c = py!"list") ∧
      (¬ Derives c .mapping → ¬ Derives c .sequence → friendlyType c = c.name)) := by
  have excl : ∀ a b, a ∈ [Builtin.str, .int, .float, .tuple] → b ∈ [Builtin.str, .int, .float, .tuple] →
      a ≠ b → Derives c a → ¬ Derives c b := fun a b ha hb hne h1 h2 => hne (hl a b ha hb h1 h2)
  unfold friendlyType
  have P : ∀ {b}, Derives c b → c.sub b = true := sub_of_derives
  have N : ∀ {b}, ¬ Derives c b → ¬ (c.sub b = true) := fun h e => h (derives_of_sub e)
  refine ⟨?_, ?_, ?_, ?_, ?_, ?_⟩
  · intro h; rw [if_pos (P h)]
  · intro h
    have hi := derives_int_of_bool h
    rw [if_neg (N <| excl .int .str (by simp) (by simp) (by simp) hi), if_pos (P h)]
  · intro h hb
    rw [if_neg (N <| excl .int .str (by simp) (by simp) (by simp) h), if_neg (N hb), if_pos (P h)]
  · intro h
    have hni := excl .float .int (by simp) (by simp) (by simp) h
    rw [if_neg (N <| excl .float .str (by simp) (by simp) (by simp) h), if_neg (N fun hb => hni (derives_int_of_bool hb)), if_neg (N hni), if_pos (P h)]
  · intro h
    have hni := excl .tuple .int (by simp) (by simp) (by simp) h
    rw [if_neg (N <| excl .tuple .str (by simp) (by simp) (by simp) h), if_neg (N fun hb => hni (derives_int_of_bool hb)), if_neg (N hni),
      if_neg (N <| excl .tuple .float (by simp) (by simp) (by simp) h), if_pos (P h)]
  · intro hno
    have h1 := hno .str (by simp)
    have h2 := hno .int (by simp)
    have h3 := hno .float (by simp)
    have h4 := hno .tuple (by simp)
    rw [if_neg (N h1), if_neg (N fun hb => h2 (derives_int_of_bool hb)), if_neg (N h2), if_neg (N h3), if_neg (N h4)]
    refine ⟨fun h => if_pos (P h), fun h g => ?_, fun h g => ?_⟩
    · rw [if_neg (N h), if_pos (P g)]
    · rw [if_neg (N h), if_neg (N g)]

/-- Ansible's lazy mapping and tagged string types, a named tuple and a plain class. -/
example : friendlyType (.defined py!"_AnsibleTaggedStr" [.defined py!"Tagged" [], .builtin .str]) = py!"str"
    ∧ friendlyType (.defined py!"Point" [.builtin .tuple]) = py!"tuple"
    ∧ friendlyType (.defined py!"HostVars" [.builtin .mapping]) = py!"dict"
    ∧ friendlyType (.builtin .bool) = py!"bool"
    ∧ friendlyType (.defined py!"Thing" []) = py!"Thing" := by decide +kernel

example : OneLayout (.defined py!"Point" [.defined py!"P" [.builtin .tuple]]) := by
  intro a b ha hb h1 h2
  have h1 := sub_of_derives h1
  have h2 := sub_of_derives h2
  simp only [List.mem_cons, List.not_mem_nil, or_false] at ha hb
  rcases ha with rfl | rfl | rfl | rfl <;> rcases hb with rfl | rfl | rfl | rfl <;>
    first | rfl | (exact absurd h1 (by decide +kernel)) | (exact absurd h2 (by decide +kernel))

/-- `bytes` are registered as a sequence: they are shown as `list`, as the property says for any
sequence. -/
theorem C64_bytes_are_a_list : friendlyType (.builtin .bytes) = py!"list" := by decide +kernel

/-! ## C69: launch arguments reach ansible-playbook unchanged -/

/-- The log levels the command line accepts. -/
def logLevels : List Str := [py!"info", py!"debug", py!"warning", py!"error"]

/-- `python -m ansibug connect --addr ADDR [--log-file F --log-level L] PLAYBOOK ARGS…`, as the
launch script runs it, replaces itself by `ansible-playbook PLAYBOOK ARGS…` with exactly these
arguments (options of ansibug itself, `--`, empty arguments included), told to connect to ADDR
and to wait for the configuration; provided that the playbook (and the log file) does not start
with a dash and that no argument abbreviates two options of `ansibug connect` (which Python up
to 3.11 rejects while looking at the arguments). -/
theorem C69_arguments_reach_ansible (eager : Bool) (absPath : Str → Str) (exe pkg parent : Str) (environ : Dict Str Str)
    (dump : Json) (addr p : Str) (log : Option (Str × Str)) (args : List Str) (conf : Dict Str Str)
    (haddr : addr.head? ≠ some 45) (hp : p.head? ≠ some 45)
    (hlog : ∀ f l, log = some (f, l) → f.head? ≠ some 45 ∧ l ∈ logLevels)
    (hamb : eager = true → ∀ a ∈ args, a = py!"--" ∨ (partEq a).1 ∉ ambigConnect)
    (hconf : configureEnv environ dump pkg parent = .ok conf) :
    ∃ env, mainExec eager absPath exe environ dump pkg parent ((ansibugArgs addr log).drop 2 ++ p :: args) =
        some ([exe, py!"-m", py!"ansible", py!"playbook"] ++ p :: args, env) ∧
      env.get? py!"ANSIBUG_DEBUG_ADDR" = some addr ∧ env.get? py!"ANSIBUG_MODE" = some py!"connect" ∧
      env.get? py!"ANSIBUG_NO_WAIT_FOR_CONFIG_DONE" = some py!"false" ∧
      env.get? py!"ANSIBUG_USE_TLS" = some py!"False" ∧
      (∀ f l, log = some (f, l) → env.get? py!"ANSIBUG_LOG_FILE" = some (absPath f) ∧
        env.get? py!"ANSIBUG_LOG_LEVEL" = some l) := by
  have hnd : ∀ x : Str, x.head? ≠ some 45 → x ≠ [45, 45] := by rintro x hx rfl; simp at hx
  have hargs : eager = true → ∀ a ∈ args, a = [45, 45] ∨ parseOptional connectOpts a ≠ .ambiguous := by
    intro he a ha
    rcases hamb he a ha with h | h
    · exact Or.inl h
    · exact Or.inr fun e => h (ambig_connect a e)
  have c1 : parseOptional connectOpts py!"--addr" = .opt py!"--addr" .value none := by decide +kernel
  have c2 : parseOptional connectOpts py!"--log-file" = .opt py!"--log-file" .value none := by decide +kernel
  have c3 : parseOptional connectOpts py!"--log-level" = .opt py!"--log-level" .value none := by decide +kernel
  have a1 := parseOptional_arg connectOpts addr haddr
  cases log with
  | none =>
    have hsub : subParse eager connectOpts true ([py!"--addr", addr] ++ p :: args) =
        some ([(py!"--addr", addr)], p :: args) := by
      apply subParse_remainder eager connectOpts [py!"--addr", addr] p args _ _ _ hp
      · intro he a ha
        simp only [List.cons_append, List.nil_append, List.mem_cons] at ha
        rcases ha with rfl | rfl | ha
        · right; rw [c1]; simp
        · right; rw [a1]; simp
        · exact hargs he a ha
      · simp only [List.mem_cons, List.not_mem_nil, or_false, not_or]
        exact ⟨by decide, Ne.symm (hnd addr haddr)⟩
      · simp only [classify, if_neg (hnd addr haddr), a1, c1]
        rfl
    refine ⟨finalEnv environ conf { mode := py!"connect", addr := addr, noWait := false }, ?_, ?_⟩
    · have : (ansibugArgs addr none).drop 2 ++ p :: args = py!"connect" :: ([py!"--addr", addr] ++ p :: args) := rfl
      rw [this]
      unfold mainExec parseArgs
      simp only [if_true, hsub]
      simp [Dict.get?, startOpts, execPlaybook, hconf]
    · simp [finalEnv_get, lowBool, capBool]
  | some fl =>
    obtain ⟨f, l⟩ := fl
    obtain ⟨hf, hl⟩ := hlog f l rfl
    have a2 := parseOptional_arg connectOpts f hf
    have hld : l.head? ≠ some 45 := by
      simp only [logLevels, List.mem_cons, List.not_mem_nil, or_false] at hl
      rcases hl with rfl | rfl | rfl | rfl <;> decide
    have a3 := parseOptional_arg connectOpts l hld
    have hv : valueOk py!"--log-level" l = true := by
      simp only [logLevels, List.mem_cons, List.not_mem_nil, or_false] at hl
      rcases hl with rfl | rfl | rfl | rfl <;> decide
    have hsub : subParse eager connectOpts true ([py!"--addr", addr, py!"--log-file", f, py!"--log-level", l] ++ p :: args) =
        some ([(py!"--addr", addr), (py!"--log-file", f), (py!"--log-level", l)], p :: args) := by
      apply subParse_remainder eager connectOpts _ p args _ _ _ hp
      · intro he a ha
        simp only [List.cons_append, List.nil_append, List.mem_cons] at ha
        rcases ha with rfl | rfl | rfl | rfl | rfl | rfl | ha
        · right; rw [c1]; simp
        · right; rw [a1]; simp
        · right; rw [c2]; simp
        · right; rw [a2]; simp
        · right; rw [c3]; simp
        · right; rw [a3]; simp
        · exact hargs he a ha
      · simp only [List.mem_cons, List.not_mem_nil, or_false, not_or]
        exact ⟨by decide, Ne.symm (hnd addr haddr), by decide, Ne.symm (hnd f hf), by decide, Ne.symm (hnd l hld)⟩
      · have hlf : valueOk py!"--log-file" f = true := by simp [valueOk]
        have hla : valueOk py!"--addr" addr = true := by simp [valueOk]
        simp only [classify, if_neg (hnd addr haddr), if_neg (hnd f hf), if_neg (hnd l hld), a1, c1, a2, c2, a3, c3]
        simp [consume, hv, hlf, hla, Dict.set]
    refine ⟨finalEnv environ conf { mode := py!"connect", addr := addr, noWait := false, logFile := some (absPath f), logLevel := l }, ?_, ?_⟩
    · have : (ansibugArgs addr (some (f, l))).drop 2 ++ p :: args =
          py!"connect" :: ([py!"--addr", addr, py!"--log-file", f, py!"--log-level", l] ++ p :: args) := rfl
      rw [this]
      unfold mainExec parseArgs
      simp only [if_true, hsub]
      simp [Dict.get?, startOpts, execPlaybook, hconf]
    · simp [finalEnv_get, lowBool, capBool]

/-- From the launch request to `execve`: the client runs the launch script with the playbook and
the arguments of the request.  If removing the script works, the second program the shell runs is
the interpreter with `-m ansibug` and a command line which, decoded, makes ansibug execute
`ansible-playbook` with the playbook and the arguments of the request, unchanged. -/
theorem C69_launch_end_to_end (eager : Bool) (absPath : Str → Str) (exe pkg parent : Str) (environ : Dict Str Str)
    (dump : Json) (queuePath dbgPath p : Str) (log : Option (Str × Str)) (args : List Str) (conf : Dict Str Str)
    (hconf : configureEnv environ dump pkg parent = .ok conf)
    (habs : exe.head? = some 47) (hp : p.head? ≠ some 45)
    (hlog : ∀ f l, log = some (f, l) → f.head? ≠ some 45 ∧ l ∈ logLevels)
    (hamb : eager = true → ∀ a ∈ args, a = py!"--" ∨ (partEq a).1 ∉ ambigConnect)
    (hq : (utf8Encode queuePath).isSome) (exeB : Str) (hexe : enc exe = some exeB)
    (sB : List Str) (hs : encAll (ansibugArgs (py!"uds://" ++ dbgPath) log) = some sB)
    (uB : List Str) (hu : encAll (p :: args) = some uB)
    (hz : ∀ a ∈ exe :: ansibugArgs (py!"uds://" ++ dbgPath) log, 0 ∉ a)
    (ok : List (List Str) → Bool) (zero : Str) (hok : ok [[py!"rm", py!"-f", zero]] = true) :
    ∃ text bytes trace cmd env,
      launchScript exe (py!"uds://" ++ queuePath) (ansibugArgs (py!"uds://" ++ dbgPath) log) = some text ∧
      enc text = some bytes ∧ runScript ok bytes zero uB = some trace ∧ trace[1]? = some cmd ∧
      cmd.map dec = (exe :: py!"-m" :: py!"ansibug" :: ((ansibugArgs (py!"uds://" ++ dbgPath) log).drop 2 ++ p :: args)).map some ∧
      mainExec eager absPath exe environ dump pkg parent ((ansibugArgs (py!"uds://" ++ dbgPath) log).drop 2 ++ p :: args) =
        some ([exe, py!"-m", py!"ansible", py!"playbook"] ++ p :: args, env) ∧
      env.get? py!"ANSIBUG_DEBUG_ADDR" = some (py!"uds://" ++ dbgPath) := by
  obtain ⟨text, bytes, sn, h1, h2, _, _, h3⟩ := C62_launch_script exe queuePath _ exeB sB hexe hs hq habs
    (hz exe (by simp)) (fun a ha => hz a (List.mem_cons_of_mem _ ha)) (by simp [ansibugArgs])
  obtain ⟨env, e1, e2, _⟩ := C69_arguments_reach_ansible eager absPath exe pkg parent environ dump (py!"uds://" ++ dbgPath) p
    log args conf (by simp) hp hlog hamb hconf
  have ht := h3 ok zero uB
  rw [if_pos hok] at ht
  refine ⟨text, bytes, _, _, env, h1, h2, ht, rfl, ?_, e1, e2⟩
  have d1 := dec_enc exe exeB hexe
  have d2 := dec_encAll _ _ hs
  have d3 := dec_encAll _ _ hu
  rw [List.map_cons, List.map_append, d1, d2, d3]
  simp [ansibugArgs]

/-- Arguments that look like options of ansibug, `--` and an empty argument are passed on. -/
example : (subParse true connectOpts true [py!"--addr", py!"uds:///s", py!"play.yml", py!"--addr", py!"--", py!"--log-level=x", py!"", py!"-vvv"]).map (·.2)
    = some [py!"play.yml", py!"--addr", py!"--", py!"--log-level=x", py!"", py!"-vvv"] := by decide +kernel

example : configureEnv [] (.arr exampleDump) py!"/site/ansibug" py!"/site" = .ok [
    (py!"ANSIBLE_CALLBACKS_ENABLED", py!"ansibug.dap.debug,timer,profile"),
    (py!"ANSIBLE_COLLECTIONS_PATH", py!"/site/ansibug:/c1:/c2"),
    (py!"ANSIBLE_STRATEGY", py!"ansibug.dap.debug"), (py!"PYTHONPATH", py!"/site")] := by rfl

/-- A playbook that starts with a dash is taken for an option: the command line is rejected. -/
theorem C69_dash_playbook_rejected (eager : Bool) (addr : Str) (args : List Str) (haddr : addr.head? ≠ some 45) :
    parseArgs eager ([py!"connect", py!"--addr", addr, py!"-play.yml"] ++ args) = none := by
  have hnd : addr ≠ [45, 45] := by rintro rfl; simp at haddr
  have a1 := parseOptional_arg connectOpts addr haddr
  have c1 : parseOptional connectOpts py!"--addr" = .opt py!"--addr" .value none := by decide +kernel
  have c2 : parseOptional connectOpts py!"-play.yml" = .unknown := by decide +kernel
  have hla : valueOk py!"--addr" addr = true := by simp [valueOk]
  have : subParse eager connectOpts true ([py!"--addr", addr, py!"-play.yml"] ++ args) = none := by
    simp only [subParse, List.cons_append, List.nil_append, classify, if_neg hnd, a1, c1, c2]
    simp [consume, hla]
    exact ite_self _
  simp only [parseArgs, List.cons_append, List.nil_append, if_true] at this ⊢
  rw [this]

/-- Python up to 3.11 rejects a launch one of whose arguments abbreviates two of ansibug's own
options, e.g. `--log`, although the argument is meant for ansible-playbook. -/
theorem C69_ambiguous_argument_rejected : 
    parseArgs true [py!"connect", py!"--addr", py!"uds:///s", py!"play.yml", py!"--log"] = none ∧
    (parseArgs false [py!"connect", py!"--addr", py!"uds:///s", py!"play.yml", py!"--log"]).isSome = true := by
  decide +kernel

/-! ## C70: the options of the command line reach the debuggee -/

/-- What the callback sees for an option: the value given on the command line, else the
inherited environment variable. -/
def effective (given : Option Str) (environ : Dict Str Str) (k : Str) : Option Str :=
  match given with
  | some v => some v
  | none => environ.get? k

theorem modeEnv_get (o : StartOpts) (environ conf : Dict Str Str) (k : Str)
    (hconf : k ∉ conf.map (·.1)) :
    (Dict.union (Dict.union environ (modeEnv o)) conf).get? k = (Dict.union environ (modeEnv o)).get? k :=
  get_union _ _ _ hconf

/-- The debugger in the playbook process starts with the mode, the address, the waiting and the
logging of the command line, uses TLS exactly if asked to while listening, presents the
certificate given, and demands a client certificate if (and, unless the variable is inherited,
only if) a client CA was given. -/
theorem C70_options_reach_debuggee (fs : TlsFs) (unfrack : Str → Str) (exe pkg parent : Str) (environ : Dict Str Str)
    (dump : Json) (o : StartOpts) (args argv : List Str) (env : Dict Str Str) (r : CallbackStart)
    (h : execPlaybook exe environ dump pkg parent o args = .ok (argv, env))
    (hr : callbackStart fs unfrack env = .ok r) :
    r.mode = some o.mode ∧ r.addr = o.addr ∧ r.wait = !o.noWait ∧
    (r.tls.isSome ↔ o.useTls = true ∧ o.mode = py!"listen") ∧
    (∀ f, o.logFile = some f → r.logFile = some (unfrack f) ∧ r.logLevel = o.logLevel) ∧
    ∀ c, r.tls = some c →
      (∃ cert, effective o.tlsCert environ py!"ANSIBUG_TLS_SERVER_CERTFILE" = some cert ∧
        c.chain = some (unfrack cert, (effective o.tlsKey environ py!"ANSIBUG_TLS_SERVER_KEYFILE").map unfrack,
          effective (o.tlsPassword.filter (· ≠ [])) environ py!"ANSIBUG_TLS_SERVER_KEY_PASSWORD")) ∧
      (c.verifyMode = .certRequired ↔
        ∃ ca, effective o.tlsClientCa environ py!"ANSIBUG_TLS_CLIENT_CA" = some ca ∧ unfrack ca ≠ []) := by
  unfold execPlaybook at h
  cases hc : configureEnv environ dump pkg parent with
  | error x => simp [hc] at h
  | ok conf =>
    have hkeys := configureEnv_keys hc
    simp only [hc, Except.ok.injEq, Prod.mk.injEq] at h
    obtain ⟨_, rfl⟩ := h
    have hnot : ∀ k, k ∈ [py!"ANSIBUG_TLS_SERVER_CERTFILE", py!"ANSIBUG_TLS_SERVER_KEYFILE",
        py!"ANSIBUG_TLS_SERVER_KEY_PASSWORD", py!"ANSIBUG_TLS_CLIENT_CA"] →
        (finalEnv environ conf o).get? k = (Dict.union environ (modeEnv o)).get? k := by
      intro k hk
      rw [finalEnv_get]
      simp only [List.mem_cons, List.not_mem_nil, or_false] at hk
      rcases hk with rfl | rfl | rfl | rfl <;> simp <;>
        exact get_union _ _ _ (by rw [hkeys]; decide)
    have hu : ∀ k, (Dict.union environ (modeEnv o)).get? k =
        match Dict.get? (modeEnv o) k with
        | some v => some v
        | none => environ.get? k := by
      intro k
      have hn : ((modeEnv o).map (·.1)).Nodup := by
        simp only [modeEnv, List.map_append, optEntry_keys]
        cases o.tlsCert.isSome <;> cases o.tlsKey.isSome <;> cases (o.tlsPassword.filter (· ≠ [])).isSome <;>
          cases o.tlsClientCa.isSome <;> decide
      cases hg : Dict.get? (modeEnv o) k with
      | none => exact get_union _ _ _ (DL.get_none.1 hg)
      | some v => exact get_union_in _ _ _ _ hg hn
    have hm1 : Dict.get? (modeEnv o) py!"ANSIBUG_TLS_SERVER_CERTFILE" = o.tlsCert := by
      unfold modeEnv
      cases o.tlsCert <;> cases o.tlsKey <;> cases (o.tlsPassword.filter (· ≠ [])) <;> cases o.tlsClientCa <;> rfl
    have hm2 : Dict.get? (modeEnv o) py!"ANSIBUG_TLS_SERVER_KEYFILE" = o.tlsKey := by
      unfold modeEnv
      cases o.tlsCert <;> cases o.tlsKey <;> cases (o.tlsPassword.filter (· ≠ [])) <;> cases o.tlsClientCa <;> rfl
    have hm3 : Dict.get? (modeEnv o) py!"ANSIBUG_TLS_SERVER_KEY_PASSWORD" = o.tlsPassword.filter (· ≠ []) := by
      unfold modeEnv
      cases o.tlsCert <;> cases o.tlsKey <;> cases (o.tlsPassword.filter (· ≠ [])) <;> cases o.tlsClientCa <;> rfl
    have hm4 : Dict.get? (modeEnv o) py!"ANSIBUG_TLS_CLIENT_CA" = o.tlsClientCa := by
      unfold modeEnv
      cases o.tlsCert <;> cases o.tlsKey <;> cases (o.tlsPassword.filter (· ≠ [])) <;> cases o.tlsClientCa <;> rfl
    have g1 := (hnot py!"ANSIBUG_TLS_SERVER_CERTFILE" (by simp)).trans (hu _)
    have g2 := (hnot py!"ANSIBUG_TLS_SERVER_KEYFILE" (by simp)).trans (hu _)
    have g3 := (hnot py!"ANSIBUG_TLS_SERVER_KEY_PASSWORD" (by simp)).trans (hu _)
    have g4 := (hnot py!"ANSIBUG_TLS_CLIENT_CA" (by simp)).trans (hu _)
    rw [hm1] at g1; rw [hm2] at g2; rw [hm3] at g3; rw [hm4] at g4
    have f1 : (finalEnv environ conf o).get? py!"ANSIBUG_MODE" = some o.mode := by rw [finalEnv_get]; simp
    have f2 : (finalEnv environ conf o).get? py!"ANSIBUG_DEBUG_ADDR" = some o.addr := by rw [finalEnv_get]; simp
    have f3 : (finalEnv environ conf o).get? py!"ANSIBUG_USE_TLS" = some (capBool o.useTls) := by rw [finalEnv_get]; simp
    have f4 : (finalEnv environ conf o).get? py!"ANSIBUG_NO_WAIT_FOR_CONFIG_DONE" = some (lowBool o.noWait) := by
      rw [finalEnv_get]; simp
    have b1 : ansBool (capBool o.useTls) = o.useTls := by cases o.useTls <;> decide
    have b2 : ansBool (lowBool o.noWait) = o.noWait := by cases o.noWait <;> decide
    have htls := C63_tls_iff_requested fs unfrack _ r hr
    rw [f3, f1, Option.map_some, b1] at htls
    unfold callbackStart at hr
    simp only [f1, f2, f3, f4, Option.map_some, Option.getD_some, b1, b2] at hr
    split at hr
    · cases hr
    · rename_i tls htl
      cases hr
      refine ⟨rfl, rfl, rfl, by simpa using htls, ?_, ?_⟩
      · intro f hf
        simp only
        rw [finalEnv_get, finalEnv_get]; simp [hf]
      · intro c hcc
        simp only at hcc
        split at htl
        · split at htl
          · rename_i c' hctx
            cases htl
            cases hcc
            obtain ⟨k1, _, _, f, k3, k4⟩ := C63_client_certificate fs _ _ _ _ c hctx
            rw [g1] at k3
            refine ⟨?_, ?_⟩
            · cases hcert : effective o.tlsCert environ py!"ANSIBUG_TLS_SERVER_CERTFILE" with
              | none =>
                unfold effective at hcert
                rw [hcert] at k3; simp at k3
              | some cert =>
                have hcert' := hcert
                unfold effective at hcert
                rw [hcert] at k3; simp at k3
                refine ⟨cert, rfl, ?_⟩
                rw [k4, ← k3, g2, g3]; rfl
            · rw [k1, g4]
              constructor
              · rintro ⟨q, h1, h2⟩
                simp only [Option.map_eq_some_iff] at h1
                obtain ⟨ca, hca, rfl⟩ := h1
                exact ⟨ca, hca, h2⟩
              · rintro ⟨ca, h1, h2⟩
                refine ⟨unfrack ca, ?_, h2⟩
                simp only [Option.map_eq_some_iff]
                exact ⟨ca, h1, rfl⟩
          · cases htl
        · cases htl; cases hcc

theorem consume_no_dash (cs : List (Str × Cls)) (ns ns' : Dict Str Str) (h : consume cs ns = some (ns', [])) :
    ∀ c ∈ cs, c.2 ≠ .dash := by
  fun_induction consume cs ns with
  | case1 => simp
  | case2 => simp at h
  | case3 => simp at h
  | case4 => simp at h
  | case5 => simp at h
  | case6 => simp at h
  | case7 s o rest ns ih => simp only [List.forall_mem_cons]; exact ⟨by simp, ih h⟩
  | case8 => simp at h
  | case9 s o v rest ns hv ih => simp only [List.forall_mem_cons]; exact ⟨by simp, ih h⟩
  | case10 => simp at h
  | case11 s o v rest ns hv ih => simp only [List.forall_mem_cons]; exact ⟨by simp, by simp, ih h⟩
  | case12 => simp at h
  | case13 => simp at h

theorem classify_dash (tbl : OptTbl) (l : List Str) (h : [45, 45] ∈ l) : ∃ c ∈ classify tbl l, c.2 = .dash := by
  induction l with
  | nil => simp at h
  | cons s ss ih =>
    simp only [classify]
    by_cases hs : s = [45, 45]
    · rw [if_pos hs]; exact ⟨(s, .dash), List.mem_cons_self, rfl⟩
    · rw [if_neg hs]
      have : [45, 45] ∈ ss := by
        rcases List.mem_cons.1 h with h | h
        · exact absurd h.symm hs
        · exact h
      obtain ⟨c, hc, hd⟩ := ih this
      exact ⟨c, by simp [hc], hd⟩

/-- Once the options of `ansibug listen` are complete, the playbook and everything after it
belongs to ansible-playbook, whatever it looks like, and does not change the options. -/
theorem C70_options_end_at_the_playbook (eager : Bool) (opts : List Str) (ns : Dict Str Str) (p : Str) (args : List Str)
    (hopts : parseArgs eager (py!"listen" :: opts) = some (.listen ns []))
    (hp : p.head? ≠ some 45)
    (hamb : eager = true → ∀ a ∈ args, a = py!"--" ∨ (partEq a).1 ∉ ambigListen) :
    parseArgs eager (py!"listen" :: (opts ++ p :: args)) = some (.listen ns (p :: args)) := by
  simp only [parseArgs, if_true] at hopts ⊢
  rw [if_neg (by decide), if_neg (by decide)] at hopts ⊢
  simp only [Option.map_eq_some_iff] at hopts
  obtain ⟨⟨ns', rest⟩, hsub, heq⟩ := hopts
  cases heq
  unfold subParse at hsub
  simp only at hsub
  split at hsub
  · cases hsub
  · rename_i hne
    cases hcons : consume (classify listenOpts opts) [] with
    | none => simp [hcons] at hsub
    | some v =>
      obtain ⟨ns', rest⟩ := v
      simp [hcons] at hsub
      obtain ⟨rfl, rfl⟩ := hsub
      have hdash : [45, 45] ∉ opts := by
        intro hm
        obtain ⟨c, hc, hd⟩ := classify_dash listenOpts opts hm
        exact consume_no_dash _ _ _ hcons c hc hd
      rw [subParse_remainder eager listenOpts opts p args ns' hdash hcons hp]
      · rfl
      · intro he a ha
        rcases List.mem_append.1 ha with ha | ha
        · right
          intro e
          apply hne
          simp only [he, Bool.true_and, List.any_eq_true, decide_eq_true_eq]
          have : (a, parseOptional listenOpts a) ∈ classify listenOpts opts := by
            clear hcons hne
            induction opts with
            | nil => simp at ha
            | cons x xs ih =>
              simp only [List.mem_cons, not_or] at hdash
              simp only [classify, if_neg (Ne.symm hdash.1)]
              rcases List.mem_cons.1 ha with rfl | ha
              · simp
              · exact List.mem_cons_of_mem _ (ih hdash.2 (List.mem_append_left _ ha) ha)
          exact ⟨_, this, by simpa using e⟩
        · rcases hamb he a ha with h | h
          · exact Or.inl h
          · exact Or.inr fun e => h (ambig_listen a e)

example : parseArgs true [py!"listen", py!"--addr=tcp://:0", py!"--wrap", py!"--tls-cert", py!"/c.pem", py!"--no-wait"] =
    some (.listen [(py!"--addr", py!"tcp://:0"), (py!"--wrap-tls", []), (py!"--tls-cert", py!"/c.pem"), (py!"--no-wait", [])] []) := by
  decide +kernel

/-! ## C71: the launch request becomes one terminal request -/

/-- A launch request that is accepted asks the client to run the launch script with the playbook
and the arguments, in order, in the requested directory, environment and terminal, under the debugger's title. -/
theorem C71_terminal_request (fz : Str → Bool) (floatOk : Json → Bool) (data : List (Str × Json)) (a : LaunchArgs)
    (file addr : Str) (sargs : List Str) (req : TerminalReq)
    (ha : launchFromJson fz floatOk data = some a) (h : handleLaunch fz file addr a = some (sargs, req)) :
    (∃ p items, Dict.get? data py!"playbook" = some p ∧ Server.truthy fz p = true ∧
      iterJson ((Dict.get? data py!"args").getD (.arr [])) = .ok items ∧ req.args = .str file :: p :: items) ∧
    req.cwd = (Dict.get? data py!"cwd").getD (.str []) ∧ req.env = (Dict.get? data py!"env").getD (.obj []) ∧
    (req.kind = py!"external" ↔ Dict.get? data py!"console" = some (.str py!"externalTerminal")) ∧
    (req.kind = py!"integrated" ↔ (Dict.get? data py!"console" = none ∨
      Dict.get? data py!"console" = some (.str py!"integratedTerminal"))) ∧ req.title = py!"Ansible Debug Console" := by
  unfold launchFromJson at ha
  simp only at ha
  split at ha
  · cases ha
  · rename_i hpb
    split at ha
    · cases ha
    · rename_i k hk
      split at ha
      · cases ha
      · split at ha
        · cases ha
        · cases ha
          unfold handleLaunch at h
          simp only at h
          split at h
          · cases h
          · split at h
            · cases h
            · rename_i items hit
              cases h
              refine ⟨?_, rfl, rfl, and_assoc.1 ⟨?_, rfl⟩⟩
              · cases hp : Dict.get? data py!"playbook" with
                | none => simp [Server.getD, hp, Server.truthy] at hpb
                | some p =>
                  refine ⟨p, items, rfl, ?_, hit, ?_⟩
                  · simpa [Server.getD, hp] using hpb
                  · simp [Server.getD, hp]
              · simp only [Server.getD] at hk
                cases hc : Dict.get? data py!"console" with
                | none => simp [hc] at hk; subst hk; simp
                | some v =>
                  simp only [hc, Option.getD_some] at hk
                  cases v with
                  | str s =>
                    simp only at hk
                    split at hk
                    · rename_i hs; cases hk; subst hs; simp
                    · split at hk
                      · rename_i hs; cases hk; subst hs; simp
                      · cases hk
                  | _ => simp at hk

/-- The debuggee's command line: an accepted launch request whose arguments are a list becomes a terminal request; the debuggee is told the address it
connects to, and the log file and level (by default info) exactly if the request names a log file (null counts as none). -/
theorem C71_log_options (fz : Str → Bool) (floatOk : Json → Bool) (data : List (Str × Json)) (a : LaunchArgs) (file addr : Str)
    (ha : launchFromJson fz floatOk data = some a) (items : List Json)
    (hargs : Dict.get? data py!"args" = none ∨ Dict.get? data py!"args" = some (.arr items)) :
    (Dict.get? data py!"logFile" = none ∨ Dict.get? data py!"logFile" = some .null →
      ∃ req, handleLaunch fz file addr a = some ([py!"-m", py!"ansibug", py!"connect", py!"--addr", addr], req)) ∧
    (∀ f, Dict.get? data py!"logFile" = some (.str f) → Dict.get? data py!"logLevel" = none →
      ∃ req, handleLaunch fz file addr a = some ([py!"-m", py!"ansibug", py!"connect", py!"--addr", addr, py!"--log-file", f, py!"--log-level", py!"info"], req)) ∧
    (∀ f l, Dict.get? data py!"logFile" = some (.str f) → Dict.get? data py!"logLevel" = some (.str l) →
      ∃ req, handleLaunch fz file addr a = some ([py!"-m", py!"ansibug", py!"connect", py!"--addr", addr, py!"--log-file", f, py!"--log-level", l], req)) := by
  have hA : a.args = (Dict.get? data py!"args").getD (.arr []) ∧ a.logFile = (Dict.get? data py!"logFile").getD .null ∧
      a.logLevel = (Dict.get? data py!"logLevel").getD (.str py!"info") := by
    unfold launchFromJson at ha
    simp only at ha
    split at ha
    · cases ha
    · split at ha
      · cases ha
      · split at ha
        · cases ha
        · split at ha
          · cases ha
          · cases ha; exact ⟨rfl, rfl, rfl⟩
  obtain ⟨h1, h2, h3⟩ := hA
  have hit : ∃ l, iterJson a.args = .ok l := by
    rw [h1]
    rcases hargs with h | h <;> rw [h] <;> exact ⟨_, rfl⟩
  obtain ⟨l0, hit⟩ := hit
  refine ⟨fun h => ?_, fun f h h' => ?_, fun f l h h' => ?_⟩
  · have : a.logFile = .null := by rw [h2]; rcases h with h | h <;> rw [h] <;> rfl
    simp [handleLaunch, this, hit, ansibugArgs]
  · rw [h] at h2; rw [h'] at h3
    simp [handleLaunch, h2, h3, quotable, hit, ansibugArgs]
  · rw [h] at h2; rw [h'] at h3
    simp [handleLaunch, h2, h3, quotable, hit, ansibugArgs]

/-- A launch request without a playbook (missing, null or empty) or with an unknown console is
rejected: no terminal request is made. -/
theorem C71_rejected (fz : Str → Bool) (floatOk : Json → Bool) (data : List (Str × Json)) :
    (Server.truthy fz ((Dict.get? data py!"playbook").getD .null) = false → launchFromJson fz floatOk data = none) ∧
    (∀ v, Dict.get? data py!"console" = some v → v ≠ .str py!"integratedTerminal" → v ≠ .str py!"externalTerminal" →
      launchFromJson fz floatOk data = none) := by
  constructor
  · intro h
    simp [launchFromJson, Server.getD, h]
  · intro v hv h1 h2
    have hk : (match v with
      | .str s => if s = py!"integratedTerminal" then some py!"integrated"
          else if s = py!"externalTerminal" then some py!"external" else none
      | _ => (none : Option Str)) = none := by
      cases v with
      | str s =>
        simp only
        rw [if_neg (by rintro rfl; exact h1 rfl), if_neg (by rintro rfl; exact h2 rfl)]
      | _ => rfl
    unfold launchFromJson
    simp only [Server.getD, hv, Option.getD_some]
    split
    · rfl
    · split
      · rfl
      · rename_i k hk'
        exact absurd (hk.symm.trans hk') (by simp)

/-- A launch request is accepted exactly if it has a playbook, its console is one of the two (or not given), its path mappings are a list of objects with both roots
(or empty, or not given) and its connect timeout is a number (or not given: 5 seconds). -/
theorem C71_accepted (fz : Str → Bool) (floatOk : Json → Bool) (data : List (Str × Json)) :
    (launchFromJson fz floatOk data).isSome = true ↔
      (∃ p, Dict.get? data py!"playbook" = some p ∧ Server.truthy fz p = true) ∧
      (Dict.get? data py!"console" = none ∨ Dict.get? data py!"console" = some (.str py!"integratedTerminal") ∨
        Dict.get? data py!"console" = some (.str py!"externalTerminal")) ∧
      (Dict.get? data py!"pathMappings" = none ∨ Dict.get? data py!"pathMappings" = some (.str []) ∨ Dict.get? data py!"pathMappings" = some (.obj []) ∨
        ∃ l, Dict.get? data py!"pathMappings" = some (.arr l) ∧ ∀ j ∈ l, ∃ m, Server.IsMapping j m) ∧
      floatOk ((Dict.get? data py!"connectTimeout").getD (.float py!"5.0")) = true := by
  have hpb : (∃ p, Dict.get? data py!"playbook" = some p ∧ Server.truthy fz p = true) ↔ Server.truthy fz ((Dict.get? data py!"playbook").getD .null) = true := by
    cases Dict.get? data py!"playbook" <;> simp [Server.truthy]
  have hcon : ∀ c : Json, (match c with
      | .str s => if s = py!"integratedTerminal" then some py!"integrated"
          else if s = py!"externalTerminal" then some py!"external" else none
      | _ => (none : Option Str)).isSome = true ↔ c = .str py!"integratedTerminal" ∨ c = .str py!"externalTerminal" := by
    intro c
    cases c with
    | str s =>
      simp only [Json.str.injEq]
      split
      · simp_all
      · split <;> simp_all
    | _ => simp
  have hcon2 : (Dict.get? data py!"console" = none ∨ Dict.get? data py!"console" = some (.str py!"integratedTerminal") ∨
        Dict.get? data py!"console" = some (.str py!"externalTerminal")) ↔
      ((Dict.get? data py!"console").getD (.str py!"integratedTerminal") = .str py!"integratedTerminal" ∨
        (Dict.get? data py!"console").getD (.str py!"integratedTerminal") = .str py!"externalTerminal") := by
    cases Dict.get? data py!"console" <;> simp
  have hmap : (Dict.get? data py!"pathMappings" = none ∨ Dict.get? data py!"pathMappings" = some (.str []) ∨ Dict.get? data py!"pathMappings" = some (.obj []) ∨
        ∃ l, Dict.get? data py!"pathMappings" = some (.arr l) ∧ ∀ j ∈ l, ∃ m, Server.IsMapping j m) ↔
      (Server.mappingsOf ((Dict.get? data py!"pathMappings").getD (.arr []))).isSome = true := by
    cases Dict.get? data py!"pathMappings" with
    | none => simp [Server.mappingsOf, Server.mappingList]
    | some v =>
      cases v with
      | str s => simp only [Option.getD_some, Server.mappingsOf]; split <;> simp_all
      | obj s => simp only [Option.getD_some, Server.mappingsOf]; split <;> simp_all
      | arr l =>
        simp only [Option.getD_some, Server.mappingsOf, Option.some.injEq, reduceCtorEq, Json.arr.injEq, false_or, exists_eq_left']
        constructor
        · intro h
          obtain ⟨ms, hms⟩ := Server.mappingList_total l h
          simp [hms]
        · intro h j hj
          refine Classical.byContradiction fun hn => ?_
          rw [Server.mappingList_none l j hj (fun m hm => hn ⟨m, hm⟩)] at h
          cases h
      | _ => simp [Server.mappingsOf]
  rw [hpb, hcon2, hmap]
  change _ ↔ Server.truthy fz (Server.getD data py!"playbook" .null) = true ∧ _ ∧ (Server.mappingsOf (Server.getD data py!"pathMappings" (.arr []))).isSome = true ∧
    floatOk (Server.getD data py!"connectTimeout" (.float py!"5.0")) = true
  unfold launchFromJson
  simp only
  split
  · rename_i h; simp only [Bool.not_eq_true'] at h; simp [h]
  · rename_i h1
    simp only [Bool.not_eq_true', Bool.not_eq_false] at h1
    simp only [h1, true_and]
    split
    · rename_i hk
      have hno : ¬ (Server.getD data py!"console" (.str py!"integratedTerminal") = .str py!"integratedTerminal" ∨
          Server.getD data py!"console" (.str py!"integratedTerminal") = .str py!"externalTerminal") := fun h => by
        have h2 : (none : Option Str).isSome = true := (congrArg Option.isSome hk).symm.trans ((hcon _).2 h)
        cases h2
      simp only [Server.getD] at hno
      simp only [hno, false_and]; simp
    · rename_i k hk
      have hyes : Server.getD data py!"console" (.str py!"integratedTerminal") = .str py!"integratedTerminal" ∨
          Server.getD data py!"console" (.str py!"integratedTerminal") = .str py!"externalTerminal" :=
        (hcon _).1 ((congrArg Option.isSome hk).trans rfl)
      simp only [Server.getD] at hyes
      simp only [hyes, true_and]
      split
      · rename_i hm; rw [hm]; simp
      · rename_i ms hm
        rw [hm]
        simp only [Option.isSome_some, true_and]
        split
        · rename_i h; simp only [Bool.not_eq_true'] at h; simp [h]
        · rename_i h; simp only [Bool.not_eq_true', Bool.not_eq_false] at h; simp [h]

/-- The path mappings of an accepted launch request are those of its arguments, one for one and in order; an entry without
one of the roots fails the request; without path mappings there are none. -/
theorem C71_mappings (fz : Str → Bool) (floatOk : Json → Bool) (data : List (Str × Json)) :
    (∀ l, Dict.get? data py!"pathMappings" = some (.arr l) →
      (∀ a, launchFromJson fz floatOk data = some a → a.mappings.length = l.length ∧
        ∀ (i : Nat) j m, l[i]? = some j → a.mappings[i]? = some m → Server.IsMapping j m) ∧
      ∀ j ∈ l, (∀ m, ¬ Server.IsMapping j m) → launchFromJson fz floatOk data = none) ∧
    (Dict.get? data py!"pathMappings" = none → ∀ a, launchFromJson fz floatOk data = some a → a.mappings = []) := by
  have hm : ∀ a, launchFromJson fz floatOk data = some a →
      Server.mappingsOf (Server.getD data py!"pathMappings" (.arr [])) = some a.mappings := by
    intro a ha
    unfold launchFromJson at ha
    simp only at ha
    split at ha
    · cases ha
    · split at ha
      · cases ha
      · split at ha
        · cases ha
        · rename_i ms hms
          split at ha
          · cases ha
          · cases ha; exact hms
  refine ⟨fun l hl => ⟨fun a ha => ?_, fun j hj hn => ?_⟩, fun hl a ha => ?_⟩
  · have := hm a ha
    simp only [Server.getD, hl, Option.getD_some, Server.mappingsOf] at this
    exact (Server.mappingList_iff l _).1 this
  · cases h : launchFromJson fz floatOk data with
    | none => rfl
    | some a =>
      have := hm a h
      simp only [Server.getD, hl, Option.getD_some, Server.mappingsOf, Server.mappingList_none l j hj hn] at this
      cases this
  · have := hm a ha
    simp only [Server.getD, hl, Option.getD_none, Server.mappingsOf, Server.mappingList, Option.some.injEq] at this
    exact this.symm

/-- C71: path mappings that are no list: an empty text or object counts as no mappings, anything else fails the request. -/
theorem C71_mappings_no_list (fz : Str → Bool) (floatOk : Json → Bool) (data : List (Str × Json)) (j : Json) (a : LaunchArgs)
    (hp : Dict.get? data py!"pathMappings" = some j) (hl : ∀ l, j ≠ .arr l) (ha : launchFromJson fz floatOk data = some a) :
    (j = .str [] ∨ j = .obj []) ∧ a.mappings = [] := by
  have hm : Server.mappingsOf j = some a.mappings := by
    rw [show j = Server.getD data py!"pathMappings" (.arr []) by simp [Server.getD, hp]]
    unfold launchFromJson at ha
    simp only at ha
    split at ha
    · cases ha
    · split at ha
      · cases ha
      · split at ha
        · cases ha
        · rename_i ms hms
          split at ha
          · cases ha
          · cases ha; exact hms
  cases j with
  | arr l => exact absurd rfl (hl l)
  | str t =>
    simp only [Server.mappingsOf] at hm
    split at hm <;> simp_all
  | obj t =>
    simp only [Server.mappingsOf] at hm
    split at hm <;> simp_all
  | _ => simp [Server.mappingsOf] at hm

example : (launchFromJson (fun _ => false) (fun _ => true) [(py!"playbook", .str py!"p.yml"), (py!"pathMappings", .obj [])]).isSome = true ∧
    launchFromJson (fun _ => false) (fun _ => true) [(py!"playbook", .str py!"p.yml"), (py!"pathMappings", .str py!"/srv")] = none := ⟨rfl, rfl⟩

example : (launchFromJson (fun _ => false) (fun _ => true) [(py!"playbook", .str py!"p.yml"), (py!"pathMappings", .arr [
    .obj [(py!"localRoot", .str py!"/me"), (py!"remoteRoot", .str py!"/srv")], .obj [(py!"remoteRoot", .null), (py!"localRoot", .int 1)]])]).map
    (·.mappings) = some [(.str py!"/me", .str py!"/srv"), (.int 1, .null)] := by rfl

example : ((launchFromJson (fun _ => false) (fun _ => true)
    [(py!"playbook", .str py!"p.yml"), (py!"args", .arr [.str py!"-v"]), (py!"console", .str py!"externalTerminal")]).bind
    (handleLaunch (fun _ => false) py!"/tmp/s" py!"uds:///d")).isSome = true := by rfl

end Verif.Props.Launch
