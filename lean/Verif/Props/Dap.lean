import Verif.Dap.Inst
import Verif.Dap.Exact
/-!
# Properties of packing, unpacking and dispatch (C08 to C13)

`dumps`/`loads` model `json.dumps`/`json.loads`; `toJson v` is the document that is written for a
Python value `v`; `unpack` is `ProtocolMessage.unpack`. `Instance c v` says that `v` is an
object of class `c` all of whose attributes have the annotated types (Dap/Spec.lean).
-/

namespace Verif.Props.Dap
open Verif Verif.Dap

/-! ## C08 JSON text round trip -/

/-- C08: the text written for any well-formed document parses back to the same document. -/
theorem C08_json_roundtrip (j : Json) (h : j.WF) : loads (dumps j) = some j := loads_dumps j h

/-- The excluded strings really are not carried: a high surrogate followed by a low one comes
back as one character. -/
theorem C08_surrogate_pair_is_joined : loads (dumps (.str [0xd83d, 0xde00])) = some (.str [0x1f600]) := by
  rfl

example : (Json.obj [(py!"a\n", .arr [.int (-3), .float py!"1.5e-07", .str [0x1f600, 0xd83d, 34, 92, 7]]), (py!"", .obj [])]).WF := by
  refine ⟨by decide +kernel, by decide +kernel, ⟨trivial, ?_, by unfold Json.WF; decide +kernel, trivial⟩, by decide +kernel, ⟨by simp, trivial⟩, trivial⟩
  exact FloatText.num [] py!"1" py!".5" py!"e-07" (.inl rfl) (.inr ⟨⟨by decide +kernel, by decide +kernel⟩, by decide +kernel⟩)
    (.inr ⟨py!"5", ⟨by decide +kernel, by decide +kernel⟩, rfl⟩)
    (.inr ⟨101, [45], py!"07", .inl rfl, .inr (.inr rfl), ⟨by decide +kernel, by decide +kernel⟩, rfl⟩) (.inl (by decide +kernel))

/-! ## C09 pack and unpack are inverse -/

/-- The messages excluded from the round trip: a stepIn request with a target id (its mapping
sends `targetId` to `thread_id`), and attach/launch requests whose `arguments` already contain
one of the reserved keys. -/
def Exact (c : Cls) (v : Val) : Prop :=
  (c = .StepInRequest → v.attr? py!"target_id" = some .null) ∧
  (c = .AttachRequest → ∀ l, v.attr? py!"arguments" = some (.dict l) → py!"__restart" ∉ l.map (·.1)) ∧
  (c = .LaunchRequest → ∀ l, v.attr? py!"arguments" = some (.dict l) →
    py!"__restart" ∉ l.map (·.1) ∧ py!"noDebug" ∉ l.map (·.1))

/-- The Python dictionaries inside a value have no repeated key (part of `Val.Ok`). -/
theorem unpackCls_pack (c : Cls) (v : Val) (h : Instance c v) (hok : v.Ok) (hx : Exact c v) :
    unpackCls c (toJson v) = .ok v := by
  unfold unpackCls
  split
  · obtain ⟨i, l, r, hl, hr, rfl⟩ := attach_inst v h
    refine attach_roundtrip i l r hl hr ?_ (hx.2.1 rfl l rfl)
    simp only [Val.Ok, Val.OkA] at hok; exact hok.2.2.2.1.1
  · obtain ⟨i, l, nd, r, hl, hr, rfl⟩ := launch_inst v h
    refine launch_roundtrip i l nd r hl hr ?_ (hx.2.2 rfl l rfl).1 (hx.2.2 rfl l rfl).2
    simp only [Val.Ok, Val.OkA] at hok; exact hok.2.2.2.1.1
  · rename_i h1 h2
    by_cases h3 : c = .StepInRequest
    · subst h3; exact stepIn_roundtrip v h (hx.1 rfl)
    · exact defaultUnpack_pack c v h ⟨h1, h2, h3⟩

/-- C09 (partial: the excluded messages are those of `Exact`): for every concrete request,
response and event class and every well-typed instance, what `ProtocolMessage.unpack` makes of
the packed form is the instance itself. -/
theorem C09_unpack_pack_partial (c : Cls) (v : Val) (h : Instance c v) (hk : c.kind? ≠ none) (hok : v.Ok)
    (hx : Exact c v) : unpack (toJson v) = .ok v := by
  rw [unpack_dispatch c v h hk]; exact unpackCls_pack c v h hok hx

/-- C09 through the text: writing the JSON text and parsing it again gives the instance. -/
theorem C09_text_roundtrip_partial (c : Cls) (v : Val) (h : Instance c v) (hk : c.kind? ≠ none) (hok : v.Ok)
    (hx : Exact c v) : (loads (dumps (toJson v))).map unpack = some (.ok v) := by
  rw [loads_dumps _ (toJson_wf v hok)]
  simp only [Option.map_some, C09_unpack_pack_partial c v h hk hok hx]

/-- The types nested inside messages (sources, breakpoints, variables, ...) round trip too. -/
theorem C09_nested_types (c : Cls) (v : Val) (h : Instance c v)
    (hc : c ≠ .AttachRequest ∧ c ≠ .LaunchRequest ∧ c ≠ .StepInRequest) :
    (defaultUnpack c (toJson v)) = .ok v := defaultUnpack_pack c v h hc

/-- A stepIn request with a target. -/
def stepInTarget : Val := .obj .StepInRequest [(py!"seq", .int 1), (py!"message_type", .enum .MessageType py!"request"),
  (py!"command", .enum .Command py!"stepIn"), (py!"thread_id", .int 2), (py!"single_thread", .bool false),
  (py!"target_id", .int 7), (py!"granularity", .str py!"line")]

/-- The attributes of `stepInTarget` as a function. -/
def stepInVal (a : Str) : Val :=
  if a = py!"seq" then .int 1 else if a = py!"message_type" then .enum .MessageType py!"request"
  else if a = py!"command" then .enum .Command py!"stepIn" else if a = py!"thread_id" then .int 2
  else if a = py!"single_thread" then .bool false else if a = py!"target_id" then .int 7 else .str py!"line"

theorem stepInTarget_instance : Instance .StepInRequest stepInTarget := by
  have h : stepInTarget = .obj .StepInRequest (Cls.StepInRequest.fields.map fun f => (f.name, stepInVal f.name)) := by rfl
  unfold Instance
  rw [h]
  have hf : Cls.StepInRequest.fields = [⟨py!"seq", false, some (.int 0), .int⟩,
    ⟨py!"message_type", false, none, .enum .MessageType⟩, ⟨py!"command", false, none, .enum .Command⟩,
    ⟨py!"thread_id", true, none, .int⟩, ⟨py!"single_thread", true, some (.bool false), .bool⟩,
    ⟨py!"target_id", true, some .null, .optional .int⟩,
    ⟨py!"granularity", true, some (.str py!"statement"), .literal [py!"statement", py!"line", py!"instruction"]⟩] := by rfl
  apply Typed.obj
  · rw [hf]
    intro f hm
    simp only [List.mem_cons, List.not_mem_nil, or_false] at hm
    rcases hm with rfl | rfl | rfl | rfl | rfl | rfl | rfl
    · exact .int _
    · exact .enum _ _ (by decide +kernel)
    · exact .enum _ _ (by decide +kernel)
    · exact .int _
    · exact .bool _
    · exact .optSome _ _ (.int _)
    · exact .literal _ _ (by decide +kernel)
  · rw [hf]
    intro f hm w hw
    simp only [List.mem_cons, List.not_mem_nil, or_false] at hm
    rcases hm with rfl | rfl | rfl | rfl | rfl | rfl | rfl <;> revert hw <;>
      first
        | (intro hw; rw [show fixedVal .StepInRequest ⟨py!"message_type", false, none, .enum .MessageType⟩ = some (.enum .MessageType py!"request") from rfl] at hw; cases hw; rfl)
        | (intro hw; rw [show fixedVal .StepInRequest ⟨py!"command", false, none, .enum .Command⟩ = some (.enum .Command py!"stepIn") from rfl] at hw; cases hw; rfl)
        | (intro hw; cases hw)

/-- C09 does not hold for stepIn requests with a target: the target is lost. -/
theorem C09_stepIn_refuted : ∃ v, Instance .StepInRequest v ∧ v.Ok ∧ unpack (toJson v) ≠ .ok v := by
  refine ⟨stepInTarget, stepInTarget_instance, ?_, ?_⟩
  · simp only [stepInTarget, Val.Ok, Val.OkA]; decide +kernel
  · have : unpack (toJson stepInTarget) = .ok (.obj .StepInRequest [(py!"seq", .int 1),
      (py!"message_type", .enum .MessageType py!"request"), (py!"command", .enum .Command py!"stepIn"),
      (py!"thread_id", .int 2), (py!"single_thread", .bool false), (py!"target_id", .null),
      (py!"granularity", .str py!"line")]) := by rfl
    rw [this]
    simp [stepInTarget]

/-- What a message is after packing and unpacking, in words: a stepIn request has lost its target; in the arguments of an attach request the entry `__restart` (of a launch request:
also `noDebug`) was taken for the attribute of that meaning; every other message is unchanged. -/
def comesBack : Cls → Val → Val
  | .StepInRequest, .obj c a => .obj c (Dict.set a py!"target_id" .null)
  | .AttachRequest, .obj c a => match Dict.get? a py!"arguments", Dict.get? a py!"restart" with
    | some (.dict l), some r => .obj c (Dict.set (Dict.set a py!"arguments" (.dict (Dict.erase l py!"__restart")))
        py!"restart" ((Dict.get? l py!"__restart").getD r))
    | _, _ => .obj c a
  | .LaunchRequest, .obj c a => match Dict.get? a py!"arguments", Dict.get? a py!"no_debug", Dict.get? a py!"restart" with
    | some (.dict l), some nd, some r =>
      .obj c (Dict.set (Dict.set (Dict.set a py!"arguments" (.dict (Dict.erase (Dict.erase l py!"noDebug") py!"__restart")))
        py!"no_debug" ((Dict.get? l py!"noDebug").getD nd)) py!"restart" ((Dict.get? l py!"__restart").getD r))
    | _, _, _ => .obj c a
  | _, v => v

/-- **C09, for every message.** What `ProtocolMessage.unpack` makes of the packed form of any well-typed instance of any concrete request, response or event class. -/
theorem C09_result (c : Cls) (v : Val) (h : Instance c v) (hk : c.kind? ≠ none) (hok : v.Ok) : unpack (toJson v) = .ok (comesBack c v) := by
  rw [unpack_dispatch c v h hk]
  unfold unpackCls
  split
  · obtain ⟨i, l, r, hl, hr, rfl⟩ := attach_inst v h
    rw [attach_result i l r hl hr (by simp only [Val.Ok, Val.OkA] at hok; exact hok.2.2.2.1.1)]
    rfl
  · obtain ⟨i, l, nd, r, hl, hr, rfl⟩ := launch_inst v h
    rw [launch_result i l nd r hl hr (by simp only [Val.Ok, Val.OkA] at hok; exact hok.2.2.2.1.1)]
    rfl
  · rename_i h1 h2
    by_cases h3 : c = .StepInRequest
    · subst h3
      obtain ⟨a, rfl, e⟩ := stepIn_result v h
      exact e
    · rw [defaultUnpack_pack c v h ⟨h1, h2, h3⟩]
      unfold comesBack
      split
      · exact absurd rfl h3
      · exact absurd rfl h1
      · exact absurd rfl h2
      · rfl

/-- **C09, exactly when it holds.** The message comes back unchanged exactly if it is none of the excluded ones: the exclusions of `C09_unpack_pack_partial` are all real. -/
theorem C09_exact_partial (c : Cls) (v : Val) (h : Instance c v) (hk : c.kind? ≠ none) (hok : v.Ok) : unpack (toJson v) = .ok v ↔ Exact c v := by
  refine ⟨fun e => ?_, C09_unpack_pack_partial c v h hk hok⟩
  rw [C09_result c v h hk hok] at e
  simp only [Except.ok.injEq] at e
  have gone : ∀ (l : Dict Str Val) (k : Str), k ∉ (Dict.erase l k).map (·.1) := by
    intro l k hm
    obtain ⟨x, hx, hk⟩ := List.mem_map.1 hm
    have := (List.mem_filter.1 hx).2
    simp [hk] at this
  have sub : ∀ (l : Dict Str Val) (k k' : Str), k ∉ l.map (·.1) → k ∉ (Dict.erase l k').map (·.1) := by
    intro l k k' hn hm
    obtain ⟨x, hx, hk⟩ := List.mem_map.1 hm
    exact hn (List.mem_map.2 ⟨x, (List.mem_filter.1 hx).1, hk⟩)
  refine ⟨?_, ?_, ?_⟩
  · rintro rfl
    cases h with
    | obj c val hty hfix =>
      have e' := congrArg (fun v => v.attr? py!"target_id") e
      exact e'.symm
  · rintro rfl l hl
    obtain ⟨i, l', r, -, -, rfl⟩ := attach_inst v h
    have e' := congrArg (fun v => v.attr? py!"arguments") e
    rw [hl] at e'
    have e'' : Val.dict (Dict.erase l' py!"__restart") = .dict l := Option.some.inj e'
    simp only [Val.dict.injEq] at e''
    rw [← e'']; exact gone _ _
  · rintro rfl l hl
    obtain ⟨i, l', nd, r, -, -, rfl⟩ := launch_inst v h
    have e' := congrArg (fun v => v.attr? py!"arguments") e
    rw [hl] at e'
    have e'' : Val.dict (Dict.erase (Dict.erase l' py!"noDebug") py!"__restart") = .dict l := Option.some.inj e'
    simp only [Val.dict.injEq] at e''
    rw [← e'']; exact ⟨gone _ _, sub _ _ _ (gone _ _)⟩

/-- Non-vacuity: a launch request whose arguments contain `noDebug`; it is well-typed, and not exact. -/
example : ∃ v, Instance .LaunchRequest v ∧ v.Ok ∧ ¬ Exact .LaunchRequest v := by
  refine ⟨.obj .LaunchRequest [(py!"seq", .int 1), (py!"message_type", .enum .MessageType py!"request"), (py!"command", .enum .Command py!"launch"),
    (py!"arguments", .dict [(py!"noDebug", .bool true), (py!"playbook", .str py!"a.yml")]), (py!"no_debug", .bool false), (py!"restart", .null)],
    instance_of (by decide +kernel), ?_, ?_⟩
  · simp only [Val.Ok, Val.OkA, Val.OkO]; decide +kernel
  · intro h
    exact (h.2.2 rfl _ rfl).2 (by decide +kernel)

/-! ## C10 stepIn -/

/-- A stepIn request document with the given arguments. -/
def stepInDoc (seq : Int) (args : List (Str × Json)) : Json :=
  .obj [(py!"seq", .int seq), (py!"type", .str py!"request"), (py!"command", .str py!"stepIn"), (py!"arguments", .obj args)]

theorem walkSub_untouched (rec) (c : Cls) (m : List (Str × Str)) (l : List (Str × Json)) (asg asg' : Dict Str Val)
    (a : Str) (h : walkSub rec c m l asg = .ok asg')
    (hno : ∀ kv ∈ l, Dict.get? m kv.1 = some a → kv.2 = .null) : Dict.get? asg' a = Dict.get? asg a := by
  induction l generalizing asg with
  | nil => simp only [walkSub, Except.ok.injEq] at h; rw [h]
  | cons x l ih =>
    obtain ⟨k, v⟩ := x
    have hno' : ∀ kv ∈ l, Dict.get? m kv.1 = some a → kv.2 = .null := fun kv hkv => hno kv (List.mem_cons_of_mem _ hkv)
    simp only [walkSub] at h
    split at h
    · exact ih asg h hno'
    · rename_i hn
      split at h
      · exact ih asg h hno'
      · rename_i b hb
        split at h
        · cases h
        · rw [ih _ h hno', Dict.get?_set]
          split
          · rename_i hba
            subst hba
            have := hno (k, v) (by simp) hb
            simp only at this
            subst this; simp [isNull] at hn
          · rfl

theorem walkSub_assigned (rec) (c : Cls) (m : List (Str × Str)) (l1 l2 : List (Str × Json)) (k : Str) (v : Json) (x : Val)
    (asg asg' : Dict Str Val) (a : Str) (hk : Dict.get? m k = some a) (hv : isNull v = false)
    (hx : fieldVal rec (c.fieldUnp a) v = .ok x)
    (h : walkSub rec c m (l1 ++ (k, v) :: l2) asg = .ok asg')
    (hno : ∀ kv ∈ l2, Dict.get? m kv.1 = some a → kv.2 = .null) : Dict.get? asg' a = some x := by
  induction l1 generalizing asg with
  | nil =>
    simp only [List.nil_append, walkSub, hv, hk, hx, Bool.false_eq_true, if_false] at h
    rw [walkSub_untouched rec c m l2 _ _ a h hno, Dict.get?_set]; simp
  | cons y l1 ih =>
    obtain ⟨k', v'⟩ := y
    simp only [List.cons_append, walkSub] at h
    split at h
    · exact ih _ h
    · split at h
      · exact ih _ h
      · split at h
        · cases h
        · exact ih _ h

theorem construct_attr {c : Cls} {asg : Dict Str Val} {attrs : List (Str × Val)} (h : construct c asg = .ok attrs)
    {a : Str} {x : Val} (ha : a ∈ c.fields.map (·.name)) (hx : Dict.get? asg a = some x) :
    Dict.get? attrs a = some x := by
  unfold construct at h
  generalize c.fields = fs at h ha
  induction fs generalizing attrs with
  | nil => simp at ha
  | cons f fs ih =>
    rw [List.mapM_cons] at h
    by_cases hf : f.name = a
    · subst hf
      simp only [hx, bind, Except.bind] at h
      split at h
      · cases h
      · cases h; simp [Dict.get?]
    · simp only [bind, Except.bind] at h
      split at h
      · cases h
      · rename_i p hp
        split at h
        · cases h
        · rename_i rest hrest
          cases h
          have hp1 : p.1 = f.name := by
            split at hp
            · cases hp; rfl
            · split at hp
              · cases hp; rfl
              · split at hp
                · cases hp
                · cases hp; rfl
          obtain ⟨p1, p2⟩ := p
          simp only at hp1; subst hp1
          simp only [Dict.get?, hf, if_false]
          refine ih hrest ?_
          simp only [List.map_cons, List.mem_cons] at ha
          rcases ha with ha | ha
          · exact absurd ha.symm hf
          · exact ha

/-- The nested key mapping of stepIn arguments. -/
def stepInMap : List (Str × Str) := [(py!"threadId", py!"thread_id"), (py!"singleThread", py!"single_thread"),
  (py!"targetId", py!"thread_id"), (py!"granularity", py!"granularity")]

theorem stepIn_unfold (seq : Int) (args : List (Str × Json)) (v : Val) (h : unpack (stepInDoc seq args) = .ok v) :
    ∃ asg0 asg attrs, walkSub defaultUnpack .StepInRequest stepInMap args asg0 = .ok asg ∧
      construct .StepInRequest asg = .ok attrs ∧ v = .obj .StepInRequest attrs := by
  have hreg : Dict.get? (registry .request) py!"stepIn" = some Cls.StepInRequest := by decide +kernel
  rw [unpack_request _ py!"stepIn" .StepInRequest rfl rfl hreg] at h
  simp only [unpackCls, stepInDoc] at h
  rw [defaultUnpack_eq] at h
  have hw : walkTop defaultUnpack .StepInRequest [(py!"seq", .int seq), (py!"type", .str py!"request"),
      (py!"command", .str py!"stepIn"), (py!"arguments", .obj args)] [] [] =
      .ok ([(py!"seq", .int seq), (py!"message_type", .enum .MessageType py!"request"), (py!"command", .enum .Command py!"stepIn")],
        [(some stepInMap, .obj args)]) := by rfl
  rw [hw] at h
  simp only [walkQueue] at h
  cases hs : walkSub defaultUnpack .StepInRequest stepInMap args
      [(py!"seq", .int seq), (py!"message_type", .enum .MessageType py!"request"), (py!"command", .enum .Command py!"stepIn")] with
  | error e => rw [hs] at h; cases h
  | ok asg =>
    rw [hs] at h
    simp only at h
    cases hc : construct .StepInRequest asg with
    | error e => rw [hc] at h; cases h
    | ok attrs => rw [hc] at h; cases h; exact ⟨_, _, _, hs, hc, rfl⟩

theorem stepInMap_thread (k : Str) (h : Dict.get? stepInMap k = some py!"thread_id") : k = py!"threadId" ∨ k = py!"targetId" := by
  have := Dict.mem_of_get? _ _ _ h
  simp only [stepInMap, List.mem_cons, Prod.mk.injEq, List.not_mem_nil, or_false] at this
  rcases this with ⟨h1, -⟩ | ⟨-, h2⟩ | ⟨h1, -⟩ | ⟨-, h2⟩
  · exact Or.inl h1
  · exact absurd h2 (by decide)
  · exact Or.inr h1
  · exact absurd h2 (by decide)

/-- C10 (partial): without a target id (absent or null) a stepIn request that is accepted names
the thread the client sent, wherever `threadId` stands among the arguments. -/
theorem C10_stepIn_thread_partial (seq n : Int) (l1 l2 : List (Str × Json)) (v : Val)
    (h : unpack (stepInDoc seq (l1 ++ (py!"threadId", .int n) :: l2)) = .ok v)
    (hno : ∀ kv ∈ l2, (kv.1 = py!"targetId" ∨ kv.1 = py!"threadId") → kv.2 = .null) :
    v.attr? py!"thread_id" = some (.int n) := by
  obtain ⟨asg0, asg, attrs, hs, hc, rfl⟩ := stepIn_unfold seq _ v h
  simp only [Val.attr?]
  refine construct_attr hc (by decide +kernel) ?_
  refine walkSub_assigned _ _ stepInMap l1 l2 _ _ (.int n) _ _ _ rfl rfl rfl hs ?_
  intro kv hkv hm
  exact hno kv hkv (stepInMap_thread _ hm).symm

example : ∃ v, unpack (stepInDoc 3 [(py!"threadId", .int 5), (py!"granularity", .str py!"line")]) = .ok v := ⟨_, rfl⟩

/-- C10, exactly: of the members `threadId` and `targetId` that are not null the one that stands last in the arguments gives the thread of the request. So the
thread is the one the client named iff there is no target id behind it, or one of the same number. -/
theorem C10_exact_partial (seq n : Int) (k : Str) (hk : k = py!"threadId" ∨ k = py!"targetId") (l1 l2 : List (Str × Json)) (v : Val)
    (h : unpack (stepInDoc seq (l1 ++ (k, .int n) :: l2)) = .ok v)
    (hno : ∀ kv ∈ l2, (kv.1 = py!"targetId" ∨ kv.1 = py!"threadId") → kv.2 = .null) :
    v.attr? py!"thread_id" = some (.int n) := by
  obtain ⟨asg0, asg, attrs, hs, hc, rfl⟩ := stepIn_unfold seq _ v h
  simp only [Val.attr?]
  refine construct_attr hc (by decide +kernel) ?_
  rcases hk with rfl | rfl
  · refine walkSub_assigned _ _ stepInMap l1 l2 _ _ (.int n) _ _ _ rfl rfl rfl hs ?_
    intro kv hkv hm
    exact hno kv hkv (stepInMap_thread _ hm).symm
  · refine walkSub_assigned _ _ stepInMap l1 l2 _ _ (.int n) _ _ _ rfl rfl rfl hs ?_
    intro kv hkv hm
    exact hno kv hkv (stepInMap_thread _ hm).symm

example : ∃ v, unpack (stepInDoc 3 ([(py!"targetId", .int 9)] ++ (py!"threadId", .int 5) :: [(py!"granularity", .str py!"line")])) = .ok v := ⟨_, rfl⟩

/-- C10 is false with a target id: the request is delivered for the thread with the number
of the target. -/
theorem C10_refuted (seq n t : Int) :
    ∃ v, unpack (stepInDoc seq [(py!"threadId", .int n), (py!"targetId", .int t)]) = .ok v ∧
      v.attr? py!"thread_id" = some (.int t) := ⟨_, rfl, rfl⟩

/-! ## C11 unknown keys and nulls -/

/-- C11: at any depth of a document for class `c`, additional unknown members and additional
nulls do not change what is unpacked (the value or the exception). -/
theorem C11_ignored (c : Cls) (j j' : Json) (h : Ext (.object c) j j') :
    defaultUnpack c j = defaultUnpack c j' := ext_defaultUnpack c j j' h

/-- C11 for a whole message whose `type`, `command`, `event` and `success` are the same. -/
theorem C11_ignored_message (c : Cls) (j j' : Json) (h : Ext (.object c) j j')
    (hc : c ≠ .AttachRequest ∧ c ≠ .LaunchRequest)
    (hd : unpack j = unpackCls c j) (hd' : unpack j' = unpackCls c j') : unpack j = unpack j' := by
  have hu : ∀ j, unpackCls c j = defaultUnpack c j := by
    intro j; unfold unpackCls; split
    · exact absurd rfl hc.1
    · exact absurd rfl hc.2
    · rfl
  rw [hd, hd', hu, hu]; exact C11_ignored c j j' h

example : Ext (.object .ScopesRequest)
    (.obj [(py!"seq", .int 1), (py!"arguments", .obj [(py!"frameId", .int 3)])])
    (.obj [(py!"x", .arr [.int 1]), (py!"seq", .int 1), (py!"arguments", .obj [(py!"frameId", .int 3), (py!"new", .bool true)]), (py!"type", .null)]) := by
  refine .objSkip (.inr (.inl ⟨by decide +kernel, by decide +kernel⟩)) ?_
  refine .objAttr (a := py!"seq") (by decide +kernel) (.same _ _) ?_
  refine .objSub (m := [(py!"frameId", py!"frame_id")]) (by decide +kernel) ?_ (.objSkip (.inl rfl) (.objNil _))
  exact .subAttr (a := py!"frame_id") (by decide +kernel) (.same _ _) (.subSkip (.inr (by decide +kernel)) (.subNil _ _))

/-- C11 fails for the one key `__types`: a client member of that name (unknown to the
protocol) raises, because the code keeps its type table under that key. -/
theorem C11_types_key_refuted : defaultUnpack .ScopesRequest
      (.obj [(py!"seq", .int 1), (py!"arguments", .obj [(py!"frameId", .int 3)])]) =
        .ok (.obj .ScopesRequest [(py!"seq", .int 1), (py!"message_type", .enum .MessageType py!"request"),
          (py!"command", .enum .Command py!"scopes"), (py!"frame_id", .int 3)]) ∧
    defaultUnpack .ScopesRequest
      (.obj [(py!"seq", .int 1), (py!"arguments", .obj [(py!"frameId", .int 3)]), (py!"__types", .str py!"a")]) = .error .attribute := by
  exact ⟨rfl, rfl⟩

/-- C11 for the key `__types`, exactly: it is ignored, wherever it stands, if its value is an object in which every member named like an attribute of the message's class is
null (`Harmless`); with any other value but null the document is rejected. -/
theorem C11_types_exact (c : Cls) (l1 l2 : List (Str × Json)) (v : Json) (hn : v ≠ .null) :
    (Harmless c v → defaultUnpack c (.obj (l1 ++ (py!"__types", v) :: l2)) = defaultUnpack c (.obj (l1 ++ l2))) ∧
    (¬ Harmless c v → ∃ e, defaultUnpack c (.obj (l1 ++ (py!"__types", v) :: l2)) = .error e) := by
  constructor
  · intro hh
    exact (extSem_object c _ _ (extSem_types c l1 l2 v hh)).symm
  · intro hh
    rw [defaultUnpack_eq]
    cases hw : walkTop defaultUnpack c (l1 ++ (py!"__types", v) :: l2) [] [] with
    | error e => exact ⟨e, rfl⟩
    | ok p =>
      obtain ⟨asg, q⟩ := p
      have hnull : isNull v = false := by cases v <;> simp_all [isNull]
      have hm := (walkTop_keeps _ c _ _ _ _ _ hw).2 v (by simp) hnull
      obtain ⟨e, he⟩ := walkQueue_harm defaultUnpack c q v hm hh asg
      exact ⟨e, by simp only [he]⟩

example : Harmless .ScopesRequest (.obj [(py!"frameId", .int 3), (py!"frame_id", .null)]) ∧ ¬ Harmless .ScopesRequest (.obj [(py!"frame_id", .int 3)]) ∧
    ¬ Harmless .ScopesRequest (.str []) := by
  have no : ∀ x e, typesEntry .ScopesRequest x = .error e → ¬ Harmless .ScopesRequest x := by
    intro x e hx hh
    rw [(typesEntry_harmless _ _).1 hh] at hx
    cases hx
  exact ⟨(typesEntry_harmless _ _).2 rfl, no _ .type rfl, no _ .attribute rfl⟩

/-! ## C12 dispatch -/

/-- C12: what is accepted is an object of exactly the class registered for the command or
event in the document; an unsuccessful response is an ErrorResponse. -/
theorem C12_accepted_class (j : Json) (v : Val) (h : unpack j = .ok v) : ∃ c attrs, v = .obj c attrs ∧
    ((getItem j py!"type" = .ok (.str py!"request") ∧ c.base = some .Request ∧
        ∃ s, getItem j py!"command" = .ok (.str s) ∧ c.attr? py!"command" = some (.enum .Command s)) ∨
     (getItem j py!"type" = .ok (.str py!"event") ∧ c.base = some .Event ∧
        ∃ s, getItem j py!"event" = .ok (.str s) ∧ c.attr? py!"event" = some (.enum .EventType s)) ∨
     (getItem j py!"type" = .ok (.str py!"response") ∧ c.base = some .Response ∧
        ∃ ok, getItem j py!"success" = .ok ok ∧
          ((truthy ok = false ∧ c = .ErrorResponse) ∨
           (truthy ok = true ∧ ∃ s, getItem j py!"command" = .ok (.str s) ∧
             (c.attr? py!"command" = some (.enum .Command s) ∨ (s = py!"error" ∧ c = .ErrorResponse)))))) := by
  unfold unpack at h
  simp only [bind, Except.bind] at h
  split at h
  · cases h
  rename_i ty hty
  split at h
  · cases h
  rename_i k hk
  have hty' : (k = .request → ty = .str py!"request") ∧ (k = .event → ty = .str py!"event") ∧ (k = .response → ty = .str py!"response") := by
    unfold lookupKind at hk
    split at hk
    · split at hk
      · rename_i e; cases hk; simp [e]
      · split at hk
        · rename_i e; cases hk; simp [e]
        · split at hk
          · rename_i e; cases hk; simp [e]
          · cases hk
    all_goals cases hk
  cases k with
  | request =>
    simp only at h
    split at h
    · cases h
    rename_i cmd hcmd
    split at h
    · cases h
    rename_i c hc
    obtain ⟨s, rfl, hs⟩ := lookupReg_ok hc
    obtain ⟨attrs, rfl⟩ := unpackCls_cls h
    have := registered_request c s hs
    exact ⟨c, attrs, rfl, Or.inl ⟨by rw [hty, hty'.1 rfl], this.1, s, hcmd, this.2⟩⟩
  | event =>
    simp only at h
    split at h
    · cases h
    rename_i cmd hcmd
    split at h
    · cases h
    rename_i c hc
    obtain ⟨s, rfl, hs⟩ := lookupReg_ok hc
    obtain ⟨attrs, rfl⟩ := unpackCls_cls h
    have := registered_event c s hs
    exact ⟨c, attrs, rfl, Or.inr (Or.inl ⟨by rw [hty, hty'.2.1 rfl], this.1, s, hcmd, this.2⟩)⟩
  | response =>
    simp only at h
    split at h
    · cases h
    rename_i cmd hcmd
    split at h
    · cases h
    rename_i ok hok
    split at h
    · cases h
    rename_i c hc
    obtain ⟨s, he, hs⟩ := lookupReg_ok hc
    obtain ⟨attrs, rfl⟩ := unpackCls_cls h
    have := registered_response c s hs
    refine ⟨c, attrs, rfl, Or.inr (Or.inr ⟨by rw [hty, hty'.2.2 rfl], this.1, ok, hok, ?_⟩)⟩
    cases ht : truthy ok with
    | false =>
      left
      simp only [ht, Bool.false_eq_true, if_false, Json.str.injEq] at he
      subst he
      rcases this.2 with ⟨_, hc⟩ | ⟨hc, _⟩
      · exact ⟨rfl, hc⟩
      · exact absurd rfl hc
    | true =>
      right
      simp only [ht, if_true] at he
      subst he
      refine ⟨rfl, s, hcmd, ?_⟩
      rcases this.2 with hc | ⟨-, hc⟩
      · exact Or.inr hc
      · exact Or.inl hc

/-- C12: a request with a known command goes to its class. -/
theorem C12_request (c : Cls) (s : Str) (j : Json) (hb : c.base = some .Request)
    (hs : c.attr? py!"command" = some (.enum .Command s))
    (h1 : getItem j py!"type" = .ok (.str py!"request")) (h2 : getItem j py!"command" = .ok (.str s)) :
    unpack j = unpackCls c j := unpack_request j s c h1 h2 (request_registered c s hb hs)

/-- C12: an event with a known name goes to its class. -/
theorem C12_event (c : Cls) (s : Str) (j : Json) (hb : c.base = some .Event)
    (hs : c.attr? py!"event" = some (.enum .EventType s))
    (h1 : getItem j py!"type" = .ok (.str py!"event")) (h2 : getItem j py!"event" = .ok (.str s)) :
    unpack j = unpackCls c j := unpack_event j s c h1 h2 (event_registered c s hb hs)

/-- C12: a successful response to a known command goes to its class. -/
theorem C12_response (c : Cls) (s : Str) (j ok : Json) (hb : c.base = some .Response) (hc : c ≠ .ErrorResponse)
    (hs : c.attr? py!"command" = some (.enum .Command s))
    (h1 : getItem j py!"type" = .ok (.str py!"response")) (h2 : getItem j py!"command" = .ok (.str s))
    (h3 : getItem j py!"success" = .ok ok) (h4 : truthy ok = true) :
    unpack j = unpackCls c j :=
  unpack_response j ok _ s c h1 h2 h3 (by simp [h4]) (response_registered c s hb hc hs)

/-- C12: an unsuccessful response is unpacked as an ErrorResponse, whatever its command. -/
theorem C12_error_response (j ok cmd : Json) (h1 : getItem j py!"type" = .ok (.str py!"response"))
    (h2 : getItem j py!"command" = .ok cmd) (h3 : getItem j py!"success" = .ok ok) (h4 : truthy ok = false) :
    unpack j = unpackCls .ErrorResponse j :=
  unpack_response j ok cmd _ _ h1 h2 h3 (by simp [h4]) reg_error

/-- The text of a float that is zero: no digit other than 0 before the exponent. -/
def ZeroText (l : Str) : Prop :=
  ∃ m e, l = m ++ e ∧ (∀ c ∈ m, c = 48 ∨ c = 46 ∨ c = 45 ∨ c = 43) ∧ (e = [] ∨ e.head? = some 101 ∨ e.head? = some 69)

/-- The values Python counts as false: null, false, zero and everything empty. -/
inductive Falsy : Json → Prop
  | null : Falsy .null
  | no : Falsy (.bool false)
  | zero : Falsy (.int 0)
  | float (l : Str) (h : ZeroText l) : Falsy (.float l)
  | str : Falsy (.str [])
  | arr : Falsy (.arr [])
  | obj : Falsy (.obj [])

theorem digits_chars {ds : Str} (h : Digits ds) (c : Nat) (hc : c ∈ ds) : 48 ≤ c ∧ c ≤ 57 := by
  have := h.2 c hc; simp [isDig] at this; omega

theorem num_chars (sign ip fr ex : Str)
    (hs : sign = [] ∨ sign = [45])
    (hi : ip = [48] ∨ (Digits ip ∧ ip.head? ≠ some 48))
    (hf : fr = [] ∨ ∃ ds, Digits ds ∧ fr = 46 :: ds)
    (he : ex = [] ∨ ∃ e sg ds, (e = 101 ∨ e = 69) ∧ (sg = [] ∨ sg = [43] ∨ sg = [45]) ∧ Digits ds ∧ ex = e :: (sg ++ ds))
    (c : Nat) (hc : c ∈ sign ++ ip ++ fr ++ ex) : c = 43 ∨ c = 45 ∨ c = 46 ∨ c = 101 ∨ c = 69 ∨ (48 ≤ c ∧ c ≤ 57) := by
  simp only [List.mem_append] at hc
  rcases hc with ((hc | hc) | hc) | hc
  · rcases hs with rfl | rfl <;> simp at hc; omega
  · rcases hi with rfl | ⟨h, -⟩
    · simp at hc; omega
    · have := digits_chars h c hc; omega
  · rcases hf with rfl | ⟨ds, h, rfl⟩
    · simp at hc
    · simp only [List.mem_cons] at hc
      rcases hc with rfl | hc
      · omega
      · have := digits_chars h c hc; omega
  · rcases he with rfl | ⟨e, sg, ds, he, hsg, h, rfl⟩
    · simp at hc
    · simp only [List.mem_cons, List.mem_append] at hc
      rcases hc with rfl | hc | hc
      · omega
      · rcases hsg with rfl | rfl | rfl <;> simp at hc <;> omega
      · have := digits_chars h c hc; omega

theorem takeWhile_exp (m e : Str) (hm : ∀ c ∈ m, c = 48 ∨ c = 46 ∨ c = 45 ∨ c = 43)
    (he : e = [] ∨ e.head? = some 101 ∨ e.head? = some 69) :
    (m ++ e).takeWhile (fun c => decide (c ≠ 101 ∧ c ≠ 69)) = m := by
  induction m with
  | nil =>
    cases e with
    | nil => rfl
    | cons x xs => simp at he; rcases he with rfl | rfl <;> simp
  | cons x xs ih =>
    have hx := hm x (by simp)
    rw [List.cons_append, List.takeWhile_cons_of_pos (by simp; omega), ih (fun c hc => hm c (by simp [hc]))]

theorem truthy_float (l : Str) (h : FloatText l) : truthy (.float l) = false ↔ ZeroText l := by
  cases h with
  | nan =>
    refine ⟨fun h => absurd h (by decide), ?_⟩
    rintro ⟨m, e, h1, h2, h3⟩
    cases m with
    | nil => simp at h1; subst h1; simp at h3
    | cons x xs => simp at h1; have := h2 x (by simp); omega
  | inf =>
    refine ⟨fun h => absurd h (by decide), ?_⟩
    rintro ⟨m, e, h1, h2, h3⟩
    cases m with
    | nil => simp at h1; subst h1; simp at h3
    | cons x xs => simp at h1; have := h2 x (by simp); omega
  | ninf =>
    refine ⟨fun h => absurd h (by decide), ?_⟩
    rintro ⟨m, e, h1, h2, h3⟩
    cases m with
    | nil => simp at h1; subst h1; simp at h3
    | cons x xs =>
      simp at h1
      cases xs with
      | nil => simp at h1; obtain ⟨-, rfl⟩ := h1; simp at h3
      | cons y ys => simp at h1; have := h2 y (by simp); omega
  | num sign ip fr ex hs hi hf he hne =>
    have hch := num_chars sign ip fr ex hs hi hf he
    generalize sign ++ ip ++ fr ++ ex = l at hch
    have hN : l.any (fun c => decide (c = 78 ∨ c = 73)) = false := by
      rw [List.any_eq_false]; intro c hc; have := hch c hc; simp; omega
    simp only [truthy, hN, Bool.false_or]
    constructor
    · intro h
      refine ⟨_, _, (List.takeWhile_append_dropWhile (p := fun c => decide (c ≠ 101 ∧ c ≠ 69)) (l := l)).symm, ?_, ?_⟩
      · intro c hc
        have h1 := (List.any_eq_false.1 h) c hc
        have h2 := hch c ((List.takeWhile_sublist _).subset hc)
        have h3 := List.all_eq_true.1 (List.all_takeWhile (p := fun c => decide (c ≠ 101 ∧ c ≠ 69)) (l := l)) c hc
        simp at h1 h3; omega
      · cases hd : l.dropWhile (fun c => decide (c ≠ 101 ∧ c ≠ 69)) with
        | nil => exact .inl rfl
        | cons x xs =>
          have := List.head?_dropWhile_not (p := fun c => decide (c ≠ 101 ∧ c ≠ 69)) l
          rw [hd] at this; simp at this
          by_cases hx : x = 101
          · subst hx; simp
          · have := this hx; subst this; simp
    · rintro ⟨m, e, rfl, h2, h3⟩
      rw [takeWhile_exp m e h2 h3, List.any_eq_false]
      intro c hc; have := h2 c hc; simp; omega

theorem truthy_iff (j : Json) (h : j.WF) : truthy j = false ↔ Falsy j := by
  cases j with
  | null => exact ⟨fun _ => .null, fun _ => rfl⟩
  | bool b => cases b <;> refine ⟨fun h => ?_, fun h => ?_⟩ <;> first | exact .no | rfl | cases h
  | int i =>
    simp only [truthy]
    refine ⟨fun h => ?_, fun h => ?_⟩
    · have : i = 0 := by simpa using h
      subst this; exact .zero
    · cases h; rfl
  | float l =>
    have hl : FloatText l := by simpa [Json.WF] using h
    rw [truthy_float l hl]
    exact ⟨fun h => .float l h, fun h => by cases h; assumption⟩
  | str s => cases s <;> refine ⟨fun h => ?_, fun h => ?_⟩ <;> first | exact .str | rfl | (simp [truthy] at h) | cases h
  | arr s => cases s <;> refine ⟨fun h => ?_, fun h => ?_⟩ <;> first | exact .arr | rfl | (simp [truthy] at h) | cases h
  | obj s => cases s <;> refine ⟨fun h => ?_, fun h => ?_⟩ <;> first | exact .obj | rfl | (simp [truthy] at h) | cases h

/-- C12: a response whose `success` Python counts as true goes to the class of its command; every
other response is an ErrorResponse, whatever its command. -/
theorem C12_success (c : Cls) (s : Str) (j ok cmd : Json) (hok : ok.WF)
    (h1 : getItem j py!"type" = .ok (.str py!"response")) (h2 : getItem j py!"command" = .ok cmd)
    (h3 : getItem j py!"success" = .ok ok) :
    (Falsy ok → unpack j = unpackCls .ErrorResponse j) ∧
    (¬ Falsy ok → c.base = some .Response → c ≠ .ErrorResponse → c.attr? py!"command" = some (.enum .Command s) →
      cmd = .str s → unpack j = unpackCls c j) := by
  refine ⟨fun h => C12_error_response j ok cmd h1 h2 h3 ((truthy_iff ok hok).2 h), fun h hb hc hs he => ?_⟩
  subst he
  refine C12_response c s j ok hb hc hs h1 h2 h3 ?_
  cases ht : truthy ok with
  | true => rfl
  | false => exact absurd ((truthy_iff ok hok).1 ht) h

example : Falsy (.float py!"-0.0e+5") ∧ Json.WF (.float py!"-0.0e+5") ∧ ¬ Falsy (.float py!"0.5") ∧ ¬ Falsy (.int (-1)) ∧
    ¬ Falsy (.str py!"false") := by
  refine ⟨.float _ ⟨py!"-0.0", py!"e+5", rfl, by decide, .inr (.inl rfl)⟩, ?_, ?_, ?_, ?_⟩
  · exact .num [45] [48] [46, 48] py!"e+5" (.inr rfl) (.inl rfl) (.inr ⟨[48], ⟨by simp, by decide⟩, rfl⟩)
      (.inr ⟨101, [43], [53], .inl rfl, .inr (.inl rfl), ⟨by simp, by decide⟩, rfl⟩) (.inl (by simp))
  · have h : Json.WF (.float py!"0.5") := .num [] [48] [46, 53] [] (.inl rfl) (.inl rfl) (.inr ⟨[53], ⟨by simp, by decide⟩, rfl⟩)
      (.inl rfl) (.inl (by simp))
    rw [← truthy_iff _ h]; decide
  · intro h; cases h
  · intro h; cases h

/-- C12: an unknown message type raises ValueError. -/
theorem C12_unknown_type (j : Json) (s : Str) (h : getItem j py!"type" = .ok (.str s))
    (hs : s ≠ py!"event" ∧ s ≠ py!"request" ∧ s ≠ py!"response") : unpack j = .error .value := by
  unfold unpack
  simp only [h, bind, Except.bind, lookupKind, hs.1, hs.2.1, hs.2.2, if_false]

/-- C12: an unknown request command raises ValueError. -/
theorem C12_unknown_command (j : Json) (s : Str) (h1 : getItem j py!"type" = .ok (.str py!"request"))
    (h2 : getItem j py!"command" = .ok (.str s))
    (hs : ∀ c : Cls, c.base = some .Request → c.attr? py!"command" ≠ some (.enum .Command s)) :
    unpack j = .error .value := by
  have : Dict.get? (registry .request) s = none := by
    cases h : Dict.get? (registry .request) s with
    | none => rfl
    | some c => exact absurd (registered_request c s h).2 (hs c (registered_request c s h).1)
  unfold unpack
  simp only [h1, bind, Except.bind]
  rw [show lookupKind (.str py!"request") = .ok .request from rfl]
  simp only [h2, lookupReg, this]

/-- C12: an unknown event raises ValueError. -/
theorem C12_unknown_event (j : Json) (s : Str) (h1 : getItem j py!"type" = .ok (.str py!"event"))
    (h2 : getItem j py!"event" = .ok (.str s))
    (hs : ∀ c : Cls, c.base = some .Event → c.attr? py!"event" ≠ some (.enum .EventType s)) :
    unpack j = .error .value := by
  have : Dict.get? (registry .event) s = none := by
    cases h : Dict.get? (registry .event) s with
    | none => rfl
    | some c => exact absurd (registered_event c s h).2 (hs c (registered_event c s h).1)
  unfold unpack
  simp only [h1, bind, Except.bind]
  rw [show lookupKind (.str py!"event") = .ok .event from rfl]
  simp only [h2, lookupReg, this]

/-- C12, limit of the error response clause: an error response for a command ansibug does not
know is recognised as an ErrorResponse but then rejected, because the command is converted to
the enumeration of known commands. -/
theorem C12_error_response_unknown_command : unpack (.obj [(py!"seq", .int 4), (py!"type", .str py!"response"),
    (py!"request_seq", .int 2), (py!"success", .bool false), (py!"command", .str py!"goto"), (py!"body", .obj [])]) = .error .value := by
  rfl

example : Cls.base .NextRequest = some .Request ∧ Cls.attr? .NextRequest py!"command" = some (.enum .Command py!"next") := ⟨rfl, rfl⟩
example : ∀ c : Cls, c.base = some .Request → c.attr? py!"command" ≠ some (.enum .Command py!"goto") := by
  intro c hc h
  have hm := List.all_eq_true.mp (show (allCls.all fun c => !(isEnum (c.attr? py!"command") .Command py!"goto")) = true by decide +kernel) c (mem_allCls c)
  simp [h, isEnum] at hm

/-! ## C13 launch and attach arguments -/

/-- C13: after unpacking an attach request every argument except `__restart` is unchanged,
and `restart` is the value of `__restart` (None if absent). -/
theorem C13_attach_args (j : Json) (l : List (Str × Json)) (v : Val) (ha : getItem j py!"arguments" = .ok (.obj l))
    (h : unpackCls .AttachRequest j = .ok v) :
    ∃ l', v.attr? py!"arguments" = some (.dict l') ∧
      (∀ k, k ≠ py!"__restart" → Dict.get? l' k = (Dict.get? l k).map ofJson) ∧ Dict.get? l' py!"__restart" = none ∧
      v.attr? py!"restart" = some (ofJson ((Dict.get? l py!"__restart").getD .null)) := by
  simp only [unpackCls, unpackAttach, ha, bind, Except.bind, popItem] at h
  split at h
  · cases h
  rename_i seq _
  simp only [customObj] at h
  rw [show construct .AttachRequest [(py!"arguments", ofJson (.obj (Dict.erase l py!"__restart"))),
    (py!"restart", ofJson ((Dict.get? l py!"__restart").getD .null)), (py!"seq", ofJson seq)] =
    .ok [(py!"seq", ofJson seq), (py!"message_type", .enum .MessageType py!"request"), (py!"command", .enum .Command py!"attach"),
      (py!"arguments", ofJson (.obj (Dict.erase l py!"__restart"))), (py!"restart", ofJson ((Dict.get? l py!"__restart").getD .null))] from rfl] at h
  cases h
  refine ⟨ofJsonO (Dict.erase l py!"__restart"), by simp [ofJson, Val.attr?, Dict.get?], ?_, ?_, rfl⟩
  · intro k hk
    rw [get?_ofJsonO, Dict.get?_erase]
    simp only [hk, if_false]
  · rw [get?_ofJsonO, Dict.get?_erase]; simp

/-- C13: after unpacking a launch request every argument except `noDebug` and `__restart` is
unchanged; those two appear as attributes (False and None if absent). -/
theorem C13_launch_args (j : Json) (l : List (Str × Json)) (v : Val) (ha : getItem j py!"arguments" = .ok (.obj l))
    (h : unpackCls .LaunchRequest j = .ok v) :
    ∃ l', v.attr? py!"arguments" = some (.dict l') ∧
      (∀ k, k ≠ py!"__restart" → k ≠ py!"noDebug" → Dict.get? l' k = (Dict.get? l k).map ofJson) ∧
      Dict.get? l' py!"__restart" = none ∧ Dict.get? l' py!"noDebug" = none ∧
      v.attr? py!"no_debug" = some (ofJson ((Dict.get? l py!"noDebug").getD (.bool false))) ∧
      v.attr? py!"restart" = some (ofJson ((Dict.get? l py!"__restart").getD .null)) := by
  simp only [unpackCls, unpackLaunch, ha, bind, Except.bind, popItem] at h
  split at h
  · cases h
  rename_i seq _
  simp only [customObj] at h
  rw [show construct .LaunchRequest [(py!"arguments", ofJson (.obj (Dict.erase (Dict.erase l py!"noDebug") py!"__restart"))),
    (py!"no_debug", ofJson ((Dict.get? l py!"noDebug").getD (.bool false))),
    (py!"restart", ofJson ((Dict.get? (Dict.erase l py!"noDebug") py!"__restart").getD .null)), (py!"seq", ofJson seq)] =
    .ok [(py!"seq", ofJson seq), (py!"message_type", .enum .MessageType py!"request"), (py!"command", .enum .Command py!"launch"),
      (py!"arguments", ofJson (.obj (Dict.erase (Dict.erase l py!"noDebug") py!"__restart"))),
      (py!"no_debug", ofJson ((Dict.get? l py!"noDebug").getD (.bool false))),
      (py!"restart", ofJson ((Dict.get? (Dict.erase l py!"noDebug") py!"__restart").getD .null))] from rfl] at h
  cases h
  refine ⟨ofJsonO (Dict.erase (Dict.erase l py!"noDebug") py!"__restart"), by simp [ofJson, Val.attr?, Dict.get?], ?_, ?_, ?_, rfl, ?_⟩
  · intro k hk hk'
    rw [get?_ofJsonO, Dict.get?_erase, Dict.get?_erase]
    simp only [hk, hk', if_false]
  · rw [get?_ofJsonO, Dict.get?_erase]; simp
  · rw [get?_ofJsonO, Dict.get?_erase, Dict.get?_erase]; simp
  · rw [Dict.get?_erase]; simp [Val.attr?, Dict.get?]

/-- C13: packing a launch or attach request whose arguments contain no reserved key and
unpacking the text gives the same request. -/
theorem C13_roundtrip (c : Cls) (v : Val) (hc : c = .AttachRequest ∨ c = .LaunchRequest) (h : Instance c v) (hok : v.Ok)
    (hx : Exact c v) : (loads (dumps (toJson v))).map unpack = some (.ok v) :=
  C09_text_roundtrip_partial c v h (by rcases hc with rfl | rfl <;> decide) hok hx

/-- C13: an accepted attach/launch document exists, e.g. with nested arguments. -/
example : ∃ v, unpackCls .LaunchRequest (.obj [(py!"seq", .int 1), (py!"arguments",
    .obj [(py!"playbook", .str py!"x"), (py!"noDebug", .bool true), (py!"env", .obj [(py!"A", .null)])])]) = .ok v := ⟨_, rfl⟩

end Verif.Props.Dap
