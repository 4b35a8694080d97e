import Verif.Addr.Lemmas
/-!
# Properties of address strings (C19, C20)

`env` collects what is not modelled (see Addr/Model.lean); every theorem holds for all of it.
-/

namespace Verif.Props.Addr
open Verif Verif.Addr

/-- A character of a host name or of a socket file name: printable ASCII, but none of
`/ ? # @ : [ ] %`. -/
def HostChar (c : Nat) : Prop := 33 ≤ c ∧ c < 127 ∧ c ∉ py!"/?#@:[]%"

/-- A character of an IPv6 address: printable ASCII, but none of `/ ? # @ [ ] %`. -/
def V6Char (c : Nat) : Prop := 33 ≤ c ∧ c < 127 ∧ c ∉ py!"/?#@[]%"

/-- A port as a user writes it: decimal digits. -/
def PortText (s : Str) : Prop := s ≠ [] ∧ ∀ c ∈ s, 48 ≤ c ∧ c ≤ 57

theorem HostChar.v6 {c : Nat} (h : HostChar c) : V6Char c := by
  refine ⟨h.1, h.2.1, ?_⟩
  have := h.2.2
  simp only [List.mem_cons, List.not_mem_nil, or_false, not_or] at this ⊢
  omega

theorem v6_facts {c : Nat} (h : V6Char c) : isDelim c = false ∧ c ≠ 9 ∧ c ≠ 10 ∧ c ≠ 13 ∧ c < 128 ∧ c ≠ 64 ∧ c ≠ 91 ∧ c ≠ 93 ∧ c ≠ 37 := by
  obtain ⟨h1, h2, h3⟩ := h
  simp only [List.mem_cons, List.not_mem_nil, or_false, not_or] at h3
  refine ⟨?_, by omega, by omega, by omega, by omega, by omega, by omega, by omega, by omega⟩
  simp [isDelim]; omega

/-- A character of an IPv6 address with a zone: as `V6Char`, or `%`. -/
def ZoneChar (c : Nat) : Prop := 33 ≤ c ∧ c < 127 ∧ c ∉ py!"/?#@[]"

theorem V6Char.zone {c : Nat} (h : V6Char c) : ZoneChar c := by
  refine ⟨h.1, h.2.1, ?_⟩
  have := h.2.2
  simp only [List.mem_cons, List.not_mem_nil, or_false, not_or] at this ⊢
  omega

theorem zone_facts {c : Nat} (h : ZoneChar c) : isDelim c = false ∧ c ≠ 9 ∧ c ≠ 10 ∧ c ≠ 13 ∧ c < 128 ∧ c ≠ 64 ∧ c ≠ 91 ∧ c ≠ 93 := by
  obtain ⟨h1, h2, h3⟩ := h
  simp only [List.mem_cons, List.not_mem_nil, or_false, not_or] at h3
  refine ⟨?_, by omega, by omega, by omega, by omega, by omega, by omega, by omega⟩
  simp [isDelim]; omega

theorem host_not58 {c : Nat} (h : HostChar c) : c ≠ 58 := by
  have := h.2.2
  simp only [List.mem_cons, List.not_mem_nil, or_false, not_or] at this
  omega

theorem lower_ascii (env : Env) (s : Str) (h : ∀ c ∈ s, c < 128) : lower env s = s.map lowerC := by
  unfold lower
  rw [if_pos (by simpa using h)]

/-- The netloc `host:port`. -/
theorem hostinfo_plain (host port : Str) (hh : ∀ c ∈ host, HostChar c) (hp : PortText port) :
    hostinfo (host ++ 58 :: port) = (host, some port) := by
  have hno : ∀ c, c = 64 ∨ c = 91 → c ∉ host ++ 58 :: port := by
    intro c hc hm
    rcases List.mem_append.mp hm with hm | hm
    · have := v6_facts (hh c hm).v6; omega
    · rcases List.mem_cons.mp hm with rfl | hm
      · omega
      · have := hp.2 c hm; omega
  have h58 : (58 : Nat) ∉ host := fun hm => host_not58 (hh 58 hm) rfl
  unfold hostinfo
  rw [afterLast_none 64 _ (hno 64 (by simp))]
  simp only
  rw [cut_none 91 _ (hno 91 (by simp)), cut_append 58 host port h58]
  have : port.isEmpty = false := by cases port with
    | nil => exact absurd rfl hp.1
    | cons _ _ => rfl
  simp [this]

theorem hostinfo_v6 (host port : Str) (hh : ∀ c ∈ host, ZoneChar c) (hp : PortText port) :
    hostinfo (91 :: host ++ py!"]:" ++ port) = (host, some port) := by
  have hno : 64 ∉ (91 :: host ++ py!"]:" ++ port) := by
    intro hm
    simp only [List.cons_append, List.mem_cons, List.mem_append, List.not_mem_nil, or_false] at hm
    rcases hm with hm | (hm | hm | hm) | hm
    · omega
    · have := zone_facts (hh 64 hm); omega
    · omega
    · omega
    · have := hp.2 64 hm; omega
  have h93 : (93 : Nat) ∉ host := fun hm => by have := zone_facts (hh 93 hm); omega
  unfold hostinfo
  rw [afterLast_none 64 _ hno]
  have e1 : cut 91 (91 :: host ++ py!"]:" ++ port) = some ([], host ++ 93 :: 58 :: port) := by simp [cut]
  have e2 : cut 93 (host ++ 93 :: 58 :: port) = some (host, 58 :: port) := cut_append 93 _ _ h93
  have e3 : cut 58 (58 :: port) = some ([], port) := by simp [cut]
  have : port.isEmpty = false := by cases port with
    | nil => exact absurd rfl hp.1
    | cons _ _ => rfl
  simp only [e1, e2, e3, this]
  simp

theorem portOf_eq (netloc host port : Str) (h : hostinfo netloc = (host, some port)) (hp : PortText port) :
    portOf netloc = if digVal port ≤ 65535 then .ok (some (digVal port)) else .error .value := by
  unfold portOf
  rw [h]
  have : port.all isDig = true := by
    rw [List.all_eq_true]; intro c hc; have := hp.2 c hc; simp [isDig]; omega
  simp [this]

theorem hostnameOf_eq (env : Env) (netloc host : Str) (port : Option Str) (h : hostinfo netloc = (host, port)) (hh : ∀ c ∈ host, V6Char c) :
    hostnameOf env netloc = host.map lowerC := by
  unfold hostnameOf
  rw [h]
  have h37 : (37 : Nat) ∉ host := fun hm => by have := v6_facts (hh 37 hm); omega
  simp only [cut_none 37 host h37]
  exact lower_ascii env host (fun c hc => (v6_facts (hh c hc)).2.2.2.2.1)

/-- C19: `tcp://` alone means any interface and any port. -/
theorem C19_tcp_alone (env : Env) : parseAddr env py!"tcp://" = .ok (.tcp [] 0) := rfl

theorem plain_ok (host port : Str) (hh : ∀ c ∈ host, HostChar c) (hp : PortText port) :
    (∀ c ∈ host ++ 58 :: port, isDelim c = false ∧ c ≠ 9 ∧ c ≠ 10 ∧ c ≠ 13 ∧ c < 128) ∧
    ((host ++ 58 :: port).contains 91 = false ∧ (host ++ 58 :: port).contains 93 = false) := by
  have hd : ∀ c ∈ port, isDelim c = false := by
    intro c hc; have := hp.2 c hc; simp [isDelim]; omega
  have hall : ∀ c ∈ host ++ 58 :: port, (isDelim c = false ∧ c ≠ 9 ∧ c ≠ 10 ∧ c ≠ 13 ∧ c < 128) ∧ c ≠ 91 ∧ c ≠ 93 := by
    intro c hc
    rcases List.mem_append.mp hc with hc | hc
    · have := v6_facts (hh c hc).v6; exact ⟨⟨this.1, by omega, by omega, by omega, by omega⟩, by omega, by omega⟩
    · rcases List.mem_cons.mp hc with rfl | hc
      · decide
      · have := hp.2 c hc; exact ⟨⟨hd c hc, by omega, by omega, by omega, by omega⟩, by omega, by omega⟩
  refine ⟨fun c hc => (hall c hc).1, ?_, ?_⟩
  · rw [List.contains_eq_any_beq, List.any_eq_false]; intro c hc; simp; exact fun e => (hall c hc).2.1 e.symm
  · rw [List.contains_eq_any_beq, List.any_eq_false]; intro c hc; simp; exact fun e => (hall c hc).2.2 e.symm

/-- C19: `tcp://host:port` (host a name or IPv4 address, possibly empty) is that host, in lower
case, and that port; a port above 65535 is a ValueError. -/
theorem C19_tcp_host_port (env : Env) (host port : Str) (hh : ∀ c ∈ host, HostChar c) (hp : PortText port) :
    parseAddr env (py!"tcp://" ++ host ++ py!":" ++ port) =
      if digVal port ≤ 65535 then .ok (.tcp (host.map lowerC) (digVal port)) else .error .value := by
  have e : py!"tcp://" ++ host ++ py!":" ++ port = py!"tcp" ++ py!"://" ++ (host ++ 58 :: port) ++ [] := by simp
  obtain ⟨h1, h2⟩ := plain_ok host port hh hp
  unfold parseAddr
  rw [e, urlsplit_netloc env py!"tcp" (.inl rfl) _ [] h1 (.inl h2) (by simp) (by simp)]
  have hne : host ++ 58 :: port ≠ [] := by simp
  simp only [if_true, hne, if_false]
  rw [portOf_eq _ host port (hostinfo_plain host port hh hp) hp,
    hostnameOf_eq env _ host _ (hostinfo_plain host port hh hp) (fun c hc => (hh c hc).v6)]
  by_cases hport : digVal port ≤ 65535
  · rw [if_pos hport, if_pos hport]
  · rw [if_neg hport, if_neg hport]

theorem v6_ok (env : Env) (host port : Str) (hh : ∀ c ∈ host, ZoneChar c) (hp : PortText port) (hb : env.bracketedHostOk host = true) :
    (∀ c ∈ 91 :: host ++ py!"]:" ++ port, isDelim c = false ∧ c ≠ 9 ∧ c ≠ 10 ∧ c ≠ 13 ∧ c < 128) ∧
    ((91 :: host ++ py!"]:" ++ port).contains 91 = true ∧ (91 :: host ++ py!"]:" ++ port).contains 93 = true ∧
      bracketOk env (91 :: host ++ py!"]:" ++ port) = true) := by
  have hd : ∀ c ∈ port, isDelim c = false := by
    intro c hc; have := hp.2 c hc; simp [isDelim]; omega
  have hno : 64 ∉ (91 :: host ++ py!"]:" ++ port) := by
    intro hm
    simp only [List.cons_append, List.mem_cons, List.mem_append, List.not_mem_nil, or_false] at hm
    rcases hm with hm | (hm | hm | hm) | hm
    · omega
    · have := zone_facts (hh 64 hm); omega
    · omega
    · omega
    · have := hp.2 64 hm; omega
  have h93 : (93 : Nat) ∉ host := fun hm => by have := zone_facts (hh 93 hm); omega
  refine ⟨?_, by simp, by simp, ?_⟩
  · intro c hc
    simp only [List.cons_append, List.mem_cons, List.mem_append, List.not_mem_nil, or_false] at hc
    rcases hc with rfl | (hc | rfl | rfl) | hc
    · decide
    · have := zone_facts (hh c hc); exact ⟨this.1, by omega, by omega, by omega, by omega⟩
    · decide
    · decide
    · have := hp.2 c hc; exact ⟨hd c hc, by omega, by omega, by omega, by omega⟩
  · have e1 : cut 91 (91 :: host ++ py!"]:" ++ port) = some ([], host ++ 93 :: 58 :: port) := by simp [cut]
    have e2 : cut 93 (host ++ 93 :: 58 :: port) = some (host, 58 :: port) := cut_append 93 _ _ h93
    unfold bracketOk
    rw [afterLast_none 64 _ hno]
    simp only [e1, e2, hb]
    simp

/-- C19: `tcp://[v6]:port` is that IPv6 address and that port. -/
theorem C19_tcp_v6_port (env : Env) (host port : Str) (hh : ∀ c ∈ host, V6Char c) (hp : PortText port)
    (hb : env.bracketedHostOk host = true) :
    parseAddr env (py!"tcp://[" ++ host ++ py!"]:" ++ port) =
      if digVal port ≤ 65535 then .ok (.tcp (host.map lowerC) (digVal port)) else .error .value := by
  have e : py!"tcp://[" ++ host ++ py!"]:" ++ port = py!"tcp" ++ py!"://" ++ (91 :: host ++ py!"]:" ++ port) ++ [] := by simp
  obtain ⟨h1, h2⟩ := v6_ok env host port (fun c hc => (hh c hc).zone) hp hb
  unfold parseAddr
  rw [e, urlsplit_netloc env py!"tcp" (.inl rfl) _ [] h1 (.inr h2) (by simp) (by simp)]
  have hne : 91 :: host ++ py!"]:" ++ port ≠ [] := by simp
  simp only [if_true, hne, if_false]
  rw [portOf_eq _ host port (hostinfo_v6 host port (fun c hc => (hh c hc).zone) hp) hp,
    hostnameOf_eq env _ host _ (hostinfo_v6 host port (fun c hc => (hh c hc).zone) hp) hh]
  by_cases hport : digVal port ≤ 65535
  · rw [if_pos hport, if_pos hport]
  · rw [if_neg hport, if_neg hport]

/-- C19: the zone of an IPv6 address (`fe80::1%eth0`) is kept, in the case it was written in. -/
theorem C19_tcp_v6_zone (env : Env) (host zone port : Str) (hh : ∀ c ∈ host, V6Char c) (hz : ∀ c ∈ zone, ZoneChar c)
    (hp : PortText port) (hb : env.bracketedHostOk (host ++ 37 :: zone) = true) (hport : digVal port ≤ 65535) :
    parseAddr env (py!"tcp://[" ++ host ++ py!"%" ++ zone ++ py!"]:" ++ port) =
      .ok (.tcp (host.map lowerC ++ py!"%" ++ zone) (digVal port)) := by
  have hall : ∀ c ∈ host ++ 37 :: zone, ZoneChar c := by
    intro c hc
    rcases List.mem_append.1 hc with hc | hc
    · exact (hh c hc).zone
    · rcases List.mem_cons.1 hc with rfl | hc
      · unfold ZoneChar; decide
      · exact hz c hc
  have e : py!"tcp://[" ++ host ++ py!"%" ++ zone ++ py!"]:" ++ port =
      py!"tcp" ++ py!"://" ++ (91 :: (host ++ 37 :: zone) ++ py!"]:" ++ port) ++ [] := by simp
  obtain ⟨h1, h2⟩ := v6_ok env _ port hall hp hb
  have hi := hostinfo_v6 _ port hall hp
  unfold parseAddr
  rw [e, urlsplit_netloc env py!"tcp" (.inl rfl) _ [] h1 (.inr h2) (by simp) (by simp)]
  have hne : 91 :: (host ++ 37 :: zone) ++ py!"]:" ++ port ≠ [] := by simp
  have h37 : (37 : Nat) ∉ host := fun hm => by have := v6_facts (hh 37 hm); omega
  have hn : hostnameOf env (91 :: (host ++ 37 :: zone) ++ py!"]:" ++ port) = host.map lowerC ++ 37 :: zone := by
    unfold hostnameOf
    rw [hi]
    simp only [cut_append 37 host zone h37]
    rw [lower_ascii env host (fun c hc => (v6_facts (hh c hc)).2.2.2.2.1)]
  simp only [if_true, hne, if_false]
  rw [portOf_eq _ _ port hi hp, hn, if_pos hport]
  simp

/-- C19: a tcp address with a host but without a port is a ValueError. -/
theorem C19_tcp_no_port (env : Env) (host : Str) (hh : ∀ c ∈ host, HostChar c) (hne : host ≠ []) :
    parseAddr env (py!"tcp://" ++ host) = .error .value := by
  have e : py!"tcp://" ++ host = py!"tcp" ++ py!"://" ++ host ++ [] := by simp
  have h1 : ∀ c ∈ host, isDelim c = false ∧ c ≠ 9 ∧ c ≠ 10 ∧ c ≠ 13 ∧ c < 128 := by
    intro c hc; have := v6_facts (hh c hc).v6; exact ⟨this.1, by omega, by omega, by omega, by omega⟩
  have hno : ∀ c, c = 64 ∨ c = 91 ∨ c = 93 ∨ c = 58 → c ∉ host := by
    intro c hc hm
    have := v6_facts (hh c hm).v6; have := host_not58 (hh c hm); omega
  have h2 : host.contains 91 = false ∧ host.contains 93 = false := by
    constructor
    · rw [List.contains_eq_any_beq, List.any_eq_false]; intro c hc; simp; rintro rfl; exact hno 91 (by simp) hc
    · rw [List.contains_eq_any_beq, List.any_eq_false]; intro c hc; simp; rintro rfl; exact hno 93 (by simp) hc
  have hi : hostinfo host = (host, none) := by
    unfold hostinfo
    rw [afterLast_none 64 _ (hno 64 (by simp))]
    simp only
    rw [cut_none 91 _ (hno 91 (by simp)), cut_none 58 _ (hno 58 (by simp))]
    rfl
  unfold parseAddr
  rw [e, urlsplit_netloc env py!"tcp" (.inl rfl) _ [] h1 (.inl h2) (by simp) (by simp)]
  simp only [if_true, hne, if_false, portOf, hi]

/-- C19: `uds://` alone is a random path. -/
theorem C19_uds_alone (env : Env) : parseAddr env py!"uds://" = .ok (.uds env.randomPath) := rfl

theorem uds_netloc (env : Env) (name t : Str) (hh : ∀ c ∈ name, HostChar c)
    (ht : ∀ c ∈ t, c ≠ 9 ∧ c ≠ 10 ∧ c ≠ 13) (ht0 : ∀ c, t.head? = some c → isDelim c = true) :
    urlsplit env (py!"uds://" ++ name ++ t) = .ok ⟨py!"uds", name, pathOf t⟩ := by
  have e : py!"uds://" ++ name ++ t = py!"uds" ++ py!"://" ++ name ++ t := by simp
  have h1 : ∀ c ∈ name, isDelim c = false ∧ c ≠ 9 ∧ c ≠ 10 ∧ c ≠ 13 ∧ c < 128 := by
    intro c hc; have := v6_facts (hh c hc).v6; exact ⟨this.1, by omega, by omega, by omega, by omega⟩
  have hno : ∀ c, c = 91 ∨ c = 93 → c ∉ name := by
    intro c hc hm
    have := v6_facts (hh c hm).v6; omega
  have h2 : name.contains 91 = false ∧ name.contains 93 = false := by
    constructor
    · rw [List.contains_eq_any_beq, List.any_eq_false]; intro c hc; simp; rintro rfl; exact hno 91 (by simp) hc
    · rw [List.contains_eq_any_beq, List.any_eq_false]; intro c hc; simp; rintro rfl; exact hno 93 (by simp) hc
  rw [e, urlsplit_netloc env py!"uds" (.inr rfl) name t h1 (.inl h2) ht ht0]

/-- `path` is the entry `name` of the directory `dir`: the two with exactly one slash between
them (no slash is added to the empty text). -/
def EntryOf (dir name path : Str) : Prop :=
  (dir = [] ∧ path = name) ∨
  (∃ d, dir = d ++ py!"/" ∧ path = d ++ py!"/" ++ name) ∨
  (dir ≠ [] ∧ (∀ d, dir ≠ d ++ py!"/") ∧ path = dir ++ py!"/" ++ name)

/-- C19: `uds://name` is the socket of that name in the temporary directory. -/
theorem C19_uds_name (env : Env) (name : Str) (hh : ∀ c ∈ name, HostChar c) (hne : name ≠ []) :
    ∃ path, parseAddr env (py!"uds://" ++ name) = .ok (.uds path) ∧ EntryOf env.tempdir name path := by
  refine ⟨joinPath env.tempdir name, ?_, ?_⟩
  · have := uds_netloc env name [] hh (by simp) (by simp)
    rw [List.append_nil] at this
    unfold parseAddr
    rw [this]
    have hu : (py!"uds" : Str) ≠ py!"tcp" := by decide
    simp [hne, pathOf]
  · generalize env.tempdir = dir
    unfold joinPath EntryOf
    rcases List.eq_nil_or_concat dir with rfl | ⟨d, c, rfl⟩
    · simp
    · by_cases hc : c = 47
      · subst hc; right; left; exact ⟨d, by simp, by simp⟩
      · right; right
        refine ⟨by simp, ?_, ?_⟩
        · intro d' h
          have := congrArg List.getLast? h
          simp at this; exact hc this
        · simp [hc]

/-- A character of a path that the address syntax leaves alone: not `?`, `#`, tab, CR or LF. -/
def PathChar (c : Nat) : Prop := c ∉ py!"?#\t\r\n"

theorem pathChar_facts {c : Nat} (h : PathChar c) : c ≠ 9 ∧ c ≠ 10 ∧ c ≠ 13 ∧ c ≠ 63 ∧ c ≠ 35 := by
  unfold PathChar at h
  simp only [List.mem_cons, List.not_mem_nil, or_false, not_or] at h
  omega

theorem pathOf_self (p : Str) (h : ∀ c ∈ p, PathChar c) : pathOf p = p := by
  unfold pathOf
  apply takeWhile_all
  intro c hc
  have := pathChar_facts (h c hc)
  simp [this]

/-- C19: `uds:///path` is exactly that absolute path (whatever its characters other than
`? # tab CR LF`). -/
theorem C19_uds_path (env : Env) (p : Str) (h : ∀ c ∈ p, PathChar c) :
    parseAddr env (py!"uds:///" ++ p) = .ok (.uds (47 :: p)) := by
  have hs : ∀ c ∈ 47 :: p, PathChar c := by
    intro c hc
    rcases List.mem_cons.mp hc with rfl | hc
    · unfold PathChar; decide
    · exact h c hc
  have := uds_netloc env [] (47 :: p) (by simp) (fun c hc => by have := pathChar_facts (hs c hc); omega)
    (by intro c hc; simp only [List.head?_cons, Option.some.injEq] at hc; subst hc; decide)
  rw [List.append_nil] at this
  have e : py!"uds:///" ++ p = py!"uds://" ++ 47 :: p := by simp
  unfold parseAddr
  rw [e, this, pathOf_self _ hs]
  simp

/-- C19: the shorter form `uds:/path`. -/
theorem C19_uds_path_short (env : Env) (p : Str) (h : ∀ c ∈ p, PathChar c) (h2 : p.head? ≠ some 47) :
    parseAddr env (py!"uds:/" ++ p) = .ok (.uds (47 :: p)) := by
  have hclean : ((py!"uds:/" ++ p).dropWhile (fun c => decide (c ≤ 32))).filter (fun c => !(c == 9 || c == 10 || c == 13)) = py!"uds:/" ++ p := by
    have : (py!"uds:/" ++ p).dropWhile (fun c => decide (c ≤ 32)) = py!"uds:/" ++ p := rfl
    rw [this, filter_id]
    intro c hc
    rcases List.mem_append.mp hc with hc | hc
    · exact (by decide : ∀ c ∈ py!"uds:/", c ≠ 9 ∧ c ≠ 10 ∧ c ≠ 13) c hc
    · have := pathChar_facts (h c hc); omega
  have hsch : splitScheme (py!"uds:/" ++ p) = (py!"uds", 47 :: p) := by
    simp [splitScheme, cut, isAlpha, isSchemeChar, isDig, lowerC]
  have hp : pathOf (47 :: p) = 47 :: p := pathOf_self _ (by
    intro c hc
    rcases List.mem_cons.mp hc with rfl | hc
    · unfold PathChar; decide
    · exact h c hc)
  have hu : urlsplit env (py!"uds:/" ++ p) = .ok ⟨py!"uds", [], 47 :: p⟩ := by
    unfold urlsplit
    rw [hclean]
    simp only [hsch]
    cases p with
    | nil => rfl
    | cons c p =>
      have hc : c ≠ 47 := by intro e; apply h2; rw [e]; rfl
      split
      · rename_i r hm
        simp only [List.cons.injEq, true_and] at hm
        exact absurd hm.1 hc
      · have hp' : List.takeWhile (fun c => !(c == 63 || c == 35)) (47 :: c :: p) = 47 :: c :: p := hp
        simp only [hp']
        rfl
  unfold parseAddr
  rw [hu]
  simp

/-- C19: a uds address with both a name and a path is a ValueError. -/
theorem C19_uds_both (env : Env) (name p : Str) (hh : ∀ c ∈ name, HostChar c) (hne : name ≠ []) (h : ∀ c ∈ p, PathChar c) :
    parseAddr env (py!"uds://" ++ name ++ 47 :: p) = .error .value := by
  have hs : ∀ c ∈ 47 :: p, PathChar c := by
    intro c hc
    rcases List.mem_cons.mp hc with rfl | hc
    · unfold PathChar; decide
    · exact h c hc
  have := uds_netloc env name (47 :: p) hh (fun c hc => by have := pathChar_facts (hs c hc); omega)
    (by intro c hc; simp only [List.head?_cons, Option.some.injEq] at hc; subst hc; decide)
  unfold parseAddr
  rw [this, pathOf_self _ hs]
  simp [hne]

theorem urlsplit_shape (env : Env) (v : Str) : urlsplit env v = .error .value ∨
    ∃ n p, urlsplit env v = .ok ⟨(splitScheme ((v.dropWhile (· ≤ 32)).filter (fun c => !(c == 9 || c == 10 || c == 13)))).1, n, p⟩ := by
  unfold urlsplit
  simp only
  repeat' split
  all_goals first
    | (left; rfl)
    | exact .inr ⟨_, _, rfl⟩

/-- C19: nothing but ValueError is ever raised, and an accepted tcp port is at most 65535. -/
theorem C19_only_ValueError (env : Env) (v : Str) :
    (∀ e, parseAddr env v = .error e → e = .value) ∧ (∀ h p, parseAddr env v = .ok (.tcp h p) → p ≤ 65535) := by
  have hu : ∀ e, urlsplit env v = .error e → e = .value := by
    intro e h
    rcases urlsplit_shape env v with h' | ⟨n, p, h'⟩
    · rw [h'] at h; cases h; rfl
    · rw [h'] at h; cases h
  have hp : ∀ n, (∀ e, portOf n = .error e → e = .value) ∧ (∀ p, portOf n = .ok (some p) → p ≤ 65535) := by
    intro n
    unfold portOf
    constructor
    · intro e h
      split at h
      · cases h
      · split at h
        · split at h
          · cases h
          · cases h; rfl
        · cases h; rfl
    · intro p h
      split at h
      · cases h
      · split at h
        · split at h
          · cases h; assumption
          · cases h
        · cases h
  constructor
  · intro e h
    unfold parseAddr at h
    split at h
    · rename_i e' he; cases h; exact hu e he
    · split at h
      · split at h
        · cases h
        · split at h
          · rename_i e' he; cases h; exact (hp _).1 e he
          · cases h
          · cases h; rfl
      · split at h
        · split at h
          · cases h; rfl
          · split at h
            · cases h
            · split at h <;> cases h
        · cases h; rfl
  · intro host p h
    unfold parseAddr at h
    split at h
    · cases h
    · split at h
      · split at h
        · cases h; omega
        · split at h
          · cases h
          · rename_i q hq; cases h; exact (hp _).2 _ hq
          · cases h
      · split at h
        · split at h
          · cases h
          · split at h
            · cases h
            · split at h <;> cases h
        · cases h

/-- C19: only the schemes tcp and uds (in any case) are accepted: an accepted string is, after
the leading blanks and without tabs and line ends, `tcp:...` or `uds:...`. -/
theorem C19_scheme (env : Env) (v : Str) (a : Sock) (h : parseAddr env v = .ok a) :
    ∃ s rest, (v.dropWhile (· ≤ 32)).filter (fun c => !(c == 9 || c == 10 || c == 13)) = s ++ 58 :: rest ∧
      (s.map lowerC = py!"tcp" ∨ s.map lowerC = py!"uds") := by
  unfold parseAddr at h
  split at h
  · cases h
  · rename_i u hu
    have hsch : u.scheme = py!"tcp" ∨ u.scheme = py!"uds" := by
      split at h
      · left; assumption
      · split at h
        · right; assumption
        · cases h
    rcases urlsplit_shape env v with h' | ⟨n, p, h'⟩
    · rw [h'] at hu; cases hu
    · rw [h'] at hu
      cases hu
      simp only at hsch
      generalize (v.dropWhile (fun c => decide (c ≤ 32))).filter (fun c => !(c == 9 || c == 10 || c == 13)) = cl at hsch
      unfold splitScheme at hsch
      split at hsch
      · rename_i c s rest hc
        split at hsch
        · exact ⟨c :: s, rest, (cut_some _ _ _ _ hc).1, hsch⟩
        · rcases hsch with h | h <;> cases h
      · rcases hsch with h | h <;> cases h

/-- Undocumented strings that are accepted all the same: the parser is lenient. -/
theorem C19_lenient (env : Env) : parseAddr env py!"tcp:foo" = .ok (.tcp [] 0) ∧
    parseAddr env py!"tcp://user@h:1/path?query" = .ok (.tcp py!"h" 1) := ⟨rfl, rfl⟩

/-- Non-vacuity of the C19 theorems. -/
example : (∀ c ∈ py!"Host-1.example", HostChar c) ∧ PortText py!"5678" ∧ (∀ c ∈ py!"fe80::1", V6Char c) ∧
    (∀ c ∈ py!"tmp/my sock@[x]", PathChar c) ∧ (∀ c ∈ py!"Eth0", ZoneChar c) := by
  refine ⟨?_, ⟨by decide, by decide⟩, ?_, ?_, by unfold ZoneChar; decide⟩
  · unfold HostChar; decide
  · unfold V6Char; decide
  · unfold PathChar; decide

/-! ## C20 -/

/-- A socket name as the operating system reports it: numeric IPv4/IPv6 addresses in lower
case with a 16 bit port, absolute unix paths without `? # tab CR LF`. -/
def Reportable (env : Env) : SockName → Prop
  | .inet host port => (∀ c ∈ host, HostChar c ∧ lowerC c = c) ∧ port ≤ 65535
  | .inet6 host port => (∀ c ∈ host, V6Char c ∧ lowerC c = c) ∧ port ≤ 65535 ∧ env.bracketedHostOk host = true
  | .unix path => path.head? = some 47 ∧ ∀ c ∈ path, PathChar c

theorem portText_natDec (n : Nat) : PortText (natDec n) := ⟨natDec_ne_nil n, dig_range n⟩

theorem map_lower_self (s : Str) (h : ∀ c ∈ s, lowerC c = c) : s.map lowerC = s := by
  conv => rhs; rw [← List.map_id s]
  exact List.map_congr_left h

/-- C20: the reported address parses back to the socket's own address. -/
theorem C20_address_roundtrip_partial (env : Env) (n : SockName) (h : Reportable env n) :
    parseAddr env (address n) = .ok n.target := by
  cases n with
  | inet host port =>
    obtain ⟨h1, h2⟩ := h
    simp only [address, SockName.target]
    rw [C19_tcp_host_port env host (natDec port) (fun c hc => (h1 c hc).1) (portText_natDec port), digVal_natDec, if_pos h2,
      map_lower_self host (fun c hc => (h1 c hc).2)]
  | inet6 host port =>
    obtain ⟨h1, h2, h3⟩ := h
    simp only [address, SockName.target]
    rw [C19_tcp_v6_port env host (natDec port) (fun c hc => (h1 c hc).1) (portText_natDec port) h3, digVal_natDec, if_pos h2,
      map_lower_self host (fun c hc => (h1 c hc).2)]
  | unix path =>
    obtain ⟨h1, h2⟩ := h
    cases path with
    | nil => cases h1
    | cons c p =>
      simp only [List.head?_cons, Option.some.injEq] at h1
      subst h1
      have := C19_uds_path env p (fun c hc => h2 c (by simp [hc]))
      simp only [address, SockName.target]
      have e : py!"uds://" ++ 47 :: p = py!"uds:///" ++ p := by simp
      rw [e, this]

/-- C20 for absolute unix paths is exactly: no `? # tab CR LF` in the path. -/
theorem C20_unix_iff (env : Env) (p : Str) :
    parseAddr env (address (.unix (47 :: p))) = .ok (.uds (47 :: p)) ↔ ∀ c ∈ p, PathChar c := by
  constructor
  · intro h
    have e : address (.unix (47 :: p)) = py!"uds:///" ++ p := rfl
    rw [e] at h
    have hclean : ((py!"uds:///" ++ p).dropWhile (fun c => decide (c ≤ 32))).filter (fun c => !(c == 9 || c == 10 || c == 13)) =
        py!"uds:///" ++ p.filter (fun c => !(c == 9 || c == 10 || c == 13)) := by rfl
    generalize hf : p.filter (fun c => !(c == 9 || c == 10 || c == 13)) = q at hclean
    have hsch : splitScheme (py!"uds:///" ++ q) = (py!"uds", 47 :: 47 :: 47 :: q) := by
      simp [splitScheme, cut, isAlpha, isSchemeChar, isDig, lowerC]
    have hu : urlsplit env (py!"uds:///" ++ p) = .ok ⟨py!"uds", [], pathOf (47 :: q)⟩ := by
      unfold urlsplit
      rw [hclean]
      simp only [hsch]
      rfl
    unfold parseAddr at h
    rw [hu] at h
    have hpo : pathOf (47 :: q) = 47 :: pathOf q := rfl
    simp only [hpo] at h
    have hpq : pathOf q = p := by
      simp at h; exact h
    intro c hc
    have hq : c ∈ q := by rw [← hpq] at hc; exact List.takeWhile_subset _ hc
    rw [← hf] at hq
    have h1 := (List.mem_filter.mp hq).2
    have h2 : (!(c == 63 || c == 35)) = true := by
      rw [← hpq] at hc; unfold pathOf at hc
      have : ∀ (l : List Nat) (pr : Nat → Bool) (c : Nat), c ∈ l.takeWhile pr → pr c = true := by
        intro l pr c hc
        induction l with
        | nil => simp at hc
        | cons x l ih =>
          rw [List.takeWhile_cons] at hc
          split at hc
          · rcases List.mem_cons.mp hc with rfl | hc
            · assumption
            · exact ih hc
          · simp at hc
      exact this q _ c hc
    unfold PathChar
    simp only [List.mem_cons, List.not_mem_nil, or_false, not_or]
    simp at h1 h2
    omega
  · intro h
    exact C19_uds_path env p h

/-- C20 is false for unix paths with `?` or `#`, and for sockets bound with a relative path
(`uds:name` is accepted): the reported address leads somewhere else. -/
theorem C20_refuted (env : Env) :
    parseAddr env (address (.unix py!"/tmp/a?b")) = .ok (.uds py!"/tmp/a") ∧
    parseAddr env py!"uds:sock" = .ok (.uds py!"sock") ∧
    parseAddr env (address (.unix py!"sock")) = .ok (.uds (joinPath env.tempdir py!"sock")) := ⟨rfl, rfl, rfl⟩

/-- Non-vacuity of C20. -/
example (env : Env) (h : env.bracketedHostOk py!"::1" = true) : Reportable env (.inet py!"127.0.0.1" 40000) ∧
    Reportable env (.inet6 py!"::1" 65535) ∧ Reportable env (.unix py!"/tmp/ansibug-dap-1") := by
  refine ⟨⟨by unfold HostChar; decide, by decide⟩, ⟨by unfold V6Char; decide, by decide, h⟩, ⟨rfl, by unfold PathChar; decide⟩⟩

end Verif.Props.Addr
