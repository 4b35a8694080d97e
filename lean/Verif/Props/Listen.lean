import Verif.Sock.Listen
import Verif.Props.Addr
/-!
# C105, C106: where a debuggee listens
-/

namespace Verif.Props.Listen
open Verif Verif.Sock

/-- The host text stands for that address: the empty one for all, a name for its addresses, the unspecified
address for all addresses of its family. -/
def StandsFor (net : Net) (host : Str) (ip : Ip) : Prop :=
  host = [] ∨ ip ∈ net.names host ∨ (Ip.v4 0 ∈ net.names host ∧ ip.isV6 = false) ∨ Ip.v6 0 ∈ net.names host

/-- A client that connects to the unspecified address reaches the host itself (Linux). -/
def dest : Ip → Ip
  | .v4 0 => .v4 0x7f000001
  | .v6 0 => .v6 1
  | ip => ip

theorem create_ok {net : Net} {k : List Listener} {user proc pick : Nat} {v6 dual reuse : Bool} {host : Str} {port : Nat} {l : Listener}
    (h : createServer net k user proc pick v6 dual reuse host port = .ok l) :
    ∃ ip, net.bindAddr v6 host = some ip ∧ l = { ip := ip, port := if port = 0 then pick else port, dual := dual, reuse := reuse, user := user, proc := proc } ∧
      ∀ m ∈ k, m.excludes l = false := by
  unfold createServer at h
  cases hb : net.bindAddr v6 host with
  | none => rw [hb] at h; cases h
  | some ip =>
    rw [hb] at h
    dsimp only at h
    generalize (if port = 0 then pick else port) = q at h ⊢
    split at h
    · cases h
    · rename_i hn
      cases h
      refine ⟨ip, rfl, rfl, fun m hm => ?_⟩
      cases he : m.excludes { ip := ip, port := q, dual := dual, reuse := reuse, user := user, proc := proc } with
      | false => rfl
      | true => exact absurd (List.any_eq_true.2 ⟨m, hm, he⟩) hn

theorem bindAddr_some {net : Net} {v6 : Bool} {host : Str} {ip : Ip} (h : net.bindAddr v6 host = some ip) :
    ip.isV6 = v6 ∧ (host = [] ∧ (ip = .v4 0 ∨ ip = .v6 0) ∨ host ≠ [] ∧ ip ∈ net.names host) := by
  unfold Net.bindAddr at h
  split at h
  · rename_i he
    cases h
    cases v6
    · exact ⟨rfl, .inl ⟨he, .inl rfl⟩⟩
    · exact ⟨rfl, .inl ⟨he, .inr rfl⟩⟩
  · rename_i he
    have := List.mem_of_mem_head? h
    rw [List.mem_filter] at this
    exact ⟨by simpa using this.2, .inr ⟨he, this.1⟩⟩

theorem takes_cases {l : Listener} {ip : Ip} (h : l.takes ip = true) :
    l.ip = ip ∨ (l.ip = .v4 0 ∧ ip.isV6 = false) ∨ (l.ip = .v6 0 ∧ (ip.isV6 = true ∨ l.dual = true)) := by
  unfold Listener.takes at h
  rw [Bool.or_eq_true] at h
  rcases h with h | h
  · exact .inl (by simpa using h)
  · split at h
    · rename_i h1; exact .inr (.inl ⟨h1, rfl⟩)
    · rename_i h1; exact .inr (.inr ⟨h1, .inl rfl⟩)
    · rename_i h1; exact .inr (.inr ⟨h1, .inr h⟩)
    · cases h

/-- **C105** (nothing else). The debuggee takes connections only to addresses that the host given stands for, on
the port given (or, if that is 0, the one the system chose), whatever else runs on the host. -/
theorem C105_only_asked {net : Net} {k k' : List Listener} {user proc pick : Nat} {host : Str} {port : Nat} {l : Listener}
    (h : listenTcp net k user proc pick host port = .ok l) {ip : Ip} {p : Nat} (hr : MayReach k' ip p l) :
    StandsFor net host ip ∧ (p = port ∨ port = 0 ∧ p = pick) := by
  obtain ⟨ip', hb, rfl, -⟩ := create_ok h
  obtain ⟨-, hp, ht, -⟩ := hr
  obtain ⟨-, hb⟩ := bindAddr_some hb
  refine ⟨?_, ?_⟩
  · rcases hb with ⟨he, -⟩ | ⟨-, hm⟩
    · exact .inl he
    · rcases takes_cases ht with h | ⟨h, h2⟩ | ⟨h, -⟩
      · dsimp only at h; subst h; exact .inr (.inl hm)
      · dsimp only at h; subst h; exact .inr (.inr (.inl ⟨hm, h2⟩))
      · dsimp only at h; subst h; exact .inr (.inr (.inr hm))
  · dsimp only at hp
    split at hp
    · rename_i h0; exact .inr ⟨h0, hp.symm⟩
    · exact .inl hp.symm

/-- **C105** (no host). With dual stack `tcp://:port` listens on all addresses of both families. -/
theorem C105_everywhere {net : Net} {k : List Listener} {user proc pick port : Nat} {l : Listener} (hd : net.dualstack = true)
    (h : listenTcp net k user proc pick [] port = .ok l) (ip : Ip) : l.takes ip = true := by
  obtain ⟨ip', hb, rfl, -⟩ := create_ok h
  rw [hd] at hb ⊢
  cases hb
  cases ip <;> simp [Listener.takes]

/-- Without dual stack on all IPv4 addresses. -/
theorem C105_everywhere_v4 {net : Net} {k : List Listener} {user proc pick port : Nat} {l : Listener} (hd : net.dualstack = false)
    (h : listenTcp net k user proc pick [] port = .ok l) (ip : Ip) : l.takes ip = true ↔ ip.isV6 = false := by
  obtain ⟨ip', hb, rfl, -⟩ := create_ok h
  rw [hd] at hb ⊢
  cases hb
  cases ip <;> simp [Listener.takes, Ip.isV6]

/-- **C105** (exactly when). Listening succeeds exactly if the host has an address of the family that is used (IPv6
with dual stack, else IPv4) and no other socket keeps the first of them. -/
theorem C105_exactly_partial (net : Net) (k : List Listener) (user proc pick : Nat) (host : Str) (port : Nat) (hh : host ≠ []) :
    (∃ l, listenTcp net k user proc pick host port = .ok l) ↔
    ∃ pre ip post, net.names host = pre ++ ip :: post ∧ ip.isV6 = net.dualstack ∧ (∀ x ∈ pre, x.isV6 ≠ net.dualstack) ∧
      ∀ m ∈ k, m.excludes { ip := ip, port := if port = 0 then pick else port, dual := net.dualstack, reuse := decide (port ≠ 0), user := user, proc := proc } = false := by
  have hf : ∀ (xs : List Ip) (ip : Ip), (xs.filter fun ip => decide (ip.isV6 = net.dualstack)).head? = some ip ↔
      ∃ pre post, xs = pre ++ ip :: post ∧ ip.isV6 = net.dualstack ∧ ∀ x ∈ pre, x.isV6 ≠ net.dualstack := by
    intro xs ip
    induction xs with
    | nil => simp
    | cons x xs ih =>
      by_cases hx : x.isV6 = net.dualstack
      · rw [List.filter_cons_of_pos (by simpa using hx)]
        constructor
        · intro h; cases h; exact ⟨[], xs, rfl, hx, by simp⟩
        · rintro ⟨pre, post, h1, h2, h3⟩
          cases pre with
          | nil => cases h1; rfl
          | cons y pre => cases h1; exact absurd hx (h3 _ (by simp))
      · rw [List.filter_cons_of_neg (by simpa using hx), ih]
        constructor
        · rintro ⟨pre, post, rfl, h2, h3⟩
          exact ⟨x :: pre, post, rfl, h2, fun y hy => by rcases List.mem_cons.1 hy with rfl | hy; exact hx; exact h3 y hy⟩
        · rintro ⟨pre, post, h1, h2, h3⟩
          cases pre with
          | nil => cases h1; exact absurd h2 hx
          | cons y pre => cases h1; exact ⟨pre, post, rfl, h2, fun z hz => h3 z (by simp [hz])⟩
  constructor
  · rintro ⟨l, h⟩
    obtain ⟨ip, hb, rfl, hk⟩ := create_ok h
    unfold Net.bindAddr at hb
    rw [if_neg hh] at hb
    obtain ⟨pre, post, h1, h2, h3⟩ := (hf _ _).1 hb
    exact ⟨pre, ip, post, h1, h2, h3, hk⟩
  · rintro ⟨pre, ip, post, h1, h2, h3, hk⟩
    have hb : net.bindAddr net.dualstack host = some ip := by
      unfold Net.bindAddr
      rw [if_neg hh]
      exact (hf _ _).2 ⟨pre, post, h1, h2, h3⟩
    refine ⟨{ ip := ip, port := if port = 0 then pick else port, dual := net.dualstack, reuse := decide (port ≠ 0), user := user, proc := proc }, ?_⟩
    · unfold listenTcp createServer
      rw [hb]
      dsimp only
      rw [if_neg]
      intro hany
      obtain ⟨m, hm, he⟩ := List.any_eq_true.1 hany
      rw [hk m hm] at he
      cases he

/-- **C105** (why not). If it cannot listen, the resolver has no address of the family used for the host (and the
error is the resolver's), or another socket keeps the address (`EADDRINUSE`). -/
theorem C105_why {net : Net} {k : List Listener} {user proc pick : Nat} {host : Str} {port : Nat} {e : Exc}
    (h : listenTcp net k user proc pick host port = .error e) :
    (e = .os 9 ∧ host ≠ [] ∧ ∀ ip ∈ net.names host, ip.isV6 = !net.dualstack) ∨
    (e = .os 98 ∧ ∃ m ∈ k, (m.port = port ∨ port = 0 ∧ m.port = pick) ∧ ¬ (port ≠ 0 ∧ m.reuse = true ∧ m.user = user) ∧
      ∃ ip, m.takes ip = true ∧ StandsFor net host ip) := by
  unfold listenTcp createServer at h
  cases hb : net.bindAddr net.dualstack host with
  | none =>
    rw [hb] at h
    cases h
    refine .inl ⟨rfl, ?_⟩
    unfold Net.bindAddr at hb
    split at hb
    · cases hb
    · rename_i hh
      refine ⟨hh, fun ip hip => ?_⟩
      rw [List.head?_eq_none_iff, List.filter_eq_nil_iff] at hb
      have := hb ip hip
      revert this
      cases ip.isV6 <;> cases net.dualstack <;> simp
  | some ip =>
    rw [hb] at h
    dsimp only at h
    generalize hq : (if port = 0 then pick else port) = q at h
    split at h
    · rename_i hany
      cases h
      obtain ⟨m, hm, he⟩ := List.any_eq_true.1 hany
      unfold Listener.excludes at he
      simp only [Bool.and_eq_true, Bool.not_eq_true', decide_eq_true_eq, Bool.and_eq_false_iff, decide_eq_false_iff_not,
        Bool.or_eq_true] at he
      obtain ⟨⟨h1, h2⟩, h3⟩ := he
      refine .inr ⟨rfl, m, hm, ?_, ?_, ?_⟩
      · rw [← hq] at h1
        split at h1
        · rename_i h0; exact .inr ⟨h0, h1⟩
        · exact .inl h1
      · rintro ⟨g1, g2, g3⟩
        rcases h3 with (h3 | h3) | h3
        · rw [g2] at h3; cases h3
        · exact h3 g1
        · exact h3 g3
      · obtain ⟨-, hb'⟩ := bindAddr_some hb
        rcases h2 with h2 | h2
        · refine ⟨ip, h2, ?_⟩
          rcases hb' with ⟨he, -⟩ | ⟨-, hm⟩
          · exact .inl he
          · exact .inr (.inl hm)
        · refine ⟨m.ip, by simp [Listener.takes], ?_⟩
          rcases hb' with ⟨he, -⟩ | ⟨-, hm⟩
          · exact .inl he
          · rcases takes_cases h2 with h | ⟨h, h4⟩ | ⟨h, -⟩
            · dsimp only at h; subst h; exact .inr (.inl hm)
            · dsimp only at h; subst h; exact .inr (.inr (.inl ⟨hm, h4⟩))
            · dsimp only at h; subst h; exact .inr (.inr (.inr hm))
    · cases h

/-- **C105** fails for IPv4: with dual stack, whatever the port, nobody can listen on an IPv4 address or on a name
that has only such addresses. -/
theorem C105_v4_refuted (net : Net) (hd : net.dualstack = true) (k : List Listener) (user proc pick : Nat) (host : Str) (port : Nat)
    (hh : host ≠ []) (h4 : ∀ ip ∈ net.names host, ip.isV6 = false) : listenTcp net k user proc pick host port = .error (.os 9) := by
  have : net.bindAddr net.dualstack host = none := by
    unfold Net.bindAddr
    rw [if_neg hh, hd, List.filter_eq_nil_iff.2 (fun ip hip => by simp [h4 ip hip])]
    rfl
  unfold listenTcp createServer
  rw [this]

/-- The example of the help text, `--addr tcp://127.0.0.1:0`, is such a case. -/
theorem C105_documented_refuted (env : Addr.Env) (net : Net) (hd : net.dualstack = true)
    (hn : net.names py!"127.0.0.1" = [.v4 0x7f000001]) (k : List Listener) (user proc pick : Nat) :
    listenAt env net k user proc pick py!"tcp://127.0.0.1:0" = some (.error (.os 9)) := by
  have hp : Addr.parseAddr env py!"tcp://127.0.0.1:0" = .ok (.tcp py!"127.0.0.1" 0) := by
    have := Addr.C19_tcp_host_port env py!"127.0.0.1" py!"0" (by unfold Addr.HostChar; decide) ⟨by decide, by decide⟩
    exact this
  unfold listenAt
  rw [hp]
  dsimp only
  rw [C105_v4_refuted net hd k user proc pick _ 0 (by decide) (by rw [hn]; decide)]

/-- **C105** fails for a name with addresses of both families: the IPv4 ones are not served. -/
theorem C105_both_refuted (net : Net) (hd : net.dualstack = true) (user proc pick port a b : Nat) (host : Str) (hh : host ≠ [])
    (hn : net.names host = [.v6 (a + 1), .v4 b]) : ∃ l, listenTcp net [] user proc pick host port = .ok l ∧
      StandsFor net host (.v4 b) ∧ l.takes (.v4 b) = false ∧ l.takes (.v6 (a + 1)) = true := by
  refine ⟨{ ip := .v6 (a + 1), port := if port = 0 then pick else port, dual := true, reuse := decide (port ≠ 0), user := user, proc := proc }, ?_, ?_, ?_, ?_⟩
  · unfold listenTcp createServer Net.bindAddr
    rw [if_neg hh, hn, hd]
    simp [Ip.isV6]
  · exact .inr (.inl (by rw [hn]; simp))
  · simp [Listener.takes]
  · simp [Listener.takes]

theorem C105_no_dualstack_refuted (net : Net) (hd : net.dualstack = false) (k : List Listener) (user proc pick : Nat) (host : Str) (port : Nat)
    (hh : host ≠ []) (h6 : ∀ ip ∈ net.names host, ip.isV6 = true) : listenTcp net k user proc pick host port = .error (.os 9) := by
  have : net.bindAddr net.dualstack host = none := by
    unfold Net.bindAddr
    rw [if_neg hh, hd, List.filter_eq_nil_iff.2 (fun ip hip => by simp [h6 ip hip])]
    rfl
  unfold listenTcp createServer
  rw [this]

/-- **C105** (by name). A client that tries every address of the same name, as the debug adapter does, finds the debuggee. -/
theorem C105_by_name {net : Net} {k : List Listener} {user proc pick : Nat} {host : Str} {port : Nat} {l : Listener}
    (h : listenTcp net k user proc pick host port = .ok l) (hh : host ≠ []) (h0 : ∀ ip ∈ net.names host, ip ≠ .v4 0 ∧ ip ≠ .v6 0) :
    ∃ ip ∈ net.names host, MayReach (l :: k) (dest ip) l.port l := by
  obtain ⟨ip, hb, rfl, -⟩ := create_ok h
  rcases (bindAddr_some hb).2 with ⟨he, -⟩ | ⟨-, hm⟩
  · exact absurd he hh
  · have hd : dest ip = ip := by
      unfold dest
      split
      · exact absurd rfl (h0 _ hm).1
      · exact absurd rfl (h0 _ hm).2
      · rfl
    refine ⟨ip, hm, by simp, rfl, ?_, .inl hd.symm⟩
    rw [hd]; simp [Listener.takes]

/-! ## C106 -/

/-- Two sockets that take connections to the same address are in each other's way. -/
theorem overlap {l m : Listener} {ip : Ip} (h1 : l.takes ip = true) (h2 : m.takes ip = true) : (l.takes m.ip || m.takes l.ip) = true := by
  rcases takes_cases h1 with h | ⟨h, h'⟩ | ⟨h, h'⟩
  · rw [h, h2, Bool.or_true]
  · rcases takes_cases h2 with g | ⟨g, g'⟩ | ⟨g, g'⟩
    · rw [g, h1]; rfl
    · rw [h, g]; simp [Listener.takes, h]
    · rw [h'] at g'
      rcases g' with g' | g'
      · cases g'
      · rw [h, Bool.or_eq_true]; right; simp [Listener.takes, g, g']
  · rcases takes_cases h2 with g | ⟨g, g'⟩ | ⟨g, g'⟩
    · rw [g, h1]; rfl
    · rw [g'] at h'
      rcases h' with h' | h'
      · cases h'
      · rw [g, Bool.or_eq_true]; left; simp [Listener.takes, h, h']
    · rw [h, g]; simp [Listener.takes, h]

/-- What happens on a host: sockets are bound, as the system permits, by ansibug or by anything else, and closed. -/
inductive Host : List Listener → Prop
  | none : Host []
  | bound {k l} : Host k → (∀ m ∈ k, m.excludes l = false) → Host (l :: k)
  | closed {pre l post} : Host (pre ++ l :: post) → Host (pre ++ post)

theorem excludes_symm (l m : Listener) : l.excludes m = m.excludes l := by
  unfold Listener.excludes
  rw [Bool.or_comm (l.takes m.ip), decide_eq_decide.2 (⟨Eq.symm, Eq.symm⟩ : l.port = m.port ↔ m.port = l.port),
    decide_eq_decide.2 (⟨Eq.symm, Eq.symm⟩ : l.user = m.user ↔ m.user = l.user), Bool.and_comm l.reuse]

theorem host_pairs {k : List Listener} (h : Host k) : k.Pairwise fun l m => l.excludes m = false := by
  induction h with
  | none => exact List.Pairwise.nil
  | bound _ hn ih => exact List.pairwise_cons.2 ⟨fun m hm => by rw [excludes_symm]; exact hn m hm, ih⟩
  | closed _ ih => exact ih.sublist (List.Sublist.append (List.Sublist.refl _) (List.sublist_cons_self _ _))

theorem pair_ne {k : List Listener} (h : k.Pairwise fun l m => l.excludes m = false) {l m : Listener} (hl : l ∈ k) (hm : m ∈ k) (hne : l ≠ m) :
    l.excludes m = false := by
  induction h with
  | nil => cases hl
  | cons h1 _ ih =>
    rcases List.mem_cons.1 hl with rfl | hl'
    · rcases List.mem_cons.1 hm with rfl | hm'
      · exact absurd rfl hne
      · exact h1 m hm'
    · rcases List.mem_cons.1 hm with rfl | hm'
      · rw [excludes_symm]; exact h1 l hl'
      · exact ih hl' hm'

/-- **C106** (port 0). If the system chose the port, every connection to an address the debuggee listens on, at any
later time while it listens, goes to it and to nothing else on the host. -/
theorem C106_chosen_port_partial {net : Net} {k k' : List Listener} {user proc pick : Nat} {host : Str} {l m : Listener}
    (h : listenTcp net k user proc pick host 0 = .ok l) (hk : Host k') (hl : l ∈ k') {ip : Ip} (ht : l.takes ip = true)
    (hm : MayReach k' ip l.port m) : m = l := by
  obtain ⟨ip', hb, rfl, -⟩ := create_ok h
  obtain ⟨h1, h2, h3, -⟩ := hm
  apply Decidable.byContradiction
  intro hne
  have := pair_ne (host_pairs hk) h1 hl hne
  unfold Listener.excludes at this
  rw [overlap h3 ht, h2] at this
  simp at this

/-- **C106** (other users). With a port given by the user the connections go to the debuggee or to another socket of
the same user that shares its port (`SO_REUSEPORT`). -/
theorem C106_same_user_partial {net : Net} {k k' : List Listener} {user proc pick : Nat} {host : Str} {port : Nat} {l m : Listener}
    (h : listenTcp net k user proc pick host port = .ok l) (hk : Host k') (hl : l ∈ k') {ip : Ip} (ht : l.takes ip = true)
    (hm : MayReach k' ip l.port m) : m = l ∨ (port ≠ 0 ∧ m.reuse = true ∧ m.user = user) := by
  obtain ⟨ip', hb, rfl, -⟩ := create_ok h
  obtain ⟨h1, h2, h3, -⟩ := hm
  apply Decidable.byContradiction
  intro hne
  rw [not_or] at hne
  have := pair_ne (host_pairs hk) h1 hl hne.1
  unfold Listener.excludes at this
  rw [overlap h3 ht, h2] at this
  simp at this
  exact hne.2 ⟨this.1.2, this.1.1, this.2⟩

/-- **C106** fails for a port given by the user: a second playbook of the same user that is told to listen on the same
address does so without an error, and the connections meant for the first may go to it. -/
theorem C106_refuted (net : Net) (user p1 p2 pick : Nat) (host : Str) (port : Nat) (l1 : Listener) (hp : port ≠ 0)
    (h1 : listenTcp net [] user p1 pick host port = .ok l1) :
    ∃ l2, listenTcp net [l1] user p2 pick host port = .ok l2 ∧ l2.proc = p2 ∧ Host [l2, l1] ∧
      ∀ ip, l1.takes ip = true → (MayReach [l2, l1] ip port l1 ∧ MayReach [l2, l1] ip port l2) := by
  obtain ⟨ip', hb, rfl, -⟩ := create_ok h1
  rw [if_neg hp] at h1 ⊢
  have hx : Listener.excludes { ip := ip', port := port, dual := net.dualstack, reuse := decide (port ≠ 0), user := user, proc := p1 }
      { ip := ip', port := port, dual := net.dualstack, reuse := decide (port ≠ 0), user := user, proc := p2 } = false := by
    simp [Listener.excludes, hp]
  refine ⟨{ ip := ip', port := port, dual := net.dualstack, reuse := decide (port ≠ 0), user := user, proc := p2 }, ?_, rfl, ?_, ?_⟩
  · unfold listenTcp createServer
    rw [hb, if_neg hp]
    dsimp only
    rw [if_neg]
    rw [List.any_cons, hx]
    simp
  · refine .bound (.bound .none (by simp)) ?_
    intro m hm
    rw [List.mem_singleton] at hm
    subst hm
    exact hx
  · intro ip ht
    have hs : (ip' = ip ∨ ∀ m ∈ ([{ ip := ip', port := port, dual := net.dualstack, reuse := decide (port ≠ 0), user := user, proc := p2 },
        { ip := ip', port := port, dual := net.dualstack, reuse := decide (port ≠ 0), user := user, proc := p1 }] : List Listener), m.port = port → m.ip ≠ ip) := by
      by_cases he : ip' = ip
      · exact .inl he
      · refine .inr fun m hm _ => ?_
        simp only [List.mem_cons, List.not_mem_nil, or_false] at hm
        rcases hm with rfl | rfl <;> exact he
    exact ⟨⟨by simp, rfl, ht, hs⟩, ⟨by simp, rfl, ht, hs⟩⟩

/-- The numeric texts of addresses: those of IPv4 have digits and dots, those of IPv6 also letters and colons, in
lower case, and `urllib` takes them for addresses. -/
def Numeric (env : Addr.Env) (text : Ip → Str) : Prop :=
  (∀ a, ∀ c ∈ text (.v4 a), Addr.HostChar c ∧ Addr.lowerC c = c) ∧
  ∀ a, (∀ c ∈ text (.v6 a), Addr.V6Char c ∧ Addr.lowerC c = c) ∧ env.bracketedHostOk (text (.v6 a)) = true

/-- **C105** (the reported address). The address the debuggee reports and writes into its file leads a client of the
host to it: it parses to a host and port, the resolver gives for the host the address listened on, and a connection
to it is one for the debuggee (and, with a chosen port, for nobody else: `C106_chosen_port_partial`). -/
theorem C105_reported {net : Net} {k : List Listener} {user proc pick : Nat} {host : Str} {port : Nat} {l : Listener}
    (h : listenTcp net k user proc pick host port = .ok l) (env : Addr.Env) (text : Ip → Str) (ht : Numeric env text)
    (hn : net.names (text l.ip) = [l.ip]) (hq : port ≤ 65535 ∧ pick ≤ 65535) (hs : ∀ m ∈ k, m.port = l.port → m.ip ≠ dest l.ip) :
    ∃ host', Addr.parseAddr env (Addr.address (l.name text)) = .ok (.tcp host' l.port) ∧
      ∃ ip ∈ net.names host', MayReach (l :: k) (dest ip) l.port l := by
  have hp : l.port ≤ 65535 := by
    obtain ⟨ip, -, rfl, -⟩ := create_ok h
    dsimp only
    split
    · exact hq.2
    · exact hq.1
  have hr : Addr.Reportable env (l.name text) := by
    unfold Listener.name
    cases hi : l.ip with
    | v4 a => exact ⟨ht.1 a, hp⟩
    | v6 a => exact ⟨(ht.2 a).1, hp, (ht.2 a).2⟩
  refine ⟨text l.ip, ?_, l.ip, ?_, ?_⟩
  · rw [Addr.C20_address_roundtrip_partial env _ hr]
    unfold Listener.name
    split <;> rfl
  · rw [hn]; simp
  · refine ⟨by simp, rfl, ?_, ?_⟩
    · obtain ⟨ip, -, rfl, -⟩ := create_ok h
      unfold dest Listener.takes
      dsimp only
      split <;> simp
    · by_cases he : l.ip = dest l.ip
      · exact .inl he
      · refine .inr fun m hm hp => ?_
        rcases List.mem_cons.1 hm with rfl | hm
        · exact he
        · exact hs m hm hp

/-! ## Non-vacuity -/

/-- A host with the loopback addresses. -/
def host0 : Net where
  names h := if h = py!"localhost" then [.v6 1, .v4 0x7f000001] else if h = py!"127.0.0.1" then [.v4 0x7f000001]
    else if h = py!"::1" then [.v6 1] else []
  dualstack := true

/-- Listening everywhere on a chosen port, on `::1` and on `localhost` with a port given; a second playbook on the same
port, and another user's. -/
example : listenTcp host0 [] 1000 1 40000 [] 0 = .ok ⟨.v6 0, 40000, true, false, 1000, 1⟩ ∧
    listenTcp host0 [] 1000 1 40000 py!"::1" 0 = .ok ⟨.v6 1, 40000, true, false, 1000, 1⟩ ∧
    listenTcp host0 [] 1000 1 40000 py!"localhost" 5000 = .ok ⟨.v6 1, 5000, true, true, 1000, 1⟩ ∧
    listenTcp host0 [⟨.v6 1, 5000, true, true, 1000, 1⟩] 1000 2 40000 [] 5000 = .ok ⟨.v6 0, 5000, true, true, 1000, 2⟩ ∧
    listenTcp host0 [⟨.v6 1, 5000, true, true, 1000, 1⟩] 1001 2 40000 [] 5000 = .error (.os 98) ∧
    listenTcp host0 [] 1000 1 40000 py!"127.0.0.1" 0 = .error (.os 9) := ⟨rfl, rfl, rfl, rfl, rfl, rfl⟩

/-- The assumptions about a reported address, with two addresses of a host. -/
example (env : Addr.Env) (h : env.bracketedHostOk py!"::1" = true) :
    let text : Ip → Str := fun ip => match ip with
      | .v4 _ => py!"127.0.0.1"
      | .v6 _ => py!"::1"
    Numeric env text ∧ host0.names (text (.v6 1)) = [.v6 1] ∧ host0.names (text (.v4 0x7f000001)) = [.v4 0x7f000001] ∧
    Addr.address ((⟨.v6 1, 40000, true, false, 1000, 1⟩ : Listener).name text) = py!"tcp://[::1]:40000" ∧
    Addr.address ((⟨.v4 0x7f000001, 40000, true, false, 1000, 1⟩ : Listener).name text) = py!"tcp://127.0.0.1:40000" :=
  ⟨⟨fun _ => by dsimp only; unfold Addr.HostChar; decide, fun _ => ⟨by dsimp only; unfold Addr.V6Char; decide, h⟩⟩, rfl, rfl, by decide +kernel, by decide +kernel⟩

end Verif.Props.Listen
