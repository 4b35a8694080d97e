import Verif.Sock.Machine
import Verif.Props.Listen
import Verif.Props.Server
/-!
# C107: attaching by process id
-/

namespace Verif.Props.Machine
open Verif Verif.Sock Verif.Props.Listen

/-- A history of the machine leads there. -/
def Leads (w : Place) (as : List MAct) (m : Machine) : Prop := ({} : Machine).run w as = some m

/-- The machine's numeric addresses: their texts are as `getsockname` gives them and the resolver turns them back. -/
def Sane (w : Place) : Prop := Numeric w.env w.text ∧ ∀ ip, w.net.names (w.text ip) = [ip]

/-- An attach request with this process id, on this machine: the arguments have the id and are complete. -/
structure Attach (pid : Nat) (fz : Str → Bool) (fl : Json → Bool) (data : List (Str × Json)) (a : Server.AttachArgs) : Prop where
  args : Server.attachFromJson fz fl data = some a
  pid : Dict.get? data py!"processId" = some (.int pid)

theorem intDec_inj {i j : Int} (h : intDec i = intDec j) : i = j := by
  have hi := loads_dumps (.int i) (by simp [Json.WF])
  have hj := loads_dumps (.int j) (by simp [Json.WF])
  have hd : dumps (.int i) = dumps (.int j) := by
    show intDec i = intDec j
    exact h
  rw [hd, hj] at hi
  cases hi
  rfl

theorem fileName_inj {p q : Nat} (h : fileName p = fileName q) : p = q := by
  unfold fileName at h
  have := intDec_inj (List.append_cancel_left h)
  omega

/-! ## The state of the machine -/

structure Inv (w : Place) (m : Machine) : Prop where
  pairs : m.socks.Pairwise fun l k => l.excludes k = false
  files : ∀ q ∈ m.up, m.files (fileName q.pid) = some (q.user, dumps (Server.infoToJson (q.info w)))
  made : ∀ q ∈ m.up, ∃ k pick host, listenTcp w.net k q.user q.proc pick host q.asked = .ok q.sock
  pids : ∀ q ∈ m.up, ∀ r ∈ m.up, q.pid = r.pid → q = r
  procs : ∀ q ∈ m.up, ∀ r ∈ m.up, q.proc = r.proc → q = r
  only : ∀ q ∈ m.up, ∀ l ∈ m.socks, l.proc = q.proc → l = q.sock

theorem host_of_pairs {k : List Listener} (h : k.Pairwise fun l m => l.excludes m = false) : Host k := by
  induction h with
  | nil => exact .none
  | cons h1 _ ih => exact .bound ih fun m hm => by rw [excludes_symm]; exact h1 m hm

theorem listen_proc {net : Net} {k : List Listener} {user proc pick : Nat} {host : Str} {port : Nat} {l : Listener}
    (h : listenTcp net k user proc pick host port = .ok l) : l.proc = proc ∧ l.user = user ∧ ∀ m ∈ k, m.excludes l = false := by
  obtain ⟨ip, -, rfl, hk⟩ := create_ok h
  exact ⟨rfl, rfl, hk⟩

theorem any_false {α : Type} {p : α → Prop} [DecidablePred p] {l : List α} (h : ¬ (l.any fun x => decide (p x)) = true) : ∀ x ∈ l, ¬ p x :=
  fun x hx hp => h (List.any_eq_true.2 ⟨x, hx, by simpa using hp⟩)

theorem inv_add {w : Place} {m : Machine} (i : Inv w m) {proc pid user pick port : Nat} {host : Str} {tls : Bool} {playbook : Json} {l : Listener}
    (h1 : ∀ q ∈ m.up, q.pid ≠ pid) (h2 : ∀ l ∈ m.socks, l.proc ≠ proc) (h3 : ∀ q ∈ m.up, q.proc ≠ proc)
    (hl : listenTcp w.net m.socks user proc pick host port = .ok l) :
    Inv w { socks := l :: m.socks, up := ⟨proc, pid, user, port, tls, playbook, l⟩ :: m.up
            files := fun n => if n = fileName pid then some (user, dumps (Server.infoToJson ((⟨proc, pid, user, port, tls, playbook, l⟩ : Play).info w)))
              else m.files n } := by
  obtain ⟨g1, g2, g3⟩ := listen_proc hl
  constructor
  · exact List.pairwise_cons.2 ⟨fun k hk => by rw [excludes_symm]; exact g3 k hk, i.pairs⟩
  · intro q hq
    dsimp only
    rcases List.mem_cons.1 hq with rfl | hq
    · rw [if_pos rfl]
    · rw [if_neg (fun e => h1 q hq (fileName_inj e))]
      exact i.files q hq
  · intro q hq
    rcases List.mem_cons.1 hq with rfl | hq
    · exact ⟨_, _, _, hl⟩
    · exact i.made q hq
  · intro q hq r hr e
    rcases List.mem_cons.1 hq with rfl | hq <;> rcases List.mem_cons.1 hr with rfl | hr
    · rfl
    · exact absurd e.symm (h1 r hr)
    · exact absurd e (h1 q hq)
    · exact i.pids q hq r hr e
  · intro q hq r hr e
    rcases List.mem_cons.1 hq with rfl | hq <;> rcases List.mem_cons.1 hr with rfl | hr
    · rfl
    · exact absurd e.symm (h3 r hr)
    · exact absurd e (h3 q hq)
    · exact i.procs q hq r hr e
  · intro q hq k hk e
    rcases List.mem_cons.1 hq with rfl | hq' <;> rcases List.mem_cons.1 hk with rfl | hk'
    · rfl
    · exact absurd e (h2 k hk')
    · rw [g1] at e; exact absurd e.symm (h3 q hq')
    · exact i.only q hq' k hk' e

theorem inv_step {w : Place} {m m' : Machine} {a : MAct} (i : Inv w m) (h : m.step w a = some m') : Inv w m' := by
  cases a with
  | listen proc pid user pick host port tls playbook =>
    unfold Machine.step at h
    dsimp only at h
    split at h
    · cases h
    rename_i h12
    rw [Bool.or_eq_true, not_or] at h12
    split at h
    · cases h
    rename_i h3
    split at h
    · cases h; exact i
    rename_i l hl
    split at h
    · split at h
      · cases h
        exact inv_add i (any_false h12.1) (any_false h12.2) (any_false h3) hl
      · cases h; exact i
    · cases h
      exact inv_add i (any_false h12.1) (any_false h12.2) (any_false h3) hl
  | accepted proc =>
    cases h
    exact ⟨i.pairs.filter _, i.files, i.made, i.pids, i.procs, fun q hq l hl => i.only q hq l (List.mem_filter.1 hl).1⟩
  | shutdown proc =>
    unfold Machine.step at h
    dsimp only at h
    split at h
    · cases h
    rename_i q0 hq0
    cases h
    have hm0 := List.mem_of_find?_eq_some hq0
    have hp0 : q0.proc = proc := by simpa using List.find?_some hq0
    refine ⟨i.pairs.filter _, ?_, fun q hq => i.made q (List.mem_filter.1 hq).1,
      fun q hq r hr => i.pids q (List.mem_filter.1 hq).1 r (List.mem_filter.1 hr).1,
      fun q hq r hr => i.procs q (List.mem_filter.1 hq).1 r (List.mem_filter.1 hr).1,
      fun q hq l hl => i.only q (List.mem_filter.1 hq).1 l (List.mem_filter.1 hl).1⟩
    intro q hq
    obtain ⟨hq, hne⟩ := List.mem_filter.1 hq
    dsimp only
    rw [if_neg]
    · exact i.files q hq
    · intro e
      have := i.pids q hq q0 hm0 (fileName_inj e)
      subst this
      simp [hp0] at hne
  | killed proc =>
    cases h
    exact ⟨i.pairs.filter _, fun q hq => i.files q (List.mem_filter.1 hq).1, fun q hq => i.made q (List.mem_filter.1 hq).1,
      fun q hq r hr => i.pids q (List.mem_filter.1 hq).1 r (List.mem_filter.1 hr).1,
      fun q hq r hr => i.procs q (List.mem_filter.1 hq).1 r (List.mem_filter.1 hr).1,
      fun q hq l hl => i.only q (List.mem_filter.1 hq).1 l (List.mem_filter.1 hl).1⟩
  | bind l =>
    unfold Machine.step at h
    dsimp only at h
    split at h
    · cases h
    rename_i h12
    rw [Bool.or_eq_true, not_or] at h12
    cases h
    refine ⟨List.pairwise_cons.2 ⟨fun k hk => ?_, i.pairs⟩, i.files, i.made, i.pids, i.procs, ?_⟩
    · rw [excludes_symm]
      cases he : k.excludes l with
      | false => rfl
      | true => exact absurd (List.any_eq_true.2 ⟨k, hk, he⟩) h12.1
    · intro q hq k hk e
      rcases List.mem_cons.1 hk with rfl | hk
      · exact absurd e.symm (any_false h12.2 q hq)
      · exact i.only q hq k hk e
  | close l =>
    unfold Machine.step at h
    dsimp only at h
    split at h
    · cases h
    cases h
    exact ⟨i.pairs.sublist List.erase_sublist, i.files, i.made, i.pids, i.procs, fun q hq k hk => i.only q hq k (List.mem_of_mem_erase hk)⟩
  | plant user name text =>
    unfold Machine.step at h
    dsimp only at h
    split at h
    · cases h
    rename_i hn
    have hn := any_false hn
    have hi : Inv w { m with files := fun n => if n = name then some (user, text) else m.files n } := by
      refine ⟨i.pairs, fun q hq => ?_, i.made, i.pids, i.procs, i.only⟩
      dsimp only
      rw [if_neg (hn q hq)]
      exact i.files q hq
    split at h
    · split at h
      · cases h; exact hi
      · cases h
    · cases h; exact hi

theorem inv_run {w : Place} (as : List MAct) {m m' : Machine} (i : Inv w m) (h : m.run w as = some m') : Inv w m' := by
  induction as generalizing m with
  | nil => cases h; exact i
  | cons a as ih =>
    unfold Machine.run at h
    split at h
    · cases h
    · rename_i hs; exact ih (inv_step i hs) h

theorem inv_leads {w : Place} {as : List MAct} {m : Machine} (h : Leads w as m) : Inv w m :=
  inv_run as ⟨.nil, by simp, by simp, by simp, by simp, by simp⟩ h

/-! ## C107 -/

/-- **C107** (it is found). While a playbook that let the system choose its port waits for a client, an attach request with
its process id goes to the address of its socket and uses TLS iff it does; whoever connects to what this address means reaches
this playbook, and nothing else can answer. Whatever has happened on the machine: other playbooks, killed ones, other programs
and their sockets, files put into the temporary directory. -/
theorem C107_found_partial {w : Place} (hw : Sane w) {as : List MAct} {m : Machine} (h : Leads w as m) {q : Play} (hq : q ∈ m.up)
    (hl : q.sock ∈ m.socks) (h0 : q.asked = 0) (hp : q.sock.port ≤ 65535) (hj : (Server.infoToJson (q.info w)).WF)
    {fz : Str → Bool} {fl : Json → Bool} {data : List (Str × Json)} {a : Server.AttachArgs} (ha : Attach q.pid fz fl data a) (str : Json → Str) :
    ∃ addr host ip, Server.connTuple fz str m.dir a = some (.str addr, .bool q.tls) ∧
      Addr.parseAddr w.env addr = .ok (.tcp host q.sock.port) ∧ w.net.names host = [ip] ∧
      MayReach m.socks (dest ip) q.sock.port q.sock ∧ q.sock.proc = q.proc ∧
      ∀ l, MayReach m.socks (dest ip) q.sock.port l → l.proc = q.proc := by
  have i := inv_leads h
  obtain ⟨k, pick, host, hm⟩ := i.made q hq
  have hpr := (listen_proc hm).1
  have ht : q.sock.takes (dest q.sock.ip) = true := by
    obtain ⟨ip, hb, e, -⟩ := create_ok hm
    rw [e]
    unfold dest Listener.takes
    dsimp only
    split <;> simp
  have hr : Addr.Reportable w.env (q.sock.name w.text) := by
    unfold Listener.name
    cases hi : q.sock.ip with
    | v4 a => exact ⟨hw.1.1 a, hp⟩
    | v6 a => exact ⟨(hw.1.2 a).1, hp, (hw.1.2 a).2⟩
  have hsole : ∀ l, MayReach m.socks (dest q.sock.ip) q.sock.port l → l = q.sock := by
    intro l hr
    rw [h0] at hm
    exact C106_chosen_port_partial hm (host_of_pairs i.pairs) hl ht hr
  refine ⟨Addr.address (q.sock.name w.text), w.text q.sock.ip, q.sock.ip, ?_, ?_, hw.2 _, ⟨hl, rfl, ht, ?_⟩, hpr, fun l hr => by rw [hsole l hr]; exact hpr⟩
  · have := Props.Server.C56_round_trip fz fl str m.dir data a ha.args q.pid ha.pid (q.info w) hj ?_
    · exact this
    · unfold Machine.dir
      rw [show (py!"ansibug-pid-" ++ intDec (q.pid : Int)) = fileName q.pid from rfl, i.files q hq]
      rfl
  · rw [Addr.C20_address_roundtrip_partial w.env _ hr]
    unfold Listener.name
    split <;> rfl
  · -- a socket on this very address would be in the way
    by_cases he : q.sock.ip = dest q.sock.ip
    · exact .inl he
    · refine .inr fun k hk hkp hki => ?_
      have : MayReach m.socks (dest q.sock.ip) q.sock.port k := ⟨hk, hkp, by rw [← hki]; simp [Listener.takes], .inl hki⟩
      rw [hsole k this] at hki
      exact he hki

/-- Nothing was killed and nobody put a file into the directory. -/
def Quiet : MAct → Prop
  | .killed _ | .plant .. => False
  | _ => True

theorem owned_run {w : Place} (as : List MAct) {m m' : Machine} (hq : ∀ a ∈ as, Quiet a) (i : Inv w m)
    (hf : ∀ n x, m.files n = some x → ∃ q ∈ m.up, n = fileName q.pid) (h : m.run w as = some m') :
    ∀ n x, m'.files n = some x → ∃ q ∈ m'.up, n = fileName q.pid := by
  induction as generalizing m with
  | nil => cases h; exact hf
  | cons a as ih =>
    unfold Machine.run at h
    split at h
    · cases h
    rename_i m1 hs
    refine ih (fun b hb => hq b (by simp [hb])) (inv_step i hs) ?_ h
    have qa := hq a (by simp)
    intro n x hx
    cases a with
    | killed => exact qa.elim
    | plant => exact qa.elim
    | accepted => cases hs; exact hf n x hx
    | bind =>
      unfold Machine.step at hs
      dsimp only at hs
      split at hs
      · cases hs
      · cases hs; exact hf n x hx
    | close =>
      unfold Machine.step at hs
      dsimp only at hs
      split at hs
      · cases hs
      · cases hs; exact hf n x hx
    | shutdown proc =>
      unfold Machine.step at hs
      dsimp only at hs
      split at hs
      · cases hs
      rename_i q0 hq0
      cases hs
      dsimp only at hx ⊢
      split at hx
      · cases hx
      rename_i hne
      obtain ⟨q, hq, e⟩ := hf n x hx
      refine ⟨q, List.mem_filter.2 ⟨hq, ?_⟩, e⟩
      have hp0 : q0.proc = proc := by simpa using List.find?_some hq0
      rw [decide_eq_true_eq]
      intro hp
      have := i.procs q hq q0 (List.mem_of_find?_eq_some hq0) (hp.trans hp0.symm)
      subst this
      exact hne e
    | listen proc pid user pick host port tls playbook =>
      unfold Machine.step at hs
      dsimp only at hs
      split at hs
      · cases hs
      split at hs
      · cases hs
      split at hs
      · cases hs; exact hf n x hx
      have key : ∀ (q : Play) (m2 : Machine) (f : Nat × Str), m2.up = q :: m.up → q.pid = pid →
          m2.files = (fun n => if n = fileName pid then some f else m.files n) → m2.files n = some x → ∃ r ∈ m2.up, n = fileName r.pid := by
        intro q m2 f h1 h2 h3 h4
        rw [h3] at h4
        dsimp only at h4
        rw [h1]
        split at h4
        · rename_i e; exact ⟨q, by simp, by rw [h2]; exact e⟩
        · obtain ⟨r, hr, e⟩ := hf n x h4; exact ⟨r, by simp [hr], e⟩
      split at hs
      · split at hs
        · cases hs; exact key _ _ _ rfl rfl rfl hx
        · cases hs; exact hf n x hx
      · cases hs; exact key _ _ _ rfl rfl rfl hx

/-- **C107** (nothing else). If no playbook was killed and nobody else wrote into the directory, an attach request with a process
id fails or goes to the address of a running playbook with this process id, with its TLS setting. -/
theorem C107_not_others_partial {w : Place} {as : List MAct} {m : Machine} (h : Leads w as m) (hq : ∀ a ∈ as, Quiet a) {pid : Nat}
    (hj : ∀ q ∈ m.up, (Server.infoToJson (q.info w)).WF) {fz : Str → Bool} {fl : Json → Bool} {data : List (Str × Json)} {a : Server.AttachArgs}
    (ha : Attach pid fz fl data a) (str : Json → Str) :
    (Server.connTuple fz str m.dir a = none ∧ ∀ q ∈ m.up, q.pid ≠ pid) ∨
    ∃ q ∈ m.up, q.pid = pid ∧ Server.connTuple fz str m.dir a = some (.str (Addr.address (q.sock.name w.text)), .bool q.tls) := by
  have i := inv_leads h
  have ho := owned_run as hq ⟨.nil, by simp, by simp, by simp, by simp, by simp⟩ (by simp) h
  cases hf : m.files (fileName pid) with
  | some x =>
    obtain ⟨q, hq, e⟩ := ho _ _ hf
    have e := fileName_inj e
    subst e
    refine .inr ⟨q, hq, rfl, ?_⟩
    have := Props.Server.C56_round_trip fz fl str m.dir data a ha.args q.pid ha.pid (q.info w) (hj q hq) ?_
    · exact this
    · unfold Machine.dir
      rw [show (py!"ansibug-pid-" ++ intDec (q.pid : Int)) = fileName q.pid from rfl, i.files q hq]
      rfl
  | none =>
    refine .inl ⟨?_, fun q hq e => by have := i.files q hq; rw [e, hf] at this; cases this⟩
    cases hc : Server.connTuple fz str m.dir a with
    | none => rfl
    | some x =>
      obtain ⟨addr, tls⟩ := x
      obtain ⟨text, d, hd, -⟩ := (Props.Server.C56_process_id fz fl str m.dir data a ha.args (.int pid) ha.pid (by simp) addr tls).1 hc
      unfold Machine.dir at hd
      rw [show Server.pidName str (.int (pid : Int)) = fileName pid from rfl, hf] at hd
      cases hd

theorem run_append {w : Place} (as bs : List MAct) (m : Machine) : m.run w (as ++ bs) = (m.run w as).bind fun m => m.run w bs := by
  induction as generalizing m with
  | nil => rfl
  | cons a as ih =>
    show (match m.step w a with | none => none | some m => m.run w (as ++ bs)) =
      (match m.step w a with | none => none | some m => m.run w as).bind fun m => m.run w bs
    cases m.step w a with
    | none => rfl
    | some m1 => exact ih m1

/-- **C107** fails after a playbook was killed: its file stays. Another program, of anybody, that gets the port is what an attach
request with the process id then reaches, although no playbook has this id. -/
theorem C107_killed_refuted {w : Place} (hw : Sane w) {as : List MAct} {m : Machine} (h : Leads w as m) {q : Play} (hq : q ∈ m.up)
    (hl : q.sock ∈ m.socks) (h0 : q.asked = 0) (hp : q.sock.port ≤ 65535) (hj : (Server.infoToJson (q.info w)).WF)
    {fz : Str → Bool} {fl : Json → Bool} {data : List (Str × Json)} {a : Server.AttachArgs} (ha : Attach q.pid fz fl data a) (str : Json → Str)
    (user proc : Nat) (hn : ∀ r ∈ m.up, r.proc ≠ proc) :
    ∃ m' l, Leads w (as ++ [.killed q.proc, .bind l]) m' ∧ l.user = user ∧ l.proc = proc ∧ (∀ r ∈ m'.up, r.pid ≠ q.pid ∧ r.proc ≠ proc) ∧
      ∃ addr host ip, Server.connTuple fz str m'.dir a = some (.str addr, .bool q.tls) ∧
        Addr.parseAddr w.env addr = .ok (.tcp host l.port) ∧ w.net.names host = [ip] ∧ MayReach m'.socks (dest ip) l.port l := by
  have i := inv_leads h
  obtain ⟨addr, host, ip, c1, c2, c3, ⟨-, -, c4, c5⟩, c6, -⟩ := C107_found_partial hw h hq hl h0 hp hj ha str
  obtain ⟨k, pick, hst, hm⟩ := i.made q hq
  have hre : q.sock.reuse = false := by
    obtain ⟨ip, -, e, -⟩ := create_ok hm
    rw [e, h0]; rfl
  let l : Listener := { q.sock with user := user, proc := proc }
  let m1 : Machine := { m with socks := m.socks.filter fun l => decide (l.proc ≠ q.proc), up := m.up.filter fun r => decide (r.proc ≠ q.proc) }
  have hs : (m1.step w (.bind l)) = some { m1 with socks := l :: m1.socks } := by
    unfold Machine.step
    dsimp only
    rw [if_neg]
    rw [Bool.or_eq_true, not_or]
    constructor
    · intro hany
      obtain ⟨k, hk, he⟩ := List.any_eq_true.1 hany
      obtain ⟨hk, hne⟩ := List.mem_filter.1 hk
      have : k ≠ q.sock := by
        rintro rfl
        rw [c6] at hne
        simp at hne
      have hx := pair_ne i.pairs hk hl this
      have e : k.excludes l = k.excludes q.sock := by
        unfold Listener.excludes
        show (decide (k.port = q.sock.port) && (k.takes q.sock.ip || q.sock.takes k.ip) && !(k.reuse && q.sock.reuse && decide (k.user = user))) = _
        rw [hre]
        simp
      rw [e, hx] at he
      cases he
    · intro hany
      obtain ⟨r, hr, he⟩ := List.any_eq_true.1 hany
      exact hn r (List.mem_filter.1 hr).1 (by simpa using he)
  refine ⟨{ m1 with socks := l :: m1.socks }, l, ?_, rfl, rfl, ?_, addr, host, ip, ?_, c2, c3, ?_⟩
  · unfold Leads
    rw [run_append, h]
    show (match m1.step w (.bind l) with | none => none | some m => some m) = _
    rw [hs]
  · intro r hr
    obtain ⟨hr, hne⟩ := List.mem_filter.1 hr
    refine ⟨fun e => ?_, hn r hr⟩
    rw [i.pids r hr q hq e] at hne
    simp at hne
  · exact c1
  · refine ⟨by simp, rfl, c4, ?_⟩
    rcases c5 with c5 | c5
    · exact .inl c5
    · refine .inr fun k hk hkp => ?_
      rcases List.mem_cons.1 hk with rfl | hk'
      · exact c5 q.sock hl rfl
      · exact c5 k (List.mem_filter.1 hk').1 hkp

/-- **C107** fails against other users: who puts a file with the name of a process id into the shared directory before there is one
directs the attach requests with this id wherever he likes, and no playbook of anybody else with this id can be debugged. -/
theorem C107_planted_refuted {w : Place} {as : List MAct} {m : Machine} (h : Leads w as m) {pid : Nat} (hp : ∀ q ∈ m.up, q.pid ≠ pid)
    (hf : m.files (fileName pid) = none) (other : Nat) (info : Server.ProcInfo) (hj : (Server.infoToJson info).WF) :
    ∃ m', Leads w (as ++ [.plant other (fileName pid) (dumps (Server.infoToJson info))]) m' ∧
      (∀ {fz : Str → Bool} {fl : Json → Bool} {data : List (Str × Json)} {a : Server.AttachArgs}, Attach pid fz fl data a →
        ∀ str, Server.connTuple fz str m'.dir a = some (info.address, info.useTls)) ∧
      ∀ proc user pick host port tls playbook, user ≠ other → ∀ m'', m'.step w (.listen proc pid user pick host port tls playbook) = some m'' →
        m'' = m' ∧ ∀ q ∈ m''.up, q.pid ≠ pid := by
  refine ⟨{ m with files := fun n => if n = fileName pid then some (other, dumps (Server.infoToJson info)) else m.files n }, ?_, ?_, ?_⟩
  · unfold Leads
    rw [run_append, h]
    show (match m.step w (.plant other (fileName pid) (dumps (Server.infoToJson info))) with | none => none | some m => some m) = _
    have : m.step w (.plant other (fileName pid) (dumps (Server.infoToJson info))) =
        some { m with files := fun n => if n = fileName pid then some (other, dumps (Server.infoToJson info)) else m.files n } := by
      unfold Machine.step
      dsimp only
      rw [if_neg, hf]
      intro hany
      obtain ⟨q, hq, he⟩ := List.any_eq_true.1 hany
      exact hp q hq (fileName_inj (by simpa using he))
    rw [this]
  · intro fz fl data a ha str
    refine Props.Server.C56_round_trip fz fl str _ data a ha.args pid ha.pid info hj ?_
    unfold Machine.dir
    rw [show (py!"ansibug-pid-" ++ intDec (pid : Int)) = fileName pid from rfl]
    simp
  · intro proc user pick host port tls playbook hu m'' hs
    unfold Machine.step at hs
    dsimp only at hs
    split at hs
    · cases hs
    split at hs
    · cases hs
    split at hs
    · cases hs; exact ⟨rfl, hp⟩
    rw [if_pos rfl] at hs
    dsimp only at hs
    rw [if_neg (fun e => hu e.symm)] at hs
    cases hs
    exact ⟨rfl, hp⟩

/-! ## Non-vacuity -/

/-- A machine whose addresses are written as numbers, those of IPv6 after a colon. -/
def world0 : Place where
  net := { names := fun h => match h with
             | 58 :: t => [.v6 (digVal t)]
             | t => [.v4 (digVal t)]
           dualstack := true }
  env := { tempdir := py!"/tmp", bracketedHostOk := fun _ => true, nfkcOk := fun _ => true, lowerUni := id, randomPath := [] }
  text
    | .v4 a => natDec a
    | .v6 a => 58 :: natDec a

theorem sane0 : Sane world0 := by
  have hd : ∀ a, ∀ c ∈ natDec a, Addr.HostChar c ∧ Addr.lowerC c = c := by
    intro a c hc
    have := Addr.dig_range a c hc
    refine ⟨⟨by omega, by omega, ?_⟩, ?_⟩
    · simp only [List.mem_cons, List.not_mem_nil, or_false, not_or]
      omega
    · unfold Addr.lowerC
      rw [if_neg (by omega)]
  refine ⟨⟨hd, fun a => ⟨fun c hc => ?_, rfl⟩⟩, fun ip => ?_⟩
  · rcases List.mem_cons.1 hc with rfl | hc
    · exact ⟨by unfold Addr.V6Char; decide, rfl⟩
    · exact ⟨(hd a c hc).1.v6, (hd a c hc).2⟩
  · cases ip with
    | v6 a =>
      show [Ip.v6 (digVal (natDec a))] = _
      rw [digVal_natDec]
    | v4 a =>
      show world0.net.names (natDec a) = _
      have hn : ∀ t, natDec a ≠ 58 :: t := by
        intro t e
        have := Addr.dig_range a 58 (by rw [e]; simp)
        omega
      unfold world0
      dsimp only
      split
      · rename_i t e; exact absurd e (hn t)
      · rw [digVal_natDec]

/-- A playbook that waits on a chosen port, after one of the same id that was killed and one that has ended, beside another
program and a file of another user, which has kept a playbook from being debugged. -/
def after0 : Option Machine := ({} : Machine).run world0 [.listen 1 100 1000 40000 [] 0 false .null, .killed 1,
  .listen 2 200 1000 41000 [] 5000 false .null, .shutdown 2, .bind ⟨.v6 0, 50000, true, false, 1001, 9⟩, .plant 1001 (fileName 300) [],
  .listen 3 100 1000 42000 [] 0 true .null, .listen 4 300 1000 43000 [] 0 true .null]

example : after0.map (fun m => m.up.map fun q => (q.proc, q.pid, q.user, q.asked)) = some [(3, 100, 1000, 0)] ∧
    after0.map (fun m => m.up.map fun q => q.sock) = some [⟨.v6 0, 42000, true, false, 1000, 3⟩] ∧
    after0.map (·.socks) = some [⟨.v6 0, 42000, true, false, 1000, 3⟩, ⟨.v6 0, 50000, true, false, 1001, 9⟩] := by
  decide +kernel

/-- What the files say. -/
example : after0.map (fun m => m.dir (fileName 100)) =
      some (some py!"{\"pid\": 100, \"address\": \"tcp://[:0]:42000\", \"use_tls\": true, \"playbook_file\": null}") ∧
    after0.map (fun m => (m.dir (fileName 200), m.dir (fileName 300))) = some (none, some []) := by
  decide +kernel

/-- The information of a playbook is a document, and the arguments of an attach request. -/
example : (Server.infoToJson ((⟨3, 100, 1000, 0, true, .str py!"main.yml", ⟨.v6 0, 42000, true, false, 1000, 3⟩⟩ : Play).info world0)).WF ∧
    ∃ a, Attach 100 (fun _ => false) (fun _ => true) [(py!"processId", .int 100)] a := by
  refine ⟨?_, _, rfl, rfl⟩
  simp only [Server.infoToJson, Play.info, Json.WF, Json.WFO]
  decide +kernel

/-- Nothing is bound by the process of a playbook that serves its client. -/
theorem taken_step {w : Place} {m m' : Machine} {a : MAct} {proc : Nat} (ha : ∀ pid user pick host port tls playbook, a ≠ .listen proc pid user pick host port tls playbook)
    (hup : ∃ q ∈ m'.up, q.proc = proc) (h : m.step w a = some m') :
    (∃ q ∈ m.up, q.proc = proc) ∧ ((∀ l ∈ m.socks, l.proc ≠ proc) → ∀ l ∈ m'.socks, l.proc ≠ proc) := by
  cases a with
  | listen proc' pid user pick host port tls playbook =>
    have hne : proc' ≠ proc := fun e => ha pid user pick host port tls playbook (by rw [e])
    unfold Machine.step at h
    dsimp only at h
    repeat' split at h
    all_goals (first | (cases h; done) | skip)
    all_goals (cases h)
    all_goals (first | exact ⟨hup, id⟩ | skip)
    all_goals
      rename_i l hl _ _ _
      refine ⟨?_, ?_⟩
      · obtain ⟨q, hq, e⟩ := hup
        rcases List.mem_cons.1 hq with rfl | hq
        · exact absurd e hne
        · exact ⟨q, hq, e⟩
      · intro hn k hk
        rcases List.mem_cons.1 hk with rfl | hk
        · rw [(listen_proc (by assumption)).1]; exact hne
        · exact hn k hk
  | accepted p =>
    cases h
    exact ⟨hup, fun hn l hl => hn l (List.mem_filter.1 hl).1⟩
  | shutdown p =>
    unfold Machine.step at h
    dsimp only at h
    split at h
    · cases h
    · cases h
      obtain ⟨q, hq, e⟩ := hup
      exact ⟨⟨q, (List.mem_filter.1 hq).1, e⟩, fun hn l hl => hn l (List.mem_filter.1 hl).1⟩
  | killed p =>
    cases h
    obtain ⟨q, hq, e⟩ := hup
    exact ⟨⟨q, (List.mem_filter.1 hq).1, e⟩, fun hn l hl => hn l (List.mem_filter.1 hl).1⟩
  | bind l =>
    unfold Machine.step at h
    dsimp only at h
    split at h
    · cases h
    · rename_i hb
      cases h
      refine ⟨hup, fun hn k hk => ?_⟩
      rcases List.mem_cons.1 hk with rfl | hk
      · intro e
        obtain ⟨q, hq, e'⟩ := hup
        apply hb
        rw [Bool.or_eq_true]
        exact .inr (List.any_eq_true.2 ⟨q, hq, by simp [e, e']⟩)
      · exact hn k hk
  | close l =>
    unfold Machine.step at h
    dsimp only at h
    split at h
    · cases h
    · cases h
      exact ⟨hup, fun hn k hk => hn k (List.mem_of_mem_erase hk)⟩
  | plant user name text =>
    unfold Machine.step at h
    dsimp only at h
    repeat' split at h
    all_goals (first | (cases h; done) | skip)
    all_goals (cases h; exact ⟨hup, id⟩)

theorem taken_run {w : Place} {proc : Nat} (as : List MAct) : ∀ {m m' : Machine},
    (∀ pid user pick host port tls playbook, .listen proc pid user pick host port tls playbook ∉ as) →
    (∃ q ∈ m'.up, q.proc = proc) → m.run w as = some m' →
    (∃ q ∈ m.up, q.proc = proc) ∧ ((∀ l ∈ m.socks, l.proc ≠ proc) → ∀ l ∈ m'.socks, l.proc ≠ proc) := by
  induction as with
  | nil => intro m m' _ hup h; cases h; exact ⟨hup, id⟩
  | cons a as ih =>
    intro m m' ha hup h
    unfold Machine.run at h
    split at h
    · cases h
    · rename_i m1 h1
      have i2 := ih (fun pid user pick host port tls playbook hm => ha pid user pick host port tls playbook (List.mem_cons_of_mem _ hm)) hup h
      have i1 := taken_step (fun pid user pick host port tls playbook e => ha pid user pick host port tls playbook (by rw [e]; exact List.mem_cons_self)) i2.1 h1
      exact ⟨i1.1, fun hn => i2.2 (i1.2 hn)⟩

/-- **C107** (one client). Once a playbook has accepted its client nobody else reaches it, whatever happens on the machine until it ends; the
other playbooks that wait are not touched. -/
theorem C107_one_client_partial {w : Place} {as bs : List MAct} {m m1 m' : Machine} (h : Leads w as m) {q : Play} (hq : q ∈ m.up)
    (h1 : m.step w (.accepted q.proc) = some m1) (h2 : m1.run w bs = some m') 
    (hb : ∀ pid user pick host port tls playbook, .listen q.proc pid user pick host port tls playbook ∉ bs) (hup : q ∈ m'.up) :
    (∀ ip port l, MayReach m'.socks ip port l → l.proc ≠ q.proc) ∧
    ∀ r ∈ m.up, r ≠ q → r.sock ∈ m.socks → r ∈ m1.up ∧ r.sock ∈ m1.socks ∧ m1.files (fileName r.pid) = m.files (fileName r.pid) := by
  have i := inv_leads h
  cases h1
  refine ⟨fun ip port l hl => ?_, fun r hr hne hs => ⟨hr, ?_, rfl⟩⟩
  · exact (taken_run bs hb ⟨q, hup, rfl⟩ h2).2 (fun l hl => by simpa using (List.mem_filter.1 hl).2) l hl.1
  · refine List.mem_filter.2 ⟨hs, decide_eq_true fun e => hne ?_⟩
    obtain ⟨k, pick, host, hm⟩ := i.made r hr
    rw [(listen_proc hm).1] at e
    exact i.procs r hr q hq e

/-- Non-vacuity: the playbook takes its client, and then another one starts on a port of its own. -/
example : ((after0.bind fun m => m.step world0 (.accepted 3)).bind fun m => m.run world0 [.listen 5 500 1000 42000 [] 0 false .null]).map
    (fun m => (m.up.map fun q => (q.proc, q.pid), m.socks.map (·.proc))) = some ([(5, 500), (3, 100)], [5, 9]) := by decide +kernel

/-- An action by which the file of `pid` may be replaced: a playbook of the same user with this id starts, or the user writes it. -/
def Replaces (user pid : Nat) : MAct → Prop
  | .listen _ pid' user' .. => pid' = pid ∧ user' = user
  | .plant user' name _ => user' = user ∧ name = fileName pid
  | _ => False

theorem stale_step {w : Place} {m m' : Machine} {a : MAct} {user pid : Nat} {text : Str} (ha : ¬ Replaces user pid a)
    (hn : ∀ q ∈ m.up, q.pid ≠ pid) (hf : m.files (fileName pid) = some (user, text)) (h : m.step w a = some m') :
    (∀ q ∈ m'.up, q.pid ≠ pid) ∧ m'.files (fileName pid) = some (user, text) := by
  cases a with
  | listen proc pid' user' pick host port tls playbook =>
    unfold Machine.step at h
    dsimp only at h
    repeat' split at h
    all_goals (first | (cases h; done) | skip)
    all_goals (cases h)
    all_goals (first | exact ⟨hn, hf⟩ | skip)
    all_goals
      have hne : pid' ≠ pid := by
        rintro rfl
        simp_all [Replaces]
      have hne' : fileName pid ≠ fileName pid' := fun e => hne (fileName_inj e).symm
      refine ⟨fun q hq => ?_, by simp [hne', hf]⟩
      rcases List.mem_cons.1 hq with rfl | hq
      · exact hne
      · exact hn q hq
  | accepted p => cases h; exact ⟨hn, hf⟩
  | shutdown p =>
    unfold Machine.step at h
    dsimp only at h
    split at h
    · cases h
    · rename_i q hq
      cases h
      have hne : fileName pid ≠ fileName q.pid := fun e => hn q (List.mem_of_find?_eq_some hq) (fileName_inj e).symm
      exact ⟨fun r hr => hn r (List.mem_filter.1 hr).1, by simp [hne, hf]⟩
  | killed p => cases h; exact ⟨fun r hr => hn r (List.mem_filter.1 hr).1, hf⟩
  | bind l => unfold Machine.step at h; dsimp only at h; split at h <;> cases h; exact ⟨hn, hf⟩
  | close l => unfold Machine.step at h; dsimp only at h; split at h <;> cases h; exact ⟨hn, hf⟩
  | plant user' name text' =>
    unfold Machine.step at h
    dsimp only at h
    repeat' split at h
    all_goals (first | (cases h; done) | skip)
    all_goals (cases h)
    all_goals
      have hne : fileName pid ≠ name := by
        rintro rfl
        simp_all [Replaces]
      exact ⟨hn, by simp [hne, hf]⟩

/-- **C107** (fails for good). The file of a killed playbook stays with what it says until a playbook of the same user gets the same id or the user
replaces it: nothing else that happens on the machine, for however long, removes or changes it. -/
theorem C107_stale_refuted {w : Place} {as bs : List MAct} {m m' : Machine} (h : Leads w as m) {q : Play} (hq : q ∈ m.up)
    (hb : ∀ a ∈ bs, ¬ Replaces q.user q.pid a) (h2 : m.run w (.killed q.proc :: bs) = some m') :
    m'.files (fileName q.pid) = some (q.user, dumps (Server.infoToJson (q.info w))) ∧ ∀ r ∈ m'.up, r.pid ≠ q.pid := by
  have i := inv_leads h
  have key : ∀ (bs : List MAct) {m : Machine}, (∀ a ∈ bs, ¬ Replaces q.user q.pid a) → (∀ r ∈ m.up, r.pid ≠ q.pid) →
      m.files (fileName q.pid) = some (q.user, dumps (Server.infoToJson (q.info w))) → m.run w bs = some m' →
      m'.files (fileName q.pid) = some (q.user, dumps (Server.infoToJson (q.info w))) ∧ ∀ r ∈ m'.up, r.pid ≠ q.pid := by
    intro bs
    induction bs with
    | nil => intro m _ hn hf h; cases h; exact ⟨hf, hn⟩
    | cons a bs ih =>
      intro m ha hn hf h
      unfold Machine.run at h
      split at h
      · cases h
      · rename_i m1 h1
        have := stale_step (ha a List.mem_cons_self) hn hf h1
        exact ih (fun b hb => ha b (List.mem_cons_of_mem _ hb)) this.1 this.2 h
  refine key bs (m := { m with socks := m.socks.filter fun l => decide (l.proc ≠ q.proc), up := m.up.filter fun r => decide (r.proc ≠ q.proc) })
    hb (fun r hr e => ?_) (i.files q hq) h2
  have hr := List.mem_filter.1 hr
  have := i.pids r hr.1 q hq e
  subst this
  simpa using hr.2

/-- Non-vacuity: the playbook is killed; a playbook of another user with its id, which cannot be debugged, is one of the things that happen then. -/
example : (after0.bind fun m => m.run world0 [.killed 3, .listen 6 100 1001 44000 [] 0 false .null, .plant 1001 (fileName 7) []]).map
    (fun m => (m.up.map fun q => q.pid, (m.files (fileName 100)).map (·.1))) = some ([], some 1000) := by decide +kernel

/-- **C107** (the end). When a playbook ends it is gone: nobody reaches its process, no attach request with its id finds anything, and the playbooks
that go on are reached as before. -/
theorem C107_ended_partial {w : Place} {as : List MAct} {m : Machine} (h : Leads w as m) {q : Play} (hq : q ∈ m.up) :
    ∃ m', Leads w (as ++ [.shutdown q.proc]) m' ∧
      (∀ ip port l, MayReach m'.socks ip port l → l.proc ≠ q.proc) ∧
      (∀ {fz : Str → Bool} {fl : Json → Bool} {data : List (Str × Json)} {a : Server.AttachArgs}, Attach q.pid fz fl data a →
        ∀ str, Server.connTuple fz str m'.dir a = none) ∧
      ∀ r ∈ m.up, r ≠ q → r ∈ m'.up ∧ (r.sock ∈ m.socks → r.sock ∈ m'.socks) ∧ m'.dir (fileName r.pid) = m.dir (fileName r.pid) := by
  have i := inv_leads h
  have hf : (m.up.find? fun r => decide (r.proc = q.proc)) = some q := by
    cases hf : m.up.find? fun r => decide (r.proc = q.proc) with
    | none => have := List.find?_eq_none.1 hf q hq; simp at this
    | some r =>
      have h1 := List.mem_of_find?_eq_some hf
      have h2 := List.find?_some hf
      rw [i.procs r h1 q hq (by simpa using h2)]
  refine ⟨{ socks := m.socks.filter fun l => decide (l.proc ≠ q.proc), up := m.up.filter fun r => decide (r.proc ≠ q.proc)
            files := fun n => if n = fileName q.pid then none else m.files n }, ?_, ?_, ?_, ?_⟩
  · unfold Leads
    rw [run_append, h]
    show (match m.step w (.shutdown q.proc) with | none => none | some m => some m) = _
    have : m.step w (.shutdown q.proc) = some { socks := m.socks.filter fun l => decide (l.proc ≠ q.proc), up := m.up.filter fun r => decide (r.proc ≠ q.proc), files := fun n => if n = fileName q.pid then none else m.files n } := by
      unfold Machine.step
      dsimp only
      rw [hf]
    rw [this]
  · intro ip port l hl
    simpa using (List.mem_filter.1 hl.1).2
  · intro fz fl data a ha str
    generalize hd' : Machine.dir _ = dir
    cases hc : Server.connTuple fz str dir a with
    | none => rfl
    | some x =>
      obtain ⟨addr, tls⟩ := x
      obtain ⟨text, d, hd, -⟩ := (Props.Server.C56_process_id fz fl str dir data a ha.args (.int q.pid) ha.pid (by simp) addr tls).1 hc
      rw [show Server.pidName str (.int (q.pid : Int)) = fileName q.pid from rfl, ← hd'] at hd
      unfold Machine.dir at hd
      simp at hd
  · intro r hr hne
    have hp : r.proc ≠ q.proc := fun e => hne (i.procs r hr q hq e)
    have hn : fileName r.pid ≠ fileName q.pid := fun e => hne (i.pids r hr q hq (fileName_inj e))
    refine ⟨List.mem_filter.2 ⟨hr, decide_eq_true hp⟩, fun hs => List.mem_filter.2 ⟨hs, decide_eq_true ?_⟩, ?_⟩
    · obtain ⟨k, pick, host, hm⟩ := i.made r hr
      rw [(listen_proc hm).1]; exact hp
    · unfold Machine.dir; dsimp only; rw [if_neg hn]

end Verif.Props.Machine
