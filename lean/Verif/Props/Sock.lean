import Verif.Sock.Spec
/-!
# Properties of making the connection (C75, C76, C77)
-/

namespace Verif.Props.Sock
open Verif Verif.Sock

/-! ## Lemmas -/

theorem connect_ok (a : ConnAns) (h : Accepts a) : a.create = none ∧ tokConnect a = none := by
  obtain ⟨h1, h2, h3, h4, h5, h6, h7⟩ := h
  exact ⟨h1, by simp [tokConnect, h2, h3, h4, h5, h6, h7]⟩

theorem connect_ok_iff (a : ConnAns) : (a.create = none ∧ tokConnect a = none) ↔ Accepts a := by
  refine ⟨?_, connect_ok a⟩
  rintro ⟨h1, h2⟩
  unfold tokConnect at h2
  refine ⟨h1, ?_⟩
  cases hearly : a.early <;> cases hc : a.connect <;> cases hs : a.selectRaises <;> cases hw : a.writable <;>
    cases hl : a.late <;> simp_all

theorem connect_refused (a : ConnAns) (e : Exc) (h : Refuses a e) :
    a.create = none ∧ tokConnect a = some e ∧ e.isOSError = true := by
  obtain ⟨h1, h2, h3, h⟩ := h
  refine ⟨h1, ?_, h3⟩
  rcases h with h | ⟨h, h'⟩ | ⟨h, h', h'', rfl⟩ | ⟨h, h', h'', h4, h5, rfl⟩
  · simp [tokConnect, h2, h]
  · simp [tokConnect, h2, h, h']
  · simp [tokConnect, h2, h, h', h'']
  · simp [tokConnect, h2, h, h', h'', h4, h5]

theorem refused_of (a : ConnAns) (e : Exc) (h1 : a.create = none) (h2 : tokConnect a = some e) (h3 : e.isOSError = true) : Refuses a e := by
  unfold tokConnect at h2
  refine ⟨h1, ?_, h3, ?_⟩
  · cases he : a.early
    · rfl
    · rw [he] at h2; simp at h2; subst h2; simp [Exc.isOSError] at h3
  · cases he : a.early
    · rw [he] at h2
      cases hc : a.connect with
      | some x => simp_all
      | none =>
        cases hs : a.selectRaises with
        | some x => simp_all
        | none =>
          cases hw : a.writable
          · simp_all
          · cases hl : a.late
            · by_cases hso : a.soError = 0 <;> simp_all
            · simp [hc, hs, hw, hl] at h2; subst h2; simp [Exc.isOSError] at h3
    · rw [he] at h2; simp at h2; subst h2; simp [Exc.isOSError] at h3

theorem cancelled_of (a : ConnAns) (h : CancelledDuring a) : a.create = none ∧ tokConnect a = some .cancelled := by
  obtain ⟨h1, h⟩ := h
  refine ⟨h1, ?_⟩
  unfold tokConnect
  rcases h with h | ⟨h, h2, h3, h4⟩
  · simp [h]
  · cases he : a.early <;> simp [h, h2, h3, h4]

/-- Failed attempts in front of a list. -/
theorem tryAddrs_pre (pre : List ConnAns) (rest : List ConnAns) : ∀ (err : Exc) (k : Nat), (∀ a ∈ pre, ∃ e, Refuses a e) →
    ∃ err', tryAddrs err k (pre ++ rest) =
      ((tryAddrs err' (k + pre.length) rest).1, failedAttempts k pre.length ++ (tryAddrs err' (k + pre.length) rest).2) ∧
      (pre = [] → err' = err) ∧ (∀ init a, pre = init ++ [a] → Refuses a err') := by
  induction pre with
  | nil => intro err k _; exact ⟨err, by simp [failedAttempts], fun _ => rfl, by intro init a h; simp at h⟩
  | cons a pre ih =>
    intro err k h
    obtain ⟨e, hr⟩ := h a (List.mem_cons_self ..)
    obtain ⟨h1, h2, h3⟩ := connect_refused a e hr
    obtain ⟨err', he, hn, hl⟩ := ih e (k + 1) (fun b hb => h b (List.mem_cons_of_mem _ hb))
    refine ⟨err', ?_, by simp, ?_⟩
    · simp only [List.cons_append, tryAddrs, h1, h2, h3, if_true, he, List.length_cons, failedAttempts]
      rw [Nat.add_right_comm k 1, Nat.add_assoc]
    · intro init x hx
      cases init with
      | nil =>
        simp only [List.nil_append, List.cons.injEq] at hx
        obtain ⟨rfl, hp⟩ := hx
        rw [hn hp]; exact hr
      | cons y init =>
        simp only [List.cons_append, List.cons.injEq] at hx
        exact hl init x hx.2

theorem hello_about (tls : Option Str) (h : HelloAns) (k : Nat) : ∀ c ∈ (clientHello tls h k).2, c.about = some k := by
  unfold clientHello
  intro c hc
  cases tls <;> cases hw : h.wrap <;> cases hr : tokRecv h.recv <;> simp [hr, hw] at hc <;> rcases hc with rfl | rfl | rfl <;> rfl

/-! ## C75: connecting -/

/-- C75: when the name resolves to several addresses and some attempts fail, the first address
that accepts is the one used: those before it were tried in order, once each, and their sockets
closed; those after it are not tried at all. -/
theorem C75_first_accepting_wins_partial (host : Str) (useTls : Bool) (pre post : List ConnAns) (a : ConnAns) (hello : HelloAns) (nr : Exc)
    (hp : ∀ b ∈ pre, ∃ e, Refuses b e) (ha : Accepts a) :
    ∃ rest, (clientStart (.tcp host) useTls (.ok (pre ++ a :: post)) hello nr).2 =
        failedAttempts 0 pre.length ++ [.created pre.length, .connect pre.length] ++ rest ∧
      (∀ c ∈ rest, c.about = some pre.length) ∧
      (∀ k, (clientStart (.tcp host) useTls (.ok (pre ++ a :: post)) hello nr).1 = .ok k → k = pre.length) := by
  obtain ⟨e, he, _, _⟩ := tryAddrs_pre pre (a :: post) nr 0 hp
  obtain ⟨h1, h2⟩ := connect_ok a ha
  have hk : tryAddrs nr 0 (pre ++ a :: post) = (.ok pre.length, failedAttempts 0 pre.length ++ [.created pre.length, .connect pre.length]) := by
    rw [he]; simp [tryAddrs, h1, h2]
  unfold clientStart
  simp only [hk]
  refine ⟨_, rfl, hello_about _ _ _, ?_⟩
  intro k h
  unfold clientHello at h
  cases useTls <;> cases hw : hello.wrap <;> cases hr : tokRecv hello.recv <;> simp [hr, hw] at h <;> exact h.symm

/-- C75: and conversely, when `start` returns, it is because of such an address. -/
theorem C75_returned_partial (host : Str) (useTls : Bool) (as : List ConnAns) (hello : HelloAns) (nr : Exc) (k : Nat)
    (h : (clientStart (.tcp host) useTls (.ok as) hello nr).1 = .ok k) :
    ∃ pre a post, as = pre ++ a :: post ∧ pre.length = k ∧ (∀ b ∈ pre, ∃ e, Refuses b e) ∧ Accepts a := by
  have key : ∀ (as : List ConnAns) (err : Exc) (j : Nat), (tryAddrs err j as).1 = .ok k →
      ∃ pre a post, as = pre ++ a :: post ∧ j + pre.length = k ∧ (∀ b ∈ pre, ∃ e, Refuses b e) ∧ Accepts a := by
    intro as
    induction as with
    | nil => intro err j h; simp [tryAddrs] at h
    | cons a as ih =>
      intro err j h
      unfold tryAddrs at h
      cases hc : a.create with
      | some e => simp [hc] at h
      | none =>
        cases ht : tokConnect a with
        | none =>
          simp [hc, ht] at h
          exact ⟨[], a, as, rfl, by simpa using h, by simp, (connect_ok_iff a).1 ⟨hc, ht⟩⟩
        | some e =>
          cases ho : e.isOSError
          · simp [hc, ht, ho] at h
          · simp only [hc, ht, ho, if_true] at h
            obtain ⟨pre, b, post, h1, h2, h3, h4⟩ := ih e (j + 1) h
            refine ⟨a :: pre, b, post, by rw [h1]; rfl, by simp only [List.length_cons]; omega, ?_, h4⟩
            intro x hx
            rcases List.mem_cons.1 hx with rfl | hx
            · exact ⟨e, refused_of _ e hc ht ho⟩
            · exact h3 x hx
  unfold clientStart at h
  simp only at h
  split at h
  · cases h
  · rename_i j cs hj
    have hkj : j = k := by
      unfold clientHello at h
      cases useTls <;> cases hw : hello.wrap <;> cases hr : tokRecv hello.recv <;> simp [hr, hw] at h <;> exact h
    obtain ⟨pre, a, post, h1, h2, h3, h4⟩ := key as nr 0 (by rw [hj, hkj])
    exact ⟨pre, a, post, h1, by omega, h3, h4⟩

/-- C75: when every address fails, the error of the last attempt is raised and every socket
that was opened has been closed, once. -/
theorem C75_all_refused_partial (host : Str) (useTls : Bool) (pre : List ConnAns) (a : ConnAns) (e : Exc) (hello : HelloAns) (nr : Exc)
    (hp : ∀ b ∈ pre, ∃ e, Refuses b e) (ha : Refuses a e) :
    clientStart (.tcp host) useTls (.ok (pre ++ [a])) hello nr = (.error e, failedAttempts 0 (pre.length + 1)) := by
  obtain ⟨h1, h2, h3⟩ := connect_refused a e ha
  have hk : ∀ (pre : List ConnAns) (nr : Exc) (j : Nat), (∀ b ∈ pre, ∃ e, Refuses b e) →
      tryAddrs nr j (pre ++ [a]) = (.error e, failedAttempts j (pre.length + 1)) := by
    intro pre
    induction pre with
    | nil => intro nr j _; simp [tryAddrs, h1, h2, h3, failedAttempts]
    | cons b pre ih =>
      intro nr j h
      obtain ⟨e', hr⟩ := h b (List.mem_cons_self ..)
      obtain ⟨g1, g2, g3⟩ := connect_refused b e' hr
      simp only [List.cons_append, tryAddrs, g1, g2, g3, if_true, ih e' (j + 1) (fun x hx => h x (List.mem_cons_of_mem _ hx)), List.length_cons, failedAttempts]
  unfold clientStart
  simp only [hk pre nr 0 hp]

/-- C75: a name that resolves to nothing is an error, and so is one that does not resolve. -/
theorem C75_unresolved_partial (target : Target) (useTls : Bool) (hello : HelloAns) (nr e : Exc) :
    clientStart target useTls (.ok []) hello nr = (.error nr, []) ∧
    clientStart target useTls (.error e) hello nr = (.error e, []) := by
  cases target <;> exact ⟨rfl, rfl⟩

/-- C75: cancelling while an address is being tried ends the attempt there: CancelledError, and
no further address is tried. -/
theorem C75_cancelled_partial (host : Str) (useTls : Bool) (pre post : List ConnAns) (a : ConnAns) (hello : HelloAns) (nr : Exc)
    (hp : ∀ b ∈ pre, ∃ e, Refuses b e) (ha : CancelledDuring a) :
    clientStart (.tcp host) useTls (.ok (pre ++ a :: post)) hello nr =
      (.error .cancelled, failedAttempts 0 pre.length ++ [.created pre.length, .connect pre.length]) := by
  obtain ⟨e, he, _, _⟩ := tryAddrs_pre pre (a :: post) nr 0 hp
  obtain ⟨h1, h2⟩ := cancelled_of a ha
  unfold clientStart
  simp only [he, Nat.zero_add]
  simp [tryAddrs, h1, h2, Exc.isOSError]

/-- C75 (part that fails): "every resolved address gets its chance" is false. When
`socket.socket` itself refuses one address family (a host without IPv6, say), its error ends
`start` although a later address would accept. -/
theorem C75_every_address_refuted (nr : Exc) (hello : HelloAns) (code : Nat) :
    ∃ bad a, Accepts a ∧ clientStart (.tcp py!"host") false (.ok [bad, a]) hello nr = (.error (.os code), []) := by
  refine ⟨{ create := some (.os code), early := false, connect := none, selectRaises := none, writable := true, late := false, soError := 0 },
    { create := none, early := false, connect := none, selectRaises := none, writable := true, late := false, soError := 0 }, ?_, rfl⟩
  exact ⟨rfl, rfl, rfl, rfl, rfl, rfl, rfl⟩

/-- C75 (part that fails): "no socket is left open" is false: a cancelled attempt leaves the
socket it had opened to the garbage collector. -/
theorem C75_closed_refuted (nr : Exc) (hello : HelloAns) :
    ∃ a, CancelledDuring a ∧ Call.created 0 ∈ (clientStart (.tcp py!"host") false (.ok [a]) hello nr).2 ∧
      Call.closed 0 ∉ (clientStart (.tcp py!"host") false (.ok [a]) hello nr).2 := by
  refine ⟨{ create := none, early := true, connect := none, selectRaises := none, writable := true, late := false, soError := 0 },
    ⟨rfl, .inl rfl⟩, ?_, ?_⟩
  · exact List.mem_cons_self ..
  · show ¬ Call.closed 0 ∈ [Call.created 0, .connect 0]
    decide

/-- C75 (part that fails): "`start` returns only when the server took the connection" is false:
the byte the server sends is read but a connection closed instead counts as one. -/
theorem C75_confirmed_refuted (nr : Exc) (a : ConnAns) (ha : Accepts a) :
    ∃ hello : HelloAns, hello.byte = false ∧ (clientStart (.tcp py!"host") false (.ok [a]) hello nr).1 = .ok 0 := by
  refine ⟨⟨none, ⟨false, none, false⟩, false⟩, rfl, ?_⟩
  obtain ⟨h1, h2⟩ := connect_ok a ha
  simp [clientStart, tryAddrs, h1, h2, clientHello, tokRecv]

/-- C75: a unix socket path is one address: a single attempt is made, whatever else the
environment would have answered. -/
theorem C75_uds_single_partial (path : Str) (useTls : Bool) (a : ConnAns) (more : List ConnAns) (hello : HelloAns) (nr : Exc) :
    (∀ c ∈ (clientStart (.uds path) useTls (.ok (a :: more)) hello nr).2, c.about = some 0) ∧
    (∀ e, Refuses a e → clientStart (.uds path) useTls (.ok (a :: more)) hello nr = (.error e, failedAttempts 0 1)) ∧
    (∀ k, (clientStart (.uds path) useTls (.ok (a :: more)) hello nr).1 = .ok k → k = 0) := by
  refine ⟨?_, ?_, ?_⟩
  · intro c hc
    simp only [clientStart, List.take_succ_cons, List.take_zero, tryAddrs] at hc
    cases hcr : a.create with
    | some e => simp [hcr] at hc
    | none =>
      cases ht : tokConnect a with
      | some e =>
        cases ho : e.isOSError
        · simp [hcr, ht, ho] at hc; rcases hc with rfl | rfl <;> rfl
        · simp [hcr, ht, ho] at hc; rcases hc with rfl | rfl | rfl <;> rfl
      | none =>
        simp only [hcr, ht, List.mem_append, List.mem_cons, List.not_mem_nil, or_false] at hc
        rcases hc with (rfl | rfl) | hc
        · rfl
        · rfl
        · exact hello_about _ _ _ c hc
  · intro e h
    obtain ⟨h1, h2, h3⟩ := connect_refused a e h
    simp [clientStart, tryAddrs, h1, h2, h3, failedAttempts]
  · intro k h
    simp only [clientStart, List.take_succ_cons, List.take_zero, tryAddrs] at h
    cases hcr : a.create with
    | some e => simp [hcr] at h
    | none =>
      cases ht : tokConnect a with
      | some e => cases ho : e.isOSError <;> simp [hcr, ht, ho] at h
      | none =>
        simp only [hcr, ht] at h
        unfold clientHello at h
        cases useTls <;> cases hw : hello.wrap <;> cases hr : tokRecv hello.recv <;> simp [hr, hw] at h <;> exact h.symm

/-- C75: cancelling while the client waits for the server's confirmation byte ends `start` with
CancelledError; the connection is not used. -/
theorem C75_cancelled_greeting_partial (host : Str) (useTls : Bool) (pre post : List ConnAns) (a : ConnAns) (hello : HelloAns) (nr : Exc)
    (hp : ∀ b ∈ pre, ∃ e, Refuses b e) (ha : Accepts a) (hw : hello.wrap = none)
    (hc : hello.recv.early = true ∨ (hello.recv.raises = none ∧ hello.recv.late = true)) :
    (clientStart (.tcp host) useTls (.ok (pre ++ a :: post)) hello nr).1 = .error .cancelled ∧
    ∀ k, Call.receiving k ∉ (clientStart (.tcp host) useTls (.ok (pre ++ a :: post)) hello nr).2 := by
  obtain ⟨e, he, _, _⟩ := tryAddrs_pre pre (a :: post) nr 0 hp
  obtain ⟨h1, h2⟩ := connect_ok a ha
  have hk : tryAddrs nr 0 (pre ++ a :: post) = (.ok pre.length, failedAttempts 0 pre.length ++ [.created pre.length, .connect pre.length]) := by
    rw [he]; simp [tryAddrs, h1, h2]
  have hr : tokRecv hello.recv = some .cancelled := by
    unfold tokRecv
    rcases hc with h | ⟨h, h'⟩
    · simp [h]
    · cases hello.recv.early <;> simp [h, h']
  have hf : ∀ (n j k : Nat), Call.receiving k ∉ failedAttempts j n := by
    intro n
    induction n with
    | zero => intro j k; simp [failedAttempts]
    | succ n ih => intro j k; simp [failedAttempts, ih]
  unfold clientStart clientHello
  simp only [hk, hw, hr]
  cases useTls
  · exact ⟨rfl, fun k => by simp [hf]⟩
  · exact ⟨rfl, fun k => by simp [hf]⟩

/-- C75: what happens after an address accepted: the connection is used exactly if the TLS handshake (if any) and
the wait for the confirmation neither raise nor are cancelled; an exception of either is the one `start` ends with. -/
theorem C75_confirmation_exact_partial (host : Str) (useTls : Bool) (pre post : List ConnAns) (a : ConnAns) (hello : HelloAns) (nr : Exc)
    (hp : ∀ b ∈ pre, ∃ e, Refuses b e) (ha : Accepts a) :
    ((clientStart (.tcp host) useTls (.ok (pre ++ a :: post)) hello nr).1 = .ok pre.length ↔
      (useTls = true → hello.wrap = none) ∧ hello.recv.early = false ∧ hello.recv.raises = none ∧ hello.recv.late = false) ∧
    (∀ e, useTls = true → hello.wrap = some e → (clientStart (.tcp host) useTls (.ok (pre ++ a :: post)) hello nr).1 = .error e) ∧
    (∀ e, (useTls = true → hello.wrap = none) → hello.recv.early = false → hello.recv.raises = some e →
      (clientStart (.tcp host) useTls (.ok (pre ++ a :: post)) hello nr).1 = .error e) := by
  obtain ⟨e, he, _, _⟩ := tryAddrs_pre pre (a :: post) nr 0 hp
  obtain ⟨h1, h2⟩ := connect_ok a ha
  have hk : tryAddrs nr 0 (pre ++ a :: post) = (.ok pre.length, failedAttempts 0 pre.length ++ [.created pre.length, .connect pre.length]) := by
    rw [he]; simp [tryAddrs, h1, h2]
  unfold clientStart clientHello tokRecv
  simp only [hk]
  cases useTls <;> cases hello.wrap <;> cases hello.recv.early <;> cases hello.recv.raises <;> cases hello.recv.late <;> simp

/-- An address that accepts, and one that refuses. -/
def good : ConnAns := { create := none, early := false, connect := none, selectRaises := none, writable := true, late := false, soError := 0 }
def refused : ConnAns := { good with soError := 111 }

example : Accepts good ∧ Refuses refused (.os 111) ∧ CancelledDuring { good with late := true } := by
  refine ⟨⟨rfl, rfl, rfl, rfl, rfl, rfl, rfl⟩, ⟨rfl, rfl, rfl, ?_⟩, ⟨rfl, ?_⟩⟩
  · right; right; right; exact ⟨rfl, rfl, rfl, rfl, by decide, rfl⟩
  · right; exact ⟨rfl, rfl, rfl, rfl⟩

/-! ## C76: encryption -/

/-- C76: with TLS, the client moves no byte on a connection before it was wrapped, and the
certificate is checked against the host of the address as it was given. -/
theorem C76_client_encrypted (host : Str) (resolved : Except Exc (List ConnAns)) (hello : HelloAns) (nr : Exc) :
    Encrypted (some host) (clientStart (.tcp host) true resolved hello nr).2 := by
  have key : ∀ (as : List ConnAns) (err : Exc) (j : Nat), ∀ c ∈ (tryAddrs err j as).2, c.moves = false := by
    intro as
    induction as with
    | nil => intro err j c hc; simp [tryAddrs] at hc
    | cons a as ih =>
      intro err j c hc
      unfold tryAddrs at hc
      cases hcr : a.create <;> cases ht : tokConnect a <;> simp only [hcr, ht] at hc
      · simp at hc; rcases hc with rfl | rfl <;> rfl
      · split at hc
        · simp only [List.mem_cons] at hc
          rcases hc with rfl | rfl | rfl | hc
          · rfl
          · rfl
          · rfl
          · exact ih _ _ c hc
        · simp at hc; rcases hc with rfl | rfl <;> rfl
      · simp at hc
      · simp at hc
  have hquiet : ∀ cs : List Call, (∀ c ∈ cs, c.moves = false) → Encrypted (some host) cs := by
    intro cs h pre c post he hm
    have := h c (by rw [he]; simp)
    rw [this] at hm; cases hm
  cases resolved with
  | error e => exact hquiet _ (by intro c hc; simp [clientStart] at hc)
  | ok as =>
    unfold clientStart
    simp only
    split
    · rename_i e cs hj
      have := key as nr 0; rw [hj] at this
      exact hquiet _ this
    · rename_i k cs hj
      have hq := key as nr 0; rw [hj] at hq
      simp only at hq
      intro pre c post he hm j hab
      simp only [if_true] at he
      rw [List.append_eq_append_iff] at he
      rcases he with ⟨m, h1, h2⟩ | ⟨m, h1, h2⟩
      · -- the call is in the greeting
        unfold clientHello sslHostname at h2
        cases hw : hello.wrap with
        | some e => simp [hw] at h2
        | none =>
          cases hr : tokRecv hello.recv with
          | some e =>
            simp only [hw, hr] at h2
            cases m with
            | nil => simp at h2; rw [← h2.1] at hm; cases hm
            | cons m0 m =>
              simp only [List.cons_append, List.cons.injEq] at h2
              obtain ⟨rfl, h2⟩ := h2
              cases m with
              | nil => simp at h2; rw [← h2.1] at hab; cases hab; rw [h1]; simp
              | cons m1 m => simp at h2
          | none =>
            simp only [hw, hr] at h2
            cases m with
            | nil => simp at h2; rw [← h2.1] at hm; cases hm
            | cons m0 m =>
              simp only [List.cons_append, List.cons.injEq] at h2
              obtain ⟨rfl, h2⟩ := h2
              have hj' : j = k := by
                cases m with
                | nil => simp at h2; rw [← h2.1] at hab; cases hab; rfl
                | cons m1 m =>
                  simp only [List.cons_append, List.cons.injEq] at h2
                  cases m with
                  | nil => simp at h2; rw [← h2.2.1] at hab; cases hab; rfl
                  | cons m2 m => simp at h2
              subst hj'
              rw [h1]; simp
      · cases m with
        | nil =>
          -- the call is the first of the greeting, which is the wrapping
          simp at h2
          unfold clientHello sslHostname at h2
          cases hw : hello.wrap with
          | some e => simp [hw] at h2
          | none =>
            cases hr : tokRecv hello.recv <;> simp only [hw, hr, List.cons.injEq] at h2 <;> rw [h2.1] at hm <;> cases hm
        | cons m0 m =>
          have : c = m0 := by simp only [List.cons_append, List.cons.injEq] at h2; exact h2.1
          subst this
          have := hq c (by rw [h1]; simp)
          rw [this] at hm; cases hm

/-- C76: with TLS, the debuggee (the listening side) moves no byte on a connection before it
was wrapped. -/
theorem C76_server_encrypted (rs : List Round) : Encrypted none (serverStart true rs).2 := by
  have key : ∀ (rs : List Round) (k : Nat), Encrypted none (serverTls k rs).2 := by
    intro rs
    induction rs with
    | nil =>
      intro k pre c post he
      simp [serverTls] at he
    | cons r rs ih =>
      intro k pre c post he hm j hab
      unfold serverTls at he
      cases hacc : tokAccept r.accept with
      | some e => simp [hacc] at he
      | none =>
        simp only [hacc] at he
        -- the calls of one round: what is in front, and what follows
        unfold serverHello at he
        cases hw : r.wrap with
        | some e =>
          simp only [hw] at he
          split at he
          · cases pre with
            | nil => simp at he; rw [← he.1] at hm; cases hm
            | cons p0 pre =>
              simp only [List.nil_append, List.cons_append, List.cons.injEq] at he
              cases pre with
              | nil => simp at he; rw [← he.2.1] at hm; cases hm
              | cons p1 pre =>
                simp only [List.cons_append, List.cons.injEq] at he
                have := ih (k + 1) pre c post he.2.2 hm j hab
                exact List.mem_cons_of_mem _ (List.mem_cons_of_mem _ this)
          · cases pre with
            | nil => simp at he; rw [← he.1] at hm; cases hm
            | cons p0 pre => simp at he
        | none =>
          simp only [hw] at he
          cases hs : tokSend r.send with
          | none =>
            simp only [hs, List.cons_append, List.nil_append] at he
            cases pre with
            | nil => simp at he; rw [← he.1] at hm; cases hm
            | cons p0 pre =>
              simp only [List.cons_append, List.cons.injEq] at he
              cases pre with
              | nil => simp at he; rw [← he.2.1] at hm; cases hm
              | cons p1 pre =>
                simp only [List.cons_append, List.cons.injEq] at he
                cases pre with
                | nil => simp at he; rw [← he.2.2.1] at hab; cases hab; rw [← he.2.1]; simp
                | cons p2 pre =>
                  simp only [List.cons_append, List.cons.injEq] at he
                  cases pre with
                  | nil => simp at he; rw [← he.2.2.2.1] at hm; cases hm
                  | cons p3 pre =>
                    simp only [List.cons_append, List.cons.injEq] at he
                    cases pre with
                    | nil => simp at he; rw [← he.2.2.2.2.1] at hab; cases hab; rw [← he.2.1]; simp
                    | cons p4 pre => simp at he
          | some e =>
            simp only [hs] at he
            split at he
            · simp only [List.cons_append, List.nil_append] at he
              cases pre with
              | nil => simp at he; rw [← he.1] at hm; cases hm
              | cons p0 pre =>
                simp only [List.cons_append, List.cons.injEq] at he
                cases pre with
                | nil => simp at he; rw [← he.2.1] at hm; cases hm
                | cons p1 pre =>
                  simp only [List.cons_append, List.cons.injEq] at he
                  cases pre with
                  | nil => simp at he; rw [← he.2.2.1] at hab; cases hab; rw [← he.2.1]; simp
                  | cons p2 pre =>
                    simp only [List.cons_append, List.cons.injEq] at he
                    cases pre with
                    | nil => simp at he; rw [← he.2.2.2.1] at hm; cases hm
                    | cons p3 pre =>
                      simp only [List.cons_append, List.cons.injEq] at he
                      have := ih (k + 1) pre c post he.2.2.2.2 hm j hab
                      exact List.mem_cons_of_mem _ (List.mem_cons_of_mem _ (List.mem_cons_of_mem _ (List.mem_cons_of_mem _ this)))
            · cases pre with
              | nil => simp at he; rw [← he.1] at hm; cases hm
              | cons p0 pre =>
                simp only [List.cons_append, List.cons.injEq] at he
                cases pre with
                | nil => simp at he; rw [← he.2.1] at hm; cases hm
                | cons p1 pre =>
                  simp only [List.cons_append, List.cons.injEq] at he
                  cases pre with
                  | nil => simp at he; rw [← he.2.2.1] at hab; cases hab; rw [← he.2.1]; simp
                  | cons p2 pre => simp at he
  exact key rs 0

/-- C76: a handshake that fails on the client is raised by `start`: nothing is sent or received
in clear instead. -/
theorem C76_no_fallback (target : Target) (as : List ConnAns) (hello : HelloAns) (nr e : Exc) (hw : hello.wrap = some e) :
    (∃ x, (clientStart target true (.ok as) hello nr).1 = .error x) := by
  unfold clientStart
  simp only
  split
  · exact ⟨_, rfl⟩
  · exact ⟨e, by simp [clientHello, hw]⟩

/-- C76: over a unix socket the name checked is the path, cut at 63 characters. -/
theorem C76_uds_hostname (path : Str) (a : ConnAns) (hello : HelloAns) (nr : Exc) (ha : Accepts a) (hw : hello.wrap = none) :
    Call.tls 0 (some (path.take 63)) ∈ (clientStart (.uds path) true (.ok [a]) hello nr).2 := by
  obtain ⟨h1, h2⟩ := connect_ok a ha
  cases hr : tokRecv hello.recv <;> simp [clientStart, tryAddrs, h1, h2, clientHello, hw, hr, sslHostname]

example : (clientStart (.tcp py!"host") true (.ok [refused, good]) ⟨none, ⟨false, none, false⟩, true⟩ (.os 0)) =
    (.ok 1, [.created 0, .connect 0, .closed 0, .created 1, .connect 1, .tls 1 (some py!"host"), .readByte 1, .receiving 1]) := rfl

/-! ## C77: listening -/

theorem taken_iff (a : AcceptAns) : tokAccept a = none ↔ Taken a := by
  obtain ⟨early, raises, ready, other, late⟩ := a
  unfold tokAccept Taken
  cases early <;> cases raises <;> cases ready <;> cases other <;> cases late <;> simp <;> (split <;> simp)

theorem hello_ok_iff (r : Round) (k : Nat) : (serverHello k r).1 = none ↔ HelloOk r := by
  unfold serverHello HelloOk tokSend
  cases hw : r.wrap <;> cases he : r.send.early <;> cases hr : r.send.raises <;> simp
  split
  · simp
  · rename_i heq; split at heq <;> cases heq

theorem hello_ssl (r : Round) (k : Nat) (h : HelloSSLError r) : ∃ e, (serverHello k r).1 = some e ∧ e.isSSLError = true := by
  unfold serverHello
  rcases h with ⟨n, h⟩ | ⟨h1, h2, h3, n, h4⟩
  · exact ⟨.ssl n, by simp [h], rfl⟩
  · exact ⟨.ssl n, by simp [h1, tokSend, h2, h3, h4], rfl⟩

theorem ssl_of (r : Round) (k : Nat) (e : Exc) (h : (serverHello k r).1 = some e) (he : e.isSSLError = true) : HelloSSLError r := by
  unfold serverHello at h
  cases hw : r.wrap with
  | some x =>
    simp [hw] at h; subst h
    cases x <;> simp [Exc.isSSLError] at he
    exact .inl ⟨_, hw⟩
  | none =>
    right
    cases hs : tokSend r.send with
    | none => simp [hw, hs] at h
    | some x =>
      simp [hw, hs] at h; subst h
      cases x <;> simp [Exc.isSSLError] at he
      rename_i n
      unfold tokSend at hs
      cases hear : r.send.early
      · cases hr : r.send.raises with
        | none => simp [hear, hr] at hs
        | some y =>
          cases hl : r.send.late
          · simp [hear, hr, hl] at hs; subst hs
            exact ⟨hw, rfl, rfl, n, rfl⟩
          · simp only [hear, hr, hl, Bool.and_true] at hs
            cases ho : y.isOSError
            · simp [ho] at hs; subst hs; simp [Exc.isOSError] at ho
            · simp [ho] at hs
      · simp [hear] at hs

/-- The connections of the rounds before `n`, from `k` on, were all closed in `cs`. -/
def AllClosed (k n : Nat) (cs : List Call) : Prop := ∀ j, k ≤ j → j < n → Call.accepted j ∈ cs ∧ Call.closed j ∈ cs

/-- C77: with TLS, clients whose handshake fails with an SSLError do not end the listening,
however many they are: the next client is served, each failed connection is closed and the
listening socket stays open meanwhile. -/
theorem C77_retry_partial (pre : List Round) (rest : List Round)
    (hp : ∀ r ∈ pre, Taken r.accept ∧ HelloSSLError r) (k : Nat) :
    ∃ cs, serverTls k (pre ++ rest) = ((serverTls (k + pre.length) rest).1, cs ++ (serverTls (k + pre.length) rest).2) ∧
      AllClosed k (k + pre.length) cs ∧ Call.closedListener ∉ cs := by
  induction pre generalizing k with
  | nil => exact ⟨[], by simp, fun j h1 h2 => by simp at h2; omega, by simp⟩
  | cons r pre ih =>
    obtain ⟨h1, h2⟩ := hp r (List.mem_cons_self ..)
    obtain ⟨e, h3, h4⟩ := hello_ssl r k h2
    obtain ⟨cs, hc1, hc2, hc3⟩ := ih (fun x hx => hp x (List.mem_cons_of_mem _ hx)) (k + 1)
    have hlen : k + 1 + pre.length = k + (r :: pre).length := by simp only [List.length_cons]; omega
    rw [hlen] at hc1 hc2
    refine ⟨.accepted k :: (serverHello k r).2 ++ .closed k :: cs, ?_, ?_, ?_⟩
    · have hhello : serverHello k r = (some e, (serverHello k r).2) := by rw [← h3]
      simp only [List.cons_append, serverTls, (taken_iff _).2 h1]
      rw [hhello]
      simp only [h4, if_true, hc1]
      simp
    · intro j hj1 hj2
      by_cases hjk : j = k
      · subst hjk; simp
      · obtain ⟨g1, g2⟩ := hc2 j (by omega) hj2
        exact ⟨by simp [g1], by simp [g2]⟩
    · simp only [List.cons_append, List.mem_cons, List.mem_append, not_or]
      refine ⟨by simp, ?_, by simp, hc3⟩
      unfold serverHello
      cases r.wrap <;> cases tokSend r.send <;> simp

/-- C77: `start` returns with the first client whose handshake succeeds. -/
theorem C77_first_success_partial (pre rest : List Round) (r : Round)
    (hp : ∀ r ∈ pre, Taken r.accept ∧ HelloSSLError r) (ht : Taken r.accept) (hr : HelloOk r) :
    ∃ cs, serverStart true (pre ++ r :: rest) =
        (.returned pre.length, cs ++ [.accepted pre.length, .tls pre.length none, .sendByte pre.length, .closedListener, .receiving pre.length]) ∧
      AllClosed 0 pre.length cs ∧ Call.closedListener ∉ cs := by
  obtain ⟨cs, h1, h2, h3⟩ := C77_retry_partial pre (r :: rest) hp 0
  refine ⟨cs, ?_, by simpa using h2, h3⟩
  simp only [serverStart, if_true, h1, Nat.zero_add]
  obtain ⟨g1, g2, g3⟩ := hr
  simp [serverTls, (taken_iff _).2 ht, serverHello, g1, tokSend, g2, g3]

/-- C77: conversely, whatever the clients do, when `start` returns it is with a client whose
handshake succeeded, and every client before it failed with an SSLError. -/
theorem C77_returned_tls_partial (rs : List Round) (n : Nat) (h : (serverStart true rs).1 = .returned n) :
    ∃ pre r post, rs = pre ++ r :: post ∧ pre.length = n ∧ (∀ x ∈ pre, Taken x.accept ∧ HelloSSLError x) ∧
      Taken r.accept ∧ HelloOk r := by
  have key : ∀ (rs : List Round) (k : Nat), (serverTls k rs).1 = .returned n →
      ∃ pre r post, rs = pre ++ r :: post ∧ k + pre.length = n ∧ (∀ x ∈ pre, Taken x.accept ∧ HelloSSLError x) ∧
        Taken r.accept ∧ HelloOk r := by
    intro rs
    induction rs with
    | nil => intro k h; simp [serverTls] at h
    | cons r rs ih =>
      intro k h
      unfold serverTls at h
      cases hacc : tokAccept r.accept with
      | some e => simp [hacc] at h
      | none =>
        have ht := (taken_iff _).1 hacc
        simp only [hacc] at h
        split at h
        · rename_i cs hh
          simp only [Outcome.returned.injEq] at h
          exact ⟨[], r, rs, rfl, by simpa using h, by simp, ht, (hello_ok_iff r k).1 (by rw [hh])⟩
        · rename_i e cs hh
          split at h
          · rename_i hssl
            obtain ⟨pre, r', post, h1, h2, h3, h4⟩ := ih (k + 1) h
            refine ⟨r :: pre, r', post, by rw [h1]; rfl, by simp only [List.length_cons]; omega, ?_, h4⟩
            intro x hx
            rcases List.mem_cons.1 hx with rfl | hx
            · exact ⟨ht, ssl_of _ k e (by rw [hh]) hssl⟩
            · exact h3 x hx
          · simp at h
  obtain ⟨pre, r, post, h1, h2, h3⟩ := key rs 0 h
  exact ⟨pre, r, post, h1, by omega, h3⟩

/-- C77: without TLS `start` returns exactly if the first client is taken and gets its byte. -/
theorem C77_plain_partial (r : Round) (rs : List Round) (n : Nat) :
    (serverStart false (r :: rs)).1 = .returned n ↔ n = 0 ∧ Taken r.accept ∧ r.send.early = false ∧ r.send.raises = none := by
  simp only [serverStart, serverPlain]
  cases hacc : tokAccept r.accept with
  | some e =>
    simp only [reduceCtorEq, if_false, Bool.false_eq_true, false_iff, not_and]
    intro _ h; rw [← taken_iff, hacc] at h; cases h
  | none =>
    have ht := (taken_iff _).1 hacc
    unfold tokSend
    cases he : r.send.early <;> cases hr : r.send.raises
    · simp only [Bool.false_eq_true, if_false, Outcome.returned.injEq, ht, and_true]
      exact eq_comm
    · rename_i e
      simp only [Bool.false_eq_true, if_false, reduceCtorEq, and_false, iff_false]
      split
      · simp
      · rename_i heq; split at heq <;> cases heq
    · simp
    · simp

/-- The clients that were accepted, in order. -/
def acceptedOf : List Call → List Nat
  | [] => []
  | .accepted k :: cs => k :: acceptedOf cs
  | _ :: cs => acceptedOf cs

theorem acceptedOf_append (as bs : List Call) : acceptedOf (as ++ bs) = acceptedOf as ++ acceptedOf bs := by
  induction as with
  | nil => rfl
  | cons a as ih => cases a <;> simp [acceptedOf, ih]

theorem accepted_tls (rs : List Round) (k : Nat) :
    ∃ n, acceptedOf (serverTls k rs).2 = List.range' k n ∧ n ≤ rs.length ∧ (∀ j, (serverTls k rs).1 = .returned j → j + 1 = k + n) ∧
      ∀ j, Call.sendByte j ∈ (serverTls k rs).2 ∨ Call.closed j ∈ (serverTls k rs).2 ∨ Call.receiving j ∈ (serverTls k rs).2 → k ≤ j ∧ j < k + n := by
  induction rs generalizing k with
  | nil => exact ⟨0, rfl, Nat.le_refl _, by simp [serverTls], by simp [serverTls]⟩
  | cons r rs ih =>
    unfold serverTls
    cases hacc : tokAccept r.accept with
    | some e => exact ⟨0, rfl, Nat.zero_le _, by simp, by simp⟩
    | none =>
      dsimp only
      have hh : acceptedOf (serverHello k r).2 = [] ∧
          ∀ j, Call.sendByte j ∈ (serverHello k r).2 ∨ Call.closed j ∈ (serverHello k r).2 ∨ Call.receiving j ∈ (serverHello k r).2 → j = k := by
        unfold serverHello
        cases r.wrap <;> cases tokSend r.send <;> simp [acceptedOf]
      cases hs : serverHello k r with
      | mk o cs =>
        rw [hs] at hh
        dsimp only at hh
        cases o with
        | none =>
          dsimp only
          refine ⟨1, ?_, by simp, ?_, ?_⟩
          · simp [acceptedOf, acceptedOf_append, hh.1]
          · intro j hj; simp at hj; omega
          · intro j hj
            have : j = k := by
              simp only [List.mem_cons, List.mem_append, reduceCtorEq, false_or, or_false, List.not_mem_nil, Call.receiving.injEq] at hj
              rcases hj with hj | hj | hj | hj
              · exact hh.2 j (.inl hj)
              · exact hh.2 j (.inr (.inl hj))
              · exact hh.2 j (.inr (.inr hj))
              · exact hj
            omega
        | some e =>
          dsimp only
          by_cases he : e.isSSLError = true
          · rw [if_pos he]
            obtain ⟨n, h1, h2, h3, h4⟩ := ih (k + 1)
            refine ⟨n + 1, ?_, by simp; omega, ?_, ?_⟩
            · simp [acceptedOf, acceptedOf_append, hh.1, h1, List.range'_succ]
            · intro j hj; have := h3 j hj; omega
            · intro j hj
              simp only [List.mem_cons, List.mem_append, reduceCtorEq, false_or, Call.closed.injEq] at hj
              have : j = k ∨ (k + 1 ≤ j ∧ j < k + 1 + n) := by
                rcases hj with (hj | hj) | (hj | hj | hj) | (hj | hj)
                · exact .inl (hh.2 j (.inl hj))
                · exact .inr (h4 j (.inl hj))
                · exact .inl (hh.2 j (.inr (.inl hj)))
                · exact .inl hj
                · exact .inr (h4 j (.inr (.inl hj)))
                · exact .inl (hh.2 j (.inr (.inr hj)))
                · exact .inr (h4 j (.inr (.inr hj)))
              omega
          · rw [if_neg he]
            refine ⟨1, ?_, by simp, by simp, ?_⟩
            · simp [acceptedOf, hh.1]
            · intro j hj
              have : j = k := by
                simp only [List.mem_cons, reduceCtorEq, false_or] at hj
                exact hh.2 j hj
              omega

/-- C77: with and without TLS, the clients are taken one by one in the order in which they come; a byte is sent to, messages are received
from and a connection is closed of clients only that were taken; and if `start` returns, it is with the last one taken. -/
theorem C77_in_order (useTls : Bool) (rs : List Round) :
    ∃ n, acceptedOf (serverStart useTls rs).2 = List.range n ∧ n ≤ rs.length ∧ (∀ j, (serverStart useTls rs).1 = .returned j → j + 1 = n) ∧
      ∀ j, Call.sendByte j ∈ (serverStart useTls rs).2 ∨ Call.closed j ∈ (serverStart useTls rs).2 ∨ Call.receiving j ∈ (serverStart useTls rs).2 → j < n := by
  cases useTls with
  | true =>
    obtain ⟨n, h1, h2, h3, h4⟩ := accepted_tls rs 0
    exact ⟨n, by rw [List.range_eq_range']; exact h1, h2, fun j hj => by have := h3 j hj; omega, fun j hj => by have := h4 j hj; omega⟩
  | false =>
    unfold serverStart
    simp only [Bool.false_eq_true, if_false]
    unfold serverPlain
    cases rs with
    | nil => exact ⟨0, rfl, Nat.le_refl _, by simp, by simp⟩
    | cons r rs =>
      dsimp only
      cases tokAccept r.accept with
      | some e => exact ⟨0, rfl, Nat.zero_le _, by simp, by simp⟩
      | none =>
        cases tokSend r.send with
        | some e => exact ⟨1, rfl, by simp, by simp, by simp⟩
        | none => exact ⟨1, rfl, by simp, by simp, by simp⟩

/-- C77 (part that fails): "a failed handshake never ends the listening" is false: a client
that resets the connection during the handshake (an OSError that is no SSLError) does. -/
theorem C77_reset_refuted (rs : List Round) (code : Nat) :
    ∃ r, Taken r.accept ∧ (serverStart true (r :: rs)).1 = .raised (.os code) := by
  refine ⟨⟨⟨false, none, true, false, false⟩, some (.os code), ⟨false, none, false⟩⟩, ⟨rfl, rfl, rfl, rfl⟩, rfl⟩

/-- C77 (part that fails): the timeout starts again with every failed handshake, so it does not
bound how long `start` waits: it is still waiting after any number of failed clients. -/
theorem C77_timeout_refuted (pre : List Round) (hp : ∀ r ∈ pre, Taken r.accept ∧ HelloSSLError r) :
    (serverStart true pre).1 = .waiting := by
  obtain ⟨cs, h1, _, _⟩ := C77_retry_partial pre [] hp 0
  rw [List.append_nil] at h1
  simp [serverStart, h1, serverTls]

/-- C77: while nobody connects in time, or the other side goes away, `start` raises
TimeoutError or CancelledError. -/
theorem C77_gives_up_partial (useTls : Bool) (a : AcceptAns) (w : Option Exc) (s : IoAns) (rs : List Round)
    (h0 : a.early = false) (h1 : a.raises = none) (h2 : a.late = false) :
    (a.ready = false → serverStart useTls (⟨a, w, s⟩ :: rs) = (.raised .timeout, [])) ∧
    (a.ready = true → a.otherReady = true → serverStart useTls (⟨a, w, s⟩ :: rs) = (.raised .cancelled, [])) := by
  constructor
  · intro h; cases useTls <;> simp [serverStart, serverTls, serverPlain, tokAccept, h0, h1, h2, h]
  · intro h h'; cases useTls <;> simp [serverStart, serverTls, serverPlain, tokAccept, h0, h1, h, h']

/-- C77: any other failure of waiting for a client is passed on as it is: an error of the operating system unless the wait was
cancelled, and anything else in any case; no connection is made or closed. -/
theorem C77_error_passed_on_partial (useTls : Bool) (a : AcceptAns) (w : Option Exc) (s : IoAns) (rs : List Round) (e : Exc)
    (h0 : a.early = false) (h1 : a.raises = some e) (h2 : a.late = false ∨ e.isOSError = false) :
    serverStart useTls (⟨a, w, s⟩ :: rs) = (.raised e, []) := by
  have ht : tokAccept a = some e := by
    rcases h2 with h2 | h2 <;> simp [tokAccept, h0, h1, h2]
  cases useTls <;> simp [serverStart, serverTls, serverPlain, ht]

example : ∃ a : AcceptAns, a.early = false ∧ a.raises = some (.os 24) ∧ a.late = false := ⟨⟨false, some (.os 24), false, false, false⟩, rfl, rfl, rfl⟩

/-- C77: cancelling while nobody has connected yet is CancelledError, also when the timeout
runs out at the same time or the wait is broken by an error of the operating system. -/
theorem C77_cancelled_partial (useTls : Bool) (a : AcceptAns) (w : Option Exc) (s : IoAns) (rs : List Round)
    (h : a.early = true ∨ (a.late = true ∧ ((a.raises = none ∧ a.ready = false) ∨ ∃ e, a.raises = some e ∧ e.isOSError = true))) :
    serverStart useTls (⟨a, w, s⟩ :: rs) = (.raised .cancelled, []) := by
  have ht : tokAccept a = some .cancelled := by
    unfold tokAccept
    rcases h with h | ⟨h, ⟨h1, h2⟩ | ⟨e, h1, h2⟩⟩
    · simp [h]
    · cases a.early <;> simp [h, h1, h2]
    · cases a.early <;> simp [h, h1, h2]
  cases useTls <;> simp [serverStart, serverTls, serverPlain, ht]

example : serverStart true [⟨⟨false, none, false, false, true⟩, none, ⟨false, none, false⟩⟩] = (.raised .cancelled, []) := rfl

/-- C77: without TLS a client that is taken gets exactly one byte, then the listening socket is
closed and only then is anything received from it. -/
theorem C77_plain_calls_partial (r : Round) (rs : List Round) (h : Taken r.accept) (h1 : r.send.early = false) (h2 : r.send.raises = none) :
    serverStart false (r :: rs) = (.returned 0, [.accepted 0, .sendByte 0, .closedListener, .receiving 0]) := by
  simp [serverStart, serverPlain, (taken_iff _).2 h, tokSend, h1, h2]

/-- A client that fails its handshake, and one that succeeds. -/
def badClient : Round := ⟨⟨false, none, true, false, false⟩, some (.ssl 1), ⟨false, none, false⟩⟩
def goodClient : Round := ⟨⟨false, none, true, false, false⟩, none, ⟨false, none, false⟩⟩

example : (Taken badClient.accept ∧ HelloSSLError badClient) ∧ Taken goodClient.accept ∧ HelloOk goodClient ∧
    serverStart true [badClient, badClient, goodClient] = (.returned 2,
      [.accepted 0, .closed 0, .accepted 1, .closed 1, .accepted 2, .tls 2 none, .sendByte 2, .closedListener, .receiving 2]) :=
  ⟨⟨⟨rfl, rfl, rfl, rfl⟩, .inl ⟨1, rfl⟩⟩, ⟨rfl, rfl, rfl, rfl⟩, ⟨rfl, rfl, rfl⟩, by decide +kernel⟩

end Verif.Props.Sock
