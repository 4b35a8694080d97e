import Verif.Server.Input
import Verif.Props.Conn

/-!
# C01, C03 for the input loop of the adapter

`Feed false feq c ds ms r`: reads of standard input give the chunks `ds`; the loop of `start()` takes out the messages `ms`
and is ended by the exception `r`, if any.
-/

namespace Verif.Props.Input
open Verif Verif.Conn Verif.Dap

/-- What a run of the loop shows: the messages, then the exception. -/
def shown (ms : List Val) (r : Option PyErr) : List (Except PyErr Val) := ms.map .ok ++ (r.toList.map .error)

theorem drain_polls {feq : Str → Nat → Bool} {c c' : Conn} {ms : List Val} {r : Option PyErr} (h : Server.Drain feq c ms r c') :
    ∃ ops rs, received ops = [] ∧ runRecv feq c ops = (rs, c') ∧ (∀ rs', r = none → outcome (rs ++ rs') = ms.map .ok ++ outcome rs') ∧
      (∀ rs' e, r = some e → outcome (rs ++ rs') = ms.map .ok ++ [.error e] ∧ .error e ∈ rs) ∧ (r = none → (nextMessage feq c').1 = .ok none) := by
  induction h with
  | @stop c c' h =>
    have h0 := nextMessage_none_state feq c (by rw [h])
    rw [h] at h0
    simp only at h0
    subst h0
    exact ⟨[.poll], [.ok none], rfl, by simp [runRecv, h], by intro rs' _; simp [outcome], by simp, by intro _; rw [h]⟩
  | @fail c c' e h => exact ⟨[.poll], [.error e], rfl, by simp [runRecv, h], by simp, by intro rs' e he; cases he; simp [outcome], by simp⟩
  | @more c c1 c' m ms r h _ ih =>
    obtain ⟨ops, rs, h1, h2, h3, h4, h5⟩ := ih
    refine ⟨.poll :: ops, .ok (some m) :: rs, h1, by simp [runRecv, h, h2], ?_, ?_, h5⟩
    · intro rs' hr; simp [outcome, h3 rs' hr]
    · intro rs' e he; simp [outcome, (h4 rs' e he).1, (h4 rs' e he).2]

/-- The loop of the adapter is one way of polling the connection until nothing more is to be had. -/
theorem feed_polls {feq : Str → Nat → Bool} {c : Conn} {ds : List Bytes} {ms : List Val} {r : Option PyErr}
    (h : Server.Feed false feq c ds ms r) (hq : (nextMessage feq c).1 = .ok none) :
    ∃ ops, received ops = ds.flatten ∧ Settled feq c ops ∧ outcome (runRecv feq c ops).1 = shown ms r := by
  suffices H : ∃ ops, received ops = ds.flatten ∧ outcome (runRecv feq c ops).1 = shown ms r ∧
      ((∃ e, .error e ∈ (runRecv feq c ops).1) ∨ (nextMessage feq (runRecv feq c ops).2).1 = .ok none) by
    obtain ⟨ops, h1, h2, h3⟩ := H
    rcases h3 with h3 | h3
    · exact ⟨ops, h1, .inl h3, h2⟩
    · refine ⟨ops ++ [.poll], ?_, .inr ⟨ops, rfl, h3⟩, ?_⟩
      · have : ∀ a : List RecvOp, received (a ++ [.poll]) = received a := by
          intro a
          induction a with
          | nil => rfl
          | cons x a ih => cases x <;> simp [received, ih]
        rw [this, h1]
      · rw [runRecv_append]
        have : ∀ a : List (Except PyErr (Option Val)), outcome (a ++ [.ok none]) = outcome a := by
          intro a
          induction a with
          | nil => rfl
          | cons x a ih => rcases x with _ | _ | _ <;> simp [outcome, ih]
        simp only [runRecv, h3, this, h2]
  have happ : ∀ a b : List RecvOp, received (a ++ b) = received a ++ received b := by
    intro a b
    induction a with
    | nil => rfl
    | cons x a ih => cases x <;> simp [received, ih]
  induction h with
  | done => exact ⟨[], rfl, rfl, .inr hq⟩
  | log h1 _ => cases h1
  | @fail c c' d ds ms e _ h2 =>
    obtain ⟨ops, rs, g1, g2, _, g4, _⟩ := drain_polls h2
    refine ⟨.recv d :: (ops ++ [.recv ds.flatten]), ?_, ?_, .inl ⟨e, ?_⟩⟩
    · simp [received, happ, g1]
    · simp only [runRecv, runRecv_append, g2, List.append_nil, shown]
      have := (g4 [] e rfl).1
      simpa using this
    · simp only [runRecv, runRecv_append, g2, List.append_nil]
      exact (g4 [] e rfl).2
  | @next c c' d ds ms ms' r _ h2 _ ih =>
    obtain ⟨ops, rs, g1, g2, g3, _, g5⟩ := drain_polls h2
    obtain ⟨ops', k1, k2, k3⟩ := ih (g5 rfl)
    refine ⟨.recv d :: (ops ++ ops'), ?_, ?_, ?_⟩
    · simp [received, happ, g1, k1]
    · simp only [runRecv, runRecv_append, g2]
      rw [g3 _ rfl, k2]
      simp [shown]
    · simp only [runRecv, runRecv_append, g2]
      rcases k3 with ⟨e, k3⟩ | k3
      · exact .inl ⟨e, List.mem_append_right _ k3⟩
      · exact .inr k3

/-- A message that is taken out shortens the buffer, whatever length its header announced. -/
theorem nextMessage_shrinks (feq : Str → Nat → Bool) (c c' : Conn) (m : Val) (h : nextMessage feq c = (.ok (some m), c')) :
    c'.inBuf.length < c.inBuf.length := by
  unfold nextMessage at h
  split at h
  · simp at h
  · rename_i i hi
    split at h
    · simp at h
    · rename_i n hn
      simp only at h
      split at h
      · simp at h
      · split at h
        · simp at h
        · rename_i v hv
          split at h
          · simp only [Prod.mk.injEq] at h
            obtain ⟨-, rfl⟩ := h
            have hne : slice c.inBuf ((i : Int) + 4) ((i : Int) + 4 + n) ≠ [] := by
              intro h0
              rw [h0] at hv
              have : decodeMsg [] = .error .value := rfl
              rw [this] at hv
              cases hv
            have hlen : (slice c.inBuf ((i : Int) + 4) ((i : Int) + 4 + n)).length ≠ 0 := by
              intro h0; exact hne (List.length_eq_zero_iff.mp h0)
            simp only [slice, sliceFrom, List.length_drop, List.length_take, sliceBound] at hlen ⊢
            by_cases h1 : (i : Int) + 4 + n < 0
            · simp only [h1, if_true] at hlen ⊢; split at hlen <;> omega
            · simp only [h1, if_false] at hlen ⊢; split at hlen <;> omega
          · simp at h

/-- Taking out the messages ends, whatever is in the buffer. -/
theorem drain_total (feq : Str → Nat → Bool) (c : Conn) : ∃ ms r c', Server.Drain feq c ms r c' := by
  generalize hl : c.inBuf.length = k
  induction k using Nat.strongRecOn generalizing c with
  | ind k ih =>
    cases h : nextMessage feq c with
    | mk x c' =>
      rcases x with e | _ | m
      · exact ⟨[], some e, c', .fail h⟩
      · exact ⟨[], none, c', .stop h⟩
      · obtain ⟨ms, r, c2, hd⟩ := ih c'.inBuf.length (by have := nextMessage_shrinks feq c c' m h; omega) c' rfl
        exact ⟨m :: ms, r, c2, .more h hd⟩

/-- C06 for the adapter: for every input and every division of it into reads the loop gets through: it handles finitely many messages
and waits for more, or is stopped by an exception. No input makes it spin. -/
theorem C06_adapter_terminates (debug : Bool) (feq : Str → Nat → Bool) (c : Conn) (ds : List Bytes) : ∃ ms r, Server.Feed debug feq c ds ms r := by
  induction ds generalizing c with
  | nil => exact ⟨[], none, .done⟩
  | cons d ds ih =>
    by_cases hd : debug = true ∧ utf8Decode d = none
    · exact ⟨[], _, .log hd.1 hd.2⟩
    · have hd' : debug = true → utf8Decode d ≠ none := fun h1 h2 => hd ⟨h1, h2⟩
      obtain ⟨ms, r, c', h⟩ := drain_total feq (receiveData c d)
      cases r with
      | some e => exact ⟨ms, some e, .fail hd' h⟩
      | none =>
        obtain ⟨ms', r', h'⟩ := ih c'
        exact ⟨ms ++ ms', r', .next hd' h h'⟩

/-- C03 for the adapter: the messages it handles and the exception that stops it depend on the bytes the client wrote only, not on how reads of standard
input divide them. -/
theorem C03_adapter_chunking (feq : Str → Nat → Bool) (ds ds' : List Bytes) (ms ms' : List Val) (r r' : Option PyErr) (hsame : ds.flatten = ds'.flatten)
    (hneg : NoDeepNegative ds.flatten) (h : Server.Feed false feq Conn.init ds ms r) (h' : Server.Feed false feq Conn.init ds' ms' r') : ms = ms' ∧ r = r' := by
  have hq : (nextMessage feq Conn.init).1 = .ok none := rfl
  obtain ⟨ops, h1, h2, h3⟩ := feed_polls h hq
  obtain ⟨ops', h1', h2', h3'⟩ := feed_polls h' hq
  have e := Verif.Props.Conn.C03_chunking_irrelevant feq Conn.init ops ops' (by simpa [Conn.init, h1] using hneg) (by rw [h1, h1', hsame]) h2 h2'
  rw [h3, h3'] at e
  have key : ∀ (a b : List Val) (x y : Option PyErr), shown a x = shown b y → a = b ∧ x = y := by
    intro a
    induction a with
    | nil =>
      intro b x y e
      cases b with
      | nil => cases x <;> cases y <;> simp [shown] at e <;> simp [e]
      | cons _ _ => cases x <;> simp [shown] at e
    | cons u a ih =>
      intro b x y e
      cases b with
      | nil => cases y <;> simp [shown] at e
      | cons v b =>
        simp only [shown, List.map_cons, List.cons_append, List.cons.injEq, Except.ok.injEq] at e
        obtain ⟨g1, g2⟩ := ih b x y e.2
        exact ⟨by rw [e.1, g1], g2⟩
  exact key _ _ _ _ e

/-- C01 for the adapter: however the reads divide what a peer connection has sent, the adapter handles exactly the messages that were queued there, in order,
with their sequence numbers, and no exception. -/
theorem C01_adapter_reads (feq : Str → Nat → Bool) (sops : List SendOp) (ds : List Bytes) (ms : List Val) (r : Option PyErr)
    (hw : ∀ m ∈ queued sops, Wire m) (hall : (runSend Conn.init sops).2.outBuf = []) (hr : ds.flatten = (runSend Conn.init sops).1)
    (h : Server.Feed false feq Conn.init ds ms r) : ms = stamped 1 (queued sops) ∧ r = none := by
  obtain ⟨ops, h1, h2, h3⟩ := feed_polls h rfl
  have e := Verif.Props.Conn.C01_exactly_the_messages feq sops ops hw hall (by rw [h1, hr]) h2
  rw [h3] at e
  cases r with
  | some x =>
    have : (Except.error x : Except PyErr Val) ∈ (stamped 1 (queued sops)).map .ok := by rw [← e]; simp [shown]
    simp at this
  | none =>
    simp only [shown, Option.toList_none, List.map_nil, List.append_nil] at e
    exact ⟨(List.map_inj_right (fun a b h => by cases h; rfl)).1 e, rfl⟩

end Verif.Props.Input
