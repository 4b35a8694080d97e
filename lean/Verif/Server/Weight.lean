import Verif.Server.Answer

/-!
# Conserved quantities

Many properties of the server say that something happens at most once for a request. They follow
from weights of the actions, messages and table entries that no step increases, except the receipt
of a request.
-/

namespace Verif.Server

def total {α : Type} (f : α → Nat) (l : List α) : Nat := (l.map f).sum

@[simp] theorem total_nil {α : Type} (f : α → Nat) : total f [] = 0 := rfl
@[simp] theorem total_cons {α : Type} (f : α → Nat) (a : α) (l : List α) : total f (a :: l) = f a + total f l := rfl
@[simp] theorem total_append {α : Type} (f : α → Nat) (l m : List α) : total f (l ++ m) = total f l + total f m := by
  simp [total]

theorem total_flat {α β : Type} (f : β → Nat) (g : α → List β) (l : List α) (h : ∀ a, total f (g a) = 0) :
    total f (l.flatMap g) = 0 := by
  induction l with
  | nil => rfl
  | cons a l ih => rw [List.flatMap_cons, total_append, h, ih]

/-- Weights of actions (`w`), messages to the client (`v`), messages to the debuggee (`x`) and
registered launches (`u`). -/
structure W where
  w : Act → Nat
  v : Body → Nat
  x : ToDeb → Nat
  u : Nat → Nat
  write : ∀ b, v b ≤ w (.write b)
  runIn : ∀ q r, v (.runIn q) + w (.register r q) ≤ w (.writeRunIn q)
  reg : ∀ q r, u q ≤ w (.register r q)
  acc : ∀ q, w .closeLaunch + (w (.write (.launchResp q)) + (w (.pop q) + w (.send .config))) ≤ w (.accept q)
  acc' : ∀ q, w (.accept q) ≤ u q
  send : ∀ m, x m ≤ w (.send m)
  sendQ : ∀ m, x m ≤ w (.sendQuiet m)
  disc : ∀ q, w (.write (.discResp q)) = 0
  err : ∀ q, w (.write (.errResp q)) = 0
  relay : ∀ m, w (.write (.relay m)) = 0
  term : w (.write .terminated) = 0
  pop : ∀ q, w (.pop q) = 0
  zero : ∀ a, a ∈ [Act.snapD, .snapE, .stopDeb, .cancel, .join, .clearDeb, .chkLaunch, .callLaunch, .clearLaunch,
    .chkTerm, .setTerm] → w a = 0

/-- The weight of a state. -/
def W.sum (o : W) (s : S) : Nat :=
  total o.v s.outs + total o.x s.toDeb + total (fun e => o.u e.2) s.runIn +
  total o.w s.main.prog + total o.w s.recv.prog

/-- The weight without that of the main thread's program. -/
def W.rest (o : W) (s : S) : Nat :=
  total o.v s.outs + total o.x s.toDeb + total (fun e => o.u e.2) s.runIn

theorem W.stop (o : W) (e f : Bool) : total o.w (stopProg e f) = 0 := by
  have z := o.zero
  cases e <;> cases f <;> simp [stopProg, z]

theorem set_total (f : Nat → Nat) (l : List (Nat × Nat)) (r q : Nat) :
    total (fun e => f e.2) (Dict.set l r q) ≤ total (fun e => f e.2) l + f q := by
  induction l with
  | nil => simp [Dict.set]
  | cons e l ih =>
    obtain ⟨a, b⟩ := e
    unfold Dict.set
    split
    · simp; omega
    · simp; omega

theorem erase_total (f : Nat → Nat) (l : List (Nat × Nat)) (r q : Nat) (h : Dict.get? l r = some q) :
    total (fun e => f e.2) (Dict.erase l r) + f q ≤ total (fun e => f e.2) l := by
  induction l with
  | nil => cases h
  | cons e l ih =>
    obtain ⟨a, b⟩ := e
    by_cases hab : a = r
    · subst hab
      have : b = q := by simpa [Dict.get?] using h
      subst this
      have h2 : ∀ l : List (Nat × Nat), total (fun e => f e.2) (Dict.erase l a) ≤ total (fun e => f e.2) l := by
        intro l
        induction l with
        | nil => simp [Dict.erase]
        | cons e l ih => 
          simp only [Dict.erase, List.filter_cons]
          simp only [Dict.erase] at ih
          split <;> simp only [total_cons] <;> omega
      have h3 := h2 l
      have e : Dict.erase ((a, b) :: l) a = Dict.erase l a := by simp [Dict.erase]
      rw [e]; simp; omega
    · have h1 : Dict.get? l r = some q := by simpa [Dict.get?, hab] using h
      have := ih h1
      have e : Dict.erase ((a, b) :: l) r = (a, b) :: Dict.erase l r := by simp [Dict.erase, hab]
      rw [e]; simp; omega

/-- Executing an action does not increase the weight. -/
theorem W.exec (o : W) {s s' : S} {a : Act} {more : List Act} (he : exec s a = .go more s') :
    o.rest s' + total o.w more ≤ o.rest s + o.w a := by
  have z := o.zero
  unfold W.rest
  cases a <;> simp only [Verif.Server.exec] at he
  · cases he
    rw [total_flat _ _ _ (fun e => by simp [sendProg, Body.answers, o.disc, o.pop])]; omega
  · cases he
    rw [total_flat _ _ _ (fun e => by simp [sendProg, Body.answers, o.err, o.pop])]; omega
  · next b => cases he; have := o.write b; simp; omega
  · cases he; simp
  · cases hc : s.debSet <;> rw [hc] at he <;> cases he <;> simp [z]
  · cases he; simp
  · cases hc : s.recv.alive <;> rw [hc] at he <;> cases he; simp
  · cases he; simp
  · cases hc : s.launchQ <;> rw [hc] at he <;> cases he <;> simp [z]
  · cases hc : s.launchQ <;> rw [hc] at he <;> cases he; simp [z]
  · cases he; simp
  · cases hc : s.flag <;> rw [hc] at he <;> cases he <;> simp [z, o.term]
  · cases he; simp
  · next m => cases hc : s.cut <;> rw [hc] at he <;> cases he; have := o.send m; simp; omega
  · next m =>
    cases hc : s.cancelled <;> rw [hc] at he <;> cases he
    have := o.sendQ m
    cases s.recv == .none <;> simp; omega
  · cases he; simp
  · cases he; simp
  · cases he; simp
  · next q => cases he; have := o.runIn q (s.outs.length + 1); simp; omega
  · next r q => cases he; have := set_total o.u s.runIn r q; have := o.reg q r; simp; omega
  · next q =>
    cases hc : s.cancelled <;> rw [hc] at he <;> cases he
    have := o.acc q
    simp [sendProg, Body.answers]
    omega
  · cases he; simp

theorem exec_recv_prog (f : Act → Nat) {s s' : S} {a : Act} {more : List Act} (he : exec s a = .go more s') :
    total f s'.recv.prog ≤ total f s.recv.prog := by
  cases a <;> simp only [exec] at he <;>
    first
    | (cases he; exact Nat.le_refl _)
    | (cases he; simp [Recv.prog]; done)
    | (cases hcc : s.cancelled <;> rw [hcc] at he <;> cases he <;> first | exact Nat.le_refl _ | (simp [Recv.prog]; done))
    | (cases hcc : s.cut <;> rw [hcc] at he <;> cases he <;> first | exact Nat.le_refl _ | (simp [Recv.prog]; done))
    | (cases hcc : s.launchQ <;> rw [hcc] at he <;> cases he <;> exact Nat.le_refl _)
    | (cases hcc : s.recv.alive <;> rw [hcc] at he <;> cases he; exact Nat.le_refl _)

/-- The program for a request. -/
def reqProg (debSet : Bool) (q : Nat) (k : ReqKind) (b : Nat) : List Act :=
  bif debSet then
    match k with
    | .disconnect => [.sendQuiet (.req k q b), .cancel, .join]
    | _ => [.send (.req k q b)]
  else
    match k with
    | .initialize => sendProg (.initResp q)
    | .attach => .mkDeb :: .connect :: (sendProg (.attachResp q) ++ [.send .config])
    | .launch => [.mkDeb, .mkLaunch, .writeRunIn q]
    | _ => []

theorem handle_prog {s s2 : S} {q : Nat} {c c' : Bool} {k : ReqKind} {b : Nat} {p : List Act}
    (h : handle s q c (.req k b) = some (s2, c', p)) :
    p = reqProg s.debSet q k b ∧ s2.runIn = s.runIn := by
  simp only [handle] at h
  cases hd : s.debSet <;> rw [hd] at h <;> cases k <;> cases h <;> exact ⟨rfl, rfl⟩

/-- What a step adds. -/
def gain (o : W) (s : S) : Lbl → Nat
  | .client (.req k b) => total o.w (reqProg s.debSet s.nextIn k b)
  | _ => 0

/-- No step increases the weight, except the receipt of a request. -/
theorem W.step (o : W) {s s' : S} {l : Lbl} (hs : step s l = some s') :
    o.sum s' ≤ o.sum s + gain o s l := by
  have hst := step_iff s l s' hs
  have thr : ∀ ex, o.sum (thrown s ex) ≤ o.sum s := by
    intro ex
    unfold W.sum
    cases ex <;> simp [thrown, Main.prog, o.stop] <;> omega
  cases hst with
  | @handled s2 c c' m p hm hh =>
    obtain ⟨e1, e2, e3, e4, e5, e6, _⟩ := handle_rec hh
    cases m with
    | bad => cases hh
    | req k b =>
      obtain ⟨h1, h2⟩ := handle_prog hh
      simp only [W.sum, e4, e5, e6, h2, h1, Main.prog, hm, gain]; simp; omega
    | runInResp r =>
      simp only [handle] at hh
      cases hg : Dict.get? s.runIn r with
      | none => rw [hg] at hh; cases hh
      | some q =>
        rw [hg] at hh
        cases hh
        have := erase_total o.u s.runIn r q hg
        have := o.acc' q
        simp only [W.sum, Main.prog, hm]; simp; omega
  | @unhandled c m hm hh =>
    refine Nat.le_trans ?_ (Nat.le_add_right _ _)
    cases m <;> exact thr false
  | badInput h0 => exact thr false
  | eof _ => exact Nat.le_refl _
  | leave h0 => simp only [W.sum, Main.prog, h0, o.stop]; omega
  | @mainGo s1 ex b a p more hm he =>
    have h1 := o.exec he
    have h2 := exec_recv_prog o.w he
    simp only [W.sum, W.rest, hm, mkMain_prog, total_append, total_cons] at h1 ⊢; omega
  | @mainThrow ex b a p hm he => exact thr ex
  | @mainAlt b a p more hm he =>
    cases a <;> simp only [altProg] at he <;> try (cases he; done)
    · cases hcc : s.cancelled <;> rw [hcc] at he <;> cases he
      simp only [W.sum, hm, Main.prog]; simp; omega
    · cases he
      simp only [W.sum, hm, Main.prog, total_append, o.stop]; simp; omega
  | @mainRaise ex b a p hm he => exact thr ex
  | finish h0 => simp [W.sum, Main.prog, h0]
  | @deb m h0 _ =>
    simp only [W.sum, h0, Recv.prog]
    cases m <;> simp [sendProg, Body.answers, o.relay, o.pop]
  | close h0 => simp [W.sum, h0, Recv.prog, o.stop]
  | @recvGo s1 cl a p more hm he =>
    have h1 := o.exec he
    have h2 := exec_main he
    simp only [W.sum, W.rest, hm, mkRecv_prog, total_append, total_cons, h2] at h1 ⊢; omega
  | recvDie h0 _ => simp only [W.sum, Recv.prog, h0]; simp; omega
  | recvEnd h0 => simp only [W.sum, Recv.prog, h0]; simp

/-- If the weight belongs to one request then it is never more than one. -/
theorem W.one (o : W) (q0 : Nat)
    (h : ∀ deb q k b, total o.w (reqProg deb q k b) ≤ if q = q0 then 1 else 0) {s : S} (hr : Reach s) :
    o.sum s ≤ if q0 < s.nextIn then 1 else 0 := by
  induction hr with
  | init => exact Nat.zero_le _
  | @step s s' l h0 hs ih =>
    have h1 := o.step hs
    have key : (∃ k b, l = .client (.req k b)) ∧ s'.nextIn = s.nextIn + 1 ∨
        ((∀ k b, l ≠ .client (.req k b)) ∧ s.nextIn ≤ s'.nextIn) := by
      have hst := step_iff s l s' hs
      cases hst with
      | @handled s2 c c' m p hm hh =>
        obtain ⟨e1, e2, e3, e4, e5, e6, _⟩ := handle_rec hh
        cases m with
        | req k b => left; exact ⟨⟨k, b, rfl⟩, e3⟩
        | runInResp r => right; exact ⟨by simp, by simp only [e3]; omega⟩
        | bad => cases hh
      | @unhandled c m hm hh =>
        cases m with
        | req k b => left; exact ⟨⟨k, b, rfl⟩, rfl⟩
        | runInResp r => right; exact ⟨by simp, Nat.le_succ _⟩
        | bad => right; exact ⟨by simp, Nat.le_succ _⟩
      | @mainGo s1 ex b a p more hm he => right; exact ⟨by simp, by simp only [(exec_sub he).2.2]; omega⟩
      | @recvGo s1 cl a p more hm he => right; exact ⟨by simp, by simp only [(exec_sub he).2.2]; omega⟩
      | _ => right; exact ⟨by simp, by simp [thrown]⟩
    rcases key with ⟨⟨k, b, rfl⟩, e⟩ | ⟨hn, e⟩
    · simp only [gain] at h1
      have := h s.debSet s.nextIn k b
      rw [e]
      split at ih <;> split at this <;> split <;> omega
    · have e2 : gain o s l = 0 := by
        unfold gain
        split
        · next k b => exact absurd rfl (hn k b)
        · rfl
      rw [e2] at h1
      split at ih <;> split <;> omega

/-- The ways to deal with request `q0`: answered by the adapter as an initialize, attach or launch
request, or forwarded. -/
def wDeal (q0 : Nat) : W where
  w a := match a with
    | .write (.initResp q) | .write (.attachResp q) | .write (.launchResp q) => if q = q0 then 1 else 0
    | .writeRunIn q | .register _ q | .accept q => if q = q0 then 1 else 0
    | .send (.req _ q _) | .sendQuiet (.req _ q _) => if q = q0 then 1 else 0
    | _ => 0
  v b := match b with
    | .initResp q | .attachResp q | .launchResp q => if q = q0 then 1 else 0
    | _ => 0
  x m := match m with | .req _ q _ => if q = q0 then 1 else 0 | _ => 0
  u q := if q = q0 then 1 else 0
  write b := by cases b <;> simp
  runIn q r := by simp
  reg q r := by simp
  acc q := by simp
  acc' q := by simp
  send m := by cases m <;> simp
  sendQ m := by cases m <;> simp
  disc q := rfl
  err q := rfl
  relay m := rfl
  term := rfl
  pop q := rfl
  zero a h := by
    simp only [List.mem_cons, List.not_mem_nil, or_false] at h
    rcases h with rfl | rfl | rfl | rfl | rfl | rfl | rfl | rfl | rfl | rfl | rfl <;> rfl

/-- The terminal requests for launch request `q0`. -/
def wRunIn (q0 : Nat) : W where
  w a := match a with
    | .write (.runIn q) | .writeRunIn q => if q = q0 then 1 else 0
    | .send (.req _ q _) | .sendQuiet (.req _ q _) => if q = q0 then 1 else 0
    | _ => 0
  v b := match b with
    | .runIn q => if q = q0 then 1 else 0
    | _ => 0
  x m := match m with | .req _ q _ => if q = q0 then 1 else 0 | _ => 0
  u q := 0
  write b := by cases b <;> simp
  runIn q r := by simp
  reg q r := by simp
  acc q := by simp
  acc' q := by simp
  send m := by cases m <;> simp
  sendQ m := by cases m <;> simp
  disc q := rfl
  err q := rfl
  relay m := rfl
  term := rfl
  pop q := rfl
  zero a h := by
    simp only [List.mem_cons, List.not_mem_nil, or_false] at h
    rcases h with rfl | rfl | rfl | rfl | rfl | rfl | rfl | rfl | rfl | rfl | rfl <;> rfl

theorem deal_one {s : S} (h : Reach s) (q0 : Nat) : (wDeal q0).sum s ≤ if q0 < s.nextIn then 1 else 0 := by
  refine (wDeal q0).one q0 ?_ h
  intro deb q k b
  cases deb <;> cases k <;> simp [reqProg, wDeal, sendProg, Body.answers]

theorem runIn_one {s : S} (h : Reach s) (q0 : Nat) : (wRunIn q0).sum s ≤ if q0 < s.nextIn then 1 else 0 := by
  refine (wRunIn q0).one q0 ?_ h
  intro deb q k b
  cases deb <;> cases k <;> simp [reqProg, wRunIn, sendProg, Body.answers]

end Verif.Server
