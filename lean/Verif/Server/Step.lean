import Verif.Server.Model

/-! # The steps of the server as a relation, and the control invariant -/

namespace Verif.Server

/-- The main thread in `start()` (`ex = false`, `b` = is_connected) or in `__exit__` (`ex = true`,
`b` = with an exception). -/
def mkMain (ex b : Bool) (p : List Act) : Main := bif ex then .exiting b p else .run b p

@[simp] theorem mkMain_false (b p) : mkMain false b p = .run b p := rfl
@[simp] theorem mkMain_true (b p) : mkMain true b p = .exiting b p := rfl

def Main.prog : Main → List Act
  | .run _ p | .exiting _ p => p
  | _ => []

def Recv.prog : Recv → List Act
  | .loop p | .closing p => p
  | _ => []

@[simp] theorem mkMain_prog (ex b p) : (mkMain ex b p).prog = p := by cases ex <;> rfl

theorem mkMain_inj {ex b p ex' b' p'} (h : mkMain ex b p = mkMain ex' b' p') : ex = ex' ∧ b = b' ∧ p = p' := by
  cases ex <;> cases ex' <;> simp at h <;> simp [h]

/-- The receive thread in its loop (`cl = false`) or in `connection_closed` (`cl = true`). -/
def mkRecv (cl : Bool) (p : List Act) : Recv := bif cl then .closing p else .loop p

@[simp] theorem mkRecv_prog (cl p) : (mkRecv cl p).prog = p := by cases cl <;> rfl
@[simp] theorem mkRecv_alive (cl p) : (mkRecv cl p).alive = true := by cases cl <;> rfl

/-- The main thread throws an exception. -/
def thrown (s : S) (ex : Bool) : S :=
  { s with main := bif ex then .dead else .exiting true (stopProg true false) }

/-- The steps as a relation. -/
inductive Step : S → Lbl → S → Prop
  | handled {s s2 : S} {c c' : Bool} {m : CMsg} {p : List Act} (h : s.main = .run c [])
      (hh : handle { s with nextIn := s.nextIn + 1 } s.nextIn c m = some (s2, c', p)) :
      Step s (.client m) { s2 with main := .run c' p }
  | unhandled {s : S} {c : Bool} {m : CMsg} (h : s.main = .run c [])
      (hh : handle { s with nextIn := s.nextIn + 1 } s.nextIn c m = none) :
      Step s (.client m) (thrown (received { s with nextIn := s.nextIn + 1 } s.nextIn m) false)
  | badInput {s : S} {c : Bool} (h : s.main = .run c []) : Step s .badInput (thrown s false)
  | eof {s : S} (h : s.main = .run true []) : Step s .eof s
  | leave {s : S} (h : s.main = .run false []) :
      Step s .leave { s with main := .exiting false (stopProg false false) }
  | mainGo {s s' : S} {ex b : Bool} {a : Act} {p more : List Act} (h : s.main = mkMain ex b (a :: p))
      (he : exec s a = .go more s') : Step s .main { s' with main := mkMain ex b (more ++ p) }
  | mainThrow {s : S} {ex b : Bool} {a : Act} {p : List Act} (h : s.main = mkMain ex b (a :: p))
      (he : exec s a = .raise) : Step s .main (thrown s ex)
  | mainAlt {s : S} {b : Bool} {a : Act} {p more : List Act} (h : s.main = .run b (a :: p))
      (he : altProg s a = some more) : Step s .mainAlt { s with main := .run b (more ++ p) }
  | mainRaise {s : S} {ex b : Bool} {a : Act} {p : List Act} (h : s.main = mkMain ex b (a :: p))
      (he : canRaise a = true) : Step s .mainRaise (thrown s ex)
  | finish {s : S} {b : Bool} (h : s.main = .exiting b []) : Step s .finish { s with main := .done b }
  | deb {s : S} {m : DMsg} (h : s.recv = .loop []) (hc : s.cancelled = false) :
      Step s (.deb m) { s with recv := .loop (sendProg (.relay m)), fromDeb := s.fromDeb ++ [m] }
  | close {s : S} {e : Bool} (h : s.recv = .loop []) : Step s (.close e) { s with recv := .closing (stopProg e true) }
  | recvGo {s s' : S} {cl : Bool} {a : Act} {p more : List Act} (h : s.recv = mkRecv cl (a :: p))
      (he : exec s a = .go more s') : Step s .recv { s' with recv := mkRecv cl (more ++ p) }
  | recvDie {s : S} {a : Act} {p : List Act} (h : s.recv = .closing (a :: p))
      (he : exec s a = .raise) : Step s .recv { s with recv := .ended }
  | recvEnd {s : S} (h : s.recv = .closing []) : Step s .recv { s with recv := .ended }

theorem step_iff (s : S) (l : Lbl) (s' : S) (h : step s l = some s') : Step s l s' := by
  cases l with
  | client m =>
    simp only [step] at h
    split at h
    · next c hm =>
      split at h
      · next s2 c' p hh => cases h; exact .handled hm hh
      · next hh =>
        have := Step.unhandled hm hh
        have e : mainThrow (received { s with nextIn := s.nextIn + 1 } s.nextIn m) =
            thrown (received { s with nextIn := s.nextIn + 1 } s.nextIn m) false := by
          have hm' : (received { s with nextIn := s.nextIn + 1 } s.nextIn m).main = .run c [] := by
            cases m <;> exact hm
          simp [mainThrow, hm', thrown]
        cases h
        rw [e]; exact this
    · cases h
  | badInput =>
    simp only [step] at h
    split at h
    · next c hm =>
      cases h
      have : mainThrow s = thrown s false := by simp [mainThrow, hm, thrown]
      rw [this]; exact .badInput hm
    · cases h
  | eof =>
    simp only [step] at h
    split at h
    · next hm => cases h; exact .eof hm
    · cases h
  | leave =>
    simp only [step] at h
    split at h
    · next hm => cases h; exact .leave hm
    · cases h
  | main =>
    simp only [step] at h
    split at h
    · next c a p hm =>
      split at h
      · next more s2 he => cases h; exact .mainGo (ex := false) hm he
      · next he =>
        cases h
        have : mainThrow s = thrown s false := by simp [mainThrow, hm, thrown]
        rw [this]; exact .mainThrow (ex := false) hm he
      · cases h
    · next e a p hm =>
      split at h
      · next more s2 he => cases h; exact .mainGo (ex := true) hm he
      · next he =>
        cases h
        have : mainThrow s = thrown s true := by simp [mainThrow, hm, thrown]
        rw [this]; exact .mainThrow (ex := true) hm he
      · cases h
    · cases h
  | mainAlt =>
    simp only [step] at h
    split at h
    · next c a p hm =>
      split at h
      · next more he => cases h; exact .mainAlt hm he
      · cases h
    · cases h
  | mainRaise =>
    simp only [step] at h
    split at h
    · next c a p hm =>
      cases hc : canRaise a with
      | false => rw [hc] at h; cases h
      | true =>
        rw [hc] at h; cases h
        have : mainThrow s = thrown s false := by simp [mainThrow, hm, thrown]
        rw [this]; exact .mainRaise (ex := false) hm hc
    · next c a p hm =>
      cases hc : canRaise a with
      | false => rw [hc] at h; cases h
      | true =>
        rw [hc] at h; cases h
        have : mainThrow s = thrown s true := by simp [mainThrow, hm, thrown]
        rw [this]; exact .mainRaise (ex := true) hm hc
    · cases h
  | finish =>
    simp only [step] at h
    split at h
    · next hm => cases h; exact .finish hm
    · cases h
  | deb m =>
    simp only [step] at h
    split at h
    · next hr =>
      cases hc : s.cancelled with
      | true => rw [hc] at h; cases h
      | false =>
        rw [hc] at h; cases h
        have := Step.deb (m := m) hr hc
        rw [hc] at this; exact this
    · cases h
  | close e =>
    simp only [step] at h
    split at h
    · next hr => cases h; exact .close hr
    · cases h
  | recv =>
    simp only [step] at h
    split at h
    · next a p hr =>
      split at h
      · next more s2 he => cases h; exact .recvGo (cl := false) hr he
      · cases h
    · next a p hr =>
      split at h
      · next more s2 he => cases h; exact .recvGo (cl := true) hr he
      · next he => cases h; exact .recvDie hr he
      · cases h
    · next hr => cases h; exact .recvEnd hr
    · cases h

/-- Reachable states. -/
inductive Reach : S → Prop
  | init : Reach init
  | step {s s' : S} {l : Lbl} : Reach s → step s l = some s' → Reach s'

theorem reach_run {s s' : S} {ls : List Lbl} (h : Reach s) (hr : run s ls = some s') : Reach s' := by
  induction ls generalizing s with
  | nil => cases hr; exact h
  | cons l ls ih =>
    simp only [run] at hr
    cases hs : Verif.Server.step s l with
    | none => rw [hs] at hr; cases hr
    | some s1 => rw [hs] at hr; exact ih (.step h hs) hr

end Verif.Server
