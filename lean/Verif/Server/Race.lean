/-!
# Two threads in `send_to_client`

Models `DAServer.send_to_client` (/repo/src/ansibug/_debug_adapter.py:352-369) together with the
methods of `DebugAdapterConnection` it calls (/repo/src/ansibug/dap/_adapter.py:25-41, 76-87), at
the level of single reads and writes of the shared state. The main thread (message handlers, `stop`)
and the receive thread of the debuggee (`DAProtocol.on_msg_received`, _debug_adapter.py:231-235) call it without a
lock.

A frame is its sequence number and its payload. The output buffer is a mutable object: `+=` extends
the object, `data_to_send` replaces it by a new one. Simplifications: lengths are counted in frames
(frames are added as a whole), `self.__seq_no_out += 1` and the extension of a bytearray are single
steps, and writing to standard output is one.
-/

namespace Verif.Server.Race

structure Frame where
  seq : Nat
  payload : Nat
deriving DecidableEq, Repr

/-- The local variables of a thread in `send_to_client`. -/
structure Loc where
  no : Nat := 0
  buf : Nat := 0
  n : Nat := 0
  data : List Frame := []
  fresh : Nat := 0
deriving DecidableEq, Repr

/-- The shared state and the locals of the threads. -/
structure R where
  seqOut : Nat
  heap : List (List Frame)
  cur : Nat
  out : List Frame
  loc : Nat → Loc

/-- The steps of one call of `send_to_client(msg)`. -/
inductive Micro where
  | readSeq                -- _adapter.py:26 no = self.__seq_no_out
  | incSeq                 -- _adapter.py:27 self.__seq_no_out += 1
  | load                   -- _adapter.py:85 self._out_buffer (the operand of +=)
  | extend (payload : Nat) -- _adapter.py:85 bytearray.__iadd__
  | store                  -- _adapter.py:85 self._out_buffer = the same object
  | len                    -- _adapter.py:34-36 n = len(self._out_buffer)
  | take                   -- _adapter.py:38 data = bytes(self._out_buffer[:n])
  | drop                   -- _adapter.py:39 self._out_buffer[n:]
  | assign                 -- _adapter.py:39 self._out_buffer = ...
  | write                  -- _debug_adapter.py:363-364 stdout.write(data); flush()
deriving DecidableEq, Repr

/-- `DebugAdapterConnection()` (_adapter.py:12-16): the first number is 1, the buffer is empty. -/
def init : R := ⟨1, [[]], 0, [], fun _ => {}⟩

/-- The object with the given identity. -/
def R.at (r : R) (i : Nat) : List Frame := r.heap.getD i []

def R.setLoc (r : R) (t : Nat) (l : Loc) : R := { r with loc := fun u => if u = t then l else r.loc u }

/-- One step of thread `t`. -/
def micro (r : R) (t : Nat) : Micro → R
  | .readSeq => r.setLoc t { r.loc t with no := r.seqOut }
  | .incSeq => { r with seqOut := r.seqOut + 1 }
  | .load => r.setLoc t { r.loc t with buf := r.cur }
  | .extend p => { r with heap := r.heap.set (r.loc t).buf (r.at (r.loc t).buf ++ [⟨(r.loc t).no, p⟩]) }
  | .store => { r with cur := (r.loc t).buf }
  | .len => r.setLoc t { r.loc t with n := (r.at r.cur).length }
  | .take => r.setLoc t { r.loc t with data := (r.at r.cur).take (r.loc t).n }
  | .drop => { r.setLoc t { r.loc t with fresh := r.heap.length } with heap := r.heap ++ [(r.at r.cur).drop (r.loc t).n] }
  | .assign => { r with cur := (r.loc t).fresh }
  | .write => { r with out := r.out ++ (r.loc t).data }

/-- `queue_msg(msg)` (_adapter.py:76-87). -/
def queueSteps (p : Nat) : List Micro := [.readSeq, .incSeq, .load, .extend p, .store]

/-- `data_to_send()` (_adapter.py:30-41). -/
def takeSteps : List Micro := [.len, .take, .drop, .assign]

/-- `send_to_client(msg)`. -/
def sendSteps (p : Nat) : List Micro := queueSteps p ++ takeSteps ++ [.write]

/-- A schedule: which thread makes which step. -/
def exec (r : R) (sched : List (Nat × Micro)) : R := sched.foldl (fun r e => micro r e.1 e.2) r

/-- The steps of thread `t` in a schedule. -/
def proj (t : Nat) (sched : List (Nat × Micro)) : List Micro := (sched.filter fun e => e.1 == t).map (·.2)

/-- The whole call at once, by thread `t`. -/
def call (t : Nat) (steps : List Micro) : List (Nat × Micro) := steps.map fun m => (t, m)

/-! ## Calls that do not overlap -/

/-- The numbered frames of the messages sent. -/
def frames (ps : List Nat) : List Frame := ps.zipIdx.map fun e => ⟨e.2 + 1, e.1⟩

theorem frames_snoc (ps : List Nat) (p : Nat) : frames (ps ++ [p]) = frames ps ++ [⟨ps.length + 1, p⟩] := by
  simp [frames, List.zipIdx_append]

theorem exec_append (r : R) (a b : List (Nat × Micro)) : exec r (a ++ b) = exec (exec r a) b := by
  simp [exec, List.foldl_append]

/-- The effect of `queue_msg` alone. -/
theorem queue_eff (r : R) (t p : Nat) (hc : r.cur < r.heap.length) :
    (exec r (call t (queueSteps p))).seqOut = r.seqOut + 1 ∧
    (exec r (call t (queueSteps p))).out = r.out ∧
    (exec r (call t (queueSteps p))).cur < (exec r (call t (queueSteps p))).heap.length ∧
    (exec r (call t (queueSteps p))).at (exec r (call t (queueSteps p))).cur = r.at r.cur ++ [⟨r.seqOut, p⟩] ∧
    ∀ u, ((exec r (call t (queueSteps p))).loc u).data = (r.loc u).data := by
  refine ⟨rfl, rfl, ?_, ?_, ?_⟩
  · simp [exec, call, queueSteps, micro, R.setLoc, hc]
  · simp [exec, call, queueSteps, micro, R.setLoc, R.at, hc]
  · intro u
    simp only [exec, call, queueSteps, micro, R.setLoc, List.map_cons, List.map_nil, List.foldl_cons, List.foldl_nil]
    by_cases h : u = t <;> simp [h]

/-- The effect of `data_to_send` alone. -/
theorem take_eff (r : R) (t : Nat) :
    (exec r (call t takeSteps)).seqOut = r.seqOut ∧
    (exec r (call t takeSteps)).out = r.out ∧
    (exec r (call t takeSteps)).cur < (exec r (call t takeSteps)).heap.length ∧
    (exec r (call t takeSteps)).at (exec r (call t takeSteps)).cur = [] ∧
    ((exec r (call t takeSteps)).loc t).data = r.at r.cur ∧
    ∀ u, u ≠ t → ((exec r (call t takeSteps)).loc u).data = (r.loc u).data := by
  refine ⟨rfl, rfl, ?_, ?_, ?_, ?_⟩
  · simp [exec, call, takeSteps, micro, R.setLoc]
  · simp [exec, call, takeSteps, micro, R.setLoc, R.at]
  · simp [exec, call, takeSteps, micro, R.setLoc, R.at]
  · intro u h
    simp [exec, call, takeSteps, micro, R.setLoc, h]

/-- The effect of a whole call. -/
theorem send_eff (r : R) (t p : Nat) (hc : r.cur < r.heap.length) (hb : r.at r.cur = []) :
    let r' := exec r (call t (sendSteps p))
    r'.seqOut = r.seqOut + 1 ∧ r'.out = r.out ++ [⟨r.seqOut, p⟩] ∧ r'.cur < r'.heap.length ∧ r'.at r'.cur = [] := by
  have e : call t (sendSteps p) = call t (queueSteps p) ++ (call t takeSteps ++ call t [.write]) := by
    simp [call, sendSteps]
  obtain ⟨q1, q2, q3, q4, q5⟩ := queue_eff r t p hc
  simp only [e, exec_append]
  generalize exec r (call t (queueSteps p)) = r1 at *
  obtain ⟨t1, t2, t3, t4, t5, t6⟩ := take_eff r1 t
  generalize exec r1 (call t takeSteps) = r2 at *
  have e1 : (exec r2 (call t [.write])) = { r2 with out := r2.out ++ (r2.loc t).data } := rfl
  rw [e1]
  refine ⟨by simp only [t1, q1], ?_, t3, t4⟩
  simp only [t2, q2, t5, q4, hb, List.nil_append]

/-- Calls one after the other. -/
theorem serial (calls : List (Nat × Nat)) :
    (exec init (calls.flatMap fun c => call c.1 (sendSteps c.2))).out = frames (calls.map (·.2)) := by
  suffices h : ∀ (calls : List (Nat × Nat)) (r : R) (ps : List Nat), r.cur < r.heap.length → r.at r.cur = [] →
      r.seqOut = ps.length + 1 → r.out = frames ps →
      (exec r (calls.flatMap fun c => call c.1 (sendSteps c.2))).out = frames (ps ++ calls.map (·.2)) by
    have := h calls init [] (by decide) rfl rfl rfl
    simpa using this
  intro calls
  induction calls with
  | nil => intro r ps _ _ _ h4; simpa [exec] using h4
  | cons c calls ih =>
    intro r ps h1 h2 h3 h4
    obtain ⟨s1, s2, s3, s4⟩ := send_eff r c.1 c.2 h1 h2
    rw [List.flatMap_cons, exec_append]
    have := ih _ (ps ++ [c.2]) s3 s4 (by simp [s1, h3]) (by rw [s2, h4, h3, frames_snoc])
    rw [this]
    simp

/-! ## Calls of the methods that do not overlap -/

/-- The state reached when `queue_msg`, `data_to_send` and the write each happen at once, in any
order the threads allow: `q` are the threads between the first and the second, `w` those between
the second and the third, `ps` the messages queued so far. -/
inductive Atomic : List Nat → List Nat → List Nat → R → Prop
  | init : Atomic [] [] [] init
  | queue {q w ps : List Nat} {r : R} (t p : Nat) : Atomic q w ps r → t ∉ q → t ∉ w →
      Atomic (t :: q) w (ps ++ [p]) (exec r (call t (queueSteps p)))
  | take {q w ps : List Nat} {r : R} (t : Nat) : Atomic q w ps r → t ∈ q →
      Atomic (q.erase t) (t :: w) ps (exec r (call t takeSteps))
  | write {q w ps : List Nat} {r : R} (t : Nat) : Atomic q w ps r → t ∈ w →
      Atomic q (w.erase t) ps (exec r (call t [.write]))

structure AI (q w ps : List Nat) (r : R) : Prop where
  cur : r.cur < r.heap.length
  seq : r.seqOut = ps.length + 1
  nodup : w.Nodup
  qnodup : q.Nodup
  disj : ∀ t ∈ q, t ∉ w
  buf : q = [] → r.at r.cur = []
  perm : (r.out ++ (w.flatMap fun t => (r.loc t).data) ++ r.at r.cur).Perm (frames ps)

theorem flat_congr {w : List Nat} {f g : Nat → List Frame} (h : ∀ t ∈ w, f t = g t) : w.flatMap f = w.flatMap g := by
  induction w with
  | nil => rfl
  | cons t w ih =>
    rw [List.flatMap_cons, List.flatMap_cons, h t List.mem_cons_self, ih fun u hu => h u (List.mem_cons_of_mem _ hu)]

theorem flat_erase {w : List Nat} {f : Nat → List Frame} {t : Nat} (h : t ∈ w) :
    (f t ++ (w.erase t).flatMap f).Perm (w.flatMap f) := by
  induction w with
  | nil => cases h
  | cons u w ih =>
    by_cases hu : u = t
    · subst hu; simp
    · have h' : t ∈ w := by
        rcases List.mem_cons.1 h with h | h
        · exact absurd h.symm hu
        · exact h
      rw [List.erase_cons_tail (by simpa using hu), List.flatMap_cons, List.flatMap_cons]
      refine List.Perm.trans ?_ ((ih h').append_left (f u))
      rw [← List.append_assoc, ← List.append_assoc]
      exact List.perm_append_comm.append_right _

theorem atomic_inv {q w ps : List Nat} {r : R} (h : Atomic q w ps r) : AI q w ps r := by
  induction h with
  | init => exact ⟨by decide, rfl, .nil, .nil, (by simp), fun _ => rfl, (List.Perm.refl _)⟩
  | @queue q w ps r t p _ h1 h2 ih =>
    obtain ⟨e1, e2, e3, e4, e5⟩ := queue_eff r t p ih.cur
    refine ⟨e3, by rw [e1, ih.seq]; simp, ih.nodup, List.nodup_cons.2 ⟨h1, ih.qnodup⟩, ?_, by simp, ?_⟩
    · intro u hu
      rcases List.mem_cons.1 hu with rfl | hu
      · exact h2
      · exact ih.disj u hu
    · rw [e2, e4, flat_congr (fun u _ => e5 u), frames_snoc, ← List.append_assoc, ih.seq]
      exact ih.perm.append_right _
  | @take q w ps r t _ h1 ih =>
    obtain ⟨e1, e2, e3, e4, e5, e6⟩ := take_eff r t
    have h2 := ih.disj t h1
    refine ⟨e3, by rw [e1, ih.seq], List.nodup_cons.2 ⟨h2, ih.nodup⟩, ih.qnodup.erase _, ?_, fun _ => e4, ?_⟩
    · intro u hu
      have hut : u ≠ t := by
        rintro rfl
        exact (List.Nodup.not_mem_erase ih.qnodup) hu
      intro hw
      rcases List.mem_cons.1 hw with h | h
      · exact hut h
      · exact ih.disj u (List.mem_of_mem_erase hu) h
    · rw [e2, e4, List.append_nil, List.flatMap_cons, e5,
        flat_congr (f := fun u => ((exec r (call t takeSteps)).loc u).data) (g := fun u => (r.loc u).data)
          (fun u hu => e6 u (by rintro rfl; exact h2 hu))]
      refine List.Perm.trans ?_ ih.perm
      rw [List.append_assoc]
      exact List.perm_append_comm.append_left _
  | @write q w ps r t _ h1 ih =>
    refine ⟨ih.cur, ih.seq, ih.nodup.erase _, ih.qnodup, fun u hu hw => ih.disj u hu (List.mem_of_mem_erase hw), ih.buf, ?_⟩
    refine List.Perm.trans ?_ ih.perm
    refine List.Perm.append_right _ ?_
    show (r.out ++ (r.loc t).data ++ _).Perm _
    rw [List.append_assoc]
    exact (flat_erase (f := fun u => (r.loc u).data) h1).append_left _


/-! ## Any interleaving -/

/-- Everything in memory comes from a call. -/
structure NI (done : List (Nat × Micro)) (r : R) : Prop where
  seq : r.seqOut = 1 + (done.filter fun e => e.2 == .incSeq).length
  no : ∀ t, .readSeq ∈ proj t done → 1 ≤ (r.loc t).no ∧ (r.loc t).no ≤ r.seqOut
  heap : ∀ b ∈ r.heap, ∀ f ∈ b, (∃ t, (t, Micro.extend f.payload) ∈ done) ∧ 1 ≤ f.seq ∧ f.seq ≤ r.seqOut
  data : ∀ t, ∀ f ∈ (r.loc t).data, (∃ t, (t, Micro.extend f.payload) ∈ done) ∧ 1 ≤ f.seq ∧ f.seq ≤ r.seqOut
  out : ∀ f ∈ r.out, (∃ t, (t, Micro.extend f.payload) ∈ done) ∧ 1 ≤ f.seq ∧ f.seq ≤ r.seqOut

theorem at_mem {r : R} {i : Nat} {f : Frame} (h : f ∈ r.at i) : ∃ b ∈ r.heap, f ∈ b := by
  unfold R.at at h
  rw [List.getD_eq_getElem?_getD] at h
  cases hg : r.heap[i]? with
  | none => rw [hg] at h; cases h
  | some b => rw [hg] at h; exact ⟨b, List.mem_of_getElem? hg, h⟩

theorem proj_snoc (t : Nat) (done : List (Nat × Micro)) (e : Nat × Micro) :
    proj t (done ++ [e]) = proj t done ++ (bif e.1 == t then [e.2] else []) := by
  unfold proj
  rw [List.filter_append, List.map_append]
  cases h : e.1 == t <;> simp [h]

theorem ni_step {done : List (Nat × Micro)} {r : R} (h : NI done r) (t : Nat) (m : Micro)
    (hr : ∀ p, m = .extend p → .readSeq ∈ proj t done) : NI (done ++ [(t, m)]) (micro r t m) := by
  have mono : ∀ {f : Frame} {k : Nat}, r.seqOut ≤ k → ((∃ t, (t, Micro.extend f.payload) ∈ done) ∧ 1 ≤ f.seq ∧ f.seq ≤ r.seqOut) →
      (∃ u, (u, Micro.extend f.payload) ∈ done ++ [(t, m)]) ∧ 1 ≤ f.seq ∧ f.seq ≤ k := by
    rintro f k hk ⟨⟨u, h1⟩, h2, h3⟩
    exact ⟨⟨u, List.mem_append_left _ h1⟩, h2, Nat.le_trans h3 hk⟩
  have hproj : ∀ u, m ≠ .readSeq → .readSeq ∈ proj u (done ++ [(t, m)]) → .readSeq ∈ proj u done := by
    intro u hm hu
    rw [proj_snoc] at hu
    rcases List.mem_append.1 hu with hu | hu
    · exact hu
    · cases hc : t == u <;> simp [hc] at hu
      exact absurd hu.symm hm
  have hseq : m ≠ .incSeq → (done ++ [(t, m)]).filter (fun e => e.2 == .incSeq) = done.filter fun e => e.2 == .incSeq := by
    intro hm
    rw [List.filter_append]
    have : (m == Micro.incSeq) = false := by simpa using hm
    simp [this]
  have hloc : ∀ (l : Loc) (u : Nat), (r.setLoc t l).loc u = if u = t then l else r.loc u := fun _ _ => rfl
  cases m with
  | readSeq =>
    refine ⟨by rw [hseq (by simp)]; exact h.seq, ?_, fun b hb f hf => mono (Nat.le_refl _) (h.heap b hb f hf), ?_,
      fun f hf => mono (Nat.le_refl _) (h.out f hf)⟩
    · intro u hu
      simp only [micro, hloc]
      by_cases hut : u = t
      · rw [if_pos hut]
        exact ⟨by show 1 ≤ r.seqOut; rw [h.seq]; omega, Nat.le_refl _⟩
      · rw [if_neg hut]
        refine h.no u ?_
        rw [proj_snoc] at hu
        have : (t == u) = false := by simpa using fun h => hut h.symm
        simpa [this] using hu
    · intro u f hf
      simp only [micro, hloc] at hf
      by_cases hut : u = t
      · rw [if_pos hut] at hf; exact mono (Nat.le_refl _) (h.data t f hf)
      · rw [if_neg hut] at hf; exact mono (Nat.le_refl _) (h.data u f hf)
  | incSeq =>
    refine ⟨?_, ?_, fun b hb f hf => mono (Nat.le_succ _) (h.heap b hb f hf), fun u f hf => mono (Nat.le_succ _) (h.data u f hf),
      fun f hf => mono (Nat.le_succ _) (h.out f hf)⟩
    · rw [List.filter_append]
      simp [micro, h.seq]; omega
    · intro u hu
      have := h.no u (hproj u (by simp) hu)
      exact ⟨this.1, Nat.le_succ_of_le this.2⟩
  | extend p =>
    have hno := h.no t (hr p rfl)
    refine ⟨by rw [hseq (by simp)]; exact h.seq, fun u hu => h.no u (hproj u (by simp) hu), ?_,
      fun u f hf => mono (Nat.le_refl _) (h.data u f hf), fun f hf => mono (Nat.le_refl _) (h.out f hf)⟩
    intro b hb f hf
    rcases List.mem_or_eq_of_mem_set hb with hb | hb
    · exact mono (Nat.le_refl _) (h.heap b hb f hf)
    · rw [hb] at hf
      rcases List.mem_append.1 hf with hf | hf
      · obtain ⟨b', h1, h2⟩ := at_mem hf
        exact mono (Nat.le_refl _) (h.heap b' h1 f h2)
      · rw [List.mem_singleton] at hf
        subst hf
        exact ⟨⟨t, List.mem_append_right _ List.mem_cons_self⟩, hno⟩
  | load =>
    refine ⟨by rw [hseq (by simp)]; exact h.seq, fun u hu => ?_, fun b hb f hf => mono (Nat.le_refl _) (h.heap b hb f hf), fun u f hf => ?_,
      fun f hf => mono (Nat.le_refl _) (h.out f hf)⟩
    · have := h.no u (hproj u (by simp) hu)
      simp only [micro, hloc]
      by_cases hut : u = t
      · rw [if_pos hut]; exact hut ▸ this
      · rw [if_neg hut]; exact this
    · simp only [micro, hloc] at hf
      by_cases hut : u = t
      · rw [if_pos hut] at hf; exact mono (Nat.le_refl _) (h.data t f hf)
      · rw [if_neg hut] at hf; exact mono (Nat.le_refl _) (h.data u f hf)
  | store =>
    exact ⟨by rw [hseq (by simp)]; exact h.seq, fun u hu => h.no u (hproj u (by simp) hu), fun b hb f hf => mono (Nat.le_refl _) (h.heap b hb f hf),
      fun u f hf => mono (Nat.le_refl _) (h.data u f hf), fun f hf => mono (Nat.le_refl _) (h.out f hf)⟩
  | len =>
    refine ⟨by rw [hseq (by simp)]; exact h.seq, fun u hu => ?_, fun b hb f hf => mono (Nat.le_refl _) (h.heap b hb f hf), fun u f hf => ?_,
      fun f hf => mono (Nat.le_refl _) (h.out f hf)⟩
    · have := h.no u (hproj u (by simp) hu)
      simp only [micro, hloc]
      by_cases hut : u = t
      · rw [if_pos hut]; exact hut ▸ this
      · rw [if_neg hut]; exact this
    · simp only [micro, hloc] at hf
      by_cases hut : u = t
      · rw [if_pos hut] at hf; exact mono (Nat.le_refl _) (h.data t f hf)
      · rw [if_neg hut] at hf; exact mono (Nat.le_refl _) (h.data u f hf)
  | take =>
    refine ⟨by rw [hseq (by simp)]; exact h.seq, fun u hu => ?_, fun b hb f hf => mono (Nat.le_refl _) (h.heap b hb f hf), fun u f hf => ?_,
      fun f hf => mono (Nat.le_refl _) (h.out f hf)⟩
    · have := h.no u (hproj u (by simp) hu)
      simp only [micro, hloc]
      by_cases hut : u = t
      · rw [if_pos hut]; exact hut ▸ this
      · rw [if_neg hut]; exact this
    · simp only [micro, hloc] at hf
      by_cases hut : u = t
      · rw [if_pos hut] at hf
        obtain ⟨b', h1, h2⟩ := at_mem (List.mem_of_mem_take hf)
        exact mono (Nat.le_refl _) (h.heap b' h1 f h2)
      · rw [if_neg hut] at hf; exact mono (Nat.le_refl _) (h.data u f hf)
  | drop =>
    refine ⟨by rw [hseq (by simp)]; exact h.seq, fun u hu => ?_, fun b hb f hf => ?_, fun u f hf => ?_,
      fun f hf => mono (Nat.le_refl _) (h.out f hf)⟩
    · have := h.no u (hproj u (by simp) hu)
      simp only [micro, hloc]
      by_cases hut : u = t
      · rw [if_pos hut]; exact hut ▸ this
      · rw [if_neg hut]; exact this
    · simp only [micro] at hb
      rcases List.mem_append.1 hb with hb | hb
      · exact mono (Nat.le_refl _) (h.heap b hb f hf)
      · rw [List.mem_singleton] at hb
        subst hb
        obtain ⟨b', h1, h2⟩ := at_mem (List.mem_of_mem_drop hf)
        exact mono (Nat.le_refl _) (h.heap b' h1 f h2)
    · simp only [micro, hloc] at hf
      by_cases hut : u = t
      · rw [if_pos hut] at hf; exact mono (Nat.le_refl _) (h.data t f hf)
      · rw [if_neg hut] at hf; exact mono (Nat.le_refl _) (h.data u f hf)
  | assign =>
    exact ⟨by rw [hseq (by simp)]; exact h.seq, fun u hu => h.no u (hproj u (by simp) hu), fun b hb f hf => mono (Nat.le_refl _) (h.heap b hb f hf),
      fun u f hf => mono (Nat.le_refl _) (h.data u f hf), fun f hf => mono (Nat.le_refl _) (h.out f hf)⟩
  | write =>
    refine ⟨by rw [hseq (by simp)]; exact h.seq, fun u hu => h.no u (hproj u (by simp) hu), fun b hb f hf => mono (Nat.le_refl _) (h.heap b hb f hf),
      fun u f hf => mono (Nat.le_refl _) (h.data u f hf), fun f hf => ?_⟩
    rcases List.mem_append.1 hf with hf | hf
    · exact mono (Nat.le_refl _) (h.out f hf)
    · exact mono (Nat.le_refl _) (h.data t f hf)

/-- In program order a thread has read the number before it extends the buffer. -/
theorem read_before {a b : List Micro} {p : Nat} {ps : List Nat} (h : a ++ .extend p :: b <+: ps.flatMap sendSteps) : .readSeq ∈ a := by
  obtain ⟨c, hc⟩ := h
  cases ps with
  | nil => simp at hc
  | cons q ps =>
    rw [List.flatMap_cons] at hc
    cases a with
    | nil => simp [sendSteps, queueSteps] at hc
    | cons m a =>
      simp only [sendSteps, queueSteps, List.cons_append, List.cons.injEq] at hc
      rw [hc.1]
      exact List.mem_cons_self

theorem ni_all (ps : Nat → List Nat) (sched : List (Nat × Micro)) : ∀ (done : List (Nat × Micro)) (r : R), NI done r →
    (∀ t, proj t (done ++ sched) <+: (ps t).flatMap sendSteps) → NI (done ++ sched) (exec r sched) := by
  induction sched with
  | nil => intro done r h _; simpa [exec] using h
  | cons e sched ih =>
    intro done r h hp
    obtain ⟨t, m⟩ := e
    have := ih (done ++ [(t, m)]) (micro r t m) (ni_step h t m (by
      rintro p rfl
      have := hp t
      have e1 : proj t (done ++ (t, Micro.extend p) :: sched) = proj t done ++ .extend p :: proj t sched := by
        simp [proj]
      rw [e1] at this
      exact read_before this)) (by simpa using hp)
    simpa [exec] using this

theorem ni_init : NI [] init :=
  ⟨rfl, fun _ h => by simp [proj] at h, fun b hb f hf => (by simp [init] at hb; subst hb; cases hf), fun _ _ h => (by cases h), fun _ h => (by cases h)⟩

/-- The payload of a step of `send_to_client` calls is that of one of the messages. -/
theorem extend_mem {t p : Nat} {ps : List Nat} {sched : List (Nat × Micro)} (h : proj t sched <+: ps.flatMap sendSteps)
    (hm : (t, Micro.extend p) ∈ sched) : p ∈ ps := by
  have h1 : Micro.extend p ∈ proj t sched := List.mem_map.2 ⟨_, List.mem_filter.2 ⟨hm, by simp⟩, rfl⟩
  have h2 := h.subset h1
  obtain ⟨q, hq, h3⟩ := List.mem_flatMap.1 h2
  simp [sendSteps, queueSteps, takeSteps] at h3
  exact h3 ▸ hq

end Verif.Server.Race
