import Verif.Strat.State
import Verif.Py.Dict
/-!
# The invariant of the debug state
-/

namespace Verif.Strat
open Verif

/-- The tables fit together. -/
structure Core (T : Dict Nat Thread) (F : Dict Nat Frame) (V : Dict Nat Var) (nt nf nv : Nat) : Prop where
  tnd : (T.map (·.1)).Nodup
  tid : ∀ {k th}, T.get? k = some th → th.id = k ∧ k < nt
  thost : ∀ {k th k' th'}, T.get? k = some th → T.get? k' = some th' → th.host = th'.host → th.host ≠ none → k = k'
  tmain : ∃ th, T.get? 1 = some th ∧ th.host = none ∧ th.frames = []
  t2 : 2 ≤ nt
  fid : ∀ {f fr}, F.get? f = some fr → f < nf
  tf : ∀ {k th f}, T.get? k = some th → f ∈ th.frames → ∃ fr, F.get? f = some fr
  tfnd : ∀ {k th}, T.get? k = some th → th.frames.Nodup
  tfd : ∀ {k th k' th' f}, T.get? k = some th → T.get? k' = some th' → f ∈ th.frames → f ∈ th'.frames → k = k'
  vlt : ∀ {v x}, V.get? v = some x → 0 < v ∧ v < nv
  fv : ∀ {f fr}, F.get? f = some fr → fr.variables.Nodup ∧ ∀ v ∈ fr.variables, ∃ x, V.get? v = some x ∧ x.frame = f
  vf : ∀ {v x}, V.get? v = some x → ∃ fr, F.get? x.frame = some fr ∧ v ∈ fr.variables
  fids : ∀ {f fr}, F.get? f = some fr → ∀ i, (i = fr.resultId ∨ i = fr.optionsId ∨ i = fr.taskvarId ∨ i = fr.hostvarsId) →
    i = 0 ∨ i ∈ fr.variables
  nv1 : 1 ≤ nv

/-- `Core` of a state. -/
def DS.core (s : DS) : Prop := Core s.threads s.frames s.vars s.nextT s.nextF s.nextV

/-- Where the playbook waits there is something to wait for. -/
def PcOk (s : DS) : Prop :=
  match s.pc with
  | .waitStart t => ∃ th, s.threads.get? t = some th
  | .waitEnd t _ => ∃ th, s.threads.get? t = some th ∧ th.frames ≠ []
  | _ => True

/-- The invariant. -/
structure Inv (s : DS) : Prop where
  core : s.core
  pc : PcOk s

theorem core_init : Core [(1, ({ id := 1 } : Thread))] [] [] 2 1 1 where
  tnd := by simp
  tid := by intro k th h; simp only [Dict.get?] at h; split at h <;> simp_all
            subst_vars; simp
  thost := by intro k th k' th' h h' he hne; simp only [Dict.get?] at h; split at h <;> simp_all
              subst_vars; simp at he; exact absurd he.symm hne
  tmain := ⟨{ id := 1 }, rfl, rfl, rfl⟩
  t2 := by omega
  fid := by intro f fr h; cases h
  tf := by intro k th f h hf; simp only [Dict.get?] at h; split at h <;> simp_all
           subst_vars; simp at hf
  tfnd := by intro k th h; simp only [Dict.get?] at h; split at h <;> simp_all
             subst_vars; simp
  tfd := by intro k th k' th' f h h' hf; simp only [Dict.get?] at h; split at h <;> simp_all
            subst_vars; simp at hf
  vlt := by intro v x h; cases h
  fv := by intro f fr h; cases h
  vf := by intro v x h; cases h
  fids := by intro f fr h; cases h
  nv1 := by omega

/-- A new play keeps the counters. -/
theorem core_play {nt nf nv : Nat} (ht : 2 ≤ nt) (hv : 1 ≤ nv) : Core [(1, ({ id := 1 } : Thread))] [] [] nt nf nv :=
  { core_init with
    tid := by intro k th h; have := core_init.tid h; omega
    t2 := ht
    fid := by intro f fr h; cases h
    vlt := by intro v x h; cases h
    nv1 := hv }

theorem inv_init : Inv {} := ⟨core_init, trivial⟩

section
variable {T : Dict Nat Thread} {F : Dict Nat Frame} {V : Dict Nat Var} {nt nf nv : Nat}

/-- A change of a thread that keeps its id and host, and takes its frames from those it had or from
ones no thread has. -/
theorem Core.setThread (c : Core T F V nt nf nv) {k : Nat} {th th' : Thread} (h : T.get? k = some th)
    (hid : th'.id = th.id) (hh : th'.host = th.host) (hn : th'.frames.Nodup)
    (hf : ∀ f ∈ th'.frames, (f ∈ th.frames ∨ (∃ fr, F.get? f = some fr) ∧ ∀ k'' th'', T.get? k'' = some th'' → f ∉ th''.frames))
    (hm : k = 1 → th'.frames = []) :
    Core (T.set k th') F V nt nf nv := by
  have key : ∀ {j tj}, (T.set k th').get? j = some tj → (j = k ∧ tj = th') ∨ (j ≠ k ∧ T.get? j = some tj) := by
    intro j tj hj
    rw [DL.get_set] at hj
    split at hj
    · left; subst_vars; simp_all
    · right; rename_i hne; exact ⟨Ne.symm hne, hj⟩
  refine { c with tnd := DL.nodup_set _ _ _ c.tnd, tid := ?_, thost := ?_, tmain := ?_, tf := ?_, tfnd := ?_, tfd := ?_ }
  · intro j tj hj
    rcases key hj with ⟨rfl, rfl⟩ | ⟨-, hj⟩
    · rw [hid]; exact c.tid h
    · exact c.tid hj
  · intro j tj j' tj' hj hj' he hne
    rcases key hj with ⟨e1, e2⟩ | ⟨hn1, hk⟩ <;> rcases key hj' with ⟨e3, e4⟩ | ⟨hn2, hk'⟩ <;> (try subst e1; subst e2) <;> (try subst e3; subst e4)
    · rfl
    · exact c.thost h hk' (hh ▸ he) (hh ▸ hne)
    · exact c.thost hk h (by rw [he, hh]) hne
    · exact c.thost hk hk' he hne
  · obtain ⟨m, h1, h2, h3⟩ := c.tmain
    by_cases hk : k = 1
    · subst hk
      rw [h] at h1; cases h1
      exact ⟨th', by rw [DL.get_set]; simp, hh ▸ h2, hm rfl⟩
    · exact ⟨m, by rw [DL.get_set]; simp [hk, h1], h2, h3⟩
  · intro j tj f hj hfm
    rcases key hj with ⟨rfl, rfl⟩ | ⟨-, hj⟩
    · rcases hf f hfm with h' | ⟨h', -⟩
      · exact c.tf h h'
      · exact h'
    · exact c.tf hj hfm
  · intro j tj hj
    rcases key hj with ⟨rfl, rfl⟩ | ⟨-, hj⟩
    · exact hn
    · exact c.tfnd hj
  · intro j tj j' tj' f hj hj' hf1 hf2
    rcases key hj with ⟨e1, e2⟩ | ⟨hn1, hk⟩ <;> rcases key hj' with ⟨e3, e4⟩ | ⟨hn2, hk'⟩ <;> (try subst e1; subst e2) <;> (try subst e3; subst e4)
    · rfl
    · rcases hf f hf1 with h' | ⟨-, h'⟩
      · exact c.tfd h hk' h' hf2
      · exact absurd hf2 (h' _ _ hk')
    · rcases hf f hf2 with h' | ⟨-, h'⟩
      · exact c.tfd hk h hf1 h'
      · exact absurd hf1 (h' _ _ hk)
    · exact c.tfd hk hk' hf1 hf2

/-- A change of the state of a thread only. -/
theorem Core.setCtl (c : Core T F V nt nf nv) {k : Nat} {th th' : Thread} (h : T.get? k = some th)
    (hid : th'.id = th.id) (hh : th'.host = th.host) (hf : th'.frames = th.frames) : Core (T.set k th') F V nt nf nv :=
  c.setThread h hid hh (hf ▸ c.tfnd h) (fun f hm => .inl (hf ▸ hm)) (by
    rintro rfl
    obtain ⟨m, h1, h2, h3⟩ := c.tmain
    rw [h] at h1; cases h1; rw [hf, h3])

/-- A thread for a new host. -/
theorem Core.addThread (c : Core T F V nt nf nv) {host : Nat} (h : ∀ {k th}, T.get? k = some th → th.host ≠ some host) :
    Core (T.set nt { id := nt, host := some host }) F V (nt + 1) nf nv := by
  have key : ∀ {j tj}, (T.set nt ({ id := nt, host := some host } : Thread)).get? j = some tj →
      (j = nt ∧ tj = { id := nt, host := some host }) ∨ T.get? j = some tj := by
    intro j tj hj
    rw [DL.get_set] at hj
    split at hj
    · left; subst_vars; simp_all
    · right; exact hj
  refine { c with tnd := DL.nodup_set _ _ _ c.tnd, tid := ?_, thost := ?_, tmain := ?_, t2 := by have := c.t2; omega, tf := ?_, tfnd := ?_, tfd := ?_ }
  · intro j tj hj
    rcases key hj with ⟨rfl, rfl⟩ | hj
    · exact ⟨rfl, by omega⟩
    · have := c.tid hj; exact ⟨this.1, by omega⟩
  · intro j tj j' tj' hj hj' he hne
    rcases key hj with ⟨e1, e2⟩ | hk <;> rcases key hj' with ⟨e3, e4⟩ | hk' <;> (try subst e1; subst e2) <;> (try subst e3; subst e4)
    · rfl
    · exact absurd he.symm (h hk')
    · exact absurd he (h hk)
    · exact c.thost hk hk' he hne
  · obtain ⟨m, h1, h2, h3⟩ := c.tmain
    refine ⟨m, ?_, h2, h3⟩
    rw [DL.get_set, if_neg (by have := c.t2; omega), h1]
  · intro j tj f hj hfm
    rcases key hj with ⟨rfl, rfl⟩ | hj
    · cases hfm
    · exact c.tf hj hfm
  · intro j tj hj
    rcases key hj with ⟨rfl, rfl⟩ | hj
    · simp
    · exact c.tfnd hj
  · intro j tj j' tj' f hj hj' hf1 hf2
    rcases key hj with ⟨e1, e2⟩ | hk <;> rcases key hj' with ⟨e3, e4⟩ | hk' <;> (try subst e1; subst e2) <;> (try subst e3; subst e4)
    · rfl
    · cases hf1
    · cases hf2
    · exact c.tfd hk hk' hf1 hf2

theorem delVars_spec (vs : List Nat) : ∀ (d : Dict Nat Var), vs.Nodup → (∀ v ∈ vs, ∃ x, d.get? v = some x) →
    ∃ d', delVars vs d = some d' ∧ ∀ v, d'.get? v = if v ∈ vs then none else d.get? v := by
  induction vs with
  | nil => intro d _ _; exact ⟨d, rfl, by simp⟩
  | cons v vs ih =>
    intro d hn h
    obtain ⟨x, hx⟩ := h v (by simp)
    simp only [List.nodup_cons] at hn
    obtain ⟨d', h1, h2⟩ := ih (d.erase v) hn.2 (by
      intro w hw
      obtain ⟨y, hy⟩ := h w (by simp [hw])
      refine ⟨y, ?_⟩
      rw [DL.get_erase, if_neg (by rintro rfl; exact hn.1 hw), hy])
    refine ⟨d', by simp [delVars, hx, h1], ?_⟩
    intro w
    rw [h2, DL.get_erase]
    by_cases hw : w = v
    · simp [hw]
    · simp [hw]

/-- Frames can be dropped, with their variables, if no thread has them. -/
theorem Core.dropFrame (c : Core T F V nt nf nv) {f : Nat} {fr : Frame} (h : F.get? f = some fr)
    (ho : ∀ {k th}, T.get? k = some th → f ∉ th.frames) {V' : Dict Nat Var}
    (hV : ∀ v, V'.get? v = if v ∈ fr.variables then none else V.get? v) :
    Core T (F.erase f) V' nt nf nv := by
  have fkey : ∀ {g gr}, (F.erase f).get? g = some gr → g ≠ f ∧ F.get? g = some gr := by
    intro g gr hg
    rw [DL.get_erase] at hg
    split at hg
    · cases hg
    · exact ⟨by assumption, hg⟩
  have vkey : ∀ {v x}, V'.get? v = some x → v ∉ fr.variables ∧ V.get? v = some x := by
    intro v x hx
    rw [hV] at hx
    split at hx
    · cases hx
    · exact ⟨by assumption, hx⟩
  refine { c with fid := ?_, tf := ?_, vlt := ?_, fv := ?_, vf := ?_, fids := ?_ }
  · intro g gr hg; exact c.fid (fkey hg).2
  · intro k th g hk hg
    obtain ⟨gr, h'⟩ := c.tf hk hg
    refine ⟨gr, ?_⟩
    rw [DL.get_erase, if_neg (by rintro rfl; exact ho hk hg), h']
  · intro v x hx; exact c.vlt (vkey hx).2
  · intro g gr hg
    obtain ⟨hn, hg⟩ := fkey hg
    refine ⟨(c.fv hg).1, fun v hv => ?_⟩
    obtain ⟨x, hx, hxf⟩ := (c.fv hg).2 v hv
    refine ⟨x, ?_, hxf⟩
    rw [hV, if_neg ?_, hx]
    intro hm
    obtain ⟨y, hy, hyf⟩ := (c.fv h).2 v hm
    rw [hx] at hy; cases hy
    exact hn (hxf.symm.trans hyf)
  · intro v x hx
    obtain ⟨hn, hx⟩ := vkey hx
    obtain ⟨gr, hg, hm⟩ := c.vf hx
    refine ⟨gr, ?_, hm⟩
    rw [DL.get_erase, if_neg ?_, hg]
    intro e
    rw [e, h] at hg; cases hg
    exact hn hm
  · intro g gr hg; exact c.fids (fkey hg).2

/-- A new frame that no thread has yet. -/
theorem Core.addFrame (c : Core T F V nt nf nv) (t : Task) (a b : Addr) :
    Core T (F.set nf { task := t, taskVars := a, args := b }) V nt (nf + 1) nv := by
  have fkey : ∀ {g gr}, (F.set nf ({ task := t, taskVars := a, args := b } : Frame)).get? g = some gr →
      (g = nf ∧ gr = { task := t, taskVars := a, args := b }) ∨ F.get? g = some gr := by
    intro g gr hg
    rw [DL.get_set] at hg
    split at hg
    · left; subst_vars; simp_all
    · right; exact hg
  have up : ∀ {g gr}, F.get? g = some gr → (F.set nf ({ task := t, taskVars := a, args := b } : Frame)).get? g = some gr := by
    intro g gr hg
    have := c.fid hg
    rw [DL.get_set, if_neg (by omega), hg]
  refine { c with fid := ?_, tf := ?_, fv := ?_, vf := ?_, fids := ?_ }
  · intro g gr hg
    rcases fkey hg with ⟨rfl, -⟩ | hg
    · omega
    · have := c.fid hg; omega
  · intro k th g hk hg
    obtain ⟨gr, h'⟩ := c.tf hk hg
    exact ⟨gr, up h'⟩
  · intro g gr hg
    rcases fkey hg with ⟨rfl, rfl⟩ | hg
    · exact ⟨by simp, by simp⟩
    · exact c.fv hg
  · intro v x hx
    obtain ⟨gr, hg, hm⟩ := c.vf hx
    exact ⟨gr, up hg, hm⟩
  · intro g gr hg
    rcases fkey hg with ⟨rfl, rfl⟩ | hg
    · intro i hi; left; simpa using hi
    · exact c.fids hg

/-- A new variable. -/
theorem Core.addVar (c : Core T F V nt nf nv) {f : Nat} {fr : Frame} (h : F.get? f = some fr) (k : Kind) (a : Addr) :
    Core T (F.set f { fr with variables := fr.variables ++ [nv] }) (V.set nv { frame := f, kind := k, addr := a }) nt nf (nv + 1) := by
  have fresh : ∀ {v x}, V.get? v = some x → nv ≠ v := by
    intro v x hx; have := (c.vlt hx).2; omega
  have vkey : ∀ {v x}, (V.set nv ({ frame := f, kind := k, addr := a } : Var)).get? v = some x →
      (v = nv ∧ x = { frame := f, kind := k, addr := a }) ∨ V.get? v = some x := by
    intro v x hx
    rw [DL.get_set] at hx
    split at hx
    · left; subst_vars; simp_all
    · right; exact hx
  have up : ∀ {v x}, V.get? v = some x → (V.set nv ({ frame := f, kind := k, addr := a } : Var)).get? v = some x := by
    intro v x hx
    rw [DL.get_set, if_neg (fresh hx), hx]
  have fkey : ∀ {g gr}, (F.set f { fr with variables := fr.variables ++ [nv] }).get? g = some gr →
      (g = f ∧ gr = { fr with variables := fr.variables ++ [nv] }) ∨ (g ≠ f ∧ F.get? g = some gr) := by
    intro g gr hg
    rw [DL.get_set] at hg
    split at hg
    · left; subst_vars; simp_all
    · right; rename_i hne; exact ⟨Ne.symm hne, hg⟩
  refine { c with fid := ?_, tf := ?_, vlt := ?_, fv := ?_, vf := ?_, fids := ?_, nv1 := by omega }
  · intro g gr hg
    rcases fkey hg with ⟨rfl, -⟩ | ⟨-, hg⟩
    · exact c.fid h
    · exact c.fid hg
  · intro k th g hk hg
    obtain ⟨gr, h'⟩ := c.tf hk hg
    rw [DL.get_set]
    split
    · exact ⟨_, rfl⟩
    · exact ⟨gr, h'⟩
  · intro v x hx
    rcases vkey hx with ⟨rfl, -⟩ | hx
    · have := c.nv1; omega
    · have := c.vlt hx; omega
  · intro g gr hg
    rcases fkey hg with ⟨rfl, rfl⟩ | ⟨-, hg⟩
    · refine ⟨?_, ?_⟩
      · rw [List.nodup_append]
        refine ⟨(c.fv h).1, by simp, ?_⟩
        intro a ha b hb
        simp at hb; subst hb
        obtain ⟨x, hx, -⟩ := (c.fv h).2 a ha
        exact (fresh hx).symm
      · intro v hv
        rcases List.mem_append.1 hv with hv | hv
        · obtain ⟨x, hx, hxf⟩ := (c.fv h).2 v hv
          exact ⟨x, up hx, hxf⟩
        · simp at hv; subst hv
          exact ⟨_, by rw [DL.get_set]; simp; rfl, rfl⟩
    · refine ⟨(c.fv hg).1, fun v hv => ?_⟩
      obtain ⟨x, hx, hxf⟩ := (c.fv hg).2 v hv
      exact ⟨x, up hx, hxf⟩
  · intro v x hx
    rcases vkey hx with ⟨rfl, rfl⟩ | hx
    · exact ⟨_, by rw [DL.get_set]; simp; rfl, by simp⟩
    · obtain ⟨gr, hg, hm⟩ := c.vf hx
      rw [DL.get_set]
      split
      · rename_i e
        rw [← e, h] at hg; cases hg
        exact ⟨_, rfl, by simp [hm]⟩
      · exact ⟨gr, hg, hm⟩
  · intro g gr hg i hi
    rcases fkey hg with ⟨rfl, rfl⟩ | ⟨-, hg⟩
    · rcases c.fids h i hi with h' | h'
      · exact .inl h'
      · right; simp [h']
    · exact c.fids hg i hi

/-- The remembered ids of a frame may be set to ids of its variables. -/
theorem Core.updFrame (c : Core T F V nt nf nv) {f : Nat} {fr fr' : Frame} (h : F.get? f = some fr)
    (hv : fr'.variables = fr.variables)
    (hi : ∀ i, (i = fr'.resultId ∨ i = fr'.optionsId ∨ i = fr'.taskvarId ∨ i = fr'.hostvarsId) → i = 0 ∨ i ∈ fr.variables) :
    Core T (F.set f fr') V nt nf nv := by
  have fkey : ∀ {g gr}, (F.set f fr').get? g = some gr → (g = f ∧ gr = fr') ∨ (g ≠ f ∧ F.get? g = some gr) := by
    intro g gr hg
    rw [DL.get_set] at hg
    split at hg
    · left; subst_vars; simp_all
    · right; rename_i hne; exact ⟨Ne.symm hne, hg⟩
  refine { c with fid := ?_, tf := ?_, fv := ?_, vf := ?_, fids := ?_ }
  · intro g gr hg
    rcases fkey hg with ⟨rfl, -⟩ | ⟨-, hg⟩
    · exact c.fid h
    · exact c.fid hg
  · intro k th g hk hg
    obtain ⟨gr, h'⟩ := c.tf hk hg
    rw [DL.get_set]
    split
    · exact ⟨_, rfl⟩
    · exact ⟨gr, h'⟩
  · intro g gr hg
    rcases fkey hg with ⟨rfl, rfl⟩ | ⟨-, hg⟩
    · rw [hv]; exact c.fv h
    · exact c.fv hg
  · intro v x hx
    obtain ⟨gr, hg, hm⟩ := c.vf hx
    rw [DL.get_set]
    split
    · rename_i e
      rw [← e, h] at hg; cases hg
      exact ⟨_, rfl, by rw [hv]; exact hm⟩
    · exact ⟨gr, hg, hm⟩
  · intro g gr hg i hi'
    rcases fkey hg with ⟨rfl, rfl⟩ | ⟨-, hg⟩
    · rw [hv]; exact hi i hi'
    · exact c.fids hg i hi'

/-- The other threads exit. -/
theorem Core.exit (c : Core T F V nt nf nv) : Core (T.filter fun e => decide (e.1 = 1)) F V nt nf nv := by
  have key : ∀ {j tj}, Dict.get? (T.filter fun e => decide (e.1 = 1)) j = some tj → j = 1 ∧ T.get? j = some tj := by
    intro j tj hj
    rw [DL.get_filter T (fun x => decide (x = 1)) j] at hj
    split at hj
    · exact ⟨by simp_all, hj⟩
    · cases hj
  refine { c with tnd := DL.nodup_filter _ _ c.tnd, tid := ?_, thost := ?_, tmain := ?_, tf := ?_, tfnd := ?_, tfd := ?_ }
  · intro j tj hj; exact c.tid (key hj).2
  · intro j tj j' tj' hj hj' _ _; rw [(key hj).1, (key hj').1]
  · obtain ⟨m, h1, h2, h3⟩ := c.tmain
    exact ⟨m, by rw [DL.get_filter T (fun x => decide (x = 1)) 1]; simpa using h1, h2, h3⟩
  · intro j tj f hj; exact c.tf (key hj).2
  · intro j tj hj; exact c.tfnd (key hj).2
  · intro j tj j' tj' f hj hj' _ _; rw [(key hj).1, (key hj').1]

end
end Verif.Strat
