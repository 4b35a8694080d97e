import Verif.Race.Fresh
/-! # Why a request can fail: an invariant from its arrival to its answer -/

namespace Verif.Race

/-- Each variable is listed by its frame, or about to be. -/
def Own (s : S) : Prop := ∀ v f, s.vars v = some f → v ∈ s.fvars f ∨ (∃ t i, s.p = .addList t f v i) ∨ ∃ n got sc, s.r = .addList f v n got sc

theorem own_start : Own {} := by intro v f h; cases h

/-- How the dictionaries change in one step. -/
structure Delta (s s' : S) : Prop where
  thr : (s'.threads = s.threads ∧ s'.nextT = s.nextT) ∨ (s'.threads = s.threads ++ [s.nextT] ∧ s'.nextT = s.nextT + 1) ∨
    ∃ t, s'.threads = s.threads.filter (· ≠ t) ∧ s'.nextT = s.nextT
  frm : (s'.live = s.live ∧ s'.nextF = s.nextF) ∨ (s'.live = s.live ++ [s.nextF] ∧ s'.nextF = s.nextF + 1) ∨
    ∃ f, s'.live = s.live.filter (· ≠ f) ∧ s'.nextF = s.nextF
  fv : ∀ f v, v ∈ s.fvars f → v ∈ s'.fvars f
  var : ∀ v f, s.vars v = some f → s'.vars v = some f ∨ f ∉ s'.live

set_option maxHeartbeats 4000000 in
theorem delta_pstep {b : Bool} {s s' : S} {o : List Obs} (hd : Dat s) (ho : Own s) (h : pstep false s b = some (s', o)) : Delta s s' ∧ Own s' := by
  have pp := hd.pp
  have pr := hd.pr
  have dl := hd.dl
  have al := hd.al
  have pw := hd.pw
  have pv := hd.pv
  unfold Own at ho
  unfold pstep at h
  split at h
  case h_1 => cases h
  all_goals rename_i hp
  all_goals rw [hp] at ho pp pr dl pw pv
  all_goals (repeat' (split at h))
  all_goals first | (cases h; done) | skip
  all_goals simp only [Option.some.injEq, Prod.mk.injEq] at h
  all_goals obtain ⟨rfl, rfl⟩ := h
  all_goals refine ⟨⟨?_, ?_, ?_, ?_⟩, ?_⟩
  all_goals try (first | exact .inl ⟨rfl, rfl⟩ | exact .inr (.inl ⟨rfl, rfl⟩) | exact .inr (.inr ⟨_, rfl, rfl⟩))
  all_goals try (first | exact fun _ _ h => h | exact fun _ _ h => .inl h)
  all_goals try (intro v f h; have := ho v f h; simp [leave, raiseIn] at this ⊢; exact this)
  all_goals try (grind [upd, pPend, rPend, Own, leave, raiseIn])
  case h_28.refine_4 =>
    rename_i t g w i
    intro v f hv
    refine .inl ?_
    rw [← hv]
    refine upd_other _ _ _ _ ?_
    rintro rfl
    rcases ho _ _ hv with a | ⟨_, _, a⟩ | ⟨_, _, _, a⟩
    · exact (pp _ _ rfl).2.2 _ a
    · cases a
    · exact pr _ _ _ _ rfl (by rw [a]; rfl) rfl

set_option maxHeartbeats 4000000 in
theorem delta_rstep {s s' : S} {o : List Obs} (hd : Dat s) (ho : Own s) (h : rstep false s = some (s', o)) : Delta s s' ∧ Own s' := by
  have rp := hd.rp
  have pr := hd.pr
  have rw' := hd.rw
  have rv := hd.rv
  unfold Own at ho
  unfold rstep at h
  split at h
  case h_1 => cases h
  all_goals rename_i hr
  all_goals rw [hr] at ho rp pr rw' rv
  all_goals (repeat' (split at h))
  all_goals first | (cases h; done) | skip
  all_goals simp only [Option.some.injEq, Prod.mk.injEq] at h
  all_goals obtain ⟨rfl, rfl⟩ := h
  all_goals refine ⟨⟨?_, ?_, ?_, ?_⟩, ?_⟩
  all_goals try (first | exact .inl ⟨rfl, rfl⟩ | exact .inr (.inl ⟨rfl, rfl⟩) | exact .inr (.inr ⟨_, rfl, rfl⟩))
  all_goals try (first | exact fun _ _ h => h | exact fun _ _ h => .inl h)
  all_goals try (intro v f h; have := ho v f h; simp at this ⊢; exact this)
  all_goals try (grind [upd, pPend, rPend, Own, addNext_addList])
  case h_15.refine_4 =>
    rename_i g w n got sc
    intro v f hv
    refine .inl ?_
    rw [← hv]
    refine upd_other _ _ _ _ ?_
    rintro rfl
    rcases ho _ _ hv with a | ⟨_, _, a⟩ | ⟨_, _, _, a⟩
    · exact (rp _ _ rfl).2.2 _ a
    · exact pr _ _ _ _ (by rw [a]; rfl) rfl rfl
    · cases a

theorem delta_refl {s s' : S} (h1 : s'.toSh = s.toSh) : Delta s s' := by
  constructor
  · exact .inl ⟨congrArg Sh.threads h1, congrArg Sh.nextT h1⟩
  · exact .inl ⟨congrArg Sh.live h1, congrArg Sh.nextF h1⟩
  · intro f v h; rw [show s'.fvars = s.fvars from congrArg Sh.fvars h1]; exact h
  · intro v f h; rw [show s'.vars = s.vars from congrArg Sh.vars h1]; exact .inl h

theorem own_other {s s' : S} (ho : Own s) (h1 : s'.toSh = s.toSh) (h2 : ∀ t f v i, s.p ≠ .addList t f v i ∨ s'.p = s.p) (h3 : ∀ f v n got sc, s.r ≠ .addList f v n got sc ∨ s'.r = s.r) : Own s' := by
  intro v f h
  rw [show s'.vars = s.vars from congrArg Sh.vars h1] at h
  rw [show s'.fvars = s.fvars from congrArg Sh.fvars h1]
  rcases ho v f h with a | ⟨t, i, a⟩ | ⟨n, got, sc, a⟩
  · exact .inl a
  · exact .inr (.inl ⟨t, i, ((h2 t f v i).resolve_left (fun x => x a)).trans a⟩)
  · exact .inr (.inr ⟨n, got, sc, ((h3 f v n got sc).resolve_left (fun x => x a)).trans a⟩)

theorem delta_step {s s' : S} {o : List Obs} {l : Lbl} (hd : Dat s) (ho : Own s) (h : step false s l = some (s', o)) : Delta s s' ∧ Own s' := by
  cases l with
  | play b => exact delta_pstep hd ho h
  | go => exact delta_rstep hd ho h
  | req q =>
    simp only [step] at h
    split at h
    · rename_i hr
      simp only [Option.some.injEq, Prod.mk.injEq] at h
      obtain ⟨rfl, rfl⟩ := h
      exact ⟨delta_refl rfl, own_other ho rfl (fun _ _ _ _ => .inr rfl) (fun _ _ _ _ _ => .inl (by rw [hr]; simp))⟩
    · cases h
  | _ =>
    simp only [step] at h
    (repeat' (split at h))
    all_goals first | (cases h; done) | skip
    all_goals simp only [Option.some.injEq, Prod.mk.injEq] at h
    all_goals obtain ⟨rfl, rfl⟩ := h
    all_goals exact ⟨delta_refl rfl, own_other ho rfl (fun _ _ _ _ => .inl (by simp_all)) (fun _ _ _ _ _ => .inr rfl)⟩

theorem reach_own {s : S} (h : Reachable false s) : Own s := by
  obtain ⟨ls, O, h⟩ := h
  exact (run_keeps (I := fun s => Dat s ∧ Own s) (fun s s' o l hi hs => ⟨dat_step hi.1 hs, (delta_step hi.1 hi.2 hs).2⟩) ls {} s O ⟨dat_start, own_start⟩ h).2

/-- What holds from the arrival of a request (state `z`) on. -/
structure Since (z s : S) : Prop where
  t0 : z.nextT ≤ s.nextT
  f0 : z.nextF ≤ s.nextF
  tz : ∀ t ∈ z.threads, t < z.nextT
  fz : ∀ f ∈ z.live, f < z.nextF
  vz : ∀ v f, z.vars v = some f → f < z.nextF
  ts : ∀ t ∈ s.threads, (t ∈ z.threads ∨ z.nextT ≤ t) ∧ t < s.nextT
  fs : ∀ f ∈ s.live, (f ∈ z.live ∨ z.nextF ≤ f) ∧ f < s.nextF
  same : s.nextT = z.nextT → (∀ t ∈ z.threads, t ∈ s.threads) → s.threads = z.threads

theorem since_refl {s : S} (hc : Ctl s) (hd : Dat s) : Since s s :=
  ⟨Nat.le_refl _, Nat.le_refl _, hc.tlt, hd.flt, fun v f h => (hd.vf v f h).1, fun t h => ⟨.inl h, hc.tlt t h⟩, fun f h => ⟨.inl h, hd.flt f h⟩, fun _ _ => rfl⟩

/-- What has been removed is not added again. -/
theorem delta_thread {s s' : S} (h : Delta s s') {t : Nat} (h1 : t < s.nextT) (h2 : t ∉ s.threads) : t < s'.nextT ∧ t ∉ s'.threads := by
  rcases h.thr with ⟨a, b⟩ | ⟨a, b⟩ | ⟨x, a, b⟩ <;> rw [a, b]
  · exact ⟨h1, h2⟩
  · refine ⟨by omega, ?_⟩
    simp only [List.mem_append, List.mem_singleton, not_or]
    exact ⟨h2, by omega⟩
  · exact ⟨h1, fun hm => h2 (List.mem_filter.1 hm).1⟩

theorem delta_frame {s s' : S} (h : Delta s s') {f : Nat} (h1 : f < s.nextF) (h2 : f ∉ s.live) : f < s'.nextF ∧ f ∉ s'.live := by
  rcases h.frm with ⟨a, b⟩ | ⟨a, b⟩ | ⟨x, a, b⟩ <;> rw [a, b]
  · exact ⟨h1, h2⟩
  · refine ⟨by omega, ?_⟩
    simp only [List.mem_append, List.mem_singleton, not_or]
    exact ⟨h2, by omega⟩
  · exact ⟨h1, fun hm => h2 (List.mem_filter.1 hm).1⟩

theorem since_step {z s s' : S} (hi : Since z s) (h : Delta s s') : Since z s' := by
  have mT : s.nextT ≤ s'.nextT := by rcases h.thr with ⟨_, b⟩ | ⟨_, b⟩ | ⟨_, _, b⟩ <;> omega
  have mF : s.nextF ≤ s'.nextF := by rcases h.frm with ⟨_, b⟩ | ⟨_, b⟩ | ⟨_, _, b⟩ <;> omega
  have t0 := hi.t0
  have f0 := hi.f0
  refine ⟨by omega, by omega, hi.tz, hi.fz, hi.vz, ?_, ?_, ?_⟩
  · intro t ht
    rcases h.thr with ⟨a, b⟩ | ⟨a, b⟩ | ⟨x, a, b⟩ <;> rw [a] at ht <;> rw [b]
    · exact hi.ts t ht
    · simp only [List.mem_append, List.mem_singleton] at ht
      rcases ht with ht | rfl
      · have := hi.ts t ht
        exact ⟨this.1, by omega⟩
      · exact ⟨.inr t0, by omega⟩
    · exact hi.ts t (List.mem_filter.1 ht).1
  · intro f hf
    rcases h.frm with ⟨a, b⟩ | ⟨a, b⟩ | ⟨x, a, b⟩ <;> rw [a] at hf <;> rw [b]
    · exact hi.fs f hf
    · simp only [List.mem_append, List.mem_singleton] at hf
      rcases hf with hf | rfl
      · have := hi.fs f hf
        exact ⟨this.1, by omega⟩
      · exact ⟨.inr f0, by omega⟩
    · exact hi.fs f (List.mem_filter.1 hf).1
  · intro e hall
    rcases h.thr with ⟨a, b⟩ | ⟨a, b⟩ | ⟨x, a, b⟩
    · rw [a] at hall ⊢
      exact hi.same (by omega) hall
    · omega
    · have e2 := hi.same (by omega) (fun t ht => by have := hall t ht; rw [a] at this; exact (List.mem_filter.1 this).1)
      rw [a, e2] at hall ⊢
      refine List.filter_eq_self.2 ?_
      intro t ht
      exact (List.mem_filter.1 (hall t ht)).2

theorem exited_mono {z s s' : S} (h : Delta s s') (he : threadExited z s) : threadExited z s' := by
  obtain ⟨t, a, b, c⟩ := he
  obtain ⟨d, e⟩ := delta_thread h b c
  exact ⟨t, a, d, e⟩

theorem removed_mono {z s s' : S} (h : Delta s s') (he : frameRemoved z s) : frameRemoved z s' := by
  obtain ⟨t, a, b, c⟩ := he
  obtain ⟨d, e⟩ := delta_frame h b c
  exact ⟨t, a, d, e⟩

/-- A thread has come or gone. -/
def changed (z s : S) : Prop := z.nextT < s.nextT ∨ threadExited z s

theorem changed_mono {z s s' : S} (h : Delta s s') (he : changed z s) : changed z s' := by
  rcases he with he | he
  · refine .inl ?_
    rcases h.thr with ⟨_, b⟩ | ⟨_, b⟩ | ⟨_, _, b⟩ <;> omega
  · exact .inr (exited_mono h he)

theorem not_changed {z s : S} (hi : Since z s) (h : ¬ changed z s) : s.threads = z.threads := by
  have t0 := hi.t0
  have e : s.nextT = z.nextT := by
    by_cases e : z.nextT < s.nextT
    · exact absurd (.inl e) h
    · omega
  refine hi.same e ?_
  intro t ht
  by_cases hm : t ∈ s.threads
  · exact hm
  · exact absurd (.inr ⟨t, .inl ht, by have := hi.tz t ht; omega, hm⟩) h

theorem reason_mono {z s s' : S} {q : Req} (hi : Since z s) (h : Delta s s') (hr : reason z s q) : reason z s' q := by
  have t0 := hi.t0
  have f0 := hi.f0
  cases q with
  | one t st =>
    rcases hr with a | a
    · exact .inl a
    · by_cases hz : t ∈ z.threads
      · exact .inr (delta_thread h (by have := hi.tz t hz; omega) a).2
      · exact .inl hz
  | continueAll => exact changed_mono h hr
  | threads => exact changed_mono h hr
  | disconnect => exact exited_mono h hr
  | scopes f =>
    rcases hr with a | a
    · exact .inl a
    · by_cases hz : f ∈ z.live
      · exact .inr (delta_frame h (by have := hi.fz f hz; omega) a).2
      · exact .inl hz
  | variables v n =>
    rcases hr with a | ⟨f, a, b⟩
    · exact .inl a
    · exact .inr ⟨f, a, (delta_frame h (by have := hi.vz v f a; omega) b).2⟩
  | stackTrace t =>
    rcases hr with a | a | a
    · exact .inl a
    · by_cases hz : t ∈ z.threads
      · exact .inr (.inl (delta_thread h (by have := hi.tz t hz; omega) a).2)
      · exact .inl hz
    · exact .inr (.inr (removed_mono h a))
  | setBreakpoints k n => exact hr
  | setExceptions on => exact hr

/-- The threads a request will look up one after the other. -/
def ListOk (z s : S) (q : Req) (l : List Nat) : Prop :=
  (∃ t st, q = .one t st ∧ ∀ x ∈ l, x = t) ∨ (∃ b, q = .disconnect b) ∧ ∀ x ∈ l, (x ∈ z.threads ∨ z.nextT ≤ x) ∧ x < s.nextT

/-- What is known about the request while it is handled. -/
def Way (z : S) (q : Req) (s : S) : R → Prop
  | .idle => True
  | .clear _ => ∃ b, q = .disconnect b
  | .copy _ => ∃ b, q = .disconnect b
  | .lock (some l) _ => ListOk z s q l
  | .lock none _ => q = .continueAll
  | .each l _ => ListOk z s q l
  | .iter it _ => q = .continueAll ∧ (changed z s ∨ it.size = z.threads.length)
  | .setOne t it _ => q = .continueAll ∧ (changed z s ∨ (it.size = z.threads.length ∧ t ∈ z.threads))
  | .notify => True
  | .unlock (.ok _) => True
  | .unlock (.error e) => reason z s q ∧ e ∈ failsWith q
  | .frame f => q = .scopes f
  | .variable v n => q = .variables v n ∧ (z.vars v = none ∨ ∃ f, z.vars v = some f ∧ (s.vars v = some f ∨ f ∉ s.live))
  | .addRead f _ _ sc => sc = true → q = .scopes f
  | .addWrite f _ _ _ sc => sc = true → q = .scopes f
  | .addEntry f _ _ _ sc => sc = true → q = .scopes f
  | .addList f _ _ _ sc => sc = true → q = .scopes f
  | .result f _ => q = .scopes f
  | .resultVar v _ => ∃ f, q = .scopes f ∧ v ∈ s.fvars f
  | .thread t => q = .stackTrace t
  | .frames t _ _ => q = .stackTrace t
  | .frameOf t _ f _ => q = .stackTrace t ∧ (f ∈ z.live ∨ z.nextF ≤ f) ∧ f < s.nextF
  | .threads it _ => q = .threads ∧ (changed z s ∨ it.size = z.threads.length)
  | .bpClear _ _ => True
  | .bpAdd _ => True
  | .setExc _ => True
  | .answer (.ok _) => True
  | .answer (.error e) => reason z s q ∧ e ∈ failsWith q

theorem way_other {z s s' : S} {q : Req} (r : R) (hi : Since z s) (h : Delta s s') (hw : Way z q s r) : Way z q s' r := by
  have mT : s.nextT ≤ s'.nextT := by rcases h.thr with ⟨_, b⟩ | ⟨_, b⟩ | ⟨_, _, b⟩ <;> omega
  have mF : s.nextF ≤ s'.nextF := by rcases h.frm with ⟨_, b⟩ | ⟨_, b⟩ | ⟨_, _, b⟩ <;> omega
  have lo : ∀ l, ListOk z s q l → ListOk z s' q l := by
    intro l hl
    rcases hl with a | ⟨a, b⟩
    · exact .inl a
    · exact .inr ⟨a, fun x hx => ⟨(b x hx).1, by have := (b x hx).2; omega⟩⟩
  cases r with
  | lock ids st => cases ids with
    | some l => exact lo _ hw
    | none => exact hw
  | each l st => exact lo _ hw
  | iter it st => exact ⟨hw.1, hw.2.imp (changed_mono h) id⟩
  | setOne t it st => exact ⟨hw.1, hw.2.imp (changed_mono h) id⟩
  | unlock a => cases a with
    | ok ids => trivial
    | error e => exact ⟨reason_mono hi h hw.1, hw.2⟩
  | answer a => cases a with
    | ok ids => trivial
    | error e => exact ⟨reason_mono hi h hw.1, hw.2⟩
  | «variable» v n =>
    refine ⟨hw.1, hw.2.imp id ?_⟩
    rintro ⟨f, a, b⟩
    refine ⟨f, a, ?_⟩
    rcases b with b | b
    · exact h.var v f b
    · exact .inr (delta_frame h (by have := hi.vz v f a; have := hi.f0; omega) b).2
  | resultVar v got =>
    obtain ⟨f, a, b⟩ := hw
    exact ⟨f, a, h.fv f v b⟩
  | frameOf t i f got => exact ⟨hw.1, hw.2.1, by have := hw.2.2; omega⟩
  | threads it got => exact ⟨hw.1, hw.2.imp (changed_mono h) id⟩
  | _ => exact hw

theorem way_next {z s : S} {q : Req} {f n : Nat} {got : List Nat} {sc : Bool} (h : sc = true → q = .scopes f) : Way z q s (addNext f n got sc) := by
  cases n with
  | zero =>
    simp only [addNext, added]
    split
    · exact h ‹_›
    · trivial
  | succ n => exact h

/-- One step of the handling: the next place, and what is answered. -/
theorem way_go {z s s' : S} {o : List Obs} {q : Req} (hd : Dat s) (hi : Since z s) (hw : Way z q s s.r) (h : rstep false s = some (s', o)) :
    Way z q s s'.r ∧ ∀ e, Ans.error e ∈ answers o → reason z s q ∧ e ∈ failsWith q := by
  have t0 := hi.t0
  have none_ : ∀ e, Ans.error e ∈ answers [] → reason z s q ∧ e ∈ failsWith q := by intro e h; cases h
  cases hr : s.r with
  | idle => simp only [rstep, hr] at h; cases h
  | clear st => rw [hr] at hw; simp only [rstep, hr] at h; cases h; exact ⟨hw, none_⟩
  | copy st =>
    rw [hr] at hw
    simp only [rstep, hr] at h
    cases h
    exact ⟨.inr ⟨hw, fun x hx => hi.ts x hx⟩, none_⟩
  | lock ids st =>
    rw [hr] at hw
    simp only [rstep, hr] at h
    split at h
    · cases h
      refine ⟨?_, none_⟩
      cases ids with
      | some l => exact hw
      | none =>
        refine ⟨hw, ?_⟩
        by_cases hc : changed z s
        · exact .inl hc
        · exact .inr (by rw [not_changed hi hc])
    · cases h
  | each l st =>
    rw [hr] at hw
    cases l with
    | nil => simp only [rstep, hr] at h; cases h; exact ⟨True.intro, none_⟩
    | cons t ts =>
      simp only [rstep, hr] at h
      split at h
      · cases h
        refine ⟨?_, none_⟩
        rcases hw with ⟨x, st', a, b⟩ | ⟨a, b⟩
        · exact .inl ⟨x, st', a, fun y hy => b y (List.mem_cons_of_mem _ hy)⟩
        · exact .inr ⟨a, fun y hy => b y (List.mem_cons_of_mem _ hy)⟩
      · rename_i hn
        cases h
        refine ⟨?_, none_⟩
        rcases hw with ⟨x, st', rfl, b⟩ | ⟨⟨b', rfl⟩, b⟩
        · have := b t (by simp)
          subst this
          exact ⟨.inr hn, by simp [failsWith]⟩
        · have := b t (by simp)
          exact ⟨⟨t, this.1, this.2, hn⟩, by simp [failsWith]⟩
  | iter it st =>
    rw [hr] at hw
    obtain ⟨rfl, hw⟩ := hw
    simp only [rstep, hr] at h
    split at h
    · rename_i hn
      cases h
      refine ⟨⟨?_, by simp [failsWith]⟩, none_⟩
      rcases hw with hw | hw
      · exact hw
      · by_cases hc : changed z s
        · exact hc
        · exact absurd (by rw [not_changed hi hc]; exact hw.symm) hn
    · split at h
      · cases h; exact ⟨True.intro, none_⟩
      · rename_i t ht
        cases h
        refine ⟨⟨rfl, ?_⟩, none_⟩
        by_cases hc : changed z s
        · exact .inl hc
        · refine .inr ⟨hw.resolve_left hc, ?_⟩
          have := List.mem_of_getElem? ht
          rwa [not_changed hi hc] at this
  | setOne t it st =>
    rw [hr] at hw
    obtain ⟨rfl, hw⟩ := hw
    simp only [rstep, hr] at h
    split at h
    · cases h
      exact ⟨⟨rfl, hw.imp id (·.1)⟩, none_⟩
    · rename_i hn
      cases h
      refine ⟨⟨?_, by simp [failsWith]⟩, none_⟩
      rcases hw with hw | hw
      · exact hw
      · by_cases hc : changed z s
        · exact hc
        · exact absurd (by rw [not_changed hi hc]; exact hw.2) hn
  | notify => simp only [rstep, hr] at h; cases h; exact ⟨True.intro, none_⟩
  | unlock a => rw [hr] at hw; simp only [rstep, hr] at h; cases h; cases a <;> exact ⟨hw, none_⟩
  | frame f =>
    rw [hr] at hw
    obtain rfl : q = _ := hw
    simp only [rstep, hr] at h
    split at h
    · cases h; exact ⟨fun _ => rfl, none_⟩
    · rename_i hn
      cases h
      exact ⟨⟨.inr hn, by simp [failsWith]⟩, none_⟩
  | «variable» v n =>
    rw [hr] at hw
    obtain ⟨rfl, hw⟩ := hw
    simp only [rstep, hr] at h
    split at h
    · rename_i hn
      cases h
      refine ⟨⟨?_, by simp [failsWith]⟩, none_⟩
      rcases hw with hw | ⟨f, a, b | b⟩
      · exact .inl hw
      · rw [hn] at b; cases b
      · exact .inr ⟨f, a, b⟩
    · cases h
      exact ⟨way_next (fun h => by cases h), none_⟩
  | addRead f n got sc => rw [hr] at hw; simp only [rstep, hr] at h; cases h; exact ⟨hw, none_⟩
  | addWrite f v n got sc => exact absurd hr (hd.rw _ _ _ _ _)
  | addEntry f v n got sc => rw [hr] at hw; simp only [rstep, hr] at h; cases h; exact ⟨hw, none_⟩
  | addList f v n got sc => rw [hr] at hw; simp only [rstep, hr] at h; cases h; exact ⟨way_next hw, none_⟩
  | result f got =>
    rw [hr] at hw
    obtain rfl : q = _ := hw
    simp only [rstep, hr] at h
    cases h
    refine ⟨?_, none_⟩
    show Way z _ s (if s.result f = 0 then _ else _)
    split
    · exact True.intro
    · exact ⟨f, rfl, hd.rs f ‹_›⟩
  | resultVar v got =>
    rw [hr] at hw
    obtain ⟨f, rfl, hv⟩ := hw
    simp only [rstep, hr] at h
    split at h
    · rename_i hn
      cases h
      refine ⟨⟨.inr ?_, by simp [failsWith]⟩, none_⟩
      intro hf
      have := hd.al f hf v hv
      rw [hn] at this
      cases this
    · cases h; exact ⟨True.intro, none_⟩
  | thread t =>
    rw [hr] at hw
    obtain rfl : q = _ := hw
    simp only [rstep, hr] at h
    split at h
    · cases h; exact ⟨rfl, none_⟩
    · rename_i hn
      cases h
      exact ⟨⟨.inr (.inl hn), by simp [failsWith]⟩, none_⟩
  | frames t i got =>
    rw [hr] at hw
    simp only [rstep, hr] at h
    split at h
    · cases h; exact ⟨True.intro, none_⟩
    · rename_i f hf
      cases h
      exact ⟨⟨hw, hi.fs f (hd.sl t f (List.mem_of_getElem? hf))⟩, none_⟩
  | frameOf t i f got =>
    rw [hr] at hw
    obtain ⟨rfl, a, b⟩ := hw
    simp only [rstep, hr] at h
    split at h
    · cases h; exact ⟨rfl, none_⟩
    · rename_i hn
      cases h
      exact ⟨⟨.inr (.inr ⟨f, a, b, hn⟩), by simp [failsWith]⟩, none_⟩
  | threads it got =>
    rw [hr] at hw
    obtain ⟨rfl, hw⟩ := hw
    simp only [rstep, hr] at h
    split at h
    · rename_i hn
      cases h
      refine ⟨⟨?_, by simp [failsWith]⟩, none_⟩
      rcases hw with hw | hw
      · exact hw
      · by_cases hc : changed z s
        · exact hc
        · exact absurd (by rw [not_changed hi hc]; exact hw.symm) hn
    · split at h
      · cases h; exact ⟨True.intro, none_⟩
      · cases h; exact ⟨⟨rfl, hw⟩, none_⟩
  | bpClear k n => simp only [rstep, hr] at h; cases h; exact ⟨True.intro, none_⟩
  | bpAdd n => cases n <;> (simp only [rstep, hr] at h; cases h; exact ⟨True.intro, none_⟩)
  | setExc on => simp only [rstep, hr] at h; cases h; exact ⟨True.intro, none_⟩
  | answer a =>
    rw [hr] at hw
    simp only [rstep, hr] at h
    cases h
    refine ⟨True.intro, ?_⟩
    intro e he
    simp only [answers, List.mem_singleton] at he
    subst he
    exact hw

/-- From the arrival on. -/
structure Fate (z : S) (q : Req) (s : S) : Prop where
  ctl : Ctl s
  dat : Dat s
  own : Own s
  since : Since z s
  way : Way z q s s.r

theorem fate_start {s s' : S} {o : List Obs} {q : Req} (hc : Ctl s) (hd : Dat s) (ho : Own s) (h : step false s (.req q) = some (s', o)) : o = [] ∧ Fate s q s' := by
  have hd' := delta_step hd ho h
  have hs := since_step (since_refl hc hd) hd'.1
  have hc' := ctl_step hc h
  have hdd := dat_step hd h
  simp only [step] at h
  split at h
  · cases h
    refine ⟨rfl, hc', hdd, hd'.2, hs, ?_⟩
    cases q with
    | one t st => exact .inl ⟨t, st, rfl, by simp⟩
    | continueAll => exact (rfl : Req.continueAll = .continueAll)
    | disconnect b => exact ⟨b, rfl⟩
    | scopes f => exact (rfl : Req.scopes f = _)
    | variables v n =>
      refine ⟨rfl, ?_⟩
      cases hv : s.vars v with
      | none => exact .inl rfl
      | some f => exact .inr ⟨f, rfl, .inl rfl⟩
    | stackTrace t => exact (rfl : Req.stackTrace t = _)
    | threads => exact ⟨rfl, .inr rfl⟩
    | setBreakpoints k n => exact True.intro
    | setExceptions on => exact True.intro
  · cases h

theorem fate_step {z s s' : S} {o : List Obs} {q : Req} {l : Lbl} (hi : Fate z q s) (hq : quiet l = true) (h : step false s l = some (s', o)) :
    Fate z q s' ∧ ∀ e, Ans.error e ∈ answers o → reason z s' q ∧ e ∈ failsWith q := by
  have hd' := delta_step hi.dat hi.own h
  have hs := since_step hi.since hd'.1
  have hc' := ctl_step hi.ctl h
  have hdd := dat_step hi.dat h
  by_cases hg : l = .go
  · subst hg
    obtain ⟨a, b⟩ := way_go hi.dat hi.since hi.way h
    exact ⟨⟨hc', hdd, hd'.2, hs, way_other _ hi.since hd'.1 a⟩, fun e he => ⟨reason_mono hi.since hd'.1 (b e he).1, (b e he).2⟩⟩
  · obtain ⟨a, b⟩ := step_r hq hg h
    refine ⟨⟨hc', hdd, hd'.2, hs, ?_⟩, ?_⟩
    · rw [a]; exact way_other _ hi.since hd'.1 hi.way
    · rw [b]; intro e he; cases he

/-- What has been a reason stays one. -/
theorem fate_keeps {z : S} {q : Req} : ∀ (ls : List Lbl) (s s' : S) (O : List Obs), Fate z q s → (∀ l ∈ ls, quiet l = true) → run false s ls = some (s', O) →
    (reason z s q → reason z s' q) ∧ ∀ e, Ans.error e ∈ answers O → reason z s' q ∧ e ∈ failsWith q
  | [], s, s', O, hi, _, h => by
    simp only [run, Option.some.injEq, Prod.mk.injEq] at h
    obtain ⟨rfl, rfl⟩ := h
    exact ⟨id, fun e he => by cases he⟩
  | l :: ls, s, s', O, hi, hl, h => by
    obtain ⟨s1, o, O', h1, h2, rfl⟩ := run_cons h
    have hd' := delta_step hi.dat hi.own h1
    obtain ⟨a, b⟩ := fate_step hi (hl l (by simp)) h1
    obtain ⟨c, d⟩ := fate_keeps ls s1 s' O' a (fun l hl' => hl l (List.mem_cons_of_mem _ hl')) h2
    refine ⟨fun hr => c (reason_mono hi.since hd'.1 hr), ?_⟩
    intro e he
    rw [answers_append, List.mem_append] at he
    rcases he with he | he
    · exact ⟨c (b e he).1, (b e he).2⟩
    · exact d e he

/-- A threads request on its way. -/
def Listing (z s : S) (r : R) : Prop :=
  r = .idle ∨ (∃ it got, r = .threads it got ∧ (changed z s ∨ (got = z.threads.take it.pos ∧ it.pos ≤ z.threads.length))) ∨
    ∃ a, r = .answer a ∧ ∀ ids, a = .ok ids → changed z s ∨ ids = z.threads

theorem listing_other {z s s' : S} {r : R} (h : Delta s s') (hw : Listing z s r) : Listing z s' r := by
  rcases hw with e | ⟨it, got, e, a⟩ | ⟨x, e, a⟩
  · exact .inl e
  · exact .inr (.inl ⟨it, got, e, a.imp (changed_mono h) id⟩)
  · exact .inr (.inr ⟨x, e, fun ids hx => (a ids hx).imp (changed_mono h) id⟩)

theorem listing_go {z s s' : S} {o : List Obs} (hi : Since z s) (hw : Listing z s s.r) (h : rstep false s = some (s', o)) :
    Listing z s s'.r ∧ ∀ ids, Ans.ok ids ∈ answers o → changed z s ∨ ids = z.threads := by
  have none_ : ∀ ids, Ans.ok ids ∈ answers [] → changed z s ∨ ids = z.threads := by intro e h; cases h
  rcases hw with hr | ⟨it, got, hr, a⟩ | ⟨x, hr, a⟩ <;> simp only [rstep, hr] at h
  · cases h
  · split at h
    · cases h
      exact ⟨.inr (.inr ⟨_, rfl, fun ids e => by cases e⟩), none_⟩
    · split at h
      · rename_i hn
        cases h
        refine ⟨.inr (.inr ⟨_, rfl, fun ids e => ?_⟩), none_⟩
        cases e
        by_cases hc : changed z s
        · exact .inl hc
        · obtain ⟨rfl, b⟩ := a.resolve_left hc
          rw [not_changed hi hc, List.getElem?_eq_none_iff] at hn
          exact .inr (List.take_of_length_le hn)
      · rename_i t ht
        cases h
        refine ⟨.inr (.inl ⟨_, _, rfl, ?_⟩), none_⟩
        by_cases hc : changed z s
        · exact .inl hc
        · obtain ⟨rfl, b⟩ := a.resolve_left hc
          rw [not_changed hi hc] at ht
          have hlt : it.pos < z.threads.length := by
            by_cases hx : it.pos < z.threads.length
            · exact hx
            · rw [List.getElem?_eq_none (by omega)] at ht; cases ht
          refine .inr ⟨?_, hlt⟩
          rw [List.take_succ, ht]
          rfl
  · cases h
    refine ⟨.inl rfl, ?_⟩
    intro ids he
    simp only [answers, List.mem_singleton] at he
    exact a ids he.symm

theorem listing_run {z : S} : ∀ (ls : List Lbl) (s s' : S) (O : List Obs), Fate z .threads s → Listing z s s.r → (∀ l ∈ ls, quiet l = true) → run false s ls = some (s', O) →
    (changed z s → changed z s') ∧ ∀ ids, Ans.ok ids ∈ answers O → changed z s' ∨ ids = z.threads
  | [], s, s', O, hi, _, _, h => by
    simp only [run, Option.some.injEq, Prod.mk.injEq] at h
    obtain ⟨rfl, rfl⟩ := h
    exact ⟨id, fun e he => by cases he⟩
  | l :: ls, s, s', O, hi, hw, hl, h => by
    obtain ⟨s1, o, O', h1, h2, rfl⟩ := run_cons h
    have hd' := (delta_step hi.dat hi.own h1).1
    have hq := hl l (by simp)
    obtain ⟨a, _⟩ := fate_step hi hq h1
    have key : Listing z s1 s1.r ∧ ∀ ids, Ans.ok ids ∈ answers o → changed z s ∨ ids = z.threads := by
      by_cases hg : l = .go
      · subst hg
        obtain ⟨x, y⟩ := listing_go hi.since hw h1
        exact ⟨listing_other hd' x, y⟩
      · obtain ⟨x, y⟩ := step_r hq hg h1
        refine ⟨?_, ?_⟩
        · rw [x]; exact listing_other hd' hw
        · rw [y]; intro e he; cases he
    obtain ⟨c, d⟩ := listing_run ls s1 s' O' a key.1 (fun l hl' => hl l (List.mem_cons_of_mem _ hl')) h2
    refine ⟨fun hr => c (changed_mono hd' hr), ?_⟩
    intro ids he
    rw [answers_append, List.mem_append] at he
    rcases he with he | he
    · exact (key.2 ids he).imp (fun x => c (changed_mono hd' x)) id
    · exact d ids he

end Verif.Race
