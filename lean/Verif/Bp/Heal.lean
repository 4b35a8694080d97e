import Verif.Bp.Race
/-! # When an interleaved setBreakpoints request leaves every breakpoint right -/

namespace Verif.Bp
open Verif

/-- A breakpoint of file `p` shows what is known of the file. -/
def Right (done : List Op) (p : Str) (b : LineBp) : Prop :=
  ∃ req : Nat, b.reqLine = (req : Int) ∧ Shown (opRegs done p) req b.bp

/-- What can remain of the handler: 0 nothing done, 1 the table looked up, 2 the old breakpoints
dropped. -/
inductive Rest (src : Source) : Nat → List Op → Prop
  | nil : Rest src 2 []
  | reply {n t} : Rest src 2 t → Rest src 2 (.hReply n :: t)
  | store {t} : Rest src 2 t → Rest src 2 (.hStore :: t)
  | compute {l t} : 0 ≤ l → Rest src 2 t → Rest src 2 (.hCompute src l :: t)
  | clear {t} : Rest src 2 t → Rest src 1 (.hClear src :: t)
  | read {t} : Rest src 1 t → Rest src 0 (.hRead src :: t)

/-- What can remain of the registrations; the file whose scan is due. -/
inductive Due : Option Str → List Op → Prop
  | nil : Due none []
  | table {p l k t} : 0 ≤ l → Due (some p) t → Due none (.rTable p l k :: t)
  | scan {p t} : Due none t → Due (some p) (.rScan p :: t)

theorem rest_handler (seq : Nat) (src : Source) (ls : List Int) (hl : ∀ l ∈ ls, 0 ≤ l) : Rest src 0 (handlerOps seq src ls) := by
  have : ∀ ls : List Int, (∀ l ∈ ls, 0 ≤ l) → Rest src 2 (ls.flatMap (fun l => [Op.hCompute src l, .hStore]) ++ [.hReply seq]) := by
    intro ls
    induction ls with
    | nil => intro _; exact .reply .nil
    | cons l t ih =>
      intro h
      exact .compute (h l List.mem_cons_self) (.store (ih fun x hx => h x (List.mem_cons_of_mem _ hx)))
  exact .read (.clear (this ls hl))

theorem due_regs (rs : List (Str × Int × Nat)) (hr : ∀ r ∈ rs, 0 ≤ r.2.1) :
    Due none (rs.flatMap fun r => registerOps r.1 r.2.1 r.2.2) := by
  induction rs with
  | nil => exact .nil
  | cons r t ih => exact .table (hr r List.mem_cons_self) (.scan (ih fun x hx => hr x (List.mem_cons_of_mem _ hx)))

theorem shuffle_right {xs ys zs : List Op} (h : Shuffle xs ys zs) : ∀ o ∈ ys, o ∈ zs := by
  induction h with
  | nil => exact fun _ h => h
  | left _ ih => exact fun o ho => List.mem_cons_of_mem _ (ih o ho)
  | right _ ih =>
    intro o ho
    rcases List.mem_cons.1 ho with rfl | ho
    · exact List.mem_cons_self
    · exact List.mem_cons_of_mem _ (ih o ho)

theorem refresh_frame (q : Str) (fl : FileLines) (d : Dict Nat LineBp) :
    ∀ e ∈ (refresh q fl d).1, ∃ e' ∈ d, e.2.sourcePath = e'.2.sourcePath ∧ e.2.actualPath = e'.2.actualPath ∧
      (e.2.actualPath ≠ q → e = e') := by
  induction d with
  | nil => simp [refresh]
  | cons a t ih =>
    obtain ⟨k, b⟩ := a
    have up : ∀ e ∈ (refresh q fl t).1, ∃ e' ∈ (k, b) :: t, e.2.sourcePath = e'.2.sourcePath ∧ e.2.actualPath = e'.2.actualPath ∧
        (e.2.actualPath ≠ q → e = e') := by
      intro e he
      obtain ⟨e', h1, h2⟩ := ih e he
      exact ⟨e', List.mem_cons_of_mem _ h1, h2⟩
    unfold refresh
    by_cases hp : b.actualPath = q
    · rw [if_neg (by simpa using hp)]
      cases calculate b.id b.source b.reqLine fl with
      | error x => exact fun e he => ⟨e, he, rfl, rfl, fun _ => rfl⟩
      | ok bp =>
        simp only
        cases differs b.bp bp with
        | true =>
          intro e he
          rcases List.mem_cons.1 he with rfl | he
          · exact ⟨(k, b), List.mem_cons_self, rfl, rfl, fun h => absurd hp h⟩
          · exact up e he
        | false =>
          intro e he
          rcases List.mem_cons.1 he with rfl | he
          · exact ⟨(k, b), List.mem_cons_self, rfl, rfl, fun _ => rfl⟩
          · exact up e he
    · rw [if_pos hp]
      intro e he
      rcases List.mem_cons.1 he with rfl | he
      · exact ⟨(k, b), List.mem_cons_self, rfl, rfl, fun _ => rfl⟩
      · exact up e he

/-- The state during the race. `g`: an entry of `p` was registered since the table was looked up. -/
structure Mid (ms : List (Str × Str)) (src : Source) (p : Str) (ph : Nat) (g : Prop) (done zs : List Op) (s : RS) : Prop where
  inv : RInv (opRegs done) s
  maps : s.d.mappings = ms
  actual : 1 ≤ ph → s.actual = p
  ok : 1 ≤ ph → s.failed = false
  ref : 1 ≤ ph → s.ref = true → opRegs done p ≠ []
  noref : 1 ≤ ph → s.ref = false → opRegs done p = [] ∨ g
  cur : 1 ≤ ph → ∀ b, s.cur = some b → b.sourcePath = src.path.getD [] ∧ b.actualPath = p ∧ (Right done p b ∨ g)
  bps : 2 ≤ ph → ∀ e ∈ s.d.bps, e.2.sourcePath = src.path.getD [] → e.2.actualPath = p ∧ (Right done p e.2 ∨ .rScan p ∈ zs)

/-- Nothing computed before a registration of `p` stays unscanned. -/
def Kept (p : Str) (g : Prop) (zs : List Op) : Prop :=
  ∀ u w, zs = u ++ .hStore :: w → (g ∨ ∃ l t, Op.rTable p l t ∈ u) → .rScan p ∈ w

theorem kept_tail {p : Str} {g : Prop} {x : Op} {zs : List Op} (h : Kept p g (x :: zs)) : Kept p g zs := by
  intro u w e hg
  refine h (x :: u) w (by rw [e]; rfl) ?_
  rcases hg with hg | ⟨l, t, hm⟩
  · exact .inl hg
  · exact .inr ⟨l, t, List.mem_cons_of_mem _ hm⟩

theorem opRegs_snoc (done : List Op) (o : Op) (p : Str) :
    opRegs (done ++ [o]) p = opRegs done p ++ opRegs [o] p := by
  unfold opRegs; rw [List.filterMap_append]

/-- `Kept` before the handler has begun. -/
def KeptAll (src : Source) (p : Str) (zs : List Op) : Prop :=
  ∀ u v w, zs = u ++ .hRead src :: (v ++ .hStore :: w) → (∃ l t, Op.rTable p l t ∈ v) → .rScan p ∈ w

theorem right_same {done : List Op} {o : Op} {p : Str} (h : opRegs [o] p = []) (b : LineBp) :
    Right (done ++ [o]) p b ↔ Right done p b := by
  unfold Right; rw [opRegs_snoc, h, List.append_nil]

theorem mid_other {ms : List (Str × Str)} {src : Source} {p : Str} {ph : Nat} {g : Prop} {done zs : List Op} {o : Op} {s : RS}
    (m : Mid ms src p ph g done (o :: zs) s) (s' : RS) (ho : opRegs [o] p = []) (hn : o ≠ .rScan p)
    (hi : RInv (opRegs (done ++ [o])) s') (hm : s'.d.mappings = ms)
    (ha : s'.actual = s.actual) (hf : s'.failed = s.failed) (hr : s'.ref = s.ref) (hc : s'.cur = s.cur)
    (hb : ∀ e ∈ s'.d.bps, e.2.sourcePath = src.path.getD [] → (∃ e' ∈ s.d.bps, e.2.sourcePath = e'.2.sourcePath ∧
      e.2.actualPath = e'.2.actualPath ∧ (e.2.actualPath = p → e = e'))) :
    Mid ms src p ph g (done ++ [o]) zs s' := by
  have hR : opRegs (done ++ [o]) p = opRegs done p := by rw [opRegs_snoc, ho, List.append_nil]
  refine ⟨hi, hm, fun h => ha.trans (m.actual h), fun h => hf.trans (m.ok h), fun h h2 => ?_, fun h h2 => ?_, fun h b h2 => ?_, fun h e he hs => ?_⟩
  · rw [hR]; exact m.ref h (hr ▸ h2)
  · rw [hR]; exact m.noref h (hr ▸ h2)
  · rw [right_same ho]; exact m.cur h b (hc ▸ h2)
  · obtain ⟨e', h1, h2, h3, h4⟩ := hb e he hs
    obtain ⟨k1, k2⟩ := m.bps h e' h1 (h2 ▸ hs)
    have hp : e.2.actualPath = p := h3.trans k1
    have := h4 hp
    subst this
    refine ⟨k1, ?_⟩
    rcases k2 with k2 | k2
    · exact .inl ((right_same ho _).2 k2)
    · rcases List.mem_cons.1 k2 with k2 | k2
      · exact absurd k2.symm hn
      · exact .inr k2

theorem mid_run {ms : List (Str × Str)} {src : Source} {p : Str} (hp : p = toActual ms (src.path.getD []))
    {xs ys zs : List Op} (hsh : Shuffle xs ys zs) : ∀ (ph : Nat) (g : Prop) (pend : Option Str) (done : List Op) (s : RS),
    Rest src ph xs → Due pend ys → (∀ q, pend = some q → opRegs done q ≠ []) → Mid ms src p ph g done zs s →
    (1 ≤ ph → Kept p g zs) → (ph = 0 → KeptAll src p zs) →
    ∃ g', Mid ms src p 2 g' (done ++ zs) [] (execAll s zs) := by
  induction hsh with
  | nil =>
    intro ph g pend done s hr _ _ m _ _
    cases hr
    exact ⟨g, by simpa [execAll] using m⟩
  | @left x xs ys zs _ ih =>
    intro ph g pend done s hr hd hpe m hk hk0
    have hstep : ∀ ph' g', Rest src ph' xs → opRegs [x] = (fun _ => []) → Mid ms src p ph' g' (done ++ [x]) zs (exec s x) → (1 ≤ ph' → Kept p g' zs) →
        (ph' = 0 → KeptAll src p zs) → ∃ g', Mid ms src p 2 g' (done ++ x :: zs) [] (execAll s (x :: zs)) := by
      intro ph' g' h1 hx h2 h3 h4
      obtain ⟨g'', h⟩ := ih ph' g' pend (done ++ [x]) (exec s x) h1 hd (by
        intro q hq; rw [opRegs_snoc, hx, List.append_nil]; exact hpe q hq) h2 h3 h4
      exact ⟨g'', by simpa [execAll] using h⟩
    cases hr with
    | read h =>
      refine hstep 1 False h (by funext q; rfl) ?_ (fun _ u w e hg => ?_) (by simp)
      · have hi := rinv_exec m.inv (.hRead src) trivial
        have hR : opRegs (done ++ [Op.hRead src]) p = opRegs done p := by rw [opRegs_snoc]; exact List.append_nil _
        have hact : (exec s (.hRead src)).actual = p := by simp only [exec, m.maps, hp]
        have hinf := m.inv.info p
        refine ⟨hi, m.maps, fun _ => hact, fun _ => rfl, fun _ h2 => ?_, fun _ h2 => ?_, fun _ b hb => by simp [exec] at hb, fun h => by omega⟩
        · rw [hR]
          have h2 : (s.d.info.get? p).isSome = true := by rw [← hact]; exact h2
          rcases hinf with ⟨h3, -⟩ | ⟨fl, -, h4, -⟩
          · rw [h3] at h2; cases h2
          · exact h4
        · rw [hR]
          have h2 : (s.d.info.get? p).isSome = false := by rw [← hact]; exact h2
          rcases hinf with ⟨-, h3⟩ | ⟨fl, h4, -⟩
          · exact .inl h3
          · rw [h4] at h2; cases h2
      · rcases hg with hg | hg
        · exact hg.elim
        · exact hk0 rfl [] u w (by rw [e]; rfl) hg
    | clear h =>
      refine hstep 2 g h (by funext q; rfl) ?_ (fun _ => kept_tail (hk (by omega))) (by simp)
      have hi := rinv_exec m.inv (.hClear src) trivial
      have hR : opRegs (done ++ [Op.hClear src]) p = opRegs done p := by rw [opRegs_snoc]; exact List.append_nil _
      refine ⟨hi, m.maps, fun _ => m.actual (by omega), fun _ => m.ok (by omega), fun _ => ?_, fun _ => ?_, fun _ b hb => ?_, fun _ e he hs => ?_⟩
      · rw [hR]; exact m.ref (by omega)
      · rw [hR]; exact m.noref (by omega)
      · rw [right_same (by rfl)]; exact m.cur (by omega) b hb
      · exact absurd hs (by simpa using (List.mem_filter.1 he).2)
    | reply h =>
      rename_i n
      refine hstep 2 g h (by funext q; rfl) ?_ (fun _ => kept_tail (hk (by omega))) (by simp)
      exact mid_other m _ (by rfl) (by simp) (rinv_exec m.inv (.hReply n) trivial) m.maps rfl rfl rfl rfl
        (fun e he _ => ⟨e, he, rfl, rfl, fun _ => rfl⟩)
    | store h =>
      refine hstep 2 g h (by funext q; rfl) ?_ (fun _ => kept_tail (hk (by omega))) (by simp)
      have hi := rinv_exec m.inv .hStore trivial
      have hR : opRegs (done ++ [Op.hStore]) p = opRegs done p := by rw [opRegs_snoc]; exact List.append_nil _
      cases hc : s.cur with
      | none =>
        have he : exec s .hStore = s := by simp only [exec, hc]
        rw [he] at hi ⊢
        exact mid_other m s (by rfl) (by simp) hi m.maps rfl rfl rfl rfl (fun e he _ => ⟨e, he, rfl, rfl, fun _ => rfl⟩)
      | some b =>
        have he : exec s .hStore = { s with d := { s.d with bps := s.d.bps.set b.id b }, resp := s.resp ++ [b.bp], cur := none } := by
          simp only [exec, hc]
        rw [he] at hi ⊢
        refine ⟨hi, m.maps, m.actual, m.ok, fun h => by rw [hR]; exact m.ref h, fun h => by rw [hR]; exact m.noref h,
          fun _ b hb => by simp at hb, fun _ e he hs => ?_⟩
        rw [right_same (by rfl)]
        rcases Dict.mem_set _ _ _ _ he with h | h
        · obtain ⟨h1, h2, h3⟩ := m.cur (by omega) b hc
          rw [h]
          refine ⟨h2, ?_⟩
          rcases h3 with h3 | h3
          · exact .inl h3
          · exact .inr (hk (by omega) [] zs rfl (.inl h3))
        · obtain ⟨h1, h2⟩ := m.bps (by omega) e h hs
          exact ⟨h1, h2.imp id fun h => by simpa using h⟩
    | @compute l _ hl h =>
      refine hstep 2 g h (by funext q; rfl) ?_ (fun _ => kept_tail (hk (by omega))) (by simp)
      have hi := rinv_exec m.inv (.hCompute src l) hl
      have hR : opRegs (done ++ [Op.hCompute src l]) p = opRegs done p := by rw [opRegs_snoc]; exact List.append_nil _
      have hact := m.actual (by omega)
      obtain ⟨n, rfl⟩ : ∃ n : Nat, l = n := ⟨l.toNat, by omega⟩
      have key : ∃ bp, exec s (.hCompute src (n : Int)) = { s with
            d := { s.d with counter := s.d.counter + 1 }
            cur := some { id := s.d.counter, source := src, reqLine := n, bp := bp, actualPath := s.actual, sourcePath := src.path.getD [] } } ∧
          (Shown (opRegs done p) n bp ∨ g) := by
        simp only [exec, m.ok (by omega), cond_false, hact]
        cases hrf : s.ref with
        | true =>
          have hne := m.ref (by omega) hrf
          rcases m.inv.info p with ⟨-, h3⟩ | ⟨fl, h4, -, h5⟩
          · exact absurd h3 hne
          · obtain ⟨e, z, v, g1, g2⟩ := calculate_nat h5 s.d.counter src n
            have : freshBp s.d.counter src (n : Int) (some fl) = .ok (mkBp s.d.counter src e z v) := by
              cases fl with
              | nil => exact absurd h5.1 (by simp)
              | cons a t => exact g1
            refine ⟨mkBp s.d.counter src e z v, ?_, .inl ⟨fun h => absurd h hne, fun _ => ⟨e, z, g2, rfl, rfl⟩⟩⟩
            simp only [cond_true, h4, this]
        | false =>
          refine ⟨pendingBp s.d.counter src n, rfl, ?_⟩
          rcases m.noref (by omega) hrf with h | h
          · exact .inl ⟨fun _ => ⟨rfl, rfl, rfl⟩, fun hn => absurd h hn⟩
          · exact .inr h
      obtain ⟨bp, he, hb⟩ := key
      rw [he] at hi ⊢
      refine ⟨hi, m.maps, m.actual, m.ok, fun h => by rw [hR]; exact m.ref h, fun h => by rw [hR]; exact m.noref h,
          fun _ b hcb => ?_, fun _ e he hs => ?_⟩
      · simp only [Option.some.injEq] at hcb
        subst hcb
        refine ⟨rfl, hact, ?_⟩
        rw [right_same (by rfl)]
        exact hb.imp (fun h => ⟨n, rfl, h⟩) id
      · rw [right_same (by rfl)]
        obtain ⟨h1, h2⟩ := m.bps (by omega) e he hs
        exact ⟨h1, h2.imp id fun h => by simpa using h⟩
  | @right y xs ys zs hsh ih =>
    intro ph g pend done s hr hd hpe m hk hk0
    have hk0' : ph = 0 → KeptAll src p zs := by
      intro h u v w e hg
      exact hk0 h (y :: u) v w (by rw [e]; rfl) hg
    cases hd with
    | @table q l k _ hl h =>
      have hi := rinv_exec m.inv (.rTable q l k) hl
      have hex : ∃ d' : Dbg, exec s (.rTable q l k) = { s with d := d' } ∧ d'.mappings = s.d.mappings ∧ d'.bps = s.d.bps := by
        simp only [exec]
        cases regLine ((s.d.info.get? q).getD [some 0]) l k <;> exact ⟨_, rfl, rfl, rfl⟩
      obtain ⟨d', he, hm, hb⟩ := hex
      by_cases hq : q = p
      · have hmem : Op.rScan p ∈ zs := by
          refine shuffle_right hsh _ ?_
          cases h
          subst hq
          exact List.mem_cons_self
        have m' : Mid ms src p ph True (done ++ [.rTable q l k]) zs (exec s (.rTable q l k)) := by
          refine ⟨hi, ?_, ?_, ?_, ?_, fun _ _ => .inr True.intro, ?_, ?_⟩
          · rw [he]; exact hm.trans m.maps
          · rw [he]; exact m.actual
          · rw [he]; exact m.ok
          · intro h1 h2; rw [opRegs_snoc]; simp [opRegs, hq]
          · intro h1 b h2
            rw [he] at h2
            obtain ⟨k1, k2, -⟩ := m.cur h1 b h2
            exact ⟨k1, k2, .inr True.intro⟩
          · intro h1 e h2 h3
            rw [he] at h2
            exact ⟨(m.bps h1 e (hb ▸ h2) h3).1, .inr hmem⟩
        obtain ⟨g', h⟩ := ih ph True (some q) _ _ hr h (by
          intro r hr; cases hr; rw [opRegs_snoc]; simp [opRegs]) m' (by
          intro h1 u w e _
          exact hk h1 (.rTable q l k :: u) w (by rw [e]; rfl) (.inr ⟨l, k, by rw [hq]; exact List.mem_cons_self⟩)) hk0'
        exact ⟨g', by simpa [execAll] using h⟩
      · have m' := mid_other m (exec s (.rTable q l k)) (by simp [opRegs, hq]) (by simp) hi (by rw [he]; exact hm.trans m.maps)
          (by rw [he]) (by rw [he]) (by rw [he]) (by rw [he]) (by
            intro e h1 _; rw [he] at h1; exact ⟨e, hb ▸ h1, rfl, rfl, fun _ => rfl⟩)
        obtain ⟨g', h⟩ := ih ph g (some q) _ _ hr h (by
          intro r hr; cases hr; rw [opRegs_snoc]; simp [opRegs]) m' (fun h1 => kept_tail (hk h1)) hk0'
        exact ⟨g', by simpa [execAll] using h⟩
    | @scan q _ h =>
      have hi := rinv_exec m.inv (.rScan q) trivial
      have hne := hpe q rfl
      have hfr := refresh_frame q ((s.d.info.get? q).getD [some 0]) s.d.bps
      have m' : Mid ms src p ph g (done ++ [.rScan q]) zs (exec s (.rScan q)) := by
        by_cases hq : q = p
        · subst hq
          have hR : opRegs (done ++ [Op.rScan q]) q = opRegs done q := by rw [opRegs_snoc]; exact List.append_nil _
          have hany := (refresh_any (rinv_table m.inv q) q s.d.bps m.inv.bps).2.2
          refine ⟨hi, m.maps, m.actual, m.ok, fun h => by rw [hR]; exact m.ref h, fun h => by rw [hR]; exact m.noref h,
            fun h1 b hb => by rw [right_same (by rfl)]; exact m.cur h1 b hb, fun h1 e he hs => ?_⟩
          obtain ⟨e', k1, k2, k3, -⟩ := hfr e he
          have hep : e.2.actualPath = q := k3.trans (m.bps h1 e' k1 (k2 ▸ hs)).1
          obtain ⟨req, x, z, g1, g2, g3, g4⟩ := hany e he hep
          refine ⟨hep, .inl ⟨req, g1, ?_⟩⟩
          rw [hR]
          exact ⟨fun hn => absurd hn hne, fun _ => ⟨x, z, g2, g3, g4⟩⟩
        · refine mid_other m _ (by rfl) (by simpa using hq) hi m.maps rfl rfl rfl rfl (fun e he _ => ?_)
          obtain ⟨e', k1, k2, k3, k4⟩ := hfr e he
          exact ⟨e', k1, k2, k3, fun hep => k4 (by rw [hep]; exact fun h => hq h.symm)⟩
      obtain ⟨g', h⟩ := ih ph g none _ _ hr h (by simp) m' (fun h1 => kept_tail (hk h1)) hk0'
      exact ⟨g', by simpa [execAll] using h⟩

end Verif.Bp
