import Verif.Bp.Heal
/-! # The client's mirror while a setBreakpoints request races with registrations -/

namespace Verif.Bp
open Verif

theorem upd_line (ev : List Bp) (b : Bp) (h : ∀ m ∈ ev, m.line.isSome = true) (hb : b.line.isSome = true) : (upd ev b).line.isSome = true := by
  induction ev generalizing b with
  | nil => exact hb
  | cons m t ih =>
    simp only [upd, List.foldl_cons]
    refine ih _ (fun m hm => h m (List.mem_cons_of_mem _ hm)) ?_
    split
    · exact h m List.mem_cons_self
    · exact hb

/-- What a scan does to the kept breakpoints is what its events do to a mirror of them. -/
theorem refresh_view {regs : List (Nat × Nat)} {fl : FileLines} (hr : Rep regs fl) (q : Str) (d : Dict Nat LineBp)
    (hn : ∀ e ∈ d, 0 ≤ e.2.reqLine) (hk : ∀ e ∈ d, e.1 = e.2.id ∧ e.2.bp.id = e.1) (hs : (d.map (·.1)).Pairwise (· < ·)) :
    (refresh q fl d).1 = d.map (fun e => (e.1, { e.2 with bp := upd (evBps (refresh q fl d).2.1) e.2.bp })) ∧
    (∀ o ∈ (refresh q fl d).2.1, ∃ bp, o = .bpChanged bp) ∧
    ∀ m ∈ evBps (refresh q fl d).2.1, m.line.isSome = true ∧ ∃ e ∈ d, m.id = e.1 ∧ e.2.actualPath = q := by
  induction d with
  | nil => exact ⟨rfl, (fun _ h => by cases h), fun _ h => by cases h⟩
  | cons a t ih =>
    obtain ⟨k, b⟩ := a
    rw [List.map_cons, List.pairwise_cons] at hs
    obtain ⟨i1, i2, i3⟩ := ih (fun e he => hn e (List.mem_cons_of_mem _ he)) (fun e he => hk e (List.mem_cons_of_mem _ he)) hs.2
    have hkb := hk (k, b) List.mem_cons_self
    simp only at hkb
    have hlt : ∀ e ∈ t, k < e.1 := fun e he => hs.1 e.1 (List.mem_map_of_mem he)
    have htail : upd (evBps (refresh q fl t).2.1) b.bp = b.bp := by
      apply upd_none
      intro m hm e
      obtain ⟨-, x, hx, hxi, -⟩ := i3 m hm
      have := hlt x hx
      omega
    have up : ∀ m ∈ evBps (refresh q fl t).2.1, m.line.isSome = true ∧ ∃ e ∈ (k, b) :: t, m.id = e.1 ∧ e.2.actualPath = q := by
      intro m hm
      obtain ⟨g1, x, g2, g3⟩ := i3 m hm
      exact ⟨g1, x, List.mem_cons_of_mem _ g2, g3⟩
    have hkeep : (k, b) :: (refresh q fl t).1 = ((k, b) :: t).map (fun e => (e.1, { e.2 with bp := upd (evBps (refresh q fl t).2.1) e.2.bp })) := by
      rw [List.map_cons, ← i1, htail]
    unfold refresh
    by_cases hp : b.actualPath = q
    · rw [if_neg (by simpa using hp)]
      obtain ⟨n, hnn⟩ : ∃ n : Nat, b.reqLine = n := ⟨b.reqLine.toNat, by have := hn (k, b) List.mem_cons_self; simp only at this; omega⟩
      obtain ⟨e', z, v, g1, -⟩ := calculate_nat hr b.id b.source n
      rw [hnn, g1]
      simp only
      cases differs b.bp (mkBp b.id b.source e' z v) with
      | false =>
        simp only [cond_false]
        exact ⟨hkeep, i2, up⟩
      | true =>
        simp only [cond_true]
        have hid : (mkBp b.id b.source e' z v).id = k := hkb.1.symm
        have hev : evBps (.bpChanged (mkBp b.id b.source e' z v) :: (refresh q fl t).2.1) =
            mkBp b.id b.source e' z v :: evBps (refresh q fl t).2.1 := rfl
        rw [hev]
        refine ⟨?_, ?_, ?_⟩
        · rw [List.map_cons]
          congr 1
          · have hup : upd (mkBp b.id b.source e' z v :: evBps (refresh q fl t).2.1) b.bp = mkBp b.id b.source e' z v := by
              show upd (evBps (refresh q fl t).2.1) (if b.bp.id = (mkBp b.id b.source e' z v).id then mkBp b.id b.source e' z v else b.bp) = _
              rw [if_pos (by rw [hid, hkb.2])]
              apply upd_none
              intro m hm e
              obtain ⟨-, x, hx, hxi, -⟩ := i3 m hm
              have := hlt x hx
              omega
            simp only [hup, hnn]
          · rw [i1]
            apply List.map_congr_left
            intro e he
            have h1 := (hk e (List.mem_cons_of_mem _ he)).2
            have h2 := hlt e he
            have : upd (mkBp b.id b.source e' z v :: evBps (refresh q fl t).2.1) e.2.bp = upd (evBps (refresh q fl t).2.1) e.2.bp := by
              show upd (evBps (refresh q fl t).2.1) (if e.2.bp.id = (mkBp b.id b.source e' z v).id then mkBp b.id b.source e' z v else e.2.bp) = _
              rw [if_neg (by rw [hid, h1]; omega)]
            simp only [this]
        · intro o ho
          rcases List.mem_cons.1 ho with rfl | ho
          · exact ⟨_, rfl⟩
          · exact i2 o ho
        · intro m hm
          rcases List.mem_cons.1 hm with rfl | hm
          · exact ⟨rfl, (k, b), List.mem_cons_self, hid, hp⟩
          · exact up m hm
    · rw [if_pos hp]
      exact ⟨hkeep, i2, up⟩

/-- What can remain of the handler; in phase 2 the answer is still to come. -/
inductive Left (src : Source) (seq : Nat) : Nat → List Op → Prop
  | nil : Left src seq 3 []
  | reply {t} : Left src seq 3 t → Left src seq 2 (.hReply seq :: t)
  | store {t} : Left src seq 2 t → Left src seq 2 (.hStore :: t)
  | compute {l t} : 0 ≤ l → Left src seq 2 t → Left src seq 2 (.hCompute src l :: t)
  | clear {t} : Left src seq 2 t → Left src seq 1 (.hClear src :: t)
  | read {t} : Left src seq 1 t → Left src seq 0 (.hRead src :: t)

theorem left_handler (seq : Nat) (src : Source) (ls : List Int) (hl : ∀ l ∈ ls, 0 ≤ l) : Left src seq 0 (handlerOps seq src ls) := by
  have : ∀ ls : List Int, (∀ l ∈ ls, 0 ≤ l) → Left src seq 2 (ls.flatMap (fun l => [Op.hCompute src l, .hStore]) ++ [.hReply seq]) := by
    intro ls
    induction ls with
    | nil => intro _; exact .reply .nil
    | cons l t ih =>
      intro h
      exact .compute (h l List.mem_cons_self) (.store (ih fun x hx => h x (List.mem_cons_of_mem _ hx)))
  exact .read (.clear (this ls hl))

theorem left_reply {src : Source} {seq : Nat} : ∀ {xs : List Op}, Left src seq 2 xs → Op.hReply seq ∈ xs
  | _, .reply _ => List.mem_cons_self
  | _, .store h => List.mem_cons_of_mem _ (left_reply h)
  | _, .compute _ h => List.mem_cons_of_mem _ (left_reply h)

theorem shuffle_left {xs ys zs : List Op} (h : Shuffle xs ys zs) : ∀ o ∈ xs, o ∈ zs := by
  induction h with
  | nil => exact fun _ h => h
  | right _ ih => exact fun o ho => List.mem_cons_of_mem _ (ih o ho)
  | left _ ih =>
    intro o ho
    rcases List.mem_cons.1 ho with rfl | ho
    · exact List.mem_cons_self
    · exact List.mem_cons_of_mem _ (ih o ho)

/-- The kept breakpoints of a source. -/
def kept (d : Dict Nat LineBp) (q : Str) : List Bp := (d.filter fun e => decide (e.2.sourcePath = q)).map (·.2.bp)

/-- The state of the debuggee and the client during the race. `c0`: the next id before it; `g`: a breakpoint was stored. -/
structure Seen (ms : List (Str × Str)) (sp p : Str) (c0 : Nat) (ph : Nat) (g : Prop) (done : List Op) (s : RS) (v : View) : Prop where
  inv : RInv (opRegs done) s
  maps : s.d.mappings = ms
  keys : ∀ e ∈ s.d.bps, e.1 = e.2.id ∧ e.2.bp.id = e.1 ∧ e.1 < s.d.counter ∧ e.2.bp.line.isSome = true
  sorted : (s.d.bps.map (·.1)).Pairwise (· < ·)
  base : c0 ≤ s.d.counter
  actual : 1 ≤ ph → s.actual = p
  ok : 1 ≤ ph → s.failed = false
  cur : 1 ≤ ph → ∀ b, s.cur = some b → c0 ≤ b.id ∧ b.id < s.d.counter ∧ (∀ e ∈ s.d.bps, e.1 < b.id) ∧ b.bp.id = b.id ∧ b.bp.line.isSome = true ∧
    b.sourcePath = sp ∧ b.actualPath = p
  rest : ∀ q, ∀ b ∈ (v.get? q).getD [], b.line = none → b.id < c0 ∧ b.id ∉ s.d.bps.map (·.1)
  same : ∀ q, (q ≠ sp ∨ ph ≠ 2) → ((v.get? q).getD []).filter (fun b => b.line.isSome) = kept s.d.bps q
  resp : ph = 1 → s.resp = []
  mid : ph = 2 → kept s.d.bps sp = s.resp ∧ (¬ g → s.resp = []) ∧ ∀ e ∈ s.d.bps, e.2.sourcePath = sp → e.2.actualPath = p

theorem kept_scan (ev : List Bp) (d : Dict Nat LineBp) (q : Str) :
    kept (d.map (fun e => (e.1, { e.2 with bp := upd ev e.2.bp }))) q = (kept d q).map (upd ev) := by
  unfold kept
  rw [List.filter_map, List.map_map, List.map_map]
  congr 1

theorem seen_scan {ms : List (Str × Str)} {sp p : Str} {c0 ph : Nat} {g : Prop} {done : List Op} {s : RS} {v : View} {q : Str}
    (h : Seen ms sp p c0 ph g done s v) (hq : ph = 2 → q = p → ¬ g) :
    ∃ outs, (exec s (.rScan q)).out = s.out ++ outs ∧
      Seen ms sp p c0 ph g (done ++ [.rScan q]) (exec s (.rScan q)) (outs.foldl (View.recv sp) v) := by
  obtain ⟨r1, r2, r3⟩ := refresh_view (rinv_table h.inv q) q s.d.bps h.inv.bps (fun e he => ⟨(h.keys e he).1, (h.keys e he).2.1⟩) h.sorted
  refine ⟨(refresh q ((s.d.info.get? q).getD [some 0]) s.d.bps).2.1, rfl, ?_⟩
  have hi := rinv_exec h.inv (.rScan q) trivial
  have hb : (exec s (.rScan q)).d.bps = s.d.bps.map (fun e => (e.1, { e.2 with bp := upd (evBps (refresh q ((s.d.info.get? q).getD [some 0]) s.d.bps).2.1) e.2.bp })) := r1
  generalize refresh q ((s.d.info.get? q).getD [some 0]) s.d.bps = r at hb r2 r3 ⊢
  have hev := view_events sp r.2.1 r2 v
  have hkeys : (exec s (.rScan q)).d.bps.map (·.1) = s.d.bps.map (·.1) := by rw [hb, List.map_map]; rfl
  have hline : ∀ k, ∀ b ∈ (v.get? k).getD [], (upd (evBps r.2.1) b).line.isSome = b.line.isSome ∧ (b.line = none → upd (evBps r.2.1) b = b) := by
    intro k b hbm
    cases hl : b.line with
    | some x => exact ⟨upd_line _ _ (fun m hm => (r3 m hm).1) (by rw [hl]; rfl), fun h => by cases h⟩
    | none =>
      have : upd (evBps r.2.1) b = b := by
        apply upd_none
        intro m hm e
        obtain ⟨-, x, hx, hxi, -⟩ := r3 m hm
        exact (h.rest k b hbm hl).2 (by rw [← e, hxi]; exact List.mem_map_of_mem hx)
      rw [this, hl]
      exact ⟨rfl, fun _ => rfl⟩
  refine ⟨hi, h.maps, ?_, by rw [hkeys]; exact h.sorted, h.base, h.actual, h.ok, ?_, ?_, ?_, h.resp, ?_⟩
  · intro e he
    rw [hb] at he
    obtain ⟨a, ha, rfl⟩ := List.mem_map.1 he
    obtain ⟨k1, k2, k3, k4⟩ := h.keys a ha
    exact ⟨k1, (upd_id _ _).trans k2, k3, upd_line _ _ (fun m hm => (r3 m hm).1) k4⟩
  · intro h1 b hc
    obtain ⟨k1, k2, k3, k4⟩ := h.cur h1 b hc
    refine ⟨k1, k2, fun e he => ?_, k4⟩
    have : e.1 ∈ (exec s (.rScan q)).d.bps.map (·.1) := List.mem_map_of_mem he
    rw [hkeys] at this
    obtain ⟨a, ha, hae⟩ := List.mem_map.1 this
    have := k3 a ha
    omega
  · intro k b hbm hl
    rw [hev] at hbm
    obtain ⟨b', hb', rfl⟩ := List.mem_map.1 hbm
    have h1 := hline k b' hb'
    have h2 : b'.line = none := by
      have := h1.1
      rw [hl] at this
      cases hx : b'.line with
      | none => rfl
      | some x => rw [hx] at this; cases this
    rw [h1.2 h2, hkeys]
    exact h.rest k b' hb' h2
  · intro k hk
    rw [hev, List.filter_map, hb, kept_scan, ← h.same k hk]
    congr 1
    apply List.filter_congr
    intro b hbm
    exact (hline k b hbm).1
  · intro h2
    obtain ⟨m1, m2, m3⟩ := h.mid h2
    refine ⟨?_, m2, ?_⟩
    · rw [hb, kept_scan, m1]
      show s.resp.map _ = s.resp
      by_cases hqp : q = p
      · rw [m2 (hq h2 hqp)]; rfl
      · rw [← m1]
        unfold kept
        rw [List.map_map]
        apply List.map_congr_left
        intro e he
        obtain ⟨he1, he2⟩ := List.mem_filter.1 he
        apply upd_none
        intro m hm hme
        obtain ⟨-, x, hx, hxi, hxa⟩ := r3 m hm
        have hxe : x = e := sorted_inj h.sorted hx he1 (by rw [← hxi, hme, (h.keys e he1).2.1])
        subst hxe
        exact hqp (hxa.symm.trans (m3 x he1 (by simpa using he2)))
    · intro e he hsp
      rw [hb] at he
      obtain ⟨a, ha, rfl⟩ := List.mem_map.1 he
      exact m3 a ha hsp

/-- Nothing but the table changes. -/
theorem seen_table {ms : List (Str × Str)} {sp p : Str} {c0 ph : Nat} {g : Prop} {done : List Op} {s : RS} {v : View} {q : Str} {l : Int} {k : Nat}
    (h : Seen ms sp p c0 ph g done s v) (hl : 0 ≤ l) :
    (exec s (.rTable q l k)).out = s.out ∧ Seen ms sp p c0 ph g (done ++ [.rTable q l k]) (exec s (.rTable q l k)) v := by
  have hi := rinv_exec h.inv (.rTable q l k) hl
  have hex : ∃ i', exec s (.rTable q l k) = { s with d := { s.d with info := i' } } := by
    simp only [exec]
    cases regLine ((s.d.info.get? q).getD [some 0]) l k <;> exact ⟨_, rfl⟩
  obtain ⟨i', he⟩ := hex
  rw [he] at hi ⊢
  exact ⟨rfl, hi, h.maps, h.keys, h.sorted, h.base, h.actual, h.ok, h.cur, h.rest, h.same, h.resp, h.mid⟩

/-- After a breakpoint is stored and until the answer, the file is not scanned. -/
def Fresh (p : Str) (seq : Nat) (zs : List Op) : Prop :=
  ∀ u v w, zs = u ++ .hStore :: (v ++ .hReply seq :: w) → Op.rScan p ∉ v

theorem fresh_tail {p : Str} {seq : Nat} {x : Op} {zs : List Op} (h : Fresh p seq (x :: zs)) : Fresh p seq zs :=
  fun u v w e => h (x :: u) v w (by rw [e]; rfl)

theorem fresh_some (src : Source) (c n : Nat) {R : List (Nat × Nat)} {o : Option FileLines} (h : o = none ∨ ∃ fl, o = some fl ∧ Rep R fl) :
    ∃ bp, freshBp c src (n : Int) o = .ok bp ∧ bp.id = c ∧ bp.line.isSome = true := by
  rcases h with rfl | ⟨fl, rfl, hr⟩
  · exact ⟨_, rfl, rfl, rfl⟩
  · obtain ⟨e, z, v, g1, -⟩ := calculate_nat hr c src n
    refine ⟨mkBp c src e z v, ?_, rfl, rfl⟩
    cases fl with
    | nil => exact absurd hr.1 (by simp)
    | cons a t => exact g1

theorem seen_run {ms : List (Str × Str)} {src : Source} {p : Str} {seq c0 : Nat} (hp : p = toActual ms (src.path.getD []))
    {xs ys zs : List Op} (hsh : Shuffle xs ys zs) : ∀ (ph : Nat) (g : Prop) (pend : Option Str) (done : List Op) (s : RS) (v : View),
    Left src seq ph xs → Due pend ys → Seen ms (src.path.getD []) p c0 ph g done s v → Fresh p seq zs →
    (ph = 2 → g → ∀ u w, zs = u ++ .hReply seq :: w → Op.rScan p ∉ u) →
    ∃ outs g', (execAll s zs).out = s.out ++ outs ∧
      Seen ms (src.path.getD []) p c0 3 g' (done ++ zs) (execAll s zs) (outs.foldl (View.recv (src.path.getD [])) v) := by
  induction hsh with
  | nil =>
    intro ph g pend done s v hr _ h _ _
    cases hr
    exact ⟨[], g, by simp [execAll], by simpa [execAll] using h⟩
  | @left x xs ys zs hsh ih =>
    intro ph g pend done s v hr hd h hf hg
    have hstep : ∀ ph' g' outs, Left src seq ph' xs → (exec s x).out = s.out ++ outs →
        Seen ms (src.path.getD []) p c0 ph' g' (done ++ [x]) (exec s x) (outs.foldl (View.recv (src.path.getD [])) v) →
        (ph' = 2 → g' → ∀ u w, zs = u ++ .hReply seq :: w → Op.rScan p ∉ u) →
        ∃ outs g', (execAll s (x :: zs)).out = s.out ++ outs ∧
          Seen ms (src.path.getD []) p c0 3 g' (done ++ x :: zs) (execAll s (x :: zs)) (outs.foldl (View.recv (src.path.getD [])) v) := by
      intro ph' g' o1 h1 ho h2 h3
      obtain ⟨o2, g'', k1, k2⟩ := ih ph' g' pend (done ++ [x]) (exec s x) _ h1 hd h2 (fresh_tail hf) h3
      refine ⟨o1 ++ o2, g'', ?_, ?_⟩
      · show (execAll (exec s x) zs).out = _
        rw [k1, ho, List.append_assoc]
      · rw [List.foldl_append]
        simpa [execAll] using k2
    have hgt : ph = 2 → g → ∀ u w, zs = u ++ .hReply seq :: w → Op.rScan p ∉ u := by
      intro h1 h2 u w e hm
      exact hg h1 h2 (x :: u) w (by rw [e]; rfl) (List.mem_cons_of_mem _ hm)
    cases hr with
    | read hl =>
      refine hstep 1 g [] hl (List.append_nil _).symm ?_ (by omega)
      exact ⟨rinv_exec h.inv (.hRead src) trivial, h.maps, h.keys, h.sorted, h.base, fun _ => by simp only [exec, h.maps, hp], fun _ => rfl,
        (fun _ b hb => by simp [exec] at hb), h.rest, fun q _ => h.same q (.inr (by omega)), fun _ => rfl, fun h => by omega⟩
    | clear hl =>
      refine hstep 2 False [] hl (List.append_nil _).symm ?_ (fun _ h => h.elim)
      have hsub : ∀ e ∈ (exec s (.hClear src)).d.bps, e ∈ s.d.bps := fun e he => (List.mem_filter.1 he).1
      refine ⟨rinv_exec h.inv (.hClear src) trivial, h.maps, fun e he => h.keys e (hsub e he), ?_, h.base, fun _ => h.actual (by omega),
        fun _ => h.ok (by omega), fun _ b hb => ?_, fun q b hb hbl => ?_, fun q hq => ?_, (by omega), fun _ => ⟨?_, fun _ => h.resp rfl, fun e he hs => ?_⟩⟩
      · exact List.Pairwise.sublist (List.Sublist.map _ List.filter_sublist) h.sorted
      · obtain ⟨k1, k2, k3, k4⟩ := h.cur (by omega) b hb
        exact ⟨k1, k2, fun e he => k3 e (hsub e he), k4⟩
      · obtain ⟨k1, k2⟩ := h.rest q b hb hbl
        refine ⟨k1, fun hm => k2 ?_⟩
        obtain ⟨e, he, hei⟩ := List.mem_map.1 hm
        exact hei ▸ List.mem_map_of_mem (hsub e he)
      · have hq : q ≠ src.path.getD [] := by
          rcases hq with hq | hq
          · exact hq
          · exact absurd rfl hq
        show _ = kept (s.d.bps.filter _) q
        rw [List.foldl_nil, h.same q (.inl hq)]
        unfold kept
        rw [filter_other, if_neg (fun e => hq e.symm)]
      · show kept (s.d.bps.filter _) _ = s.resp
        unfold kept
        rw [filter_other, if_pos rfl, h.resp rfl]
        rfl
      · exact absurd hs (by simpa using (List.mem_filter.1 he).2)
    | reply hl =>
      have hok := h.ok (by omega)
      obtain ⟨m1, m2, m3⟩ := h.mid rfl
      have hout : (exec s (.hReply seq)).out = s.out ++ [.setBpsResp seq s.resp] := by simp only [exec, hok, cond_false]
      refine hstep 3 g [.setBpsResp seq s.resp] hl hout ?_ (by omega)
      have hget : ∀ q, (([Out.setBpsResp seq s.resp].foldl (View.recv (src.path.getD [])) v).get? q).getD [] =
          if src.path.getD [] = q then s.resp else (v.get? q).getD [] := by
        intro q
        simp only [List.foldl_cons, List.foldl_nil, View.recv]
        rw [Dict.get?_set]
        split <;> rfl
      have hsome : ∀ b ∈ s.resp, b.line.isSome = true := by
        rw [← m1]
        intro b hb
        obtain ⟨e, he, rfl⟩ := List.mem_map.1 hb
        exact (h.keys e (List.mem_filter.1 he).1).2.2.2
      refine ⟨rinv_exec h.inv (.hReply seq) trivial, h.maps, h.keys, h.sorted, h.base, fun _ => h.actual (by omega), fun _ => hok, fun _ => h.cur (by omega),
        fun q b hb hbl => ?_, fun q _ => ?_, (by omega), (by omega)⟩
      · rw [hget] at hb
        split at hb
        · have := hsome b hb; rw [hbl] at this; cases this
        · exact h.rest q b hb hbl
      · rw [hget]
        split
        · rename_i hq
          subst hq
          rw [List.filter_eq_self.2 hsome]
          exact m1.symm
        · rename_i hq
          exact h.same q (.inl fun e => hq e.symm)
    | store hl =>
      refine hstep 2 True [] hl (by simp only [exec]; split <;> exact (List.append_nil _).symm) ?_ (fun _ _ u w e => hf [] u w (by rw [e]; rfl))
      have hi := rinv_exec h.inv .hStore trivial
      obtain ⟨m1, m2, m3⟩ := h.mid rfl
      cases hc : s.cur with
      | none =>
        have he : exec s .hStore = s := by simp only [exec, hc]
        rw [he] at hi ⊢
        exact ⟨hi, h.maps, h.keys, h.sorted, h.base, h.actual, h.ok, h.cur, h.rest, h.same, h.resp, fun _ => ⟨m1, fun hn => absurd trivial hn, m3⟩⟩
      | some b =>
        obtain ⟨k1, k2, k3, k4, k5, k6, k7⟩ := h.cur (by omega) b hc
        have hfr : b.id ∉ s.d.bps.map (·.1) := by
          intro hm
          obtain ⟨e, he, hei⟩ := List.mem_map.1 hm
          have := k3 e he
          omega
        have he : exec s .hStore = { s with d := { s.d with bps := s.d.bps ++ [(b.id, b)] }, resp := s.resp ++ [b.bp], cur := none } := by
          simp only [exec, hc, Dict.set_fresh _ _ _ hfr]
        rw [he] at hi ⊢
        have hkept : ∀ q, kept (s.d.bps ++ [(b.id, b)]) q = kept s.d.bps q ++ (if src.path.getD [] = q then [b.bp] else []) := by
          intro q
          unfold kept
          rw [List.filter_append, List.map_append]
          congr 1
          by_cases hq : src.path.getD [] = q
          · simp [hq, k6]
          · simp [hq, k6]
        refine ⟨hi, h.maps, fun e he => ?_, ?_, h.base, h.actual, h.ok, (fun _ b hb => by simp at hb), fun q b' hb hbl => ?_, fun q hq => ?_, (by omega), fun _ => ⟨?_, fun hn => absurd trivial hn, fun e he hs => ?_⟩⟩
        · rcases List.mem_append.1 he with he | he
          · exact h.keys e he
          · rw [List.mem_singleton] at he; subst he
            exact ⟨rfl, k4, k2, k5⟩
        · show List.Pairwise _ ((s.d.bps ++ [(b.id, b)]).map _)
          rw [List.map_append, List.pairwise_append]
          refine ⟨h.sorted, by simp, fun a ha c hc => ?_⟩
          obtain ⟨e, he, rfl⟩ := List.mem_map.1 ha
          simp at hc
          subst hc
          exact k3 e he
        · obtain ⟨g1, g2⟩ := h.rest q b' hb hbl
          refine ⟨g1, ?_⟩
          show b'.id ∉ (s.d.bps ++ [(b.id, b)]).map _
          rw [List.map_append, List.mem_append]
          rintro (hm | hm)
          · exact g2 hm
          · simp at hm; omega
        · have hq : q ≠ src.path.getD [] := by
            rcases hq with hq | hq
            · exact hq
            · exact absurd rfl hq
          show _ = kept (s.d.bps ++ [(b.id, b)]) q
          rw [hkept, if_neg (fun e => hq e.symm), List.append_nil]
          exact h.same q (.inl hq)
        · show kept (s.d.bps ++ [(b.id, b)]) _ = s.resp ++ [b.bp]
          rw [hkept, if_pos rfl, m1]
        · rcases List.mem_append.1 he with he | he
          · exact m3 e he hs
          · rw [List.mem_singleton] at he; subst he
            exact k7
    | @compute l _ hl0 hl =>
      obtain ⟨n, rfl⟩ : ∃ n : Nat, l = n := ⟨l.toNat, by omega⟩
      have hi := rinv_exec h.inv (.hCompute src (n : Int)) hl0
      have hact := h.actual (by omega)
      obtain ⟨bp, b1, b2, b3⟩ := fresh_some src s.d.counter n (R := opRegs done p) (o := bif s.ref then s.d.info.get? p else none) (by
        cases s.ref with
        | false => exact .inl rfl
        | true =>
          rcases h.inv.info p with ⟨h3, -⟩ | ⟨fl, h4, -, h5⟩
          · exact .inl h3
          · exact .inr ⟨fl, h4, h5⟩)
      have he : exec s (.hCompute src (n : Int)) = { s with
            d := { s.d with counter := s.d.counter + 1 }
            cur := some { id := s.d.counter, source := src, reqLine := n, bp := bp, actualPath := p, sourcePath := src.path.getD [] } } := by
        simp only [exec, h.ok (by omega), cond_false, hact, b1]
      refine hstep 2 g [] hl (by rw [he]; exact (List.append_nil _).symm) ?_ hgt
      rw [he] at hi ⊢
      refine ⟨hi, h.maps, fun e he => ?_, h.sorted, Nat.le_succ_of_le h.base, h.actual, h.ok, fun _ b hb => ?_, h.rest, h.same, (by omega), h.mid⟩
      · obtain ⟨k1, k2, k3, k4⟩ := h.keys e he
        exact ⟨k1, k2, Nat.lt_succ_of_lt k3, k4⟩
      · simp only [Option.some.injEq] at hb
        subst hb
        exact ⟨h.base, Nat.lt_succ_self _, fun e he => (h.keys e he).2.2.1, b2, b3, rfl, rfl⟩
  | @right y xs ys zs hsh ih =>
    intro ph g pend done s v hr hd h hf hg
    have hgt : ph = 2 → g → ∀ u w, zs = u ++ .hReply seq :: w → Op.rScan p ∉ u := by
      intro h1 h2 u w e hm
      exact hg h1 h2 (y :: u) w (by rw [e]; rfl) (List.mem_cons_of_mem _ hm)
    cases hd with
    | @table q l k _ hl hd =>
      obtain ⟨h1, h2⟩ := seen_table (q := q) (k := k) h hl
      obtain ⟨o2, g'', k1, k2⟩ := ih ph g (some q) _ _ _ hr hd h2 (fresh_tail hf) hgt
      refine ⟨o2, g'', ?_, by simpa [execAll] using k2⟩
      show (execAll (exec s _) zs).out = _
      rw [k1, h1]
    | @scan q _ hd =>
      obtain ⟨o1, h1, h2⟩ := seen_scan (q := q) h (by
        rintro rfl rfl hgg
        have : Op.hReply seq ∈ zs := shuffle_left hsh _ (left_reply hr)
        obtain ⟨u, w, e⟩ := List.append_of_mem this
        exact hg rfl hgg (.rScan q :: u) w (by rw [e]; rfl) List.mem_cons_self)
      obtain ⟨o2, g'', k1, k2⟩ := ih ph g none _ _ _ hr hd h2 (fresh_tail hf) hgt
      refine ⟨o1 ++ o2, g'', ?_, ?_⟩
      · show (execAll (exec s _) zs).out = _
        rw [k1, h1, List.append_assoc]
      · rw [List.foldl_append]
        simpa [execAll] using k2

end Verif.Bp
