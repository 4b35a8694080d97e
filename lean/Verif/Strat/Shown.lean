import Verif.Strat.Refs
import Verif.Conn.Header
/-!
# What the client sees of containers
-/

namespace Verif.Strat
open Verif

/-- The names and values that a variables request for a reference is answered with. -/
def shown (s : DS) (ref : Nat) : Option (List (Str × Val)) :=
  match (request s (.variables ref)).2 with
  | [.variables vs] => some (vs.map fun e => (e.1, e.2.1))
  | _ => none

theorem listVars_names (f : Nat) (es : List (Str × Val)) : ∀ s : DS, (listVars f es s).2.map (fun e => (e.1, e.2.1)) = es := by
  induction es with
  | nil => intro s; rfl
  | cons e es ih =>
    intro s
    obtain ⟨n, v⟩ := e
    cases v with
    | atom r => simp only [listVars, List.map_cons, ih]
    | ref a => simp only [listVars, List.map_cons, ih]

theorem shown_eq (s : DS) (ref : Nat) : shown s ref = (s.vars.get? ref).map fun v => listing s.heap v.addr := by
  unfold shown
  simp only [request, getVariables]
  cases s.vars.get? ref with
  | none => rfl
  | some v => simp only [listVars_names, Option.map_some]

/-! ## Dictionaries -/

theorem set_set {κ α : Type} [DecidableEq κ] (d : Dict κ α) (k : κ) (v w : α) : (d.set k v).set k w = d.set k w := by
  induction d with
  | nil => simp [Dict.set]
  | cons e d ih =>
    obtain ⟨k', x⟩ := e
    by_cases h : k' = k
    · subst h; simp [Dict.set]
    · simp [Dict.set, h, ih]

/-- Only the string is shown as `name`. -/
def OnlyStr (es : Dict Key Val) (name : Str) : Prop := ∀ e ∈ es, e.1.text = name → e.1 = .str name

/-- The entries of a dictionary as shown. -/
def shows (es : Dict Key Val) : List (Str × Val) := es.map fun e => (e.1.text, e.2)

theorem set_shows (es : Dict Key Val) (name : Str) (x : Val) (hn : (es.map (·.1)).Nodup) (ho : OnlyStr es name) :
    (shows (es.set (.str name) x)).filter (fun e => decide (e.1 = name)) = [(name, x)] ∧
    (shows (es.set (.str name) x)).filter (fun e => decide (e.1 ≠ name)) = (shows es).filter (fun e => decide (e.1 ≠ name)) ∧
    (shows (es.set (.str name) x)).map (·.1) = if name ∈ (shows es).map (·.1) then (shows es).map (·.1) else (shows es).map (·.1) ++ [name] := by
  induction es with
  | nil => simp [Dict.set, shows, Key.text]
  | cons e es ih =>
    obtain ⟨k, v⟩ := e
    simp only [List.map_cons, List.nodup_cons] at hn
    by_cases hk : k = .str name
    · subst hk
      have hno : ∀ e ∈ es, e.1.text ≠ name := by
        intro e he ht
        exact hn.1 (List.mem_map.2 ⟨e, he, ho e (by simp [he]) ht⟩)
      have f1 : (shows es).filter (fun e => decide (e.1 = name)) = [] := by
        rw [List.filter_eq_nil_iff]
        intro y hy
        obtain ⟨e, he, rfl⟩ := List.mem_map.1 hy
        simpa using hno e he
      have hset : Dict.set ((Key.str name, v) :: es) (.str name) x = (Key.str name, x) :: es := by simp [Dict.set]
      rw [hset]
      refine ⟨?_, ?_, ?_⟩
      · show List.filter _ ((name, x) :: shows es) = _
        rw [List.filter_cons_of_pos (by simp), f1]
      · show List.filter _ ((name, x) :: shows es) = List.filter _ ((name, v) :: shows es)
        rw [List.filter_cons_of_neg (by simp), List.filter_cons_of_neg (by simp)]
      · simp [shows, Key.text]
    · have hset : Dict.set ((k, v) :: es) (.str name) x = (k, v) :: Dict.set es (.str name) x := by simp [Dict.set, hk]
      have hkt : k.text ≠ name := fun ht => hk (ho (k, v) (by simp) ht)
      obtain ⟨i1, i2, i3⟩ := ih hn.2 (fun e he => ho e (by simp [he]))
      rw [hset]
      refine ⟨?_, ?_, ?_⟩
      · show List.filter _ ((k.text, v) :: shows _) = _
        rw [List.filter_cons_of_neg (by simpa using hkt), i1]
      · show List.filter _ ((k.text, v) :: shows _) = List.filter _ ((k.text, v) :: shows es)
        rw [List.filter_cons_of_pos (by simpa using hkt), List.filter_cons_of_pos (by simpa using hkt), i2]
      · show k.text :: (shows _).map _ = if name ∈ k.text :: (shows es).map _ then k.text :: (shows es).map _ else k.text :: (shows es).map _ ++ [name]
        rw [i3]
        simp only [List.mem_cons]
        by_cases hm : name ∈ (shows es).map (·.1)
        · rw [if_pos hm, if_pos (.inr hm)]
        · rw [if_neg hm, if_neg (by rintro (h | h); exact hkt h.symm; exact hm h)]
          rfl

/-! ## Assignments -/

theorem setItem_ok {h h' : Heap} {a : Addr} {n : Str} {x : Val} (hs : setItem h a n x = .ok h') :
    ∃ es, h[a]? = some (.dict true es) ∧ h' = h.set a (.dict true (es.set (.str n) x)) := by
  unfold setItem at hs
  split at hs
  · rename_i es he; cases hs; exact ⟨es, he, rfl⟩
  · cases hs

theorem get_lt {α : Type} {l : List α} {i : Nat} {x : α} (h : l[i]? = some x) : i < l.length := by
  rw [List.getElem?_eq_some_iff] at h; exact h.1

/-- After a successful assignment to a dictionary variable. -/
theorem setVal_dict {h h' : Heap} {hs hs' : List (Str × Str × Val)} {v : Var} {n : Str} {x : Val} {m : Bool} {es : Dict Key Val}
    (hc : h[v.addr]? = some (.dict m es)) (hr : setVal h hs v n x = (h', hs', none)) :
    m = true ∧ h'[v.addr]? = some (.dict true (es.set (.str n) x)) ∧
    (∀ b, b ≠ v.addr → (∀ raw, v.kind = .rawStore raw → b ≠ raw) → h'[b]? = h[b]?) ∧
    (∀ raw, v.kind = .rawStore raw → ∀ es', h[raw]? = some (.dict true es') → h'[raw]? = some (.dict true (es'.set (.str n) x))) ∧
    (hs' = match v.kind with | .hostVars host => hs ++ [(host, n, x)] | _ => hs) ∧
    (∀ raw, v.kind = .rawStore raw → ∃ es', h[raw]? = some (.dict true es')) := by
  unfold setVal at hr
  have hlt := get_lt hc
  have base : ∀ {h1 : Heap}, setItem h v.addr n x = .ok h1 → m = true ∧ h1 = h.set v.addr (.dict true (es.set (.str n) x)) ∧
      h1[v.addr]? = some (.dict true (es.set (.str n) x)) ∧ ∀ b, b ≠ v.addr → h1[b]? = h[b]? := by
    intro h1 e
    obtain ⟨es0, e1, e2⟩ := setItem_ok e
    rw [hc] at e1; cases e1
    refine ⟨rfl, e2, ?_, ?_⟩
    · rw [e2, List.getElem?_set_self hlt]
    · intro b hb; rw [e2, List.getElem?_set_ne (Ne.symm hb)]
  cases hk : v.kind with
  | list =>
    rw [hk] at hr
    simp only at hr
    cases he : setIndex h v.addr n x with
    | error e => rw [he] at hr; simp at hr
    | ok h1 =>
      unfold setIndex at he
      rw [hc] at he
      split at he <;> cases he
  | dict =>
    rw [hk] at hr
    simp only at hr
    cases he : setItem h v.addr n x with
    | error e => rw [he] at hr; simp at hr
    | ok h1 =>
      rw [he] at hr
      simp only [Prod.mk.injEq, and_true] at hr
      obtain ⟨rfl, rfl⟩ := hr
      obtain ⟨b1, b2, b3, b4⟩ := base he
      exact ⟨b1, b3, fun b hb _ => b4 b hb, fun raw h => by simp at h, rfl, fun raw h => by simp at h⟩
  | hostVars host =>
    rw [hk] at hr
    simp only at hr
    cases he : setItem h v.addr n x with
    | error e => rw [he] at hr; simp at hr
    | ok h1 =>
      rw [he] at hr
      simp only [Prod.mk.injEq, and_true] at hr
      obtain ⟨rfl, rfl⟩ := hr
      obtain ⟨b1, b2, b3, b4⟩ := base he
      exact ⟨b1, b3, fun b hb _ => b4 b hb, fun raw h => by simp at h, rfl, fun raw h => by simp at h⟩
  | rawStore raw =>
    rw [hk] at hr
    simp only at hr
    cases he : setItem h v.addr n x with
    | error e => rw [he] at hr; simp at hr
    | ok h1 =>
      rw [he] at hr
      simp only at hr
      obtain ⟨b1, b2, b3, b4⟩ := base he
      cases he2 : setItem h1 raw n x with
      | error e => rw [he2] at hr; simp at hr
      | ok h2 =>
        rw [he2] at hr
        simp only [Prod.mk.injEq, and_true] at hr
        obtain ⟨rfl, rfl⟩ := hr
        obtain ⟨es2, c1, c2⟩ := setItem_ok he2
        have hl2 := get_lt c1
        subst b1
        by_cases hra : raw = v.addr
        · subst hra
          rw [b3] at c1; cases c1
          rw [set_set] at c2
          refine ⟨rfl, ?_, ?_, ?_, rfl, ?_⟩
          · rw [c2, List.getElem?_set_self hl2]
          · intro b hb _; rw [c2, List.getElem?_set_ne (Ne.symm hb), b4 b hb]
          · intro raw' h0 es' hes'
            cases h0
            rw [hc] at hes'; cases hes'
            rw [c2, List.getElem?_set_self hl2]
          · intro raw' h0; cases h0; exact ⟨es, hc⟩
        · rw [b4 raw hra] at c1
          refine ⟨rfl, ?_, ?_, ?_, rfl, ?_⟩
          · rw [c2, List.getElem?_set_ne hra, b3]
          · intro b hb hb2
            rw [c2, List.getElem?_set_ne (Ne.symm (hb2 raw rfl)), b4 b hb]
          · intro raw' h0 es' hes'
            cases h0
            rw [c1] at hes'; cases hes'
            rw [c2, List.getElem?_set_self hl2]
          · intro raw' h0; cases h0; exact ⟨es2, c1⟩

/-- After a successful assignment to an item of a list variable. -/
theorem setVal_list {h h' : Heap} {hs hs' : List (Str × Str × Val)} {v : Var} {n : Str} {x : Val} {m : Bool} {xs : List Val}
    (hc : h[v.addr]? = some (.seq m xs)) (hr : setVal h hs v n x = (h', hs', none)) :
    m = true ∧ v.kind = .list ∧ hs' = hs ∧ (∃ i xs', pyInt n = some i ∧ Bp.pySet xs i x = some xs' ∧ h'[v.addr]? = some (.seq true xs')) ∧
    (∀ b, b ≠ v.addr → h'[b]? = h[b]?) := by
  have hlt := get_lt hc
  have no : ∀ h1, setItem h v.addr n x ≠ .ok h1 := by
    intro h1 e
    obtain ⟨es, e1, -⟩ := setItem_ok e
    rw [hc] at e1; cases e1
  unfold setVal at hr
  cases hk : v.kind with
  | list =>
    rw [hk] at hr
    simp only at hr
    cases he : setIndex h v.addr n x with
    | error e => rw [he] at hr; simp at hr
    | ok h1 =>
      rw [he] at hr
      simp only [Prod.mk.injEq, and_true] at hr
      obtain ⟨rfl, rfl⟩ := hr
      unfold setIndex at he
      rw [hc] at he
      cases hi : pyInt n with
      | none => rw [hi] at he; cases he
      | some i =>
        rw [hi] at he
        simp only at he
        cases m with
        | false => cases he
        | true =>
          simp only at he
          cases hp : Bp.pySet xs i x with
          | none => rw [hp] at he; cases he
          | some xs' =>
            rw [hp] at he
            simp only [Except.ok.injEq] at he
            subst he
            refine ⟨rfl, rfl, rfl, ⟨i, xs', rfl, hp, ?_⟩, ?_⟩
            · rw [List.getElem?_set_self hlt]
            · intro b hb; rw [List.getElem?_set_ne (Ne.symm hb)]
  | dict =>
    rw [hk] at hr
    simp only at hr
    cases he : setItem h v.addr n x with
    | error e => rw [he] at hr; simp at hr
    | ok h1 => exact absurd he (no h1)
  | hostVars host =>
    rw [hk] at hr
    simp only at hr
    cases he : setItem h v.addr n x with
    | error e => rw [he] at hr; simp at hr
    | ok h1 => exact absurd he (no h1)
  | rawStore raw =>
    rw [hk] at hr
    simp only at hr
    cases he : setItem h v.addr n x with
    | error e => rw [he] at hr; simp at hr
    | ok h1 => exact absurd he (no h1)

/-- A setVariable request that succeeds. -/
theorem setVariable_ok {s : DS} {ref : Nat} {n : Str} {objs : List Obj} {x : Val} {r : Nat}
    (h : (setVariable s ref n (some (objs, x))).2 = [.setVar r]) :
    ∃ v, s.vars.get? ref = some v ∧ (setVal (s.heap ++ objs) s.hostStore v n x).2.2 = none ∧
      (setVariable s ref n (some (objs, x))).1.heap = (setVal (s.heap ++ objs) s.hostStore v n x).1 ∧
      (setVariable s ref n (some (objs, x))).1.hostStore = (setVal (s.heap ++ objs) s.hostStore v n x).2.1 ∧
      (∀ a, x = .ref a → r = s.nextV ∧ (setVariable s ref n (some (objs, x))).1.vars.get? r = some { frame := v.frame, kind := kindOf (setVal (s.heap ++ objs) s.hostStore v n x).1 a, addr := a }) ∧
      (∀ t, x = .atom t → r = 0) := by
  unfold setVariable at h ⊢
  cases hv : s.vars.get? ref with
  | none => rw [hv] at h; cases h
  | some v =>
    rw [hv] at h
    simp only at h ⊢
    cases he : (setVal (s.heap ++ objs) s.hostStore v n x).2.2 with
    | some e => rw [he] at h; cases h
    | none =>
      rw [he] at h
      cases x with
      | atom t =>
        refine ⟨v, rfl, he, rfl, rfl, (fun a h => by cases h), fun t' _ => ?_⟩
        cases h; rfl
      | ref a =>
        refine ⟨v, rfl, he, rfl, rfl, fun a' ha => ?_, (fun t h => by cases h)⟩
        cases ha
        cases h
        exact ⟨rfl, addVar_get _ _ _ _⟩

end Verif.Strat
