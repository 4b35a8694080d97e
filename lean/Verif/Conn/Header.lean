import Verif.Conn.Spec
import Verif.Conn.Lemmas
/-! # The header block (proofs only) -/

namespace Verif.Conn
open Verif

section
variable {α : Type} [DecidableEq α]

theorem not_occurs_iff (pat l : List α) : ¬ Occurs pat l ↔ findSub pat l = none := by
  rw [findSub_none_iff]; rfl

theorem findSub_sep2 (a b : α) (hab : a ≠ b) (p r : List α) (hp : findSub [a, b] p = none) :
    findSub [a, b] (p ++ [a, b] ++ r) = some p.length := by
  induction p with
  | nil => simp [findSub]
  | cons x p ih =>
    simp only [findSub] at hp
    split at hp
    · cases hp
    · rename_i hx
      have hp' : findSub [a, b] p = none := by
        cases h : findSub [a, b] p with
        | none => rfl
        | some i => simp [h] at hp
      have ih := ih hp'
      simp only [List.cons_append, findSub]
      have hn : ¬ ([a, b].isPrefixOf (x :: (p ++ [a, b] ++ r))) = true := by
        intro h
        apply hx
        cases p with
        | nil =>
          simp only [List.nil_append, List.cons_append, List.isPrefixOf, Bool.and_eq_true, beq_iff_eq] at h
          exact absurd h.2.1.symm hab
        | cons y p =>
          simpa only [List.cons_append, List.isPrefixOf, Bool.and_true] using h
      simp only [List.append_assoc] at ih hn ⊢
      rw [if_neg hn]
      have ih' : findSub [a, b] (p ++ ([a, b] ++ r)) = some p.length := ih
      rw [ih']; rfl

/-- Splitting with enough room undoes joining. -/
theorem splitMax_join (a b : α) (hab : a ≠ b) (n : Nat) (ps : List (List α)) (hne : ps ≠ [])
    (hn : ps.length ≤ n + 1) (hp : ∀ p ∈ ps, findSub [a, b] p = none) :
    splitMax [a, b] n (joinSep [a, b] ps) = ps := by
  induction n generalizing ps with
  | zero =>
    match ps with
    | [] => exact absurd rfl hne
    | [p] => rfl
    | _ :: _ :: _ => simp at hn
  | succ n ih =>
    match ps with
    | [] => exact absurd rfl hne
    | [p] => simp only [joinSep, splitMax, hp p (by simp)]
    | p :: q :: ps =>
      simp only [joinSep, splitMax]
      rw [findSub_sep2 a b hab p _ (hp p (by simp))]
      simp only [List.append_assoc, List.take_left']
      congr 1
      rw [show p ++ ([a, b] ++ joinSep [a, b] (q :: ps)) = (p ++ [a, b]) ++ joinSep [a, b] (q :: ps) by simp]
      rw [List.drop_left' (by simp)]
      exact ih (q :: ps) (by simp) (by simp at hn ⊢; omega) (fun r hr => hp r (by simp [hr]))

/-- What splitting yields: parts that join to the original; all but the last contain no
separator, and neither does the last if there was room. -/
theorem splitMax_spec (sep : List α) (n : Nat) (l : List α) :
    splitMax sep n l ≠ [] ∧ joinSep sep (splitMax sep n l) = l ∧ (splitMax sep n l).length ≤ n + 1 ∧
    (∀ p ∈ (splitMax sep n l).dropLast, p.length + sep.length ≤ l.length) := by
  induction n generalizing l with
  | zero => simp [splitMax, joinSep]
  | succ n ih =>
    simp only [splitMax]
    split
    · simp [joinSep]
    · rename_i i hi
      obtain ⟨h1, h2, h3, h4⟩ := ih (l.drop (i + sep.length))
      have hb := findSub_bound sep l i hi
      refine ⟨by simp, ?_, by simp; omega, ?_⟩
      · match hs : splitMax sep n (l.drop (i + sep.length)) with
        | [] => exact absurd hs h1
        | q :: qs =>
          rw [hs] at h2
          simp only [joinSep, h2]
          exact (findSub_some sep l i hi).symm
      · match hs : splitMax sep n (l.drop (i + sep.length)) with
        | [] => exact absurd hs h1
        | q :: qs =>
          rw [hs] at h4
          intro p hp
          simp only [List.dropLast_cons_cons, List.mem_cons] at hp
          rcases hp with rfl | hp
          · simp; omega
          · have := h4 p hp; simp at this; omega

theorem findSub_take (pat l : List α) (i : Nat) (hpat : pat ≠ []) (h : findSub pat l = some i) : findSub pat (l.take i) = none := by
  cases h' : findSub pat (l.take i) with
  | none => rfl
  | some j =>
    have h1 := findSub_bound _ _ _ h'
    have h2 := findSub_prefix pat (l.take i) (l.drop i) j h'
    rw [List.take_append_drop, h] at h2
    cases h2
    have : 0 < pat.length := List.length_pos_iff.mpr hpat
    simp at h1; omega

theorem splitMax_parts (sep : List α) (hsep : sep ≠ []) (n : Nat) (l : List α) :
    (splitMax sep n l).length ≤ n ∨ l.length < n * sep.length + sep.length →
    ∀ p ∈ splitMax sep n l, findSub sep p = none := by
  induction n generalizing l with
  | zero =>
    intro h p hp
    simp only [splitMax, List.mem_singleton] at hp
    subst hp
    simp only [splitMax, List.length_singleton, Nat.zero_mul, Nat.zero_add] at h
    rcases h with h | h
    · omega
    · cases hf : findSub sep p with
      | none => rfl
      | some i => have := findSub_bound _ _ _ hf; omega
  | succ n ih =>
    intro h p hp
    simp only [splitMax] at h hp
    split at hp
    · rename_i hf; simp only [List.mem_singleton] at hp; subst hp; exact hf
    · rename_i i hf
      have hb := findSub_bound _ _ _ hf
      rcases List.mem_cons.mp hp with rfl | hp
      · exact findSub_take _ _ _ hsep hf
      · refine ih _ ?_ p hp
        simp only [hf] at h
        rcases h with h | h
        · left; simp at h; omega
        · right; simp only [List.length_drop]
          rw [Nat.succ_mul] at h; omega

theorem splitAll_parts (sep : List α) (hsep : sep ≠ []) (l : List α) : ∀ p ∈ splitAll sep l, findSub sep p = none := by
  apply splitMax_parts sep hsep
  right
  have : 0 < sep.length := List.length_pos_iff.mpr hsep
  have := Nat.le_mul_of_pos_right l.length this
  omega

theorem joinSep_length (sep : List α) (hsep : sep ≠ []) (ps : List (List α)) : ps.length ≤ (joinSep sep ps).length + 1 := by
  have hs : 0 < sep.length := List.length_pos_iff.mpr hsep
  induction ps with
  | nil => simp
  | cons p ps ih =>
    cases ps with
    | nil => simp
    | cons q qs => simp only [joinSep, List.length_cons, List.length_append] at ih ⊢; omega

theorem splitAll_join (a b : α) (hab : a ≠ b) (ps : List (List α)) (hne : ps ≠ [])
    (hp : ∀ p ∈ ps, findSub [a, b] p = none) : splitAll [a, b] (joinSep [a, b] ps) = ps :=
  splitMax_join a b hab _ ps hne (joinSep_length _ (by simp) ps) hp
end

/-! ## Lines and headers -/

theorem splitLine (k v : Bytes) (hk : findSub bytes!": " k = none) (hv : findSub bytes!": " v = none) :
    splitMax bytes!": " 2 (k ++ bytes!": " ++ v) = [k, v] := by
  have := splitMax_join (58 : UInt8) 32 (by decide) 2 [k, v] (by simp) (by simp) (by
    intro p hp; simp only [List.mem_cons, List.not_mem_nil, or_false] at hp
    rcases hp with rfl | rfl <;> assumption)
  simpa [joinSep] using this

theorem splitLine_conv (l k v : Bytes) (h : splitMax bytes!": " 2 l = [k, v]) :
    l = k ++ bytes!": " ++ v ∧ findSub bytes!": " k = none ∧ findSub bytes!": " v = none := by
  have h1 := splitMax_spec bytes!": " 2 l
  have h2 := splitMax_parts bytes!": " (by simp) 2 l (by rw [h]; simp)
  rw [h] at h1 h2
  simp only [joinSep] at h1
  exact ⟨h1.2.1.symm, h2 k (by simp), h2 v (by simp)⟩

/-- The dictionary `headerDict` builds from well-formed lines. -/
theorem headerDict_lines (ls : List (Bytes × Bytes)) (d : Dict Bytes Bytes)
    (h : ∀ kv ∈ ls, findSub bytes!": " kv.1 = none ∧ findSub bytes!": " kv.2 = none) :
    headerDict (ls.map fun kv => kv.1 ++ bytes!": " ++ kv.2) d = .ok (ls.foldl (fun d kv => Dict.set d kv.1 kv.2) d) := by
  induction ls generalizing d with
  | nil => rfl
  | cons x ls ih =>
    have hx := h x (by simp)
    simp only [List.map_cons, headerDict, splitLine x.1 x.2 hx.1 hx.2, List.foldl_cons]
    exact ih _ (fun kv hkv => h kv (by simp [hkv]))

theorem headerDict_conv (ls : List Bytes) (d r : Dict Bytes Bytes) (h : headerDict ls d = .ok r) :
    ∃ kvs : List (Bytes × Bytes), ls = kvs.map (fun kv => kv.1 ++ bytes!": " ++ kv.2) ∧
      (∀ kv ∈ kvs, findSub bytes!": " kv.1 = none ∧ findSub bytes!": " kv.2 = none) ∧
      r = kvs.foldl (fun d kv => Dict.set d kv.1 kv.2) d := by
  induction ls generalizing d with
  | nil => simp only [headerDict, Except.ok.injEq] at h; exact ⟨[], rfl, by simp, h.symm⟩
  | cons l ls ih =>
    simp only [headerDict] at h
    split at h
    · rename_i k v hs
      obtain ⟨h1, h2, h3⟩ := splitLine_conv l k v hs
      obtain ⟨kvs, e1, e2, e3⟩ := ih _ h
      refine ⟨(k, v) :: kvs, by simp [h1, e1], ?_, by simpa using e3⟩
      intro kv hkv
      rcases List.mem_cons.mp hkv with rfl | hkv
      · exact ⟨h2, h3⟩
      · exact e2 kv hkv
    · cases h

theorem foldl_set_get {κ β : Type} [DecidableEq κ] (ls : List (κ × β)) (d : Dict κ β) (k : κ) (h : ∀ kv ∈ ls, kv.1 ≠ k) :
    Dict.get? (ls.foldl (fun d kv => Dict.set d kv.1 kv.2) d) k = Dict.get? d k := by
  induction ls generalizing d with
  | nil => rfl
  | cons x ls ih =>
    rw [List.foldl_cons, ih _ (fun kv hkv => h kv (by simp [hkv])), Dict.get?_set]
    rw [if_neg (h x (by simp))]

theorem foldl_set_some {κ β : Type} [DecidableEq κ] (ls : List (κ × β)) (d : Dict κ β) (k : κ) (v : β)
    (h : Dict.get? (ls.foldl (fun d kv => Dict.set d kv.1 kv.2) d) k = some v) (hd : Dict.get? d k = none) :
    ∃ pre post, ls = pre ++ (k, v) :: post ∧ ∀ kv ∈ post, kv.1 ≠ k := by
  induction ls generalizing d with
  | nil => simp only [List.foldl_nil, hd] at h; cases h
  | cons x ls ih =>
    by_cases hk : ∃ kv ∈ ls, kv.1 = k
    · -- the last one is in the tail; the dictionary before it does not matter
      have key : ∀ (ls : List (κ × β)) (d d' : Dict κ β), (∃ kv ∈ ls, kv.1 = k) →
          Dict.get? (ls.foldl (fun d kv => Dict.set d kv.1 kv.2) d) k = Dict.get? (ls.foldl (fun d kv => Dict.set d kv.1 kv.2) d') k := by
        intro ls
        induction ls with
        | nil => rintro d d' ⟨kv, hkv, _⟩; simp at hkv
        | cons y ls ih =>
          intro d d' hex
          simp only [List.foldl_cons]
          by_cases h' : ∃ kv ∈ ls, kv.1 = k
          · exact ih _ _ h'
          · have hn : ∀ kv ∈ ls, kv.1 ≠ k := fun kv hkv e => h' ⟨kv, hkv, e⟩
            rw [foldl_set_get _ _ _ hn, foldl_set_get _ _ _ hn, Dict.get?_set, Dict.get?_set]
            obtain ⟨kv, hkv, e⟩ := hex
            rcases List.mem_cons.mp hkv with rfl | hkv
            · simp [e]
            · exact absurd e (hn kv hkv)
      rw [List.foldl_cons, key ls _ [] hk] at h
      obtain ⟨pre, post, e1, e2⟩ := ih [] h rfl
      exact ⟨x :: pre, post, by simp [e1], e2⟩
    · have hn : ∀ kv ∈ ls, kv.1 ≠ k := fun kv hkv e => hk ⟨kv, hkv, e⟩
      rw [List.foldl_cons, foldl_set_get _ _ _ hn, Dict.get?_set] at h
      split at h
      · rename_i e
        cases h
        exact ⟨[], ls, by rw [← e]; rfl, hn⟩
      · rw [hd] at h; cases h

theorem contentLength_iff (raw : Bytes) (n : Int) : contentLength raw = .ok n ↔ Announces raw n := by
  constructor
  · intro h
    unfold contentLength at h
    split at h
    · cases h
    · rename_i d hd
      split at h
      · cases h
      · rename_i v hv
        split at h
        · cases h
        · rename_i m hm
          cases h
          obtain ⟨kvs, e1, e2, e3⟩ := headerDict_conv _ _ _ hd
          rw [e3] at hv
          obtain ⟨pre, post, e4, e5⟩ := foldl_set_some _ _ _ _ hv rfl
          subst e4
          refine ⟨pre, v, post, ?_, ?_, e5, hm⟩
          · rw [← e1]
            exact (splitMax_spec _ _ raw).2.1.symm
          · intro kv hkv
            rw [not_occurs_iff, not_occurs_iff, not_occurs_iff]
            refine ⟨(e2 kv hkv).1, (e2 kv hkv).2, ?_⟩
            apply splitAll_parts bytes!"\r\n" (by simp) raw
            rw [e1]; exact List.mem_map.mpr ⟨kv, hkv, rfl⟩
  · rintro ⟨pre, v, post, h1, h2, h3, h4⟩
    unfold contentLength
    have hs : splitAll bytes!"\r\n" raw = (pre ++ (bytes!"Content-Length", v) :: post).map fun (kv : Bytes × Bytes) => kv.1 ++ bytes!": " ++ kv.2 := by
      rw [h1]
      apply splitAll_join _ _ (by decide) _ (by simp)
      intro p hp
      obtain ⟨kv, hkv, rfl⟩ := List.mem_map.mp hp
      exact (not_occurs_iff _ _).mp (h2 kv hkv).2.2
    rw [hs, headerDict_lines _ _ (fun kv hkv => ⟨(not_occurs_iff _ _).mp (h2 kv hkv).1, (not_occurs_iff _ _).mp (h2 kv hkv).2.1⟩)]
    simp only [List.foldl_append, List.foldl_cons]
    rw [foldl_set_get _ _ _ h3, Dict.get?_set]
    simp only [if_true, h4]

theorem contentLength_error (raw : Bytes) (e : PyErr) (h : contentLength raw = .error e) : e = .value := by
  have hh : ∀ ls d e, headerDict ls d = .error e → e = .value := by
    intro ls
    induction ls with
    | nil => intro d e h; cases h
    | cons l ls ih =>
      intro d e h
      simp only [headerDict] at h
      split at h
      · exact ih _ _ h
      · cases h; rfl
  unfold contentLength at h
  split at h
  · rename_i hd; cases h; exact hh _ _ _ hd
  · split at h
    · cases h; rfl
    · split at h
      · cases h; rfl
      · cases h

/-! ## The header written by `queue_msg` -/

theorem intDigits_digits (ds : List Nat) (h : ∀ d ∈ ds, isDig d = true) (prev : Bool) (hne : prev = true ∨ ds ≠ []) :
    intDigits prev ds = some ds := by
  induction ds generalizing prev with
  | nil => rcases hne with h | h
           · simp [intDigits, h]
           · exact absurd rfl h
  | cons d ds ih =>
    simp only [intDigits, h d (by simp), if_true]
    rw [ih (fun x hx => h x (by simp [hx])) true (Or.inl rfl)]; rfl

theorem isDig_not_space {c : Nat} (h : isDig c = true) : isPySpace c = false := by
  simp only [isDig, decide_eq_true_eq] at h
  simp only [isPySpace, Bool.or_eq_false_iff, Bool.and_eq_false_iff, beq_eq_false_iff_ne, decide_eq_false_iff_not]
  constructor
  · omega
  · right; omega

theorem dropWhile_id {β : Type} (p : β → Bool) (l : List β) (h : ∀ x, l.head? = some x → p x = false) : l.dropWhile p = l := by
  cases l with
  | nil => rfl
  | cons x l => rw [List.dropWhile_cons]; simp [h x rfl]

theorem pyInt_natDec (n : Nat) : pyInt (natDec n) = some (n : Int) := by
  have hd := natDec_digits n
  have hne := natDec_ne_nil n
  have h1 : (natDec n).dropWhile isPySpace = natDec n := dropWhile_id _ _ (by
    intro x hx; exact isDig_not_space (hd x (List.mem_of_head? hx)))
  have h2 : (natDec n).reverse.dropWhile isPySpace = (natDec n).reverse := dropWhile_id _ _ (by
    intro x hx; exact isDig_not_space (hd x (List.mem_reverse.mp (List.mem_of_head? hx))))
  unfold pyInt
  simp only [h1, h2, List.reverse_reverse]
  have hi := intDigits_digits (natDec n) hd false (Or.inr hne)
  split
  · rename_i ds e; have := hd 45 (by rw [e]; simp); exact absurd this (by decide)
  · rename_i ds e; have := hd 43 (by rw [e]; simp); exact absurd this (by decide)
  · rw [hi]; simp [digVal_natDec]

end Verif.Conn
