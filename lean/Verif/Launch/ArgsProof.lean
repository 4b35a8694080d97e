import Verif.Launch.Lemmas
/-! # Facts about the command line -/

namespace Verif.Launch
open Verif

/-- The texts (before a possible `=`) that abbreviate two or more options of `ansibug connect`. -/
def ambigConnect : List Str := [py!"--", py!"--l", py!"--lo", py!"--log", py!"--log-"]

/-- The texts (before a possible `=`) that abbreviate two or more options of `ansibug listen`. -/
def ambigListen : List Str := [py!"--", py!"--l", py!"--lo", py!"--log", py!"--log-",
  py!"--t", py!"--tl", py!"--tls", py!"--tls-", py!"--tls-c", py!"--tls-k", py!"--tls-ke"]

theorem partEq_dd (r : Str) : (partEq (45 :: 45 :: r)).1 = 45 :: 45 :: (partEq r).1 := by
  simp [partEq]

theorem partEq_plain (s : Str) (h : (partEq s).2 = none) : (partEq s).1 = s := by
  induction s with
  | nil => rfl
  | cons c cs ih =>
    simp only [partEq] at h ⊢
    split
    · rename_i hc; simp [hc] at h
    · rename_i hc; simp only [hc, if_false] at h; simp [ih h]

theorem short_matches (tbl : OptTbl) (hh : ∀ o ∈ tbl, o.1 = py!"-h" ∨ o.1.take 2 = [45, 45]) (r : Str) (hr : r ≠ [])
    (hd : ¬ (45 :: r).take 2 = [45, 45]) :
    (tbl.filterMap fun o =>
        if o.1 = (45 :: r).take 2 then some (Cls.opt o.1 o.2 (some ((45 :: r).drop 2)))
        else if (45 :: r).isPrefixOf o.1 then some (Cls.opt o.1 o.2 none)
        else none).length ≤ (tbl.filter fun o => o.1 = py!"-h").length := by
  induction tbl with
  | nil => simp
  | cons o tbl ih =>
    have ih := ih (fun x hx => hh x (by simp [hx]))
    rw [List.filterMap_cons, List.filter_cons]
    rcases hh o (by simp) with ho | ho
    · simp only [ho, decide_true, if_true, List.length_cons]
      split
      · omega
      · simp only [List.length_cons]; omega
    · have e1 : o.1 ≠ (45 :: r).take 2 := by
        intro e; rw [e] at ho
        apply hd; cases r <;> simp_all
      have e2 : (45 :: r).isPrefixOf o.1 = false := by
        cases r with
        | nil => exact absurd rfl hr
        | cons d r =>
          have hdd : d ≠ 45 := by intro e; apply hd; simp [e]
          cases ho1 : o.1 with
          | nil => rfl
          | cons x xs =>
            cases xs with
            | nil => simp [List.isPrefixOf]
            | cons y ys =>
              rw [ho1] at ho
              simp at ho
              simp [List.isPrefixOf, ho.2, hdd]
      have e3 : o.1 ≠ py!"-h" := by intro e; rw [e] at ho; simp at ho
      simp only [e1, e2, e3, decide_false, if_false, Bool.false_eq_true]
      exact ih

/-- Only arguments that start with two dashes can be ambiguous, and only if the text before `=`
is a prefix of two options. -/
theorem ambiguous_prefix (tbl : OptTbl) (hh : ∀ o ∈ tbl, o.1 = py!"-h" ∨ o.1.take 2 = [45, 45])
    (h1 : (tbl.filter fun o => o.1 = py!"-h").length ≤ 1) (a : Str)
    (h : parseOptional tbl a = .ambiguous) :
    (∃ r, a = 45 :: 45 :: r) ∧ 2 ≤ (tbl.filter fun o => (partEq a).1.isPrefixOf o.1).length ∧
    Dict.get? tbl (partEq a).1 = none := by
  cases a with
  | nil => simp [parseOptional] at h
  | cons c r =>
    simp only [parseOptional] at h
    split at h
    · cases h
    · rename_i hc
      have hc : c = 45 := by simpa using hc
      subst hc
      split at h
      · cases h
      · rename_i hex
        split at h
        · cases h
        · rename_i hr
          split at h
          · cases h
          · rename_i hnone
            have hex2 : Dict.get? tbl (partEq (45 :: r)).1 = none := by
              cases h2 : (partEq (45 :: r)).2 with
              | none => rw [partEq_plain _ h2]; exact hex
              | some e =>
                cases h3 : Dict.get? tbl (partEq (45 :: r)).1 with
                | none => rfl
                | some k => exact absurd h3 (hnone e k h2)
            split at h
            · rename_i t ht
              subst h
              unfold optTuples at ht
              split at ht
              · have : Cls.ambiguous ∈ (tbl.filter fun o => (partEq (45 :: r)).1.isPrefixOf o.1).map fun o => Cls.opt o.1 o.2 (partEq (45 :: r)).2 := by
                  rw [ht]; simp
                simp at this
              · have : Cls.ambiguous ∈ tbl.filterMap fun o =>
                    if o.1 = (45 :: r).take 2 then some (Cls.opt o.1 o.2 (some ((45 :: r).drop 2)))
                    else if (45 :: r).isPrefixOf o.1 then some (.opt o.1 o.2 none)
                    else none := by rw [ht]; simp
                simp only [List.mem_filterMap] at this
                obtain ⟨o, _, ho⟩ := this
                split at ho
                · cases ho
                · split at ho <;> cases ho
            · rename_i t1 t2 ts ht
              unfold optTuples at ht
              split at ht
              · rename_i hd
                refine ⟨?_, ?_, hex2⟩
                · cases r with
                  | nil => exact absurd rfl hr
                  | cons d r => simp at hd; exact ⟨r, by rw [hd]⟩
                · have := congrArg List.length ht
                  simp only [List.length_map, List.length_cons] at this
                  omega
              · rename_i hd
                exfalso
                -- only the option -h can match
                have hle := short_matches tbl hh r hr hd
                have := congrArg List.length ht
                simp only [List.length_cons] at this
                omega
            · split at h
              · cases h
              · split at h <;> cases h

theorem filter_prefix_mem (tbl : OptTbl) (p : Str) (h : 2 ≤ (tbl.filter fun o => p.isPrefixOf o.1).length) :
    p ∈ tbl.flatMap fun o => (List.range (o.1.length + 1)).map (o.1.take ·) := by
  cases hf : tbl.filter fun o => p.isPrefixOf o.1 with
  | nil => rw [hf] at h; simp at h
  | cons o os =>
    have : o ∈ tbl.filter fun o => p.isPrefixOf o.1 := by rw [hf]; simp
    rw [List.mem_filter] at this
    rw [List.mem_flatMap]
    exact ⟨o, this.1, mem_prefixes this.2⟩

theorem ambig_connect (a : Str) (h : parseOptional connectOpts a = .ambiguous) : (partEq a).1 ∈ ambigConnect := by
  obtain ⟨⟨r, rfl⟩, h2, h3⟩ := ambiguous_prefix connectOpts (by decide) (by decide) a h
  rw [partEq_dd] at h2 h3 ⊢
  have hm := filter_prefix_mem _ _ h2
  generalize (partEq r).1 = q at *
  have : ∀ p ∈ connectOpts.flatMap (fun o => (List.range (o.1.length + 1)).map (o.1.take ·)),
      2 ≤ (connectOpts.filter fun o => p.isPrefixOf o.1).length → p.take 2 = [45, 45] → Dict.get? connectOpts p = none → p ∈ ambigConnect := by
    decide +kernel
  exact this _ hm h2 (by simp) h3

theorem ambig_listen (a : Str) (h : parseOptional listenOpts a = .ambiguous) : (partEq a).1 ∈ ambigListen := by
  obtain ⟨⟨r, rfl⟩, h2, h3⟩ := ambiguous_prefix listenOpts (by decide) (by decide) a h
  rw [partEq_dd] at h2 h3 ⊢
  have hm := filter_prefix_mem _ _ h2
  generalize (partEq r).1 = q at *
  have : ∀ p ∈ listenOpts.flatMap (fun o => (List.range (o.1.length + 1)).map (o.1.take ·)),
      2 ≤ (listenOpts.filter fun o => p.isPrefixOf o.1).length → p.take 2 = [45, 45] → Dict.get? listenOpts p = none → p ∈ ambigListen := by
    decide +kernel
  exact this _ hm h2 (by simp) h3

theorem classify_ambiguous (tbl : OptTbl) (l : List Str) (s : Str) (h : (s, Cls.ambiguous) ∈ classify tbl l) :
    s ∈ l ∧ s ≠ [45, 45] ∧ parseOptional tbl s = .ambiguous := by
  induction l with
  | nil => simp [classify] at h
  | cons x xs ih =>
    simp only [classify] at h
    split at h
    · simp at h
    · rename_i hx
      rcases List.mem_cons.1 h with h | h
      · simp only [Prod.mk.injEq] at h
        obtain ⟨rfl, h⟩ := h
        exact ⟨by simp, hx, h.symm⟩
      · obtain ⟨a, b, c⟩ := ih h
        exact ⟨by simp [a], b, c⟩

/-- Options first, then a word that does not start with a dash: that word and everything after
it is the remainder. -/
theorem subParse_remainder (eager : Bool) (tbl : OptTbl) (pre : List Str) (p : Str) (args : List Str) (ns : Dict Str Str)
    (hd : [45, 45] ∉ pre) (hc : consume (classify tbl pre) [] = some (ns, []))
    (hp : p.head? ≠ some 45)
    (ha : eager = true → ∀ a ∈ pre ++ args, a = [45, 45] ∨ parseOptional tbl a ≠ .ambiguous) :
    subParse eager tbl true (pre ++ p :: args) = some (ns, p :: args) := by
  have hpa := parseOptional_arg tbl p hp
  have hpd : p ≠ [45, 45] := by rintro rfl; simp at hp
  have hcl : classify tbl (pre ++ p :: args) = classify tbl pre ++ (p, .arg) :: classify tbl args := by
    rw [classify_append tbl pre _ hd, classify, if_neg hpd, hpa]
  unfold subParse
  simp only
  rw [if_neg]
  · rw [hcl, consume_append _ _ ns p _ hc, classify_fst]; simp
  · simp only [Bool.and_eq_true, List.any_eq_true, decide_eq_true_eq, not_and, not_exists]
    rintro he ⟨s, c⟩ hm rfl
    obtain ⟨h1, h2, h3⟩ := classify_ambiguous tbl _ s hm
    have hsp : s ≠ p := by rintro rfl; rw [hpa] at h3; cases h3
    have : s ∈ pre ++ args := by
      simp only [List.mem_append, List.mem_cons] at h1 ⊢
      rcases h1 with h1 | h1 | h1
      · exact Or.inl h1
      · exact absurd h1 hsp
      · exact Or.inr h1
    rcases ha he s this with h | h
    · exact h2 h
    · exact h h3

end Verif.Launch
