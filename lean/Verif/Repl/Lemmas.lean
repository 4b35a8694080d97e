import Verif.Repl.Model

namespace Verif.Repl

theorem lex_ws : ∀ (w s : Str), (∀ c ∈ w, shWs c = true) → lex .sp (w ++ s) = lex .sp s
  | [], _, _ => rfl
  | c :: w, s, h => by
    show (if shWs c then lex .sp (w ++ s) else _) = _
    rw [if_pos (h c List.mem_cons_self)]
    exact lex_ws w s (fun d hd => h d (List.mem_cons_of_mem _ hd))

/-- A plain character: it stands for itself outside of quotes. -/
def plainCh (c : Nat) : Bool := !shWs c && !isQuote c && c != 92

theorem plainCh_iff {c : Nat} : plainCh c = true ↔ shWs c = false ∧ isQuote c = false ∧ c ≠ 92 := by
  simp [plainCh, and_assoc]

theorem lex_word : ∀ (w s t : Str), (∀ c ∈ w, plainCh c = true) →
    lex (.word t) (w ++ s) = lex (.word (t ++ w)) s
  | [], s, t, _ => by simp
  | c :: w, s, t, h => by
    obtain ⟨h1, h2, h3⟩ := plainCh_iff.1 (h c List.mem_cons_self)
    show (if shWs c then _ else if isQuote c then _ else if c = 92 then _ else lex (.word (t ++ [c])) (w ++ s)) = _
    rw [if_neg (by simp [h1]), if_neg (by simp [h2]), if_neg h3,
      lex_word w s (t ++ [c]) (fun d hd => h d (List.mem_cons_of_mem _ hd))]
    simp

theorem lex_sp_word (c : Nat) (w s : Str) (h : ∀ d ∈ c :: w, plainCh d = true) :
    lex .sp (c :: w ++ s) = lex (.word (c :: w)) s := by
  obtain ⟨h1, h2, h3⟩ := plainCh_iff.1 (h c List.mem_cons_self)
  show (if shWs c then _ else if c = 92 then _ else if isQuote c then _ else lex (.word [c]) (w ++ s)) = _
  rw [if_neg (by simp [h1]), if_neg h3, if_neg (by simp [h2]),
    lex_word w s [c] (fun d hd => h d (List.mem_cons_of_mem _ hd))]
  simp

theorem lex_word_ws (t g s : Str) (hg : ∀ c ∈ g, shWs c = true) (hne : g ≠ [] ∨ s = []) :
    lex (.word t) (g ++ s) = (lex .sp s).map (t :: ·) := by
  cases g with
  | nil =>
    rcases hne with h | h
    · exact absurd rfl h
    · subst h; rfl
  | cons c g =>
    show (if shWs c then (lex .sp (g ++ s)).map (t :: ·) else _) = _
    rw [if_pos (hg c List.mem_cons_self), lex_ws g s (fun d hd => hg d (List.mem_cons_of_mem _ hd))]

/-- A plain word followed by white space (or the end) is one token. -/
theorem lex_plain (w g s : Str) (hw : w ≠ []) (hp : ∀ c ∈ w, plainCh c = true)
    (hg : ∀ c ∈ g, shWs c = true) (hne : g ≠ [] ∨ s = []) :
    lex .sp (w ++ (g ++ s)) = (lex .sp s).map (w :: ·) := by
  cases w with
  | nil => exact absurd rfl hw
  | cons c w => rw [lex_sp_word c w _ hp, lex_word_ws _ g s hg hne]

theorem lex_quote : ∀ (q : Nat) (w s t : Str), q ∉ w → (q = 34 → 92 ∉ w) →
    lex (.quote q t) (w ++ q :: s) = lex (.word (t ++ w)) s
  | q, [], s, t, _, _ => by simp [lex]
  | q, c :: w, s, t, h, hb => by
    have h1 : c ≠ q := fun e => h (e ▸ List.mem_cons_self)
    have h2 : ¬ (c = 92 ∧ q = 34) := fun ⟨e, e2⟩ => hb e2 (e ▸ List.mem_cons_self)
    show (if c = q then _ else if c = 92 ∧ q = 34 then _ else lex (.quote q (t ++ [c])) (w ++ q :: s)) = _
    rw [if_neg h1, if_neg h2, lex_quote q w s (t ++ [c]) (fun hm => h (List.mem_cons_of_mem _ hm))
      (fun e hm => hb e (List.mem_cons_of_mem _ hm))]
    simp

theorem isQuote_cases {q : Nat} (h : isQuote q = true) : q = 34 ∨ q = 39 := by
  simpa [isQuote] using h

/-- A quoted word followed by white space (or the end) is one token. -/
theorem lex_quoted (q : Nat) (w g s : Str) (hq : isQuote q = true) (h : q ∉ w) (hb : q = 34 → 92 ∉ w)
    (hg : ∀ c ∈ g, shWs c = true) (hne : g ≠ [] ∨ s = []) :
    lex .sp (q :: (w ++ q :: (g ++ s))) = (lex .sp s).map (w :: ·) := by
  have h0 : lex .sp (q :: (w ++ q :: (g ++ s))) = lex (.quote q []) (w ++ q :: (g ++ s)) := by
    rcases isQuote_cases hq with e | e <;> subst e <;> simp [lex, shWs, isQuote]
  rw [h0, lex_quote q w _ [] h hb, List.nil_append, lex_word_ws _ g s hg hne]

theorem uSpace_of_shWs {c : Nat} (h : shWs c = true) : uSpace c = true := by
  simp only [shWs, Bool.or_eq_true, beq_iff_eq] at h
  rcases h with ((h | h) | h) | h <;> subst h <;> decide

theorem lstrip_ws : ∀ (g s : Str), (∀ c ∈ g, shWs c = true) → lstrip (g ++ s) = lstrip s
  | [], _, _ => rfl
  | c :: g, s, h => by
    show (c :: (g ++ s)).dropWhile uSpace = _
    rw [List.dropWhile_cons_of_pos (uSpace_of_shWs (h c List.mem_cons_self))]
    exact lstrip_ws g s (fun d hd => h d (List.mem_cons_of_mem _ hd))

theorem lstrip_id (s : Str) (h : ∀ c, s.head? = some c → uSpace c = false) : lstrip s = s := by
  cases s with
  | nil => rfl
  | cons c s => exact List.dropWhile_cons_of_neg (by simp [h c rfl])

theorem isPrefixOf_append_self [DecidableEq α] (p s : List α) : p.isPrefixOf (p ++ s) = true :=
  List.isPrefixOf_iff_prefix.2 ⟨s, rfl⟩

/-- The first occurrence of `p` (whose first character is not in `w`) in `w ++ p ++ s`. -/
theorem afterFirst_skip : ∀ (w : Str) (c : Nat) (p s : Str), c ∉ w →
    afterFirst (c :: p) (w ++ (c :: p ++ s)) = some s
  | [], c, p, s, _ => by
    have : findSub (c :: p) (c :: p ++ s) = some 0 := by
      have h0 := isPrefixOf_append_self (c :: p) s
      rw [List.cons_append] at h0 ⊢
      unfold findSub
      rw [if_pos h0]
    show (findSub (c :: p) (c :: p ++ s)).map _ = some s
    rw [this]
    simp
  | d :: w, c, p, s, h => by
    have hd : c ≠ d := fun e => h (e ▸ List.mem_cons_self)
    have ih := afterFirst_skip w c p s (fun hm => h (List.mem_cons_of_mem _ hm))
    have : findSub (c :: p) (d :: (w ++ (c :: p ++ s))) = (findSub (c :: p) (w ++ (c :: p ++ s))).map (· + 1) := by
      show (if (c :: p).isPrefixOf (d :: _) then some 0 else _) = _
      rw [if_neg (by simp [List.isPrefixOf, hd])]
      
    show (findSub (c :: p) (d :: (w ++ (c :: p ++ s)))).map _ = some s
    rw [this]
    unfold afterFirst at ih
    cases hf : findSub (c :: p) (w ++ (c :: p ++ s)) with
    | none => rw [hf] at ih; cases ih
    | some i =>
      rw [hf] at ih
      have := Option.some.inj ih
      simp only [Option.map_some, Option.some.injEq]
      rw [show i + 1 + (c :: p).length = (i + (c :: p).length) + 1 by omega, List.cons_append, List.drop_succ_cons]
      exact this

theorem findSub_drop_suffix (p s r : Str) (h : afterFirst p s = some r) : ∃ l, s = l ++ p ++ r := by
  induction s generalizing r with
  | nil =>
    unfold afterFirst findSub at h
    split at h
    · next e => subst e; exact ⟨[], by simpa using h⟩
    · cases h
  | cons d s ih =>
    unfold afterFirst findSub at h
    split at h
    · next hp =>
      obtain ⟨t, ht⟩ := List.isPrefixOf_iff_prefix.1 hp
      have := Option.some.inj h
      rw [← ht] at this
      simp at this
      exact ⟨[], by rw [← ht, this]; simp⟩
    · cases hf : findSub p s with
      | none => rw [hf] at h; cases h
      | some i =>
        rw [hf] at h
        have h' : List.drop (i + 1 + p.length) (d :: s) = r := Option.some.inj h
        rw [show i + 1 + p.length = (i + p.length) + 1 by omega, List.drop_succ_cons] at h'
        obtain ⟨l, hl⟩ := ih r (by simp only [afterFirst, hf, Option.map_some, h'])
        exact ⟨d :: l, by simp [hl]⟩

theorem lstrip_suffix (s : Str) : lstrip s <:+ s := List.dropWhile_suffix _
theorem dropQuote_suffix (s : Str) : dropQuote s <:+ s := by
  cases s with
  | nil => exact List.suffix_refl _
  | cons c s =>
    simp only [dropQuote]; split
    · exact List.suffix_cons _ _
    · exact List.suffix_refl _

/-- The command words are plain words that argparse takes as positionals. -/
theorem cmd_facts {w : Str} {c : Cmd} (h : resolve w = some c) :
    w ≠ [] ∧ (∀ x ∈ w, plainCh x = true) ∧ classify w = .pos ∧ w ≠ py!"--" := by
  have hw : w = py!"remove_option" ∨ w = py!"ro" ∨ w = py!"set_option" ∨ w = py!"so" ∨ w = py!"set_hostvar" ∨
      w = py!"sh" ∨ w = py!"template" ∨ w = py!"t" := by
    apply Classical.byContradiction
    intro hn
    simp only [not_or] at hn
    obtain ⟨n1, n2, n3, n4, n5, n6, n7, n8⟩ := hn
    unfold resolve at h
    rw [if_neg (not_or.2 ⟨n1, n2⟩), if_neg (not_or.2 ⟨n3, n4⟩), if_neg (not_or.2 ⟨n5, n6⟩), if_neg (not_or.2 ⟨n7, n8⟩)] at h
    cases h
  rcases hw with e | e | e | e | e | e | e | e <;> subst e <;> decide

end Verif.Repl
