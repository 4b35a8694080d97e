import Verif.Repl.Model
/-!
# How a command line is split into words

The rules of a POSIX shell without expansions, declaratively, and the proof that `shlex.split` (the
model `lex`) follows them.
-/

namespace Verif.Repl

/-- Space, tab, CR or LF. -/
def ShBlank (c : Nat) : Prop := c = 32 ∨ c = 9 ∨ c = 13 ∨ c = 10

/-- What is between double quotes, and what it stands for: a backslash takes away the meaning of a
double quote or a backslash after it and is itself otherwise. -/
inductive Body : Str → Str → Prop where
  | nil : Body [] []
  | char {c b v} : c ≠ 34 → c ≠ 92 → Body b v → Body (c :: b) (c :: v)
  | escaped {c b v} : c = 34 ∨ c = 92 → Body b v → Body (92 :: c :: b) (c :: v)
  | backslash {c b v} : c ≠ 34 → c ≠ 92 → Body b v → Body (92 :: c :: b) (92 :: c :: v)

/-- A piece of a word, and what it stands for. -/
inductive Piece : Str → Str → Prop where
  | char {c} : ¬ ShBlank c → c ≠ 34 → c ≠ 39 → c ≠ 92 → Piece [c] [c]
  | escaped {c} : Piece [92, c] [c]
  | single {b} : 39 ∉ b → Piece (39 :: (b ++ [39])) b
  | double {b v} : Body b v → Piece (34 :: (b ++ [34])) v

/-- Pieces in a row. -/
inductive Pieces : Str → Str → Prop where
  | nil : Pieces [] []
  | cons {a v w x} : Piece a v → Pieces w x → Pieces (a ++ w) (v ++ x)

/-- A line and its words: blanks separate words, a word is one or more pieces in a row. -/
inductive ShellWords : Str → List Str → Prop where
  | nil : ShellWords [] []
  | blank {c s ws} : ShBlank c → ShellWords s ws → ShellWords (c :: s) ws
  | word {w v s ws} : w ≠ [] → Pieces w v → (∀ c, s.head? = some c → ShBlank c) → ShellWords s ws → ShellWords (w ++ s) (v :: ws)

theorem shWs_iff (c : Nat) : shWs c = true ↔ ShBlank c := by
  simp [shWs, ShBlank, or_assoc]

theorem isQuote_iff (c : Nat) : isQuote c = true ↔ c = 34 ∨ c = 39 := by simp [isQuote]

/-! ## Words are split as the rules say -/

theorem lex_body {b v : Str} (h : Body b v) : ∀ t s, lex (.quote 34 t) (b ++ s) = lex (.quote 34 (t ++ v)) s := by
  induction h with
  | nil => intro t s; simp
  | char h1 h2 _ ih => intro t s; simp only [List.cons_append, lex, h1, h2, if_false, false_and]; rw [ih]; simp
  | escaped h1 _ ih =>
    intro t s
    rcases h1 with rfl | rfl <;> (simp [lex]; rw [ih]; simp)
  | backslash h1 h2 _ ih =>
    intro t s
    simp [lex, h1, h2]; rw [ih]; simp

theorem lex_single : ∀ (b t s : Str), 39 ∉ b → lex (.quote 39 t) (b ++ s) = lex (.quote 39 (t ++ b)) s
  | [], t, s, _ => by simp
  | c :: b, t, s, h => by
    simp only [List.mem_cons, not_or] at h
    simp only [List.cons_append, lex]
    rw [if_neg (Ne.symm h.1), if_neg (by simp), lex_single b _ _ h.2]
    simp

theorem lex_piece {a v : Str} (h : Piece a v) (t s : Str) : lex (.word t) (a ++ s) = lex (.word (t ++ v)) s := by
  cases h with
  | @char c h1 h2 h3 h4 =>
    have hb : shWs c = false := by rw [← Bool.not_eq_true, shWs_iff]; exact h1
    have hq : isQuote c = false := by simp [isQuote, h2, h3]
    simp [lex, hb, hq, h4]
  | escaped => simp [lex, shWs, isQuote]
  | single h =>
    simp only [List.cons_append, List.append_assoc, lex]
    simp only [shWs, isQuote]
    simp only [Nat.reduceBEq, Bool.or_self, Bool.or_true, Bool.false_eq_true, if_false, if_true]
    rw [lex_single _ _ _ h]
    simp [lex]
  | double h =>
    simp only [List.cons_append, List.append_assoc, lex]
    simp only [shWs, isQuote]
    simp only [Nat.reduceBEq, Bool.or_self, Bool.true_or, Bool.false_eq_true, if_false, if_true]
    rw [lex_body h]
    simp [lex]

theorem lex_first {a v : Str} (h : Piece a v) (s : Str) : lex .sp (a ++ s) = lex (.word v) s := by
  cases h with
  | @char c h1 h2 h3 h4 =>
    have hb : shWs c = false := by rw [← Bool.not_eq_true, shWs_iff]; exact h1
    have hq : isQuote c = false := by simp [isQuote, h2, h3]
    simp [lex, hb, hq, h4]
  | escaped => simp [lex, shWs]
  | single h =>
    simp only [List.cons_append, List.append_assoc, lex]
    simp only [shWs, isQuote]
    simp only [Nat.reduceBEq, Nat.reduceEqDiff, Bool.or_self, Bool.or_true, Bool.false_eq_true, if_false, if_true]
    rw [lex_single _ _ _ h]
    simp [lex]
  | double h =>
    simp only [List.cons_append, List.append_assoc, lex]
    simp only [shWs, isQuote]
    simp only [Nat.reduceBEq, Nat.reduceEqDiff, Bool.or_self, Bool.true_or, Bool.false_eq_true, if_false, if_true]
    rw [lex_body h]
    simp [lex]

theorem piece_ne {a v : Str} (h : Piece a v) : a ≠ [] := by cases h <;> simp

theorem lex_pieces {w v : Str} (h : Pieces w v) : ∀ t s, lex (.word t) (w ++ s) = lex (.word (t ++ v)) s := by
  induction h with
  | nil => intro t s; simp
  | cons h1 _ ih => intro t s; rw [List.append_assoc, lex_piece h1, ih]; simp

theorem lex_of_words {s : Str} {ws : List Str} (h : ShellWords s ws) : lex .sp s = some ws := by
  induction h with
  | nil => rfl
  | blank h1 _ ih => simp [lex, (shWs_iff _).2 h1, ih]
  | @word w v s ws hne hp hb hs ih =>
    cases hp with
    | nil => exact absurd rfl hne
    | @cons a v' w' x h1 h2 =>
      rw [List.append_assoc, lex_first h1, lex_pieces h2]
      cases s with
      | nil =>
        simp only [lex] at ih
        cases ih
        simp [lex]
      | cons c s =>
        have hc := (shWs_iff c).2 (hb c rfl)
        simp only [lex, hc, if_true] at ih ⊢
        rw [ih]; rfl

/-! ## and conversely -/

/-- What is known of the text in a state when the rest is split into `r`. -/
def Sound : LexState → Str → List Str → Prop
  | .sp, s, r => ShellWords s r
  | .word t, s, r => ∃ w v rest r', s = w ++ rest ∧ Pieces w v ∧ (∀ c, rest.head? = some c → ShBlank c) ∧ ShellWords rest r' ∧ r = (t ++ v) :: r'
  | .quote q t, s, r => ∃ b bv rest w v rest' r', s = b ++ q :: rest ∧ (q = 34 → Body b bv) ∧ (q ≠ 34 → q ∉ b ∧ bv = b) ∧
      rest = w ++ rest' ∧ Pieces w v ∧ (∀ c, rest'.head? = some c → ShBlank c) ∧ ShellWords rest' r' ∧ r = (t ++ bv ++ v) :: r'
  | .esc none t, s, r => ∃ c w v rest r', s = c :: (w ++ rest) ∧ Pieces w v ∧ (∀ c, rest.head? = some c → ShBlank c) ∧ ShellWords rest r' ∧
      r = (t ++ [c] ++ v) :: r'
  | .esc (some q) t, s, r => ∃ c b bv rest w v rest' r', s = c :: (b ++ q :: rest) ∧ (q = 34 → Body b bv) ∧ (q ≠ 34 → q ∉ b ∧ bv = b) ∧
      rest = w ++ rest' ∧ Pieces w v ∧ (∀ c, rest'.head? = some c → ShBlank c) ∧ ShellWords rest' r' ∧
      r = (t ++ (if c ≠ 92 ∧ c ≠ q then [92, c] else [c]) ++ bv ++ v) :: r'

theorem lex_sound : ∀ (s : Str) (st : LexState) (r : List Str), lex st s = some r → Sound st s r
  | [], .sp, r, h => by simp only [lex] at h; cases h; exact .nil
  | [], .word t, r, h => by
    simp only [lex] at h; cases h
    exact ⟨[], [], [], [], rfl, .nil, by simp, .nil, by simp⟩
  | [], .quote q t, r, h => by simp [lex] at h
  | [], .esc none t, r, h => by simp [lex] at h
  | [], .esc (some q) t, r, h => by simp [lex] at h
  | c :: s, .sp, r, h => by
    simp only [lex] at h
    split at h
    · rename_i hc
      exact .blank ((shWs_iff c).1 hc) (lex_sound s _ _ h)
    · rename_i hc
      have hc : ¬ ShBlank c := by rw [← shWs_iff]; exact hc
      split at h
      · rename_i hc2; subst hc2
        obtain ⟨d, w, v, rest, r', e, h1, h2, h3, h4⟩ := lex_sound s _ _ h
        rw [e, h4]
        have : (92 : Nat) :: d :: (w ++ rest) = ([92, d] ++ w) ++ rest := by simp
        rw [this]
        refine .word (by simp) ?_ h2 h3
        simpa using Pieces.cons (.escaped (c := d)) h1
      · rename_i hc2
        split at h
        · rename_i hq
          obtain ⟨b, bv, rest, w, v, rest', r', e, h1, h2, e2, h3, h4, h5, h6⟩ := lex_sound s _ _ h
          rw [e, h6, e2]
          have : c :: (b ++ c :: (w ++ rest')) = ((c :: (b ++ [c])) ++ w) ++ rest' := by simp
          rw [this]
          refine .word (by simp) ?_ h4 h5
          simp only [List.nil_append]
          refine .cons ?_ h3
          rcases (isQuote_iff c).1 hq with rfl | rfl
          · exact .double (h1 rfl)
          · obtain ⟨g1, g2⟩ := h2 (by simp)
            rw [g2]; exact .single g1
        · rename_i hq
          have hq : ¬ (c = 34 ∨ c = 39) := by rw [← isQuote_iff]; exact hq
          rw [not_or] at hq
          obtain ⟨w, v, rest, r', e, h1, h2, h3, h4⟩ := lex_sound s _ _ h
          rw [e, h4]
          have : c :: (w ++ rest) = ([c] ++ w) ++ rest := by simp
          rw [this]
          refine .word (by simp) ?_ h2 h3
          exact .cons (.char hc hq.1 hq.2 hc2) h1
  | c :: s, .word t, r, h => by
    simp only [lex] at h
    split at h
    · rename_i hc
      cases hs : lex .sp s with
      | none => rw [hs] at h; cases h
      | some r' =>
        rw [hs] at h
        cases h
        have := lex_sound s _ _ hs
        refine ⟨[], [], c :: s, r', rfl, .nil, ?_, .blank ((shWs_iff c).1 hc) this, by simp⟩
        intro d hd; cases hd; exact (shWs_iff c).1 hc
    · rename_i hc
      have hc : ¬ ShBlank c := by rw [← shWs_iff]; exact hc
      split at h
      · rename_i hq
        obtain ⟨b, bv, rest, w, v, rest', r', e, h1, h2, e2, h3, h4, h5, h6⟩ := lex_sound s _ _ h
        refine ⟨(c :: (b ++ [c])) ++ w, bv ++ v, rest', r', by rw [e, e2]; simp, ?_, h4, h5, by rw [h6]; simp⟩
        refine .cons ?_ h3
        rcases (isQuote_iff c).1 hq with rfl | rfl
        · exact .double (h1 rfl)
        · obtain ⟨g1, g2⟩ := h2 (by simp)
          rw [g2]; exact .single g1
      · rename_i hq
        have hq : ¬ (c = 34 ∨ c = 39) := by rw [← isQuote_iff]; exact hq
        rw [not_or] at hq
        split at h
        · rename_i hc2; subst hc2
          obtain ⟨d, w, v, rest, r', e, h1, h2, h3, h4⟩ := lex_sound s _ _ h
          refine ⟨[92, d] ++ w, [d] ++ v, rest, r', by rw [e]; simp, .cons .escaped h1, h2, h3, by rw [h4]; simp⟩
        · rename_i hc2
          obtain ⟨w, v, rest, r', e, h1, h2, h3, h4⟩ := lex_sound s _ _ h
          exact ⟨[c] ++ w, [c] ++ v, rest, r', by rw [e]; simp, .cons (.char hc hq.1 hq.2 hc2) h1, h2, h3, by rw [h4]; simp⟩
  | c :: s, .quote q t, r, h => by
    simp only [lex] at h
    split at h
    · rename_i hc; subst hc
      obtain ⟨w, v, rest, r', e, h1, h2, h3, h4⟩ := lex_sound s _ _ h
      exact ⟨[], [], s, w, v, rest, r', rfl, fun _ => .nil, fun _ => ⟨by simp, rfl⟩, e, h1, h2, h3, by rw [h4]; simp⟩
    · rename_i hc
      split at h
      · rename_i h2
        obtain ⟨rfl, rfl⟩ := h2
        obtain ⟨d, b, bv, rest, w, v, rest', r', e, h1, -, e2, h3, h4, h5, h6⟩ := lex_sound s _ _ h
        refine ⟨92 :: d :: b, (if d ≠ 92 ∧ d ≠ 34 then [92, d] else [d]) ++ bv, rest, w, v, rest', r', by rw [e]; simp, fun _ => ?_, fun hn => absurd rfl hn, e2, h3, h4, h5, by rw [h6]; simp⟩
        split
        · rename_i hd; exact .backslash hd.2 hd.1 (h1 rfl)
        · rename_i hd
          refine .escaped ?_ (h1 rfl)
          by_cases hd1 : d = 92
          · exact .inr hd1
          · by_cases hd2 : d = 34
            · exact .inl hd2
            · exact absurd ⟨hd1, hd2⟩ hd
      · rename_i h2
        obtain ⟨b, bv, rest, w, v, rest', r', e, h1, h2', e2, h3, h4, h5, h6⟩ := lex_sound s _ _ h
        refine ⟨c :: b, c :: bv, rest, w, v, rest', r', by rw [e]; simp, fun hq => ?_, fun hq => ?_, e2, h3, h4, h5, by rw [h6]; simp⟩
        · subst hq
          exact .char hc (fun e => h2 ⟨e, rfl⟩) (h1 rfl)
        · obtain ⟨g1, g2⟩ := h2' hq
          exact ⟨by simp [g1, Ne.symm hc], by rw [g2]⟩
  | c :: s, .esc none t, r, h => by
    simp only [lex] at h
    obtain ⟨w, v, rest, r', e, h1, h2, h3, h4⟩ := lex_sound s _ _ h
    exact ⟨c, w, v, rest, r', by rw [e], h1, h2, h3, h4⟩
  | c :: s, .esc (some q) t, r, h => by
    simp only [lex] at h
    split at h
    · rename_i hd
      obtain ⟨b, bv, rest, w, v, rest', r', e, h1, h2', e2, h3, h4, h5, h6⟩ := lex_sound s _ _ h
      exact ⟨c, b, bv, rest, w, v, rest', r', by rw [e], h1, h2', e2, h3, h4, h5, by rw [h6, if_pos hd]⟩
    · rename_i hd
      obtain ⟨b, bv, rest, w, v, rest', r', e, h1, h2', e2, h3, h4, h5, h6⟩ := lex_sound s _ _ h
      exact ⟨c, b, bv, rest, w, v, rest', r', by rw [e], h1, h2', e2, h3, h4, h5, by rw [h6, if_neg hd]⟩

/-- `shlex.split` splits as the rules say, and fails exactly if they give nothing. -/
theorem split_iff (s : Str) (ws : List Str) : shlexSplit s = some ws ↔ ShellWords s ws :=
  ⟨fun h => lex_sound s .sp ws h, lex_of_words⟩

end Verif.Repl
