import Verif.Repl.Lemmas
import Verif.Repl.Shell

/-!
# C46: console commands

Specification vocabulary: a command line is `lead ++ word ++ gap ++ rest` where `lead` and `gap`
are blank, `word` is one of the eight command words; for the commands that take a name the rest is
`name ++ gap' ++ E`, or the name in quotes. `E` is what the user typed as the expression: the rest
of the line from its first non-blank character.
-/

namespace Verif.Repl

/-- Only blanks (space, tab, CR, LF). -/
def Blank (s : Str) : Prop := ∀ c ∈ s, ShBlank c

/-- The code points that Python's `str.isspace` accepts: TAB, LF, VT, FF, CR, the four information
separators, SPACE, NEL, NO-BREAK SPACE, and the Unicode spaces and separators. -/
def pySpaces : List Nat :=
  [9, 10, 11, 12, 13, 28, 29, 30, 31, 32, 133, 160, 5760, 8192, 8193, 8194, 8195, 8196, 8197, 8198, 8199,
   8200, 8201, 8202, 8232, 8233, 8239, 8287, 12288]

/-- The text starts with a character that is not white space (or is empty). -/
def Trimmed (s : Str) : Prop := ∀ c, s.head? = some c → c ∉ pySpaces

theorem uSpace_iff (c : Nat) : uSpace c = true ↔ c ∈ pySpaces := by
  simp only [uSpace, pySpaces, Bool.or_eq_true, Bool.and_eq_true, decide_eq_true_eq, beq_iff_eq, List.mem_cons, List.not_mem_nil, or_false]
  constructor <;> intro h <;> omega

theorem trimmed_iff (s : Str) : Trimmed s ↔ ∀ c, s.head? = some c → uSpace c = false := by
  refine ⟨fun h c hc => ?_, fun h c hc hm => ?_⟩
  · rw [← Bool.not_eq_true, uSpace_iff]; exact h c hc
  · rw [← uSpace_iff, h c hc] at hm; cases hm

theorem blank_iff (s : Str) : Blank s ↔ ∀ c ∈ s, shWs c = true :=
  ⟨fun h c hc => (shWs_iff c).2 (h c hc), fun h c hc => (shWs_iff c).1 (h c hc)⟩

/-- A word that asks for help: `-h...`, or `--help` or an abbreviation of it (`--`, followed by
some of the letters of `help`, possibly `=...`). -/
def HelpWord (t : Str) : Prop :=
  t ≠ py!"--" ∧ (py!"-h" <+: t ∨ (py!"--" <+: t ∧ t.takeWhile (· ≠ 61) <+: py!"--help"))

/-- The text is split into words without an error and none of the words (before a `--`) asks for
help. -/
def CleanText (s : Str) : Prop :=
  ∃ ws, ShellWords s ws ∧ ∀ t ∈ ws.takeWhile (· ≠ py!"--"), ¬ HelpWord t

/-- A name that needs no quotes: not empty, no blank, quote or backslash in it, not starting with
a dash (nor with an exotic Unicode space). -/
def PlainName (n : Str) : Prop :=
  n ≠ [] ∧ (∀ c ∈ n, ¬ ShBlank c ∧ c ≠ 34 ∧ c ≠ 39 ∧ c ≠ 92) ∧ n.head? ≠ some 45 ∧ Trimmed n

theorem plainCh_spec {c : Nat} : plainCh c = true ↔ ¬ ShBlank c ∧ c ≠ 34 ∧ c ≠ 39 ∧ c ≠ 92 := by
  rw [plainCh_iff, ← Bool.not_eq_true, shWs_iff, ← Bool.not_eq_true, isQuote_iff, not_or, and_assoc]

theorem classify_dash (s : Str) : classify (45 :: s) =
    if 45 :: s = py!"-h" ∨ 45 :: s = py!"--help" then .help
    else if s = [] then .pos
    else if 61 ∈ 45 :: s ∧ (beforeEq (45 :: s) = py!"-h" ∨ beforeEq (45 :: s) = py!"--help") then .help
    else if py!"--".isPrefixOf (45 :: s) = true ∧ (beforeEq (45 :: s)).isPrefixOf py!"--help" = true then .help
    else if py!"-h".isPrefixOf (45 :: s) = true then .help
    else if isNegNum (45 :: s) then .pos
    else if 32 ∈ 45 :: s then .pos
    else .unknown := by
  rw [classify]
  exact if_neg (fun h => h rfl)

theorem classify_help_iff (t : Str) (hne : t ≠ py!"--") : classify t = .help ↔ HelpWord t := by
  unfold HelpWord
  rw [show t.takeWhile (· ≠ 61) = beforeEq t from rfl]
  cases t with
  | nil => simp [classify]
  | cons c s =>
    by_cases hc : c = 45
    · subst hc
      have hpre : beforeEq (45 :: s) <+: 45 :: s := List.takeWhile_prefix _
      rw [classify_dash]
      by_cases c1 : 45 :: s = py!"-h" ∨ 45 :: s = py!"--help"
      · rw [if_pos c1]
        refine ⟨fun _ => ⟨hne, ?_⟩, fun _ => rfl⟩
        rcases c1 with e | e <;> rw [e]
        · exact .inl (List.prefix_refl _)
        · exact .inr (by decide)
      rw [if_neg c1]
      by_cases c2 : s = []
      · subst c2; decide
      rw [if_neg c2]
      by_cases c3 : 61 ∈ 45 :: s ∧ (beforeEq (45 :: s) = py!"-h" ∨ beforeEq (45 :: s) = py!"--help")
      · rw [if_pos c3]
        refine ⟨fun _ => ⟨hne, ?_⟩, fun _ => rfl⟩
        obtain ⟨_, e | e⟩ := c3 <;> rw [e] at hpre ⊢
        · exact .inl hpre
        · exact .inr ⟨List.IsPrefix.trans (by decide) hpre, List.prefix_refl _⟩
      rw [if_neg c3]
      by_cases c4 : py!"--".isPrefixOf (45 :: s) = true ∧ (beforeEq (45 :: s)).isPrefixOf py!"--help" = true
      · rw [if_pos c4]
        exact ⟨fun _ => ⟨hne, .inr ⟨List.isPrefixOf_iff_prefix.1 c4.1, List.isPrefixOf_iff_prefix.1 c4.2⟩⟩, fun _ => rfl⟩
      rw [if_neg c4]
      by_cases c5 : py!"-h".isPrefixOf (45 :: s) = true
      · rw [if_pos c5]
        exact ⟨fun _ => ⟨hne, .inl (List.isPrefixOf_iff_prefix.1 c5)⟩, fun _ => rfl⟩
      rw [if_neg c5]
      constructor
      · intro h
        split at h
        · cases h
        · split at h <;> cases h
      · rintro ⟨_, h | h⟩
        · exact absurd (List.isPrefixOf_iff_prefix.2 h) c5
        · exact absurd ⟨List.isPrefixOf_iff_prefix.2 h.1, List.isPrefixOf_iff_prefix.2 h.2⟩ c4
    · constructor
      · intro h
        simp [classify, hc] at h
      · rintro ⟨_, ⟨l, h⟩ | ⟨⟨l, h⟩, _⟩⟩ <;> · simp at h; exact absurd h.1.symm hc

theorem asksHelp_false_iff : ∀ ws : List Str,
    asksHelp ws = false ↔ ∀ t ∈ ws.takeWhile (· ≠ py!"--"), ¬ HelpWord t
  | [] => by simp [asksHelp]
  | t :: r => by
    by_cases ht : t = py!"--"
    · subst ht; simp [asksHelp]
    · rw [List.takeWhile_cons_of_pos (by simp [ht])]
      simp only [asksHelp, if_neg ht, Bool.or_eq_false_iff, List.forall_mem_cons]
      rw [asksHelp_false_iff r, ← classify_help_iff t ht]
      simp

theorem plainName_pos {n : Str} (h : PlainName n) : classify n = .pos ∧ n ≠ py!"--" := by
  obtain ⟨h1, _, h3, _⟩ := h
  cases n with
  | nil => exact absurd rfl h1
  | cons c s =>
    have hc : c ≠ 45 := fun e => h3 (by rw [e]; rfl)
    exact ⟨by simp [classify, hc], by simp [hc]⟩

theorem asksHelp_pos {n : Str} {r : List Str} (h : classify n = .pos) (h2 : n ≠ py!"--") :
    asksHelp (n :: r) = asksHelp r := by
  simp [asksHelp, h2, h]

theorem blank_first {c : Nat} {lead : Str} (h : Blank lead) (hc : plainCh c = true) : c ∉ lead := by
  intro hm
  exact (plainCh_spec.1 hc).1 (h c hm)

/-- The words of a command line. -/
theorem line_words {w lead gap R : Str} {c : Cmd} (hw : resolve w = some c) (hl : Blank lead) (hg : Blank gap)
    (hne : gap ≠ [] ∨ R = []) :
    shlexSplit (lead ++ (w ++ (gap ++ R))) = (shlexSplit R).map (w :: ·) := by
  obtain ⟨h1, h2, _, _⟩ := cmd_facts hw
  unfold shlexSplit
  rw [lex_ws _ _ ((blank_iff _).1 hl), lex_plain w gap R h1 h2 ((blank_iff _).1 hg) hne]

theorem line_after {w lead R : Str} {c : Cmd} (hw : resolve w = some c) (hl : Blank lead) :
    afterFirst w (lead ++ (w ++ R)) = some R := by
  obtain ⟨h1, h2, _, _⟩ := cmd_facts hw
  cases w with
  | nil => exact absurd rfl h1
  | cons a w => exact afterFirst_skip lead a w R (blank_first hl (h2 a List.mem_cons_self))

theorem line_main {w : Str} {c : Cmd} (hw : resolve w = some c) (r : List Str) :
    mainParse (w :: r) = some (w, r) := by
  obtain ⟨_, _, h3, h4⟩ := cmd_facts hw
  simp [mainParse, h3, h4]

/-- A name that cannot be written without quotes may be anything that argparse does not take for an
option: it does not start with a dash, or it contains a space. -/
theorem quoted_pos {n : Str} (h : n.head? ≠ some 45 ∨ 32 ∈ n) (hh : ¬ HelpWord n) (hd : n ≠ py!"--") :
    classify n = .pos := by
  have hnh : classify n ≠ .help := fun e => hh ((classify_help_iff n hd).1 e)
  cases n with
  | nil => rfl
  | cons a n =>
    by_cases ha : a = 45
    · subst ha
      rcases h with h | h
      · exact absurd rfl h
      · rw [classify_dash] at hnh ⊢
        repeat' split
        all_goals first
          | rfl
          | (exfalso; simp_all)
    · simp [classify, ha]

/-! ## The theorems -/

/-- **C46, template.** `! template E` and `! t E`: the expression evaluated in the frame is exactly
the text `E` the user typed, for every expression text that splits into shell words without asking
for help (the missing cases are exactly the ones of `C46_template_otherwise`). -/
theorem C46_template_partial (f : Int) (hf : f ≠ 0) (w lead gap E : Str)
    (hw : w = py!"template" ∨ w = py!"t") (hl : Blank lead) (hg : Blank gap) (hne : gap ≠ [] ∨ E = [])
    (hE : Trimmed E) (hc : CleanText E) :
    evalRoute (some py!"repl") (33 :: (lead ++ (w ++ (gap ++ E)))) (some f) =
      .command f (some (.template E)) := by
  have hr : resolve w = some .template := by rcases hw with e | e <;> subst e <;> decide
  obtain ⟨ws, h1, h2⟩ := hc
  rw [← split_iff] at h1
  have : parseRepl (lead ++ (w ++ (gap ++ E))) = some (.template E) := by
    unfold parseRepl
    rw [line_words hr hl hg hne, h1]
    simp only [Option.map_some, line_main hr, hr, (asksHelp_false_iff ws).2 h2, line_after hr hl]
    rw [lstrip_ws gap E ((blank_iff _).1 hg), lstrip_id E ((trimmed_iff _).1 hE)]
    rfl
  simp [evalRoute, hf, this]

/-- **C46, the rest of template.** In the remaining cases nothing is evaluated: an expression with
an open quote or a trailing backslash (in the sense of the shell, not of Jinja) raises an error,
one with a help word shows the help text. -/
theorem C46_template_otherwise (f : Int) (hf : f ≠ 0) (w lead gap E : Str)
    (hw : w = py!"template" ∨ w = py!"t") (hl : Blank lead) (hg : Blank gap) (hne : gap ≠ [] ∨ E = [])
    (hc : ¬ CleanText E) :
    ((∃ ws, ShellWords E ws) →
      evalRoute (some py!"repl") (33 :: (lead ++ (w ++ (gap ++ E)))) (some f) = .command f (some .text)) ∧
    ((¬ ∃ ws, ShellWords E ws) →
      evalRoute (some py!"repl") (33 :: (lead ++ (w ++ (gap ++ E)))) (some f) = .command f none) := by
  have hr : resolve w = some .template := by rcases hw with e | e <;> subst e <;> decide
  have h0 : parseRepl (lead ++ (w ++ (gap ++ E))) = if shlexSplit E = none then none else some .text := by
    unfold parseRepl
    rw [line_words hr hl hg hne]
    cases h1 : shlexSplit E with
    | none => simp
    | some ws =>
      have h2 : asksHelp ws = true := by
        cases h : asksHelp ws with
        | true => rfl
        | false => exact absurd ⟨ws, (split_iff _ _).1 h1, (asksHelp_false_iff ws).1 h⟩ hc
      simp [line_main hr, hr, h2]
  refine ⟨fun ⟨ws, h⟩ => ?_, fun h => ?_⟩
  · simp [evalRoute, hf, h0, (split_iff _ _).2 h]
  · have : shlexSplit E = none := by
      cases h1 : shlexSplit E with
      | none => rfl
      | some ws => exact absurd ⟨ws, (split_iff _ _).1 h1⟩ h
    simp [evalRoute, hf, h0, this]

/-- The rest of the line after a name written plainly. -/
theorem plain_after {n gap E : Str} (hn : PlainName n) (hg : Blank gap) (hne : gap ≠ [] ∨ E = []) (hE : Trimmed E) :
    (afterFirst n (lstrip (n ++ (gap ++ E)))).map (fun r => lstrip (dropQuote r)) = some E := by
  obtain ⟨h1, h2, _, h4⟩ := hn
  cases n with
  | nil => exact absurd rfl h1
  | cons a n =>
    rw [lstrip_id (a :: n ++ (gap ++ E)) ((trimmed_iff _).1 h4)]
    have := afterFirst_skip [] a n (gap ++ E) (by simp)
    rw [List.nil_append] at this
    rw [this]
    simp only [Option.map_some, Option.some.injEq]
    cases gap with
    | nil =>
      rcases hne with h | h
      · exact absurd rfl h
      · subst h; rfl
    | cons g gap =>
      have hq : isQuote g = false := by
        rcases hg g List.mem_cons_self with h | h | h | h <;> subst h <;> decide
      have : dropQuote (g :: gap ++ E) = g :: gap ++ E := by simp [dropQuote, hq]
      rw [this, lstrip_ws _ _ ((blank_iff _).1 hg), lstrip_id E ((trimmed_iff _).1 hE)]

/-- The rest of the line after a name in quotes. -/
theorem quoted_after {q : Nat} {n gap E : Str} (hq : isQuote q = true) (hn : n ≠ []) (hqn : q ∉ n)
    (hg : Blank gap) (hE : Trimmed E) :
    (afterFirst n (lstrip (q :: (n ++ q :: (gap ++ E))))).map (fun r => lstrip (dropQuote r)) = some E := by
  cases n with
  | nil => exact absurd rfl hn
  | cons a n =>
    have hu : uSpace q = false := by rcases isQuote_cases hq with e | e <;> subst e <;> decide
    rw [lstrip_id _ (fun c hc => by
      have : q = c := Option.some.inj hc
      rw [← this]; exact hu)]
    have := afterFirst_skip [q] a n (q :: (gap ++ E)) (by
      intro hm
      have := List.mem_singleton.1 hm
      exact hqn (this ▸ List.mem_cons_self))
    have e : q :: (a :: n ++ q :: (gap ++ E)) = [q] ++ (a :: n ++ q :: (gap ++ E)) := rfl
    rw [e, this]
    simp [dropQuote, hq, lstrip_ws gap E ((blank_iff _).1 hg), lstrip_id E ((trimmed_iff _).1 hE)]

/-- The ways to write a name on the command line: plainly, or between quote characters that do not
occur in it (no backslash within double quotes, where it is an escape character). -/
inductive Written (n : Str) : Str → Prop where
  | plain : PlainName n → Written n n
  | quoted (q : Nat) : q = 34 ∨ q = 39 → n ≠ [] → q ∉ n → (q = 34 → 92 ∉ n) →
      (n.head? ≠ some 45 ∨ 32 ∈ n) → ¬ HelpWord n → n ≠ py!"--" → Written n (q :: (n ++ [q]))

theorem written_words {n N gap E : Str} (h : Written n N) (hg : Blank gap) (hne : gap ≠ [] ∨ E = []) :
    shlexSplit (N ++ (gap ++ E)) = (shlexSplit E).map (n :: ·) := by
  cases h with
  | plain h => exact lex_plain n gap E h.1 (fun c hc => plainCh_spec.2 (h.2.1 c hc)) ((blank_iff _).1 hg) hne
  | quoted q h1 h2 h3 h4 h5 h6 h7 =>
    have := lex_quoted q n gap E ((isQuote_iff q).2 h1) h3 h4 ((blank_iff _).1 hg) hne
    simpa [shlexSplit] using this

theorem written_pos {n N : Str} (h : Written n N) : classify n = .pos ∧ n ≠ py!"--" := by
  cases h with
  | plain h => exact plainName_pos h
  | quoted q h1 h2 h3 h4 h5 h6 h7 => exact ⟨quoted_pos h5 h6 h7, h7⟩

theorem written_after {n N gap E : Str} (h : Written n N) (hg : Blank gap) (hne : gap ≠ [] ∨ E = []) (hE : Trimmed E) :
    (afterFirst n (lstrip (N ++ (gap ++ E)))).map (fun r => lstrip (dropQuote r)) = some E := by
  cases h with
  | plain h => exact plain_after h hg hne hE
  | quoted q h1 h2 h3 h4 h5 h6 h7 =>
    have := quoted_after ((isQuote_iff q).2 h1) h2 h3 hg hE
    simpa using this

theorem written_start {n N R : Str} (h : Written n N) : lstrip (N ++ R) = N ++ R ∧ N ≠ [] := by
  cases h with
  | plain h =>
    obtain ⟨h1, _, _, h4⟩ := h
    cases n with
    | nil => exact absurd rfl h1
    | cons a n => exact ⟨lstrip_id _ ((trimmed_iff _).1 h4), by simp⟩
  | quoted q h1 h2 h3 h4 h5 h6 h7 =>
    refine ⟨lstrip_id _ (fun c hc => ?_), by simp⟩
    have : q = c := Option.some.inj hc
    rw [← this]
    rcases h1 with e | e <;> subst e <;> decide

/-- **C46, set.** `! set_option NAME E` / `! so NAME E` and `! set_hostvar NAME E` / `! sh NAME E`:
the name is NAME (written plainly or in quotes) and the expression is exactly the text `E`, for
every `E` that splits into shell words without asking for help. -/
theorem C46_set_partial (f : Int) (hf : f ≠ 0) (w lead gap gap' name N E : Str) (opt : Bool)
    (hw : w = (bif opt then py!"set_option" else py!"set_hostvar") ∨ w = (bif opt then py!"so" else py!"sh"))
    (hl : Blank lead) (hg : Blank gap) (hne : gap ≠ [])
    (hN : Written name N) (hg' : Blank gap') (hne' : gap' ≠ [] ∨ E = [])
    (hE : Trimmed E) (hc : CleanText E) :
    evalRoute (some py!"repl") (33 :: (lead ++ (w ++ (gap ++ (N ++ (gap' ++ E)))))) (some f) =
      .command f (some (bif opt then .setOption name E else .setHostvar name E)) := by
  obtain ⟨ws, h1, h2⟩ := hc
  rw [← split_iff] at h1
  obtain ⟨p1, p2⟩ := written_pos hN
  have hh : asksHelp (name :: ws) = false := by rw [asksHelp_pos p1 p2]; exact (asksHelp_false_iff ws).2 h2
  have hfp : firstPos (name :: ws) = some name := by simp [firstPos, p1, p2]
  have hr : resolve w = some (bif opt then .setOption else .setHostvar) := by
    cases opt <;> rcases hw with e | e <;> subst e <;> decide
  have ha := written_after hN hg' hne' hE
  have hst := written_start hN (R := gap' ++ E)
  rw [hst.1] at ha
  have : parseRepl (lead ++ (w ++ (gap ++ (N ++ (gap' ++ E))))) =
      some (bif opt then .setOption name E else .setHostvar name E) := by
    unfold parseRepl
    rw [line_words hr hl hg (.inl hne), written_words hN hg' hne', h1]
    simp only [Option.map_some, line_main hr, hr, hh, line_after hr hl, Option.bind_some, hfp]
    rw [lstrip_ws gap _ ((blank_iff _).1 hg), hst.1]
    cases haf : afterFirst name (N ++ (gap' ++ E)) with
    | none => rw [haf] at ha; cases ha
    | some r =>
      rw [haf] at ha
      have hr' := Option.some.inj ha
      cases opt <;> simp [hr']
  simp [evalRoute, hf, this]

/-- **C46, remove.** `! remove_option NAME` / `! ro NAME` removes the option called NAME. -/
theorem C46_remove_partial (f : Int) (hf : f ≠ 0) (w lead gap gap' name N : Str)
    (hw : w = py!"remove_option" ∨ w = py!"ro") (hl : Blank lead) (hg : Blank gap) (hne : gap ≠ [])
    (hN : Written name N) (hg' : Blank gap') :
    evalRoute (some py!"repl") (33 :: (lead ++ (w ++ (gap ++ (N ++ gap'))))) (some f) =
      .command f (some (.remove name)) := by
  obtain ⟨p1, p2⟩ := written_pos hN
  have hr : resolve w = some .removeOption := by rcases hw with e | e <;> subst e <;> decide
  have hwd := written_words (E := []) hN hg' (.inr rfl)
  rw [List.append_nil] at hwd
  have : parseRepl (lead ++ (w ++ (gap ++ (N ++ gap')))) = some (.remove name) := by
    unfold parseRepl
    rw [line_words hr hl hg (.inl hne), hwd]
    have e1 : shlexSplit [] = some [] := rfl
    have e2 : asksHelp [name] = false := by rw [asksHelp_pos p1 p2]; rfl
    have e3 : firstPos [name] = some name := by simp [firstPos, p1, p2]
    simp only [e1, Option.map_some, line_main hr, hr, e2, e3]
    rfl
  simp [evalRoute, hf, this]

/-- **C46, every line.** Whatever the line is, an expression that is evaluated is a tail of the
text that was typed, without leading blanks: nothing is unquoted, reordered or dropped inside of it. -/
theorem C46_tail_partial (f : Int) (line E : Str) (r : Res)
    (h : evalRoute (some py!"repl") (33 :: line) (some f) = .command f (some r))
    (hr : r = .template E ∨ (∃ n, r = .setOption n E) ∨ ∃ n, r = .setHostvar n E) :
    E <:+ line ∧ Trimmed E := by
  have htrim : ∀ s : Str, Trimmed (lstrip s) := by
    intro s
    rw [trimmed_iff]
    intro c hc
    have := List.head?_dropWhile_not uSpace s
    rw [show List.dropWhile uSpace s = lstrip s from rfl, hc] at this
    simpa using this
  have hp : parseRepl line = some r := by
    simp only [evalRoute] at h
    split at h
    · cases h
    · have h' : Action.command f (parseRepl line) = .command f (some r) := by simpa using h
      cases hpl : parseRepl line <;> rw [hpl] at h' <;> cases h'
      rfl
  unfold parseRepl at hp
  split at hp
  · cases hp
  next toks _ =>
  split at hp
  · cases hp; rcases hr with h | ⟨_, h⟩ | ⟨_, h⟩ <;> cases h
  next command rest _ =>
  split at hp
  · cases hp; rcases hr with h | ⟨_, h⟩ | ⟨_, h⟩ <;> cases h
  next cmd _ =>
  split at hp
  · cases hp; rcases hr with h | ⟨_, h⟩ | ⟨_, h⟩ <;> cases h
  have hset : ∀ name x, ((afterFirst command line).bind fun r => afterFirst name (lstrip r)).map
      (fun r => lstrip (dropQuote r)) = some x → x <:+ line ∧ Trimmed x := by
    intro name x hx
    cases h1 : afterFirst command line with
    | none => rw [h1] at hx; cases hx
    | some u =>
      rw [h1] at hx
      cases h2 : afterFirst name (lstrip u) with
      | none => rw [Option.bind_some, h2] at hx; cases hx
      | some v =>
        rw [Option.bind_some, h2] at hx
        have hx' : lstrip (dropQuote v) = x := Option.some.inj hx
        obtain ⟨l1, e1⟩ := findSub_drop_suffix _ _ _ h1
        obtain ⟨l2, e2⟩ := findSub_drop_suffix _ _ _ h2
        refine ⟨?_, hx' ▸ htrim _⟩
        rw [← hx']
        have s1 : u <:+ line := ⟨l1 ++ command, by rw [e1]⟩
        have s2 : v <:+ lstrip u := ⟨l2 ++ name, by rw [e2]⟩
        exact (lstrip_suffix _).trans ((dropQuote_suffix v).trans (s2.trans ((lstrip_suffix u).trans s1)))
  cases cmd with
  | removeOption =>
    simp only at hp
    split at hp <;> · cases hp; rcases hr with h | ⟨_, h⟩ | ⟨_, h⟩ <;> cases h
  | template =>
    simp only at hp
    cases h1 : afterFirst command line with
    | none => rw [h1] at hp; cases hp
    | some u =>
      rw [h1] at hp
      cases hp
      rcases hr with h | ⟨_, h⟩ | ⟨_, h⟩ <;> cases h
      obtain ⟨l1, e1⟩ := findSub_drop_suffix _ _ _ h1
      exact ⟨(lstrip_suffix u).trans ⟨l1 ++ command, by rw [e1]⟩, htrim _⟩
  | setOption =>
    simp only at hp
    split at hp
    · cases hp; rcases hr with h | ⟨_, h⟩ | ⟨_, h⟩ <;> cases h
    · next name _ =>
      rw [Option.map_eq_some_iff] at hp
      obtain ⟨v, hv, e⟩ := hp
      subst e
      rcases hr with h | ⟨_, h⟩ | ⟨_, h⟩ <;> cases h
      exact hset name _ (by rw [hv]; rfl)
  | setHostvar =>
    simp only at hp
    split at hp
    · cases hp; rcases hr with h | ⟨_, h⟩ | ⟨_, h⟩ <;> cases h
    · next name _ =>
      rw [Option.map_eq_some_iff] at hp
      obtain ⟨v, hv, e⟩ := hp
      subst e
      rcases hr with h | ⟨_, h⟩ | ⟨_, h⟩ <;> cases h
      exact hset name _ (by rw [hv]; rfl)

/-- **C46, no command.** An expression that is not a console command is evaluated verbatim in the
debug console, the watch pane and for copying a value; other contexts, and requests without a
frame, evaluate nothing. -/
theorem C46_verbatim_partial (f : Int) (hf : f ≠ 0) (E ctx : Str) :
    (ctx = py!"repl" → E.head? ≠ some 33 → evalRoute (some ctx) E (some f) = .expression f E) ∧
    (ctx = py!"watch" ∨ ctx = py!"clipboard" ∨ ctx = py!"variables" → evalRoute (some ctx) E (some f) = .expression f E) ∧
    (ctx ≠ py!"repl" → ctx ≠ py!"watch" → ctx ≠ py!"clipboard" → ctx ≠ py!"variables" →
      evalRoute (some ctx) E (some f) = .notImplemented) ∧
    evalRoute none E (some f) = .notImplemented ∧
    (∀ c, evalRoute c E none = .notImplemented ∧ evalRoute c E (some 0) = .notImplemented) := by
  refine ⟨?_, ?_, ?_, ?_, ?_⟩
  · rintro rfl h; simp [evalRoute, hf, h]
  · rintro (rfl | rfl | rfl) <;> simp [evalRoute, hf]
  · intro h1 h2 h3 h4; simp [evalRoute, hf, h1, h2, h3, h4]
  · simp [evalRoute, hf]
  · intro c; simp [evalRoute]

/-- **C46 is violated** for an expression whose quotes do not pair up for the shell although they do
in Jinja: `t 'it\'s'` raises an error instead of evaluating `'it\'s'`. -/
theorem C46_escaped_quote_refuted :
    ¬ ∀ E : Str, Trimmed E → E ≠ [] →
      evalRoute (some py!"repl") (33 :: (py!" t " ++ E)) (some 1) = .command 1 (some (.template E)) := by
  intro h
  have := h py!"'it\\'s'" (by intro c hc; cases hc; decide) (by decide)
  exact absurd this (by decide)

/-- **C46 is violated** for an expression that contains a word like `-h`: `t a -h` shows the help
instead of evaluating `a -h` (Jinja: a minus h). -/
theorem C46_minus_h_refuted :
    ¬ ∀ E : Str, Trimmed E → E ≠ [] → (∃ ws, ShellWords E ws) →
      evalRoute (some py!"repl") (33 :: (py!" t " ++ E)) (some 1) = .command 1 (some (.template E)) := by
  intro h
  have := h py!"a -h" (by intro c hc; cases hc; decide) (by decide) ⟨[py!"a", py!"-h"], (split_iff _ _).1 (by decide)⟩
  exact absurd this (by decide)

/-- **C46 is violated** for an empty name: `so '' 5` sets the option with the empty name to the
expression `' 5` (with a stray quote). -/
theorem C46_empty_name_refuted :
    evalRoute (some py!"repl") py!"! so '' 5" (some 1) = .command 1 (some (.setOption [] py!"' 5")) := by
  decide

/-- **C46 is violated** for a command or name that is written with an escape: the words are found
by `shlex` but not in the text, which raises an error. -/
theorem C46_escaped_name_refuted :
    evalRoute (some py!"repl") py!"! so a\\ b 5" (some 1) = .command 1 none ∧
    ShellWords py!" so a\\ b 5" [py!"so", py!"a b", py!"5"] := by
  rw [← split_iff]; decide

/-- **C46, words.** A line is taken apart into words as a POSIX shell does it (without expansions),
and is refused exactly if it has an open quote or a trailing backslash, i.e. if the rules give no words. -/
theorem C46_words_partial (line : Str) (ws : List Str) : shlexSplit line = some ws ↔ ShellWords line ws :=
  split_iff line ws

/-- An option nobody knows: a dash and some text without blanks, quotes, backslashes, that is neither
`--`, nor help, nor a negative number. -/
def UnknownOption (o : Str) : Prop :=
  ∃ c s, o = 45 :: c :: s ∧ (∀ d ∈ o, ¬ ShBlank d ∧ d ≠ 34 ∧ d ≠ 39 ∧ d ≠ 92) ∧ ¬ HelpWord o ∧ o ≠ py!"--" ∧
    c ≠ 46 ∧ ¬ (48 ≤ c ∧ c ≤ 57)

theorem unknown_class {o : Str} (h : UnknownOption o) : classify o = .unknown ∧ o ≠ py!"--" := by
  obtain ⟨c, s, rfl, h1, h2, h3, h4, h5⟩ := h
  refine ⟨?_, h3⟩
  have hh : classify (45 :: c :: s) ≠ .help := fun e => h2 ((classify_help_iff _ h3).1 e)
  have hn : isNegNum (45 :: c :: s) = false := by
    have hd : isDig c = false := by
      simp only [isDig, Bool.and_eq_false_iff, decide_eq_false_iff_not]; omega
    simp only [isNegNum, List.all_cons, hd, List.dropWhile_cons, Bool.false_eq_true, if_false, List.isEmpty_cons, Bool.not_false, Bool.true_and, Bool.false_and, Bool.false_or]
    split
    · rename_i he; cases he; exact absurd rfl h4
    · rfl
  have hs : 32 ∉ 45 :: c :: s := fun hm => (h1 32 hm).1 (.inl rfl)
  rw [classify_dash] at hh ⊢
  revert hh
  generalize hb : beforeEq (45 :: c :: s) = b
  intro hh
  split
  · rename_i g; rw [if_pos g] at hh; exact absurd rfl hh
  rename_i g1; rw [if_neg g1] at hh
  rw [if_neg (by simp)] at hh ⊢
  split
  · rename_i g; rw [if_pos g] at hh; exact absurd rfl hh
  rename_i g2; rw [if_neg g2] at hh
  split
  · rename_i g; rw [if_pos g] at hh; exact absurd rfl hh
  rename_i g3; rw [if_neg g3] at hh
  split
  · rename_i g; rw [if_pos g] at hh; exact absurd rfl hh
  rw [if_neg (by simp [hn])]

/-- **C46, unknown options.** An option in front of the command is put aside: the command is carried
out as without it (the option must not contain the first letter of the command word, see
`C46_option_refuted`). -/
theorem C46_unknown_option_partial (f : Int) (hf : f ≠ 0) (w lead o gap0 gap E : Str)
    (hw : w = py!"template" ∨ w = py!"t") (hl : Blank lead) (ho : UnknownOption o) (hg0 : Blank gap0) (hne0 : gap0 ≠ [])
    (hot : 116 ∉ o) (hg : Blank gap) (hne : gap ≠ [] ∨ E = []) (hE : Trimmed E) (hc : CleanText E) :
    evalRoute (some py!"repl") (33 :: (lead ++ (o ++ (gap0 ++ (w ++ (gap ++ E)))))) (some f) =
      .command f (some (.template E)) := by
  have hr : resolve w = some .template := by rcases hw with e | e <;> subst e <;> decide
  obtain ⟨ws, h1, h2⟩ := hc
  rw [← split_iff] at h1
  obtain ⟨oc, on⟩ := unknown_class ho
  have hop : o ≠ [] ∧ ∀ c ∈ o, plainCh c = true := by
    obtain ⟨c, s, rfl, h1, -⟩ := ho
    exact ⟨by simp, fun c hc => plainCh_spec.2 (h1 c hc)⟩
  have hws : shlexSplit (lead ++ (o ++ (gap0 ++ (w ++ (gap ++ E))))) = some (o :: w :: ws) := by
    unfold shlexSplit
    rw [lex_ws _ _ ((blank_iff _).1 hl), lex_plain o gap0 _ hop.1 hop.2 ((blank_iff _).1 hg0) (.inl hne0)]
    have := line_words (lead := []) hr (by intro c hc; cases hc) hg hne
    rw [h1] at this
    unfold shlexSplit at this
    rw [List.nil_append] at this
    rw [this]; rfl
  have haf : afterFirst w (lead ++ (o ++ (gap0 ++ (w ++ (gap ++ E))))) = some (gap ++ E) := by
    have hb : ∀ {l : Str}, Blank l → 116 ∉ l := fun h hm => by
      rcases h 116 hm with e | e | e | e <;> cases e
    have : ∃ p, w = 116 :: p := by rcases hw with e | e <;> exact ⟨_, e⟩
    obtain ⟨p, rfl⟩ := this
    have := afterFirst_skip (lead ++ o ++ gap0) 116 p (gap ++ E) (by
      simp only [List.mem_append, not_or]; exact ⟨⟨hb hl, hot⟩, hb hg0⟩)
    simpa using this
  have hm : mainParse (o :: w :: ws) = some (w, ws) := by
    rw [mainParse, if_neg on, oc]; exact line_main hr ws
  have : parseRepl (lead ++ (o ++ (gap0 ++ (w ++ (gap ++ E))))) = some (.template E) := by
    unfold parseRepl
    rw [hws]
    simp only [hm, hr, (asksHelp_false_iff ws).2 h2, haf, Bool.false_eq_true, if_false, Option.map_some]
    rw [lstrip_ws gap E ((blank_iff _).1 hg), lstrip_id E ((trimmed_iff _).1 hE)]
  simp [evalRoute, hf, this]

/-- **C46 is violated** if the command word also occurs in an option before it: in `! -t t a` the
expression is found after the first `t`, so `t a` is evaluated and not `a`. -/
theorem C46_option_refuted :
    evalRoute (some py!"repl") py!"! -t t a" (some 1) = .command 1 (some (.template py!"t a")) := by
  decide

/-! Non-trivial cases of the hypotheses. -/
example : UnknownOption py!"-vvv" := ⟨118, py!"vv", by decide, by simp [ShBlank], by
  rintro ⟨_, ⟨l, h⟩ | ⟨⟨l, h⟩, _⟩⟩ <;> simp at h, by decide, by decide, by decide⟩
example : ShellWords py!"so 'it''s' a\\ \"b\\c\\\"\"" [py!"so", py!"its", py!"a b\\c\""] := (split_iff _ _).1 (by decide)
example : CleanText py!"foo['a b'] | default(\"x y\") - 1" :=
  ⟨[py!"foo[a b]", py!"|", py!"default(x y)", py!"-", py!"1"], (split_iff _ _).1 (by decide), by
    intro t ht
    rw [← classify_help_iff]
    · revert t; decide
    · revert t; decide⟩
example : Written py!"my var" py!"'my var'" :=
  Written.quoted 39 (.inr rfl) (by decide) (by decide) (by decide) (by decide)
    (by rintro ⟨_, ⟨l, h⟩ | ⟨⟨l, h⟩, _⟩⟩ <;> simp at h) (by decide)
example : Written py!"state" py!"state" := .plain ⟨by decide, by simp [ShBlank], by decide, by intro c hc; cases hc; decide⟩
example : evalRoute (some py!"repl") py!"!so 'my var'  foo['a b'] | default(1)" (some 3) =
    .command 3 (some (.setOption py!"my var" py!"foo['a b'] | default(1)")) := by decide
example : evalRoute (some py!"repl") py!"! sh state \"x\"" (some 3) =
    .command 3 (some (.setHostvar py!"state" py!"\"x\"")) := by decide
example : evalRoute (some py!"repl") py!"! foo" (some 3) = .command 3 (some .text) := by decide

end Verif.Repl
