import Verif.Launch.Script
/-! # Proofs about the launch script -/

namespace Verif.Launch
open Verif

/-! ## Lexing -/

theorem lex_append (s : Lx) (a b : Str) :
    lex s (a ++ b) = match lex s a with
      | none => none
      | some (s1, o1) => match lex s1 b with
        | none => none
        | some (s2, o2) => some (s2, o1 ++ o2) := by
  induction a generalizing s with
  | nil => 
    simp only [List.nil_append, lex]
    cases lex s b with
    | none => rfl
    | some v => rfl
  | cons c cs ih =>
    simp only [List.cons_append, lex]
    cases lxStep s c with
    | none => rfl
    | some v =>
      simp only [ih]
      cases lex v.1 cs with
      | none => rfl
      | some u =>
        dsimp only
        cases lex u.1 b with
        | none => rfl
        | some t => simp

/-- Literal characters of a word, quoted or not. -/
def litsVal : List Seg → Option Str
  | [] => some []
  | .lit _ c :: gs => (litsVal gs).map (c :: ·)
  | .var _ :: _ => none

theorem litsVal_append (a b : List Seg) (x y : Str) (ha : litsVal a = some x) (hb : litsVal b = some y) :
    litsVal (a ++ b) = some (x ++ y) := by
  induction a generalizing x with
  | nil => simp [litsVal] at ha; subst ha; simpa using hb
  | cons g gs ih =>
    cases g with
    | lit q c =>
      simp only [litsVal, Option.map_eq_some_iff] at ha
      obtain ⟨z, hz, rfl⟩ := ha
      simp [litsVal, ih z hz]
    | var n => simp [litsVal] at ha

theorem expandStr_lits (e : ShEnv) (w : List Seg) (x : Str) (h : litsVal w = some x) :
    expandStr e w = some x := by
  induction w generalizing x with
  | nil => simpa [litsVal, expandStr] using h
  | cons g gs ih =>
    cases g with
    | lit q c =>
      simp only [litsVal, Option.map_eq_some_iff] at h
      obtain ⟨z, hz, rfl⟩ := h
      simp [expandStr, ih z hz]
    | var n => simp [litsVal] at h

theorem lex_safe (cur : Option (List Seg)) (s : Str) (hne : s ≠ []) (h : s.all shSafe = true) :
    lex (.plain, cur) s = some ((.plain, some (cur.getD [] ++ s.map (.lit false))), []) := by
  induction s generalizing cur with
  | nil => exact absurd rfl hne
  | cons c cs ih =>
    simp only [List.all_cons, Bool.and_eq_true] at h
    have hc := h.1
    have hstep : lxStep (.plain, cur) c = some ((.plain, addSeg cur (.lit false c)), []) := by
      have : c ≠ 32 ∧ c ≠ 9 ∧ c ≠ 10 ∧ c ≠ 40 ∧ c ≠ 41 ∧ c ≠ 39 ∧ c ≠ 34 ∧ c ≠ 35 := by
        refine ⟨?_, ?_, ?_, ?_, ?_, ?_, ?_, ?_⟩ <;> (intro e; subst e; exact absurd hc (by decide))
      simp [lxStep, this, plainOk, hc]
    simp only [lex, hstep]
    cases cs with
    | nil => simp [lex, addSeg]
    | cons d ds =>
      rw [ih _ (by simp) h.2]
      simp [addSeg]

theorem lex_sq (w : List Seg) (s : Str) (h0 : 0 ∉ s) :
    ∃ w', lex (.sq, some w) (escQuote s ++ [39]) = some ((.plain, some (w ++ w')), []) ∧ litsVal w' = some s
      ∧ ∀ g ∈ w', ∃ c, g = .lit true c := by
  induction s generalizing w with
  | nil => exact ⟨[], by simp [escQuote, lex, lxStep], rfl, by simp⟩
  | cons c cs ih =>
    simp only [List.mem_cons, not_or] at h0
    by_cases hc : c = 39
    · subst hc
      obtain ⟨w', h1, h2, h3⟩ := ih (w ++ [.lit true 39]) h0.2
      refine ⟨.lit true 39 :: w', ?_, ?_, ?_⟩
      · simp only [escQuote, if_true, List.cons_append, List.nil_append]
        simp only [lex, lxStep]
        simp [addSeg, h1]
      · simp [litsVal, h2]
      · intro g hg
        rcases List.mem_cons.1 hg with rfl | hg
        · exact ⟨39, rfl⟩
        · exact h3 g hg
    · obtain ⟨w', h1, h2, h3⟩ := ih (w ++ [.lit true c]) h0.2
      refine ⟨.lit true c :: w', ?_, ?_, ?_⟩
      · simp only [escQuote, if_neg hc, List.cons_append]
        have hc0 : c ≠ 0 := fun e => h0.1 e.symm
        simp only [lex, lxStep, if_neg hc, if_neg hc0]
        simp [addSeg, h1]
      · simp [litsVal, h2]
      · intro g hg
        rcases List.mem_cons.1 hg with rfl | hg
        · exact ⟨c, rfl⟩
        · exact h3 g hg

/-- A quoted string is one word with the string as its value. -/
theorem lex_quote (s : Str) (h0 : 0 ∉ s) :
    ∃ w, lex (.plain, none) (shQuote s) = some ((.plain, some w), []) ∧ litsVal w = some s ∧
      ((w = s.map (.lit false) ∧ s.all shSafe = true) ∨ ∀ g ∈ w, ∃ c, g = .lit true c) := by
  unfold shQuote
  split
  · rename_i h; subst h
    exact ⟨[], by simp [lex, lxStep], rfl, Or.inr (by simp)⟩
  split
  · rename_i hne hall
    refine ⟨s.map (.lit false), by simpa using lex_safe none s hne hall, ?_, Or.inl ⟨rfl, hall⟩⟩
    clear hall hne h0
    induction s with
    | nil => rfl
    | cons c cs ih => simp [litsVal, ih]
  · obtain ⟨w', h1, h2, h3⟩ := lex_sq [] s h0
    refine ⟨w', ?_, h2, Or.inr h3⟩
    rw [List.append_assoc, lex_append]
    simp only [List.nil_append] at h1
    simp [lex, lxStep, h1]

/-- Quoted strings, each followed by a space. -/
theorem lex_args (l : List Str) (h0 : ∀ s ∈ l, 0 ∉ s) :
    ∃ ws, lex (.plain, none) (l.flatMap fun s => shQuote s ++ [32]) = some ((.plain, none), ws.map .word) ∧
      ws.length = l.length ∧ ∀ e, expandAll e ws = some l := by
  induction l with
  | nil => exact ⟨[], rfl, rfl, fun e => rfl⟩
  | cons s l ih =>
    obtain ⟨ws, h1, h2, h3⟩ := ih (fun s hs => h0 s (by simp [hs]))
    obtain ⟨w, g1, g2, _⟩ := lex_quote s (h0 s (by simp))
    refine ⟨w :: ws, ?_, by simp [h2], ?_⟩
    · rw [List.flatMap_cons, lex_append, lex_append, g1]
      simp only [lex, lxStep]
      simp [h1, flush]
    · intro e
      have : expandWord e w = some [s] := by
        unfold expandWord
        rw [if_neg, expandStr_lits e w s g2]; · rfl
        intro e; rw [e] at g2; simp [litsVal] at g2
      simp [expandAll, this, h3 e]

theorem joinSp_quote (l : List Str) (hne : l ≠ []) :
    joinSp (l.map shQuote) ++ [32] = l.flatMap fun s => shQuote s ++ [32] := by
  induction l with
  | nil => exact absurd rfl hne
  | cons s l ih =>
    cases l with
    | nil => simp [joinSp]
    | cons t l =>
      have := ih (by simp)
      simp only [List.map_cons, List.flatMap_cons] at this ⊢
      rw [← this]
      simp [joinSp]

theorem lex_dq (w : List Seg) (s : Str) (h : ∀ c ∈ s, isB64 c = true) :
    lex (.dq, some w) s = some ((.dq, some (w ++ s.map (.lit true))), []) := by
  induction s generalizing w with
  | nil => simp [lex]
  | cons c cs ih =>
    have hc := h c (by simp)
    have : c ≠ 34 ∧ c ≠ 36 ∧ c ≠ 96 ∧ c ≠ 92 ∧ c ≠ 0 := by
      refine ⟨?_, ?_, ?_, ?_, ?_⟩ <;> (intro e; subst e; exact absurd hc (by decide))
    simp only [lex, lxStep, this, if_false, false_or]
    simp [addSeg, ih _ (fun c hc => h c (by simp [hc]))]

/-! ## The tokens of the script -/

/-- An unquoted literal word. -/
def uw (s : Str) : List Seg := s.map (.lit false)
/-- A quoted literal word. -/
def qw (s : Str) : List Seg := s.map (.lit true)

def toks1 : List Tok :=
  [.nl, .word (uw py!"set"), .word (uw py!"-e"), .nl, .nl, .word (uw py!"cleanup"), .lpar, .rpar,
   .word (uw py!"{"), .nl]

def codeWord : List Seg := qw code1 ++ [.var py!"SN"] ++ qw code2

def toks3 : List Tok :=
  [.word (uw py!"-c"), .word codeWord, .nl, .word (uw py!"}"), .nl, .nl,
   .word (uw py!"trap"), .word (uw py!"cleanup"), .word (uw py!"EXIT"), .word (uw py!"INT"),
   .word (uw py!"ABRT"), .word (uw py!"KILL"), .word (uw py!"TERM"), .nl, .nl,
   .word (uw py!"rm"), .word (uw py!"-f"), .word [.var py!"0"], .nl]

theorem lex_tpl1 : lex (.plain, none) tpl1 = some ((.dq, some (uw py!"SN=")), toks1) := by
  decide +kernel

theorem lex_tpl3 (w : List Seg) : lex (.plain, some w) tpl3 = some ((.plain, none), .word w :: toks3) := by
  have h : lex (.plain, none) (tpl3.drop 1) = some ((.plain, none), toks3) := by decide +kernel
  have : tpl3 = 32 :: tpl3.drop 1 := by decide +kernel
  rw [this, lex]
  simp only [lxStep, true_or, if_true, h, flush]; rfl

theorem lex_tpl2 (w : List Seg) : lex (.dq, some w) tpl2 = some ((.plain, none), [.word w, .nl]) := by
  rfl

theorem tokenise_script (sn python : Str) (args : List Str) (hsn : ∀ c ∈ sn, isB64 c = true)
    (hpy : 0 ∉ python) (hargs : ∀ a ∈ args, 0 ∉ a) (hne : args ≠ []) :
    ∃ wpy ws, tokenise (scriptText sn (shQuote python) (joinSp (args.map shQuote))) =
        some (toks1 ++ ([.word (uw py!"SN=" ++ qw sn), .nl, .word wpy] ++ toks3 ++
          (Tok.word wpy :: ws.map .word) ++ [.word [.var py!"@"], .nl])) ∧
      litsVal wpy = some python ∧
      ((wpy = uw python ∧ python.all shSafe = true) ∨ ∀ g ∈ wpy, ∃ c, g = .lit true c) ∧
      ∀ e, expandAll e ws = some args := by
  obtain ⟨wpy, p1, p2, p3⟩ := lex_quote python hpy
  obtain ⟨ws, a1, _, a3⟩ := lex_args args hargs
  refine ⟨wpy, ws, ?_, p2, p3, a3⟩
  have htext : scriptText sn (shQuote python) (joinSp (args.map shQuote)) =
      tpl1 ++ (sn ++ (tpl2 ++ (shQuote python ++ (tpl3 ++ (shQuote python ++ ([32] ++
        ((args.flatMap fun s => shQuote s ++ [32]) ++ py!"\"$@\"\n"))))))) := by
    rw [← joinSp_quote args hne]
    simp [scriptText, tpl4]
  rw [htext, tokenise]
  rw [lex_append, lex_tpl1]
  simp only
  rw [lex_append, lex_dq _ _ hsn]
  simp only
  rw [lex_append, lex_tpl2]
  simp only
  rw [lex_append, p1]
  simp only
  rw [lex_append, lex_tpl3]
  simp only
  rw [lex_append, p1]
  simp only
  have hsp : lex (.plain, some wpy) [32] = some ((.plain, none), [.word wpy]) := rfl
  rw [lex_append, hsp]
  simp only
  have hend : lex (.plain, none) py!"\"$@\"\n" = some ((.plain, none), [.word [.var py!"@"], .nl]) := by rfl
  rw [lex_append, a1]
  simp only
  rw [hend]
  simp [flush, qw]

/-! ## Parsing -/

theorem tokLines_words (ws : List (List Seg)) (rest : List Tok) :
    tokLines (ws.map .word ++ .nl :: rest) = ws.map .word :: tokLines rest := by
  induction ws with
  | nil => rfl
  | cons w ws ih => simp [tokLines, ih]

theorem lineWords_words (ws : List (List Seg)) : lineWords (ws.map .word) = some ws := by
  induction ws with
  | nil => rfl
  | cons w ws ih => simp [lineWords, ih]

/-- A command word starting with a slash is no assignment and no reserved word. -/
theorem parseSimple_path (w : List Seg) (ws : List (List Seg)) (q : Bool) (gs : List Seg)
    (hw : w = .lit q 47 :: gs) : parseSimple (w :: ws) = some [.simple (w :: ws)] := by
  subst hw
  have h1 : asAssign [] (.lit q 47 :: gs) = none := by
    cases q <;> simp [asAssign, isNameChar]
  have h2 : ∀ b, bare (.lit q 47 :: gs) = some b → b ∉ reserved := by
    intro b hb
    cases q with
    | true => simp [bare] at hb
    | false =>
      simp only [bare, Option.map_eq_some_iff] at hb
      obtain ⟨z, _, rfl⟩ := hb
      simp [reserved]
  simp only [parseSimple, h1]
  cases hb : bare (.lit q 47 :: gs) with
  | none => rfl
  | some b => simp [h2 b hb]

/-- The commands of the script. -/
def scriptCmds (sn : Str) (wpy : List Seg) (ws : List (List Seg)) : List Cmd :=
  [.simple [uw py!"set", uw py!"-e"],
   .func py!"cleanup" [.assign py!"SN" (qw sn), .simple [wpy, uw py!"-c", codeWord]],
   .simple [uw py!"trap", uw py!"cleanup", uw py!"EXIT", uw py!"INT", uw py!"ABRT", uw py!"KILL", uw py!"TERM"],
   .simple [uw py!"rm", uw py!"-f", [.var py!"0"]],
   .simple (wpy :: (ws ++ [[.var py!"@"]]))]

theorem asAssign_sn (sn : Str) : asAssign [] (uw py!"SN=" ++ qw sn) = some (py!"SN", qw sn) := by
  simp [asAssign, uw, isNameChar, isName]

theorem parse_script (sn : Str) (wpy : List Seg) (ws : List (List Seg)) (q : Bool) (gs : List Seg)
    (hw : wpy = .lit q 47 :: gs) (n : Nat) (hn : 12 ≤ n) :
    parseLines n (tokLines (toks1 ++ ([.word (uw py!"SN=" ++ qw sn), .nl, .word wpy] ++ toks3 ++
          (Tok.word wpy :: ws.map .word) ++ [.word [.var py!"@"], .nl]))) = some (scriptCmds sn wpy ws) := by
  have hl : tokLines (toks1 ++ ([.word (uw py!"SN=" ++ qw sn), .nl, .word wpy] ++ toks3 ++
          (Tok.word wpy :: ws.map .word) ++ [.word [.var py!"@"], .nl])) =
      [[], [.word (uw py!"set"), .word (uw py!"-e")], [],
       [.word (uw py!"cleanup"), .lpar, .rpar, .word (uw py!"{")],
       [.word (uw py!"SN=" ++ qw sn)],
       [.word wpy, .word (uw py!"-c"), .word codeWord], [.word (uw py!"}")], [],
       [.word (uw py!"trap"), .word (uw py!"cleanup"), .word (uw py!"EXIT"), .word (uw py!"INT"),
         .word (uw py!"ABRT"), .word (uw py!"KILL"), .word (uw py!"TERM")], [],
       [.word (uw py!"rm"), .word (uw py!"-f"), .word [.var py!"0"]],
       (wpy :: (ws ++ [[.var py!"@"]])).map .word, []] := by
    have h := tokLines_words (ws ++ [[.var py!"@"]]) []
    simp only [List.map_cons, List.map_append, List.map_nil, List.cons_append, List.append_assoc, List.nil_append] at h
    simp only [toks1, toks3, List.cons_append, List.append_assoc, List.nil_append, tokLines, h, List.map_cons, List.map_append, List.map_nil]
  rw [hl]
  obtain ⟨k, rfl⟩ : ∃ k, n = k + 12 := ⟨n - 12, by omega⟩
  have hlast : funcHead ((wpy :: (ws ++ [[.var py!"@"]])).map .word) = none := by
    cases ws <;> rfl
  have hw1 := parseSimple_path wpy [uw py!"-c", codeWord] q gs hw
  have hw2 := parseSimple_path wpy (ws ++ [[.var py!"@"]]) q gs hw
  have hbody : parseBody
      [[.word (uw py!"SN=" ++ qw sn)], [.word wpy, .word (uw py!"-c"), .word codeWord], [.word (uw py!"}")], [],
       [.word (uw py!"trap"), .word (uw py!"cleanup"), .word (uw py!"EXIT"), .word (uw py!"INT"),
         .word (uw py!"ABRT"), .word (uw py!"KILL"), .word (uw py!"TERM")], [],
       [.word (uw py!"rm"), .word (uw py!"-f"), .word [.var py!"0"]],
       (wpy :: (ws ++ [[.var py!"@"]])).map .word, []] =
      some ([.assign py!"SN" (qw sn), .simple [wpy, uw py!"-c", codeWord]],
       [[],
       [.word (uw py!"trap"), .word (uw py!"cleanup"), .word (uw py!"EXIT"), .word (uw py!"INT"),
         .word (uw py!"ABRT"), .word (uw py!"KILL"), .word (uw py!"TERM")], [],
       [.word (uw py!"rm"), .word (uw py!"-f"), .word [.var py!"0"]],
       (wpy :: (ws ++ [[.var py!"@"]])).map .word, []]) := by
    rw [parseBody, if_neg (by simp [uw])]
    have e1 : (lineWords [Tok.word (uw py!"SN=" ++ qw sn)]).bind parseSimple = some [.assign py!"SN" (qw sn)] := by
      simp only [lineWords, Option.map_some, Option.bind_some, parseSimple, asAssign_sn, if_true]
    rw [e1, parseBody, if_neg (by simp)]
    have e2 : (lineWords [Tok.word wpy, .word (uw py!"-c"), .word codeWord]).bind parseSimple =
        some [.simple [wpy, uw py!"-c", codeWord]] := by
      simp only [lineWords, Option.map_some, Option.bind_some, hw1]
    rw [e2, parseBody, if_pos (by rfl)]
    rfl
  have e3 : (lineWords ((wpy :: (ws ++ [[.var py!"@"]])).map .word)).bind parseSimple =
      some [.simple (wpy :: (ws ++ [[.var py!"@"]]))] := by
    rw [lineWords_words]; exact hw2
  have c1 (n : Nat) (ls : List (List Tok)) : parseLines (n+1) ([] :: ls) = parseLines n ls := by
    simp only [parseLines, funcHead, lineWords, Option.bind_some, parseSimple]
    cases parseLines n ls <;> rfl
  have c2 (n : Nat) (l : List Tok) (ls : List (List Tok)) (c : Cmd) (h1 : funcHead l = none)
      (h2 : (lineWords l).bind parseSimple = some [c]) :
      parseLines (n+1) (l :: ls) = (parseLines n ls).map (c :: ·) := by
    simp only [parseLines, h1, h2]
    cases parseLines n ls <;> rfl
  have c3 (n : Nat) (l : List Tok) (ls rest : List (List Tok)) (f : Str) (b : List Cmd) (h1 : funcHead l = some f)
      (h2 : parseBody ls = some (b, rest)) :
      parseLines (n+1) (l :: ls) = (parseLines n rest).map (Cmd.func f b :: ·) := by
    simp only [parseLines, h1, h2]
  rw [c1, c2 (c := .simple [uw py!"set", uw py!"-e"]) (h1 := rfl) (h2 := rfl), c1, c3 (h1 := rfl) (h2 := hbody), c1,
    c2 (c := .simple [uw py!"trap", uw py!"cleanup", uw py!"EXIT", uw py!"INT", uw py!"ABRT", uw py!"KILL", uw py!"TERM"]) (h1 := rfl) (h2 := rfl),
    c1, c2 (c := .simple [uw py!"rm", uw py!"-f", [.var py!"0"]]) (h1 := rfl) (h2 := rfl),
    c2 (h1 := hlast) (h2 := e3), c1]
  cases k <;> rfl

/-! ## Running -/

theorem expandAll_append (e : ShEnv) (a b : List (List Seg)) (x y : List Str) (ha : expandAll e a = some x)
    (hb : expandAll e b = some y) : expandAll e (a ++ b) = some (x ++ y) := by
  induction a generalizing x with
  | nil => simp [expandAll] at ha; subst ha; simpa using hb
  | cons w ws ih =>
    simp only [expandAll] at ha
    split at ha
    · rename_i u v hu hv
      cases ha
      simp [expandAll, hu, ih v hv]
    · cases ha

theorem litsVal_qw (s : Str) : litsVal (qw s) = some s := by
  induction s with
  | nil => rfl
  | cons c cs ih => simp_all [qw, litsVal]

theorem litsVal_uw (s : Str) : litsVal (uw s) = some s := by
  induction s with
  | nil => rfl
  | cons c cs ih => simp_all [uw, litsVal]

theorem expandStr_append (e : ShEnv) (a b : List Seg) (x y : Str) (ha : expandStr e a = some x)
    (hb : expandStr e b = some y) : expandStr e (a ++ b) = some (x ++ y) := by
  induction a generalizing x with
  | nil => simp [expandStr] at ha; subst ha; simpa using hb
  | cons g gs ih =>
    cases g with
    | lit q c =>
      simp only [expandStr, Option.map_eq_some_iff] at ha
      obtain ⟨z, hz, rfl⟩ := ha
      simp [expandStr, ih z hz]
    | var n =>
      simp only [expandStr] at ha
      split at ha
      · rename_i u v hu hv
        cases ha
        simp [expandStr, hu, ih v hv]
      · cases ha

/-- The programs the script runs, given that `ok` tells which of them succeed: `rm`, then
(if that worked) ansibug, then the cleanup program. -/
def expectedTrace (ok : List (List Str) → Bool) (zero : Str) (sn python : Str) (args uargs : List Str) :
    List (List Str) :=
  let rm := [py!"rm", py!"-f", zero]
  let main := python :: (args ++ uargs)
  let clean := [python, py!"-c", code1 ++ sn ++ code2]
  if ok [rm] then [rm, main, clean] else [rm, clean]

theorem run_cmds (ok : List (List Str) → Bool) (zero sn python : Str) (args uargs : List Str)
    (wpy : List Seg) (ws : List (List Seg)) (q : Bool) (gs : List Seg)
    (hw : wpy = .lit q 47 :: gs) (hv : litsVal wpy = some python) (hws : ∀ e, expandAll e ws = some args)
    (text : Str) (hp : parseScript text = some (scriptCmds sn wpy ws)) :
    runScript ok text zero uargs = some (expectedTrace ok zero sn python args uargs) := by
  have hmem : 47 ∈ python := by
    subst hw
    simp only [litsVal, Option.map_eq_some_iff] at hv
    obtain ⟨z, _, rfl⟩ := hv
    simp
  have hnf : python ≠ py!"cleanup" := by rintro rfl; exact absurd hmem (by decide)
  have hns : python ≠ py!"set" := by rintro rfl; exact absurd hmem (by decide)
  have hnt : python ≠ py!"trap" := by rintro rfl; exact absurd hmem (by decide)
  have hexp (e : ShEnv) : expandWord e wpy = some [python] := by
    unfold expandWord
    rw [if_neg (by rw [hw]; simp), expandStr_lits e wpy python hv]; rfl
  have hu (e : ShEnv) (s : Str) : expandWord e (uw s) = some [s] := by
    unfold expandWord
    rw [if_neg, expandStr_lits e _ _ (litsVal_uw s)]
    · rfl
    · intro h; cases s <;> simp [uw] at h
  have hmain (e : ShEnv) : expandAll e (wpy :: (ws ++ [[.var py!"@"]])) = some (python :: (args ++ e.args)) := by
    rw [expandAll, hexp, expandAll_append e ws _ args e.args (hws e) (by simp [expandAll, expandWord])]; rfl
  have hset (e : ShEnv) : expandAll e [uw py!"set", uw py!"-e"] = some [py!"set", py!"-e"] := by
    simp only [expandAll, hu]; rfl
  have htrap (e : ShEnv) : expandAll e [uw py!"trap", uw py!"cleanup", uw py!"EXIT", uw py!"INT", uw py!"ABRT", uw py!"KILL", uw py!"TERM"]
      = some [py!"trap", py!"cleanup", py!"EXIT", py!"INT", py!"ABRT", py!"KILL", py!"TERM"] := by
    simp only [expandAll, hu]; rfl
  have hrm (e : ShEnv) : expandAll e [uw py!"rm", uw py!"-f", [.var py!"0"]] = some [py!"rm", py!"-f", e.zero] := by
    simp only [expandAll, hu]
    simp [expandWord, expandStr, ShEnv.lookup]
  have hcode (e : ShEnv) (h : e.lookup py!"SN" = some sn) :
      expandAll e [wpy, uw py!"-c", codeWord] = some [python, py!"-c", code1 ++ sn ++ code2] := by
    have : expandWord e codeWord = some [code1 ++ sn ++ code2] := by
      unfold expandWord
      rw [if_neg (by decide +kernel)]
      unfold codeWord
      rw [expandStr_append e _ _ (code1 ++ sn) code2 (expandStr_append e _ _ code1 sn (expandStr_lits _ _ _ (litsVal_qw _)) (by simp [expandStr, h])) (expandStr_lits _ _ _ (litsVal_qw _))]
      rfl
    simp only [expandAll, hexp, hu, this]; rfl
  have hclean (r : ShRun) (hr : r.exited = false)
      (hf : Dict.get? r.env.funcs py!"cleanup" = some [.assign py!"SN" (qw sn), .simple [wpy, uw py!"-c", codeWord]]) :
      (runSimple ok r [py!"cleanup"]).map (·.trace) = some (r.trace ++ [[python, py!"-c", code1 ++ sn ++ code2]]) := by
    simp only [runSimple, hf, runBody, hr, expandStr_lits _ _ _ (litsVal_qw sn)]
    have hl : ShEnv.lookup { r.env with vars := Dict.set r.env.vars py!"SN" sn } py!"SN" = some sn := by
      simp only [ShEnv.lookup]
      rw [if_neg (by decide)]
      generalize r.env.vars = d
      induction d with
      | nil => simp [Dict.set, Dict.get?]
      | cons a d ih =>
        simp only [Dict.set]
        split
        · simp_all [Dict.get?]
        · simp_all [Dict.get?]
    simp only [hcode _ hl, Option.bind_some, runFields, hns, hnt, hmem, runExternal]
    simp
  have k1 (c : Cmd) (cs : List Cmd) (ws : List (List Seg)) (r : ShRun) (fields : List Str) (r' : ShRun) (hc : c = .simple ws)
      (hr : r.exited = false)
      (he : expandAll r.env ws = some fields) (h : runSimple ok r fields = some r') :
      runCmds ok r (c :: cs) = runCmds ok r' cs := by
    subst hc; simp [runCmds, hr, he, h]
  let e0 : ShEnv := { zero := zero, args := uargs }
  let e1 : ShEnv := { e0 with errexit := true }
  let body : List Cmd := [.assign py!"SN" (qw sn), .simple [wpy, uw py!"-c", codeWord]]
  let e2 : ShEnv := { e1 with funcs := [(py!"cleanup", body)] }
  let e3 : ShEnv := { e2 with exitTrap := some py!"cleanup" }
  let rm := [py!"rm", py!"-f", zero]
  have s1 (cs : List Cmd) : runCmds ok { env := e0 } (.simple [uw py!"set", uw py!"-e"] :: cs) = runCmds ok { env := e1 } cs :=
    k1 _ _ _ _ _ _ rfl rfl (hset _) (by simp [runSimple, runFields, e0, e1, Dict.get?])
  have s2 (cs : List Cmd) : runCmds ok { env := e1 } (.func py!"cleanup" body :: cs) = runCmds ok { env := e2 } cs := by
    simp [runCmds, e0, e1, e2, Dict.set]
  have s3 (cs : List Cmd) : runCmds ok { env := e2 } (.simple [uw py!"trap", uw py!"cleanup", uw py!"EXIT", uw py!"INT", uw py!"ABRT", uw py!"KILL", uw py!"TERM"] :: cs)
      = runCmds ok { env := e3 } cs :=
    k1 _ _ _ _ _ _ rfl rfl (htrap _) (by simp [runSimple, runFields, e0, e1, e2, e3, Dict.get?])
  have s4 (cs : List Cmd) : runCmds ok { env := e3 } (.simple [uw py!"rm", uw py!"-f", [.var py!"0"]] :: cs)
      = runCmds ok { env := e3, trace := [rm], exited := !ok [rm] } cs :=
    k1 _ _ _ _ _ _ rfl rfl (hrm _) (by simp [runSimple, runFields, runExternal, e0, e1, e2, e3, rm, Dict.get?])
  have hfin (r : ShRun) (hr : r.env = e3) :
      (match runSimple ok { r with exited := false } [py!"cleanup"] with
        | none => none
        | some r' => some r'.trace) = some (r.trace ++ [[python, py!"-c", code1 ++ sn ++ code2]]) := by
    have := hclean { r with exited := false } rfl (by rw [hr]; simp [e3, e2, body, Dict.get?])
    simp only [Option.map_eq_some_iff] at this
    obtain ⟨r', h1, h2⟩ := this
    rw [h1]; simp [h2]
  unfold runScript
  rw [hp]
  show (match runCmds ok { env := e0 } (scriptCmds sn wpy ws) with
    | none => none
    | some r => _) = _
  unfold scriptCmds
  rw [s1, s2, s3, s4]
  cases hok : ok [rm] with
  | false =>
    simp only [runCmds, Bool.not_false, if_true]
    show (match runSimple ok { ({ env := e3, trace := [rm], exited := true } : ShRun) with exited := false } [py!"cleanup"] with
        | none => none
        | some r' => some r'.trace) = _
    rw [hfin _ rfl]
    simp [expectedTrace, rm] at hok ⊢
    simp [hok]
  | true =>
    rw [k1 _ _ _ _ _ { env := e3, trace := [rm] ++ [python :: (args ++ uargs)], exited := !ok ([rm] ++ [python :: (args ++ uargs)]) } rfl rfl (hmain _)
      (by simp only [runSimple, Dict.get?, e3, e2, if_neg (Ne.symm hnf), runFields, hns, hnt, hmem, runExternal, e1, e0]; simp)]
    simp only [runCmds]
    show (match runSimple ok { ({ env := e3, trace := [rm] ++ [python :: (args ++ uargs)], exited := !ok ([rm] ++ [python :: (args ++ uargs)]) } : ShRun) with exited := false } [py!"cleanup"] with
        | none => none
        | some r' => some r'.trace) = _
    rw [hfin _ rfl]
    simp [expectedTrace, rm] at hok ⊢
    simp [hok]

/-! ## The bytes of the script -/

/-- `enc` of every element. -/
def encAll : List Str → Option (List Str)
  | [] => some []
  | a :: as =>
    match enc a, encAll as with
    | some b, some bs => some (b :: bs)
    | _, _ => none

theorem enc_cons (c : Nat) (s : Str) :
    enc (c :: s) = (utf8Char c).bind fun b => (enc s).map (bytesToCodes b ++ ·) := by
  simp only [enc, utf8Encode]
  cases utf8Char c <;> cases utf8Encode s <;> simp [bytesToCodes]

theorem enc_append (a b : Str) : enc (a ++ b) = (enc a).bind fun x => (enc b).map (x ++ ·) := by
  simp only [enc, utf8Encode_append]
  cases utf8Encode a <;> cases utf8Encode b <;> simp [bytesToCodes]

theorem enc_append_some {a b x y : Str} (ha : enc a = some x) (hb : enc b = some y) : enc (a ++ b) = some (x ++ y) := by
  simp [enc_append, ha, hb]

theorem utf8Char_ascii {c : Nat} (h : c < 128) : utf8Char c = some [UInt8.ofNat c] := by
  simp [utf8Char, h]

theorem enc_cons_ascii {c : Nat} (h : c < 128) (s : Str) : enc (c :: s) = (enc s).map (c :: ·) := by
  rw [enc_cons, utf8Char_ascii h]
  simp [bytesToCodes]; cases enc s <;> simp; omega

/-- All bytes of a non-ASCII character are at least 128. -/
theorem utf8Char_big {c : Nat} (h : ¬ c < 128) {b : Bytes} (hb : utf8Char c = some b) :
    b ≠ [] ∧ ∀ x ∈ bytesToCodes b, 128 ≤ x := by
  unfold utf8Char at hb
  rw [if_neg h] at hb
  split at hb
  · cases hb; simp [bytesToCodes]; omega
  split at hb
  · cases hb
  split at hb
  · cases hb; simp [bytesToCodes]; omega
  split at hb
  · cases hb; simp [bytesToCodes]; omega
  · cases hb

theorem enc_ascii (s : Str) (h : ∀ c ∈ s, c < 128) : enc s = some s := by
  induction s with
  | nil => rfl
  | cons c cs ih =>
    rw [enc_cons_ascii (h c (by simp)), ih (fun c hc => h c (by simp [hc]))]; rfl

theorem shSafe_ascii {c : Nat} (h : shSafe c = true) : c < 128 := by
  simp [shSafe] at h; omega

theorem isB64_ascii {c : Nat} (h : isB64 c = true) : c < 128 := by
  simp [isB64] at h; omega

theorem escQuote_append (a b : Str) : escQuote (a ++ b) = escQuote a ++ escQuote b := by
  induction a with
  | nil => rfl
  | cons c cs ih => simp only [List.cons_append, escQuote, ih]; split <;> simp

theorem escQuote_big (a : Str) (h : ∀ x ∈ a, 128 ≤ x) : escQuote a = a := by
  induction a with
  | nil => rfl
  | cons c cs ih =>
    have := h c (by simp)
    rw [escQuote, if_neg (by omega), ih (fun x hx => h x (by simp [hx]))]

theorem enc_escQuote (s b : Str) (h : enc s = some b) : enc (escQuote s) = some (escQuote b) := by
  induction s generalizing b with
  | nil => simp [enc, utf8Encode, bytesToCodes] at h; subst h; rfl
  | cons c cs ih =>
    rw [enc_cons] at h
    cases hc : utf8Char c with
    | none => simp [hc] at h
    | some bc =>
      simp only [hc, Option.bind_some, Option.map_eq_some_iff] at h
      obtain ⟨r, hr, rfl⟩ := h
      have ih := ih r hr
      rw [escQuote_append]
      by_cases ha : c < 128
      · rw [utf8Char_ascii ha] at hc
        cases hc
        have e : bytesToCodes [UInt8.ofNat c] = [c] := by simp [bytesToCodes]; omega
        rw [e]
        by_cases h39 : c = 39
        · subst h39
          simp only [escQuote, if_true]
          exact enc_append_some rfl ih
        · simp only [escQuote, if_neg h39]
          rw [enc_cons_ascii ha, ih]; rfl
      · rw [escQuote, if_neg (by omega), enc_cons, hc, ih, escQuote_big _ (utf8Char_big ha hc).2]; rfl

theorem enc_all_safe (s b : Str) (h : enc s = some b) : b.all shSafe = s.all shSafe := by
  induction s generalizing b with
  | nil => simp [enc, utf8Encode, bytesToCodes] at h; subst h; rfl
  | cons c cs ih =>
    rw [enc_cons] at h
    cases hc : utf8Char c with
    | none => simp [hc] at h
    | some bc =>
      simp only [hc, Option.bind_some, Option.map_eq_some_iff] at h
      obtain ⟨r, hr, rfl⟩ := h
      by_cases ha : c < 128
      · rw [utf8Char_ascii ha] at hc
        cases hc
        have e : bytesToCodes [UInt8.ofNat c] = [c] := by simp [bytesToCodes]; omega
        simp [e, ih r hr]
      · obtain ⟨hne, hbig⟩ := utf8Char_big ha hc
        have h1 : shSafe c = false := by
          cases h : shSafe c with
          | false => rfl
          | true => exact absurd (shSafe_ascii h) ha
        have h2 : (bytesToCodes bc).all shSafe = false := by
          cases bc with
          | nil => exact absurd rfl hne
          | cons x xs =>
            have := hbig x.toNat (by simp [bytesToCodes])
            have : shSafe x.toNat = false := by
              cases h : shSafe x.toNat with
              | false => rfl
              | true => have := shSafe_ascii h; omega
            simp [bytesToCodes, this]
        simp [h1, h2]

theorem enc_nil_iff (s b : Str) (h : enc s = some b) : b = [] ↔ s = [] := by
  cases s with
  | nil => simp [enc, utf8Encode, bytesToCodes] at h; simp [h]
  | cons c cs =>
    rw [enc_cons] at h
    cases hc : utf8Char c with
    | none => simp [hc] at h
    | some bc =>
      simp only [hc, Option.bind_some, Option.map_eq_some_iff] at h
      obtain ⟨r, hr, rfl⟩ := h
      have : bc ≠ [] := by
        by_cases ha : c < 128
        · rw [utf8Char_ascii ha] at hc; cases hc; simp
        · exact (utf8Char_big ha hc).1
      simp [bytesToCodes, this]

theorem enc_zero (s b : Str) (h : enc s = some b) : 0 ∈ b ↔ 0 ∈ s := by
  induction s generalizing b with
  | nil => simp [enc, utf8Encode, bytesToCodes] at h; simp [h]
  | cons c cs ih =>
    rw [enc_cons] at h
    cases hc : utf8Char c with
    | none => simp [hc] at h
    | some bc =>
      simp only [hc, Option.bind_some, Option.map_eq_some_iff] at h
      obtain ⟨r, hr, rfl⟩ := h
      by_cases ha : c < 128
      · rw [utf8Char_ascii ha] at hc
        cases hc
        have e : bytesToCodes [UInt8.ofNat c] = [c] := by simp [bytesToCodes]; omega
        rw [e]; simp [ih r hr]
      · have hbig := (utf8Char_big ha hc).2
        simp only [List.mem_append, List.mem_cons, ih r hr]
        constructor
        · rintro (h | h)
          · have := hbig 0 h; omega
          · exact Or.inr h
        · rintro (h | h)
          · omega
          · exact Or.inr h

theorem enc_quote (s b : Str) (h : enc s = some b) : enc (shQuote s) = some (shQuote b) := by
  unfold shQuote
  have h1 := enc_all_safe s b h
  have h2 := enc_nil_iff s b h
  by_cases hs : s = []
  · rw [if_pos hs, if_pos (h2.2 hs)]; rfl
  · rw [if_neg hs, if_neg (fun e => hs (h2.1 e)), h1]
    split
    · exact h
    · exact enc_append_some (enc_append_some rfl (enc_escQuote s b h)) rfl

theorem enc_join (l bs : List Str) (h : encAll l = some bs) :
    enc (joinSp (l.map shQuote)) = some (joinSp (bs.map shQuote)) ∧ (l ≠ [] → bs ≠ []) ∧
    ((∀ a ∈ l, 0 ∉ a) → ∀ b ∈ bs, 0 ∉ b) := by
  induction l generalizing bs with
  | nil => simp [encAll] at h; subst h; exact ⟨rfl, by simp, by simp⟩
  | cons a as ih =>
    simp only [encAll] at h
    split at h
    · rename_i b r hb hr
      cases h
      obtain ⟨i1, i2, i3⟩ := ih r hr
      refine ⟨?_, by simp, ?_⟩
      · cases as with
        | nil => simp [encAll] at hr; subst hr; simpa [joinSp] using enc_quote a b hb
        | cons a2 as =>
          have := i2 (by simp)
          cases r with
          | nil => exact absurd rfl this
          | cons r0 r =>
            simp only [List.map_cons, joinSp] at i1 ⊢
            exact enc_append_some (enc_quote a b hb) (enc_append_some (a := [32]) (x := [32]) rfl i1)
      · intro hz x hx
        rcases List.mem_cons.1 hx with rfl | hx
        · rw [enc_zero a x hb]; exact hz a (by simp)
        · exact i3 (fun y hy => hz y (by simp [hy])) x hx
    · cases h

/-- The main theorem about the launch script: see `C62` for the reading. -/
theorem launch_script_runs (exe path : Str) (args : List Str) (exeB : Str) (argsB : List Str) (pathB : Bytes)
    (hexe : enc exe = some exeB) (hargs : encAll args = some argsB) (hpath : utf8Encode path = some pathB)
    (habs : ∃ r, exe = 47 :: r) (hz : 0 ∉ exe) (haz : ∀ a ∈ args, 0 ∉ a) (hne : args ≠ []) :
    ∃ text bytes, launchScript exe (py!"uds://" ++ path) args = some text ∧ enc text = some bytes ∧
      ∀ ok zero uargs, runScript ok bytes zero uargs =
        some (expectedTrace ok zero (b64Encode pathB) exeB argsB uargs) := by
  have hslice : sliceFrom (py!"uds://" ++ path) 6 = path := by
    simp [sliceFrom, sliceBound]
  let text := scriptText (b64Encode pathB) (shQuote exe) (joinSp (args.map shQuote))
  let bytes := scriptText (b64Encode pathB) (shQuote exeB) (joinSp (argsB.map shQuote))
  have hsafe := b64Encode_safe pathB
  obtain ⟨j1, j2, j3⟩ := enc_join args argsB hargs
  have hq := enc_quote exe exeB hexe
  refine ⟨text, bytes, ?_, ?_, ?_⟩
  · rw [launchScript, hslice, hpath]; rfl
  · have hsn := enc_ascii (b64Encode pathB) (fun c hc => isB64_ascii (hsafe c hc))
    have t1 : enc tpl1 = some tpl1 := enc_ascii _ (by decide +kernel)
    have t2 : enc tpl2 = some tpl2 := enc_ascii _ (by decide +kernel)
    have t3 : enc tpl3 = some tpl3 := enc_ascii _ (by decide +kernel)
    have t4 : enc tpl4 = some tpl4 := enc_ascii _ (by decide +kernel)
    have t5 : enc [32] = some [32] := rfl
    exact enc_append_some (enc_append_some (enc_append_some (enc_append_some (enc_append_some (enc_append_some
      (enc_append_some (enc_append_some t1 hsn) t2) hq) t3) hq) t5) j1) t4
  · intro ok zero uargs
    have hz' : 0 ∉ exeB := by rw [enc_zero exe exeB hexe]; exact hz
    obtain ⟨wpy, ws, ht, hv, hshape, hexp⟩ := tokenise_script (b64Encode pathB) exeB argsB hsafe hz' (j3 haz) (j2 hne)
    have hhead : ∃ r, exeB = 47 :: r := by
      obtain ⟨r, rfl⟩ := habs
      rw [enc_cons_ascii (by decide), Option.map_eq_some_iff] at hexe
      obtain ⟨z, _, rfl⟩ := hexe
      exact ⟨z, rfl⟩
    have hw : ∃ q gs, wpy = .lit q 47 :: gs := by
      obtain ⟨r, hr⟩ := hhead
      cases wpy with
      | nil => simp [litsVal, hr] at hv
      | cons g gs =>
        cases g with
        | lit q c =>
          simp only [litsVal, Option.map_eq_some_iff, hr] at hv
          obtain ⟨z, _, hz⟩ := hv
          exact ⟨q, gs, by simp only [List.cons.injEq] at hz; rw [hz.1]⟩
        | var n => simp [litsVal] at hv
    obtain ⟨q, gs, hw⟩ := hw
    refine run_cmds ok zero (b64Encode pathB) exeB argsB uargs wpy ws q gs hw hv hexp bytes ?_
    unfold parseScript
    rw [ht]
    refine parse_script (b64Encode pathB) wpy ws q gs hw _ ?_
    simp only [toks1, toks3, List.cons_append, List.append_assoc, List.nil_append, tokLines]
    have h := tokLines_words (ws ++ [[.var py!"@"]]) []
    simp only [List.map_append, List.map_cons, List.map_nil, List.append_assoc, List.cons_append, List.nil_append] at h
    rw [h]
    simp

end Verif.Launch
