import Verif.Json.Lemmas
/-! # `loads (dumps j) = j` (proofs only) -/

namespace Verif

theorem scanAtom_num (c : Nat) (s : Str)
    (h : isDig c = true ∨ (c = 45 ∧ ∃ d t, s = d :: t ∧ isDig d = true)) :
    scanAtom (c :: s) = scanNum (c :: s) := by
  have hc : c ≠ 110 ∧ c ≠ 116 ∧ c ≠ 102 ∧ c ≠ 78 ∧ c ≠ 73 := by
    rcases h with h | ⟨h, -⟩
    · simp [isDig] at h; omega
    · omega
  have h45 : ¬ (List.isPrefixOf py!"-Infinity" (c :: s) = true) := by
    rcases h with h | ⟨h, d, t, rfl, hd⟩
    · simp [isDig] at h
      simp [List.isPrefixOf]; omega
    · simp [isDig] at hd
      simp [List.isPrefixOf]; omega
  unfold scanAtom
  rw [if_neg, if_neg, if_neg, if_neg, if_neg, if_neg h45]
  all_goals simp [List.isPrefixOf]; omega

theorem scanAtom_int (i : Int) (rest : Str) (h : Stop rest) :
    scanAtom (intDec i ++ rest) = some (.int i, rest) := by
  rw [← scanNum_intDec i rest h]
  cases i with
  | ofNat n =>
    simp only [intDec]
    cases hn : natDec n with
    | nil => exact absurd hn (natDec_ne_nil n)
    | cons d ds => exact scanAtom_num d _ (Or.inl (natDec_digits n d (by simp [hn])))
  | negSucc n =>
    simp only [intDec]
    cases hn : natDec (n+1) with
    | nil => exact absurd hn (natDec_ne_nil _)
    | cons d ds => exact scanAtom_num 45 _ (Or.inr ⟨rfl, d, _, rfl, natDec_digits (n+1) d (by simp [hn])⟩)

theorem scanAtom_float (lit : Str) (hl : FloatText lit) (rest : Str) (h : Stop rest) :
    scanAtom (lit ++ rest) = some (.float lit, rest) := by
  cases hl with
  | nan => simp [scanAtom, List.isPrefixOf]
  | inf => simp [scanAtom, List.isPrefixOf]
  | ninf => simp [scanAtom, List.isPrefixOf]
  | num sign ip fr ex hs hi hf he hne =>
    rw [← scanNum_float sign ip fr ex rest hs hi hf he hne h]
    have hip : ∃ d ds, ip = d :: ds ∧ isDig d = true := by
      rcases hi with rfl | ⟨⟨hn, hd⟩, -⟩
      · exact ⟨48, [], rfl, by decide⟩
      · cases ip with
        | nil => simp at hn
        | cons d ds => exact ⟨d, ds, rfl, hd d (by simp)⟩
    obtain ⟨d, ds, rfl, hd⟩ := hip
    rcases hs with rfl | rfl
    · exact scanAtom_num d _ (Or.inl hd)
    · exact scanAtom_num 45 _ (Or.inr ⟨rfl, d, _, rfl, hd⟩)

/-- The first character of the text of a number. -/
theorem intDec_head (i : Int) : ∃ c s, intDec i = c :: s ∧ (isDig c = true ∨ c = 45) := by
  cases i with
  | ofNat n =>
    cases hn : natDec n with
    | nil => exact absurd hn (natDec_ne_nil n)
    | cons d ds => exact ⟨d, ds, by simp [intDec, hn], Or.inl (natDec_digits n d (by simp [hn]))⟩
  | negSucc n => exact ⟨45, _, rfl, Or.inr rfl⟩

theorem floatText_head (lit : Str) (h : FloatText lit) :
    ∃ c s, lit = c :: s ∧ (isDig c = true ∨ c = 45 ∨ c = 78 ∨ c = 73) := by
  cases h with
  | nan => exact ⟨_, _, rfl, by simp⟩
  | inf => exact ⟨_, _, rfl, by simp⟩
  | ninf => exact ⟨_, _, rfl, by simp⟩
  | num sign ip fr ex hs hi hf he hne =>
    rcases hs with rfl | rfl
    · rcases hi with rfl | ⟨⟨hn, hd⟩, -⟩
      · exact ⟨48, _, rfl, by decide⟩
      · cases ip with
        | nil => simp at hn
        | cons d ds => exact ⟨d, _, rfl, Or.inl (hd d (by simp))⟩
    · exact ⟨45, _, rfl, by simp⟩

/-- First character of a written value: not white space, not a closing bracket. -/
theorem dumps_head (j : Json) (h : j.WF) :
    ∃ c s, dumps j = c :: s ∧ isWs c = false ∧ c ≠ 93 ∧ c ≠ 0xfeff := by
  cases j with
  | null => exact ⟨_, _, by rw [dumps] <;> rfl, by decide, by decide⟩
  | bool b => cases b <;> exact ⟨_, _, by rw [dumps] <;> rfl, by decide, by decide⟩
  | int i =>
    obtain ⟨c, s, e, hc⟩ := intDec_head i
    refine ⟨c, s, by simp [dumps, e], ?_, ?_, ?_⟩ <;> simp [isDig] at hc <;> simp [isWs] <;> omega
  | float lit =>
    simp only [Json.WF] at h
    obtain ⟨c, s, e, hc⟩ := floatText_head lit h
    refine ⟨c, s, by simp [dumps, e], ?_, ?_, ?_⟩ <;> simp [isDig] at hc <;> simp [isWs] <;> omega
  | str s => exact ⟨_, _, by rw [dumps] <;> rfl, by decide, by decide⟩
  | arr l =>
    cases l with
    | nil => exact ⟨_, _, by rw [dumps] <;> rfl, by decide, by decide⟩
    | cons x xs => exact ⟨_, _, by rw [dumps] <;> rfl, by decide, by decide⟩
  | obj l =>
    match l with
    | [] => exact ⟨_, _, by rw [dumps] <;> rfl, by decide, by decide⟩
    | (k, v) :: xs => exact ⟨_, _, by rw [dumps] <;> rfl, by decide, by decide⟩

theorem skipWs_cons {c : Nat} {s : Str} (h : isWs c = false) : skipWs (c :: s) = c :: s := by
  simp [skipWs, h]

theorem skipWs_dumps (j : Json) (h : j.WF) (r : Str) : skipWs (dumps j ++ r) = dumps j ++ r := by
  obtain ⟨c, s, e, hc, -⟩ := dumps_head j h
  rw [e]; exact skipWs_cons hc

theorem skipWs_space (s : Str) : skipWs (32 :: s) = skipWs s := by simp [skipWs, isWs]

mutual
/-- How much fuel the reader needs. -/
def need : Json → Nat
  | .arr l => 1 + needL l
  | .obj l => 1 + needO l
  | _ => 1
def needL : List Json → Nat
  | [] => 0
  | x :: xs => 1 + max (need x) (needL xs)
def needO : List (Str × Json) → Nat
  | [] => 0
  | (_, v) :: xs => 1 + max (need v) (needO xs)
end

theorem Stop.tail (xs : List Json) (rest : Str) : Stop (dumpsTail xs ++ rest) := by
  intro c hc
  cases xs <;> simp [dumpsTail] at hc <;> omega

theorem Stop.objTail (xs : List (Str × Json)) (rest : Str) : Stop (dumpsObjTail xs ++ rest) := by
  intro c hc
  match xs with
  | [] => simp [dumpsObjTail] at hc; omega
  | (k, v) :: xs => simp [dumpsObjTail] at hc; omega

theorem Dict.set_fresh {κ α : Type} [DecidableEq κ] (d : Dict κ α) (k : κ) (v : α) (h : k ∉ d.map (·.1)) :
    Dict.set d k v = d ++ [(k, v)] := by
  induction d with
  | nil => rfl
  | cons e d ih =>
    simp only [List.map_cons, List.mem_cons, not_or] at h
    simp only [Dict.set, List.cons_append]
    rw [if_neg (fun h' => h.1 h'.symm), ih h.2]

/-- One member at the front of an object body. -/
theorem scanMembers_one (f : Nat) (k : Str) (v : Json) (acc : List (Str × Json)) (r2 : Str) (hk : StrOk k = true) (hv : v.WF)
    (ih : scanVal f (dumps v ++ r2) = some (v, r2)) :
    scanMembers (f + 1) (dumpStr k ++ [58, 32] ++ dumps v ++ r2) acc =
      match skipWs r2 with
      | 125 :: r3 => some (Dict.set acc k v, r3)
      | 44 :: r3 => scanMembers f (skipWs r3) (Dict.set acc k v)
      | _ => none := by
  have e : dumpStr k ++ [58, 32] ++ dumps v ++ r2 = 34 :: (k.flatMap escChar ++ 34 :: (58 :: 32 :: (dumps v ++ r2))) := by
    simp [dumpStr]
  rw [e, scanMembers]
  rw [scanStr_dumpStr k hk]
  simp only
  rw [skipWs_cons (by decide)]
  simp only
  rw [skipWs_space, skipWs_dumps v hv, ih]
  rfl

mutual
theorem scanVal_dumps (j : Json) (h : j.WF) : ∀ fuel, need j ≤ fuel → ∀ rest, Stop rest →
    scanVal fuel (dumps j ++ rest) = some (j, rest) := by
  match j, h with
  | .null, _ =>
    intro fuel hf rest hr
    obtain ⟨f, rfl⟩ : ∃ f, fuel = f + 1 := ⟨fuel - 1, by simp only [need] at hf; omega⟩
    simp [dumps, scanVal, scanAtom, List.isPrefixOf]
  | .bool true, _ =>
    intro fuel hf rest hr
    obtain ⟨f, rfl⟩ : ∃ f, fuel = f + 1 := ⟨fuel - 1, by simp only [need] at hf; omega⟩
    simp [dumps, scanVal, scanAtom, List.isPrefixOf]
  | .bool false, _ =>
    intro fuel hf rest hr
    obtain ⟨f, rfl⟩ : ∃ f, fuel = f + 1 := ⟨fuel - 1, by simp only [need] at hf; omega⟩
    simp [dumps, scanVal, scanAtom, List.isPrefixOf]
  | .int i, _ =>
    intro fuel hf rest hr
    obtain ⟨f, rfl⟩ : ∃ f, fuel = f + 1 := ⟨fuel - 1, by simp only [need] at hf; omega⟩
    simp only [dumps]
    rw [← scanAtom_int i rest hr]
    obtain ⟨c, s, e, hc⟩ := intDec_head i
    rw [e]; simp only [List.cons_append]
    simp only [isDig, decide_eq_true_eq] at hc
    rw [scanVal]
    all_goals (intro _ hx; injection hx; omega)
  | .float lit, h =>
    intro fuel hf rest hr
    obtain ⟨f, rfl⟩ : ∃ f, fuel = f + 1 := ⟨fuel - 1, by simp only [need] at hf; omega⟩
    simp only [Json.WF] at h
    simp only [dumps]
    rw [← scanAtom_float lit h rest hr]
    obtain ⟨c, s, e, hc⟩ := floatText_head lit h
    rw [e]; simp only [List.cons_append]
    simp only [isDig, decide_eq_true_eq] at hc
    rw [scanVal]
    all_goals (intro _ hx; injection hx; omega)
  | .str s, h =>
    intro fuel hf rest hr
    obtain ⟨f, rfl⟩ : ∃ f, fuel = f + 1 := ⟨fuel - 1, by simp only [need] at hf; omega⟩
    simp only [Json.WF] at h
    simp only [dumps, dumpStr, List.cons_append, List.append_assoc, List.nil_append, scanVal]
    rw [scanStr_dumpStr s h]; rfl
  | .arr [], _ =>
    intro fuel hf rest hr
    obtain ⟨f, rfl⟩ : ∃ f, fuel = f + 1 := ⟨fuel - 1, by simp only [need] at hf; omega⟩
    simp [dumps, scanVal, skipWs, isWs]
  | .arr (x :: xs), h =>
    intro fuel hf rest hr
    obtain ⟨f, rfl⟩ : ∃ f, fuel = f + 1 := ⟨fuel - 1, by simp only [need] at hf; omega⟩
    simp only [Json.WF, Json.WFL] at h
    simp only [need] at hf
    have := scanElems_dumps x xs h.1 h.2 f (by omega) rest hr
    simp only [dumps, List.cons_append, scanVal, List.append_assoc]
    rw [skipWs_dumps x h.1]
    obtain ⟨c, s, e, hc, hne, -⟩ := dumps_head x h.1
    rw [e] at this ⊢
    simp only [List.cons_append] at this ⊢
    split
    · rename_i heq; injection heq with a b; exact absurd a hne
    · rw [this]; rfl
  | .obj [], _ =>
    intro fuel hf rest hr
    obtain ⟨f, rfl⟩ : ∃ f, fuel = f + 1 := ⟨fuel - 1, by simp only [need] at hf; omega⟩
    simp [dumps, scanVal, skipWs, isWs]
  | .obj ((k, v) :: xs), h =>
    intro fuel hf rest hr
    obtain ⟨f, rfl⟩ : ∃ f, fuel = f + 1 := ⟨fuel - 1, by simp only [need] at hf; omega⟩
    simp only [Json.WF, Json.WFO] at h
    simp only [need] at hf
    have := scanMembers_dumps k v xs h.2.1 h.2.2.1 h.2.2.2 f (by omega) rest hr [] (by simpa using h.1)
    simp only [dumps, List.cons_append, scanVal, List.append_assoc] at this ⊢
    have e : ∀ r, dumpStr k ++ r = 34 :: (k.flatMap escChar ++ 34 :: r) := by simp [dumpStr]
    rw [e, skipWs_cons (by decide), ← e]
    split
    · rename_i heq; rw [e] at heq; injection heq with a b; omega
    · rw [this]; rfl
termination_by sizeOf j
theorem scanElems_dumps (x : Json) (xs : List Json) (hx : x.WF) (hxs : Json.WFL xs) :
    ∀ fuel, needL (x :: xs) ≤ fuel → ∀ rest, Stop rest →
    scanElems fuel (dumps x ++ (dumpsTail xs ++ rest)) = some (x :: xs, rest) := by
  match xs, hxs with
  | [], _ =>
    intro fuel hf rest hr
    simp only [needL] at hf
    obtain ⟨f, rfl⟩ : ∃ f, fuel = f + 1 := ⟨fuel - 1, by omega⟩
    rw [scanElems, scanVal_dumps x hx f (by omega) _ (Stop.tail [] rest)]
    simp only
    simp [dumpsTail, skipWs, isWs]
  | y :: ys, hxs =>
    intro fuel hf rest hr
    simp only [needL] at hf
    obtain ⟨f, rfl⟩ : ∃ f, fuel = f + 1 := ⟨fuel - 1, by omega⟩
    rw [scanElems, scanVal_dumps x hx f (by omega) _ (Stop.tail (y :: ys) rest)]
    simp only
    simp only [Json.WFL] at hxs
    have := scanElems_dumps y ys hxs.1 hxs.2 f (by simp only [needL]; omega) rest hr
    simp only [dumpsTail, List.cons_append, List.append_assoc]
    rw [skipWs_cons (by decide)]
    simp only
    rw [skipWs_space, skipWs_dumps y hxs.1, this]; rfl
termination_by sizeOf (x :: xs)
theorem scanMembers_dumps (k : Str) (v : Json) (xs : List (Str × Json)) (hk : StrOk k = true) (hv : v.WF) (hxs : Json.WFO xs) :
    ∀ fuel, needO ((k, v) :: xs) ≤ fuel → ∀ rest, Stop rest → ∀ acc, ((acc ++ (k, v) :: xs).map (·.1)).Nodup →
    scanMembers fuel (dumpStr k ++ [58, 32] ++ dumps v ++ (dumpsObjTail xs ++ rest)) acc = some (acc ++ (k, v) :: xs, rest) := by
  match xs, hxs with
  | [], _ =>
    intro fuel hf rest hr acc hacc
    simp only [needO] at hf
    obtain ⟨f, rfl⟩ : ∃ f, fuel = f + 1 := ⟨fuel - 1, by omega⟩
    rw [scanMembers_one f k v acc _ hk hv (scanVal_dumps v hv f (by omega) _ (Stop.objTail [] rest))]
    have hfresh : k ∉ acc.map (·.1) := by
      simp only [List.map_append, List.map_cons, List.nodup_append] at hacc
      intro hmem
      exact hacc.2.2 k hmem k (by simp) rfl
    rw [Dict.set_fresh acc k v hfresh]
    simp [dumpsObjTail, skipWs, isWs]
  | (k', v') :: ys, hxs =>
    intro fuel hf rest hr acc hacc
    simp only [needO] at hf
    obtain ⟨f, rfl⟩ : ∃ f, fuel = f + 1 := ⟨fuel - 1, by omega⟩
    rw [scanMembers_one f k v acc _ hk hv (scanVal_dumps v hv f (by omega) _ (Stop.objTail ((k', v') :: ys) rest))]
    have hfresh : k ∉ acc.map (·.1) := by
      simp only [List.map_append, List.map_cons, List.nodup_append] at hacc
      intro hmem
      exact hacc.2.2 k hmem k (by simp) rfl
    rw [Dict.set_fresh acc k v hfresh]
    simp only [Json.WFO] at hxs
    have := scanMembers_dumps k' v' ys hxs.1 hxs.2.1 hxs.2.2 f (by simp only [needO]; omega) rest hr (acc ++ [(k, v)]) (by simpa using hacc)
    simp only [dumpsObjTail, List.cons_append, List.append_assoc] at this ⊢
    rw [skipWs_cons (by decide)]
    simp only
    have e : ∀ r, dumpStr k' ++ r = 34 :: (k'.flatMap escChar ++ 34 :: r) := by simp [dumpStr]
    rw [skipWs_space, e, skipWs_cons (by decide), ← e]
    rw [this]; simp
termination_by sizeOf ((k, v) :: xs)
end

mutual
theorem need_le (j : Json) (h : j.WF) : need j ≤ (dumps j).length := by
  match j, h with
  | .null, _ => simp [need, dumps]
  | .bool true, _ => simp [need, dumps]
  | .bool false, _ => simp [need, dumps]
  | .int i, _ =>
    obtain ⟨c, s, e, -⟩ := intDec_head i
    simp [need, dumps, e]
  | .float lit, h =>
    obtain ⟨c, s, e, -⟩ := floatText_head lit (by simpa [Json.WF] using h)
    simp [need, dumps, e]
  | .str s, _ => simp [need, dumps, dumpStr]
  | .arr [], _ => simp [need, needL, dumps]
  | .arr (x :: xs), h =>
    simp only [Json.WF, Json.WFL] at h
    have h1 := need_le x h.1
    have h2 := needL_le xs h.2
    simp only [need, needL, dumps, List.length_cons, List.length_append]; omega
  | .obj [], _ => simp [need, needO, dumps]
  | .obj ((k, v) :: xs), h =>
    simp only [Json.WF, Json.WFO] at h
    have h1 := need_le v h.2.2.1
    have h2 := needO_le xs h.2.2.2
    simp only [need, needO, dumps, List.length_cons, List.length_append, dumpStr]; omega
theorem needL_le (xs : List Json) (h : Json.WFL xs) : needL xs + 1 ≤ (dumpsTail xs).length := by
  match xs, h with
  | [], _ => simp [needL, dumpsTail]
  | x :: xs, h =>
    simp only [Json.WFL] at h
    have h1 := need_le x h.1
    have h2 := needL_le xs h.2
    simp only [needL, dumpsTail, List.length_cons, List.length_append]; omega
theorem needO_le (xs : List (Str × Json)) (h : Json.WFO xs) : needO xs + 1 ≤ (dumpsObjTail xs).length := by
  match xs, h with
  | [], _ => simp [needO, dumpsObjTail]
  | (k, v) :: xs, h =>
    simp only [Json.WFO] at h
    have h1 := need_le v h.2.1
    have h2 := needO_le xs h.2.2
    simp only [needO, dumpsObjTail, List.length_cons, List.length_append, dumpStr]; omega
end

theorem loads_dumps (j : Json) (h : j.WF) : loads (dumps j) = some j := by
  have h1 := scanVal_dumps j h ((dumps j).length + 1) (by have := need_le j h; omega) [] (by intro c hc; simp at hc)
  rw [List.append_nil] at h1
  obtain ⟨c, s, e, hc, -, hb⟩ := dumps_head j h
  unfold loads
  split
  · rename_i heq; rw [e] at heq; injection heq with a b; exact absurd a hb
  · have h2 := skipWs_dumps j h []
    rw [List.append_nil] at h2
    rw [h2, h1]; simp [skipWs]

/-! ## The written text is ASCII -/

/-- All characters are printable ASCII. -/
def Ascii (s : Str) : Prop := ∀ c ∈ s, 32 ≤ c ∧ c ≤ 126

theorem Ascii.append {s t : Str} (hs : Ascii s) (ht : Ascii t) : Ascii (s ++ t) := by
  intro c hc; rcases List.mem_append.mp hc with h | h
  · exact hs c h
  · exact ht c h

theorem hexDig_ascii (n : Nat) (h : n < 16) : 32 ≤ hexDig n ∧ hexDig n ≤ 126 := by
  unfold hexDig; split <;> omega

theorem uEsc_ascii (n : Nat) : Ascii (uEsc n) := by
  intro c hc
  simp only [uEsc, List.mem_cons, List.not_mem_nil, or_false] at hc
  rcases hc with rfl | rfl | rfl | rfl | rfl | rfl
  · omega
  · omega
  all_goals exact hexDig_ascii _ (by omega)

theorem escChar_ascii (c : Nat) : Ascii (escChar c) := by
  unfold escChar
  repeat' split
  all_goals try (intro d hd; simp at hd; omega)
  · exact uEsc_ascii _
  · exact (uEsc_ascii _).append (uEsc_ascii _)

theorem dumpStr_ascii (s : Str) : Ascii (dumpStr s) := by
  intro c hc
  simp only [dumpStr, List.mem_cons, List.mem_append, List.mem_flatMap, List.not_mem_nil, or_false] at hc
  rcases hc with rfl | ⟨d, -, hc⟩ | rfl
  · omega
  · exact escChar_ascii d c hc
  · omega

theorem natDec_ascii (n : Nat) : Ascii (natDec n) := by
  intro c hc; have := natDec_digits n c hc; simp [isDig] at this; omega

theorem intDec_ascii (i : Int) : Ascii (intDec i) := by
  cases i with
  | ofNat n => exact natDec_ascii n
  | negSucc n => intro c hc; simp only [intDec, List.mem_cons] at hc; rcases hc with rfl | hc; omega; exact natDec_ascii _ c hc

theorem Digits.ascii {ds : Str} (h : Digits ds) : Ascii ds := by
  intro c hc; have := h.2 c hc; simp [isDig] at this; omega

theorem floatText_ascii (lit : Str) (h : FloatText lit) : Ascii lit := by
  cases h with
  | nan => intro c hc; simp at hc; omega
  | inf => intro c hc; simp at hc; omega
  | ninf => intro c hc; simp at hc; omega
  | num sign ip fr ex hs hi hf he hne =>
    refine Ascii.append (Ascii.append (Ascii.append ?_ ?_) ?_) ?_
    · rcases hs with rfl | rfl <;> intro c hc <;> simp at hc; omega
    · rcases hi with rfl | ⟨h, -⟩
      · intro c hc; simp at hc; omega
      · exact h.ascii
    · rcases hf with rfl | ⟨ds, h, rfl⟩
      · intro c hc; simp at hc
      · intro c hc; simp only [List.mem_cons] at hc; rcases hc with rfl | hc; omega; exact h.ascii c hc
    · rcases he with rfl | ⟨e, sg, ds, he, hsg, h, rfl⟩
      · intro c hc; simp at hc
      · intro c hc; simp only [List.mem_cons, List.mem_append] at hc
        rcases hc with rfl | hc | hc
        · omega
        · rcases hsg with rfl | rfl | rfl <;> simp at hc <;> omega
        · exact h.ascii c hc


mutual
theorem dumps_ascii (j : Json) (h : j.FloatsOk) : Ascii (dumps j) := by
  match j, h with
  | .null, _ => intro c hc; simp [dumps] at hc; omega
  | .bool true, _ => intro c hc; simp [dumps] at hc; omega
  | .bool false, _ => intro c hc; simp [dumps] at hc; omega
  | .int i, _ => rw [dumps]; exact intDec_ascii i
  | .float lit, h => rw [dumps]; exact floatText_ascii lit (by simpa [Json.FloatsOk] using h)
  | .str s, _ => rw [dumps]; exact dumpStr_ascii s
  | .arr [], _ => intro c hc; simp [dumps] at hc; omega
  | .arr (x :: xs), h =>
    simp only [Json.FloatsOk, Json.FloatsOkL] at h
    intro c hc; simp only [dumps, List.mem_cons] at hc
    rcases hc with rfl | hc
    · omega
    · exact (dumps_ascii x h.1).append (dumpsTail_ascii xs h.2) c hc
  | .obj [], _ => intro c hc; simp [dumps] at hc; omega
  | .obj ((k, v) :: xs), h =>
    simp only [Json.FloatsOk, Json.FloatsOkO] at h
    intro c hc; simp only [dumps, List.mem_cons] at hc
    rcases hc with rfl | hc
    · omega
    · refine ((((dumpStr_ascii k).append ?_).append (dumps_ascii v h.1)).append (dumpsObjTail_ascii xs h.2)) c hc
      intro c hc; simp at hc; omega
theorem dumpsTail_ascii (xs : List Json) (h : Json.FloatsOkL xs) : Ascii (dumpsTail xs) := by
  match xs, h with
  | [], _ => intro c hc; simp [dumpsTail] at hc; omega
  | x :: xs, h =>
    simp only [Json.FloatsOkL] at h
    intro c hc; simp only [dumpsTail, List.mem_cons] at hc
    rcases hc with rfl | rfl | hc
    · omega
    · omega
    · exact (dumps_ascii x h.1).append (dumpsTail_ascii xs h.2) c hc
theorem dumpsObjTail_ascii (xs : List (Str × Json)) (h : Json.FloatsOkO xs) : Ascii (dumpsObjTail xs) := by
  match xs, h with
  | [], _ => intro c hc; simp [dumpsObjTail] at hc; omega
  | (k, v) :: xs, h =>
    simp only [Json.FloatsOkO] at h
    intro c hc; simp only [dumpsObjTail, List.mem_cons] at hc
    rcases hc with rfl | rfl | hc
    · omega
    · omega
    · refine ((((dumpStr_ascii k).append ?_).append (dumps_ascii v h.1)).append (dumpsObjTail_ascii xs h.2)) c hc
      intro c hc; simp at hc; omega
end

mutual
theorem Json.WF.floatsOk (j : Json) (h : j.WF) : j.FloatsOk := by
  match j, h with
  | .null, _ => simp [Json.FloatsOk]
  | .bool _, _ => simp [Json.FloatsOk]
  | .int _, _ => simp [Json.FloatsOk]
  | .float lit, h => simpa [Json.FloatsOk, Json.WF] using h
  | .str _, _ => simp [Json.FloatsOk]
  | .arr l, h => simp only [Json.FloatsOk, Json.WF] at *; exact Json.WFL.floatsOk l h
  | .obj l, h => simp only [Json.FloatsOk, Json.WF] at *; exact Json.WFO.floatsOk l h.2
theorem Json.WFL.floatsOk (l : List Json) (h : Json.WFL l) : Json.FloatsOkL l := by
  match l, h with
  | [], _ => simp [Json.FloatsOkL]
  | x :: xs, h =>
    simp only [Json.FloatsOkL, Json.WFL] at *
    exact ⟨Json.WF.floatsOk x h.1, Json.WFL.floatsOk xs h.2⟩
theorem Json.WFO.floatsOk (l : List (Str × Json)) (h : Json.WFO l) : Json.FloatsOkO l := by
  match l, h with
  | [], _ => simp [Json.FloatsOkO]
  | (k, v) :: xs, h =>
    simp only [Json.FloatsOkO, Json.WFO] at *
    exact ⟨Json.WF.floatsOk v h.2.1, Json.WFO.floatsOk xs h.2.2⟩
end

end Verif
