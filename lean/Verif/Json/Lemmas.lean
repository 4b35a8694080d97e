import Verif.Json.Spec
/-! # Lemmas about the JSON writer and reader (proofs only) -/

namespace Verif

/-! ## Decimal text -/

theorem natDec_digits (n : Nat) : ∀ c ∈ natDec n, isDig c = true := by
  induction n using natDec.induct with
  | case1 n h => rw [natDec]; simp [h, isDig]; omega
  | case2 n h ih =>
    rw [natDec]; simp only [h, dite_false, List.mem_append, List.mem_singleton]
    intro c hc
    rcases hc with hc | hc
    · exact ih c hc
    · subst hc; simp [isDig]; omega

theorem natDec_ne_nil (n : Nat) : natDec n ≠ [] := by
  rw [natDec]; split <;> simp

theorem digVal_append (a : List Nat) (d : Nat) : digVal (a ++ [d]) = digVal a * 10 + (d - 48) := by
  simp [digVal]

theorem digVal_natDec (n : Nat) : digVal (natDec n) = n := by
  induction n using natDec.induct with
  | case1 n h => rw [natDec]; simp [h, digVal]
  | case2 n h ih =>
    rw [natDec]; simp only [h, dite_false]
    rw [digVal_append, ih]; omega

theorem natDec_head (n : Nat) (h : 0 < n) : ∃ d ds, natDec n = d :: ds ∧ 49 ≤ d ∧ d ≤ 57 := by
  induction n using natDec.induct with
  | case1 n h' => rw [natDec]; simp only [h', dite_true]; exact ⟨48 + n, [], rfl, by omega, by omega⟩
  | case2 n h' ih =>
    rw [natDec]; simp only [h', dite_false]
    obtain ⟨d, ds, e, h1, h2⟩ := ih (by omega)
    exact ⟨d, ds ++ [48 + n % 10], by simp [e], h1, h2⟩

theorem natDec_zero : natDec 0 = [48] := by rw [natDec]; simp

theorem takeWhile_dig (ds rest : List Nat) (h : ∀ c ∈ ds, isDig c = true)
    (hr : ∀ c, rest.head? = some c → isDig c = false) :
    (ds ++ rest).takeWhile isDig = ds ∧ (ds ++ rest).dropWhile isDig = rest := by
  induction ds with
  | nil =>
    cases rest with
    | nil => simp
    | cons c r => simp [hr c (by simp)]
  | cons d ds ih =>
    have hd := h d (by simp)
    have := ih (fun c hc => h c (by simp [hc]))
    simp [hd, this.1, this.2]

/-! ## Strings -/

theorem unhex_hexDig (n : Nat) (h : n < 16) : unhex (hexDig n) = some n := by
  unfold hexDig unhex
  split
  · rw [if_pos (by omega)]; simp
  · rw [if_neg (by omega), if_pos (by omega)]; simp

theorem unhex4_uEsc (n : Nat) (h : n < 65536) :
    unhex4 (hexDig (n / 4096 % 16)) (hexDig (n / 256 % 16)) (hexDig (n / 16 % 16)) (hexDig (n % 16)) = some n := by
  unfold unhex4
  rw [unhex_hexDig _ (by omega), unhex_hexDig _ (by omega), unhex_hexDig _ (by omega), unhex_hexDig _ (by omega)]
  simp; omega

theorem lowSurrogate_uEsc (n : Nat) (h : n < 65536) (r : Str) :
    lowSurrogate (uEsc n ++ r) = if 0xdc00 ≤ n ∧ n ≤ 0xdfff then some (n, r) else none := by
  simp only [uEsc, List.cons_append, List.nil_append, lowSurrogate]
  rw [unhex4_uEsc n h]

/-- The text after a lone high surrogate does not continue it. -/
theorem lowSurrogate_none (c : Nat) (hc : isLow c = false) (r : Str) :
    lowSurrogate (escChar c ++ r) = none := by
  simp only [isLow, decide_eq_false_iff_not] at hc
  unfold escChar
  repeat' split
  all_goals try (simp [lowSurrogate]; done)
  · simp only [List.cons_append, List.nil_append]
    unfold lowSurrogate; split
    · rename_i h; injection h with h1 h2; omega
    · rfl
  · rw [lowSurrogate_uEsc _ (by omega)]; rw [if_neg (by omega)]
  · rw [List.append_assoc, lowSurrogate_uEsc _ (by omega)]; rw [if_neg (by omega)]

theorem scanStr_step_uEsc (n : Nat) (h : n < 65536) (fuel : Nat) (r : Str)
    (hn : isHigh n = true → lowSurrogate r = none) :
    scanStr (fuel + 1) (uEsc n ++ r) = (scanStr fuel r).map fun p => (n :: p.1, p.2) := by
  simp only [uEsc, List.cons_append, List.nil_append, scanStr]
  rw [unhex4_uEsc n h]
  simp only
  split
  · rw [hn (by simp [isHigh]; omega)]
  · rfl

theorem scanStr_step_pair (n m : Nat) (h : 0xd800 ≤ n ∧ n ≤ 0xdbff) (h' : 0xdc00 ≤ m ∧ m ≤ 0xdfff) (fuel : Nat) (r : Str) :
    scanStr (fuel + 1) (uEsc n ++ (uEsc m ++ r)) =
      (scanStr fuel r).map fun p => ((0x10000 + (n - 0xd800) * 1024 + (m - 0xdc00)) :: p.1, p.2) := by
  have : scanStr (fuel + 1) (uEsc n ++ (uEsc m ++ r)) = 
     match lowSurrogate (uEsc m ++ r) with
          | some (w, rest') =>
            (scanStr fuel rest').map fun r => ((0x10000 + (n - 0xd800) * 1024 + (w - 0xdc00)) :: r.1, r.2)
          | none => (scanStr fuel (uEsc m ++ r)).map fun r => (n :: r.1, r.2) := by
    simp only [uEsc, List.cons_append, List.nil_append]
    rw [scanStr.eq_def]
    simp only
    rw [unhex4_uEsc n (by omega)]
    simp only
    rw [if_pos h]
    rfl
  rw [this, lowSurrogate_uEsc _ (by omega), if_pos h']

theorem scanStr_step_esc (e c : Nat) (h : unescape e = some c) (fuel : Nat) (r : Str) :
    scanStr (fuel + 1) (92 :: e :: r) = (scanStr fuel r).map fun p => (c :: p.1, p.2) := by
  have hne : e ≠ 117 := by rintro rfl; simp [unescape] at h
  rw [scanStr]
  · rw [h]
  · intro a b c d rest h' _
    exact hne h'

theorem scanStr_step_plain (c : Nat) (h : 32 ≤ c) (h1 : c ≠ 34) (h2 : c ≠ 92) (fuel : Nat) (r : Str) :
    scanStr (fuel + 1) (c :: r) = (scanStr fuel r).map fun p => (c :: p.1, p.2) := by
  rw [scanStr]
  · rw [if_neg (by omega)]
  · intro h'; exact h1 h'
  · intro _ _ _ _ _ h'; exact fun _ => h2 h'
  · intro _ _ h'; exact fun _ => h2 h'

theorem scanStr_escChar (c : Nat) (hc : c < 0x110000) (fuel : Nat) (r : Str)
    (hn : isHigh c = true → lowSurrogate r = none) :
    scanStr (fuel + 1) (escChar c ++ r) = (scanStr fuel r).map fun p => (c :: p.1, p.2) := by
  unfold escChar
  repeat' split
  all_goals try simp only [List.cons_append, List.nil_append]
  all_goals try subst c
  all_goals try (apply scanStr_step_esc; decide)
  · exact scanStr_step_plain c (by omega) (by omega) (by omega) fuel r
  · exact scanStr_step_uEsc c (by omega) fuel r hn
  · rw [List.append_assoc, scanStr_step_pair _ _ (by omega) (by omega)]
    have : 0x10000 + (0xd800 + (c - 0x10000) / 1024 % 1024 - 0xd800) * 1024 + (0xdc00 + (c - 0x10000) % 1024 - 0xdc00) = c := by omega
    rw [this]

theorem escChar_ne_nil (c : Nat) : 1 ≤ (escChar c).length := by
  unfold escChar; repeat' split
  all_goals simp [uEsc]

theorem scanStr_flatMap (s : Str) (h : StrOk s = true) (rest : Str) :
    ∀ fuel, s.length + 1 ≤ fuel → scanStr fuel (s.flatMap escChar ++ 34 :: rest) = some (s, rest) := by
  induction s with
  | nil =>
    intro fuel hf
    obtain ⟨f, rfl⟩ : ∃ f, fuel = f + 1 := ⟨fuel - 1, by omega⟩
    simp [scanStr]
  | cons c s ih =>
    intro fuel hf
    obtain ⟨f, rfl⟩ : ∃ f, fuel = f + 1 := ⟨fuel - 1, by omega⟩
    have hs : StrOk s = true := by
      cases s with
      | nil => rfl
      | cons d s => simp only [StrOk, Bool.and_eq_true] at h; exact h.2
    have hc : c < 0x110000 := by
      cases s with
      | nil => simpa [StrOk] using h
      | cons d s => simp only [StrOk, Bool.and_eq_true, decide_eq_true_eq] at h; exact h.1.1
    simp only [List.flatMap_cons, List.append_assoc]
    rw [scanStr_escChar c hc f, ih hs f (by simp at hf; omega)]
    · rfl
    · intro hhi
      cases s with
      | nil => simp [lowSurrogate]
      | cons d s =>
        simp only [StrOk, Bool.and_eq_true, decide_eq_true_eq, hhi, Bool.true_and, Bool.not_eq_true'] at h
        simp only [List.flatMap_cons, List.append_assoc]
        exact lowSurrogate_none d h.1.2 _

theorem flatMap_esc_length (s : Str) : s.length ≤ (s.flatMap escChar).length := by
  induction s with
  | nil => simp
  | cons c s ih => have := escChar_ne_nil c; simp only [List.flatMap_cons, List.length_append, List.length_cons]; omega

theorem scanStr_dumpStr (s : Str) (h : StrOk s = true) (rest : Str) :
    scanStr ((s.flatMap escChar ++ 34 :: rest).length + 1) (s.flatMap escChar ++ 34 :: rest) = some (s, rest) := by
  apply scanStr_flatMap s h
  have := flatMap_esc_length s
  rw [List.length_append, List.length_cons]; omega

/-! ## Numbers -/

/-- What can follow a value inside a document. -/
def Stop (rest : Str) : Prop := ∀ c, rest.head? = some c → c = 44 ∨ c = 93 ∨ c = 125

theorem Stop.notDig {rest : Str} (h : Stop rest) : ∀ c, rest.head? = some c → isDig c = false := by
  intro c hc
  have h2 := h c hc
  simp only [isDig, decide_eq_false_iff_not]; omega

theorem scanFrac_stop {rest : Str} (h : ∀ c, rest.head? = some c → c ≠ 46) : scanFrac rest = ([], rest) := by
  unfold scanFrac; split
  · exact absurd rfl (h 46 (by simp))
  · rfl

theorem scanExp_stop {rest : Str} (h : Stop rest) : scanExp rest = ([], rest) := by
  unfold scanExp; split
  · rename_i e r
    have := h e (by simp)
    rw [if_neg (by omega)]
  · rfl

theorem scanInt_zero (rest : Str) : scanInt (48 :: rest) = some ([48], rest) := by simp [scanInt]

theorem scanInt_pos (d : Nat) (ds rest : Str) (h : 49 ≤ d ∧ d ≤ 57) (hd : ∀ c ∈ ds, isDig c = true)
    (hr : ∀ c, rest.head? = some c → isDig c = false) : scanInt (d :: ds ++ rest) = some (d :: ds, rest) := by
  have := takeWhile_dig ds rest hd hr
  unfold scanInt; simp only [List.cons_append]
  split
  · rename_i heq; injection heq; omega
  · rename_i heq; injection heq with a b; subst a; subst b
    rw [if_pos h, this.1, this.2]
  · simp at *

theorem scanInt_gen (ip rest : Str) (h : ip = [48] ∨ (Digits ip ∧ ip.head? ≠ some 48))
    (hr : ∀ c, rest.head? = some c → isDig c = false) : scanInt (ip ++ rest) = some (ip, rest) := by
  rcases h with rfl | ⟨⟨hne, hd⟩, h0⟩
  · exact scanInt_zero rest
  · cases ip with
    | nil => simp at hne
    | cons d ds =>
      refine scanInt_pos d ds rest ?_ (fun c hc => hd c (by simp [hc])) hr
      have := hd d (by simp)
      simp [isDig] at this
      simp at h0; omega

theorem natDec_intPart (n : Nat) : natDec n = [48] ∨ (Digits (natDec n) ∧ (natDec n).head? ≠ some 48) := by
  by_cases h : n = 0
  · subst h; left; exact natDec_zero
  · right
    obtain ⟨d, ds, e, h1, h2⟩ := natDec_head n (by omega)
    refine ⟨⟨natDec_ne_nil n, natDec_digits n⟩, ?_⟩
    rw [e]; simp; omega

theorem scanSign_none {s : Str} (h : ∀ r, s ≠ 45 :: r) : scanSign s = ([], s) := by
  unfold scanSign; split
  · exact absurd rfl (h _)
  · rfl

/-- The scan of the part after the sign. -/
theorem scanNum_nat (n : Nat) (rest : Str) (h : Stop rest) (sg : Bool) :
    scanNum ((if sg then [45] else []) ++ natDec n ++ rest) =
      some (.int (if sg then - (n : Int) else n), rest) := by
  have h1 := scanInt_gen _ rest (natDec_intPart n) h.notDig
  have h2 := scanFrac_stop (rest := rest) (fun c hc => by have := h c hc; omega)
  have h3 := scanExp_stop h
  have hne : ∀ r, natDec n ++ rest ≠ 45 :: r := by
    intro r hr
    have hd := natDec_digits n
    cases hn : natDec n with
    | nil => exact natDec_ne_nil n hn
    | cons d ds =>
      rw [hn] at hr hd; simp at hr
      have := hd d (by simp); simp [isDig] at this; omega
  cases sg
  · simp only [Bool.false_eq_true, if_false, List.nil_append, scanNum]
    rw [scanSign_none hne]; simp only
    rw [h1]; simp only; rw [h2]; simp only; rw [h3]; simp [digVal_natDec]
  · simp only [if_true, List.cons_append, List.nil_append, scanNum, scanSign]
    rw [h1]; simp only; rw [h2]; simp only; rw [h3]; simp [digVal_natDec]

theorem scanNum_intDec (i : Int) (rest : Str) (h : Stop rest) :
    scanNum (intDec i ++ rest) = some (.int i, rest) := by
  cases i with
  | ofNat n => simpa [intDec] using scanNum_nat n rest h false
  | negSucc n => 
    have := scanNum_nat (n+1) rest h true
    simpa [intDec, Int.negSucc_eq] using this

theorem scanExp_gen (e : Nat) (sg ds rest : Str) (he : e = 101 ∨ e = 69) (hsg : sg = [] ∨ sg = [43] ∨ sg = [45])
    (hd : Digits ds) (hr : ∀ c, rest.head? = some c → isDig c = false) :
    scanExp (e :: (sg ++ ds) ++ rest) = (e :: (sg ++ ds), rest) := by
  obtain ⟨hne, hd⟩ := hd
  cases ds with
  | nil => simp at hne
  | cons d ds =>
    have hdd := hd d (by simp)
    have htw := takeWhile_dig ds rest (fun c hc => hd c (by simp [hc])) hr
    unfold scanExp
    simp only [List.cons_append]
    rw [if_pos he]
    rcases hsg with rfl | rfl | rfl
    · simp only [List.nil_append, List.cons_append]
      cases hq : ds ++ rest with
      | nil => 
        simp at hq; obtain ⟨rfl, rfl⟩ := hq
        simp [hdd]
      | cons d2 r2 =>
        simp only
        have h43 : ¬ ((d = 43 ∨ d = 45) ∧ isDig d2 = true) := by
          simp [isDig] at hdd; omega
        rw [if_neg h43, if_pos hdd, ← hq]
        simp [hdd, htw.1, htw.2]
    · simp [hdd, htw.1, htw.2]
    · simp [hdd, htw.1, htw.2]

theorem scanFrac_gen (ds rest : Str) (hd : Digits ds) (hr : ∀ c, rest.head? = some c → isDig c = false) :
    scanFrac (46 :: ds ++ rest) = (46 :: ds, rest) := by
  obtain ⟨hne, hd⟩ := hd
  cases ds with
  | nil => simp at hne
  | cons d ds =>
    have hdd := hd d (by simp)
    have htw := takeWhile_dig ds rest (fun c hc => hd c (by simp [hc])) hr
    simp [scanFrac, hdd, htw.1, htw.2]

theorem scanNum_float (sign ip fr ex rest : Str)
    (hs : sign = [] ∨ sign = [45])
    (hi : ip = [48] ∨ (Digits ip ∧ ip.head? ≠ some 48))
    (hf : fr = [] ∨ ∃ ds, Digits ds ∧ fr = 46 :: ds)
    (he : ex = [] ∨ ∃ e sg ds, (e = 101 ∨ e = 69) ∧ (sg = [] ∨ sg = [43] ∨ sg = [45]) ∧ Digits ds ∧ ex = e :: (sg ++ ds))
    (hne : fr ≠ [] ∨ ex ≠ []) (h : Stop rest) :
    scanNum (sign ++ ip ++ fr ++ ex ++ rest) = some (.float (sign ++ ip ++ fr ++ ex), rest) := by
  have hexh : ∀ c, (ex ++ rest).head? = some c → isDig c = false ∧ c ≠ 46 := by
    intro c hc
    rcases he with rfl | ⟨e, sg, ds, he, -, -, rfl⟩
    · have := h c hc
      refine ⟨h.notDig c hc, by omega⟩
    · simp at hc; subst hc; constructor
      · simp [isDig]; omega
      · omega
  have hfrh : ∀ c, (fr ++ (ex ++ rest)).head? = some c → isDig c = false := by
    intro c hc
    rcases hf with rfl | ⟨ds, -, rfl⟩
    · exact (hexh c hc).1
    · simp at hc; subst hc; decide
  have h1 : scanInt (ip ++ (fr ++ (ex ++ rest))) = some (ip, fr ++ (ex ++ rest)) := scanInt_gen _ _ hi hfrh
  have h2 : scanFrac (fr ++ (ex ++ rest)) = (fr, ex ++ rest) := by
    rcases hf with rfl | ⟨ds, hds, rfl⟩
    · exact scanFrac_stop (fun c hc => (hexh c hc).2)
    · exact scanFrac_gen _ _ hds (fun c hc => (hexh c hc).1)
  have h3 : scanExp (ex ++ rest) = (ex, rest) := by
    rcases he with rfl | ⟨e, sg, ds, he, hsg, hds, rfl⟩
    · exact scanExp_stop h
    · exact scanExp_gen e sg ds rest he hsg hds h.notDig
  have hip : ∀ t r, ip ++ t ≠ 45 :: r := by
    intro t r hr
    rcases hi with rfl | ⟨⟨hn, hd⟩, -⟩
    · simp at hr
    · cases ip with
      | nil => simp at hn
      | cons d ds =>
        simp at hr; have := hd d (by simp); simp [isDig] at this; omega
  have hne' : ¬ (fr = [] ∧ ex = []) := by
    rintro ⟨a, b⟩; rcases hne with h | h <;> contradiction
  rcases hs with rfl | rfl
  · simp only [List.nil_append, List.append_assoc, scanNum]
    rw [scanSign_none (hip _)]; simp only
    rw [h1]; simp only; rw [h2]; simp only; rw [h3]; simp [hne']
  · simp only [List.nil_append, List.cons_append, List.append_assoc, scanNum, scanSign]
    rw [h1]; simp only; rw [h2]; simp only; rw [h3]; simp [hne']

end Verif
