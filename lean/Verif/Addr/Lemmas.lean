import Verif.Addr.Model
import Verif.Json.Lemmas

namespace Verif.Addr
open Verif

theorem cut_none (c : Nat) (s : Str) (h : c ∉ s) : cut c s = none := by
  induction s with
  | nil => rfl
  | cons x s ih =>
    simp only [List.mem_cons, not_or] at h
    simp only [cut]
    rw [if_neg (fun e => h.1 e.symm), ih h.2]; rfl

theorem cut_append (c : Nat) (a b : Str) (h : c ∉ a) : cut c (a ++ c :: b) = some (a, b) := by
  induction a with
  | nil => simp [cut]
  | cons x a ih =>
    simp only [List.mem_cons, not_or] at h
    simp only [List.cons_append, cut]
    rw [if_neg (fun e => h.1 e.symm), ih h.2]; rfl

theorem cut_some (c : Nat) (s a b : Str) (h : cut c s = some (a, b)) : s = a ++ c :: b ∧ c ∉ a := by
  induction s generalizing a with
  | nil => simp [cut] at h
  | cons x s ih =>
    simp only [cut] at h
    split at h
    · rename_i e; simp only [Option.some.injEq, Prod.mk.injEq] at h; obtain ⟨rfl, rfl⟩ := h; subst e; simp
    · rename_i e
      cases hc : cut c s with
      | none => rw [hc] at h; simp at h
      | some p =>
        rw [hc] at h
        simp only [Option.map_some, Option.some.injEq, Prod.mk.injEq] at h
        obtain ⟨rfl, rfl⟩ := h
        have := ih p.1 (by rw [hc])
        refine ⟨by rw [List.cons_append, ← this.1], ?_⟩
        simp only [List.mem_cons, not_or]
        exact ⟨fun h => e h.symm, this.2⟩

theorem takeWhile_all {α : Type} (p : α → Bool) (l : List α) (h : ∀ x ∈ l, p x = true) : l.takeWhile p = l := by
  induction l with
  | nil => rfl
  | cons x l ih => rw [List.takeWhile_cons, h x (by simp)]; simp [ih (fun y hy => h y (by simp [hy]))]

theorem takeWhile_app {α : Type} (p : α → Bool) (l t : List α) (h : ∀ x ∈ l, p x = true) (ht : ∀ x, t.head? = some x → p x = false) :
    (l ++ t).takeWhile p = l ∧ (l ++ t).dropWhile p = t := by
  induction l with
  | nil =>
    cases t with
    | nil => simp
    | cons x t => have := ht x rfl; simp [this]
  | cons x l ih =>
    have := ih (fun y hy => h y (by simp [hy]))
    simp only [List.cons_append, List.takeWhile_cons, List.dropWhile_cons, h x (by simp), if_true, this]
    exact ⟨trivial, trivial⟩

theorem afterLast_none (c : Nat) (s : Str) (h : c ∉ s) : afterLast c s = s := by
  unfold afterLast
  rw [takeWhile_all _ _ (by intro x hx; simp only [bne_iff_ne]; rintro rfl; exact h (by simpa using hx)), List.reverse_reverse]

theorem filter_id (s : Str) (h : ∀ c ∈ s, c ≠ 9 ∧ c ≠ 10 ∧ c ≠ 13) :
    s.filter (fun c => !(c == 9 || c == 10 || c == 13)) = s := by
  rw [List.filter_eq_self]
  intro c hc
  have := h c hc
  simp [this]

/-- The path part of what follows the netloc. -/
def pathOf (t : Str) : Str := t.takeWhile (fun c => !(c == 63 || c == 35))

/-- `urlsplit` of `tcp://...` or `uds://...` with a netloc without special characters. -/
theorem urlsplit_netloc (env : Env) (s : Str) (hs : s = py!"tcp" ∨ s = py!"uds") (n t : Str)
    (hn : ∀ c ∈ n, isDelim c = false ∧ c ≠ 9 ∧ c ≠ 10 ∧ c ≠ 13 ∧ c < 128)
    (hb : (n.contains 91 = false ∧ n.contains 93 = false) ∨ (n.contains 91 = true ∧ n.contains 93 = true ∧ bracketOk env n = true))
    (ht : ∀ c ∈ t, c ≠ 9 ∧ c ≠ 10 ∧ c ≠ 13) (ht0 : ∀ c, t.head? = some c → isDelim c = true) :
    urlsplit env (s ++ py!"://" ++ n ++ t) = .ok ⟨s, n, pathOf t⟩ := by
  have hclean : ((s ++ py!"://" ++ n ++ t).dropWhile (· ≤ 32)).filter (fun c => !(c == 9 || c == 10 || c == 13)) = s ++ py!"://" ++ n ++ t := by
    have : (s ++ py!"://" ++ n ++ t).dropWhile (fun c => decide (c ≤ 32)) = s ++ py!"://" ++ n ++ t := by
      rcases hs with rfl | rfl <;> rfl
    rw [this, filter_id]
    intro c hc
    simp only [List.mem_append] at hc
    rcases hc with ((hc | hc) | hc) | hc
    · rcases hs with rfl | rfl
      · exact (by decide : ∀ c ∈ py!"tcp", c ≠ 9 ∧ c ≠ 10 ∧ c ≠ 13) c hc
      · exact (by decide : ∀ c ∈ py!"uds", c ≠ 9 ∧ c ≠ 10 ∧ c ≠ 13) c hc
    · exact (by decide : ∀ c ∈ py!"://", c ≠ 9 ∧ c ≠ 10 ∧ c ≠ 13) c hc
    · have := hn c hc; exact ⟨this.2.1, this.2.2.1, this.2.2.2.1⟩
    · exact ht c hc
  have hsch : splitScheme (s ++ py!"://" ++ n ++ t) = (s, 47 :: 47 :: (n ++ t)) := by
    rcases hs with rfl | rfl <;> simp [splitScheme, cut, isAlpha, isSchemeChar, isDig, lowerC]
  have htd := takeWhile_app (fun c => !isDelim c) n t (by intro x hx; simp [(hn x hx).1])
    (by intro x hx; simp [ht0 x hx])
  have hascii : n.all (· < 128) = true := by simp only [List.all_eq_true, decide_eq_true_eq]; exact fun c hc => (hn c hc).2.2.2.2
  unfold urlsplit
  rw [hclean]
  simp only [hsch, htd.1, htd.2, hascii]
  rcases hb with ⟨h1, h2⟩ | ⟨h1, h2, h3⟩
  · simp only [h1, h2]; simp [pathOf]
  · simp only [h1, h2, h3]; simp [pathOf]

theorem natDec_all (n : Nat) : (natDec n).all isDig = true := by
  rw [List.all_eq_true]; exact natDec_digits n

theorem natDec_nonempty (n : Nat) : (natDec n).isEmpty = false := by
  have := natDec_ne_nil n
  cases h : natDec n with
  | nil => exact absurd h this
  | cons _ _ => rfl

theorem dig_not (n c : Nat) (hc : isDig c = false) : c ∉ natDec n := by
  intro h; have := natDec_digits n c h; rw [hc] at this; cases this

theorem dig_range (n : Nat) : ∀ c ∈ natDec n, 48 ≤ c ∧ c ≤ 57 := by
  intro c hc
  have := natDec_digits n c hc
  simpa [isDig] using this

end Verif.Addr
