import Verif.Server.Attach
/-!
# What a path mapping of the arguments is
-/

namespace Verif.Server
open Verif

/-- The entry is a mapping of the one root to the other. -/
def IsMapping (j : Json) (m : Json × Json) : Prop :=
  ∃ d, j = .obj d ∧ Dict.get? d py!"localRoot" = some m.1 ∧ Dict.get? d py!"remoteRoot" = some m.2

theorem mappingOf_iff (j : Json) (m : Json × Json) : mappingOf j = some m ↔ IsMapping j m := by
  obtain ⟨x, y⟩ := m
  unfold IsMapping
  cases j with
  | obj d =>
    simp only [mappingOf, Json.obj.injEq]
    constructor
    · intro h
      split at h
      · cases h; exact ⟨d, rfl, by assumption, by assumption⟩
      · cases h
    · rintro ⟨d', rfl, h1, h2⟩
      simp [h1, h2]
  | _ =>
    constructor
    · intro h; cases h
    · rintro ⟨d, h, -⟩; cases h

theorem mappingList_iff (l : List Json) : ∀ ms, mappingList l = some ms ↔
    ms.length = l.length ∧ ∀ (i : Nat) j m, l[i]? = some j → ms[i]? = some m → IsMapping j m := by
  induction l with
  | nil => intro ms; simp only [mappingList]; cases ms <;> simp
  | cons j js ih =>
    intro ms
    constructor
    · intro h
      simp only [mappingList] at h
      split at h
      · rename_i m ms' h1 h2
        cases h
        obtain ⟨g1, g2⟩ := (ih ms').1 h2
        refine ⟨by simp [g1], ?_⟩
        intro i j' m' hj hm
        cases i with
        | zero => simp at hj hm; subst hj; subst hm; exact (mappingOf_iff _ _).1 h1
        | succ i => exact g2 i j' m' (by simpa using hj) (by simpa using hm)
      · cases h
    · rintro ⟨h1, h2⟩
      cases ms with
      | nil => simp at h1
      | cons m ms' =>
        have e1 := (mappingOf_iff j m).2 (h2 0 j m rfl rfl)
        have e2 := (ih ms').2 ⟨by simpa using h1, fun i j' m' hj hm => h2 (i + 1) j' m' (by simpa using hj) (by simpa using hm)⟩
        simp [mappingList, e1, e2]

theorem mappingList_total (l : List Json) (hall : ∀ j ∈ l, ∃ m, IsMapping j m) : ∃ ms, mappingList l = some ms := by
  induction l with
  | nil => exact ⟨[], rfl⟩
  | cons j js ih =>
    obtain ⟨ms, hms⟩ := ih (fun j hj => hall j (by simp [hj]))
    obtain ⟨m, hm⟩ := hall j (by simp)
    exact ⟨m :: ms, by simp [mappingList, (mappingOf_iff j m).2 hm, hms]⟩

theorem mappingList_none (l : List Json) (j : Json) (hj : j ∈ l) (hn : ∀ m, ¬ IsMapping j m) : mappingList l = none := by
  cases h : mappingList l with
  | none => rfl
  | some ms =>
    obtain ⟨h1, h2⟩ := (mappingList_iff l ms).1 h
    obtain ⟨i, hi, rfl⟩ := List.getElem_of_mem hj
    exact absurd (h2 i _ (ms[i]'(by omega)) (by simp [hi]) (by simp)) (hn _)

end Verif.Server
