import Verif.Py.Basic
/-! # Lemmas about the dictionary model -/

namespace Verif.DL
open Verif
variable {κ α : Type} [DecidableEq κ]

theorem get_set (d : Dict κ α) (k k' : κ) (v : α) :
    (d.set k v).get? k' = if k = k' then some v else d.get? k' := by
  induction d with
  | nil => simp [Dict.set, Dict.get?]
  | cons e t ih =>
    obtain ⟨a, b⟩ := e
    by_cases h : a = k
    · subst h; by_cases h' : a = k' <;> simp [Dict.set, Dict.get?, h']
    · simp only [Dict.set, h, if_false, Dict.get?, ih]
      by_cases h' : a = k'
      · subst h'; simp [Ne.symm h]
      · simp [h']

theorem get_filter (d : Dict κ α) (p : κ → Bool) (k : κ) :
    Dict.get? (d.filter fun e => p e.1) k = if p k = true then d.get? k else none := by
  induction d with
  | nil => simp [Dict.get?]
  | cons e t ih =>
    obtain ⟨a, b⟩ := e
    by_cases h : p a = true
    · rw [List.filter_cons_of_pos (by simpa using h)]
      simp only [Dict.get?, ih]
      by_cases h' : a = k
      · subst h'; simp [h]
      · simp [h']
    · rw [List.filter_cons_of_neg (by simpa using h), ih]
      simp only [Dict.get?]
      by_cases h' : a = k
      · subst h'; simp [h]
      · simp [h']

theorem get_erase (d : Dict κ α) (k k' : κ) :
    (d.erase k).get? k' = if k' = k then none else d.get? k' := by
  rw [Dict.erase, get_filter d (fun x => decide (x ≠ k)) k']
  by_cases h : k' = k <;> simp [h]

theorem keys_set (d : Dict κ α) (k : κ) (v : α) :
    (d.set k v).map (·.1) = if k ∈ d.map (·.1) then d.map (·.1) else d.map (·.1) ++ [k] := by
  induction d with
  | nil => simp [Dict.set]
  | cons e t ih =>
    obtain ⟨a, b⟩ := e
    by_cases h : a = k
    · subst h; simp [Dict.set]
    · simp only [Dict.set, h, if_false, List.map_cons, ih, List.mem_cons]
      by_cases h' : k ∈ t.map (·.1)
      · simp [h']
      · simp [h', Ne.symm h]

theorem nodup_set (d : Dict κ α) (k : κ) (v : α) (h : (d.map (·.1)).Nodup) : ((d.set k v).map (·.1)).Nodup := by
  rw [keys_set]
  split
  · exact h
  · rename_i hk
    rw [List.nodup_append]
    exact ⟨h, by simp, fun a ha b hb => by simp at hb; subst hb; exact fun e => hk (e ▸ ha)⟩

theorem nodup_filter (d : Dict κ α) (p : κ × α → Bool) (h : (d.map (·.1)).Nodup) :
    ((d.filter p).map (·.1)).Nodup :=
  (List.filter_sublist.map _).nodup h

theorem mem_of_get {d : Dict κ α} {k : κ} {v : α} (h : d.get? k = some v) : (k, v) ∈ d := by
  induction d with
  | nil => cases h
  | cons e t ih =>
    obtain ⟨a, b⟩ := e
    simp only [Dict.get?] at h
    split at h
    · subst_vars; simp_all
    · exact List.mem_cons_of_mem _ (ih h)

theorem get_of_mem {d : Dict κ α} (hd : (d.map (·.1)).Nodup) {k : κ} {v : α} (h : (k, v) ∈ d) : d.get? k = some v := by
  induction d with
  | nil => cases h
  | cons e t ih =>
    obtain ⟨a, b⟩ := e
    simp only [List.map_cons, List.nodup_cons] at hd
    rcases List.mem_cons.1 h with e | h
    · cases e; simp [Dict.get?]
    · have : a ≠ k := by
        rintro rfl
        exact hd.1 (List.mem_map.2 ⟨_, h, rfl⟩)
      simp [Dict.get?, this, ih hd.2 h]

theorem get_none {d : Dict κ α} {k : κ} : d.get? k = none ↔ k ∉ d.map (·.1) := by
  induction d with
  | nil => simp [Dict.get?]
  | cons e t ih =>
    obtain ⟨a, b⟩ := e
    by_cases h : a = k
    · simp [Dict.get?, h]
    · simp [Dict.get?, h, ih, Ne.symm h]

theorem get_some_key {d : Dict κ α} {k : κ} : (∃ v, d.get? k = some v) ↔ k ∈ d.map (·.1) := by
  have := get_none (d := d) (k := k)
  cases h : d.get? k with
  | none => simp_all
  | some v => simp_all

theorem set_fresh (d : Dict κ α) (k : κ) (v : α) (h : k ∉ d.map (·.1)) : d.set k v = d ++ [(k, v)] := by
  induction d with
  | nil => rfl
  | cons e t ih =>
    obtain ⟨a, b⟩ := e
    simp only [List.map_cons, List.mem_cons, not_or] at h
    simp [Dict.set, Ne.symm h.1, ih h.2]

end Verif.DL
