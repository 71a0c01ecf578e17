import Verif.Proofs.Datetime

/-
Lemmas about dictionaries.
-/
namespace Ics

variable {κ ν : Type} [DecidableEq κ]

theorem dictGet_set_ne (d : List (κ × ν)) {k k' : κ} (v : ν) (h : k' ≠ k) :
    dictGet? (dictSet d k v) k' = dictGet? d k' := by
  induction d with
  | nil => simp [dictSet, dictGet?, Ne.symm h]
  | cons a d ih =>
    obtain ⟨a, w⟩ := a
    simp only [dictSet]
    split
    · rename_i e
      subst e
      simp [dictGet?, Ne.symm h]
    · simp only [dictGet?, ih]

theorem dictGet_set_eq (d : List (κ × ν)) (k k' : κ) (v : ν) :
    dictGet? (dictSet d k v) k' = if k' = k then some v else dictGet? d k' := by
  split
  · rename_i e
    rw [e, dictGet_set]
  · rename_i e
    exact dictGet_set_ne d v e

theorem dictGet_setDefault (d : List (κ × ν)) (k k' : κ) (v : ν) :
    dictGet? (dictSetDefault d k v) k' =
      if k' = k then some ((dictGet? d k).getD v) else dictGet? d k' := by
  unfold dictSetDefault
  cases h : dictGet? d k with
  | some w =>
    dsimp only
    split
    · rename_i e
      rw [e, h]
      rfl
    · rfl
  | none =>
    dsimp only
    rw [dictGet_set_eq]
    rfl

/-- Keys without repetition, as in every dictionary. -/
def UniqueKeys (d : List (κ × ν)) : Prop := (d.map Prod.fst).Nodup

theorem dictGet_eq_none {d : List (κ × ν)} {k : κ} : dictGet? d k = none ↔ k ∉ d.map Prod.fst := by
  induction d with
  | nil => simp [dictGet?]
  | cons a d ih =>
    obtain ⟨a, w⟩ := a
    simp only [dictGet?, List.map_cons, List.mem_cons, not_or]
    split
    · rename_i e
      simp [e]
    · rename_i e
      rw [ih]
      simp [Ne.symm e]

theorem dictGet_of_mem {d : List (κ × ν)} (hu : UniqueKeys d) {k : κ} {v : ν} (h : (k, v) ∈ d) :
    dictGet? d k = some v := by
  induction d with
  | nil => simp at h
  | cons a d ih =>
    obtain ⟨a, w⟩ := a
    unfold UniqueKeys at hu
    rw [List.map_cons, List.nodup_cons] at hu
    simp only [dictGet?]
    rcases List.mem_cons.1 h with e | e
    · cases e
      simp
    · have : a ≠ k := by
        intro x
        subst x
        exact hu.1 (List.mem_map.2 ⟨_, e, rfl⟩)
      rw [if_neg this]
      exact ih hu.2 e

theorem mem_of_dictGet {d : List (κ × ν)} {k : κ} {v : ν} (h : dictGet? d k = some v) : (k, v) ∈ d := by
  induction d with
  | nil => simp [dictGet?] at h
  | cons a d ih =>
    obtain ⟨a, w⟩ := a
    simp only [dictGet?] at h
    split at h
    · rename_i e
      cases h
      simp [e]
    · exact List.mem_cons_of_mem _ (ih h)

theorem keys_dictSet (d : List (κ × ν)) (k : κ) (v : ν) :
    (dictSet d k v).map Prod.fst = if k ∈ d.map Prod.fst then d.map Prod.fst else d.map Prod.fst ++ [k] := by
  induction d with
  | nil => simp [dictSet]
  | cons a d ih =>
    obtain ⟨a, w⟩ := a
    simp only [dictSet]
    split
    · rename_i e
      simp [e]
    · rename_i e
      simp only [List.map_cons, ih, List.mem_cons, Ne.symm e, false_or]
      split <;> simp

theorem uniqueKeys_dictSet {d : List (κ × ν)} (k : κ) (v : ν) (h : UniqueKeys d) :
    UniqueKeys (dictSet d k v) := by
  unfold UniqueKeys at *
  rw [keys_dictSet]
  split
  · exact h
  · rename_i e
    rw [List.nodup_append]
    refine ⟨h, by simp, ?_⟩
    intro a ha b hb
    rw [List.mem_singleton] at hb
    subst hb
    intro x
    subst x
    exact e ha

theorem uniqueKeys_setDefault {d : List (κ × ν)} (k : κ) (v : ν) (h : UniqueKeys d) :
    UniqueKeys (dictSetDefault d k v) := by
  unfold dictSetDefault
  split
  · exact h
  · exact uniqueKeys_dictSet k v h

theorem uniqueKeys_nil : UniqueKeys ([] : List (κ × ν)) := List.nodup_nil

theorem dictErase_sublist (d : List (κ × ν)) (k : κ) : (dictErase d k).Sublist d := by
  induction d with
  | nil => exact List.Sublist.refl _
  | cons a d ih =>
    obtain ⟨a, w⟩ := a
    simp only [dictErase]
    split
    · exact List.sublist_cons_self _ _
    · exact ih.cons₂ _

theorem uniqueKeys_dictErase {d : List (κ × ν)} (k : κ) (h : UniqueKeys d) : UniqueKeys (dictErase d k) :=
  h.sublist ((dictErase_sublist d k).map _)

theorem dictGet_erase {d : List (κ × ν)} (hu : UniqueKeys d) (k k' : κ) :
    dictGet? (dictErase d k) k' = if k' = k then none else dictGet? d k' := by
  induction d with
  | nil => simp [dictErase, dictGet?]
  | cons a d ih =>
    obtain ⟨a, w⟩ := a
    unfold UniqueKeys at hu
    rw [List.map_cons, List.nodup_cons] at hu
    simp only [dictErase, dictGet?]
    split
    · rename_i e
      subst e
      split
      · rename_i e
        subst e
        exact dictGet_eq_none.2 hu.1
      · rename_i e
        rw [if_neg (Ne.symm e)]
    · rename_i e
      simp only [dictGet?]
      rw [ih hu.2]
      split
      · rename_i e'
        subst e'
        rw [if_neg e]
      · rename_i e'
        split
        · rfl
        · rfl

theorem dictGet_erase_ne (d : List (κ × ν)) {k k' : κ} (h : k' ≠ k) :
    dictGet? (dictErase d k) k' = dictGet? d k' := by
  induction d with
  | nil => rfl
  | cons a d ih =>
    obtain ⟨a, w⟩ := a
    simp only [dictErase, dictGet?]
    split
    · rename_i e
      subst e
      rw [if_neg (Ne.symm h)]
    · simp only [dictGet?, ih]

theorem mem_dictSet {κ ν : Type} [DecidableEq κ] {d : List (κ × ν)} {k : κ} {v : ν} {x : κ × ν} (h : x ∈ dictSet d k v) :
    x = (k, v) ∨ x ∈ d := by
  induction d with
  | nil => exact .inl (List.mem_singleton.1 h)
  | cons a d ih =>
    obtain ⟨a, w⟩ := a
    unfold dictSet at h
    split at h
    · rcases List.mem_cons.1 h with e | h
      · rename_i hk
        subst hk
        exact .inl e
      · exact .inr (List.mem_cons_of_mem _ h)
    · rcases List.mem_cons.1 h with e | h
      · exact .inr (e ▸ List.mem_cons_self)
      · exact (ih h).imp id (List.mem_cons_of_mem _)

end Ics
