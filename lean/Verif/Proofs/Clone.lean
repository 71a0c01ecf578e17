import Verif.Spec.Clone
import Verif.Proofs.Tree

/-
Lemmas about copies (C44).
-/
namespace Ics

theorem copyParams_value (n : Nat) (ps : List (Str × HVal)) :
    (copyParams n ps).1.map (fun x => (x.1, x.2.value)) = ps.map fun x => (x.1, x.2.value) := by
  induction ps generalizing n with
  | nil => rfl
  | cons p ps ih =>
    obtain ⟨k, v⟩ := p
    cases v with
    | str s => exact congrArg (List.cons _) (ih n)
    | list id vs => exact congrArg (List.cons _) (ih (n + 1))

theorem copyParams_objects (n : Nat) (ps : List (Str × HVal)) :
    n ≤ (copyParams n ps).2 ∧ ∀ x ∈ (copyParams n ps).1.flatMap (fun p => p.2.objects), n ≤ x := by
  induction ps generalizing n with
  | nil => exact ⟨Nat.le_refl _, fun _ h => absurd h List.not_mem_nil⟩
  | cons p ps ih =>
    obtain ⟨k, v⟩ := p
    cases v with
    | str s =>
      obtain ⟨h1, h2⟩ := ih n
      exact ⟨h1, fun x hx => h2 x (by simpa [copyParams, HVal.objects] using hx)⟩
    | list id vs =>
      obtain ⟨h1, h2⟩ := ih (n + 1)
      refine ⟨Nat.le_of_succ_le h1, fun x hx => ?_⟩
      have hx : x = n ∨ x ∈ (copyParams (n + 1) ps).1.flatMap (fun p => p.2.objects) := by
        simpa [copyParams, HVal.objects] using hx
      rcases hx with rfl | hx
      · exact Nat.le_refl _
      · exact Nat.le_of_succ_le (h2 x hx)

mutual
theorem same_refl (i : HItem) : i.same i := by
  cases i with
  | line id d n p v => simp [HItem.same]
  | cont id l n is => exact ⟨rfl, sames_refl is⟩
theorem sames_refl (is : List HItem) : HItem.sames is is := by
  cases is with
  | nil => simp [HItem.sames]
  | cons i is => exact ⟨same_refl i, sames_refl is⟩
end

theorem clone_same (n : Nat) (i : HItem) (h : i.upperNames) : (i.clone n).1.same i := by
  cases i with
  | line id d name p v => exact ⟨h, copyParams_value _ _, rfl⟩
  | cont id l name is => exact ⟨h.1, sames_refl is⟩

theorem cloneItems_same (n : Nat) (is : List HItem) (h : HItem.upperNamess is) :
    HItem.sames (cloneItems n is).1 is := by
  induction is generalizing n with
  | nil => simp [cloneItems, HItem.sames]
  | cons i is ih => exact ⟨clone_same n i h.1, ih _ h.2⟩

theorem mem_objectss (x : Nat) (is : List HItem) : x ∈ HItem.objectss is ↔ ∃ i ∈ is, x ∈ i.objects := by
  induction is with
  | nil => simp [HItem.objectss]
  | cons i is ih => simp [HItem.objectss, ih]

theorem clone_objects (n : Nat) (i : HItem) :
    n ≤ (i.clone n).2 ∧ ∀ x ∈ (i.clone n).1.objects, n ≤ x ∨ x ∈ HItem.objectss i.inner := by
  cases i with
  | line id d name p v =>
    obtain ⟨h1, h2⟩ := copyParams_objects (n + 2) p
    refine ⟨Nat.le_trans (by omega) h1, fun x hx => .inl ?_⟩
    rcases List.mem_cons.1 hx with rfl | hx
    · exact Nat.le_refl _
    · rcases List.mem_cons.1 hx with rfl | hx
      · omega
      · have := h2 x hx
        omega
  | cont id l name is =>
    refine ⟨by simp only [HItem.clone]; omega, fun x hx => ?_⟩
    rcases List.mem_cons.1 hx with rfl | hx
    · exact .inl (Nat.le_refl _)
    · rcases List.mem_cons.1 hx with rfl | hx
      · exact .inl (by omega)
      · exact .inr hx

theorem clone_inner (n : Nat) (i : HItem) (x : Nat) (h : x ∈ HItem.objectss i.inner) :
    x ∈ (i.clone n).1.objects ∧ x ∈ i.objects := by
  cases i with
  | line id d name p v => exact absurd h List.not_mem_nil
  | cont id l name is =>
    exact ⟨List.mem_cons_of_mem _ (List.mem_cons_of_mem _ h), List.mem_cons_of_mem _ (List.mem_cons_of_mem _ h)⟩

theorem cloneItems_objects (n : Nat) (is : List HItem) :
    (∀ x ∈ HItem.objectss (cloneItems n is).1, n ≤ x ∨ ∃ i ∈ is, x ∈ HItem.objectss i.inner) ∧
    ∀ i ∈ is, ∀ x ∈ HItem.objectss i.inner, x ∈ HItem.objectss (cloneItems n is).1 := by
  induction is generalizing n with
  | nil => exact ⟨fun _ h => absurd h List.not_mem_nil, fun _ h => absurd h List.not_mem_nil⟩
  | cons i is ih =>
    obtain ⟨h1, h2⟩ := clone_objects n i
    obtain ⟨h3, h4⟩ := ih (i.clone n).2
    constructor
    · intro x hx
      rcases List.mem_append.1 hx with hx | hx
      · rcases h2 x hx with h | h
        · exact .inl h
        · exact .inr ⟨i, List.mem_cons_self, h⟩
      · rcases h3 x hx with h | ⟨j, hj, h⟩
        · exact .inl (Nat.le_trans h1 h)
        · exact .inr ⟨j, List.mem_cons_of_mem _ hj, h⟩
    · intro j hj x hx
      refine List.mem_append.2 ?_
      rcases List.mem_cons.1 hj with rfl | hj
      · exact .inl (clone_inner n j x hx).1
      · exact .inr (h4 j hj x hx)

theorem check_idem {σ : Type} (L : Lib) (c : Check) (u v : AttrVal σ) (h : c.run L u = .ok v) :
    c.run L v = .ok v := by
  have utc : ∀ d d', L.astimezone d (.zone L.icsUtc) = .ok d' → L.astimezone d' (.zone L.icsUtc) = .ok d' := by
    intro d d' h
    have ht : d'.tz = some (.zone L.icsUtc) := by
      unfold Env.astimezone at h
      split at h
      · cases h
        assumption
      · dsimp only at h
        split at h
        · cases h
        · split at h
          · cases h
            rfl
          · cases h
    unfold Env.astimezone
    rw [if_pos ht]
  cases c with
  | any => cases h; rfl
  | status =>
    cases u with
    | none => cases h; rfl
    | many l => cases h
    | one x =>
      cases x with
      | text s =>
        unfold Check.run at h
        dsimp only at h
        split at h
        · rename_i hs
          cases h
          unfold Check.run
          dsimp only
          rw [upper_upper, if_pos hs]
        · cases h
      | _ => cases h
  | utc =>
    cases u with
    | none => cases h; rfl
    | many l => cases h
    | one x =>
      cases x with
      | dt d =>
        unfold Check.run at h
        dsimp only at h
        cases ha : L.astimezone d (.zone L.icsUtc) with
        | error e => rw [ha] at h; cases h
        | ok d' =>
          rw [ha] at h
          cases h
          unfold Check.run
          dsimp only
          rw [utc d d' ha]
          rfl
      | _ => cases h
  | utcRequired =>
    cases u with
    | none => cases h
    | many l => cases h
    | one x =>
      cases x with
      | dt d =>
        unfold Check.run at h
        dsimp only at h
        cases ha : L.astimezone d (.zone L.icsUtc) with
        | error e => rw [ha] at h; cases h
        | ok d' =>
          rw [ha] at h
          cases h
          unfold Check.run
          dsimp only
          rw [utc d d' ha]
          rfl
      | _ => cases h
  | str => rcases u with _ | x | l <;> [cases h; (cases x <;> first | (cases h; done) | (cases h; rfl)); cases h]
  | strOpt => rcases u with _ | x | l <;> [(cases h; rfl); (cases x <;> first | (cases h; done) | (cases h; rfl)); cases h]
  | organizerOpt =>
    rcases u with _ | x | l
    · cases h; rfl
    · cases x with
      | person a e x => cases a <;> first | (cases h; done) | (cases h; rfl)
      | _ => cases h
    · cases h
  | geo => rcases u with _ | x | l <;> [(cases h; rfl); (cases x <;> first | (cases h; done) | (cases h; rfl)); (cases h; rfl)]
  | range m =>
    rcases u with _ | x | l
    · cases h; rfl
    · cases x with
      | int n =>
        have h' := h
        unfold Check.run at h
        dsimp only at h
        split at h
        · cases h; exact h'
        · cases h
      | bool b => cases h; rfl
      | _ => cases h
    · cases h
  | datetime => rcases u with _ | x | l <;> [(cases h; rfl); (cases x <;> first | (cases h; done) | (cases h; rfl)); cases h]
  | timedelta => rcases u with _ | x | l <;> [(cases h; rfl); (cases x <;> first | (cases h; done) | (cases h; rfl)); cases h]
  | trigger => rcases u with _ | x | l <;> [(cases h; rfl); (cases x <;> first | (cases h; done) | (cases h; rfl)); cases h]
  | timespan cls =>
    rcases u with _ | x | l
    · cases h
    · cases x with
      | span s =>
        have h' := h
        unfold Check.run at h
        dsimp only at h
        cases ha : L.validateTimespan cls s with
        | error e => rw [ha] at h; cases h
        | ok d' => rw [ha] at h; cases h; exact h'
      | _ => cases h
    · cases h
  | list => rcases u with _ | x | l <;> [cases h; cases h; (cases h; rfl)]

theorem cloneAttrs_ok {σ : Type} (L : Lib) (o : Obj σ) (cs : List (Str × Check))
    (h : ∀ p ∈ cs, p.2.run L (o.get p.1) = .ok (o.get p.1)) :
    cloneAttrs L o cs = .ok (cs.map fun p => (p.1, o.get p.1)) := by
  induction cs with
  | nil => rfl
  | cons p cs ih =>
    obtain ⟨h1, h2⟩ := List.forall_mem_cons.1 h
    unfold cloneAttrs
    rw [h1, ih h2]
    rfl

theorem dictGet_map {α ν : Type} (cs : List (Str × α)) (f : Str → ν) (k : Str) (h : k ∈ cs.map Prod.fst) :
    dictGet? (cs.map fun p => (p.1, f p.1)) k = some (f k) := by
  induction cs with
  | nil => cases h
  | cons p cs ih =>
    rw [List.map_cons]
    unfold dictGet?
    split
    · rename_i e
      rw [e]
    · rename_i e
      rcases List.mem_cons.1 h with h | h
      · exact absurd h.symm e
      · exact ih h

end Ics
