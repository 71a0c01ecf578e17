import Verif.Py.List
import Mathlib.Data.List.Nodup
import Mathlib.Tactic.Linarith

/-
What the index arithmetic of slices means (C45).
-/
namespace Ics

theorem lt_rangeLen_pos (a b k : Int) (hk : 0 < k) (m : Nat) : m < rangeLen a b k ↔ a + m * k < b := by
  unfold rangeLen
  rw [if_pos hk]
  have h : (m : Int) < (b - a + k - 1) / k ↔ a + m * k < b := by
    rw [← Int.add_one_le_iff, Int.le_ediv_iff_mul_le hk, Int.add_mul]
    omega
  rw [← h]
  omega

theorem lt_rangeLen_neg (a b k : Int) (hk : k < 0) (m : Nat) : m < rangeLen a b k ↔ b < a + m * k := by
  unfold rangeLen
  rw [if_neg (by omega)]
  have h : (m : Int) < (a - b + -k - 1) / -k ↔ b < a + m * k := by
    rw [← Int.add_one_le_iff, Int.le_ediv_iff_mul_le (by omega : 0 < -k), Int.add_mul, Int.mul_neg]
    omega
  rw [← h]
  omega

theorem indices_bounds {s : Slice} {n : Nat} {a b k : Int} (h : s.indices n = .ok (a, b, k)) :
    k ≠ 0 ∧ (0 < k → 0 ≤ a ∧ b ≤ n) ∧ (k < 0 → a < n ∧ -1 ≤ b) := by
  unfold Slice.indices at h
  dsimp only at h
  split at h
  · cases h
  · rename_i hk
    cases h
    refine ⟨hk, fun hp => ?_, fun hp => ?_⟩
    · have : ¬s.step.getD 1 < 0 := by omega
      simp only [if_neg this]
      constructor
      · cases s.start with
        | none => simp
        | some i => dsimp only; split <;> omega
      · cases s.stop with
        | none => simp
        | some i => dsimp only; split <;> omega
    · simp only [if_pos hp]
      constructor
      · cases s.start with
        | none => dsimp only; omega
        | some i => dsimp only; split <;> omega
      · cases s.stop with
        | none => simp
        | some i => dsimp only; split <;> omega

theorem mem_rangeList (a b k : Int) (hk : k ≠ 0) (p : Int) :
    p ∈ rangeList a b k ↔ ∃ m : Nat, p = a + m * k ∧ (0 < k → p < b) ∧ (k < 0 → b < p) := by
  unfold rangeList
  rw [List.mem_map]
  constructor
  · rintro ⟨m, hm, rfl⟩
    rw [List.mem_range] at hm
    exact ⟨m, rfl, fun h => (lt_rangeLen_pos a b k h m).1 hm, fun h => (lt_rangeLen_neg a b k h m).1 hm⟩
  · rintro ⟨m, rfl, h1, h2⟩
    refine ⟨m, List.mem_range.2 ?_, rfl⟩
    rcases Int.lt_or_gt_of_ne hk with h | h
    · exact (lt_rangeLen_neg a b k h m).2 (h2 h)
    · exact (lt_rangeLen_pos a b k h m).2 (h1 h)

theorem rangeList_nodup (a b k : Int) (hk : k ≠ 0) : (rangeList a b k).Nodup := by
  unfold rangeList
  refine List.Nodup.map (fun x y h => ?_) List.nodup_range
  have : (x : Int) * k = y * k := by omega
  have := Int.eq_of_mul_eq_mul_right hk this
  omega

theorem rangeList_bounds {s : Slice} {n : Nat} {a b k : Int} (h : s.indices n = .ok (a, b, k)) (p : Int)
    (hp : p ∈ rangeList a b k) : 0 ≤ p ∧ p < n := by
  obtain ⟨hk, h1, h2⟩ := indices_bounds h
  obtain ⟨m, rfl, h3, h4⟩ := (mem_rangeList a b k hk p).1 hp
  rcases Int.lt_or_gt_of_ne hk with h | h
  · have := h2 h
    have := h4 h
    have : (m : Int) * k ≤ 0 := Int.mul_nonpos_of_nonneg_of_nonpos (by omega) (by omega)
    omega
  · have := h1 h
    have := h3 h
    have : 0 ≤ (m : Int) * k := Int.mul_nonneg (by omega) (by omega)
    omega

theorem dropPositions_eq {α : Type} (ps : List Int) (i : Nat) (l : List α) :
    dropPositions ps i l =
      ((List.range l.length).filter fun j => decide (((i + j : Nat) : Int) ∉ ps)).filterMap fun j => l[j]? := by
  induction l generalizing i with
  | nil => rfl
  | cons x l ih =>
    unfold dropPositions
    rw [List.length_cons, List.range_succ_eq_map, List.filter_cons]
    have hr : (((List.range l.length).map Nat.succ).filter fun j => decide (((i + j : Nat) : Int) ∉ ps)).filterMap
        (fun j => (x :: l)[j]?) = dropPositions ps (i + 1) l := by
      rw [ih, List.filter_map, List.filterMap_map]
      have : ((fun j => decide (((i + j : Nat) : Int) ∉ ps)) ∘ Nat.succ) =
          fun j => decide (((i + 1 + j : Nat) : Int) ∉ ps) := by
        funext j
        show decide (((i + (j + 1) : Nat) : Int) ∉ ps) = _
        rw [show i + (j + 1) = i + 1 + j by omega]
      rw [this]
      rfl
    by_cases h : (i : Int) ∈ ps
    · rw [if_pos h, if_neg (by simpa using h), hr]
    · rw [if_neg h, if_pos (by simpa using h), List.filterMap_cons]
      show _ = x :: _
      rw [hr]

theorem length_setPositions {α : Type} (ps : List Int) (vs l : List α) :
    (setPositions ps vs l).length = l.length := by
  induction ps generalizing vs l with
  | nil => rfl
  | cons p ps ih =>
    cases vs with
    | nil => rfl
    | cons v vs => unfold setPositions; rw [ih, List.length_set]

theorem setPositions_other {α : Type} (ps : List Int) (vs l : List α) (i : Nat) (h : ∀ p ∈ ps, 0 ≤ p)
    (hi : (i : Int) ∉ ps) : (setPositions ps vs l)[i]? = l[i]? := by
  induction ps generalizing vs l with
  | nil => rfl
  | cons p ps ih =>
    cases vs with
    | nil => rfl
    | cons v vs =>
      obtain ⟨hp, hps⟩ := List.forall_mem_cons.1 h
      rw [List.mem_cons, not_or] at hi
      unfold setPositions
      rw [ih _ _ hps hi.2, List.getElem?_set_ne]
      omega

theorem setPositions_at {α : Type} (ps : List Int) (vs l : List α) (h : ∀ p ∈ ps, 0 ≤ p ∧ p < l.length)
    (hd : ps.Nodup) (hl : vs.length = ps.length) (j : Nat) (p : Int) (hj : ps[j]? = some p) :
    (setPositions ps vs l)[p.toNat]? = vs[j]? := by
  induction ps generalizing vs l j with
  | nil => cases hj
  | cons q ps ih =>
    cases vs with
    | nil => cases hl
    | cons v vs =>
      obtain ⟨hq, hps⟩ := List.forall_mem_cons.1 h
      obtain ⟨hqn, hd⟩ := List.nodup_cons.1 hd
      unfold setPositions
      cases j with
      | zero =>
        obtain rfl : q = p := by simpa using hj
        rw [setPositions_other _ _ _ _ (fun r hr => (hps r hr).1) (by rw [Int.toNat_of_nonneg hq.1]; exact hqn),
          List.getElem?_set_self (by omega)]
        rfl
      | succ j =>
        rw [List.getElem?_cons_succ] at hj ⊢
        exact ih vs _ (by simpa using hps) hd (by simpa using hl) j hj

end Ics
