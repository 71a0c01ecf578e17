import Verif.Proofs.Container
import Verif.Proofs.Slice

/-
C45: a container only ever holds content lines and containers.
-/
namespace Ics

variable {α : Type}

/-- C45 for every history in which no `extend` and no assignment raises because of its values: at every
moment the container holds content lines and containers only, every successful call has the effect and the
result of the list operation, and every raising call changes nothing.  Missing: an `extend` or assignment
that is given something else (or an iterable that raises) raises too late, see `C45_extend_fails` and
`C45_setitem_fails`. -/
theorem C45_history_partial (I : ObjInfo α) (c : Cont α) (ops : List (ContOp α)) (hn : c.name ≠ [])
    (h : OnlyItems I c.data) (hp : ∀ p ∈ (c.history I ops).2, p.1.Proper I ∨ ∃ r, p.2 = .ok r) :
    Faithful I c.data (c.history I ops).2 (c.history I ops).1.data :=
  history_faithful I ops c hn h hp

/-- C45: whatever the history and whatever the container holds, a raising call other than `extend` and
assignment changes nothing. -/
theorem C45_atomic (I : ObjInfo α) (c : Cont α) (op : ContOp α) (e : PyErr)
    (ho : ∀ xs, op ≠ .extend xs) (ho' : ∀ i v, op ≠ .setitem i v) (h : (c.step I op).2 = .error e) :
    (c.step I op).1 = c := by
  cases op with
  | extend xs => exact absurd rfl (ho xs)
  | setitem i v => exact absurd rfl (ho' i v)
  | append x =>
    unfold Cont.step at h ⊢
    dsimp only at h ⊢
    split at h
    · simp [*]
    · cases h
  | insert i x =>
    unfold Cont.step at h ⊢
    dsimp only at h ⊢
    split at h
    · simp [*]
    · split at h
      · simp [*]
      · cases h
  | delitem i =>
    cases i <;>
      (unfold Cont.step at h ⊢
       dsimp only at h ⊢
       split at h
       · simp [*]
       · cases h)
  | pop i =>
    unfold Cont.step at h ⊢
    dsimp only at h ⊢
    split at h
    · simp [*]
    · cases h
  | remove eq =>
    unfold Cont.step at h ⊢
    dsimp only at h ⊢
    split at h
    · simp [*]
    · cases h
  | clear => cases h
  | reverse => cases h

/-- C45: whatever happened before, after an `extend` or an assignment that does not raise, the container
holds content lines and containers only: a wrong object never goes unnoticed. -/
theorem C45_checked (I : ObjInfo α) (c : Cont α) (op : ContOp α) (r : Option α)
    (ho : (∃ xs, op = .extend xs) ∨ ∃ i v, op = .setitem i v) (h : (c.step I op).2 = .ok r) :
    OnlyItems I (c.step I op).1.data := by
  rcases ho with ⟨xs, rfl⟩ | ⟨i, v, rfl⟩
  · unfold Cont.step at h ⊢
    dsimp only at h ⊢
    split at h
    · cases h
    · split at h
      · cases h
      · rename_i he _ hv
        simp only [he]
        exact contValidate_ok I _ hv
  · unfold Cont.step at h ⊢
    dsimp only at h ⊢
    split at h
    · cases h
    · split at h
      · cases h
      · rename_i hl _ hv
        simp only [hl, hv]
        exact contValidate_ok I _ hv

/-- C45 is false of `extend`: given anything that is not an item, it raises a `TypeError` and keeps all it
was given. -/
theorem C45_extend_fails (I : ObjInfo α) (c : Cont α) (xs : List α) (hn : c.name ≠ [])
    (h : ¬OnlyItems I xs) :
    c.step I (.extend (.done xs)) = ({ c with data := c.data ++ xs }, .error .typeError) := by
  have hv : Cont.validate I { c with data := c.data ++ xs } = .error .typeError := by
    unfold Cont.validate
    rw [if_neg hn]
    exact checkItems_error I _ fun hi => h fun x hx => hi x (List.mem_append_right _ hx)
  simp only [Cont.step, Gen.done, hv]

/-- C45 is false of `extend` with an iterable that raises: what came before the exception stays, unchecked. -/
theorem C45_extend_iter_fails (I : ObjInfo α) (c : Cont α) (xs : List α) (e : PyErr) :
    c.step I (.extend ⟨xs, some e⟩) = ({ c with data := c.data ++ xs }, .error e) := rfl

/-- C45 is false of an assignment: given something that is not an item, it raises a `TypeError` and keeps
it. -/
theorem C45_setitem_fails (I : ObjInfo α) (c : Cont α) (i : Int) (j : Nat) (x : AssignArg α) (hn : c.name ≠ [])
    (hi : normIndex c.data.length i = some j) (h : I.isItem x.value = false) :
    c.step I (.setitem (.int i) x) = ({ c with data := c.data.set j x.value }, .error .typeError) := by
  have hj : j < c.data.length := by
    simp only [normIndex] at hi
    by_cases hc : 0 ≤ (if i < 0 then i + (c.data.length : Int) else i) ∧
        (if i < 0 then i + (c.data.length : Int) else i) < c.data.length
    · rw [if_pos hc] at hi
      simp only [Option.some.injEq] at hi
      omega
    · rw [if_neg hc] at hi
      cases hi
  have hv : Cont.validate I { c with data := c.data.set j x.value } = .error .typeError := by
    unfold Cont.validate
    rw [if_neg hn]
    refine checkItems_error I _ fun ho => ?_
    have := ho x.value (List.mem_set hj _)
    rw [h] at this
    cases this
  simp only [Cont.step, listSet, hi, hv]

/-- C45, what the list operations mean: a slice stands for the positions `start + m * step` before `stop`, all
of them in the list and no two the same. -/
theorem C45_positions (s : Slice) (n : Nat) (a b k : Int) (h : s.indices n = .ok (a, b, k)) :
    (∀ p, p ∈ rangeList a b k ↔ ∃ m : Nat, p = a + m * k ∧ (0 < k → p < b) ∧ (k < 0 → b < p)) ∧
    (∀ p ∈ rangeList a b k, 0 ≤ p ∧ p < n) ∧ (rangeList a b k).Nodup :=
  ⟨mem_rangeList a b k (indices_bounds h).1, rangeList_bounds h, rangeList_nodup a b k (indices_bounds h).1⟩

/-- C45: deleting a slice keeps the elements at the other positions, in order. -/
theorem C45_del_slice (l l' : List α) (s : Slice) (a b k : Int) (h : s.indices l.length = .ok (a, b, k))
    (hl : listDel l (.slice s) = .ok l') :
    l' = ((List.range l.length).filter fun i : Nat => decide ((i : Int) ∉ rangeList a b k)).filterMap
      fun i => l[i]? := by
  simp only [listDel, h, Except.map, Except.ok.injEq] at hl
  rw [← hl, dropPositions_eq]
  simp

/-- C45: assigning to a slice with a step other than 1 puts the `j`-th value at the `j`-th position of the
slice and leaves the other positions alone. -/
theorem C45_set_slice (l l' : List α) (s : Slice) (v : AssignArg α) (a b k : Int)
    (h : s.indices l.length = .ok (a, b, k)) (hk : k ≠ 1) (hl : listSet l (.slice s) v = .ok l') :
    l'.length = l.length ∧ v.iter.items.length = (rangeList a b k).length ∧
    (∀ (j : Nat) (p : Int), (rangeList a b k)[j]? = some p → l'[p.toNat]? = v.iter.items[j]?) ∧
    (∀ i : Nat, (i : Int) ∉ rangeList a b k → l'[i]? = l[i]?) := by
  unfold listSet at hl
  simp only [h, if_neg hk] at hl
  split at hl
  · cases hl
  · split at hl
    · rename_i hlen
      cases hl
      exact ⟨length_setPositions _ _ _, hlen,
        fun j p hj => setPositions_at _ _ _ (rangeList_bounds h) (rangeList_nodup a b k (indices_bounds h).1) hlen
          j p hj,
        fun i hi => setPositions_other _ _ _ _ (fun p hp => (rangeList_bounds h p hp).1) hi⟩
    · cases hl

/-- C45, what an index means: `i` is the number of elements before the element, or that number minus the
length. -/
theorem C45_index (p q : List α) (x : α) (i : Int) (hi : i = p.length ∨ i = (p.length : Int) - (p ++ x :: q).length) :
    listDel (p ++ x :: q) (.int i) = .ok (p ++ q) ∧ listPop (p ++ x :: q) (.int i) = .ok (p ++ q, x) ∧
    ∀ v, listSet (p ++ x :: q) (.int i) v = .ok (p ++ v.value :: q) := by
  have hn : normIndex (p ++ x :: q).length i = some p.length := by
    have hl : (p ++ x :: q).length = p.length + (q.length + 1) := by simp
    rw [hl] at hi ⊢
    have hj : (if i < 0 then i + ((p.length + (q.length + 1) : Nat) : Int) else i) = p.length := by
      split <;> omega
    unfold normIndex
    simp only [hj]
    rw [if_pos ⟨by omega, by omega⟩]
    rfl
  refine ⟨?_, ?_, fun v => ?_⟩
  · simp only [listDel, hn]
    simp [List.eraseIdx_append_of_length_le]
  · simp only [listPop, hn]
    simp [List.eraseIdx_append_of_length_le]
  · simp only [listSet, hn]
    simp [List.set_append]

/-- C45: every other index is an `IndexError`, with the list unchanged (`C45_atomic`). -/
theorem C45_index_error (l : List α) (i : Int) (hi : i < -(l.length : Int) ∨ (l.length : Int) ≤ i) :
    listDel l (.int i) = .error .indexError ∧ listPop l (.int i) = .error .indexError ∧
    ∀ v, listSet l (.int i) v = .error .indexError := by
  have hn : normIndex l.length i = none := by
    unfold normIndex
    split <;> rw [if_neg (by omega)]
  refine ⟨?_, ?_, fun v => ?_⟩ <;> simp [listDel, listPop, listSet, hn]

/-- C45: `insert` puts the element before the element with that index; indices that are too large or too
small mean the ends. -/
theorem C45_insert (p q : List α) (x : α) (i : Int)
    (hi : i = p.length ∨ i < 0 ∧ i = -(q.length : Int) ∨ i ≤ -((p ++ q).length : Int) ∧ p = [] ∨
      ((p ++ q).length : Int) ≤ i ∧ q = []) :
    listInsert (p ++ q) (.int i) x = .ok (p ++ x :: q) := by
  have hn : insertPos (p ++ q).length i = p.length := by
    unfold insertPos
    simp only [List.length_append] at hi ⊢
    rcases hi with rfl | ⟨h0, rfl⟩ | ⟨h, rfl⟩ | ⟨h, rfl⟩
    · rw [if_neg (by omega)]; omega
    · rw [if_pos h0]; omega
    · simp only [List.length_nil] at h ⊢
      split <;> omega
    · simp only [List.length_nil] at h ⊢
      split <;> omega
  simp only [listInsert, hn]
  simp

/-- C45: assigning to a slice with step 1 replaces the elements from `start` until `stop` by the values; if
`stop` is before `start`, nothing is removed and the values are inserted at `start`. -/
theorem C45_set_range (p m q : List α) (s : Slice) (v : α) (xs : List α) (b : Int)
    (h : s.indices (p ++ m ++ q).length = .ok ((p.length : Int), b, 1))
    (hb : b = p.length + m.length ∨ m = [] ∧ b ≤ p.length) :
    listSet (p ++ m ++ q) (.slice s) ⟨v, .done xs⟩ = .ok (p ++ xs ++ q) := by
  have hd : (max (p.length : Int) b).toNat = (p ++ m).length := by
    rw [List.length_append]
    rcases hb with rfl | ⟨rfl, hb⟩
    · omega
    · simp only [List.length_nil]; omega
  unfold listSet
  simp only [h, Gen.done, if_true, hd, Int.toNat_natCast]
  rw [List.drop_left, List.append_assoc p m, List.take_left]

/-- C45: `l[3:1] = [8]` for a list of five elements, `l[1:3] = [8]`, `del l[-2]`, `l.insert(-1, 8)`. -/
example : (Slice.mk (some 3) (some 1) none).indices ([0, 1, 2] ++ [] ++ [3, 4]).length = .ok (([0, 1, 2].length : Int), 1, 1) ∧
    listSet [0, 1, 2, 3, 4] (.slice ⟨some 3, some 1, none⟩) ⟨7, .done [8]⟩ = .ok [0, 1, 2, 8, 3, 4] ∧
    (Slice.mk (some 1) (some 3) none).indices ([0] ++ [1, 2] ++ [3, 4]).length = .ok (([0].length : Int), 1 + 2, 1) ∧
    listDel [0, 1, 2, 3, 4] (.int (-2)) = .ok [0, 1, 2, 4] ∧
    listInsert [0, 1, 2, 3, 4] (.int (-1)) 8 = .ok [0, 1, 2, 3, 8, 4] ∧
    listInsert [0, 1] (.int (-7)) 8 = .ok [8, 0, 1] := by decide +kernel

/-- Numbers below 10 as items, their digit as name (used in examples). -/
def exInfo : ObjInfo Nat where
  isItem n := decide (n < 10)
  name n := if n < 10 then .ok [Char.ofNat (48 + n)] else .error .attributeError
  name_ok n h := by
    have : n < 10 := by simpa using h
    exact ⟨_, if_pos this⟩

/-- C45: a history with calls that raise and calls that do not. -/
example :
    let c : Cont Nat := ⟨"VEVENT".toList, [1, 2]⟩
    let ops : List (ContOp Nat) :=
      [.append 3, .append 77, .insert (.int (-1)) 4, .extend (.done [5, 6, 7]), .setitem (.int 9) ⟨8, .raise .typeError⟩,
        .delitem (.slice ⟨none, none, some (-2)⟩), .setitem (.slice ⟨some 1, some 1, none⟩) ⟨0, .done [9, 2]⟩,
        .delitem (.str "2".toList), .pop (.int (-1)), .remove (· == 6), .reverse]
    (∀ x ∈ c.data, exInfo.isItem x = true) ∧ (c.history exInfo ops).1.data = [3, 9] := by decide +kernel

/-- C45: `extend([5, 77])` and `c[0] = 77` raise, and the container holds 77 afterwards. -/
example :
    let c : Cont Nat := ⟨"VEVENT".toList, [1]⟩
    (c.step exInfo (.extend (.done [5, 77]))).1.data = [1, 5, 77] ∧
    (c.step exInfo (.extend (.done [5, 77]))).2 = .error .typeError ∧
    (c.step exInfo (.setitem (.int 0) ⟨77, .raise .typeError⟩)).1.data = [77] ∧
    (c.step exInfo (.setitem (.int 0) ⟨77, .raise .typeError⟩)).2 = .error .typeError := by decide +kernel

/-- C45: a slice with a negative step. -/
example : (Slice.mk (some (-1)) none (some (-2))).indices 5 = .ok (4, -1, -2) ∧ rangeList 4 (-1) (-2) = [4, 2, 0] := by
  decide +kernel

end Ics
