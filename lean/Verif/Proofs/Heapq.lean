import Verif.Py.Heapq
import Verif.Proofs.Timespan

/-
Correctness of `heapq` for a `<` that agrees with a total preorder.
-/
namespace Ics

variable {α : Type}

/-! ### Nothing is lost -/

theorem mem_set {l : List α} {i : Nat} {x y : α} (h : y ∈ l.set i x) : y = x ∨ y ∈ l := by
  rcases List.mem_or_eq_of_mem_set h with h | h
  · exact Or.inr h
  · exact Or.inl h

theorem set_perm {l : List α} {p c : Nat} {x new : α} (hp : p < l.length) (hc : l[c]? = some x)
    (hne : p ≠ c) : ((l.set p x).set c new).Perm (l.set p new) := by
  obtain ⟨hcl, hcx⟩ := List.getElem?_eq_some_iff.1 hc
  have h := List.set_set_perm (as := l.set p new) (i := p) (j := c) (by simpa using hp) (by simpa using hcl)
  rw [List.getElem_set_ne hne, List.getElem_set_self, List.set_set, hcx] at h
  exact h

theorem siftdownLoop_perm {lt : α → α → Except PyErr Bool} {start : Nat} {new : α} (fuel : Nat)
    (heap r : List α) (pos : Nat) (hp : pos < heap.length)
    (h : siftdownLoop lt start new fuel heap pos = .ok r) : r.Perm (heap.set pos new) := by
  induction fuel generalizing heap pos with
  | zero => unfold siftdownLoop at h; injection h with h; subst h; exact .refl _
  | succ fuel ih =>
    unfold siftdownLoop at h
    split at h
    · rename_i hs
      split at h
      · cases h
      · rename_i parent hpar
        obtain ⟨b, -, h⟩ := bind_ok_iff.1 h
        split at h
        · have := ih (heap.set pos parent) ((pos - 1) / 2) (by rw [List.length_set]; omega) h
          exact this.trans (set_perm hp hpar (by omega))
        · injection h with h; subst h; exact .refl _
    · injection h with h; subst h; exact .refl _

theorem set_getElem? {l : List α} {i : Nat} {x : α} (h : l[i]? = some x) : l.set i x = l := by
  apply List.ext_getElem?
  intro j
  rw [List.getElem?_set]
  split
  · rename_i hij
    subst hij
    obtain ⟨hl, -⟩ := List.getElem?_eq_some_iff.1 h
    rw [if_pos hl, h]
  · rfl

theorem siftdown_perm {lt : α → α → Except PyErr Bool} {heap r : List α} {start pos : Nat}
    (h : siftdown lt heap start pos = .ok r) : r.Perm heap := by
  unfold siftdown at h
  split at h
  · cases h
  · rename_i new hnew
    obtain ⟨hp, -⟩ := List.getElem?_eq_some_iff.1 hnew
    have := siftdownLoop_perm _ _ _ _ hp h
    rwa [set_getElem? hnew] at this

theorem smallerChild_ok {lt : α → α → Except PyErr Bool} {heap : List α} {child c : Nat}
    (h : smallerChild lt heap child = .ok c) : c = child ∨ c = child + 1 := by
  unfold smallerChild at h
  split at h
  · split at h
    · obtain ⟨b, -, h⟩ := bind_ok_iff.1 h
      split at h <;> (injection h with h; omega)
    · cases h
  · injection h with h; omega

theorem siftupLoop_perm {lt : α → α → Except PyErr Bool} (new : α) (fuel : Nat) (heap : List α) (pos : Nat)
    (r : List α × Nat) (hp : pos < heap.length) (h : siftupLoop lt fuel heap pos = .ok r) :
    (r.1.set r.2 new).Perm (heap.set pos new) ∧ r.2 < r.1.length ∧ r.1.length = heap.length := by
  induction fuel generalizing heap pos with
  | zero => unfold siftupLoop at h; injection h with h; subst h; exact ⟨.refl _, hp, rfl⟩
  | succ fuel ih =>
    unfold siftupLoop at h
    split at h
    · obtain ⟨c, hc, h⟩ := bind_ok_iff.1 h
      split at h
      · cases h
      · rename_i x hx
        obtain ⟨hcl, -⟩ := List.getElem?_eq_some_iff.1 hx
        have := smallerChild_ok hc
        obtain ⟨h1, h2, h3⟩ := ih (heap.set pos x) c (by rw [List.length_set]; exact hcl) h
        exact ⟨h1.trans (set_perm hp hx (by omega)), h2, by rw [h3, List.length_set]⟩
    · injection h with h; subst h; exact ⟨.refl _, hp, rfl⟩

theorem siftup_perm {lt : α → α → Except PyErr Bool} {heap r : List α} {pos : Nat}
    (h : siftup lt heap pos = .ok r) : r.Perm heap := by
  unfold siftup at h
  split at h
  · cases h
  · rename_i new hnew
    obtain ⟨hp, -⟩ := List.getElem?_eq_some_iff.1 hnew
    obtain ⟨q, hq, h⟩ := bind_ok_iff.1 h
    obtain ⟨h1, -, -⟩ := siftupLoop_perm new _ _ _ _ hp hq
    rw [set_getElem? hnew] at h1
    exact (siftdown_perm h).trans h1

theorem siftupAll_perm {lt : α → α → Except PyErr Bool} (is : List Nat) (heap r : List α)
    (h : siftupAll lt is heap = .ok r) : r.Perm heap := by
  induction is generalizing heap with
  | nil => injection h with h; subst h; exact .refl _
  | cons i is ih =>
    obtain ⟨h1, h2, h⟩ := bind_ok_iff.1 h
    exact (ih _ h).trans (siftup_perm h2)

theorem heapify_perm {lt : α → α → Except PyErr Bool} {heap r : List α}
    (h : heapify lt heap = .ok r) : r.Perm heap := siftupAll_perm _ _ _ h

theorem heappop_perm {lt : α → α → Except PyErr Bool} {heap r : List α} {x : α}
    (h : heappop lt heap = .ok (x, r)) : (x :: r).Perm heap := by
  unfold heappop at h
  split at h
  · cases h
  · rename_i last hlast
    have hh : heap = heap.dropLast ++ [last] := by
      obtain ⟨hne, hl⟩ := List.getLast?_eq_some_iff.1 hlast
      rw [hl]; simp
    split at h
    · rename_i hd
      injection h with h; injection h with h1 h2; subst h1; subst h2
      rw [hh, hd]; exact .refl _
    · rename_i y rest hd
      obtain ⟨q, hq, h⟩ := bind_ok_iff.1 h
      injection h with h; injection h with h1 h2; subst h1; subst h2
      rw [hh, hd]
      refine ((siftup_perm hq).cons _).trans ?_
      show (y :: last :: rest).Perm (y :: (rest ++ [last]))
      exact (List.perm_append_comm (l₁ := [last])).cons _

theorem popAll_perm {lt : α → α → Except PyErr Bool} (fuel : Nat) (heap r : List α)
    (hf : heap.length ≤ fuel) (h : popAll lt fuel heap = .ok r) : r.Perm heap := by
  induction fuel generalizing heap r with
  | zero =>
    unfold popAll at h
    injection h with h; subst h
    have : heap = [] := List.eq_nil_of_length_eq_zero (by omega)
    rw [this]
  | succ fuel ih =>
    unfold popAll at h
    split at h
    · injection h with h; subst h; exact .refl _
    · obtain ⟨⟨x, q⟩, hq, h⟩ := bind_ok_iff.1 h
      obtain ⟨rest, hrest, h⟩ := bind_ok_iff.1 h
      injection h with h; subst h
      have hp := heappop_perm hq
      have hl := hp.length_eq
      have := ih q rest (by simp at hl hf; omega) hrest
      exact (this.cons _).trans hp

/-! ### Order -/

/-- On the elements satisfying `A`, `<` agrees with the total preorder `le`. -/
structure Agrees (lt : α → α → Except PyErr Bool) (A : α → Prop) (le : α → α → Prop) : Prop where
  refl : ∀ a, le a a
  trans : ∀ a b c, le a b → le b c → le a c
  yes : ∀ a b, A a → A b → lt a b = .ok true → le a b
  no : ∀ a b, A a → A b → lt a b = .ok false → le b a

/-- The parents in `S` are not greater than their children. -/
def HeapOn (le : α → α → Prop) (S : Nat → Prop) (h : List α) : Prop :=
  ∀ p c x y, S p → (c = 2 * p + 1 ∨ c = 2 * p + 2) → h[p]? = some x → h[c]? = some y → le x y

/-- `p` lies below `i` in the tree (or is `i`). -/
inductive Desc (i : Nat) : Nat → Prop
  | refl : Desc i i
  | left {p : Nat} : Desc i p → Desc i (2 * p + 1)
  | right {p : Nat} : Desc i p → Desc i (2 * p + 2)

theorem Desc.le {i p : Nat} (h : Desc i p) : i ≤ p := by
  induction h with
  | refl => exact Nat.le_refl _
  | left _ ih => omega
  | right _ ih => omega

theorem Desc.parent {i p : Nat} (h : Desc i p) (hne : i < p) : Desc i ((p - 1) / 2) := by
  cases h with
  | refl => omega
  | left h => rename_i q; rwa [show (2 * q + 1 - 1) / 2 = q by omega]
  | right h => rename_i q; rwa [show (2 * q + 2 - 1) / 2 = q by omega]

theorem getElem?_set' {l : List α} {i j : Nat} {x y : α} (h : (l.set i x)[j]? = some y) :
    (j = i ∧ y = x) ∨ (j ≠ i ∧ l[j]? = some y) := by
  rw [List.getElem?_set] at h
  split at h
  · rename_i hij
    split at h
    · injection h with h; exact Or.inl ⟨hij.symm, h.symm⟩
    · cases h
  · rename_i hij; exact Or.inr ⟨fun h' => hij h'.symm, h⟩

/-- Moving an item up to its place. -/
theorem siftdownLoop_heap {lt : α → α → Except PyErr Bool} {A : α → Prop} {le : α → α → Prop} (ha : Agrees lt A le)
    {S : Nat → Prop} {i : Nat} (hS : ∀ p, Desc i p → S p) (hroot : ∀ p, S p → i ≠ 2 * p + 1 ∧ i ≠ 2 * p + 2)
    {new : α} (hAn : A new) (fuel : Nat) (heap r : List α) (pos : Nat) (hA : ∀ x ∈ heap, A x)
    (hf : pos ≤ fuel) (hd : Desc i pos) (v : α) (hv : HeapOn le S (heap.set pos v))
    (hnew : ∀ c y, (c = 2 * pos + 1 ∨ c = 2 * pos + 2) → heap[c]? = some y → le new y)
    (h : siftdownLoop lt i new fuel heap pos = .ok r) : HeapOn le S r := by
  have hdone : (i < pos → ∀ x, heap[(pos - 1) / 2]? = some x → le x new) → HeapOn le S (heap.set pos new) := by
    intro hpar p c x y hp hc hx hy
    rcases getElem?_set' hx with ⟨rfl, rfl⟩ | ⟨hpn, hx⟩
    · rcases getElem?_set' hy with ⟨rfl, rfl⟩ | ⟨hcn, hy⟩
      · exact ha.refl _
      · exact hnew c y hc hy
    · rcases getElem?_set' hy with ⟨rfl, rfl⟩ | ⟨hcn, hy⟩
      · have hne : i ≠ c := by
          have := hroot p hp; rcases hc with rfl | rfl
          · exact this.1
          · exact this.2
        have hlt : i < c := by have := hd.le; omega
        refine hpar hlt x ?_
        rwa [show (c - 1) / 2 = p by omega]
      · refine hv p c x y hp hc ?_ ?_
        · rw [List.getElem?_set_ne (fun h => hpn h.symm)]; exact hx
        · rw [List.getElem?_set_ne (fun h => hcn h.symm)]; exact hy
  induction fuel generalizing heap pos v with
  | zero =>
    unfold siftdownLoop at h; injection h with h; subst h
    exact hdone (fun h => by omega)
  | succ fuel ih =>
    unfold siftdownLoop at h
    split at h
    · rename_i hs
      split at h
      · cases h
      · rename_i parent hpar
        obtain ⟨b, hb, h⟩ := bind_ok_iff.1 h
        cases b with
        | false =>
          injection h with h; subst h
          refine hdone (fun _ x hx => ?_)
          rw [hpar] at hx; injection hx with hx; subst hx
          exact ha.no _ _ hAn (hA _ (List.mem_of_getElem? hpar)) hb
        | true =>
          have hnp := ha.yes _ _ hAn (hA _ (List.mem_of_getElem? hpar)) hb
          have hdp := hd.parent hs
          have hpos : pos = 2 * ((pos - 1) / 2) + 1 ∨ pos = 2 * ((pos - 1) / 2) + 2 := by omega
          obtain ⟨hpl, -⟩ := List.getElem?_eq_some_iff.1 hpar
          -- the parent is not greater than the old children
          have hpv : ∀ c y, (c = 2 * pos + 1 ∨ c = 2 * pos + 2) → heap[c]? = some y → le parent y := by
            intro c y hc hy
            obtain ⟨hcl, -⟩ := List.getElem?_eq_some_iff.1 hy
            have h1 : (heap.set pos v)[pos]? = some v := List.getElem?_set_self (by omega)
            have h2 : (heap.set pos v)[c]? = some y := by
              rw [List.getElem?_set_ne (by omega)]; exact hy
            have h3 : (heap.set pos v)[(pos - 1) / 2]? = some parent := by
              rw [List.getElem?_set_ne (by omega)]; exact hpar
            exact ha.trans _ _ _ (hv _ _ _ _ (hS _ hdp) hpos h3 h1) (hv _ _ _ _ (hS _ hd) hc h1 h2)
          have hold : HeapOn le S (heap.set pos parent) := by
            intro p c x y hp hc hx hy
            rcases getElem?_set' hx with ⟨rfl, rfl⟩ | ⟨hpn, hx⟩
            · rcases getElem?_set' hy with ⟨rfl, rfl⟩ | ⟨hcn, hy⟩
              · exact ha.refl _
              · exact hpv c y hc hy
            · rcases getElem?_set' hy with ⟨hcp, hye⟩ | ⟨hcn, hy⟩
              · have : p = (pos - 1) / 2 := by omega
                subst this
                rw [hpar] at hx; injection hx with hx
                rw [hye, hx]
                exact ha.refl _
              · refine hv p c x y hp hc ?_ ?_
                · rw [List.getElem?_set_ne (fun h => hpn h.symm)]; exact hx
                · rw [List.getElem?_set_ne (fun h => hcn h.symm)]; exact hy
          have hself : (heap.set pos parent).set ((pos - 1) / 2) parent = heap.set pos parent :=
            set_getElem? (by rw [List.getElem?_set_ne (by omega)]; exact hpar)
          have hnew' : ∀ c y, (c = 2 * ((pos - 1) / 2) + 1 ∨ c = 2 * ((pos - 1) / 2) + 2) →
              (heap.set pos parent)[c]? = some y → le new y := by
            intro c y hc hy
            refine ha.trans _ _ _ hnp ?_
            refine hold _ _ _ _ (hS _ hdp) hc ?_ hy
            rw [List.getElem?_set_ne (by omega)]; exact hpar
          refine ih (heap.set pos parent) ((pos - 1) / 2) (fun x hx => ?_) (by omega) hdp parent (by rw [hself]; exact hold)
            hnew' h ?_
          · rcases mem_set hx with rfl | hx
            · exact hA _ (List.mem_of_getElem? hpar)
            · exact hA _ hx
          intro hlt
          intro p c x y hp hc hx hy
          rcases getElem?_set' hx with ⟨rfl, rfl⟩ | ⟨hpn, hx⟩
          · rcases getElem?_set' hy with ⟨rfl, rfl⟩ | ⟨hcn, hy⟩
            · exact ha.refl _
            · exact hnew' c y hc hy
          · rcases getElem?_set' hy with ⟨rfl, rfl⟩ | ⟨hcn, hy⟩
            · have hne : i ≠ (pos - 1) / 2 := by
                have := hroot p hp; rcases hc with hc | hc
                · intro h'; exact this.1 (h'.trans hc)
                · intro h'; exact this.2 (h'.trans hc)
              have hlt' : i < (pos - 1) / 2 := by have := hdp.le; omega
              refine hlt hlt' x ?_
              rwa [show ((pos - 1) / 2 - 1) / 2 = p by omega]
            · exact hold p c x y hp hc hx hy
    · rename_i hs
      injection h with h; subst h
      exact hdone (fun h => absurd h hs)

theorem smallerChild_min {lt : α → α → Except PyErr Bool} {A : α → Prop} {le : α → α → Prop} (ha : Agrees lt A le)
    {heap : List α} (hA : ∀ x ∈ heap, A x) {child c : Nat} {x : α}
    (h : smallerChild lt heap child = .ok c) (hx : heap[c]? = some x) :
    ∀ c' y, (c' = child ∨ c' = child + 1) → heap[c']? = some y → le x y := by
  intro c' y hc' hy
  unfold smallerChild at h
  split at h
  · split at h
    · rename_i a b h1 h2
      obtain ⟨t, ht, h⟩ := bind_ok_iff.1 h
      cases t with
      | true =>
        injection h with h; subst h
        rw [h1] at hx; injection hx with hx; subst hx
        rcases hc' with rfl | rfl
        · rw [h1] at hy; injection hy with hy; subst hy; exact ha.refl _
        · rw [h2] at hy; injection hy with hy; subst hy; exact ha.yes _ _ (hA _ (List.mem_of_getElem? h1)) (hA _ (List.mem_of_getElem? h2)) ht
      | false =>
        injection h with h; subst h
        rw [h2] at hx; injection hx with hx; subst hx
        rcases hc' with rfl | rfl
        · rw [h1] at hy; injection hy with hy; subst hy; exact ha.no _ _ (hA _ (List.mem_of_getElem? h1)) (hA _ (List.mem_of_getElem? h2)) ht
        · rw [h2] at hy; injection hy with hy; subst hy; exact ha.refl _
    · cases h
  · rename_i hl
    injection h with h; subst h
    rcases hc' with rfl | rfl
    · rw [hx] at hy; injection hy with hy; subst hy; exact ha.refl _
    · obtain ⟨hyl, -⟩ := List.getElem?_eq_some_iff.1 hy
      exact absurd hyl hl

/-- Bubbling the hole down to a leaf. -/
theorem siftupLoop_heap {lt : α → α → Except PyErr Bool} {A : α → Prop} {le : α → α → Prop} (ha : Agrees lt A le)
    {S : Nat → Prop} {i : Nat} (hS : ∀ p, Desc i p → S p) (hroot : ∀ p, S p → i ≠ 2 * p + 1 ∧ i ≠ 2 * p + 2)
    (fuel : Nat) (heap : List α) (pos : Nat) (r : List α × Nat) (hA : ∀ x ∈ heap, A x)
    (hf : heap.length ≤ fuel + pos)
    (hd : Desc i pos)
    (hv : HeapOn le S heap ∨ (pos = i ∧ HeapOn le (fun p => S p ∧ p ≠ i) heap))
    (hp : pos < heap.length)
    (h : siftupLoop lt fuel heap pos = .ok r) :
    HeapOn le S r.1 ∧ Desc i r.2 ∧ r.1.length ≤ 2 * r.2 + 1 ∧ r.1.length = heap.length := by
  have hleaf : heap.length ≤ 2 * pos + 1 → HeapOn le S heap := by
    intro hl
    rcases hv with hv | ⟨rfl, hv⟩
    · exact hv
    · intro p c x y hp hc hx hy
      by_cases hpi : p = pos
      · subst hpi
        obtain ⟨hcl, -⟩ := List.getElem?_eq_some_iff.1 hy
        omega
      · exact hv p c x y ⟨hp, hpi⟩ hc hx hy
  induction fuel generalizing heap pos with
  | zero => omega
  | succ fuel ih =>
    unfold siftupLoop at h
    split at h
    · rename_i hch
      obtain ⟨c, hc, h⟩ := bind_ok_iff.1 h
      split at h
      · cases h
      · rename_i x hx
        have hcc := smallerChild_ok hc
        have hmin := smallerChild_min ha hA hc hx
        obtain ⟨hcl, -⟩ := List.getElem?_eq_some_iff.1 hx
        have hdc : Desc i c := by
          rcases hcc with rfl | rfl
          · exact hd.left
          · exact hd.right
        have hnext : HeapOn le S (heap.set pos x) := by
          intro p d a b hp' hd' h1 h2
          rcases getElem?_set' h1 with ⟨rfl, rfl⟩ | ⟨hpn, h1⟩
          · rcases getElem?_set' h2 with ⟨rfl, rfl⟩ | ⟨hcn, h2⟩
            · exact ha.refl _
            · exact hmin d b (by omega) h2
          · rcases getElem?_set' h2 with ⟨hdp, hbx⟩ | ⟨hcn, h2⟩
            · rw [hbx]
              rw [hdp] at hd'
              rcases hv with hv | ⟨rfl, hv⟩
              · obtain ⟨old, hold⟩ : ∃ old, heap[pos]? = some old := ⟨_, List.getElem?_eq_getElem hp⟩
                exact ha.trans _ _ _ (hv p pos a old hp' hd' h1 hold)
                  (hv pos c old x (hS _ hd) (by omega) hold hx)
              · have := hroot p hp'; omega
            · rcases hv with hv | ⟨rfl, hv⟩
              · exact hv p d a b hp' hd' h1 h2
              · exact hv p d a b ⟨hp', hpn⟩ hd' h1 h2
        obtain ⟨g1, g2, g3, g4⟩ := ih (heap.set pos x) c (fun y hy => by
          rcases mem_set hy with rfl | hy
          · exact hA _ (List.mem_of_getElem? hx)
          · exact hA _ hy) (by rw [List.length_set]; omega) hdc
          (Or.inl hnext) (by rw [List.length_set]; exact hcl) h (fun _ => hnext)
        exact ⟨g1, g2, g3, by rw [g4, List.length_set]⟩
    · rename_i hch
      injection h with h; subst h
      exact ⟨hleaf (by omega), hd, by dsimp only; omega, rfl⟩

/-- `_siftup` makes position `i` a heap if everything below it is one. -/
theorem siftup_heap {lt : α → α → Except PyErr Bool} {A : α → Prop} {le : α → α → Prop} (ha : Agrees lt A le)
    {S : Nat → Prop} {i : Nat} (hS : ∀ p, Desc i p → S p) (hroot : ∀ p, S p → i ≠ 2 * p + 1 ∧ i ≠ 2 * p + 2)
    {heap r : List α} (hA : ∀ x ∈ heap, A x) (hv : HeapOn le (fun p => S p ∧ p ≠ i) heap) (h : siftup lt heap i = .ok r) :
    HeapOn le S r := by
  unfold siftup at h
  split at h
  · cases h
  · rename_i new hnew
    obtain ⟨hp, -⟩ := List.getElem?_eq_some_iff.1 hnew
    obtain ⟨q, hq, h⟩ := bind_ok_iff.1 h
    obtain ⟨g1, g2, g3, g4⟩ := siftupLoop_heap ha hS hroot _ _ _ _ hA (by omega) .refl
      (Or.inr ⟨rfl, hv⟩) hp hq
    obtain ⟨hpm, hl, -⟩ := siftupLoop_perm new _ _ _ _ hp hq
    rw [set_getElem? hnew] at hpm
    unfold siftdown at h
    rw [List.getElem?_set_self hl] at h
    dsimp only at h
    obtain ⟨v, hvv⟩ : ∃ v, q.1[q.2]? = some v := ⟨_, List.getElem?_eq_getElem hl⟩
    refine siftdownLoop_heap ha hS hroot (hA _ (List.mem_of_getElem? hnew)) _ _ _ _
      (fun x hx => hA _ (hpm.subset hx)) (Nat.le_refl _) g2 v ?_ ?_ h
    · rw [List.set_set, set_getElem? hvv]; exact g1
    · intro c y hc hy
      obtain ⟨hcl, -⟩ := List.getElem?_eq_some_iff.1 hy
      rw [List.length_set] at hcl
      omega

/-- An order of positions for building a heap: every position comes after everything below it that
has children, and before everything above it. -/
def BottomUp (n : Nat) : List Nat → (Nat → Prop) → Prop
  | [], S => ∀ p, 2 * p + 1 < n → S p
  | i :: is, S => (∀ p, Desc i p → p ≠ i → 2 * p + 1 < n → S p) ∧
      (∀ p, S p → i ≠ 2 * p + 1 ∧ i ≠ 2 * p + 2) ∧ BottomUp n is (fun p => S p ∨ p = i)

theorem siftupAll_heap {lt : α → α → Except PyErr Bool} {A : α → Prop} {le : α → α → Prop} (ha : Agrees lt A le)
    (is : List Nat) (S : Nat → Prop) (heap r : List α) (hA : ∀ x ∈ heap, A x) (hb : BottomUp heap.length is S)
    (hv : HeapOn le S heap) (h : siftupAll lt is heap = .ok r) : HeapOn le (fun _ => True) r := by
  induction is generalizing S heap with
  | nil =>
    injection h with h; subst h
    intro p c x y _ hc hx hy
    obtain ⟨hcl, -⟩ := List.getElem?_eq_some_iff.1 hy
    exact hv p c x y (hb p (by omega)) hc hx hy
  | cons i is ih =>
    obtain ⟨h1, h2, h⟩ := bind_ok_iff.1 h
    obtain ⟨b1, b2, b3⟩ := hb
    have hlen : h1.length = heap.length := (siftup_perm h2).length_eq
    -- positions without children can be added to `S` at no cost
    have key : HeapOn le (fun p => S p ∨ Desc i p) h1 := by
      refine siftup_heap ha (fun p hp => Or.inr hp) ?_ hA ?_ h2
      · rintro p (hp | hp)
        · exact b2 p hp
        · have := hp.le; omega
      · rintro p c x y ⟨hp, hpi⟩ hc hx hy
        obtain ⟨hcl, -⟩ := List.getElem?_eq_some_iff.1 hy
        refine hv p c x y ?_ hc hx hy
        rcases hp with hp | hp
        · exact hp
        · exact b1 p hp hpi (by omega)
    refine ih (fun p => S p ∨ p = i) h1 (fun x hx => hA _ ((siftup_perm h2).subset hx)) (by rw [hlen]; exact b3) ?_ h
    intro p c x y hp hc hx hy
    refine key p c x y ?_ hc hx hy
    rcases hp with hp | rfl
    · exact Or.inl hp
    · exact Or.inr .refl

theorem range_bottomUp (n m : Nat) (hm : m ≤ n / 2) (S : Nat → Prop)
    (hS : ∀ p, S p ↔ m ≤ p ∧ p < n / 2) : BottomUp n (List.range m).reverse S := by
  induction m generalizing S with
  | zero =>
    intro p hp
    exact (hS p).2 ⟨by omega, by omega⟩
  | succ m ih =>
    rw [List.range_succ, List.reverse_append]
    refine ⟨?_, ?_, ih (by omega) _ ?_⟩
    · intro p hd hne hp
      have := hd.le
      exact (hS p).2 ⟨by omega, by omega⟩
    · intro p hp
      have := (hS p).1 hp
      omega
    · intro p
      constructor
      · rintro (hp | rfl)
        · have := (hS p).1 hp; omega
        · omega
      · intro hp
        by_cases h : p = m
        · exact Or.inr h
        · exact Or.inl ((hS p).2 (by omega))

theorem heapify_heap {lt : α → α → Except PyErr Bool} {A : α → Prop} {le : α → α → Prop} (ha : Agrees lt A le)
    {heap r : List α} (hA : ∀ x ∈ heap, A x) (h : heapify lt heap = .ok r) : HeapOn le (fun _ => True) r := by
  refine siftupAll_heap ha _ (fun p => heap.length / 2 ≤ p ∧ p < heap.length / 2) heap r hA
    (range_bottomUp _ _ (Nat.le_refl _) _ (fun p => Iff.rfl)) ?_ h
  intro p c x y hp
  omega

theorem root_le {lt : α → α → Except PyErr Bool} {A : α → Prop} {le : α → α → Prop} (ha : Agrees lt A le) {x : α}
    {rest : List α} (h : HeapOn le (fun _ => True) (x :: rest)) : ∀ y ∈ rest, le x y := by
  have key : ∀ (n : Nat) (y : α), (x :: rest)[n]? = some y → le x y := by
    intro n
    induction n using Nat.strongRecOn with
    | ind n ih =>
      intro y hy
      by_cases hn : n = 0
      · subst hn; injection hy with hy; subst hy; exact ha.refl _
      · obtain ⟨hl, -⟩ := List.getElem?_eq_some_iff.1 hy
        obtain ⟨z, hz⟩ : ∃ z, (x :: rest)[(n - 1) / 2]? = some z :=
          ⟨_, List.getElem?_eq_getElem (by omega)⟩
        exact ha.trans _ _ _ (ih ((n - 1) / 2) (by omega) z hz)
          (h ((n - 1) / 2) n z y trivial (by omega) hz hy)
  intro y hy
  obtain ⟨n, hn⟩ := List.mem_iff_getElem?.1 hy
  exact key (n + 1) y (by simpa using hn)

theorem heappop_heap {lt : α → α → Except PyErr Bool} {A : α → Prop} {le : α → α → Prop} (ha : Agrees lt A le)
    {heap r : List α} {x : α} (hA : ∀ x ∈ heap, A x) (hh : HeapOn le (fun _ => True) heap)
    (h : heappop lt heap = .ok (x, r)) : HeapOn le (fun _ => True) r ∧ ∀ y ∈ r, le x y := by
  have hperm := heappop_perm h
  unfold heappop at h
  split at h
  · cases h
  · rename_i last hlast
    have heq : heap = heap.dropLast ++ [last] := by
      obtain ⟨hne, hl⟩ := List.getLast?_eq_some_iff.1 hlast
      rw [hl]; simp
    split at h
    · injection h with h; injection h with h1 h2; subst h1; subst h2
      refine ⟨?_, by simp⟩
      intro p c x y _ _ hx; simp at hx
    · rename_i z rest hd
      obtain ⟨q, hq, h⟩ := bind_ok_iff.1 h
      injection h with h; injection h with h1 h2; subst h1; subst h2
      rw [hd] at heq
      refine ⟨?_, ?_⟩
      · refine siftup_heap ha (S := fun _ => True) (fun _ _ => trivial) (fun p _ => by omega) (fun x hx => hA x ?_) ?_ hq
        · rw [heq]
          rcases List.mem_cons.1 hx with rfl | hx
          · simp
          · exact List.mem_append_left _ (List.mem_cons_of_mem _ hx)
        rintro p c a b ⟨-, hp0⟩ hc ha' hb'
        have hp1 : ∀ (n : Nat) (w : α), n ≠ 0 → (last :: rest)[n]? = some w → heap[n]? = some w := by
          intro n w hn hw
          rw [heq]
          obtain ⟨m, rfl⟩ : ∃ m, n = m + 1 := ⟨n - 1, by omega⟩
          simp only [List.getElem?_cons_succ] at hw
          obtain ⟨hl, -⟩ := List.getElem?_eq_some_iff.1 hw
          simp only [List.cons_append, List.getElem?_cons_succ]
          rw [List.getElem?_append_left hl]
          exact hw
        exact hh p c a b trivial hc (hp1 p a hp0 ha') (hp1 c b (by omega) hb')
      · intro y hy
        rw [heq] at hh hperm
        have hy' : y ∈ z :: (rest ++ [last]) := hperm.subset (List.mem_cons_of_mem _ hy)
        rcases List.mem_cons.1 hy' with rfl | hy'
        · exact ha.refl _
        · exact root_le ha hh y hy'

theorem popAll_sorted {lt : α → α → Except PyErr Bool} {A : α → Prop} {le : α → α → Prop} (ha : Agrees lt A le)
    (fuel : Nat) (heap r : List α) (hA : ∀ x ∈ heap, A x) (hf : heap.length ≤ fuel) (hh : HeapOn le (fun _ => True) heap)
    (h : popAll lt fuel heap = .ok r) : r.Pairwise le := by
  induction fuel generalizing heap r with
  | zero => unfold popAll at h; injection h with h; subst h; exact .nil
  | succ fuel ih =>
    unfold popAll at h
    split at h
    · injection h with h; subst h; exact .nil
    · obtain ⟨⟨x, q⟩, hq, h⟩ := bind_ok_iff.1 h
      obtain ⟨rest, hrest, h⟩ := bind_ok_iff.1 h
      injection h with h; subst h
      obtain ⟨g1, g2⟩ := heappop_heap ha hA hh hq
      have hl := (heappop_perm hq).length_eq
      simp at hl hf
      refine .cons ?_ (ih q rest (fun z hz => hA z ((heappop_perm hq).subset (List.mem_cons_of_mem _ hz)))
        (by omega) g1 hrest)
      intro y hy
      exact g2 y ((popAll_perm fuel q rest (by omega) hrest).subset hy)

/-! ### No exceptions -/

/-- `<` raises nothing on the elements of `A`. -/
def LtOk (lt : α → α → Except PyErr Bool) (A : List α) : Prop :=
  ∀ a ∈ A, ∀ b ∈ A, ∃ t, lt a b = .ok t

theorem siftdownLoop_total {lt : α → α → Except PyErr Bool} {A : List α} (hA : LtOk lt A) {start : Nat}
    {new : α} (hn : new ∈ A) (fuel : Nat) (heap : List α) (pos : Nat) (hsub : ∀ x ∈ heap, x ∈ A)
    (hp : pos < heap.length) : ∃ r, siftdownLoop lt start new fuel heap pos = .ok r := by
  induction fuel generalizing heap pos with
  | zero => exact ⟨_, rfl⟩
  | succ fuel ih =>
    unfold siftdownLoop
    split
    · rename_i hs
      split
      · rename_i hnone
        rw [List.getElem?_eq_none_iff] at hnone
        omega
      · rename_i parent hpar
        have hpm : parent ∈ A := hsub _ (List.mem_of_getElem? hpar)
        obtain ⟨t, ht⟩ := hA new hn parent hpm
        rw [ht]
        cases t with
        | false => exact ⟨_, rfl⟩
        | true =>
          refine ih (heap.set pos parent) ((pos - 1) / 2) ?_ (by rw [List.length_set]; omega)
          intro x hx
          rcases mem_set hx with rfl | hx
          · exact hpm
          · exact hsub x hx
    · exact ⟨_, rfl⟩

theorem siftupLoop_total {lt : α → α → Except PyErr Bool} {A : List α} (hA : LtOk lt A)
    (fuel : Nat) (heap : List α) (pos : Nat) (hsub : ∀ x ∈ heap, x ∈ A)
    (hp : pos < heap.length) : ∃ r, siftupLoop lt fuel heap pos = .ok r ∧ (∀ x ∈ r.1, x ∈ A) := by
  induction fuel generalizing heap pos with
  | zero => exact ⟨_, rfl, hsub⟩
  | succ fuel ih =>
    unfold siftupLoop
    split
    · rename_i hch
      have hc : ∃ c, smallerChild lt heap (2 * pos + 1) = .ok c ∧ c < heap.length := by
        unfold smallerChild
        split
        · rename_i hr
          rw [List.getElem?_eq_getElem hch, List.getElem?_eq_getElem hr]
          dsimp only
          obtain ⟨t, ht⟩ := hA _ (hsub _ (List.getElem_mem hch)) _ (hsub _ (List.getElem_mem hr))
          rw [ht]
          cases t with
          | false => exact ⟨_, rfl, hr⟩
          | true => exact ⟨_, rfl, hch⟩
        · exact ⟨_, rfl, hch⟩
      obtain ⟨c, hc1, hc2⟩ := hc
      rw [hc1]
      simp only [bind, Except.bind]
      rw [List.getElem?_eq_getElem hc2]
      dsimp only
      refine ih _ c ?_ (by rw [List.length_set]; exact hc2)
      intro x hx
      rcases mem_set hx with rfl | hx
      · exact hsub _ (List.getElem_mem hc2)
      · exact hsub x hx
    · exact ⟨_, rfl, hsub⟩

theorem siftup_total {lt : α → α → Except PyErr Bool} {A : List α} (hA : LtOk lt A)
    (heap : List α) (pos : Nat) (hsub : ∀ x ∈ heap, x ∈ A) (hp : pos < heap.length) :
    ∃ r, siftup lt heap pos = .ok r := by
  unfold siftup
  rw [List.getElem?_eq_getElem hp]
  dsimp only
  obtain ⟨q, hq, hq2⟩ := siftupLoop_total hA heap.length heap pos hsub hp
  obtain ⟨-, hl, -⟩ := siftupLoop_perm heap[pos] _ _ _ _ hp hq
  rw [hq]
  simp only [bind, Except.bind]
  unfold siftdown
  rw [List.getElem?_set_self hl]
  dsimp only
  have hm : heap[pos] ∈ A := hsub _ (List.getElem_mem hp)
  refine siftdownLoop_total hA hm _ _ _ ?_ (by rw [List.length_set]; exact hl)
  intro x hx
  rcases mem_set hx with rfl | hx
  · exact hm
  · exact hq2 x hx

theorem siftupAll_total {lt : α → α → Except PyErr Bool} {A : List α} (hA : LtOk lt A)
    (is : List Nat) (heap : List α) (hsub : ∀ x ∈ heap, x ∈ A) (hp : ∀ i ∈ is, i < heap.length) :
    ∃ r, siftupAll lt is heap = .ok r := by
  induction is generalizing heap with
  | nil => exact ⟨_, rfl⟩
  | cons i is ih =>
    obtain ⟨h1, hh1⟩ := siftup_total hA heap i hsub (hp i (List.mem_cons_self ..))
    have hperm := siftup_perm hh1
    obtain ⟨r, hr⟩ := ih h1 (fun x hx => hsub x (hperm.subset hx))
      (fun j hj => by rw [hperm.length_eq]; exact hp j (List.mem_cons_of_mem _ hj))
    exact ⟨r, bind_ok_iff.2 ⟨h1, hh1, hr⟩⟩

theorem heapify_total {lt : α → α → Except PyErr Bool} (heap : List α) (hA : LtOk lt heap) :
    ∃ r, heapify lt heap = .ok r := by
  refine siftupAll_total hA _ heap (fun _ h => h) ?_
  intro i hi
  simp at hi
  omega

theorem heappop_total {lt : α → α → Except PyErr Bool} {A : List α} (hA : LtOk lt A)
    (heap : List α) (hsub : ∀ x ∈ heap, x ∈ A) (hne : heap ≠ []) : ∃ r, heappop lt heap = .ok r := by
  unfold heappop
  rw [List.getLast?_eq_some_getLast hne]
  dsimp only
  split
  · exact ⟨_, rfl⟩
  · rename_i x rest hd
    obtain ⟨r, hr⟩ := siftup_total hA (heap.getLast hne :: rest) 0 (by
      intro y hy
      rcases List.mem_cons.1 hy with rfl | hy
      · exact hsub _ (List.getLast_mem hne)
      · exact hsub _ ((List.dropLast_sublist _).subset (by rw [hd]; exact List.mem_cons_of_mem _ hy))) (by simp)
    rw [hr]
    exact ⟨_, rfl⟩

theorem popAll_total {lt : α → α → Except PyErr Bool} {A : List α} (hA : LtOk lt A) (fuel : Nat)
    (heap : List α) (hsub : ∀ x ∈ heap, x ∈ A) : ∃ r, popAll lt fuel heap = .ok r := by
  induction fuel generalizing heap with
  | zero => exact ⟨_, rfl⟩
  | succ fuel ih =>
    unfold popAll
    split
    · exact ⟨_, rfl⟩
    · rename_i x xs
      obtain ⟨⟨y, q⟩, hq⟩ := heappop_total hA (x :: xs) hsub (by simp)
      rw [hq]
      have hperm := heappop_perm hq
      obtain ⟨r, hr⟩ := ih q (fun z hz => hsub z (hperm.subset (List.mem_cons_of_mem _ hz)))
      simp only [bind, Except.bind]
      rw [hr]
      exact ⟨_, rfl⟩

end Ics
