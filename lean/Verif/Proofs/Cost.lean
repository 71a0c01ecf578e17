import Verif.Model.Cost
import Verif.Proofs.Lazy
import Mathlib.Data.Nat.Log

/-
The number of comparisons.
-/
namespace Ics

variable {α β : Type}

theorem bind_result (x : Counted α) (f : α → Counted β) : (x >>= f).result = x.result >>= fun a => (f a).result := by
  obtain ⟨r, c⟩ := x
  cases r <;> rfl

theorem bind_cost {x : Counted α} {f : α → Counted β} {m n : Nat} (hx : x.cost ≤ m)
    (hf : ∀ a, x.result = .ok a → (f a).cost ≤ n) : (x >>= f).cost ≤ m + n := by
  obtain ⟨r, c⟩ := x
  cases r with
  | error e => exact Nat.le_add_right_of_le hx
  | ok a => exact Nat.add_le_add hx (hf a rfl)

/-! ### The results are those without counting -/

theorem siftdownLoopC_result (lt : α → α → Except PyErr Bool) (start : Nat) (new : α) (fuel : Nat) (heap : List α) (pos : Nat) :
    (siftdownLoopC lt start new fuel heap pos).result = siftdownLoop lt start new fuel heap pos := by
  induction fuel generalizing heap pos with
  | zero => rfl
  | succ fuel ih =>
    rw [siftdownLoopC, siftdownLoop]
    split
    · cases heap[(pos - 1) / 2]? with
      | none => rfl
      | some parent =>
        dsimp only
        rw [bind_result]
        refine congrArg (lt new parent >>= ·) (funext fun b => ?_)
        cases b
        · rfl
        · exact ih _ _
    · rfl

theorem siftdownC_result (lt : α → α → Except PyErr Bool) (heap : List α) (start pos : Nat) :
    (siftdownC lt heap start pos).result = siftdown lt heap start pos := by
  rw [siftdownC, siftdown]
  cases heap[pos]? with
  | none => rfl
  | some new => exact siftdownLoopC_result ..

theorem smallerChildC_result (lt : α → α → Except PyErr Bool) (heap : List α) (child : Nat) :
    (smallerChildC lt heap child).result = smallerChild lt heap child := by
  rw [smallerChildC, smallerChild]
  split
  · cases heap[child]? with
    | none => rfl
    | some a =>
      cases heap[child + 1]? with
      | none => rfl
      | some b =>
        dsimp only
        rw [bind_result]
        refine congrArg (lt a b >>= ·) (funext fun c => ?_)
        cases c <;> rfl
  · rfl

theorem siftupLoopC_result (lt : α → α → Except PyErr Bool) (fuel : Nat) (heap : List α) (pos : Nat) :
    (siftupLoopC lt fuel heap pos).result = siftupLoop lt fuel heap pos := by
  induction fuel generalizing heap pos with
  | zero => rfl
  | succ fuel ih =>
    rw [siftupLoopC, siftupLoop]
    split
    · rw [bind_result, smallerChildC_result]
      refine congrArg (smallerChild lt heap _ >>= ·) (funext fun c => ?_)
      cases heap[c]? with
      | none => rfl
      | some x => exact ih _ _
    · rfl

theorem siftupC_result (lt : α → α → Except PyErr Bool) (heap : List α) (pos : Nat) :
    (siftupC lt heap pos).result = siftup lt heap pos := by
  rw [siftupC, siftup]
  cases heap[pos]? with
  | none => rfl
  | some new =>
    dsimp only
    rw [bind_result, siftupLoopC_result]
    exact congrArg (siftupLoop lt heap.length heap pos >>= ·) (funext fun r => siftdownC_result ..)

theorem siftupAllC_result (lt : α → α → Except PyErr Bool) (is : List Nat) (heap : List α) :
    (siftupAllC lt is heap).result = siftupAll lt is heap := by
  induction is generalizing heap with
  | nil => rfl
  | cons i is ih =>
    rw [siftupAllC, siftupAll, bind_result, siftupC_result]
    exact congrArg (siftup lt heap i >>= ·) (funext fun r => ih r)

theorem heapifyC_result (lt : α → α → Except PyErr Bool) (heap : List α) :
    (heapifyC lt heap).result = heapify lt heap := siftupAllC_result ..

theorem heappopC_result (lt : α → α → Except PyErr Bool) (heap : List α) :
    (heappopC lt heap).result = heappop lt heap := by
  rw [heappopC, heappop]
  cases heap.getLast? with
  | none => rfl
  | some last =>
    cases heap.dropLast with
    | nil => rfl
    | cons x rest =>
      dsimp only
      rw [bind_result, siftupC_result]
      rfl

/-! ### Bounds -/

/-- `p` is `r` levels below `start`. -/
inductive Levels (start : Nat) : Nat → Nat → Prop
  | here : Levels start start 0
  | down {p c r : Nat} : Levels start p r → c = 2 * p + 1 ∨ c = 2 * p + 2 → Levels start c (r + 1)

theorem Levels.parent {start p r : Nat} (h : Levels start p r) (hne : start < p) :
    ∃ r', r = r' + 1 ∧ Levels start ((p - 1) / 2) r' := by
  cases h with
  | here => omega
  | @down q _ r' h hc =>
    refine ⟨r', rfl, ?_⟩
    have : (p - 1) / 2 = q := by omega
    rwa [this]

theorem siftdownLoopC_cost (lt : α → α → Except PyErr Bool) (start : Nat) (new : α) (fuel : Nat) (heap : List α) (pos r : Nat)
    (h : Levels start pos r) : (siftdownLoopC lt start new fuel heap pos).cost ≤ r := by
  induction fuel generalizing heap pos r with
  | zero => exact Nat.zero_le _
  | succ fuel ih =>
    rw [siftdownLoopC]
    split
    · rename_i hlt
      obtain ⟨r', rfl, hp⟩ := h.parent hlt
      split
      · exact Nat.zero_le _
      · rw [Nat.add_comm]
        refine bind_cost (Nat.le_refl 1) fun b _ => ?_
        cases b
        · exact Nat.zero_le _
        · exact ih _ _ _ hp
    · exact Nat.zero_le _

theorem smallerChildC_cost (lt : α → α → Except PyErr Bool) (heap : List α) (child : Nat) :
    (smallerChildC lt heap child).cost ≤ 1 := by
  rw [smallerChildC]
  split
  · split
    · refine bind_cost (n := 0) (Nat.le_refl 1) fun b _ => ?_
      cases b <;> exact Nat.le_refl _
    · exact Nat.zero_le _
  · exact Nat.zero_le _

theorem log_step {n p c : Nat} (h : 2 * p + 1 < n) (hc : c = 2 * p + 1 ∨ c = 2 * p + 2) :
    Nat.log 2 (n / (c + 1)) + 1 ≤ Nat.log 2 (n / (p + 1)) := by
  have h2 : 2 ≤ n / (p + 1) := by
    rw [Nat.le_div_iff_mul_le (Nat.succ_pos p)]
    omega
  rw [Nat.log_of_one_lt_of_le (by decide) h2]
  refine Nat.succ_le_succ (Nat.log_mono_right ?_)
  rw [Nat.div_div_eq_div_mul]
  exact Nat.div_le_div_left (by omega) (by omega)

theorem siftupLoopC_cost (lt : α → α → Except PyErr Bool) (fuel : Nat) (heap : List α) (pos start r : Nat)
    (hs : Levels start pos r) :
    (siftupLoopC lt fuel heap pos).cost ≤ Nat.log 2 (heap.length / (pos + 1)) ∧
      ∀ q, (siftupLoopC lt fuel heap pos).result = .ok q →
        ∃ r', Levels start q.2 r' ∧ r' ≤ r + Nat.log 2 (heap.length / (pos + 1)) := by
  induction fuel generalizing heap pos r with
  | zero =>
    refine ⟨Nat.zero_le _, fun q h => ?_⟩
    cases h
    exact ⟨r, hs, Nat.le_add_right _ _⟩
  | succ fuel ih =>
    rw [siftupLoopC]
    split
    · rename_i hlt
      have hchild : ∀ c, (smallerChildC lt heap (2 * pos + 1)).result = .ok c → c = 2 * pos + 1 ∨ c = 2 * pos + 2 := by
        intro c hc
        rw [smallerChildC_result] at hc
        unfold smallerChild at hc
        split at hc
        · split at hc
          · obtain ⟨b, _, hc⟩ := bind_ok_iff.1 hc
            split at hc <;> cases hc
            · exact .inl rfl
            · exact .inr rfl
          · cases hc
        · cases hc
          exact .inl rfl
      have hlog : 1 ≤ Nat.log 2 (heap.length / (pos + 1)) := Nat.le_trans (Nat.le_add_left _ _) (log_step hlt (.inl rfl))
      constructor
      · have e : Nat.log 2 (heap.length / (pos + 1)) = 1 + (Nat.log 2 (heap.length / (pos + 1)) - 1) := by omega
        rw [e]
        refine bind_cost (smallerChildC_cost ..) fun c hc => ?_
        split
        · exact Nat.zero_le _
        · rename_i x _
          have := (ih (heap.set pos x) c (r + 1) (.down hs (hchild c hc))).1
          refine Nat.le_trans this ?_
          rw [List.length_set]
          have := log_step hlt (hchild c hc)
          omega
      · intro q hq
        rw [bind_result] at hq
        obtain ⟨c, hc, hq⟩ := bind_ok_iff.1 hq
        split at hq
        · cases hq
        · obtain ⟨r', h1, h2⟩ := (ih (heap.set pos _) c (r + 1) (.down hs (hchild c hc))).2 q hq
          refine ⟨r', h1, ?_⟩
          rw [List.length_set] at h2
          have := log_step hlt (hchild c hc)
          omega
    · refine ⟨Nat.zero_le _, fun q h => ?_⟩
      cases h
      exact ⟨r, hs, Nat.le_add_right _ _⟩

theorem siftupC_cost (lt : α → α → Except PyErr Bool) (heap : List α) (pos : Nat) :
    (siftupC lt heap pos).cost ≤ 2 * Nat.log 2 (heap.length / (pos + 1)) := by
  rw [siftupC]
  split
  · exact Nat.zero_le _
  · obtain ⟨h1, h2⟩ := siftupLoopC_cost lt heap.length heap pos pos 0 .here
    rw [Nat.two_mul]
    refine bind_cost h1 fun q hq => ?_
    obtain ⟨r', h3, h4⟩ := h2 q hq
    rw [siftdownC]
    split
    · exact Nat.zero_le _
    · exact Nat.le_trans (siftdownLoopC_cost lt _ _ _ _ _ _ h3) (by omega)

theorem siftupAllC_cost (lt : α → α → Except PyErr Bool) (is : List Nat) (heap : List α) :
    (siftupAllC lt is heap).cost ≤ 2 * (is.map fun i => Nat.log 2 (heap.length / (i + 1))).sum := by
  induction is generalizing heap with
  | nil => exact Nat.zero_le _
  | cons i is ih =>
    rw [siftupAllC, List.map_cons, List.sum_cons, Nat.mul_add]
    refine bind_cost (siftupC_cost lt heap i) fun h hh => ?_
    rw [siftupC_result] at hh
    have := (siftup_perm hh).length_eq
    rw [← this]
    exact ih h

/-- The sum of the heights of the positions of a heap. -/
theorem heights (n : Nat) : ((List.range (n / 2)).map fun i => Nat.log 2 (n / (i + 1))).sum ≤ n := by
  induction n using Nat.strongRecOn with
  | ind n ih =>
    by_cases h : n / 2 = 0
    · rw [h]
      exact Nat.zero_le _
    · have hlt : n / 2 < n := by omega
      have step : ∀ i ∈ List.range (n / 2), Nat.log 2 (n / (i + 1)) = Nat.log 2 (n / 2 / (i + 1)) + 1 := by
        intro i hi
        have hi := List.mem_range.1 hi
        have h2 : 2 ≤ n / (i + 1) := by
          rw [Nat.le_div_iff_mul_le (Nat.succ_pos i)]
          omega
        rw [Nat.log_of_one_lt_of_le (by decide) h2, Nat.div_div_eq_div_mul, Nat.div_div_eq_div_mul, Nat.mul_comm]
      rw [List.map_congr_left step]
      have hsum : ∀ (l : List Nat) (f : Nat → Nat), (l.map fun i => f i + 1).sum = (l.map f).sum + l.length := by
        intro l f
        induction l with
        | nil => rfl
        | cons x l ihl => simp only [List.map_cons, List.sum_cons, List.length_cons, ihl]; omega
      rw [hsum _ fun i => Nat.log 2 (n / 2 / (i + 1)), List.length_range]
      have tail : ((List.range (n / 2)).map fun i => Nat.log 2 (n / 2 / (i + 1))).sum =
          ((List.range (n / 2 / 2)).map fun i => Nat.log 2 (n / 2 / (i + 1))).sum := by
        generalize n / 2 = m
        have hm : m = m / 2 + (m - m / 2) := by omega
        have : List.range m = List.range (m / 2) ++ (List.range (m - m / 2)).map (m / 2 + ·) := by
          conv => lhs; rw [hm, List.range_add]
        rw [this, List.map_append, List.sum_append, List.map_map]
        have z : ((List.range (m - m / 2)).map ((fun i => Nat.log 2 (m / (i + 1))) ∘ (m / 2 + ·))).sum = 0 := by
          rw [List.sum_eq_zero_iff_forall_eq_nat]
          intro x hx
          obtain ⟨i, _, rfl⟩ := List.mem_map.1 hx
          show Nat.log 2 (m / (m / 2 + i + 1)) = 0
          refine Nat.log_of_lt ?_
          rw [Nat.div_lt_iff_lt_mul (by omega)]
          omega
        rw [z]
        rfl
      rw [tail]
      have := ih (n / 2) hlt
      omega

theorem heapifyC_cost (lt : α → α → Except PyErr Bool) (heap : List α) : (heapifyC lt heap).cost ≤ 2 * heap.length := by
  refine Nat.le_trans (siftupAllC_cost ..) (Nat.mul_le_mul_left 2 ?_)
  rw [List.map_reverse, List.sum_reverse]
  exact heights _

theorem heappopC_cost (lt : α → α → Except PyErr Bool) (heap : List α) :
    (heappopC lt heap).cost ≤ 2 * Nat.log 2 (heap.length - 1) := by
  rw [heappopC]
  split
  · exact Nat.zero_le _
  · rename_i last hl
    split
    · exact Nat.zero_le _
    · rename_i x rest hd
      have hlen : (last :: rest).length = heap.length - 1 := by
        have := congrArg List.length hd
        rw [List.length_dropLast] at this
        simpa using this.symm
      refine bind_cost (n := 0) ?_ fun _ _ => Nat.zero_le _
      have := siftupC_cost lt (last :: rest) 0
      rwa [hlen, Nat.div_one] at this

/-! ### The iterator -/

theorem popNextC_result (e : Env) (k : Nat) (heap : List TItem) : (e.popNextC k heap).1 = e.popNext k heap := by
  cases heap with
  | nil => rfl
  | cons x heap =>
    rw [Env.popNextC, Env.popNext]
    rw [heappopC_result]
    cases heappop (e.itemLt k) (x :: heap) <;> rfl

theorem iterNextC_result (e : Env) (k : Nat) (n : Option Normalization) (events : List TEvent) (g : IterGen) :
    (e.iterNextC k n events g).1 = e.iterNext k n events g := by
  cases g with
  | start =>
    rw [Env.iterNextC, Env.iterNext]
    cases e.items n events with
    | error x => rfl
    | ok its =>
      dsimp only
      rw [heapifyC_result]
      cases heapify (e.itemLt k) its with
      | error x => rfl
      | ok heap => exact popNextC_result ..
  | running heap => exact popNextC_result ..
  | done => rfl

/-- The generator holds at most `N` events. -/
def AtMost (N : Nat) : IterGen → Prop
  | .start => False
  | .running heap => heap.length ≤ N
  | .done => True

theorem popNextC_cost (e : Env) (k : Nat) (heap : List TItem) (N : Nat) (h : heap.length ≤ N) :
    (e.popNextC k heap).2 ≤ 2 * Nat.log 2 N ∧ AtMost N (e.popNextC k heap).1.2 := by
  cases heap with
  | nil => exact ⟨Nat.zero_le _, trivial⟩
  | cons x heap =>
    have hc : (heappopC (e.itemLt k) (x :: heap)).cost ≤ 2 * Nat.log 2 N :=
      Nat.le_trans (heappopC_cost ..) (Nat.mul_le_mul_left 2 (Nat.log_mono_right (Nat.le_trans (Nat.sub_le _ _) h)))
    rw [Env.popNextC]
    split
    · exact ⟨hc, trivial⟩
    · rename_i it heap' hr
      refine ⟨hc, ?_⟩
      rw [heappopC_result] at hr
      have := (heappop_perm hr).length_eq
      rw [List.length_cons] at this
      show heap'.length ≤ N
      omega

theorem comparisons_after (e : Env) (k : Nat) (n : Option Normalization) (now : List TEvent) (g : IterGen) (acts : List Act)
    (N : Nat) (h : AtMost N g) : e.comparisons k n now g acts ≤ nextsIn acts * (2 * Nat.log 2 N) := by
  induction acts generalizing now g with
  | nil => exact Nat.zero_le _
  | cons act acts ih =>
    cases act with
    | assign events => exact ih events g h
    | next =>
      have hn : nextsIn (.next :: acts) = nextsIn acts + 1 := List.countP_cons_of_pos rfl
      have hg : (e.iterNextC k n now g).2 ≤ 2 * Nat.log 2 N ∧ AtMost N (e.iterNextC k n now g).1.2 := by
        cases g with
        | start => exact h.elim
        | running heap => exact popNextC_cost e k heap N h
        | done => exact ⟨Nat.zero_le _, trivial⟩
      rw [Env.comparisons, hn, Nat.succ_mul, Nat.add_comm]
      exact Nat.add_le_add (ih _ _ hg.2) hg.1

theorem comparisons_start (e : Env) (k : Nat) (n : Option Normalization) (now : List TEvent) (acts : List Act) :
    e.comparisons k n now .start acts ≤
      2 * (eventsAtStart now acts).length + nextsIn acts * (2 * Nat.log 2 (eventsAtStart now acts).length) := by
  induction acts generalizing now with
  | nil => exact Nat.zero_le _
  | cons act acts ih =>
    cases act with
    | assign events => exact ih events
    | next =>
      have hn : nextsIn (.next :: acts) = nextsIn acts + 1 := List.countP_cons_of_pos rfl
      have he : eventsAtStart now (.next :: acts) = now := rfl
      have hg : (e.iterNextC k n now .start).2 ≤ 2 * now.length + 2 * Nat.log 2 now.length ∧
          AtMost now.length (e.iterNextC k n now .start).1.2 := by
        rw [Env.iterNextC]
        split
        · exact ⟨Nat.zero_le _, trivial⟩
        · rename_i its hi
          have hl := items_length hi
          have hh : (heapifyC (e.itemLt k) its).cost ≤ 2 * now.length :=
            Nat.le_trans (heapifyC_cost ..) (Nat.mul_le_mul_left 2 hl)
          dsimp only
          split
          · exact ⟨Nat.le_add_right_of_le hh, trivial⟩
          · rename_i heap hr
            rw [heapifyC_result] at hr
            have := popNextC_cost e k heap now.length ((heapify_perm hr).length_eq ▸ hl)
            exact ⟨Nat.add_le_add hh this.1, this.2⟩
      have := comparisons_after e k n now _ acts now.length hg.2
      have hm : (nextsIn acts + 1) * (2 * Nat.log 2 now.length) = nextsIn acts * (2 * Nat.log 2 now.length) + 2 * Nat.log 2 now.length :=
        Nat.succ_mul ..
      rw [Env.comparisons, hn, he, hm]
      have := hg.1
      generalize nextsIn acts * (2 * Nat.log 2 now.length) = m at *
      omega

end Ics
