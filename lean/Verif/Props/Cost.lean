import Verif.Proofs.Cost
import Verif.Props.Lazy

/-
C90: iterating over the timeline takes O(n + k log n) comparisons.
-/
namespace Ics

/-- The calls of `next` that count the comparisons give what those give that do not count. -/
theorem C90_same (e : Env) (k : Nat) (n : Option Normalization) (now : List TEvent) (g : IterGen) (acts : List Act) :
    runGen (fun events g => (e.iterNextC k n events g).1) now g acts = runGen (e.iterNext k n) now g acts := by
  have : (fun events g => (e.iterNextC k n events g).1) = e.iterNext k n :=
    funext fun events => funext fun g => iterNextC_result e k n events g
  rw [this]

/-- C90: in every execution with `k` calls of `next` there are at most `2n + 2k log₂ n` comparisons, where `n` is the
number of events of the calendar at the first call.  This holds also if some comparisons raise. -/
theorem C90_comparisons (e : Env) (depth : Nat) (norm : Option Normalization) (now : List TEvent) (acts : List Act)
    (n k : Nat) (hn : (eventsAtStart now acts).length = n) (hk : nextsIn acts = k) :
    e.comparisons depth norm now .start acts ≤ 2 * n + 2 * k * Nat.log 2 n := by
  have := comparisons_start e depth norm now acts
  rw [hn, hk] at this
  rwa [Nat.mul_comm 2 k, Nat.mul_assoc]

/-- C90: what is done before the first event does not grow faster than the number of events. -/
theorem C90_heapify {α : Type} (lt : α → α → Except PyErr Bool) (heap : List α) :
    (heapifyC lt heap).result = heapify lt heap ∧ (heapifyC lt heap).cost ≤ 2 * heap.length :=
  ⟨heapifyC_result lt heap, heapifyC_cost lt heap⟩

/-- C90: each further event takes a number of comparisons logarithmic in the number of those left. -/
theorem C90_heappop {α : Type} (lt : α → α → Except PyErr Bool) (heap : List α) :
    (heappopC lt heap).result = heappop lt heap ∧ (heappopC lt heap).cost ≤ 2 * Nat.log 2 (heap.length - 1) :=
  ⟨heappopC_result lt heap, heappopC_cost lt heap⟩

/-- Comparing numbers. -/
def natLt (a b : Nat) : Except PyErr Bool := .ok (decide (a < b))

/-- Eight numbers. -/
example : (heapifyC natLt [5, 3, 8, 1, 9, 2, 7, 4]).cost = 9 ∧ (heappopC natLt [1, 3, 2, 4, 9, 8, 7, 5]).cost = 4 := by
  decide +kernel

/-- Two events: the hypotheses of `C90_comparisons`, and the number of comparisons. -/
example : (eventsAtStart [] [.assign [exFloating, exEvent2], .next, .assign [], .next]).length = 2 ∧
    nextsIn [.assign [exFloating, exEvent2], .next, .assign [], .next] = 2 ∧
    dstEnv.comparisons 0 none [] .start [.assign [exFloating, exEvent2], .next, .assign [], .next] = 1 := by
  decide +kernel

end Ics
