import Verif.Spec.Contentline
import Mathlib.Tactic.Common

/-!
Boolean versions of the predicates of `Spec/Contentline`, used to check concrete examples by
evaluation.
-/
namespace Ics

def writableLineB (cl : ContentLine) : Bool :=
  upper cl.name == cl.name &&
  cl.name.all (fun c => c != ':' && c != ';') &&
  cl.params.all (fun p => p.1.all fun c => c != '=' && c != ':' && c != ';') &&
  decide (cl.params.map Prod.fst).Nodup &&
  cl.params.all (fun p => match p.2.getLast? with
    | some v => v.quoted || v.text != []
    | none => false) &&
  cl.params.all (fun p => p.2.all fun v => v.text.all (· != '\r'))

theorem WritableLine.of_check {cl : ContentLine} (h : writableLineB cl = true) : WritableLine cl := by
  simp only [writableLineB, Bool.and_eq_true, beq_iff_eq, List.all_eq_true, bne_iff_ne,
    decide_eq_true_eq] at h
  obtain ⟨⟨⟨⟨⟨h1, h2⟩, h3⟩, h4⟩, h5⟩, h6⟩ := h
  refine ⟨h1, h2, fun p hp c hc => ?_, h4, ?_, fun p hp v hv hc => h6 p hp v hv _ hc rfl⟩
  · have := h3 p hp c hc; exact ⟨this.1.1, this.1.2, this.2⟩
  · intro p hp
    have := h5 p hp
    cases hl : p.2.getLast? with
    | none => rw [hl] at this; simp at this
    | some v =>
      rw [hl] at this
      simp only [Bool.or_eq_true, bne_iff_ne] at this
      obtain ⟨ys, hys⟩ := List.getLast?_eq_some_iff.1 hl
      exact ⟨ys, v, hys, this⟩

def noBreakB (s : Str) : Bool := s.all fun c => c != '\r' && c != '\n'

theorem NoBreak.of_check {s : Str} (h : noBreakB s = true) : NoBreak s := by
  simp only [noBreakB, List.all_eq_true, Bool.and_eq_true, bne_iff_ne] at h
  exact ⟨fun hc => (h _ hc).1 rfl, fun hc => (h _ hc).2 rfl⟩

def writableItemLineB (cl : ContentLine) : Bool :=
  writableLineB cl && cl.name != "BEGIN".toList && cl.name != "END".toList && noBreakB cl.name &&
  cl.params.all (fun p => noBreakB p.1) && noBreakB cl.value &&
  cl.name.head? != some ' ' && cl.name.head? != some '\t'

theorem WritableItemLine.of_check {cl : ContentLine} (h : writableItemLineB cl = true) :
    WritableItemLine cl := by
  simp only [writableItemLineB, Bool.and_eq_true, bne_iff_ne, List.all_eq_true] at h
  obtain ⟨⟨⟨⟨⟨⟨⟨h1, h2⟩, h3⟩, h4⟩, h5⟩, h6⟩, h7⟩, h8⟩ := h
  exact ⟨.of_check h1, h2, h3, .of_check h4, fun p hp => .of_check (h5 p hp), .of_check h6, h7, h8⟩

mutual
def writableTreeB : Item → Bool
  | .line cl => writableItemLineB cl
  | .cont n is => n != [] && upper n == n && noBreakB n && writableTreesB is
def writableTreesB : List Item → Bool
  | [] => true
  | i :: is => writableTreeB i && writableTreesB is
end

mutual
theorem WritableTree.of_check : ∀ i : Item, writableTreeB i = true → WritableTree i
  | .line cl, h => by rw [WritableTree]; rw [writableTreeB] at h; exact .of_check h
  | .cont n is, h => by
    rw [WritableTree]
    rw [writableTreeB] at h
    simp only [Bool.and_eq_true, bne_iff_ne, beq_iff_eq] at h
    exact ⟨⟨h.1.1.1, h.1.1.2, .of_check h.1.2⟩, WritableTrees.of_check is h.2⟩
theorem WritableTrees.of_check : ∀ is : List Item, writableTreesB is = true → WritableTrees is
  | [], _ => by rw [WritableTrees]; trivial
  | i :: is, h => by
    rw [WritableTrees]
    rw [writableTreesB, Bool.and_eq_true] at h
    exact ⟨WritableTree.of_check i h.1, WritableTrees.of_check is h.2⟩
end

end Ics
