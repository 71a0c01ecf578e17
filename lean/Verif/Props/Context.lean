import Verif.Spec.Context

/-
C46: context managers restore the previous setting.
-/
namespace Ics

/-- C46: for every program, whatever it nests and wherever it raises, the settings afterwards are those
from before, and at every point the program sees the settings of the innermost enclosing `with` statements;
it also raises exactly when it would with lexically scoped settings. -/
theorem C46_scoped (p : Prog) (s : Settings) :
    (p.run s).after = s ∧ ((p.run s).seen, (p.run s).err) = p.scoped s := by
  induction p generalizing s with
  | done => exact ⟨rfl, rfl⟩
  | raise e => exact ⟨rfl, rfl⟩
  | read k ih =>
    obtain ⟨h1, h2⟩ := ih s s
    simp only [Prog.run, Prog.scoped, ← h2, h1, and_self]
  | seq p q ihp ihq =>
    obtain ⟨h1, h2⟩ := ihp s
    obtain ⟨h3, h4⟩ := ihq s
    simp only [Prog.run, Prog.scoped, ← h2]
    cases he : (p.run s).err with
    | some e => exact ⟨h1, rfl⟩
    | none => simp only [h1, h3, ← h4, and_self]
  | tryExcept p handler ihp ihh =>
    obtain ⟨h1, h2⟩ := ihp s
    simp only [Prog.run, Prog.scoped, ← h2]
    cases he : (p.run s).err with
    | none => exact ⟨h1, by simp only [he]⟩
    | some e =>
      obtain ⟨h3, h4⟩ := ihh e s
      simp only [h1, h3, ← h4, and_self]
  | tryFinally p q ihp ihq =>
    obtain ⟨h1, h2⟩ := ihp s
    obtain ⟨h3, h4⟩ := ihq s
    simp only [Prog.run, Prog.scoped, ← h2, h1, h3, ← h4, true_and, Prod.mk.injEq]
    cases (q.run s).err <;> rfl
  | withWrap a body ih =>
    cases a with
    | other => exact ⟨rfl, rfl⟩
    | none =>
      obtain ⟨h1, h2⟩ := ih ⟨sysMaxsize, s.uid, s.dtstamp⟩
      simp only [Prog.run, Prog.scoped, enterWrap, wantedWidth, h1, h2, exitWrap, and_self]
    | int n =>
      by_cases hn : n ≤ 0
      · obtain ⟨h1, h2⟩ := ih ⟨sysMaxsize, s.uid, s.dtstamp⟩
        simp only [Prog.run, Prog.scoped, enterWrap, wantedWidth, if_pos (Or.inr hn),
          if_neg (show ¬0 < n by omega), h1, h2, exitWrap, and_self]
      · obtain ⟨h1, h2⟩ := ih ⟨n, s.uid, s.dtstamp⟩
        simp only [Prog.run, Prog.scoped, enterWrap, wantedWidth,
          if_neg (show ¬(n = 0 ∨ n ≤ 0) by omega), if_pos (show 0 < n by omega), h1, h2, exitWrap, and_self]
  | withDeterministic uid dtstamp body ih =>
    obtain ⟨h1, h2⟩ := ih ⟨s.width, .const uid, .const dtstamp⟩
    simp only [Prog.run, Prog.scoped, enterDeterministic, h1, h2, exitDeterministic, and_self]

/-- Settings as they are when the library has been imported (used in an example). -/
def exSettings : Settings := ⟨75, .builtin, .builtin⟩

/-- A program that nests the managers and raises inside of them (used in an example). -/
def exProg : Prog :=
  .tryExcept
    (.withWrap (.int 20)
      (.seq (.withDeterministic "a".toList { wall := 63082324800000000 }
          (.withWrap .none (.read fun s => if s.width = 20 then .done else .raise .valueError)))
        (.read fun _ => .done)))
    fun _ => .withWrap (.int (-3)) (.read fun _ => .withWrap .other .done)

/-- C46: the example sees the inner and the outer setting, ends with the `TypeError` of the wrong
argument, and leaves the settings alone. -/
example : (exProg.run exSettings).after = exSettings ∧ (exProg.run exSettings).err = some .typeError ∧
    (exProg.run exSettings).seen.map Settings.width = [sysMaxsize, sysMaxsize] ∧
    (exProg.run exSettings).seen.map Settings.uid = [.const "a".toList, .builtin] := by decide +kernel

end Ics
