import Verif.Proofs.Depth
import Verif.Props.Tree

/-
C93: how deeply the parser and the writer of containers recurse.
-/
namespace Ics

/-- C93: with room for `limit` nested calls, parsing a text ends in RecursionError exactly if, reading its
lines with a stack, a container is begun inside of `limit` others; otherwise it yields the same items and
ends in the same way as without limit.  Before the RecursionError it yields the items that come first. -/
theorem C93_parse (limit : Nat) (txt : Str) :
    ((stringToContainersL limit txt).err = some .recursion ↔
      deeper limit [] (linesToContentlines (unfoldLines (stringToLines txt))).items = true) ∧
    (deeper limit [] (linesToContentlines (unfoldLines (stringToLines txt))).items = false →
      (stringToContainersL limit txt).items = (stringToContainers txt).items ∧
      (stringToContainersL limit txt).err = (stringToContainers txt).err.map .py) ∧
    (stringToContainersL limit txt).items <+: (stringToContainers txt).items := by
  have h := toContainersL_cases (linesToContentlines (unfoldLines (stringToLines txt))).err limit
    (linesToContentlines (unfoldLines (stringToLines txt))).items.length
    (linesToContentlines (unfoldLines (stringToLines txt))).items (Nat.le_refl _)
  have e1 : stringToContainersL limit txt =
    toContainersL (linesToContentlines (unfoldLines (stringToLines txt))).err limit
      (linesToContentlines (unfoldLines (stringToLines txt))).items.length
      (linesToContentlines (unfoldLines (stringToLines txt))).items := rfl
  have e2 : stringToContainers txt =
    toContainersF (linesToContentlines (unfoldLines (stringToLines txt))).err
      (linesToContentlines (unfoldLines (stringToLines txt))).items.length
      (linesToContentlines (unfoldLines (stringToLines txt))).items := rfl
  rw [e1, e2]
  obtain ⟨h1, h2⟩ := h
  cases hd : deeper limit [] (linesToContentlines (unfoldLines (stringToLines txt))).items with
  | true =>
    obtain ⟨a, more, b⟩ := h2 hd
    exact ⟨⟨fun _ => rfl, fun _ => a⟩, fun h => (by cases h), ⟨more, b.symm⟩⟩
  | false =>
    rw [h1 hd]
    refine ⟨⟨fun h => ?_, fun h => (by cases h)⟩, fun _ => ⟨rfl, rfl⟩, List.prefix_refl _⟩
    dsimp only at h
    obtain ⟨x, -, hx⟩ := Option.map_eq_some_iff.1 h
    cases hx

/-- C93: a text that is accepted without limit is accepted with a limit exactly if none of its containers
is nested more deeply. -/
theorem C93_accepted (limit : Nat) (txt : Str) (items : List Item)
    (h : stringToContainers txt = Gen.done items) :
    (∀ i ∈ items, i.depth ≤ limit) ↔
      (stringToContainersL limit txt).items = items ∧ (stringToContainersL limit txt).err = none := by
  have hd := deeper_depth (linesToContentlines (unfoldLines (stringToLines txt))).err limit
    (linesToContentlines (unfoldLines (stringToLines txt))).items.length
    (linesToContentlines (unfoldLines (stringToLines txt))).items (Nat.le_refl _)
  have e2 : stringToContainers txt =
    toContainersF (linesToContentlines (unfoldLines (stringToLines txt))).err
      (linesToContentlines (unfoldLines (stringToLines txt))).items.length
      (linesToContentlines (unfoldLines (stringToLines txt))).items := rfl
  rw [← e2, h] at hd
  have hd := hd rfl
  obtain ⟨p1, p2, -⟩ := C93_parse limit txt
  rw [← depth_le]
  rw [h] at p2
  change _ ↔ limit < itemsDepth items at hd
  constructor
  · intro hle
    exact p2 (by cases hx : deeper limit [] _ with
      | false => rfl
      | true => have := hd.1 hx; omega)
  · rintro ⟨-, he⟩
    by_contra hc
    have := p1.2 (hd.2 (by omega))
    rw [he] at this
    cases this

/-- C93: no text with at most `limit` lines that begin a container meets the limit. -/
theorem C93_short (limit : Nat) (txt : Str)
    (h : ((linesToContentlines (unfoldLines (stringToLines txt))).items.filter
      fun l => l.name = "BEGIN".toList).length ≤ limit) :
    (stringToContainersL limit txt).items = (stringToContainers txt).items ∧
      (stringToContainersL limit txt).err = (stringToContainers txt).err.map .py := by
  refine (C93_parse limit txt).2.1 ?_
  cases hd : deeper limit [] (linesToContentlines (unfoldLines (stringToLines txt))).items with
  | false => rfl
  | true => have := deeper_begins limit _ [] hd; simp only [List.length_nil] at this; omega

/-- C93: writing with room for `limit` nested containers gives the text that is written without limit
exactly if the item is not nested more deeply; otherwise it raises RecursionError or the exception that
is raised without limit. -/
theorem C93_write (w : Wrap) (limit : Nat) (i : Item) :
    (∀ s, serItemL w limit i = .ok s ↔ serItem w i = .ok s ∧ i.depth ≤ limit) ∧
    (serItemL w limit i = .error .recursion → limit < i.depth) ∧
    (∀ e, serItemL w limit i = .error (.py e) → serItem w i = .error e) :=
  ⟨serItemL_ok w limit i, fun h => serItemL_error w limit i _ h, fun _ h => serItemL_error w limit i _ h⟩

/-- Containers inside of each other. -/
def nest : Nat → Item
  | 0 => .cont "A".toList []
  | n + 1 => .cont "A".toList [nest n]

theorem nest_depth (n : Nat) : (nest n).depth = n + 1 := by
  induction n with
  | zero => rfl
  | succ n ih => simp only [nest, Item.depth, itemsDepth, ih]; omega

theorem nest_writable (n : Nat) : WritableTree (nest n) := by
  have hn : WritableName "A".toList := ⟨by decide, by decide, ⟨by decide, by decide⟩⟩
  induction n with
  | zero => exact ⟨hn, trivial⟩
  | succ n ih => exact ⟨hn, ih, trivial⟩

theorem norm_depth : (∀ i : Item, (normItem i).depth = i.depth) ∧
    (∀ is : List Item, itemsDepth (normItems is) = itemsDepth is) := by
  have h1 : ∀ i : Item, (normItem i).depth = i.depth := fun i => Item.rec
    (motive_1 := fun i => (normItem i).depth = i.depth)
    (motive_2 := fun is => itemsDepth (normItems is) = itemsDepth is)
    (fun cl => by rw [normItem, Item.depth, Item.depth])
    (fun n is ih => by rw [normItem, Item.depth, Item.depth, ih])
    (by rw [normItems])
    (fun i is a b => by rw [normItems, itemsDepth, itemsDepth, a, b]) i
  refine ⟨h1, fun is => ?_⟩
  induction is with
  | nil => rw [normItems]
  | cons i is ih => rw [normItems, itemsDepth, itemsDepth, h1, ih]

/-- C93: for every limit there is a text that would be accepted without limit, but is rejected with
RecursionError: the parser fails not only with ParseError. -/
theorem C93_fails (limit : Nat) : ∃ txt i, stringToContainers txt = Gen.done [i] ∧
    (stringToContainersL limit txt).err = some .recursion := by
  obtain ⟨name, items, hni⟩ : ∃ name items, nest limit = .cont name items := by
    cases limit with
    | zero => exact ⟨_, _, rfl⟩
    | succ n => exact ⟨_, _, rfl⟩
  obtain ⟨txt, -, ht⟩ := container_roundtrip .none trivial false name items (hni ▸ nest_writable limit)
  have hd : (normItem (.cont name items)).depth = limit + 1 := by
    rw [norm_depth.1, ← hni, nest_depth]
  refine ⟨txt, _, ht, ?_⟩
  have hacc := C93_accepted limit txt _ ht
  obtain ⟨p1, p2, -⟩ := C93_parse limit txt
  have hdeep : deeper limit [] (linesToContentlines (unfoldLines (stringToLines txt))).items = true := by
    cases hx : deeper limit [] (linesToContentlines (unfoldLines (stringToLines txt))).items with
    | true => rfl
    | false =>
      have := hacc.2 (by rw [(p2 hx).1, (p2 hx).2, ht]; exact ⟨rfl, rfl⟩) _ (List.mem_singleton.2 rfl)
      omega
  exact p1.2 hdeep

/-- A text with two containers inside of each other, with room for one or two calls. -/
example : (stringToContainersL 1 "X:1\nBEGIN:A\nBEGIN:B\nEND:B\nEND:A".toList).err = some .recursion ∧
    (stringToContainersL 2 "X:1\nBEGIN:A\nBEGIN:B\nEND:B\nEND:A".toList).err = none ∧
    (stringToContainersL 1 "X:1\nBEGIN:A\nBEGIN:B\nEND:B\nEND:A".toList).items.length = 1 ∧
    (stringToContainersL 1 "BEGIN:A\nEND:X\nBEGIN:A\nBEGIN:B".toList).err = some (.py .parseError) := by
  decide +kernel

example : ∃ i, stringToContainers "X:1\nBEGIN:A\nBEGIN:B\nEND:B\nEND:A".toList =
    Gen.done [.line ⟨"X".toList, [], "1".toList⟩, i] ∧ i.depth = 2 :=
  ⟨.cont "A".toList [.cont "B".toList []], by rfl, rfl⟩

example : ((linesToContentlines (unfoldLines (stringToLines "BEGIN:A\nEND:A\nBEGIN:A\nX".toList))).items.filter
    fun l => l.name = "BEGIN".toList).length ≤ 2 := by decide +kernel

example : serItemL .none 1 (nest 1) = .error .recursion ∧
    serItemL .none 2 (nest 1) = .ok "BEGIN:A\r\nBEGIN:A\r\nEND:A\r\nEND:A\r\n".toList := by decide +kernel

end Ics
