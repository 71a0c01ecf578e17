import Verif.Model.Depth
import Verif.Spec.Depth
import Verif.Proofs.Tree

/-
Helper lemmas about the recursion limit.
-/
namespace Ics

theorem itemsDepth_append (a b : List Item) : itemsDepth (a ++ b) = max (itemsDepth a) (itemsDepth b) := by
  induction a with
  | nil => simp [itemsDepth]
  | cons i a ih => simp only [List.cons_append, itemsDepth, ih]; omega

theorem depth_le {is : List Item} {n : Nat} : itemsDepth is ≤ n ↔ ∀ i ∈ is, i.depth ≤ n := by
  induction is with
  | nil => simp [itemsDepth]
  | cons i is ih => simp only [itemsDepth, Nat.max_le, List.forall_mem_cons, ih]

/-- The limited parser against the one without limit and the stack: `st` holds the containers around the
one that is being read. -/
theorem toContainerL_cases (err : Option PyErr) (limit : Nat) (fuel : Nat) :
    ∀ (room : Nat) (name : Str) (acc : List Item) (ls : List ContentLine) (st : List Str),
      room + st.length + 1 = limit → ls.length < fuel →
      match toContainerL err room fuel name acc ls with
      | .ok (i, rest) => toContainer err fuel name acc ls = .ok (i, rest) ∧
          deeper limit (name :: st) ls = deeper limit st rest
      | .error (.py e) => toContainer err fuel name acc ls = .error e ∧ deeper limit (name :: st) ls = false
      | .error .recursion => deeper limit (name :: st) ls = true := by
  induction fuel with
  | zero => intro room name acc ls st _ h; omega
  | succ fuel ih =>
    intro room name acc ls st hr hl
    cases ls with
    | nil => exact ⟨rfl, rfl⟩
    | cons l ls =>
      simp only [List.length_cons] at hl
      rw [toContainerL.eq_def, toContainer.eq_def, deeper.eq_def]
      dsimp only
      by_cases hb : l.name = "BEGIN".toList
      · rw [if_pos hb, if_pos hb, if_pos hb]
        cases room with
        | zero =>
          dsimp only
          rw [if_pos (by simp only [List.length_cons]; omega)]
        | succ below =>
          dsimp only
          rw [if_neg (by simp only [List.length_cons]; omega)]
          have h1 := ih below l.value [] ls (name :: st) (by simp only [List.length_cons]; omega) (by omega)
          cases hi : toContainerL err below fuel l.value [] ls with
          | error e =>
            rw [hi] at h1
            cases e with
            | py e => dsimp only at h1 ⊢; rw [h1.1]; exact ⟨rfl, h1.2⟩
            | recursion => exact h1
          | ok r =>
            obtain ⟨i, rest⟩ := r
            rw [hi] at h1
            dsimp only at h1 ⊢
            rw [h1.1, h1.2]
            have hlen := (toContainer_ok _ _ _ _ _ _ _ h1.1).1
            exact ih (below + 1) name (acc ++ [i]) rest st hr (by omega)
      · rw [if_neg hb, if_neg hb, if_neg hb]
        by_cases he : l.name = "END".toList
        · rw [if_pos he, if_pos he, if_pos he]
          by_cases hu : upper l.value = upper name
          · rw [if_neg (by simpa using hu), if_neg (by simpa using hu)]
            unfold mkContainer
            by_cases hn : name = []
            · have : upper name = [] := by rw [hn]; rfl
              rw [if_pos this]
              exact ⟨rfl, if_neg (by simp [hn])⟩
            · have : ¬ upper name = [] := fun h => hn (upper_eq_nil.1 h)
              rw [if_neg this]
              exact ⟨rfl, if_pos ⟨hu, hn⟩⟩
          · rw [if_pos hu, if_pos hu]
            exact ⟨rfl, if_neg (fun h => hu h.1)⟩
        · rw [if_neg he, if_neg he, if_neg he]
          exact ih room name (acc ++ [.line l]) ls st hr (by omega)

/-- The generator with limit: it behaves as the one without limit unless containers are nested more
deeply, and then it yields what comes before and raises RecursionError. -/
theorem toContainersL_cases (err : Option PyErr) (limit : Nat) (fuel : Nat) :
    ∀ (ls : List ContentLine), ls.length ≤ fuel →
      (deeper limit [] ls = false → toContainersL err limit fuel ls =
        ⟨(toContainersF err fuel ls).items, (toContainersF err fuel ls).err.map .py⟩) ∧
      (deeper limit [] ls = true → (toContainersL err limit fuel ls).err = some .recursion ∧
        ∃ more, (toContainersF err fuel ls).items = (toContainersL err limit fuel ls).items ++ more) := by
  induction fuel with
  | zero =>
    intro ls hl
    cases ls with
    | nil => exact ⟨fun _ => rfl, fun h => by cases h⟩
    | cons l ls => simp at hl
  | succ fuel ih =>
    intro ls hl
    cases ls with
    | nil => exact ⟨fun _ => rfl, fun h => by cases h⟩
    | cons l ls =>
      simp only [List.length_cons] at hl
      rw [toContainersL.eq_def, toContainersF.eq_def, deeper]
      dsimp only
      by_cases hb : l.name = "BEGIN".toList
      · rw [if_pos hb, if_pos hb, if_pos hb]
        cases limit with
        | zero =>
          rw [if_pos (by simp)]
          exact ⟨fun h => (by cases h), fun _ => ⟨rfl, ⟨_, rfl⟩⟩⟩
        | succ below =>
          dsimp only
          rw [if_neg (by simp)]
          have h1 := toContainerL_cases err (below + 1) (ls.length + 1) below l.value [] ls [] (by simp) (by omega)
          cases hi : toContainerL err below (ls.length + 1) l.value [] ls with
          | error e =>
            rw [hi] at h1
            cases e with
            | py e =>
              dsimp only at h1 ⊢
              rw [h1.1, h1.2]
              exact ⟨fun _ => rfl, fun h => by cases h⟩
            | recursion =>
              dsimp only at h1 ⊢
              rw [h1]
              exact ⟨fun h => (by cases h), fun _ => ⟨rfl, ⟨_, rfl⟩⟩⟩
          | ok r =>
            obtain ⟨i, rest⟩ := r
            rw [hi] at h1
            dsimp only at h1 ⊢
            have hlen := (toContainer_ok _ _ _ _ _ _ _ h1.1).1
            rw [h1.1, h1.2]
            obtain ⟨a, b⟩ := ih rest (by omega)
            refine ⟨fun h => ?_, fun h => ?_⟩
            · rw [a h]; rfl
            · obtain ⟨b1, more, b2⟩ := b h
              exact ⟨b1, more, congrArg (i :: ·) b2⟩
      · rw [if_neg hb, if_neg hb, if_neg hb]
        obtain ⟨a, b⟩ := ih ls (by omega)
        have key : (if l.name = "END".toList then deeper limit [] ls else deeper limit [] ls) =
            deeper limit [] ls := by split <;> rfl
        rw [key]
        refine ⟨fun h => ?_, fun h => ?_⟩
        · rw [a h]; rfl
        · obtain ⟨b1, more, b2⟩ := b h
          exact ⟨b1, more, congrArg (Item.line l :: ·) b2⟩

/-- The depth of a container that was read, and the stack. -/
theorem toContainer_depth (err : Option PyErr) (limit : Nat) (fuel : Nat) :
    ∀ (name : Str) (acc : List Item) (ls rest : List ContentLine) (i : Item) (st : List Str),
      toContainer err fuel name acc ls = .ok (i, rest) → st.length < limit →
      ∃ its, i = .cont (upper name) (acc ++ its) ∧
        deeper limit (name :: st) ls = (decide (limit < itemsDepth its + st.length + 1) || deeper limit st rest) := by
  induction fuel with
  | zero => intro name acc ls rest i st h; simp [toContainer] at h
  | succ fuel ih =>
    intro name acc ls rest i st h hst
    cases ls with
    | nil => simp [toContainer] at h
    | cons l ls =>
      rw [toContainer.eq_def] at h
      rw [deeper.eq_def]
      dsimp only at h ⊢
      by_cases hb : l.name = "BEGIN".toList
      · rw [if_pos hb] at h ⊢
        cases hi : toContainer err fuel l.value [] ls with
        | error e => rw [hi] at h; cases h
        | ok r =>
          obtain ⟨i1, rest1⟩ := r
          rw [hi] at h
          dsimp only at h
          obtain ⟨its2, e2, d2⟩ := ih _ _ _ _ _ st h hst
          refine ⟨i1 :: its2, by rw [e2]; simp, ?_⟩
          by_cases hd : limit ≤ (name :: st).length
          · rw [if_pos hd]
            obtain ⟨its1, e1, -⟩ := toContainer_depth_cont hi
            have : limit < itemsDepth (i1 :: its2) + st.length + 1 := by
              rw [e1]; simp only [itemsDepth, Item.depth, List.length_cons] at hd ⊢; omega
            rw [decide_eq_true this]; rfl
          · rw [if_neg hd]
            obtain ⟨its1, e1, d1⟩ := ih _ _ _ _ _ (name :: st) hi (by omega)
            rw [d1, d2, ← Bool.or_assoc]
            congr 1
            have hD : itemsDepth (i1 :: its2) = max (itemsDepth its1 + 1) (itemsDepth its2) := by
              rw [e1]; rfl
            rw [hD, Bool.eq_iff_iff]
            simp only [List.length_cons] at hd
            simp only [Bool.or_eq_true, decide_eq_true_eq, List.length_cons]
            omega
      · rw [if_neg hb] at h ⊢
        by_cases he : l.name = "END".toList
        · rw [if_pos he] at h ⊢
          by_cases hu : upper l.value = upper name
          · rw [if_neg (by simpa using hu)] at h
            unfold mkContainer at h
            by_cases hn : upper name = []
            · rw [if_pos hn] at h; cases h
            · rw [if_neg hn] at h
              cases h
              refine ⟨[], by simp, ?_⟩
              rw [if_pos ⟨hu, fun h => hn (by rw [h]; rfl)⟩]
              have : ¬ limit < itemsDepth ([] : List Item) + st.length + 1 := by simp only [itemsDepth]; omega
              rw [decide_eq_false this]; rfl
          · rw [if_pos hu] at h; cases h
        · rw [if_neg he] at h ⊢
          obtain ⟨its2, e2, d2⟩ := ih _ _ _ _ _ st h hst
          refine ⟨.line l :: its2, by rw [e2]; simp, ?_⟩
          rw [d2]
          have : itemsDepth (.line l :: its2) = itemsDepth its2 := by
            simp only [itemsDepth, Item.depth]; omega
          rw [this]
where
  toContainer_depth_cont {fuel : Nat} {name : Str} {ls rest : List ContentLine} {i : Item}
      (h : toContainer err fuel name [] ls = .ok (i, rest)) :
      ∃ its, i = .cont (upper name) its ∧ True := by
    obtain ⟨-, -, -, -, its, e, -⟩ := toContainer_ok _ _ _ _ _ _ _ h
    exact ⟨_, e, trivial⟩

/-- A text that is read without error is nested more deeply than the limit exactly if one of its containers
is. -/
theorem deeper_depth (err : Option PyErr) (limit : Nat) (fuel : Nat) :
    ∀ (ls : List ContentLine), ls.length ≤ fuel → (toContainersF err fuel ls).err = none →
      (deeper limit [] ls = true ↔ limit < itemsDepth (toContainersF err fuel ls).items) := by
  induction fuel with
  | zero =>
    intro ls hl he
    cases ls with
    | nil => simp [deeper, toContainersF, itemsDepth]
    | cons l ls => simp at hl
  | succ fuel ih =>
    intro ls hl he
    cases ls with
    | nil => simp [deeper, toContainersF, itemsDepth]
    | cons l ls =>
      simp only [List.length_cons] at hl
      rw [toContainersF.eq_def] at he ⊢
      rw [deeper]
      dsimp only at he ⊢
      by_cases hb : l.name = "BEGIN".toList
      · rw [if_pos hb] at he ⊢
        rw [if_pos hb]
        cases hi : toContainer err (ls.length + 1) l.value [] ls with
        | error e => rw [hi] at he; cases he
        | ok r =>
          obtain ⟨i, rest⟩ := r
          rw [hi] at he
          dsimp only at he ⊢
          obtain ⟨hlen, -, -, -, its0, e0, -⟩ := toContainer_ok _ _ _ _ _ _ _ hi
          have ih' := ih rest (by omega) he
          by_cases hd : limit ≤ ([] : List Str).length
          · rw [if_pos hd]
            simp only [List.length_nil] at hd
            simp only [true_iff, Gen.yield, itemsDepth, e0, Item.depth]
            omega
          · rw [if_neg hd]
            simp only [List.length_nil] at hd
            obtain ⟨its, e1, d1⟩ := toContainer_depth err limit _ _ _ _ _ _ [] hi (by simp; omega)
            rw [d1]
            simp only [Bool.or_eq_true, decide_eq_true_eq, ih', Gen.yield, itemsDepth, e1, Item.depth,
              List.nil_append, List.length_nil]
            omega
      · rw [if_neg hb] at he ⊢
        rw [if_neg hb]
        have key : (if l.name = "END".toList then deeper limit [] ls else deeper limit [] ls) =
            deeper limit [] ls := by split <;> rfl
        rw [key]
        have ih' := ih ls (by omega) he
        rw [ih']
        simp only [Gen.yield, itemsDepth, Item.depth]
        omega

/-- The lines that begin containers are too few. -/
theorem deeper_begins (limit : Nat) (ls : List ContentLine) : ∀ st, deeper limit st ls = true →
    limit < st.length + (ls.filter fun l => l.name = "BEGIN".toList).length := by
  induction ls with
  | nil => intro st h; cases h
  | cons l ls ih =>
    intro st h
    rw [deeper.eq_def] at h
    dsimp only at h
    by_cases hb : l.name = "BEGIN".toList
    · rw [List.filter_cons_of_pos (by simpa using hb)]
      rw [if_pos hb] at h
      by_cases hd : limit ≤ st.length
      · simp only [List.length_cons]; omega
      · rw [if_neg hd] at h
        have := ih _ h
        simp only [List.length_cons] at this ⊢
        omega
    · rw [List.filter_cons_of_neg (by simpa using hb)]
      rw [if_neg hb] at h
      by_cases he : l.name = "END".toList
      · rw [if_pos he] at h
        cases st with
        | nil => exact ih _ h
        | cons n st =>
          dsimp only at h
          split at h
          · have := ih _ h
            simp only [List.length_cons]
            omega
          · cases h
      · rw [if_neg he] at h
        exact ih _ h

mutual
theorem serItemL_ok (w : Wrap) : ∀ (limit : Nat) (i : Item) (s : Str), serItemL w limit i = .ok s ↔
    serItem w i = .ok s ∧ i.depth ≤ limit
  | limit, .line cl, s => by
    rw [serItemL, serItem]
    simp only [Item.depth, Nat.zero_le, and_true]
    cases serLine w true cl with
    | error e => exact ⟨fun h => (by cases h), fun h => (by cases h)⟩
    | ok s' => simp
  | 0, .cont name items, s => by
    rw [serItemL]
    simp [Item.depth]
  | below + 1, .cont name items, s => by
    rw [serItemL, serItem]
    simp only [Item.depth, Nat.add_le_add_iff_right]
    have h := serItemsL_ok w below items
    cases hi : serItemsL w below items with
    | error e =>
      rw [hi] at h
      cases hj : serItems w items with
      | error e' => exact ⟨fun h => (by cases h), fun h => (by cases h.1)⟩
      | ok b =>
        rw [hj] at h
        have := h b
        constructor
        · intro h; cases h
        · rintro ⟨-, h2⟩
          exact absurd (this.2 ⟨rfl, h2⟩) (by simp)
    | ok b =>
      obtain ⟨h1, h2⟩ := (h b).1 hi
      rw [h1]
      exact ⟨fun h => ⟨by cases h; rfl, h2⟩, fun h => by cases h.1; rfl⟩
theorem serItemsL_ok (w : Wrap) : ∀ (limit : Nat) (is : List Item) (s : Str), serItemsL w limit is = .ok s ↔
    serItems w is = .ok s ∧ itemsDepth is ≤ limit
  | limit, [], s => by rw [serItemsL, serItems]; simp [itemsDepth]
  | limit, i :: is, s => by
    rw [serItemsL, serItems]
    simp only [itemsDepth, Nat.max_le]
    have ha := serItemL_ok w limit i
    have hb := serItemsL_ok w limit is
    constructor
    · intro h
      cases h1 : serItemL w limit i with
      | error e => rw [h1] at h; cases h
      | ok a =>
        rw [h1] at h
        cases h2 : serItemsL w limit is with
        | error e => rw [h2] at h; cases h
        | ok b =>
          rw [h2] at h
          obtain ⟨a1, a2⟩ := (ha a).1 h1
          obtain ⟨b1, b2⟩ := (hb b).1 h2
          rw [a1, b1]
          exact ⟨by cases h; rfl, a2, b2⟩
    · rintro ⟨h, h3, h4⟩
      cases h1 : serItem w i with
      | error e => rw [h1] at h; cases h
      | ok a =>
        rw [h1] at h
        cases h2 : serItems w is with
        | error e => rw [h2] at h; cases h
        | ok b =>
          rw [h2] at h
          rw [(ha a).2 ⟨h1, h3⟩]
          dsimp only
          rw [(hb b).2 ⟨h2, h4⟩]
          cases h; rfl
end

mutual
theorem serItemL_error (w : Wrap) : ∀ (limit : Nat) (i : Item) (e : DeepErr), serItemL w limit i = .error e →
    match e with
    | .py e => serItem w i = .error e
    | .recursion => limit < i.depth
  | limit, .line cl, e, h => by
    rw [serItemL] at h
    rw [serItem]
    cases hs : serLine w true cl with
    | error e' => rw [hs] at h; cases h; rfl
    | ok s' => rw [hs] at h; cases h
  | 0, .cont name items, e, h => by
    rw [serItemL] at h
    cases h
    exact Nat.succ_pos _
  | below + 1, .cont name items, e, h => by
    rw [serItemL] at h
    rw [serItem]
    cases hi : serItemsL w below items with
    | ok b => rw [hi] at h; cases h
    | error e' =>
      have ih := serItemsL_error w below items e' hi
      rw [hi] at h
      cases h
      cases e with
      | py e => dsimp only at ih ⊢; rw [ih]; rfl
      | recursion => exact Nat.succ_lt_succ ih
theorem serItemsL_error (w : Wrap) : ∀ (limit : Nat) (is : List Item) (e : DeepErr), serItemsL w limit is = .error e →
    match e with
    | .py e => serItems w is = .error e
    | .recursion => limit < itemsDepth is
  | limit, [], e, h => by rw [serItemsL] at h; cases h
  | limit, i :: is, e, h => by
    rw [serItemsL] at h
    rw [serItems, itemsDepth]
    cases h1 : serItemL w limit i with
    | error e' =>
      have ih := serItemL_error w limit i e' h1
      rw [h1] at h
      cases h
      cases e with
      | py e => dsimp only at ih ⊢; rw [ih]; rfl
      | recursion => dsimp only at ih ⊢; omega
    | ok a =>
      rw [h1] at h
      cases h2 : serItemsL w limit is with
      | ok b => rw [h2] at h; cases h
      | error e' =>
        have ih := serItemsL_error w limit is e' h2
        rw [h2] at h
        cases h
        cases e with
        | py e => dsimp only at ih ⊢; rw [((serItemL_ok w limit i a).1 h1).1, ih]; rfl
        | recursion => dsimp only at ih ⊢; omega
end

end Ics
