import Verif.Spec.Rrule
import Verif.Proofs.Dict
import Mathlib.Data.List.Perm.Subperm

/-
Helper lemmas for C71.
-/
namespace Ics

variable {κ ν : Type} [DecidableEq κ]

theorem uniqueKeys_dictUpdate {d : List (κ × ν)} (new : List (κ × ν)) (h : UniqueKeys d) : UniqueKeys (dictUpdate d new) := by
  induction new generalizing d with
  | nil => exact h
  | cons x new ih => exact ih (uniqueKeys_dictSet _ _ h)

theorem dictGet_update (d : List (κ × ν)) {new : List (κ × ν)} (h : UniqueKeys new) (k : κ) :
    dictGet? (dictUpdate d new) k = (dictGet? new k).or (dictGet? d k) := by
  induction new generalizing d with
  | nil => simp [dictUpdate, dictGet?]
  | cons x new ih =>
    obtain ⟨x, w⟩ := x
    unfold UniqueKeys at h
    rw [List.map_cons, List.nodup_cons] at h
    simp only [dictUpdate, dictGet?]
    rw [ih _ h.2, dictGet_set_eq]
    by_cases e : x = k
    · subst e
      rw [dictGet_eq_none.2 h.1]
      simp
    · simp [e, Ne.symm e]

theorem dictEqBy_iff {eq : ν → ν → Bool} {a b : List (κ × ν)} (ha : UniqueKeys a) (hb : UniqueKeys b) :
    dictEqBy eq a b = true ↔ ∀ k, SameOpt eq (dictGet? a k) (dictGet? b k) := by
  unfold dictEqBy
  rw [Bool.and_eq_true, decide_eq_true_eq, List.all_eq_true]
  constructor
  · rintro ⟨hl, hall⟩ k
    have hsub : a.map Prod.fst ⊆ b.map Prod.fst := by
      intro k hk
      obtain ⟨⟨k', v⟩, hm, rfl⟩ := List.mem_map.1 hk
      have := hall _ hm
      by_contra hn
      rw [dictGet_eq_none.2 hn] at this
      cases this
    have hperm : (a.map Prod.fst).Perm (b.map Prod.fst) :=
      (List.subperm_of_subset ha hsub).perm_of_length_le (by simp [hl])
    cases e : dictGet? a k with
    | none =>
      have : k ∉ b.map Prod.fst := fun hk => dictGet_eq_none.1 e (hperm.mem_iff.2 hk)
      rw [dictGet_eq_none.2 this]
      trivial
    | some v =>
      have := hall _ (mem_of_dictGet e)
      dsimp only at this
      cases e' : dictGet? b k with
      | none => rw [e'] at this; cases this
      | some v' => rw [e'] at this; exact this
  · intro h
    have hkeys : ∀ k, k ∈ a.map Prod.fst ↔ k ∈ b.map Prod.fst := by
      intro k
      have hk := h k
      constructor
      · intro hm
        by_contra hn
        rw [dictGet_eq_none.2 hn] at hk
        cases e : dictGet? a k with
        | none => exact dictGet_eq_none.1 e hm
        | some v => rw [e] at hk; exact hk
      · intro hm
        by_contra hn
        rw [dictGet_eq_none.2 hn] at hk
        cases e : dictGet? b k with
        | none => exact dictGet_eq_none.1 e hm
        | some v => rw [e] at hk; exact hk
    constructor
    · have := ((List.perm_ext_iff_of_nodup ha hb).2 hkeys).length_eq
      simpa using this
    · rintro ⟨k, v⟩ hm
      have hk := h k
      rw [dictGet_of_mem ha hm] at hk
      dsimp only
      cases e : dictGet? b k with
      | none => rw [e] at hk; exact hk.elim
      | some v' => rw [e] at hk; exact hk

theorem dictGet_find (d : List (κ × ν)) (k : κ) : dictGet? d k = (d.find? fun kv => kv.1 = k).map Prod.snd := by
  induction d with
  | nil => rfl
  | cons x d ih =>
    obtain ⟨x, w⟩ := x
    simp only [dictGet?, List.find?_cons]
    by_cases e : x = k
    · simp [e]
    · simp only [e, if_false, decide_false]
      exact ih

theorem dictGet_cons (k' k : κ) (v : ν) (d : List (κ × ν)) :
    dictGet? ((k', v) :: d) k = if k = k' then some v else dictGet? d k := by
  simp only [dictGet?]
  by_cases e : k = k'
  · rw [if_pos e, if_pos e.symm]
  · rw [if_neg e, if_neg (Ne.symm e)]

theorem uniqueKeys_ruleDict {α : Type} (r : PyRule α) : UniqueKeys (ruleDict r) := by
  refine uniqueKeys_dictUpdate _ ?_
  unfold UniqueKeys
  simp only [List.map_cons, List.map_nil]
  decide +kernel

theorem ruleDict_value {α : Type} {r : PyRule α} (h : r.Dict) (k : Str) : dictGet? (ruleDict r) k = r.value k := by
  unfold ruleDict
  rw [dictGet_update _ h, PyRule.value, dictGet_find]
  cases r.original.find? fun kv => kv.1 = k with
  | some kv => rfl
  | none =>
    rw [Option.map_none, Option.none_or]
    iterate 6 rw [dictGet_cons]
    rfl

theorem listEqBy_iff {ν : Type} {eq : ν → ν → Bool} {a b : List ν} :
    listEqBy eq a b = true ↔ Pointwise (fun x y => eq x y = true) a b := by
  induction a generalizing b with
  | nil =>
    cases b with
    | nil => simp [listEqBy, Pointwise]
    | cons y b => simp [listEqBy, Pointwise]
  | cons x a ih =>
    cases b with
    | nil => simp [listEqBy, Pointwise]
    | cons y b =>
      simp only [listEqBy, Bool.and_eq_true, ih]
      unfold Pointwise
      constructor
      · rintro ⟨h1, h2, h3⟩
        refine ⟨by simp [h2], ?_⟩
        intro i h h'
        cases i with
        | zero => exact h1
        | succ i => exact h3 i _ _
      · rintro ⟨h1, h2⟩
        refine ⟨h2 0 (by simp) (by simp), by simpa using h1, ?_⟩
        intro i h h'
        exact h2 (i + 1) (by simpa using h) (by simpa using h')

theorem keys_dictUpdate {d d' new new' : List (κ × ν)} (hd : d.map Prod.fst = d'.map Prod.fst)
    (hn : new.map Prod.fst = new'.map Prod.fst) : (dictUpdate d new).map Prod.fst = (dictUpdate d' new').map Prod.fst := by
  induction new generalizing d d' new' with
  | nil =>
    cases new' with
    | nil => exact hd
    | cons x new' => simp at hn
  | cons x new ih =>
    cases new' with
    | nil => simp at hn
    | cons x' new' =>
      simp only [List.map_cons, List.cons.injEq] at hn
      refine ih (new' := new') (d := dictSet d x.1 x.2) (d' := dictSet d' x'.1 x'.2) ?_ hn.2
      rw [keys_dictSet, keys_dictSet, hd, hn.1]

theorem mapM_congr {α β : Type} {f : α → Except PyErr β} {a b : List α} (h : Pointwise (fun x y => f x = f y) a b) :
    a.mapM f = b.mapM f := by
  induction a generalizing b with
  | nil =>
    cases b with
    | nil => rfl
    | cons y b => exact absurd h.1 (by simp)
  | cons x a ih =>
    cases b with
    | nil => exact absurd h.1 (by simp)
    | cons y b =>
      have h0 : f x = f y := h.2 0 (by simp) (by simp)
      have ht : Pointwise (fun x y => f x = f y) a b :=
        ⟨by simpa using h.1, fun i hi hi' => h.2 (i + 1) (by simpa using hi) (by simpa using hi')⟩
      rw [List.mapM_cons, List.mapM_cons, ih ht, h0]

theorem Pointwise.mono {ν : Type} {R S : ν → ν → Prop} {a b : List ν} (h : Pointwise R a b)
    (hi : ∀ x ∈ a, ∀ y ∈ b, R x y → S x y) : Pointwise S a b :=
  ⟨h.1, fun i h1 h2 => hi _ (List.getElem_mem h1) _ (List.getElem_mem h2) (h.2 i h1 h2)⟩

end Ics
