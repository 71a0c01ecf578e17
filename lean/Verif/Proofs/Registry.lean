import Verif.Spec.Registry
import Verif.Proofs.Dict

/-
Lemmas on the search for converters (C68).
-/
namespace Ics

theorem insertConv_perm (d : Derived) (l : List Derived) : (insertConv d l).Perm (d :: l) := by
  induction l with
  | nil => exact .refl _
  | cons x l ih =>
    rw [insertConv]
    split
    · exact .refl _
    · exact (ih.cons x).trans (.swap d x l)

theorem insertConv_sorted (d : Derived) {l : List Derived} (h : l.Pairwise fun a b => b.priority ≤ a.priority) :
    (insertConv d l).Pairwise fun a b => b.priority ≤ a.priority := by
  induction l with
  | nil => exact List.pairwise_singleton _ _
  | cons x l ih =>
    rw [List.pairwise_cons] at h
    rw [insertConv]
    split
    · rename_i hx
      refine List.pairwise_cons.2 ⟨fun y hy => ?_, List.pairwise_cons.2 h⟩
      rcases List.mem_cons.1 hy with rfl | hy
      · exact hx
      · exact (h.1 y hy).trans hx
    · rename_i hx
      refine List.pairwise_cons.2 ⟨fun y hy => ?_, ih h.2⟩
      rcases List.mem_cons.1 ((insertConv_perm d l).mem_iff.1 hy) with rfl | hy
      · exact (not_le.1 hx).le
      · exact h.1 y hy

theorem insertConv_stable (d : Derived) (l : List Derived) (p : Int) :
    (insertConv d l).filter (fun x => x.priority = p) = (d :: l).filter fun x => x.priority = p := by
  induction l with
  | nil => rfl
  | cons x l ih =>
    rw [insertConv]
    split
    · rfl
    · rename_i hx
      rw [List.filter_cons, ih]
      by_cases h1 : x.priority = p
      · have h2 : ¬d.priority = p := fun h2 => hx (by rw [h1, h2])
        simp only [List.filter_cons, h1, h2, decide_true, decide_false, if_true, Bool.false_eq_true, if_false]
      · simp only [List.filter_cons, h1, decide_false, Bool.false_eq_true, if_false]

theorem Derived.names_nodup (d : Derived) : d.names.Nodup := by
  unfold Derived.names
  split <;> first | decide | simp

theorem lookupAdd_get (d : Derived) (n : Str) : ∀ (ns : List Str) (t : List (Str × List Derived)), ns.Nodup →
    (dictGet? (lookupAdd d ns t) n).getD [] = (dictGet? t n).getD [] ++ if n ∈ ns then [d] else []
  | [], t, _ => by simp [lookupAdd]
  | m :: ns, t, h => by
    rw [List.nodup_cons] at h
    rw [lookupAdd, lookupAdd_get d n ns _ h.2, dictGet_set_eq]
    by_cases hn : n = m
    · subst hn
      rw [if_pos rfl, if_neg h.1, if_pos List.mem_cons_self]
      simp
    · rw [if_neg hn]
      by_cases hm : n ∈ ns
      · rw [if_pos hm, if_pos (List.mem_cons_of_mem _ hm)]
      · rw [if_neg hm, if_neg fun h => (List.mem_cons.1 h).elim hn hm]

theorem buildLookup_get (n : Str) : ∀ (ds : List Derived) (t : List (Str × List Derived)),
    (dictGet? (buildLookup ds t) n).getD [] = (dictGet? t n).getD [] ++ ds.filter fun d => n ∈ d.names
  | [], t => by simp [buildLookup]
  | d :: ds, t => by
    rw [buildLookup, buildLookup_get n ds, lookupAdd_get d n _ _ d.names_nodup, List.filter_cons]
    by_cases h : n ∈ d.names
    · simp [h]
    · simp [h]

theorem sameConverter_names {d : Derived} {cv : Conv} (h : SameConverter d cv) : d.names = cv.names := by
  unfold SameConverter at h
  unfold Derived.names
  split at h
  · rename_i e
    rw [e]
    exact congrArg (fun x => [x]) h.2.1
  · rename_i e
    rw [e]
    exact congrArg (fun x => [x]) h.2.1
  · rename_i e
    rw [e]
    rfl
  · rename_i e
    rw [e]
    rfl
  · rename_i e
    rw [e]
    rfl
  · exact h.elim

theorem ignore_iff (a : AttrDecl) : ¬a.ignore.getD (!a.init) = true ↔ Converted a := by
  unfold Converted
  cases a.ignore with
  | none => simp
  | some b => cases b <;> simp

theorem derived_required (a : AttrDecl) (multi : Bool) (k : DKind) : (mkDerived a multi k).required = true ↔
    a.required = some true ∨ (a.required = none ∧ a.init = true ∧ a.hasDefault = false) := by
  unfold mkDerived isRequired
  cases a.required <;> simp

theorem derived_name (a : AttrDecl) (multi : Bool) (k : DKind) (n : Str) (h : a.icsName = some n) (hn : n ≠ []) :
    (mkDerived a multi k).ics = n := by
  unfold mkDerived icsNameOf
  cases n with
  | nil => exact absurd rfl hn
  | cons c n =>
    rw [h]

theorem derived_priority (a : AttrDecl) (multi : Bool) (k : DKind) (p : Int) (h : a.priority = some p) :
    (mkDerived a multi k).priority = p := by
  unfold mkDerived
  rw [h]
  rfl

theorem dropWhile_dash {l : Str} (h : l.head? ≠ some '-') : l.dropWhile (fun c => c = '-') = l := by
  cases l with
  | nil => rfl
  | cons c l =>
    rw [List.dropWhile_cons_of_neg]
    intro hc
    exact h (congrArg some (of_decide_eq_true hc))

theorem derived_upper (a : AttrDecl) (multi : Bool) (k : DKind) (h : a.icsName = none) (hd : '-' ∉ upper a.name)
    (h1 : (upper a.name).head? ≠ some '_') (h2 : (upper a.name).getLast? ≠ some '_') :
    (mkDerived a multi k).ics = (upper a.name).map fun c => if c = '_' then '-' else c := by
  unfold mkDerived icsNameOf
  rw [h]
  generalize upper a.name = u at hd h1 h2
  have key : ∀ o : Option Char, o ≠ some '_' → o ≠ some '-' →
      o.map (fun c => if c = '_' then '-' else c) ≠ some '-' := by
    intro o ho hm
    cases o with
    | none => nofun
    | some c =>
      intro e
      have e : (if c = '_' then '-' else c) = '-' := Option.some.inj e
      split at e
      · rename_i hc
        exact ho (congrArg some hc)
      · exact hm (congrArg some e)
  have k1 : (u.map fun c => if c = '_' then '-' else c).head? ≠ some '-' := by
    rw [List.head?_map]
    exact key _ h1 fun e => hd (List.mem_of_mem_head? e)
  have k2 : (u.map fun c => if c = '_' then '-' else c).reverse.head? ≠ some '-' := by
    rw [List.head?_reverse, List.getLast?_map]
    exact key _ h2 fun e => hd (List.mem_of_getLast? e)
  change ((List.dropWhile (fun c => c = '-') _).reverse.dropWhile fun c => c = '-').reverse = _
  rw [dropWhile_dash k1, dropWhile_dash k2, List.reverse_reverse]

theorem attrConverters_error {r : Registry} {a : AttrDecl} (h : ∀ d, getConverterFor r a ≠ .ok d) :
    ∀ {as : List AttrDecl}, a ∈ as → ∀ ds, attrConverters r as ≠ .ok ds
  | b :: as, hm, ds => by
    intro he
    simp only [attrConverters, bind, Except.bind] at he
    split at he
    · cases he
    · rename_i d hd
      split at he
      · cases he
      · rename_i ds' hds
        rcases List.mem_cons.1 hm with rfl | hm
        · exact h _ hd
        · exact attrConverters_error h hm _ hds

end Ics
