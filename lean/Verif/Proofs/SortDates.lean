import Verif.Spec.Vtimezone

/-
Sorting dates without zones.
-/
namespace Ics

/-- Times without zones are determined by the wall clock. -/
def Naive (d : DT) : Prop := d.tz = none ∧ d.fold = false

theorem naive_lt (e : Env) {a b : DT} (ha : Naive a) (hb : Naive b) : e.lt a b = .ok (decide (a.wall < b.wall)) := by
  unfold Env.lt Env.cmp Env.sub
  rw [if_pos (ha.1.trans hb.1.symm)]
  show Except.ok (decide (a.wall - b.wall < 0)) = _
  congr 1
  simp only [decide_eq_decide]
  omega

theorem naive_eq (e : Env) {a b : DT} (ha : Naive a) (hb : Naive b) : e.eq a b = decide (a.wall = b.wall) := by
  unfold Env.eq
  rw [if_pos (ha.1.trans hb.1.symm)]

theorem naive_ext {a b : DT} (ha : Naive a) (hb : Naive b) (h : a.wall = b.wall) : a = b := by
  obtain ⟨w, f, t⟩ := a
  obtain ⟨w', f', t'⟩ := b
  obtain ⟨h1, h2⟩ := ha
  obtain ⟨h3, h4⟩ := hb
  dsimp only at *
  rw [h, h1, h2, h3, h4]

theorem insertDt_ok (e : Env) {x : DT} (hx : Naive x) (l : List DT) (hl : ∀ d ∈ l, Naive d)
    (hs : l.Pairwise fun a b => a.wall ≤ b.wall) :
    ∃ l', insertDt e x l = .ok l' ∧ (l'.Pairwise fun a b => a.wall ≤ b.wall) ∧ ∀ d, d ∈ l' ↔ d = x ∨ d ∈ l := by
  induction l with
  | nil => exact ⟨[x], rfl, List.pairwise_singleton _ _, by simp⟩
  | cons y ys ih =>
    have hy := hl y List.mem_cons_self
    rw [List.pairwise_cons] at hs
    unfold insertDt
    rw [naive_lt e hx hy]
    simp only [bind, Except.bind]
    by_cases h : x.wall < y.wall
    · rw [if_pos (decide_eq_true h)]
      refine ⟨_, rfl, ?_, by simp⟩
      rw [List.pairwise_cons, List.pairwise_cons]
      refine ⟨fun d hd => ?_, hs⟩
      rcases List.mem_cons.1 hd with rfl | hd
      · omega
      · have := hs.1 d hd
        omega
    · rw [if_neg (by simpa using h)]
      obtain ⟨l', h1, h2, h3⟩ := ih (fun d hd => hl d (List.mem_cons_of_mem _ hd)) hs.2
      rw [h1]
      refine ⟨_, rfl, ?_, ?_⟩
      · rw [List.pairwise_cons]
        refine ⟨fun d hd => ?_, h2⟩
        rcases (h3 d).1 hd with rfl | hd
        · omega
        · exact hs.1 d hd
      · intro d
        rw [List.mem_cons, h3, List.mem_cons]
        tauto

theorem sortDts_ok (e : Env) (xs acc : List DT) (ha : ∀ d ∈ acc, Naive d) (hx : ∀ d ∈ xs, Naive d)
    (hs : acc.Pairwise fun a b => a.wall ≤ b.wall) :
    ∃ l, sortDts e acc xs = .ok l ∧ (l.Pairwise fun a b => a.wall ≤ b.wall) ∧ ∀ d, d ∈ l ↔ d ∈ acc ∨ d ∈ xs := by
  induction xs generalizing acc with
  | nil => exact ⟨acc, rfl, hs, by simp⟩
  | cons x xs ih =>
    obtain ⟨l', h1, h2, h3⟩ := insertDt_ok e (hx x List.mem_cons_self) acc ha hs
    obtain ⟨l, h4, h5, h6⟩ := ih l' (fun d hd => by
        rcases (h3 d).1 hd with rfl | hd
        · exact hx _ List.mem_cons_self
        · exact ha d hd) (fun d hd => hx d (List.mem_cons_of_mem _ hd)) h2
    refine ⟨l, ?_, h5, fun d => ?_⟩
    · rw [sortDts, h1]
      exact h4
    · rw [h6, h3, List.mem_cons]
      tauto

theorem uniqueFrom_ok (e : Env) (l : List DT) (k : DT) (hk : Naive k) (hl : ∀ d ∈ l, Naive d)
    (hs : (k :: l).Pairwise fun a b => a.wall ≤ b.wall) :
    ((k :: uniqueFrom e k l).Pairwise fun a b => a.wall < b.wall) ∧ ∀ d, d ∈ k :: uniqueFrom e k l ↔ d ∈ k :: l := by
  induction l generalizing k with
  | nil => exact ⟨List.pairwise_singleton _ _, fun _ => Iff.rfl⟩
  | cons y ys ih =>
    have hy := hl y List.mem_cons_self
    have hl' := fun d hd => hl d (List.mem_cons_of_mem _ hd)
    rw [List.pairwise_cons, List.pairwise_cons] at hs
    obtain ⟨hk', hy', hs⟩ := hs
    unfold uniqueFrom
    rw [naive_eq e hk hy]
    by_cases h : k.wall = y.wall
    · rw [if_pos (decide_eq_true h)]
      obtain ⟨h1, h2⟩ := ih k hk hl' (by
        rw [List.pairwise_cons]
        exact ⟨fun d hd => hk' d (List.mem_cons_of_mem _ hd), hs⟩)
      refine ⟨h1, fun d => ?_⟩
      rw [h2, List.mem_cons, List.mem_cons, List.mem_cons, naive_ext hk hy h]
      tauto
    · rw [if_neg (by simpa using h)]
      obtain ⟨h1, h2⟩ := ih y hy hl' (by
        rw [List.pairwise_cons]
        exact ⟨hy', hs⟩)
      refine ⟨?_, fun d => ?_⟩
      · rw [List.pairwise_cons]
        refine ⟨fun d hd => ?_, h1⟩
        have hky := hk' y List.mem_cons_self
        rcases List.mem_cons.1 ((h2 d).1 hd) with rfl | hd
        · omega
        · have := hy' d hd
          omega
      · rw [List.mem_cons, h2, List.mem_cons (a := d) (b := k)]

theorem uniqueJustseen_ok (e : Env) (l : List DT) (hl : ∀ d ∈ l, Naive d)
    (hs : l.Pairwise fun a b => a.wall ≤ b.wall) :
    ((uniqueJustseen e l).Pairwise fun a b => a.wall < b.wall) ∧ ∀ d, d ∈ uniqueJustseen e l ↔ d ∈ l := by
  cases l with
  | nil => exact ⟨List.Pairwise.nil, fun _ => Iff.rfl⟩
  | cons k l =>
    exact uniqueFrom_ok e l k (hl k List.mem_cons_self) (fun d hd => hl d (List.mem_cons_of_mem _ hd)) hs

theorem normDates_ok (e : Env) (l : List DT) (hl : ∀ d ∈ l, Naive d) :
    ∃ l', normDates e l = .ok l' ∧ (l'.Pairwise fun a b => a.wall < b.wall) ∧ ∀ d, d ∈ l' ↔ d ∈ l := by
  obtain ⟨m, h1, h2, h3⟩ := sortDts_ok e l [] (fun _ h => absurd h List.not_mem_nil) hl List.Pairwise.nil
  have h3 : ∀ d, d ∈ m ↔ d ∈ l := fun d => by rw [h3]; simp
  obtain ⟨h4, h5⟩ := uniqueJustseen_ok e m (fun d hd => hl d ((h3 d).1 hd)) h2
  refine ⟨_, by rw [normDates, h1]; rfl, h4, fun d => (h5 d).trans (h3 d)⟩

/-- Increasing lists with the same elements are the same. -/
theorem increasing_unique : ∀ (l m : List DT), (l.Pairwise fun a b => a.wall < b.wall) →
    (m.Pairwise fun a b => a.wall < b.wall) → (∀ d, d ∈ l ↔ d ∈ m) → l = m
  | [], [], _, _, _ => rfl
  | [], y :: m, _, _, h => absurd ((h y).2 List.mem_cons_self) List.not_mem_nil
  | x :: l, [], _, _, h => absurd ((h x).1 List.mem_cons_self) List.not_mem_nil
  | x :: l, y :: m, hl, hm, h => by
    rw [List.pairwise_cons] at hl hm
    have hxy : x = y := by
      rcases List.mem_cons.1 ((h x).1 List.mem_cons_self) with e | e
      · exact e
      · rcases List.mem_cons.1 ((h y).2 List.mem_cons_self) with e' | e'
        · exact e'.symm
        · have := hm.1 x e
          have := hl.1 y e'
          omega
    subst hxy
    congr 1
    refine increasing_unique l m hl.2 hm.2 fun d => ⟨fun hd => ?_, fun hd => ?_⟩
    · rcases List.mem_cons.1 ((h d).1 (List.mem_cons_of_mem _ hd)) with e | e
      · have := hl.1 d hd
        rw [e] at this
        omega
      · exact e
    · rcases List.mem_cons.1 ((h d).2 (List.mem_cons_of_mem _ hd)) with e | e
      · have := hm.1 d hd
        rw [e] at this
        omega
      · exact e

theorem plain_naive {L : Lib} {d : DT} (h : PlainTime L d) : Naive d := ⟨h.1, h.2.1⟩

/-- Dates are normalised to the increasing list with the same elements. -/
theorem normDates_eq {L : Lib} {l m : List DT} (hm : PlainDates L m) (h : ∀ d, d ∈ l ↔ d ∈ m) :
    normDates L.toEnv l = .ok m := by
  obtain ⟨l', h1, h2, h3⟩ := normDates_ok L.toEnv l fun d hd => plain_naive (hm.1 d ((h d).1 hd))
  rw [h1, increasing_unique l' m h2 hm.2 fun d => (h3 d).trans (h d)]

end Ics
