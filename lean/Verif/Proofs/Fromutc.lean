import Verif.Model.Fromutc
import Verif.Spec.Fromutc
import Verif.Proofs.Timezone
import Verif.Props.Timezone

/-
Helper lemmas for the conversion into a `Timezone`.
-/
namespace Ics

theorem isDefault_unique {obs : List Observance} {o o' : Observance} (h : IsDefault obs o)
    (h' : IsDefault obs o') : o = o' := by
  rcases h with ⟨i, hi, hd, hj⟩ | ⟨hall, h0⟩
  · rcases h' with ⟨i', hi', hd', hj'⟩ | ⟨hall', -⟩
    · have : i = i' := by
        rcases Nat.lt_trichotomy i i' with h | h | h
        · have := hj' i h o hi; rw [hd] at this; cases this
        · exact h
        · have := hj i' h o' hi'; rw [hd'] at this; cases this
      subst this
      rw [hi] at hi'; injection hi'
    · have := hall' o (List.mem_of_getElem? hi); rw [hd] at this; cases this
  · rcases h' with ⟨i', hi', hd', -⟩ | ⟨-, h0'⟩
    · have := hall o' (List.mem_of_getElem? hi'); rw [hd'] at this; cases this
    · rw [h0] at h0'; injection h0'

theorem reached_first {o : Observance} {w x : Int} : o.Reached w false x ↔ o.rule.occurs x ∧ x ≤ w := by
  unfold Observance.Reached
  constructor
  · rintro ⟨h, h1 | ⟨h1, -⟩⟩
    · exact ⟨h, h1⟩
    · cases h1
  · rintro ⟨h, h1⟩; exact ⟨h, .inl h1⟩

/-- Where the clock `c` is in step, the observance found by its time is the current one. -/
theorem current_found {obs : List Observance} {u c : Int} {o o1 : Observance} (ho : InOrder obs)
    (hs : InStep obs u c) (hc : Current obs u o) (hf : findObservance obs (u + c) false = .ok o1) :
    o1 = o := by
  rcases findObservance_spec hf with ⟨i, x, hi, hx, hall⟩ | ⟨hb, hd⟩
  · have hm := List.mem_of_getElem? hi
    obtain ⟨hx1, hx2⟩ := reached_first.1 hx
    rcases hc with ⟨y, hym, hy, hlast⟩ | ⟨hnone, -⟩
    · have hyw := (hs o hym y hy.1).2 hy.2
      obtain ⟨j, hj⟩ := List.getElem?_of_mem hym
      have hxy : y ≤ x := by
        rcases hall j o y hj (reached_first.2 ⟨hy.1, hyw⟩) with h | ⟨h, -⟩ <;> omega
      have hin := ho o hym o1 hm y x hy.1 hx1 hxy
      rcases hlast o1 hm x ⟨hx1, (hs o1 hm x hx1).1 hx2⟩ with h | ⟨-, h⟩
      · omega
      · exact h
    · exact absurd ⟨hx1, (hs o1 hm x hx1).1 hx2⟩ (hnone o1 hm x)
  · rcases hc with ⟨y, hym, hy, -⟩ | ⟨-, hd'⟩
    · exact absurd (reached_first.2 ⟨hy.1, (hs o hym y hy.1).2 hy.2⟩) (hb o hym y)
    · exact isDefault_unique hd hd'

theorem found_first {obs : List Observance} (h : 2 ≤ obs.length) (w : Int) :
    ∃ o, findObservance obs w false = .ok o :=
  findObservance_ok (by rintro rfl; cases h) fun o _ => by
    unfold Observance.onset; rw [if_neg (by simp)]; exact ⟨_, rfl⟩

theorem default_mem {obs : List Observance} {o : Observance} (h : IsDefault obs o) : o ∈ obs := by
  rcases h with ⟨i, hi, -⟩ | ⟨-, h0⟩
  · exact List.mem_of_getElem? hi
  · exact List.mem_of_getElem? h0

theorem found_mem {obs : List Observance} {w : Int} {f : Bool} {o : Observance}
    (h : findObservance obs w f = .ok o) : o ∈ obs := by
  rcases findObservance_spec h with ⟨i, x, hi, -⟩ | ⟨-, h0⟩
  · exact List.mem_of_getElem? hi
  · exact default_mem h0

/-- The queries of a history, one after the other. -/
theorem tzHistory_snoc {obs : List Observance} (h : List (TzQuery × Int × Bool)) (q : TzQuery) (w : Int)
    (f : Bool) : ∀ cache, tzHistory obs (h ++ [(q, w, f)]) cache =
      (askTz obs q w f (tzHistory obs h cache)).2 := by
  induction h with
  | nil => intro cache; rfl
  | cons a h ih => intro cache; obtain ⟨q', w', f'⟩ := a; exact ih _

/-- What a query with `fold=0` gives after a history that has not asked for the same time with `fold=1`. -/
theorem checked_answer {obs : List Observance} (h2 : 2 ≤ obs.length) {h : List (TzQuery × Int × Bool)}
    {q : TzQuery} {w : Int} {o : Observance} {d : Int} (hh : ∀ q', (q', w, true) ∉ h)
    (hf : findObservance obs w false = .ok o) (ha : o.answer q = .delta d) (h1 : -dayUs < d) (h3 : d < dayUs) :
    checkedDelta obs q w (tzHistory obs h []) = (.ok d, tzHistory obs (h ++ [(q, w, false)]) []) := by
  have e := C37_partial obs h q w false (by
    intro q' f hm
    cases f with
    | false => rfl
    | true => exact absurd hm (hh q'))
  rw [askTz_fresh h2, hf] at e
  rw [tzHistory_snoc]
  unfold checkedDelta
  generalize askTz obs q w false (tzHistory obs h []) = r at e
  obtain ⟨r1, r2⟩ := r
  dsimp only at e
  subst e
  rw [ha]
  exact if_pos ⟨h1, h3⟩

theorem offset_delta (o : Observance) : o.answer .utcoffset = .delta o.offsetTo := rfl

/-- The daylight saving time of an observance: what it adds to standard time. -/
theorem dst_delta (o : Observance) : o.answer .dst = .delta (o.offsetTo - o.standard) := by
  unfold Observance.answer Observance.standard Observance.diff
  dsimp only
  cases o.isDst with
  | true => rfl
  | false => rw [if_neg (by simp), if_neg (by simp)]; congr 1; omega

theorem small_dst {o : Observance} (h : o.Small) : -dayUs < o.offsetTo - o.standard ∧
    o.offsetTo - o.standard < dayUs := by
  obtain ⟨h1, h2, h3, h4⟩ := h
  unfold Observance.standard
  have : (0 : Int) < dayUs := by decide
  split <;> constructor <;> omega

/-- The conversion, given the observances found at the two times that are asked for. -/
theorem zoneFromUtc_found {obs : List Observance} (h2 : 2 ≤ obs.length) {h : List (TzQuery × Int × Bool)}
    {u : Int} {o1 o2 : Observance} (hsm : ∀ o ∈ obs, o.Small) (hu : ∀ q', (q', u, true) ∉ h)
    (hw : ∀ q', (q', u + o1.standard, true) ∉ h)
    (hf1 : findObservance obs u false = .ok o1) (hf2 : findObservance obs (u + o1.standard) false = .ok o2)
    (hr0 : 0 ≤ u + o1.standard) (hr1 : u + o1.standard < maxWall) :
    (zoneFromUtc obs u (tzHistory obs h [])).1 = mkWall (u + o1.standard + (o2.offsetTo - o2.standard)) := by
  have m1 := hsm o1 (found_mem hf1)
  have m2 := hsm o2 (found_mem hf2)
  have ext : ∀ {h : List (TzQuery × Int × Bool)} {w w' : Int} {q : TzQuery}, (∀ q', (q', w, true) ∉ h) →
      ∀ q', (q', w, true) ∉ h ++ [(q, w', false)] := by
    intro h w w' q hn q' hm
    rcases List.mem_append.1 hm with hm | hm
    · exact hn q' hm
    · simp at hm
  unfold zoneFromUtc
  rw [checked_answer h2 hu hf1 (offset_delta o1) m1.1 m1.2.1]
  dsimp only
  rw [checked_answer h2 (ext hu) hf1 (dst_delta o1) (small_dst m1).1 (small_dst m1).2]
  dsimp only
  have e : o1.offsetTo - (o1.offsetTo - o1.standard) = o1.standard := by omega
  rw [e]
  by_cases h0 : o1.standard = 0
  · rw [if_pos h0]
    rw [h0, Int.add_zero] at hf2
    rw [hf1] at hf2
    injection hf2 with hf2
    subst hf2
    rw [h0, Int.add_zero]
  · rw [if_neg h0]
    have ew : mkWall (u + o1.standard) = .ok (u + o1.standard) := if_pos ⟨hr0, hr1⟩
    rw [ew]
    dsimp only
    rw [checked_answer h2 (ext (ext hw)) hf2 (dst_delta o2) (small_dst m2).1 (small_dst m2).2]
    rfl

end Ics
