import Verif.Proofs.Timezone

/-
C36 (the offset of a VTIMEZONE), C37 (queries do not depend on earlier queries).
-/
namespace Ics

/-! ### A zone for the examples -/

/-- Occurrences at `first`, `first + period`, and so on. -/
def Rule.every (first period : Int) (hp : 0 < period) : Rule where
  occurs y := ∃ n : Nat, y = first + n * period
  before t := if first ≤ t then some (t - (t - first) % period) else none
  before_some := by
    intro t x h
    split at h
    · cases h
      have h1 := Int.emod_add_mul_ediv (t - first) period
      have h2 := Int.emod_nonneg (t - first) (Int.ne_of_gt hp)
      have h3 := Int.emod_lt_of_pos (t - first) hp
      have h4 : 0 ≤ (t - first) / period := Int.ediv_nonneg (by omega) (by omega)
      refine ⟨⟨((t - first) / period).toNat, ?_⟩, by omega, ?_⟩
      · rw [Int.toNat_of_nonneg h4, Int.mul_comm]; omega
      · rintro y ⟨n, rfl⟩ hy
        have h5 : (n : Int) ≤ (t - first) / period := by
          rw [Int.le_ediv_iff_mul_le hp]; omega
        have h6 := Int.mul_le_mul_of_nonneg_right h5 (Int.le_of_lt hp)
        rw [Int.mul_comm ((t - first) / period)] at h6
        omega
    · cases h
  before_none := by
    intro t h
    split at h
    · cases h
    · rintro y ⟨n, rfl⟩
      have : 0 ≤ (n : Int) * period := Int.mul_nonneg (by omega) (by omega)
      omega

/-- One hour. -/
def exHour : Int := 3600000000

/-- A zone with daylight saving time: from hour 2 of day 80 of every (simplified) year the clock is one
hour ahead, at hour 3 of day 300 it is turned back.  Days are counted from the beginning of the zone's
first year, at day 10000. -/
def exSummer : Observance := ⟨exHour, 2 * exHour, .every (10080 * dayUs + 2 * exHour) (365 * dayUs) (by decide),
  some "CEST".toList, true⟩

/-- Standard time of the zone. -/
def exWinter : Observance := ⟨2 * exHour, exHour, .every (10300 * dayUs + 3 * exHour) (365 * dayUs) (by decide),
  some "CET".toList, false⟩

/-! ### C36 -/

/-- C36: with at least two observances, whatever a new `Timezone` object answers (offset, daylight
saving, name) is what the observance in force answers: the one whose latest onset reached so far is the
latest of all; before any onset it is the first standard observance. -/
theorem C36_latest (obs : List Observance) (h : 2 ≤ obs.length) (q : TzQuery) (wall : Int) (fold : Bool)
    (a : TzAnswer) (ha : (askTz obs q wall fold []).1 = .ok a) :
    ∃ o, Answers o q a ∧
      (InForce obs wall fold o ∨ BeforeAll obs wall fold ∧ IsDefault obs o) := by
  rw [askTz_fresh h] at ha
  cases hf : findObservance obs wall fold with
  | error e => rw [hf] at ha; cases ha
  | ok o =>
    rw [hf] at ha
    cases ha
    refine ⟨o, ?_, findObservance_spec hf⟩
    cases q <;> rfl

/-- C36: it does answer, if moving the time on by the amount by which clocks are turned back does not
leave the range of date-times. -/
theorem C36_answers (obs : List Observance) (h : 2 ≤ obs.length) (q : TzQuery) (wall : Int) (fold : Bool)
    (h0 : 0 ≤ wall)
    (hr : fold = true → ∀ o ∈ obs, o.offsetTo < o.offsetFrom → wall + (o.offsetFrom - o.offsetTo) < maxWall) :
    ∃ a, (askTz obs q wall fold []).1 = .ok a := by
  rw [askTz_fresh h]
  have hne : obs ≠ [] := by rintro rfl; cases h
  obtain ⟨o, ho⟩ := findObservance_ok (wall := wall) (fold := fold) hne (by
    intro o ho
    unfold Observance.onset
    split
    · rename_i hc
      unfold Observance.diff at hc
      have := hr hc.2 o ho (by omega)
      unfold mkWall Observance.diff
      rw [if_pos ⟨by omega, by omega⟩]
      exact ⟨_, rfl⟩
    · exact ⟨_, rfl⟩)
  rw [ho]
  exact ⟨_, rfl⟩

/-- C36: an observance in force is determined by the zone and the time, so the two theorems above fix
the answer. -/
theorem C36_unique (obs : List Observance) (wall : Int) (fold : Bool) (o o' : Observance)
    (h : InForce obs wall fold o) (h' : InForce obs wall fold o') : o = o' := by
  obtain ⟨i, x, h1, h2, h3⟩ := h
  obtain ⟨i', x', h1', h2', h3'⟩ := h'
  have a := h3 i' o' x' h1' h2'
  have b := h3' i o x h1 h2
  have : i = i' := by omega
  subst this
  rw [h1] at h1'
  cases h1'
  rfl

/-- C36: a zone with a single observance always answers what that observance answers. -/
theorem C36_single (o : Observance) (q : TzQuery) (wall : Int) (fold : Bool)
    (h : List (TzQuery × Int × Bool)) :
    ∃ a, (askTz [o] q wall fold (tzHistory [o] h [])).1 = .ok a ∧ Answers o q a :=
  ⟨o.answer q, rfl, by cases q <;> rfl⟩

/-- Summer, winter, and before the first onset. -/
example : (askTz [exSummer, exWinter] .utcoffset (20150 * dayUs) false []).1 = .ok (.delta (2 * exHour)) ∧
    (askTz [exSummer, exWinter] .tzname (20250 * dayUs) false []).1 = .ok (.name (some "CET".toList)) ∧
    (askTz [exSummer, exWinter] .dst (9000 * dayUs) false []).1 = .ok (.delta 0) := by
  decide +kernel

/-- At half past two in the night of day 300 the clock shows the same time twice. -/
example : (askTz [exSummer, exWinter] .utcoffset (10300 * dayUs + 9000000000) false []).1 =
      .ok (.delta (2 * exHour)) ∧
    (askTz [exSummer, exWinter] .utcoffset (10300 * dayUs + 9000000000) true []).1 =
      .ok (.delta exHour) := by
  decide +kernel

/-! ### C37 -/

/-- C37, partial: after any history of queries in which the wall clock time at hand was only asked for
with the same `fold`, the answer is that of a new object.  Missing: histories that ask for the same wall
clock time with both values of `fold` (`C37_fails`). -/
theorem C37_partial (obs : List Observance) (h : List (TzQuery × Int × Bool)) (q : TzQuery) (wall : Int)
    (fold : Bool) (hh : ∀ q' fold', (q', wall, fold') ∈ h → fold' = fold) :
    (askTz obs q wall fold (tzHistory obs h [])).1 = (askTz obs q wall fold []).1 := by
  have hc : CacheOk obs (fun w f => ∃ q', (q', w, f) ∈ h) (tzHistory obs h []) :=
    tzHistory_cache h [] (by intro k v hk; cases hk) (fun q' w f hm => ⟨q', hm⟩)
  obtain ⟨fold', hf, he⟩ := askTz_either hc q wall fold
  have : fold' = fold := by
    rcases hf with hf | ⟨q', hq⟩
    · exact hf
    · exact hh q' fold' hq
  rw [he, this]

example : ∀ q' fold', (q', (20150 * dayUs : Int), fold') ∈
    ([(.dst, 20250 * dayUs, true), (.utcoffset, 20150 * dayUs, false)] : List (TzQuery × Int × Bool)) →
    fold' = false := by
  intro q' fold' h
  simp only [List.mem_cons, Prod.mk.injEq, List.not_mem_nil, or_false] at h
  rcases h with ⟨-, h, -⟩ | ⟨-, -, h⟩
  · exact absurd h (by decide)
  · exact h

/-- C37, partial: whatever was asked before, the answer is the one a new object gives for the same wall
clock time, with the `fold` at hand or that of an earlier query. -/
theorem C37_either_partial (obs : List Observance) (h : List (TzQuery × Int × Bool)) (q : TzQuery)
    (wall : Int) (fold : Bool) :
    ∃ fold', (fold' = fold ∨ ∃ q', (q', wall, fold') ∈ h) ∧
      (askTz obs q wall fold (tzHistory obs h [])).1 = (askTz obs q wall fold' []).1 :=
  askTz_either (asked := fun w f => ∃ q', (q', w, f) ∈ h)
    (tzHistory_cache h [] (by intro k v hk; cases hk) (fun q' _ _ hm => ⟨q', hm⟩)) q wall fold

/-- C37, partial: for wall clock times that a new object answers alike for both values of `fold`, earlier
queries do not matter at all. -/
theorem C37_unambiguous_partial (obs : List Observance) (h : List (TzQuery × Int × Bool)) (q : TzQuery)
    (wall : Int) (fold : Bool)
    (hu : (askTz obs q wall false []).1 = (askTz obs q wall true []).1) :
    (askTz obs q wall fold (tzHistory obs h [])).1 = (askTz obs q wall fold []).1 := by
  obtain ⟨fold', -, he⟩ := C37_either_partial obs h q wall fold
  rw [he]
  cases fold <;> cases fold' <;> simp [hu]

example : (askTz [exSummer, exWinter] .utcoffset (20150 * dayUs) false []).1 =
    (askTz [exSummer, exWinter] .utcoffset (20150 * dayUs) true []).1 := by decide +kernel

/-- C37 is false: in a zone with daylight saving time, for the hour that the clock shows twice, asking
for the first pass makes the zone answer wrongly for the second pass.  (The cache ignores `fold`.) -/
theorem C37_fails : ∃ (obs : List Observance) (wall : Int),
    (askTz obs .utcoffset wall true []).1 = .ok (.delta exHour) ∧
    (askTz obs .utcoffset wall true (tzHistory obs [(.utcoffset, wall, false)] [])).1 =
      .ok (.delta (2 * exHour)) :=
  ⟨[exSummer, exWinter], 10300 * dayUs + 9000000000, by decide +kernel, by decide +kernel⟩

/-- The cache of a zone never holds more than ten entries. -/
theorem C37_cache_bounded (obs : List Observance) (h : List (TzQuery × Int × Bool)) :
    (tzHistory obs h []).length ≤ 10 :=
  tzHistory_length h [] (by simp)

end Ics
