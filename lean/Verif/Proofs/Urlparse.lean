import Verif.Spec.Url
import Mathlib.Data.List.TakeWhile
import Mathlib.Data.List.TakeDrop

/-
`urlparse` and `geturl`.
-/
namespace Ics

/-! ### Splitting off parts -/

theorem cutAt_app {c : Char} {a b : Str} (h : c ∉ a) : cutAt c (a ++ c :: b) = some (a, b) := by
  induction a with
  | nil => simp [cutAt]
  | cons x a ih =>
    have hx : x ≠ c := fun e => h (by simp [e])
    simp [cutAt, hx, ih fun hm => h (List.mem_cons_of_mem _ hm)]

theorem cutAt_none {c : Char} {a : Str} (h : c ∉ a) : cutAt c a = none := by
  induction a with
  | nil => rfl
  | cons x a ih =>
    have hx : x ≠ c := fun e => h (by simp [e])
    simp [cutAt, hx, ih fun hm => h (List.mem_cons_of_mem _ hm)]

theorem cutAt_cases (c : Char) (s : Str) :
    (c ∉ s ∧ cutAt c s = none) ∨ ∃ a b, c ∉ a ∧ s = a ++ c :: b ∧ cutAt c s = some (a, b) := by
  induction s with
  | nil => exact .inl ⟨by simp, rfl⟩
  | cons x s ih =>
    by_cases hx : x = c
    · subst hx
      exact .inr ⟨[], s, by simp, rfl, by simp [cutAt]⟩
    · rcases ih with ⟨h1, h2⟩ | ⟨a, b, h1, h2, h3⟩
      · exact .inl ⟨by simp [Ne.symm hx, h1], by simp [cutAt, hx, h2]⟩
      · exact .inr ⟨x :: a, b, by simp [Ne.symm hx, h1], by simp [h2], by simp [cutAt, hx, h3]⟩

theorem cutOff_add {c : Char} {a x : Str} (h : c ∉ a) : cutOff c (addPart c a x) = (a, x) := by
  unfold addPart cutOff
  split
  · rename_i hx
    subst hx
    simp [cutAt_none h]
  · simp [cutAt_app h]

theorem cutOff_cases (c : Char) (s : Str) :
    c ∉ (cutOff c s).1 ∧ ((s = (cutOff c s).1 ∧ (cutOff c s).2 = []) ∨ s = (cutOff c s).1 ++ c :: (cutOff c s).2) := by
  unfold cutOff
  rcases cutAt_cases c s with ⟨h1, h2⟩ | ⟨a, b, h1, h2, h3⟩
  · rw [h2]; exact ⟨h1, .inl ⟨rfl, rfl⟩⟩
  · rw [h3]; exact ⟨h1, .inr h2⟩

/-! ### Parameters of the last segment -/

/-- The last segment of a path. -/
def lastSeg (s : Str) : Str := (s.reverse.takeWhile (· ≠ '/')).reverse

theorem lastSeg_split (s : Str) : ∃ front, s = front ++ lastSeg s ∧ (front = [] ∨ ∃ f, front = f ++ ['/']) ∧ '/' ∉ lastSeg s := by
  refine ⟨(s.reverse.dropWhile (· ≠ '/')).reverse, ?_, ?_, ?_⟩
  · unfold lastSeg
    rw [← List.reverse_append, List.takeWhile_append_dropWhile, List.reverse_reverse]
  · rcases h : s.reverse.dropWhile (· ≠ '/') with _ | ⟨c, l⟩
    · exact .inl rfl
    · right
      have := List.head_dropWhile_not (fun c : Char => decide (c ≠ '/')) (l := s.reverse) (by rw [h]; simp)
      simp only [h, List.head_cons] at this
      have hc : c = '/' := by simpa using this
      exact ⟨l.reverse, by simp [hc]⟩
  · unfold lastSeg
    intro hm
    have := List.mem_takeWhile_imp (List.mem_reverse.1 hm)
    simp at this

theorem lastSeg_eq {front last : Str} (hf : front = [] ∨ ∃ f, front = f ++ ['/']) (hl : '/' ∉ last) :
    lastSeg (front ++ last) = last := by
  unfold lastSeg
  rw [List.reverse_append]
  have h1 : ∀ x ∈ last.reverse, decide (x ≠ '/') = true := by
    intro x hx
    have : x ≠ '/' := fun e => hl (e ▸ List.mem_reverse.1 hx)
    simpa using this
  rw [List.takeWhile_append_of_pos h1]
  rcases hf with rfl | ⟨f, rfl⟩
  · simp
  · simp

theorem splitParams_eq (s : Str) : splitParams s =
    match cutAt ';' (lastSeg s) with
    | none => (s, [])
    | some (a, b) => (s.take (s.length - (lastSeg s).length) ++ a, b) := rfl

theorem splitParams_add {path params : Str} (h : ';' ∉ lastSeg path) (hp : '/' ∉ params) :
    splitParams (addPart ';' path params) = (path, params) := by
  obtain ⟨front, h1, h2, h3⟩ := lastSeg_split path
  unfold addPart
  split
  · rename_i hx
    subst hx
    rw [splitParams_eq, cutAt_none h]
  · have hl : lastSeg (path ++ ';' :: params) = lastSeg path ++ ';' :: params := by
      conv => lhs; rw [h1, List.append_assoc]
      exact lastSeg_eq h2 (by simp [h3, hp])
    rw [splitParams_eq, hl, cutAt_app h]
    simp only [Prod.mk.injEq, and_true]
    have : (path ++ ';' :: params).take ((path ++ ';' :: params).length - (lastSeg path ++ ';' :: params).length) = front := by
      conv => lhs; rw [h1]
      rw [show (front ++ lastSeg path ++ ';' :: params).length - (lastSeg (front ++ lastSeg path) ++ ';' :: params).length = front.length by
        rw [← h1]
        have := congrArg List.length h1
        simp only [List.length_append] at this ⊢
        omega]
      rw [List.append_assoc]
      exact List.take_left
    rw [this]
    exact h1.symm

theorem splitParams_cases (s : Str) :
    ';' ∉ lastSeg (splitParams s).1 ∧ '/' ∉ (splitParams s).2 ∧
      ((s = (splitParams s).1 ∧ (splitParams s).2 = []) ∨ s = (splitParams s).1 ++ ';' :: (splitParams s).2) := by
  obtain ⟨front, h1, h2, h3⟩ := lastSeg_split s
  rw [splitParams_eq]
  rcases cutAt_cases ';' (lastSeg s) with ⟨h4, h5⟩ | ⟨a, b, h4, h5, h6⟩
  · rw [h5]
    exact ⟨h4, by simp, .inl ⟨rfl, rfl⟩⟩
  · rw [h6]
    have ht : s.take (s.length - (lastSeg s).length) = front := by
      conv => lhs; arg 2; rw [h1]
      have := congrArg List.length h1
      rw [List.length_append] at this
      rw [show s.length - (lastSeg s).length = front.length by omega]
      exact List.take_left
    dsimp only
    rw [ht]
    have ha : '/' ∉ a := fun hm => h3 (by rw [h5]; simp [hm])
    refine ⟨?_, fun hm => h3 (by rw [h5]; simp [hm]), .inr ?_⟩
    · rw [lastSeg_eq h2 ha]; exact h4
    · rw [List.append_assoc, ← h5]; exact h1

/-! ### Network locations -/

theorem takeNetloc_cases (s : Str) :
    ((∀ c ∈ (takeNetloc s).1, c ≠ '/' ∧ c ≠ '?' ∧ c ≠ '#')) ∧
    ((s = '/' :: '/' :: ((takeNetloc s).1 ++ (takeNetloc s).2) ∧
        ∀ c l, (takeNetloc s).2 = c :: l → c = '/' ∨ c = '?' ∨ c = '#') ∨
      ((takeNetloc s).1 = [] ∧ (takeNetloc s).2 = s ∧ ∀ t, s ≠ '/' :: '/' :: t)) := by
  by_cases h : ∃ t, s = '/' :: '/' :: t
  · obtain ⟨t, rfl⟩ := h
    simp only [takeNetloc, splitNetloc, List.span_eq_takeWhile_dropWhile]
    refine ⟨fun c hc => ?_, .inl ⟨by simp [List.takeWhile_append_dropWhile], fun c l hl => ?_⟩⟩
    · simpa using List.mem_takeWhile_imp hc
    · have := List.head_dropWhile_not (fun c : Char => decide (c ≠ '/' ∧ c ≠ '?' ∧ c ≠ '#')) (l := t) (by rw [hl]; simp)
      simp only [hl, List.head_cons] at this
      by_contra hc
      simp only [not_or] at hc
      simp [hc] at this
  · have ht : takeNetloc s = ([], s) := by
      unfold takeNetloc
      split
      · exact absurd ⟨_, rfl⟩ h
      · rfl
    rw [ht]
    exact ⟨by simp, .inr ⟨rfl, rfl, fun t e => h ⟨t, e⟩⟩⟩

theorem takeNetloc_app {n r : Str} (hn : ∀ c ∈ n, c ≠ '/' ∧ c ≠ '?' ∧ c ≠ '#')
    (hr : ∀ c l, r = c :: l → c = '/' ∨ c = '?' ∨ c = '#') : takeNetloc ('/' :: '/' :: (n ++ r)) = (n, r) := by
  simp only [takeNetloc, splitNetloc, List.span_eq_takeWhile_dropWhile]
  have h1 : ∀ x ∈ n, decide (x ≠ '/' ∧ x ≠ '?' ∧ x ≠ '#') = true := by
    intro x hx
    simpa using hn x hx
  rw [List.takeWhile_append_of_pos h1, List.dropWhile_append_of_pos h1]
  cases r with
  | nil => simp
  | cons c l =>
    have : decide (c ≠ '/' ∧ c ≠ '?' ∧ c ≠ '#') = false := by
      rcases hr c l rfl with rfl | rfl | rfl <;> decide
    rw [List.takeWhile_cons_of_neg (by simpa using this), List.dropWhile_cons_of_neg (by simpa using this)]
    simp

theorem takeNetloc_none {s : Str} (h : ∀ t, s ≠ '/' :: '/' :: t) : takeNetloc s = ([], s) := by
  unfold takeNetloc
  split
  · exact absurd rfl (h _)
  · rfl

/-! ### Schemes -/

/-- A scheme (in small letters). -/
def SchemeOk (s : Str) : Prop :=
  (∃ c l, s = c :: l ∧ isAsciiAlpha c = true) ∧ s.all isSchemeChar = true ∧ s.map Char.toLower = s

theorem colon_not_scheme : isSchemeChar ':' = false := by decide

theorem splitScheme_app {s r : Str} (h : SchemeOk s) : splitScheme (s ++ ':' :: r) = (s, r) := by
  obtain ⟨⟨c, l, rfl, hc⟩, h2, h3⟩ := h
  have hn : ':' ∉ c :: l := by
    intro hm
    have := List.all_eq_true.1 h2 _ hm
    rw [colon_not_scheme] at this
    cases this
  unfold splitScheme
  rw [cutAt_app hn]
  dsimp only
  rw [if_pos (by rw [hc, h2]; rfl), h3]

theorem toLower_scheme {c : Char} (h : isSchemeChar c = true) :
    isSchemeChar c.toLower = true ∧ c.toLower.toLower = c.toLower ∧ (isAsciiAlpha c = true → isAsciiAlpha c.toLower = true) := by
  have hlt : c.toNat < 128 := by
    simp only [isSchemeChar, Bool.or_eq_true, Bool.and_eq_true, decide_eq_true_eq, Char.le_def, UInt32.le_iff_toNat_le] at h
    have e : c.toNat = c.val.toNat := rfl
    have h1 : 'z'.val.toNat = 122 := rfl
    have h2 : 'Z'.val.toNat = 90 := rfl
    have h3 : '9'.val.toNat = 57 := rfl
    rcases h with ((((⟨_, h⟩ | ⟨_, h⟩) | ⟨_, h⟩) | rfl) | rfl) | rfl
    · omega
    · omega
    · omega
    · decide
    · decide
    · decide
  have key : ∀ n : Fin 128, isSchemeChar (Char.ofNat n.1) = true → isSchemeChar (Char.ofNat n.1).toLower = true ∧
      (Char.ofNat n.1).toLower.toLower = (Char.ofNat n.1).toLower ∧
      (isAsciiAlpha (Char.ofNat n.1) = true → isAsciiAlpha (Char.ofNat n.1).toLower = true) := by decide +kernel
  have := key ⟨c.toNat, hlt⟩
  simp only [Char.ofNat_toNat] at this
  exact this h

theorem splitScheme_cases (s : Str) :
    (splitScheme s = ([], s)) ∨ SchemeOk (splitScheme s).1 ∧ ∃ pre, s = pre ++ ':' :: (splitScheme s).2 ∧ pre.length = (splitScheme s).1.length := by
  unfold splitScheme
  rcases cutAt_cases ':' s with ⟨h1, h2⟩ | ⟨a, b, h1, h2, h3⟩
  · rw [h2]; exact .inl rfl
  · rw [h3]
    cases a with
    | nil => exact .inl rfl
    | cons c l =>
      dsimp only
      split
      · rename_i hc
        right
        rw [Bool.and_eq_true] at hc
        have hall := List.all_eq_true.1 hc.2
        refine ⟨⟨⟨c.toLower, l.map Char.toLower, rfl, (toLower_scheme (hall c (by simp))).2.2 hc.1⟩, ?_, ?_⟩, c :: l, h2, by simp⟩
        · rw [List.all_eq_true]
          intro x hx
          obtain ⟨y, hy, rfl⟩ := List.mem_map.1 hx
          exact (toLower_scheme (hall y hy)).1
        · rw [List.map_map]
          apply List.map_congr_left
          intro y hy
          exact (toLower_scheme (hall y hy)).2.1
      · exact .inl rfl

/-- The text starts with a scheme. -/
def HasScheme (s : Str) : Prop :=
  ∃ c l r, s = (c :: l) ++ ':' :: r ∧ isAsciiAlpha c = true ∧ (c :: l).all isSchemeChar = true

theorem splitScheme_none {s : Str} : splitScheme s = ([], s) ↔ ¬HasScheme s := by
  constructor
  · rintro h ⟨c, l, r, rfl, hc, hall⟩
    have hn : ':' ∉ c :: l := by
      intro hm
      have := List.all_eq_true.1 hall _ hm
      rw [colon_not_scheme] at this
      cases this
    unfold splitScheme at h
    rw [cutAt_app hn] at h
    dsimp only at h
    rw [if_pos (by rw [hc, hall]; rfl)] at h
    cases h
  · intro h
    unfold splitScheme
    rcases cutAt_cases ':' s with ⟨h1, h2⟩ | ⟨a, b, h1, h2, h3⟩
    · rw [h2]
    · rw [h3]
      cases a with
      | nil => rfl
      | cons c l =>
        dsimp only
        split
        · rename_i hc
          rw [Bool.and_eq_true] at hc
          exact absurd ⟨c, l, b, h2, hc.1, hc.2⟩ h
        · rfl

/-- What may follow a path. -/
def PathEnd (r : Str) : Prop := ∀ c l, r = c :: l → c = ';' ∨ c = '?' ∨ c = '#'

theorem hasScheme_app {p r : Str} (hr : PathEnd r) : HasScheme (p ++ r) ↔ HasScheme p := by
  constructor
  · rintro ⟨c, l, t, h, hc, hall⟩
    have hcol : ∀ t', r ≠ ':' :: t' := by
      intro t' e
      rcases hr _ _ e with h | h | h <;> revert h <;> decide
    rcases List.append_eq_append_iff.1 h with ⟨m, h1, h2⟩ | ⟨m, h1, h2⟩
    · cases m with
      | nil => exact absurd h2 (hcol _)
      | cons x m =>
        exfalso
        have hx : isSchemeChar x = true := List.all_eq_true.1 hall x (by rw [h1]; simp)
        rcases hr x _ h2 with rfl | rfl | rfl <;> revert hx <;> decide
    · cases m with
      | nil => exact absurd h2.symm (hcol _)
      | cons x m =>
        rw [List.cons_append, List.cons.injEq] at h2
        exact ⟨c, l, m, by rw [h1, ← h2.1], hc, hall⟩
  · rintro ⟨c, l, t, rfl, hc, hall⟩
    exact ⟨c, l, t ++ r, by simp, hc, hall⟩

theorem not_hasScheme {s : Str} (h : ∀ c l, s = c :: l → isAsciiAlpha c = false) : ¬HasScheme s := by
  rintro ⟨c, l, r, rfl, hc, _⟩
  rw [h c (l ++ ':' :: r) (by simp)] at hc
  cases hc

/-! ### Parsed URLs -/

/-- The path with its parameters. -/
def Url.full (u : Url) : Str := addPart ';' u.path u.params

/-- What `urlparse` returns. -/
structure UrlWf (k : UrlChecks) (u : Url) : Prop where
  scheme : u.scheme = [] ∨ SchemeOk u.scheme
  noScheme : u.scheme = [] → ¬HasScheme u.path
  visible : u.scheme = [] → ∀ c l, u.path = c :: l → 0x20 < c.toNat
  netloc : ∀ c ∈ u.netloc, c ≠ '/' ∧ c ≠ '?' ∧ c ≠ '#'
  valid : netlocValid k u.netloc = true
  abs : u.netloc ≠ [] → ∀ c l, u.full = c :: l → c = '/'
  path : '?' ∉ u.full ∧ '#' ∉ u.full
  seg : u.scheme ∈ usesParams → ';' ∉ lastSeg u.path ∧ '/' ∉ u.params
  noParams : u.scheme ∉ usesParams → u.params = []
  query : '#' ∉ u.query
  clean : ∀ c ∈ u.scheme ++ u.netloc ++ u.full ++ u.query ++ u.fragment, c ≠ '\t' ∧ c ≠ '\r' ∧ c ≠ '\n'

theorem addPart_app (c : Char) (a b x : Str) : addPart c (a ++ b) x = a ++ addPart c b x := by
  unfold addPart
  split <;> simp

theorem mem_addPart {c d : Char} {a x : Str} (h : d ∈ addPart c a x) : d ∈ a ∨ d = c ∨ d ∈ x := by
  unfold addPart at h
  split at h
  · exact .inl h
  · simpa using h

/-- Query and fragment after a text. -/
def addTail (u : Url) (f : Str) : Str := addPart '#' (addPart '?' f u.query) u.fragment

theorem addTail_app (u : Url) (a b : Str) : addTail u (a ++ b) = a ++ addTail u b := by
  simp only [addTail, addPart_app]

theorem addTail_end (u : Url) (f : Str) : ∃ r, addTail u f = f ++ r ∧ ∀ c l, r = c :: l → c = '?' ∨ c = '#' := by
  unfold addTail addPart
  split <;> split
  · exact ⟨[], by simp, by simp⟩
  · exact ⟨_, rfl, by rintro c l h; cases h; simp⟩
  · exact ⟨_, rfl, by rintro c l h; cases h; simp⟩
  · exact ⟨_, List.append_assoc _ _ _, by rintro c l h; cases h; simp⟩

theorem full_end (u : Url) : ∃ r, u.full = u.path ++ r ∧ PathEnd r := by
  unfold Url.full addPart
  split
  · exact ⟨[], by simp, by intro c l h; cases h⟩
  · exact ⟨_, rfl, by intro c l h; cases h; simp⟩

theorem geturl_eq (u : Url) : u.geturl =
    (if u.scheme = [] then [] else u.scheme ++ [':']) ++ addTail u (addNetloc u.scheme u.netloc u.full) := by
  unfold Url.geturl
  dsimp only
  split
  · rfl
  · rw [List.append_assoc, ← addTail_app, ← addTail_app]
    rfl

theorem addNetloc_eq {k : UrlChecks} {u : Url} (h : UrlWf k u) (hs : ¬u.Slashless) :
    (addNetloc u.scheme u.netloc u.full = '/' :: '/' :: (u.netloc ++ u.full) ∧ ∀ c l, u.full = c :: l → c = '/') ∨
    (addNetloc u.scheme u.netloc u.full = u.full ∧ u.netloc = [] ∧ ∀ t, u.full ≠ '/' :: '/' :: t) := by
  unfold addNetloc
  by_cases hc : u.netloc ≠ [] ∨ (u.scheme ≠ [] ∧ u.scheme ∈ usesNetloc) ∨ u.full.take 2 = ['/', '/']
  · rw [if_pos hc]
    have hf : ∀ c l, u.full = c :: l → c = '/' := by
      intro c l e
      rcases hc with hn | hn | hn
      · exact h.abs hn c l e
      · by_contra hne
        by_cases hnet : u.netloc = []
        · refine hs ⟨hn.1, hn.2, hnet, ?_, ?_⟩
          · by_contra hpp
            simp only [not_or, not_not] at hpp
            simp [Url.full, addPart, hpp] at e
          · intro hh
            obtain ⟨r, hr, _⟩ := full_end u
            rw [hr] at e
            cases hp : u.path with
            | nil => rw [hp] at hh; cases hh
            | cons d m =>
              rw [hp] at hh e
              simp only [List.head?_cons, Option.some.injEq] at hh
              simp only [List.cons_append, List.cons.injEq] at e
              exact hne (e.1 ▸ hh)
        · exact hne (h.abs hnet c l e)
      · rw [e] at hn
        simp only [List.take_succ_cons, List.cons.injEq] at hn
        exact hn.1
    refine .inl ⟨?_, hf⟩
    rw [if_neg]
    · rfl
    · rintro ⟨h1, h2⟩
      cases hfull : u.full with
      | nil => exact h1 hfull
      | cons c l =>
        have := hf c l hfull
        subst this
        rw [hfull] at h2
        exact h2 rfl
  · rw [if_neg hc]
    simp only [not_or, not_not] at hc
    refine .inr ⟨rfl, hc.1, fun t e => hc.2.2 ?_⟩
    rw [e]
    rfl

theorem urlStrip_eq {s : Str} (h1 : ∀ c l, s = c :: l → 0x20 < c.toNat)
    (h2 : ∀ c ∈ s, c ≠ '\t' ∧ c ≠ '\r' ∧ c ≠ '\n') : urlStrip s = s := by
  have : s.dropWhile (fun c => decide (c.toNat ≤ 0x20)) = s := by
    cases s with
    | nil => rfl
    | cons c l =>
      have := h1 c l rfl
      rw [List.dropWhile_cons_of_neg]
      simp only [decide_eq_true_eq]
      omega
  unfold urlStrip
  rw [this]
  exact List.filter_eq_self.2 fun c hc => by simpa using h2 c hc

theorem alpha_visible {c : Char} (h : isAsciiAlpha c = true) : 0x20 < c.toNat := by
  simp only [isAsciiAlpha, Bool.or_eq_true, Bool.and_eq_true, decide_eq_true_eq, Char.le_def, UInt32.le_iff_toNat_le] at h
  have e : c.toNat = c.val.toNat := rfl
  have h1 : 'a'.val.toNat = 97 := rfl
  have h2 : 'A'.val.toNat = 65 := rfl
  omega

/-- Writing a URL and reading it. -/
theorem urlparse_geturl {k : UrlChecks} {u : Url} (h : UrlWf k u) (hs : ¬u.Slashless) : urlparse k u.geturl = .ok u := by
  obtain ⟨r, hr, hend⟩ := full_end u
  obtain ⟨q, hq, hqe⟩ := addTail_end u u.full
  -- the part after the scheme
  have hN := addNetloc_eq h hs
  have hnet : takeNetloc (addTail u (addNetloc u.scheme u.netloc u.full)) = (u.netloc, addTail u u.full) := by
    rcases hN with ⟨h1, h2⟩ | ⟨h1, h2, h3⟩
    · rw [h1, show '/' :: '/' :: (u.netloc ++ u.full) = ('/' :: '/' :: u.netloc) ++ u.full from rfl, addTail_app]
      refine takeNetloc_app h.netloc fun c l e => ?_
      rw [hq] at e
      cases hf : u.full with
      | nil =>
        rw [hf] at e
        exact .inr (hqe c l e)
      | cons d m =>
        rw [hf] at e
        simp only [List.cons_append, List.cons.injEq] at e
        exact .inl (e.1 ▸ h2 d m hf)
    · rw [h1, h2]
      refine takeNetloc_none fun t e => ?_
      rw [hq] at e
      cases hf : u.full with
      | nil =>
        rw [hf] at e
        rcases hqe _ _ e with h | h <;> revert h <;> decide
      | cons d m =>
        rw [hf] at e
        simp only [List.cons_append, List.cons.injEq] at e
        obtain ⟨rfl, e⟩ := e
        cases m with
        | nil => rcases hqe _ _ e with h | h <;> revert h <;> decide
        | cons d' m' =>
          simp only [List.cons_append, List.cons.injEq] at e
          obtain ⟨rfl, e⟩ := e
          exact h3 _ hf
  have hscheme : splitScheme u.geturl = (u.scheme, addTail u (addNetloc u.scheme u.netloc u.full)) := by
    rw [geturl_eq]
    rcases h.scheme with he | he
    · rw [if_pos he, he]
      refine splitScheme_none.2 ?_
      rcases hN with ⟨h1, _⟩ | ⟨h1, _, _⟩
      · rw [he] at h1
        rw [List.nil_append, h1, show '/' :: '/' :: (u.netloc ++ u.full) = ['/', '/'] ++ (u.netloc ++ u.full) from rfl, addTail_app]
        exact not_hasScheme fun c l e => by cases e; decide
      · rw [he] at h1
        rw [List.nil_append, h1, hq, hr, List.append_assoc]
        rw [hasScheme_app]
        · exact h.noScheme he
        · intro c l e
          cases r with
          | nil => exact .inr (hqe c l e)
          | cons d m =>
            cases e
            exact hend _ _ rfl
    · have hne : u.scheme ≠ [] := by
        obtain ⟨⟨c, l, e, _⟩, _⟩ := he
        rw [e]
        simp
      rw [if_neg hne, List.append_assoc]
      exact splitScheme_app he
  have hstrip : urlStrip u.geturl = u.geturl := by
    apply urlStrip_eq
    · intro c l e
      rw [geturl_eq] at e
      rcases h.scheme with he | he
      · rw [if_pos he, List.nil_append] at e
        rcases hN with ⟨h1, _⟩ | ⟨h1, _, _⟩
        · rw [h1, show '/' :: '/' :: (u.netloc ++ u.full) = ['/', '/'] ++ (u.netloc ++ u.full) from rfl, addTail_app] at e
          cases e
          decide
        · rw [h1, hq, hr] at e
          cases hp : u.path with
          | cons d m =>
            rw [hp] at e
            cases e
            exact h.visible he _ _ hp
          | nil =>
            rw [hp, List.nil_append] at e
            cases r with
            | cons d m =>
              cases e
              rcases hend _ _ rfl with h | h | h <;> rw [h] <;> decide
            | nil => rcases hqe _ _ e with h | h <;> rw [h] <;> decide
      · obtain ⟨⟨d, m, e', hd⟩, _⟩ := he
        rw [if_neg (by rw [e']; simp), e'] at e
        cases e
        exact alpha_visible hd
    · intro c hc
      have hcl := h.clean c
      simp only [List.mem_append] at hcl
      rw [geturl_eq] at hc
      have fixed : c = ':' ∨ c = '/' ∨ c = '?' ∨ c = '#' → c ≠ '\t' ∧ c ≠ '\r' ∧ c ≠ '\n' := by
        rintro (rfl | rfl | rfl | rfl) <;> decide
      rw [List.mem_append] at hc
      rcases hc with hc | hc
      · split at hc
        · cases hc
        · rw [List.mem_append, List.mem_singleton] at hc
          rcases hc with hc | hc
          · exact hcl (by simp [hc])
          · exact fixed (by simp [hc])
      · rcases mem_addPart hc with hc | hc | hc
        · rcases mem_addPart hc with hc | hc | hc
          · rcases hN with ⟨h1, _⟩ | ⟨h1, _, _⟩
            · rw [h1, List.mem_cons, List.mem_cons, List.mem_append] at hc
              rcases hc with hc | hc | hc | hc
              · exact fixed (by simp [hc])
              · exact fixed (by simp [hc])
              · exact hcl (by simp [hc])
              · exact hcl (by simp [hc])
            · rw [h1] at hc
              exact hcl (by simp [hc])
          · exact fixed (by simp [hc])
          · exact hcl (by simp [hc])
        · exact fixed (by simp [hc])
        · exact hcl (by simp [hc])
  have hfrag : cutOff '#' (addTail u u.full) = (addPart '?' u.full u.query, u.fragment) := by
    refine cutOff_add fun hm => ?_
    rcases mem_addPart hm with hm | hm | hm
    · exact h.path.2 hm
    · revert hm; decide
    · exact h.query hm
  have hquery : cutOff '?' (addPart '?' u.full u.query) = (u.full, u.query) := cutOff_add h.path.1
  unfold urlparse
  rw [hstrip, hscheme]
  dsimp only
  rw [hnet]
  dsimp only
  rw [if_pos h.valid, hfrag]
  dsimp only
  rw [hquery]
  dsimp only
  by_cases hp : u.scheme ∈ usesParams
  · rw [if_pos hp, show u.full = addPart ';' u.path u.params from rfl, splitParams_add (h.seg hp).1 (h.seg hp).2]
  · have h0 := h.noParams hp
    rw [if_neg hp, show u.full = u.path by simp [Url.full, addPart, h0]]
    dsimp only
    rw [← h0]

theorem cutOff_end (c : Char) (s : Str) : ∃ r, s = (cutOff c s).1 ++ r ∧ (∀ d l, r = d :: l → d = c) ∧
    (∀ d ∈ (cutOff c s).2, d ∈ s) := by
  rcases (cutOff_cases c s).2 with ⟨h1, h2⟩ | h1
  · exact ⟨[], by rw [List.append_nil]; exact h1, by simp, by rw [h2]; simp⟩
  · refine ⟨_, h1, ?_, fun d hd => ?_⟩
    · intro d l e; cases e; rfl
    · rw [h1]; simp [hd]

theorem urlStrip_head {s : Str} {c : Char} {l : Str} (h : urlStrip s = c :: l) : 0x20 < c.toNat := by
  unfold urlStrip at h
  cases hd : s.dropWhile (fun c => decide (c.toNat ≤ 0x20)) with
  | nil => rw [hd] at h; cases h
  | cons d m =>
    have hv := List.head_dropWhile_not (fun c : Char => decide (c.toNat ≤ 0x20)) (l := s) (by rw [hd]; simp)
    simp only [hd, List.head_cons, decide_eq_false_iff_not, Nat.not_le] at hv
    rw [hd, List.filter_cons_of_pos] at h
    · cases h
      exact hv
    · simp only [decide_eq_true_eq]
      refine ⟨?_, ?_, ?_⟩ <;> rintro rfl <;> revert hv <;> decide

theorem urlStrip_clean {s : Str} {c : Char} (h : c ∈ urlStrip s) : c ≠ '\t' ∧ c ≠ '\r' ∧ c ≠ '\n' := by
  unfold urlStrip at h
  simpa using (List.mem_filter.1 h).2

theorem schemeOk_ne {s : Str} (h : SchemeOk s) : s ≠ [] := by
  obtain ⟨⟨c, l, e, _⟩, _⟩ := h
  rw [e]
  simp

/-- Everything `urlparse` returns has the parts it should have. -/
theorem urlparse_wf {k : UrlChecks} {s : Str} {u : Url} (h : urlparse k s = .ok u) : UrlWf k u := by
  unfold urlparse at h
  obtain ⟨s0, h0⟩ : ∃ s0, urlStrip s = s0 := ⟨_, rfl⟩
  rw [h0] at h
  obtain ⟨sc, s1, h1⟩ : ∃ a b, splitScheme s0 = (a, b) := ⟨_, _, rfl⟩
  rw [h1] at h
  dsimp only at h
  obtain ⟨n, s2, h2⟩ : ∃ a b, takeNetloc s1 = (a, b) := ⟨_, _, rfl⟩
  rw [h2] at h
  dsimp only at h
  split at h
  case isFalse => cases h
  rename_i hvalid
  obtain ⟨s3, fr, h3⟩ : ∃ a b, cutOff '#' s2 = (a, b) := ⟨_, _, rfl⟩
  rw [h3] at h
  dsimp only at h
  obtain ⟨s4, q, h4⟩ : ∃ a b, cutOff '?' s3 = (a, b) := ⟨_, _, rfl⟩
  rw [h4] at h
  dsimp only at h
  -- the pieces
  have c3 := cutOff_cases '#' s2
  have c4 := cutOff_cases '?' s3
  obtain ⟨r3, e3, p3, m3⟩ := cutOff_end '#' s2
  obtain ⟨r4, e4, p4, m4⟩ := cutOff_end '?' s3
  have cn := takeNetloc_cases s1
  rw [h3] at c3 e3 m3
  rw [h4] at c4 e4 m4
  rw [h2] at cn
  dsimp only at c3 e3 m3 c4 e4 m4 cn
  -- path and parameters
  obtain ⟨pa, pp, hpq, hseg, hnop, hfull⟩ : ∃ pa pp, u = ⟨sc, n, pa, pp, q, fr⟩ ∧
      (sc ∈ usesParams → ';' ∉ lastSeg pa ∧ '/' ∉ pp) ∧ (sc ∉ usesParams → pp = []) ∧
      ∃ r, s4 = addPart ';' pa pp ++ r ∧ ∀ d l, r = d :: l → d = ';' := by
    by_cases hp : sc ∈ usesParams
    · rw [if_pos hp] at h
      have hc := splitParams_cases s4
      refine ⟨(splitParams s4).1, (splitParams s4).2, by cases h; rfl, fun _ => ⟨hc.1, hc.2.1⟩, fun hn => absurd hp hn, ?_⟩
      rcases hc.2.2 with ⟨e1, e2⟩ | e1
      · rw [e2]
        exact ⟨[], by rw [List.append_nil]; exact e1, by simp⟩
      · by_cases hx : (splitParams s4).2 = []
        · rw [hx] at e1 ⊢
          exact ⟨[';'], e1, by intro d l e; cases e; rfl⟩
        · refine ⟨[], ?_, by simp⟩
          unfold addPart
          rw [if_neg hx, List.append_nil]
          exact e1
    · rw [if_neg hp] at h
      exact ⟨s4, [], by cases h; rfl, fun hn => absurd hn hp, fun _ => rfl, [], by simp [addPart], by simp⟩
  subst hpq
  obtain ⟨r5, e5, p5⟩ := hfull
  have hmem4 : ∀ c ∈ addPart ';' pa pp, c ∈ s4 := fun c hc => by rw [e5]; simp [hc]
  have hmem3 : ∀ c ∈ s4, c ∈ s3 := fun c hc => by rw [e4]; simp [hc]
  have hmem2 : ∀ c ∈ s3, c ∈ s2 := fun c hc => by rw [e3]; simp [hc]
  have hmem1 : ∀ c ∈ n ++ s2, c ∈ s1 := by
    intro c hc
    rcases cn.2 with ⟨e, _⟩ | ⟨e1, e2, _⟩
    · rw [e]; simp only [List.mem_cons]; exact .inr (.inr hc)
    · rw [e1, e2] at hc; simpa using hc
  have hmem0 : ∀ c ∈ s1, c ∈ s0 := by
    intro c hc
    rcases splitScheme_cases s0 with e | ⟨_, pre, e, _⟩
    · rw [h1] at e
      cases e
      exact hc
    · rw [h1] at e
      rw [e]; simp [hc]
  have hfe : ∃ r, addPart ';' pa pp = pa ++ r ∧ PathEnd r := full_end ⟨sc, n, pa, pp, q, fr⟩
  obtain ⟨r6, e6, p6⟩ := hfe
  have hs2 : s2 = addPart ';' pa pp ++ (r5 ++ r4 ++ r3) := by
    rw [e3, e4, e5]; simp
  have hpend : PathEnd (r6 ++ (r5 ++ r4 ++ r3)) := by
    intro c l e
    cases r6 with
    | cons d m => cases e; exact p6 _ _ rfl
    | nil =>
      cases r5 with
      | cons d m => cases e; exact .inl (p5 _ _ rfl)
      | nil =>
        cases r4 with
        | cons d m => cases e; exact .inr (.inl (p4 _ _ rfl))
        | nil => exact .inr (.inr (p3 _ _ e))
  have hs2' : s2 = pa ++ (r6 ++ (r5 ++ r4 ++ r3)) := by
    rw [hs2, e6, List.append_assoc]
  have hq4 : '?' ∉ addPart ';' pa pp := fun hm => c4.1 (hmem4 _ hm)
  have hf4 : '#' ∉ addPart ';' pa pp := fun hm => c3.1 (hmem3 _ (hmem4 _ hm))
  -- with an empty scheme nothing is split off
  have hsc : sc = [] → splitScheme s0 = ([], s0) ∧ s1 = s0 := by
    intro e
    rcases splitScheme_cases s0 with h' | ⟨h', _⟩
    · rw [h1] at h'
      cases h'
      exact ⟨h1, rfl⟩
    · rw [h1] at h'
      exact absurd e (schemeOk_ne h')
  refine ⟨?_, ?_, ?_, cn.1, hvalid, ?_, ⟨hq4, hf4⟩, hseg, hnop, ?_, ?_⟩
  · rcases splitScheme_cases s0 with h' | ⟨h', _⟩
    · rw [h1] at h'
      exact .inl (congrArg Prod.fst h')
    · rw [h1] at h'
      exact .inr h'
  · intro e
    obtain ⟨h5, h6⟩ := hsc e
    rcases cn.2 with ⟨_, h7⟩ | ⟨h7, h8, _⟩
    · apply not_hasScheme
      rintro c l hp
      have hp : pa = c :: l := hp
      rw [hs2', hp] at h7
      rcases h7 c _ rfl with rfl | rfl | rfl <;> decide
    · have := splitScheme_none.1 h5
      rw [← h6, ← h8, hs2', hasScheme_app hpend] at this
      exact this
  · intro e c l hp
    have hp : pa = c :: l := hp
    obtain ⟨h5, h6⟩ := hsc e
    rcases cn.2 with ⟨_, h7⟩ | ⟨h7, h8, _⟩
    · rw [hs2', hp] at h7
      rcases h7 c _ rfl with rfl | rfl | rfl <;> decide
    · refine urlStrip_head (s := s) (c := c) (l := l ++ (r6 ++ (r5 ++ r4 ++ r3))) ?_
      rw [h0, ← h6, ← h8, hs2', hp]
      rfl
  · intro hn c l hp
    have hp : addPart ';' pa pp = c :: l := hp
    rcases cn.2 with ⟨_, h7⟩ | ⟨h7, _, _⟩
    · rw [hs2, hp] at h7
      rcases h7 c _ rfl with rfl | rfl | rfl
      · rfl
      · exact absurd (by rw [hp]; simp) hq4
      · exact absurd (by rw [hp]; simp) hf4
    · exact absurd h7 hn
  · exact fun hm => c3.1 (m4 _ hm)
  · intro c hc
    have clean0 : c ∈ s0 → c ≠ '\t' ∧ c ≠ '\r' ∧ c ≠ '\n' := fun hm => urlStrip_clean (s := s) (by rw [h0]; exact hm)
    have clean2 : c ∈ s2 → c ≠ '\t' ∧ c ≠ '\r' ∧ c ≠ '\n' := fun hm => clean0 (hmem0 _ (hmem1 _ (by simp [hm])))
    simp only [List.mem_append] at hc
    rcases hc with (((hc | hc) | hc) | hc) | hc
    · rcases splitScheme_cases s0 with h' | ⟨h', _⟩
      · rw [h1] at h'
        cases h'
        cases hc
      · rw [h1] at h'
        have := List.all_eq_true.1 h'.2.1 c hc
        refine ⟨?_, ?_, ?_⟩ <;> rintro rfl <;> revert this <;> decide
    · exact clean0 (hmem0 _ (hmem1 _ (by simp [show c ∈ n from hc])))
    · exact clean2 (hmem2 _ (hmem3 _ (hmem4 _ hc)))
    · exact clean2 (hmem2 _ (m4 _ hc))
    · exact clean2 (m3 _ hc)

/-- Where the characters of the parts of a URL come from. -/
theorem urlparse_from {k : UrlChecks} {s : Str} {u : Url} (h : urlparse k s = .ok u) :
    ∀ c ∈ u.scheme ++ u.netloc ++ u.full ++ u.query ++ u.fragment, c ∈ s ∨ isSchemeChar c = true := by
  unfold urlparse at h
  obtain ⟨s0, h0⟩ : ∃ s0, urlStrip s = s0 := ⟨_, rfl⟩
  rw [h0] at h
  obtain ⟨sc, s1, h1⟩ : ∃ a b, splitScheme s0 = (a, b) := ⟨_, _, rfl⟩
  rw [h1] at h
  dsimp only at h
  obtain ⟨n, s2, h2⟩ : ∃ a b, takeNetloc s1 = (a, b) := ⟨_, _, rfl⟩
  rw [h2] at h
  dsimp only at h
  split at h
  case isFalse => cases h
  rename_i hvalid
  obtain ⟨s3, fr, h3⟩ : ∃ a b, cutOff '#' s2 = (a, b) := ⟨_, _, rfl⟩
  rw [h3] at h
  dsimp only at h
  obtain ⟨s4, q, h4⟩ : ∃ a b, cutOff '?' s3 = (a, b) := ⟨_, _, rfl⟩
  rw [h4] at h
  dsimp only at h
  -- the pieces
  have c3 := cutOff_cases '#' s2
  have c4 := cutOff_cases '?' s3
  obtain ⟨r3, e3, p3, m3⟩ := cutOff_end '#' s2
  obtain ⟨r4, e4, p4, m4⟩ := cutOff_end '?' s3
  have cn := takeNetloc_cases s1
  rw [h3] at c3 e3 m3
  rw [h4] at c4 e4 m4
  rw [h2] at cn
  dsimp only at c3 e3 m3 c4 e4 m4 cn
  -- path and parameters
  obtain ⟨pa, pp, hpq, hseg, hnop, hfull⟩ : ∃ pa pp, u = ⟨sc, n, pa, pp, q, fr⟩ ∧
      (sc ∈ usesParams → ';' ∉ lastSeg pa ∧ '/' ∉ pp) ∧ (sc ∉ usesParams → pp = []) ∧
      ∃ r, s4 = addPart ';' pa pp ++ r ∧ ∀ d l, r = d :: l → d = ';' := by
    by_cases hp : sc ∈ usesParams
    · rw [if_pos hp] at h
      have hc := splitParams_cases s4
      refine ⟨(splitParams s4).1, (splitParams s4).2, by cases h; rfl, fun _ => ⟨hc.1, hc.2.1⟩, fun hn => absurd hp hn, ?_⟩
      rcases hc.2.2 with ⟨e1, e2⟩ | e1
      · rw [e2]
        exact ⟨[], by rw [List.append_nil]; exact e1, by simp⟩
      · by_cases hx : (splitParams s4).2 = []
        · rw [hx] at e1 ⊢
          exact ⟨[';'], e1, by intro d l e; cases e; rfl⟩
        · refine ⟨[], ?_, by simp⟩
          unfold addPart
          rw [if_neg hx, List.append_nil]
          exact e1
    · rw [if_neg hp] at h
      exact ⟨s4, [], by cases h; rfl, fun hn => absurd hn hp, fun _ => rfl, [], by simp [addPart], by simp⟩
  subst hpq
  obtain ⟨r5, e5, p5⟩ := hfull
  have hmem4 : ∀ c ∈ addPart ';' pa pp, c ∈ s4 := fun c hc => by rw [e5]; simp [hc]
  have hmem3 : ∀ c ∈ s4, c ∈ s3 := fun c hc => by rw [e4]; simp [hc]
  have hmem2 : ∀ c ∈ s3, c ∈ s2 := fun c hc => by rw [e3]; simp [hc]
  have hmem1 : ∀ c ∈ n ++ s2, c ∈ s1 := by
    intro c hc
    rcases cn.2 with ⟨e, _⟩ | ⟨e1, e2, _⟩
    · rw [e]; simp only [List.mem_cons]; exact .inr (.inr hc)
    · rw [e1, e2] at hc; simpa using hc
  have hmem0 : ∀ c ∈ s1, c ∈ s0 := by
    intro c hc
    rcases splitScheme_cases s0 with e | ⟨_, pre, e, _⟩
    · rw [h1] at e
      cases e
      exact hc
    · rw [h1] at e
      rw [e]; simp [hc]
  intro c hc
  have from0 : c ∈ s0 → c ∈ s := by
    intro hm
    rw [← h0] at hm
    exact List.dropWhile_sublist _ |>.subset (List.mem_filter.1 hm).1
  have from2 : c ∈ s2 → c ∈ s := fun hm => from0 (hmem0 _ (hmem1 _ (by simp [hm])))
  simp only [List.mem_append] at hc
  rcases hc with (((hc | hc) | hc) | hc) | hc
  · rcases splitScheme_cases s0 with h' | ⟨h', _⟩
    · rw [h1] at h'
      cases h'
      cases hc
    · rw [h1] at h'
      exact .inr (List.all_eq_true.1 h'.2.1 c hc)
  · exact .inl (from0 (hmem0 _ (hmem1 _ (by simp [show c ∈ n from hc]))))
  · exact .inl (from2 (hmem2 _ (hmem3 _ (hmem4 _ hc))))
  · exact .inl (from2 (hmem2 _ (m4 _ hc)))
  · exact .inl (from2 (m3 _ hc))

theorem mem_geturl {u : Url} {c : Char} (hc : c ∈ u.geturl) :
    c ∈ u.scheme ++ u.netloc ++ u.full ++ u.query ++ u.fragment ∨ c = ':' ∨ c = '/' ∨ c = '?' ∨ c = '#' := by
  rw [geturl_eq, List.mem_append] at hc
  simp only [List.mem_append]
  rcases hc with hc | hc
  · split at hc
    · cases hc
    · rw [List.mem_append, List.mem_singleton] at hc
      rcases hc with hc | hc <;> simp [hc]
  · rcases mem_addPart hc with hc | hc | hc
    · rcases mem_addPart hc with hc | hc | hc
      · unfold addNetloc at hc
        split at hc
        · simp only [List.mem_append, List.mem_cons, List.not_mem_nil, or_false] at hc
          rcases hc with ((hc | hc) | hc) | hc
          · simp [hc]
          · simp [hc]
          · simp [hc]
          · split at hc
            · rcases List.mem_cons.1 hc with hc | hc <;> simp [hc]
            · simp [hc]
        · simp [hc]
      · simp [hc]
      · simp [hc]
    · simp [hc]
    · simp [hc]

theorem geturl_noComma {k : UrlChecks} {s : Str} {u : Url} (h : urlparse k s = .ok u) (hs : ',' ∉ s) : ',' ∉ u.geturl := by
  intro hc
  rcases mem_geturl hc with hc | hc | hc | hc | hc
  · rcases urlparse_from h _ hc with hc | hc
    · exact hs hc
    · revert hc
      decide
  all_goals
    revert hc
    decide

/-- The URL with a slash in front of its path. -/
def Url.slashed (u : Url) : Url := { u with path := '/' :: u.path }

theorem slashed_full (u : Url) : u.slashed.full = '/' :: u.full := by
  simp only [Url.full, Url.slashed]
  exact addPart_app ';' ['/'] u.path u.params

theorem slashed_geturl {k : UrlChecks} {u : Url} (h : UrlWf k u) (hs : u.Slashless) :
    u.slashed.geturl = u.geturl ∧ UrlWf k u.slashed ∧ ¬u.slashed.Slashless := by
  obtain ⟨h1, h2, h3, h4, h5⟩ := hs
  obtain ⟨r, hr, hend⟩ := full_end u
  have hhead : ∃ c l, u.full = c :: l ∧ c ≠ '/' := by
    cases hp : u.path with
    | cons c l =>
      rw [hp] at h5 hr
      exact ⟨c, l ++ r, hr, fun e => h5 (by rw [e]; rfl)⟩
    | nil =>
      have hpar : u.params ≠ [] := by
        rcases h4 with h4 | h4
        · exact absurd hp h4
        · exact h4
      refine ⟨';', u.params, ?_, by decide⟩
      simp [Url.full, addPart, hpar, hp]
  obtain ⟨c, l, hc, hne⟩ := hhead
  refine ⟨?_, ⟨h.scheme, fun e => absurd e h1, fun e => absurd e h1, h.netloc, h.valid, fun hn => absurd h3 hn, ?_, ?_, h.noParams,
    h.query, ?_⟩, fun hs => hs.2.2.2.2 rfl⟩
  · rw [geturl_eq, geturl_eq]
    have : addNetloc u.slashed.scheme u.slashed.netloc u.slashed.full = addNetloc u.scheme u.netloc u.full := by
      rw [slashed_full]
      show addNetloc u.scheme u.netloc ('/' :: u.full) = _
      have e1 : addNetloc u.scheme u.netloc ('/' :: u.full) = ['/', '/'] ++ u.netloc ++ '/' :: u.full := by
        unfold addNetloc
        rw [if_pos (.inr (.inl ⟨h1, h2⟩)), if_neg (by simp)]
      have e2 : addNetloc u.scheme u.netloc u.full = ['/', '/'] ++ u.netloc ++ '/' :: u.full := by
        unfold addNetloc
        rw [if_pos (.inr (.inl ⟨h1, h2⟩)), if_pos]
        rw [hc]
        refine ⟨by simp, fun e => hne ?_⟩
        simpa using e
      rw [e1, e2]
    rw [this]
    rfl
  · rw [slashed_full]
    exact ⟨by simp [h.path.1], by simp [h.path.2]⟩
  · intro hp
    refine ⟨?_, (h.seg hp).2⟩
    show ';' ∉ lastSeg ('/' :: u.path)
    obtain ⟨front, e1, e2, e3⟩ := lastSeg_split u.path
    have : lastSeg ('/' :: u.path) = lastSeg u.path := by
      conv => lhs; rw [e1]
      refine lastSeg_eq (front := '/' :: front) ?_ e3
      rcases e2 with rfl | ⟨f, rfl⟩
      · exact .inr ⟨[], rfl⟩
      · exact .inr ⟨'/' :: f, rfl⟩
    rw [this]
    exact (h.seg hp).1
  · intro d hd
    rw [slashed_full] at hd
    simp only [List.mem_append, List.mem_cons] at hd
    have hcl := h.clean d
    simp only [List.mem_append] at hcl
    rcases hd with (((hd | hd) | hd | hd) | hd) | hd
    · exact hcl (.inl (.inl (.inl (.inl hd))))
    · exact hcl (.inl (.inl (.inl (.inr hd))))
    · rw [hd]; decide
    · exact hcl (.inl (.inl (.inr hd)))
    · exact hcl (.inl (.inr hd))
    · exact hcl (.inr hd)

end Ics
