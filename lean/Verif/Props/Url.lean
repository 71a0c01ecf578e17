import Verif.Proofs.Urlparse
import Verif.Spec.Represent
import Verif.Spec.Contentline

/-
C62: URLs survive being written and read.
-/
namespace Ics

/-- C62: a URL that was read from any text, is written and is read again is the same URL — unless it has a
scheme like `http`, no `//`, and a relative path.  Missing: those URLs, see `C62_slash_fails`. -/
theorem C62_same_partial (k : UrlChecks) (s : Str) (u : Url) (h : urlparse k s = .ok u) (hs : ¬u.Slashless) :
    urlparse k u.geturl = .ok u :=
  urlparse_geturl (urlparse_wf h) hs

/-- C62 is false for the other URLs: the path becomes absolute. -/
theorem C62_slash_fails (k : UrlChecks) (s : Str) (u : Url) (h : urlparse k s = .ok u) (hs : u.Slashless) :
    urlparse k u.geturl = .ok { u with path := '/' :: u.path } := by
  obtain ⟨h1, h2, h3⟩ := slashed_geturl (urlparse_wf h) hs
  rw [← h1]
  exact urlparse_geturl h2 h3

/-- C62: writing and reading twice is writing and reading once. -/
theorem C62_twice (k : UrlChecks) (s : Str) (u : Url) (h : urlparse k s = .ok u) :
    ∃ u', urlparse k u.geturl = .ok u' ∧ urlparse k u'.geturl = .ok u' ∧ u'.geturl = u.geturl := by
  by_cases hs : u.Slashless
  · obtain ⟨h1, h2, h3⟩ := slashed_geturl (urlparse_wf h) hs
    refine ⟨u.slashed, ?_, urlparse_geturl h2 h3, h1⟩
    rw [← h1]
    exact urlparse_geturl h2 h3
  · exact ⟨u, urlparse_geturl (urlparse_wf h) hs, urlparse_geturl (urlparse_wf h) hs, rfl⟩

/-- C62: a URL that was read from any text, also one with line breaks in it, fits on a line. -/
theorem C62_line (k : UrlChecks) (s : Str) (u : Url) (h : urlparse k s = .ok u) : NoBreak u.geturl := by
  obtain ⟨u', h1, h2, h3⟩ := C62_twice k s u h
  have hw := urlparse_wf h
  have key : ∀ c ∈ u.geturl, c ≠ '\r' ∧ c ≠ '\n' := by
    intro c hc
    rcases mem_geturl hc with hc | rfl | rfl | rfl | rfl
    · exact (hw.clean c hc).2
    all_goals decide
  exact ⟨fun hm => (key _ hm).1 rfl, fun hm => (key _ hm).2 rfl⟩

/-- C62: a network location with only one kind of bracket is refused. -/
theorem C62_brackets (k : UrlChecks) (s : Str) (u : Url) (h : urlparse k s = .ok u) : '[' ∈ u.netloc ↔ ']' ∈ u.netloc := by
  have h1 := (urlparse_wf h).valid
  simp only [netlocValid, Bool.and_eq_true, beq_iff_eq] at h1
  rw [← List.contains_iff_mem, ← List.contains_iff_mem, h1.1.1]

/-- C62, what the parts of a URL are: `scheme://netloc/path?query#fragment`. -/
theorem C62_parts (k : UrlChecks) (scheme netloc path query fragment : Str)
    (hs : scheme ≠ [] ∧ ∀ c ∈ scheme, c ∈ "abcdefghijklmnopqrstuvwxyz".toList)
    (hn : netloc ≠ [] ∧ ∀ c ∈ netloc, c.toNat < 128 ∧ c ∉ "/?#[]\t\r\n".toList)
    (hp : ∀ c ∈ path, c ∉ ";?#\t\r\n".toList) (hq : query ≠ [] ∧ ∀ c ∈ query, c ∉ "#\t\r\n".toList)
    (hf : fragment ≠ [] ∧ ∀ c ∈ fragment, c ∉ "\t\r\n".toList) :
    urlparse k (scheme ++ "://".toList ++ netloc ++ '/' :: path ++ '?' :: query ++ '#' :: fragment) =
      .ok ⟨scheme, netloc, '/' :: path, [], query, fragment⟩ := by
  have hsc : SchemeOk scheme := by
    have letters : ∀ c ∈ "abcdefghijklmnopqrstuvwxyz".toList,
        (isAsciiAlpha c && isSchemeChar c && (c.toLower == c)) = true := by
      have : ("abcdefghijklmnopqrstuvwxyz".toList.all fun c => isAsciiAlpha c && isSchemeChar c && (c.toLower == c)) = true := by
        decide +kernel
      exact List.all_eq_true.1 this
    have letters : ∀ c ∈ scheme, isAsciiAlpha c = true ∧ isSchemeChar c = true ∧ c.toLower = c := by
      intro c hc
      have := letters c (hs.2 c hc)
      simp only [Bool.and_eq_true, beq_iff_eq] at this
      exact ⟨this.1.1, this.1.2, this.2⟩
    refine ⟨?_, List.all_eq_true.2 fun c hc => (letters c hc).2.1, ?_⟩
    · cases scheme with
      | nil => exact absurd rfl hs.1
      | cons c l => exact ⟨c, l, rfl, (letters c (by simp)).1⟩
    · conv => rhs; rw [← List.map_id scheme]
      exact List.map_congr_left fun c hc => (letters c hc).2.2
  have hN : ∀ {c}, c ∈ netloc → c ≠ '/' ∧ c ≠ '?' ∧ c ≠ '#' ∧ c ≠ '[' ∧ c ≠ ']' ∧ c ≠ '\t' ∧ c ≠ '\r' ∧ c ≠ '\n' := by
    intro c hc
    have := (hn.2 c hc).2
    simpa [not_or] using this
  have hP : ∀ {c}, c ∈ path → c ≠ ';' ∧ c ≠ '?' ∧ c ≠ '#' ∧ c ≠ '\t' ∧ c ≠ '\r' ∧ c ≠ '\n' := by
    intro c hc
    have := hp c hc
    simpa [not_or] using this
  have hQ : ∀ {c}, c ∈ query → c ≠ '#' ∧ c ≠ '\t' ∧ c ≠ '\r' ∧ c ≠ '\n' := by
    intro c hc
    have := hq.2 c hc
    simpa [not_or] using this
  have hF : ∀ {c}, c ∈ fragment → c ≠ '\t' ∧ c ≠ '\r' ∧ c ≠ '\n' := by
    intro c hc
    have := hf.2 c hc
    simpa [not_or] using this
  have hw : UrlWf k ⟨scheme, netloc, '/' :: path, [], query, fragment⟩ := by
    refine ⟨.inr hsc, fun e => absurd e hs.1, fun e => absurd e hs.1, fun c hc => ⟨(hN hc).1, (hN hc).2.1, (hN hc).2.2.1⟩, ?_,
      fun _ c l e => ?_, ⟨fun hm => ?_, fun hm => ?_⟩, fun _ => ⟨fun hm => ?_, by simp⟩, fun _ => rfl, fun hm => (hQ hm).1 rfl, ?_⟩
    · have h1 : netloc.contains '[' = false := by
        rw [Bool.eq_false_iff]
        intro hc
        exact (hN (List.contains_iff_mem.1 hc)).2.2.2.1 rfl
      have h2 : netloc.contains ']' = false := by
        rw [Bool.eq_false_iff]
        intro hc
        exact (hN (List.contains_iff_mem.1 hc)).2.2.2.2.1 rfl
      have h3 : (netloc.all fun c => decide (c.toNat < 128)) = true :=
        List.all_eq_true.2 fun c hc => by simpa using (hn.2 c hc).1
      simp only [netlocValid, h1, h2, h3]
      rfl
    · have e : '/' :: path = c :: l := e
      cases e
      rfl
    · have hm : '?' ∈ '/' :: path := hm
      rcases List.mem_cons.1 hm with hm | hm
      · revert hm; decide
      · exact (hP hm).2.1 rfl
    · have hm : '#' ∈ '/' :: path := hm
      rcases List.mem_cons.1 hm with hm | hm
      · revert hm; decide
      · exact (hP hm).2.2.1 rfl
    · have hm : ';' ∈ lastSeg ('/' :: path) := hm
      obtain ⟨front, h1, _, _⟩ := lastSeg_split ('/' :: path)
      have hm : ';' ∈ '/' :: path := by rw [h1]; simp [hm]
      rcases List.mem_cons.1 hm with hm | hm
      · revert hm; decide
      · exact (hP hm).1 rfl
    · intro c hc
      simp only [List.mem_append] at hc
      rcases hc with (((hc | hc) | hc) | hc) | hc
      · have := List.all_eq_true.1 hsc.2.1 c hc
        refine ⟨?_, ?_, ?_⟩ <;> rintro rfl <;> revert this <;> decide
      · exact (hN hc).2.2.2.2.2
      · have hc : c ∈ '/' :: path := hc
        rcases List.mem_cons.1 hc with hc | hc
        · rw [hc]; decide
        · exact (hP hc).2.2.2
      · exact (hQ hc).2
      · exact hF hc
  have := urlparse_geturl hw fun hsl => hn.1 hsl.2.2.1
  rw [← this]
  congr 1
  simp [Url.geturl, addNetloc, addPart, hs.1, hn.1, hq.1, hf.1]

/-! ### Examples -/

/-- Checks that accept everything (used in examples). -/
def exUrlChecks : UrlChecks := ⟨fun _ => true, fun _ => true⟩

/-- C62: a text with redundant delimiters, control characters and capital letters. -/
example : ∃ u, urlparse exUrlChecks " HTTP://a.b/c;d\t?#f".toList = .ok u ∧ ¬u.Slashless ∧
    u = ⟨"http".toList, "a.b".toList, "/c".toList, "d".toList, [], "f".toList⟩ ∧ u.geturl = "http://a.b/c;d#f".toList := by
  refine ⟨⟨"http".toList, "a.b".toList, "/c".toList, "d".toList, [], "f".toList⟩, ?_, ?_, rfl, ?_⟩ <;> decide +kernel

/-- C62: `http:foo` becomes `http:///foo`. -/
example : ∃ u, urlparse exUrlChecks "http:foo".toList = .ok u ∧ u.Slashless ∧ u.geturl = "http:///foo".toList ∧
    urlparse exUrlChecks u.geturl ≠ .ok u := by
  refine ⟨⟨"http".toList, [], "foo".toList, [], [], []⟩, ?_, ?_, ?_, ?_⟩ <;> decide +kernel

/-- The hypotheses of `C62_parts` are met. -/
example : (∀ c ∈ "https".toList, c ∈ "abcdefghijklmnopqrstuvwxyz".toList) ∧
    (∀ c ∈ "u@a.b:80".toList, c.toNat < 128 ∧ c ∉ "/?#[]\t\r\n".toList) ∧ (∀ c ∈ "p/q".toList, c ∉ ";?#\t\r\n".toList) := by
  simp

/-- Every URL read from text that is not slashless is representable in the sense of C56. -/
example (L : Lib) (s : Str) (u : Url) (h : urlparse L.urlChecks s = .ok u) (hs : ¬u.Slashless) : RepUrl L u :=
  C62_same_partial L.urlChecks s u h hs

/-- Brackets of both kinds, and of one kind. -/
example (k : UrlChecks) (h : k.hostOk "::1".toList = true) :
    (urlparse k "http://[::1]/x".toList).map Url.netloc = .ok "[::1]".toList ∧
      urlparse k "http://[::1/x".toList = .error .valueError := by
  have e : urlparse k "http://[::1]/x".toList = if k.hostOk "::1".toList = true then
      .ok ⟨"http".toList, "[::1]".toList, "/x".toList, [], [], []⟩ else .error .valueError := by
    have : netlocValid k "[::1]".toList = k.hostOk "::1".toList := by
      show ((true == true) && (false || k.hostOk "::1".toList) && (true || k.nfkcOk _)) = _
      simp
    rw [← this]
    rfl
  rw [e, if_pos h]
  exact ⟨rfl, rfl⟩

end Ics
