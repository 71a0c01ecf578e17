import Verif.Proofs.Person
import Verif.Props.Contentline

/-!
# C48: the properties of attendees and organizers
-/
namespace Ics

/-- C48: through any history of reading, assigning and deleting properties, starting from any parameters,
all results are those of independent variables, and so is what every property finally reads. -/
theorem C48_history (k : UrlChecks) (extra : Params) (hu : (extra.map Prod.fst).Nodup) (ops : List PersonOp)
    (hp : ∀ op ∈ ops, op.Proper k) :
    (personRun k extra ops).2 = (PersonVars.run (fun a => personGet k extra a) ops).2 ∧
    ∀ a, personGet k (personRun k extra ops).1 a = (PersonVars.run (fun a => personGet k extra a) ops).1 a := by
  obtain ⟨h1, h2⟩ := person_run ops hp (extra := extra) hu
  exact ⟨h1, fun a => congrFun h2 a⟩

/-- Checks that accept everything, for examples. -/
def exChecks : UrlChecks := ⟨fun _ => true, fun _ => true⟩

/-- The URL `mailto:a@b.c`. -/
def exMail : Url := { scheme := "mailto".toList, path := "a@b.c".toList }

/-- A history with two values, an overwritten default, a deletion and readings in between. -/
def exPersonOps : List PersonOp :=
  [.get .role, .set .role (.one (.text ⟨false, "CHAIR".toList⟩)), .set .member (.many [.url exMail, .url {}, .url exMail]),
    .get .member, .set .rsvp (.one (.bool true)), .get .role, .del .role, .get .role, .get .rsvp, .get .directory]

example : ∀ op ∈ exPersonOps, op.Proper exChecks := by
  have h1 : urlparse exChecks exMail.geturl = .ok exMail := by decide +kernel
  have h2 : urlparse exChecks ({} : Url).geturl = .ok {} := by decide +kernel
  intro op h
  simp only [exPersonOps, List.mem_cons, List.not_mem_nil, or_false] at h
  rcases h with rfl | rfl | rfl | rfl | rfl | rfl | rfl | rfl | rfl | rfl <;>
    simp [PersonOp.Proper, PersonAttr.multi, PersonAttr.conv, PropVal.Fits, h1, h2]

example : (personRun exChecks [("X-A".toList, [])] exPersonOps).2 =
    [.ok (.one (.text ⟨false, "REQ-PARTICIPANT".toList⟩)), .ok .null, .ok .null,
      .ok (.many [.url exMail, .url {}, .url exMail]), .ok .null, .ok (.one (.text ⟨false, "CHAIR".toList⟩)), .ok .null,
      .ok (.one (.text ⟨false, "REQ-PARTICIPANT".toList⟩)), .ok (.one (.bool true)), .ok .null] := by
  decide +kernel

/-- C48: whatever is assigned to a property — also a value it is not meant for — no other property changes. -/
theorem C48_independent (k : UrlChecks) (extra extra' : Params) (a b : PersonAttr) (hab : b ≠ a) (d : PropData)
    (h : personSet extra a d = .ok extra') : personGet k extra' b = personGet k extra b := by
  obtain ⟨ps, rfl⟩ := personSet_shape h
  exact personGet_congr k (dictGet_set_ne _ _ (param_ne hab))

example : ∃ x, personSet [("CN".toList, [⟨true, "x".toList⟩])] .rsvp (.one (.text ⟨false, "yes".toList⟩)) = .ok x := by
  exact ⟨_, rfl⟩

/-- C48, defaults (RFC 5545, 3.2): a property whose parameter is missing reads as its default, or as `None`. -/
theorem C48_defaults (k : UrlChecks) (extra : Params) :
    ("CUTYPE".toList ∉ extra.map Prod.fst →
      personGet k extra .userType = .ok (.one (.text ⟨false, "INDIVIDUAL".toList⟩))) ∧
    ("ROLE".toList ∉ extra.map Prod.fst →
      personGet k extra .role = .ok (.one (.text ⟨false, "REQ-PARTICIPANT".toList⟩))) ∧
    ("PARTSTAT".toList ∉ extra.map Prod.fst →
      personGet k extra .status = .ok (.one (.text ⟨false, "NEEDS-ACTION".toList⟩))) ∧
    ("RSVP".toList ∉ extra.map Prod.fst → personGet k extra .rsvp = .ok (.one (.bool false))) ∧
    ("SENT-BY".toList ∉ extra.map Prod.fst → personGet k extra .sentBy = .ok .null) ∧
    ("CN".toList ∉ extra.map Prod.fst → personGet k extra .commonName = .ok .null) ∧
    ("DIR".toList ∉ extra.map Prod.fst → personGet k extra .directory = .ok .null) ∧
    ("MEMBER".toList ∉ extra.map Prod.fst → personGet k extra .member = .ok .null) ∧
    ("DELEGATED-TO".toList ∉ extra.map Prod.fst → personGet k extra .delegatedTo = .ok .null) ∧
    ("DELEGATED-FROM".toList ∉ extra.map Prod.fst → personGet k extra .delegatedFrom = .ok .null) := by
  have key : ∀ a : PersonAttr, a.param ∉ extra.map Prod.fst → personGet k extra a = .ok (.ofDefault a.default) := by
    intro a h
    have : dictGet? extra a.param = none := dictGet_eq_none.2 h
    simp only [personGet, this]
  exact ⟨key .userType, key .role, key .status, key .rsvp, key .sentBy, key .commonName, key .directory,
    key .member, key .delegatedTo, key .delegatedFrom⟩

example : "ROLE".toList ∉ ([("CN".toList, [⟨true, "x".toList⟩])] : Params).map Prod.fst := by decide +kernel

/-- C48: parameters that belong to no property are never touched. -/
theorem C48_other_params (k : UrlChecks) (extra : Params) (n : Str) (hn : ∀ a : PersonAttr, n ≠ a.param)
    (ops : List PersonOp) : dictGet? (personRun k extra ops).1 n = dictGet? extra n :=
  person_frame hn ops extra

example : ∀ a : PersonAttr, "LANGUAGE".toList ≠ a.param := by intro a; cases a <;> decide +kernel

/-- C48, writing and reading: if the line of a person is writable (see C02), the person read from the text
has the same e-mail address and the same parameters up to quotation marks; text and boolean properties read
the same, and so do URI properties none of whose values contains a colon, semicolon or comma.
What is missing is the statement for the other URIs, see `C48_uri_fails`. -/
theorem C48_survive_partial (k : UrlChecks) (name : Str) (u : Url) (extra : Params)
    (h : WritableLine ⟨name, extra, u.geturl⟩) (hu : urlparse k u.geturl = .ok u) :
    ∃ extra', personReread k name u extra = .ok (u, extra') ∧ unquoteParams extra' = unquoteParams extra ∧
      ∀ a : PersonAttr,
        (a.conv ≠ .uri → (personGet k extra' a).map PropData.plain = (personGet k extra a).map PropData.plain) ∧
        ((∀ p ∈ extra, p.1 = a.param → ∀ v ∈ p.2, v.quoted = false ∧ ':' ∉ v.text ∧ ';' ∉ v.text ∧ ',' ∉ v.text) →
          personGet k extra' a = personGet k extra a) := by
  refine ⟨normParams extra, personReread_eq h hu, ?_, fun a => ⟨fun ha => get_norm ha h.nocr, fun hq => ?_⟩⟩
  · have := unquote_norm h
    simp only [normLine, mkContentLine, ContentLine.unquote, ContentLine.mk.injEq] at this
    exact this.2.1
  · apply get_norm_plain
    intro ps hg v hv
    have hm := mem_of_dictGet hg
    obtain ⟨h1, h2, h3, h4⟩ := hq _ hm rfl v hv
    refine ⟨h1, ?_, h.nocr _ hm v hv⟩
    simp only [needsQuote, List.any_eq_false, Bool.or_eq_true, beq_iff_eq]
    rintro c hc ((rfl | rfl) | rfl)
    · exact h2 hc
    · exact h3 hc
    · exact h4 hc

/-- The parameters of an attendee. -/
def exPersonParams : Params :=
  [("CN".toList, [⟨false, "Doe, \"Jo\"".toList⟩]), ("RSVP".toList, [⟨false, "TRUE".toList⟩]),
    ("DIR".toList, [⟨false, "people/jo".toList⟩]), ("MEMBER".toList, [⟨false, "mailto:x@y.z".toList⟩])]

example : WritableLine ⟨"ATTENDEE".toList, exPersonParams, exMail.geturl⟩ := .of_check (by decide +kernel)

/-- C48 is false for URIs: a URI property that can be read and has a value with a colon, semicolon or
comma raises an `AttributeError` when it is read from the person that was written and read again. -/
theorem C48_uri_fails (k : UrlChecks) (name : Str) (u : Url) (extra : Params)
    (h : WritableLine ⟨name, extra, u.geturl⟩) (hu : urlparse k u.geturl = .ok u)
    (a : PersonAttr) (ha : a.conv = .uri) (d : PropData) (hd : personGet k extra a = .ok d)
    (v : PVal) (ps : List PVal) (hps : (a.param, ps) ∈ extra) (hv : v ∈ ps)
    (hq : ':' ∈ v.text ∨ ';' ∈ v.text ∨ ',' ∈ v.text) :
    ∃ extra', personReread k name u extra = .ok (u, extra') ∧ personGet k extra' a = .error .attributeError := by
  refine ⟨_, personReread_eq h hu, get_norm_uri ha h.nocr hd (dictGet_of_mem h.distinct hps) hv ?_⟩
  simp only [needsQuote, List.any_eq_true, Bool.or_eq_true, beq_iff_eq]
  rcases hq with hq | hq | hq
  · exact ⟨_, hq, .inl (.inl rfl)⟩
  · exact ⟨_, hq, .inl (.inr rfl)⟩
  · exact ⟨_, hq, .inr rfl⟩

example : (PersonAttr.member.param, [(⟨false, "mailto:x@y.z".toList⟩ : PVal)]) ∈ exPersonParams ∧
    personGet exChecks exPersonParams .member =
      .ok (.many [.url { scheme := "mailto".toList, path := "x@y.z".toList }]) := by
  decide +kernel

example : (personReread exChecks "ATTENDEE".toList exMail exPersonParams).bind (fun r => personGet exChecks r.2 .member) =
    .error .attributeError := by decide +kernel

/-- C48 is false for empty values: after an empty text is assigned to a text property, or an empty list to a
multi-valued one, the written line cannot be read at all. -/
theorem C48_empty_fails (k : UrlChecks) (name : Str) (u : Url) (extra extra' : Params) (a : PersonAttr) (d : PropData)
    (hd : d = .one (.text ⟨false, []⟩) ∧ a.conv = .raw ∨ d = .many [] ∧ a.multi = true)
    (hname : ∀ c ∈ name, c ≠ ':' ∧ c ≠ ';') (hu : (extra.map Prod.fst).Nodup)
    (hp : ∀ p ∈ extra, ∀ c ∈ p.1, c ≠ '=' ∧ c ≠ ':' ∧ c ≠ ';')
    (hset : personSet extra a d = .ok extra') : personReread k name u extra' = .error .parseError := by
  obtain ⟨ps, hx, hbad⟩ : ∃ ps, extra' = dictSet extra a.param ps ∧ (ps = [] ∨ ps = [⟨false, []⟩]) := by
    rcases hd with ⟨rfl, ha⟩ | ⟨rfl, ha⟩
    · have hm : a.multi = false := by cases a <;> first | rfl | exact absurd ha (by decide)
      simp only [personSet, hm, ha, PConv.serialize, bind, Except.bind] at hset
      cases hset
      exact ⟨_, rfl, .inr rfl⟩
    · simp only [personSet, ha, PropData.iter, eachM, bind, Except.bind] at hset
      cases hset
      exact ⟨_, rfl, .inl rfl⟩
  have hu' : UniqueKeys extra' := by rw [hx]; exact uniqueKeys_dictSet _ _ hu
  have hmem : (a.param, ps) ∈ extra' := by
    apply mem_of_dictGet
    rw [hx, dictGet_set_eq, if_pos rfl]
  have hdu : dictUpdate ([] : Params) extra' = extra' := by
    have := dictUpdate_nil (d := ([] : Params)) (new := extra') hu'
    simpa using this
  unfold personReread
  rw [hdu, C02_unreadable _ hname]
  · rfl
  · intro p hp'
    rw [hx] at hp'
    rcases mem_dictSet hp' with rfl | hp'
    · have : ∀ b : PersonAttr, b.param.all (fun c => !(c == '=' || c == ':' || c == ';')) = true := by
        intro b; cases b <;> decide +kernel
      intro c hc
      have := List.all_eq_true.1 (this a) c hc
      simp only [Bool.not_eq_true', Bool.or_eq_false_iff, beq_eq_false_iff_ne] at this
      exact ⟨this.1.1, this.1.2, this.2⟩
    · exact hp p hp'
  · exact ⟨_, hmem, hbad.imp id fun e => ⟨[], e⟩⟩

example : personSet exPersonParams .delegatedTo (.many []) = .ok (exPersonParams ++ [("DELEGATED-TO".toList, [])]) := by
  decide +kernel

/-- Properties only know their parameter in capital letters: `cn=…`, which means the same (RFC 5545, 2),
is kept but not found. -/
theorem C48_case_fails :
    (parseLine "ATTENDEE;cn=Jo:mailto:a@b.c".toList).map (fun cl => (cl.params, personGet exChecks cl.params .commonName)) =
      .ok ([("cn".toList, [⟨false, "Jo".toList⟩])], .ok .null) := by decide +kernel

/-- A string assigned to a multi-valued property becomes one value for every character. -/
theorem C48_string_fails (extra : Params) (a : PersonAttr) (ha : a.multi = true) (s : Str) :
    personSet extra a (.one (.text ⟨false, s⟩)) = .ok (dictSet extra a.param (s.map fun c => ⟨false, [c]⟩)) := by
  have hc : a.conv = .uri := by cases a <;> first | rfl | exact absurd ha (by decide)
  have : ∀ l : Str, eachM PConv.uri.serialize (l.map fun c => PropVal.text ⟨false, [c]⟩) =
      .ok (l.map fun c => ⟨false, [c]⟩) := by
    intro l
    induction l with
    | nil => rfl
    | cons c l ih => simp [eachM, ih, PConv.serialize, bind, Except.bind]
  simp [personSet, ha, hc, PropData.iter, this, bind, Except.bind]

example : PersonAttr.member.multi = true := rfl

end Ics
