import Verif.Proofs.Lists

/-
C49: multi-valued properties keep their values and their grouping.
-/
namespace Ics

variable {σ : Type}

theorem listSpec {c : Cls} {n : String} (hn : n ∈ listNames c) :
    ∃ s : AttrSpec, .value s ∈ c.convs ∧ s.multi = true ∧ s.ics = n.toList ∧ s.attr = listAttr n ∧
      ((n = "CATEGORIES" ∧ s.convs = [.text]) ∨ (n = "ATTENDEE" ∧ s.convs = [.attendee]) ∨
        (n = "ATTACH" ∧ s.convs = [.uri, .binary])) := by
  cases c <;> simp only [listNames, List.mem_cons, List.not_mem_nil, or_false] at hn
  case event =>
    rcases hn with rfl | rfl | rfl
    · exact ⟨⟨"categories".toList, "CATEGORIES".toList, true, false, [.text], .list⟩, by decide, rfl, rfl, rfl, by simp⟩
    · exact ⟨⟨"attendees".toList, "ATTENDEE".toList, true, false, [.attendee], .list⟩, by decide, rfl, rfl, rfl, by simp⟩
    · exact ⟨⟨"attach".toList, "ATTACH".toList, true, false, [.uri, .binary], .list⟩, by decide, rfl, rfl, rfl, by simp⟩
  case todo =>
    subst hn
    exact ⟨⟨"attach".toList, "ATTACH".toList, true, false, [.uri, .binary], .list⟩, by decide, rfl, rfl, rfl, by simp⟩
  case emailAlarm =>
    rcases hn with rfl | rfl
    · exact ⟨⟨"attendees".toList, "ATTENDEE".toList, true, false, [.attendee], .any⟩, by decide, rfl, rfl, rfl, by simp⟩
    · exact ⟨⟨"attach".toList, "ATTACH".toList, true, false, [.uri, .binary], .any⟩, by decide, rfl, rfl, rfl, by simp⟩

theorem named_value {s : AttrSpec} {n : String} (h : s.ics = n.toList) (l : List Item) :
    named n l = Conv.own (.value s) l := by
  unfold named Conv.own
  congr 1
  funext i
  simp [Conv.names, h]

theorem splitComma_join {ts : List Str} (hne : ts ≠ []) (h : ∀ t ∈ ts, ',' ∉ t) : splitComma (joinComma ts) = ts := by
  have app : ∀ t s : Str, ',' ∉ t → splitComma (t ++ ',' :: s) = t :: splitComma s := by
    intro t s ht
    induction t with
    | nil => simp [splitComma]
    | cons c t ih =>
      have hc : c ≠ ',' := fun e => ht (by simp [e])
      have := ih fun hm => ht (List.mem_cons_of_mem _ hm)
      simp [splitComma, hc, this]
  have one : ∀ t : Str, ',' ∉ t → splitComma t = [t] := by
    intro t ht
    rcases splitComma_cases t with ⟨_, h⟩ | ⟨h, _⟩
    · exact h
    · exact absurd h ht
  induction ts with
  | nil => exact absurd rfl hne
  | cons t ts ih =>
    cases ts with
    | nil => exact one t (h t List.mem_cons_self)
    | cons t' ts =>
      rw [joinComma_cons _ _ (by simp), app _ _ (h t List.mem_cons_self), ih (by simp) fun x hx =>
        h x (List.mem_cons_of_mem _ hx)]

theorem b64_no_comma (b : List (Fin 256)) : ',' ∉ b64encode b := by
  have key : ∀ n : Nat, ',' ≠ b64Char n := by
    intro n
    unfold b64Char
    split
    · rename_i h
      have : ∀ n < 26, ',' ≠ Char.ofNat (65 + n) := by decide
      exact this n h
    · split
      · rename_i h1 h2
        have : ∀ n < 26, ',' ≠ Char.ofNat (97 + n) := by decide
        exact this (n - 26) (by omega)
      · split
        · rename_i h1 h2 h3
          have : ∀ n < 10, ',' ≠ Char.ofNat (48 + n) := by decide
          exact this (n - 52) (by omega)
        · split <;> decide
  have key2 : ',' ≠ '=' := by decide
  induction b using b64encode.induct <;>
    simp_all [b64encode, List.mem_cons, not_or]

/-- Where VALUE is not among the parameters, nothing is taken away. -/
theorem erase_value {p : Params} (h : "VALUE".toList ∉ p.map Prod.fst) : dictErase p "VALUE".toList = p :=
  dictErase_absent _ _ (dictGet_eq_none.2 h)

theorem goodParams_snoc {p : Params} (h : GoodParams p) (hv : "VALUE".toList ∉ p.map Prod.fst) (v : List PVal) :
    GoodParams (p ++ [("VALUE".toList, v)]) ∧ dictErase (p ++ [("VALUE".toList, v)]) "VALUE".toList = p := by
  refine ⟨⟨?_, ?_⟩, ?_⟩
  · rw [List.map_append, List.nodup_append]
    refine ⟨h.1, by simp, ?_⟩
    intro a ha b hb
    simp only [List.map_cons, List.map_nil, List.mem_singleton] at hb
    subst hb
    exact fun e => hv (e ▸ ha)
  · rw [List.map_append, List.mem_append]
    rintro (hm | hm)
    · exact h.2 hm
    · have hm := List.mem_singleton.1 hm
      exact absurd hm (by show "__merge_next".toList ≠ "VALUE".toList; decide)
  · rw [← dictSet_new _ _ _ hv, dictErase_dictSet, erase_value hv]

theorem listNames_upper : upper "CATEGORIES".toList = "CATEGORIES".toList ∧
    upper "ATTENDEE".toList = "ATTENDEE".toList ∧ upper "ATTACH".toList = "ATTACH".toList := by decide

theorem forall₂_map_unique {α β γ : Type} {P : β → γ → Prop} {f : α → β} {g : α → γ} {ws : List α} {vs : List γ}
    (h : List.Forall₂ P (ws.map f) vs) (hu : ∀ w ∈ ws, ∀ v, P (f w) v → v = g w) : vs = ws.map g := by
  induction ws generalizing vs with
  | nil =>
    cases h
    rfl
  | cons w ws ih =>
    cases h with
    | cons h1 h2 => rw [List.map_cons, hu w List.mem_cons_self _ h1, ih h2 fun x hx => hu x (List.mem_cons_of_mem _ hx)]

theorem done_inj {α : Type} {a b : List α} (h : Gen.done a = Gen.done b) : a = b := by
  cases h
  rfl

/-- Reading and writing one such line. -/
theorem listLine_writes {L : Lib} {n : String} {s : AttrSpec} (hn : s.ics = n.toList)
    (hc : (n = "CATEGORIES" ∧ s.convs = [.text]) ∨ (n = "ATTENDEE" ∧ s.convs = [.attendee]) ∨
        (n = "ATTACH" ∧ s.convs = [.uri, .binary])) {cl : ContentLine} {vs : List (Val σ)}
    (h : ListLine L n (.line cl) vs) {ctx : Ctx} {vals : List (Val σ × Params)} (hr : ReadsLine L s ctx cl vals) :
    vals.map Prod.fst = vs ∧ WritesBack L s cl (markLast vals) := by
  generalize hi : Item.line cl = i at h
  cases h with
  | texts p vs hp hv hne =>
    cases hi
    have hc : s.convs = [.text] := by simpa using hc
    obtain ⟨cv, hcv, ts, vs', hsplit, _, e, hf, _, hw⟩ := plain_line (by rw [hc]; decide) hr hp.2 hp.1
    rw [hc] at hcv hw
    obtain rfl := List.mem_singleton.1 hcv
    have hts : vs.map escapeText = ts := done_inj ((C11_roundtrip vs hne).1.symm.trans hsplit)
    subst hts
    obtain rfl := forall₂_map_unique (g := fun s => Val.text s) hf (fun w _ v hv => by
      have := hv [] none
      simp only [ValConv.parse, C10_roundtrip] at this
      cases this
      rfl)
    refine ⟨e, ?_⟩
    rw [if_pos (by rfl : [ValConv.text].head? = some .text), erase_value hv, hn, mkContentLine, listNames_upper.1, List.map_map] at hw
    exact hw
  | urls p us hp hv hne hu =>
    cases hi
    have hc : s.convs = [.uri, .binary] := by simpa using hc
    obtain ⟨cv, hcv, ts, vs', hsplit, _, e, hf, hprep, hw⟩ := plain_line (by rw [hc]; decide) hr hp.2 hp.1
    rw [hc] at hcv hw hprep
    obtain rfl : ValConv.uri = cv := by
      simp only [prepareParams, dictGet_eq_none.2 hv] at hprep
      cases hprep
      rfl
    have hts : us.map Url.geturl = ts := by
      refine Eq.trans (splitComma_join (by simpa using hne) ?_).symm (done_inj hsplit)
      intro t ht
      obtain ⟨u, hu', rfl⟩ := List.mem_map.1 ht
      exact (hu u hu').1
    subst hts
    obtain rfl := forall₂_map_unique (g := fun u => Val.url u) hf (fun w hw v hv => by
      have := hv [] none
      simp only [ValConv.parse, (hu w hw).2] at this
      cases this
      rfl)
    refine ⟨e, ?_⟩
    rw [if_pos (by rfl : [ValConv.uri, .binary].head? = some .uri), erase_value hv, hn, mkContentLine, listNames_upper.2.2, List.map_map] at hw
    exact hw
  | binary p bs hp hv hne =>
    cases hi
    have hc : s.convs = [.uri, .binary] := by simpa using hc
    obtain ⟨hp', he⟩ := goodParams_snoc hp hv [⟨false, "BINARY".toList⟩]
    obtain ⟨cv, hcv, ts, vs', hsplit, _, e, hf, hprep, hw⟩ := plain_line (by rw [hc]; decide) hr hp'.2 hp'.1
    rw [hc] at hcv hw hprep
    obtain rfl : ValConv.binary = cv := by
      have hget : dictGet? (p ++ [("VALUE".toList, [⟨false, "BINARY".toList⟩])]) "VALUE".toList =
          some [(⟨false, "BINARY".toList⟩ : PVal)] := by
        rw [← dictSet_new _ _ _ hv, dictGet_set]
      simp only [prepareParams, hget] at hprep
      cases hprep
      rfl
    have hts : bs.map b64encode = ts := by
      refine Eq.trans (splitComma_join (by simpa using hne) ?_).symm (done_inj hsplit)
      intro t ht
      obtain ⟨u, hu', rfl⟩ := List.mem_map.1 ht
      exact b64_no_comma u
    subst hts
    obtain rfl := forall₂_map_unique (g := fun u => Val.bytes u) hf (fun w hw v hv => by
      have := hv [] none
      simp only [ValConv.parse, C18_binary] at this
      cases this
      rfl)
    refine ⟨e, ?_⟩
    rw [if_neg (by decide), he, dictSet_new _ _ _ hv, hn, mkContentLine, listNames_upper.2.2, List.map_map] at hw
    exact hw
  | attendee p u hp hv hu1 hu2 =>
    cases hi
    have hc : s.convs = [.attendee] := by simpa using hc
    obtain ⟨_, ⟨_, u', hu', e, hw⟩ | ⟨h, _⟩⟩ := attendee_line hc hr hp.2 hp.1
    · cases hu2.symm.trans hu'
      rw [erase_value hv] at e hw
      rw [hn, mkContentLine, listNames_upper.2.1] at hw
      exact ⟨e, hw⟩
    · exact absurd h hu1

/-- The lines of a loaded component are written back as they were. -/
theorem load_listLines {L : Lib} {mem : MemberLoad σ} (hmem : MemStable L mem) {c : Cls} {items : List Item}
    {zones : List (Str × Nat)} {o : Obj σ} {ctx1 : Ctx} (h : loadObj L mem c items (some zones) = .ok (o, ctx1))
    {n : String} (hn : n ∈ listNames c) {groups : List (List (Val σ))}
    (hl : List.Forall₂ (ListLine L n) (named n items) groups) :
    o.get (listAttr n) = .many groups.flatten ∧
      ∃ s, .value s ∈ c.convs ∧ s.multi = true ∧ s.ics = n.toList ∧ ∀ st, dumpMulti L s o st = .ok (named n items, st) := by
  obtain ⟨s, hs, hm, hics, hattr, hconvs⟩ := listSpec hn
  rw [named_value hics] at hl ⊢
  obtain ⟨x, hx, hown, hget, hd⟩ := load_lines hmem h hs hm
    (R := fun cl vs cl' => cl' = cl ∧ ∀ vs', ListLine L n (.line cl) vs' → vs = vs') (by
      intro cl hcl hname vals hr
      have : Item.line cl ∈ Conv.own (.value s) items := by
        unfold Conv.own
        rw [List.mem_filter]
        exact ⟨hcl, decide_eq_true (List.mem_singleton.2 hname)⟩
      obtain ⟨vs, hvs⟩ : ∃ vs, ListLine L n (.line cl) vs := by
        obtain ⟨vs, _, hvs⟩ := forall₂_mem hl.flip _ this
        exact ⟨vs, hvs⟩
      have := listLine_writes hics hconvs hvs hr
      exact ⟨cl, ⟨rfl, fun vs' h' => (listLine_writes hics hconvs h' hr).1⟩, this.2⟩)
  have e1 : ∀ (x : List (ContentLine × List (Val σ) × ContentLine)) (groups : List (List (Val σ))),
      (∀ y ∈ x, y.2.2 = y.1 ∧ ∀ vs', ListLine L n (.line y.1) vs' → y.2.1 = vs') →
      List.Forall₂ (ListLine L n) (x.map fun y => .line y.1) groups → x.map (fun y => y.2.1) = groups := by
    intro x
    induction x with
    | nil =>
      intro groups _ h
      cases h
      rfl
    | cons y x ih =>
      intro groups hx h
      cases h with
      | cons h1 h2 =>
        rw [List.map_cons, (hx y List.mem_cons_self).2 _ h1, ih _ (fun z hz => hx z (List.mem_cons_of_mem _ hz)) h2]
  have e2 : x.map (fun y => Item.line y.2.2) = x.map fun y => .line y.1 :=
    List.map_congr_left fun y hy => by rw [(hx y hy).1]
  refine ⟨?_, s, hs, hm, hics, fun st => ?_⟩
  · rw [← hattr, hget, e1 x groups hx (hown ▸ hl)]
  · rw [hd, e2, ← hown]

/-- Multi-valued properties of events and todos, on lines as the library writes them: all values in order,
and exactly the same lines when the component is written.  Missing: other spellings of the values (see
`C49_spelling_partial`) and lines with several attendees (see `C49_attendees_fail`). -/
theorem C49_entry_partial (L : Lib) (c : Cls) (hc : c = .event ∨ c = .todo) (items : List Item)
    (zones : List (Str × Nat)) (o : EntryObj) (ctx' : Ctx) (h : loadEntry L c items (some zones) = .ok (o, ctx'))
    (n : String) (hn : n ∈ listNames c) (groups : List (List (Val Alarm)))
    (hl : List.Forall₂ (ListLine L n) (named n items) groups) :
    o.get (listAttr n) = .many groups.flatten ∧
      ∀ st st' i, dumpEntry L o st = .ok (i, st') →
        ∃ items', i = .cont c.icsName items' ∧ named n items' = named n items := by
  have hms : MemStable L fun _ items ctx => loadAlarm L items ctx := fun _ items => loadAlarm_stable L items
  obtain ⟨h1, s, hs, hm, hics, hd⟩ := load_listLines hms h hn hl
  refine ⟨h1, fun st st' i hi => ?_⟩
  obtain ⟨items', rfl, hown⟩ := entry_dump_own hc h hi
  refine ⟨items', rfl, ?_⟩
  obtain ⟨st1, st2, hw⟩ := hown _ hs
  simp only [Conv.dump, hm, if_true, hd, ← named_value hics items'] at hw
  exact (congrArg Prod.fst (Except.ok.inj hw)).symm

/-- The same for the alarms that have such properties. -/
theorem C49_alarm_partial (L : Lib) (items : List Item) (zones : List (Str × Nat)) (a : Alarm) (ctx' : Ctx)
    (h : loadAlarm L items (some zones) = .ok (a, ctx')) (n : String) (hn : n ∈ listNames a.cls)
    (groups : List (List (Val Empty))) (hl : List.Forall₂ (ListLine L n) (named n items) groups) :
    a.get (listAttr n) = .many groups.flatten ∧
      ∀ st st' i, dumpAlarm L a st = .ok (i, st') →
        ∃ items', i = .cont "VALARM".toList items' ∧ named n items' = named n items := by
  have hcu : a.cls ≠ .customAlarm := by
    intro e
    rw [e] at hn
    simp [listNames] at hn
  have h0 := h
  simp only [loadAlarm, bind_ok_iff] at h
  obtain ⟨i, _, h⟩ := h
  cases i with
  | cont n is => cases h
  | line cl =>
    have e : a.cls = alarmCls cl.value := (loadObj_frame h).1
    rw [e] at hn
    obtain ⟨h1, s, hs, hm, hics, hd⟩ := load_listLines (fun _ _ => Stable.error _ _) h hn hl
    refine ⟨h1, fun st st' i hi => ?_⟩
    obtain ⟨items', rfl, hown⟩ := alarm_dump_own h0 hcu hi
    refine ⟨items', rfl, ?_⟩
    obtain ⟨st1, st2, hw⟩ := hown _ (e ▸ hs)
    simp only [Conv.dump, hm, if_true, hd, ← named_value hics items'] at hw
    exact (congrArg Prod.fst (Except.ok.inj hw)).symm

/-! ### Any spelling -/

/-- A line as it was read, its values with their texts, and the line that is written. -/
structure SpelledLine (L : Lib) (cl : ContentLine) (x : List (Str × Val σ)) (cl' : ContentLine) : Prop where
  nonempty : x ≠ []
  read : cl.value = joinComma (x.map Prod.fst)
  denotes : ∀ y ∈ x, Denotes L y.1 y.2
  written : cl'.value = joinComma (x.map fun y => canonText y.2)
  name : cl'.name = cl.name
  params : ∀ k, k ≠ "VALUE".toList → dictGet? cl'.params k = dictGet? cl.params k

theorem zip_of_forall₂ {α β : Type} {R : α → β → Prop} {l : List α} {l' : List β} (h : List.Forall₂ R l l') :
    (l.zip l').map Prod.fst = l ∧ (l.zip l').map Prod.snd = l' := by
  induction h with
  | nil => exact ⟨rfl, rfl⟩
  | cons _ _ ih => simp [ih]

theorem spelled {L : Lib} {s : AttrSpec} (hconvs : s.convs ∈ plainLists) (hu : upper s.ics = s.ics) {ctx : Ctx}
    {cl : ContentLine} (hn : cl.name = s.ics) (hg : GoodParams cl.params) {vals : List (Val σ × Params)}
    (hr : ReadsLine L s ctx cl vals) :
    ∃ x cl', SpelledLine L cl x cl' ∧ vals.map Prod.fst = x.map Prod.snd ∧ WritesBack L s cl' (markLast vals) := by
  obtain ⟨cv, hcv, ts, vs, hsplit, hts, e, hf, _, hw⟩ := plain_line hconvs hr hg.2 hg.1
  obtain ⟨z1, z2⟩ := zip_of_forall₂ hf
  refine ⟨ts.zip vs, _, ⟨?_, ?_, ?_, ?_, ?_, ?_⟩, by rw [e, z2], hw⟩
  · intro h
    rw [h] at z1
    exact hts z1.symm
  · rw [z1]
    cases cv
    case text =>
      have := C11_split_lossless cl.value
      rw [show splitTextList cl.value = .done ts from hsplit] at this
      exact (this.1 rfl).symm
    all_goals
      rw [← done_inj hsplit, joinComma_split]
  · rintro ⟨t, v⟩ hy
    have hp := forall₂_zip hf _ hy [] none
    have hnc : cv ≠ .text → ',' ∉ t := by
      intro hne
      have ht : t ∈ ts := (List.of_mem_zip hy).1
      cases cv
      case text => exact absurd rfl hne
      all_goals
        rw [← done_inj hsplit] at ht
        exact splitComma_no_comma _ t ht
    have hcv' : cv = .text ∨ cv = .uri ∨ cv = .binary := by
      have : ∀ convs ∈ plainLists, ∀ cv ∈ convs, cv = .text ∨ cv = .uri ∨ cv = .binary := by decide
      exact this _ hconvs _ hcv
    rcases hcv' with rfl | rfl | rfl
    all_goals
      simp only [ValConv.parse, map_ok_iff] at hp
      obtain ⟨w, hw, e⟩ := hp
      obtain rfl := (Prod.mk.inj e).1
    · exact .text t w hw
    · exact .url t w (hnc (by simp)) hw
    · exact .bytes t w (hnc (by simp)) hw
  · show joinComma _ = _
    rw [← z2, List.map_map, z2]
    rfl
  · show upper s.ics = _
    rw [hu, hn]
  · intro k hk
    show dictGet? (if _ then _ else _) k = _
    split
    · exact dictGet_erase_ne _ hk
    · rw [dictGet_set_ne _ _ hk]
      exact dictGet_erase_ne _ hk

/-- Texts, URLs and binary data in any spelling: the values are those of the texts between the commas, line
by line and in order; each line is written back in its place with the same values in their canonical
spelling, and with the same parameters (VALUE apart). -/
theorem C49_spelling_partial (L : Lib) (c : Cls) (hc : c = .event ∨ c = .todo) (items : List Item)
    (zones : List (Str × Nat)) (o : EntryObj) (ctx' : Ctx) (h : loadEntry L c items (some zones) = .ok (o, ctx'))
    (n : String) (hn : n ∈ listNames c) (hna : n ≠ "ATTENDEE")
    (hg : ∀ cl, .line cl ∈ items → cl.name = n.toList → GoodParams cl.params) :
    ∃ x : List (ContentLine × List (Str × Val Alarm) × ContentLine),
      (∀ y ∈ x, SpelledLine L y.1 y.2.1 y.2.2) ∧ named n items = x.map (fun y => .line y.1) ∧
      o.get (listAttr n) = .many (x.map fun y => y.2.1.map Prod.snd).flatten ∧
      ∀ st st' i, dumpEntry L o st = .ok (i, st') →
        ∃ items', i = .cont c.icsName items' ∧ named n items' = x.map (fun y => .line y.2.2) := by
  have hms : MemStable L fun _ items ctx => loadAlarm L items ctx := fun _ items => loadAlarm_stable L items
  obtain ⟨s, hs, hm, hics, hattr, hconvs⟩ := listSpec hn
  have hpl : s.convs ∈ plainLists := by
    rcases hconvs with ⟨_, e⟩ | ⟨e, _⟩ | ⟨_, e⟩
    · rw [e]; decide
    · exact absurd e hna
    · rw [e]; decide
  have hu := names_upper _ _ hs s.ics (List.mem_singleton_self _)
  obtain ⟨x, hx, hown, hget, hd⟩ := load_lines hms h hs hm
    (R := fun cl vs cl' => ∃ x, SpelledLine L cl x cl' ∧ vs = x.map Prod.snd) (by
      intro cl hcl hname vals hr
      obtain ⟨x, cl', h1, h2, h3⟩ := spelled hpl hu hname (hg cl hcl (hname.trans hics)) hr
      exact ⟨cl', ⟨x, h1, h2⟩, h3⟩)
  have key : ∀ x : List (ContentLine × List (Val Alarm) × ContentLine),
      (∀ y ∈ x, ∃ z, SpelledLine L y.1 z y.2.2 ∧ y.2.1 = z.map Prod.snd) →
      ∃ x' : List (ContentLine × List (Str × Val Alarm) × ContentLine),
        (∀ y ∈ x', SpelledLine L y.1 y.2.1 y.2.2) ∧ x'.map (fun y => Item.line y.1) = x.map (fun y => .line y.1) ∧
        (x'.map fun y => y.2.1.map Prod.snd) = x.map (fun y => y.2.1) ∧
        x'.map (fun y => Item.line y.2.2) = x.map (fun y => .line y.2.2) := by
    intro x
    induction x with
    | nil => exact fun _ => ⟨[], by simp, rfl, rfl, rfl⟩
    | cons y x ih =>
      intro hx
      obtain ⟨x', h1, h2, h3, h4⟩ := ih fun y hy => hx y (List.mem_cons_of_mem _ hy)
      obtain ⟨z, hz, e⟩ := hx y List.mem_cons_self
      refine ⟨(y.1, z, y.2.2) :: x', ?_, ?_, ?_, ?_⟩
      · intro w hw
        rcases List.mem_cons.1 hw with rfl | hw
        · exact hz
        · exact h1 w hw
      · rw [List.map_cons, List.map_cons, h2]
      · rw [List.map_cons, List.map_cons, h3, e]
      · rw [List.map_cons, List.map_cons, h4]
  obtain ⟨x', h1, h2, h3, h4⟩ := key x hx
  refine ⟨x', h1, ?_, ?_, fun st st' i hi => ?_⟩
  · rw [named_value hics, hown, h2]
  · rw [← hattr, hget, h3]
  · obtain ⟨items', rfl, hown'⟩ := entry_dump_own hc h hi
    refine ⟨items', rfl, ?_⟩
    obtain ⟨st1, st2, hw⟩ := hown' _ hs
    simp only [Conv.dump, hm, if_true, hd] at hw
    rw [named_value hics, h4]
    exact (congrArg Prod.fst (Except.ok.inj hw)).symm

/-! ### Several attendees on one line -/

theorem dumpGroups_fail {L : Lib} {s : AttrSpec} {P : ContentLine → Prop} {cls : List ContentLine}
    {groups : List (List (Val σ × Params))}
    (h : List.Forall₂ (fun cl g => (¬P cl ∧ ∃ cl', WritesBack L s cl' g) ∨
      (P cl ∧ ∀ rest st, dumpMultiLoop L s (g ++ rest) none [] st = .error .valueError)) cls groups)
    {cl : ContentLine} (hcl : cl ∈ cls) (hp : P cl) (st : DState) :
    dumpMultiLoop L s groups.flatten none [] st = .error .valueError := by
  induction h with
  | nil => simp at hcl
  | cons h1 _ ih =>
    rw [List.flatten_cons]
    rcases h1 with ⟨hn, cl', hw⟩ | ⟨_, hw⟩
    · rcases List.mem_cons.1 hcl with rfl | hcl
      · exact absurd hp hn
      · rw [hw, ih hcl]
        rfl
    · exact hw _ _

/-- An event with an ATTENDEE line that has more than one value can never be written. -/
theorem C49_attendees_fail (L : Lib) (items : List Item) (zones : List (Str × Nat)) (o : EntryObj) (ctx' : Ctx)
    (h : loadEntry L .event items (some zones) = .ok (o, ctx')) (cl : ContentLine) (hcl : .line cl ∈ items)
    (hn : cl.name = "ATTENDEE".toList) (hcomma : ',' ∈ cl.value)
    (hg : ∀ cl, .line cl ∈ items → cl.name = "ATTENDEE".toList → GoodParams cl.params) (st : DState) (r : Item × DState) :
    dumpEntry L o st ≠ .ok r := by
  intro hr
  have hms : MemStable L fun _ items ctx => loadAlarm L items ctx := fun _ items => loadAlarm_stable L items
  obtain ⟨s, hs, hm, hics, hattr, hconvs⟩ := listSpec (c := .event) (n := "ATTENDEE") (by simp [listNames])
  have hconvs : s.convs = [.attendee] := by simpa using hconvs
  obtain ⟨cls, groups, hown, hf, ha, hp⟩ := load_multi hms rfl h hs hm
  obtain ⟨items', _, hd⟩ := entry_dump_own (Or.inl rfl) h (i := r.1) (st' := r.2) hr
  obtain ⟨st1, st2, hd⟩ := hd _ hs
  simp only [Conv.dump, hm, if_true, dumpMulti_groups ha hp] at hd
  have hmem : ∀ cl, cl ∈ cls ↔ .line cl ∈ items ∧ cl.name = "ATTENDEE".toList := by
    intro cl
    have e : Item.line cl ∈ Conv.own (.value s) items ↔ cl ∈ cls := by
      rw [hown]
      exact List.mem_map_of_injective fun _ _ e => Item.line.inj e
    rw [← e, ← named_value hics]
    unfold named
    rw [List.mem_filter, decide_eq_true_iff]
    rfl
  have hf2 : List.Forall₂ (fun cl g => cl ∈ cls ∧ ∃ vals, ReadsLine L s (some zones) cl vals ∧ g = markLast vals)
      cls groups := (List.forall₂_and_left _ _).2 ⟨fun _ h => h, hf⟩
  rw [dumpGroups_fail (P := fun cl => ',' ∈ cl.value) (hf2.imp fun cl g hg' => ?_) ((hmem cl).2 ⟨hcl, hn⟩) hcomma] at hd
  · cases hd
  · obtain ⟨hin, vals, hr, rfl⟩ := hg'
    obtain ⟨h1, h2⟩ := (hmem cl).1 hin
    obtain ⟨_, ⟨h3, u, _, _, hw⟩ | ⟨h3, hw⟩⟩ := attendee_line hconvs hr (hg cl h1 h2).2 (hg cl h1 h2).1
    · exact Or.inl ⟨h3, _, hw⟩
    · exact Or.inr ⟨h3, hw⟩

/-! ### Examples -/

/-- An event with three lines of categories, two lines of attachments and two attendees. -/
def exLists : List Item :=
  [exLine "CATEGORIES" "a,b\\,c", exLine "ATTACH" "aGk=,aGk=" [("VALUE".toList, [⟨false, "BINARY".toList⟩])],
    exLine "CATEGORIES" "d" [("X-P".toList, [⟨false, "1".toList⟩])], exLine "ATTENDEE" "mailto:a@b",
    exLine "ATTACH" "http://x/y,http://z", exLine "CATEGORIES" ",",
    exLine "ATTENDEE" "mailto:c@d" [("CN".toList, [⟨true, "C, D".toList⟩])]]

/-- `C49_entry_partial` applies to it. -/
example : (loadEntry exLib .event exLists (some [])).toOption.isSome ∧
    List.Forall₂ (ListLine exLib "CATEGORIES") (named "CATEGORIES" exLists)
      [[.text "a".toList, .text "b,c".toList], [.text "d".toList], ([.text [], .text []] : List (Val Alarm))] ∧
    (named "ATTACH" exLists).length = 2 ∧ (named "ATTENDEE" exLists).length = 2 := by
  refine ⟨by decide +kernel, ?_, by decide +kernel, by decide +kernel⟩
  have e : named "CATEGORIES" exLists = [exLine "CATEGORIES" "a,b\\,c",
    exLine "CATEGORIES" "d" [("X-P".toList, [⟨false, "1".toList⟩])], exLine "CATEGORIES" ","] := by decide +kernel
  rw [e]
  refine .cons ?_ (.cons ?_ (.cons ?_ .nil))
  · exact .texts [] ["a".toList, "b,c".toList] (by unfold GoodParams; decide) (by decide) (by simp)
  · exact .texts [("X-P".toList, [⟨false, "1".toList⟩])] ["d".toList] (by unfold GoodParams; decide) (by decide) (by simp)
  · exact .texts [] [[], []] (by unfold GoodParams; decide) (by decide) (by simp)

/-- The hypotheses on URLs hold for usual URLs. -/
example : ∃ u v : Url, ListLine (σ := Alarm) exLib "ATTACH" (exLine "ATTACH" "http://x/y,http://z") [.url u, .url v] := by
  have h1 : urlparse exLib.urlChecks "http://x/y".toList =
    .ok ⟨"http".toList, "x".toList, "/y".toList, [], [], []⟩ := by decide +kernel
  have h2 : urlparse exLib.urlChecks "http://z".toList =
    .ok ⟨"http".toList, "z".toList, [], [], [], []⟩ := by decide +kernel
  refine ⟨_, _, .urls [] [⟨"http".toList, "x".toList, "/y".toList, [], [], []⟩, ⟨"http".toList, "z".toList, [], [], [], []⟩]
    (by unfold GoodParams; decide) (by decide) (by simp) ?_⟩
  intro u hu
  simp only [List.mem_cons, List.not_mem_nil, or_false] at hu
  rcases hu with rfl | rfl
  · exact ⟨by decide +kernel, h1⟩
  · exact ⟨by decide +kernel, h2⟩

/-- The hypotheses of `C49_attendees_fail` can be met: this event is loaded. -/
example : (loadEntry exLib .event [exLine "ATTENDEE" "mailto:a@b,mailto:c@d"] (some [])).toOption.isSome := by
  decide +kernel

end Ics
