import Verif.Proofs.SpanLoad
import Verif.Props.Lists

/-
Parameters of the lines of a loaded component.
-/
namespace Ics

variable {σ : Type}

theorem prepare_ok {convs : List ValConv} {p p' : Params} {cv : ValConv} (h : prepareParams convs p = .ok (p', cv)) :
    p' = dictErase p "VALUE".toList ∧ cv ∈ convs := by
  unfold prepareParams at h
  dsimp only at h
  split at h
  · rw [map_ok_iff] at h
    obtain ⟨c, hf, e⟩ := h
    cases e
    unfold findByType at hf
    split at hf
    · rename_i hfind
      cases hf
      exact ⟨rfl, List.mem_of_find?_eq_some hfind⟩
    · cases hf
  · cases h
  · split at h
    · rename_i c _ e
      cases h
      exact ⟨rfl, List.mem_cons_self⟩
    · cases h

theorem findConverter_ok {convs : List ValConv} {p q : Params} {v : Val σ} {cv : ValConv}
    (h : findConverter convs p v = .ok (cv, q)) :
    cv ∈ convs ∧ cv.accepts v = true ∧ ∀ k, k ≠ "VALUE".toList → dictGet? q k = dictGet? p k := by
  unfold findConverter at h
  split at h
  · cases h
  · rename_i c hf
    have h1 := List.mem_of_find?_eq_some hf
    have h2 := List.find?_some hf
    split at h <;> cases h
    · exact ⟨h1, h2, fun _ _ => rfl⟩
    · exact ⟨h1, h2, fun k hk => dictGet_set_ne _ _ hk⟩

/-- What is known about the single-valued attributes. -/
theorem single_table (c : Cls) : ∀ s, .value s ∈ c.convs → s.multi = false →
    (s.check = .geo → s.convs = [.geo]) ∧
      ((∀ cv ∈ s.convs, cv.isPerson = false) ∨ (s.convs = [.organizer] ∧ s.check = .organizerOpt)) := by
  intro s hs
  have : ∀ cv ∈ c.convs, ∀ s, cv = .value s → s.multi = false → (s.check = .geo → s.convs = [.geo]) ∧
      ((∀ cv ∈ s.convs, cv.isPerson = false) ∨ (s.convs = [.organizer] ∧ s.check = .organizerOpt)) := by
    cases c <;> simp [Cls.convs, entryConvs, alarmConvs, attr1, attrN, ValConv.isPerson]
  exact this _ hs s rfl

theorem multi_table (c : Cls) : ∀ s, .value s ∈ c.convs → s.multi = true →
    s.convs ∈ plainLists ∨ s.convs = [.attendee] := by
  intro s hs
  have : ∀ cv ∈ c.convs, ∀ s, cv = .value s → s.multi = true → s.convs ∈ plainLists ∨ s.convs = [.attendee] := by
    cases c <;> simp [Cls.convs, entryConvs, alarmConvs, attr1, attrN, plainLists]
  exact this _ hs s rfl

theorem check_one {L : Lib} {ch : Check} {v : Val σ} {w : AttrVal σ} (h : ch.run L (.one v) = .ok w)
    (hg : ch = .geo → ∃ a b, v = .geo a b) : ∃ v', w = .one v' := by
  unfold Check.run at h
  split at h
  case h_1 =>
    cases h
    exact ⟨_, rfl⟩
  all_goals first
    | cases h
      exact ⟨_, rfl⟩
    | cases h
      done
    | rw [map_ok_iff] at h
      obtain ⟨_, _, rfl⟩ := h
      exact ⟨_, rfl⟩
    | split at h
      · cases h
        exact ⟨_, rfl⟩
      · cases h
    | skip
  all_goals first
    | obtain ⟨a, b, rfl⟩ := hg rfl
      simp_all
    | simp_all

/-- The line of a single-valued attribute. -/
theorem single_params {L : Lib} {mem : MemberLoad σ} (hmem : MemStable L mem) {c : Cls} {items : List Item}
    {zones : List (Str × Nat)} {o : Obj σ} {ctx1 : Ctx} (h : loadObj L mem c items (some zones) = .ok (o, ctx1))
    (hg : ∀ cl, .line cl ∈ items → GoodParams cl.params) {s : AttrSpec} (hs : .value s ∈ c.convs)
    (hm : s.multi = false) (hne : Conv.own (.value s) items ≠ []) {st st' : DState} {l : List Item}
    (hd : dumpSingle L s o st = .ok (l, st')) :
    ∃ cl cl', Conv.own (.value s) items = [.line cl] ∧ l = [.line cl'] ∧
      ∀ k, k ≠ "VALUE".toList → (k = "TZID".toList → .datetime ∉ s.convs) →
        dictGet? cl'.params k = dictGet? cl.params k := by
  rcases load_single hmem rfl h hs hm with ⟨e, _⟩ | ⟨cl, p, cv, v, p', ctx', w, hown, hprep, hparse, hcheck, ha, hp⟩
  · exact absurd e hne
  obtain ⟨rfl, hcv⟩ := prepare_ok hprep
  obtain ⟨t1, t2⟩ := single_table c s hs hm
  obtain ⟨v', rfl⟩ := check_one hcheck (by
    intro e
    rw [t1 e] at hcv
    obtain rfl := List.mem_singleton.1 hcv
    simp only [ValConv.parse, map_ok_iff] at hparse
    obtain ⟨g, hg, e⟩ := hparse
    obtain rfl := (Prod.mk.inj e).1
    unfold geoParse at hg
    repeat' split at hg
    all_goals cases hg
    exact ⟨_, _, rfl⟩)
  have hex : o.extraParamsOf s.attr = .ok p' := by
    unfold Obj.extraParamsOf
    rw [hp]
    by_cases e : p' = []
    · rw [if_pos e, e]
    · rw [if_neg e]
  have hin : .line cl ∈ items := by
    have : Item.line cl ∈ Conv.own (.value s) items := by rw [hown]; exact List.mem_singleton_self _
    exact (List.mem_filter.1 this).1
  unfold dumpSingle Obj.get at hd
  rw [ha] at hd
  simp only [Option.getD_some, hex, bind_ok_iff] at hd
  obtain ⟨_, ⟨rfl⟩, ⟨cv2, q⟩, hfind, ⟨t, q', ctx2⟩, hser, hd⟩ := hd
  dsimp only at hser hd
  obtain ⟨hcv2, hacc, hq⟩ := findConverter_ok hfind
  refine ⟨cl, mkContentLine s.ics q' t, hown, (congrArg Prod.fst (Except.ok.inj hd)).symm, fun k hk htz => ?_⟩
  show dictGet? q' k = _
  rw [← dictGet_erase_ne cl.params hk]
  rcases t2 with t2 | ⟨t2, t3⟩
  · have e1 := parse_params hparse
    rw [t2 _ hcv] at e1
    have e2 := serialize_params (t2 _ hcv2) hser
    have e3 : dictGet? p' k = dictGet? (dictErase cl.params "VALUE".toList) k := by
      rw [e1]
      simp only [Bool.false_eq_true, if_false]
      split
      · rename_i e
        refine dictGet_erase_ne _ fun e' => htz e' (e ▸ hcv)
      · rfl
    rw [← e3, ← hq k hk]
    by_cases e : cv2 = .datetime
    · exact e2.2 k fun e' => htz e' (e ▸ hcv2)
    · rw [e2.1 e]
  · rw [t2] at hcv hcv2
    obtain rfl := List.mem_singleton.1 hcv
    obtain rfl := List.mem_singleton.1 hcv2
    simp only [ValConv.parse, map_ok_iff] at hparse
    obtain ⟨u, _, e⟩ := hparse
    simp only [Prod.mk.injEq] at e
    obtain ⟨rfl, rfl, _⟩ := e
    rw [t3] at hcheck
    simp only [Check.run] at hcheck
    cases hcheck
    simp only [findConverter, t2] at hfind
    have e0 : q = [] := by
      rw [List.find?_cons] at hfind
      simp only [ValConv.accepts, Bool.not_false, List.head?_cons, if_true] at hfind
      cases hfind
      rfl
    subst e0
    simp only [ValConv.serialize] at hser
    cases hser
    rw [dictUpdate_nil (d := []) (uniqueKeys_dictErase _ (hg cl hin).1)]
    rfl

/-! ### Lists -/

theorem dumpGroups_ok {L : Lib} {s : AttrSpec} {R : ContentLine → ContentLine → Prop} {cls : List ContentLine}
    {groups : List (List (Val σ × Params))}
    (h : List.Forall₂ (fun cl g => (∃ cl', R cl cl' ∧ WritesBack L s cl' g) ∨
      (∀ rest st, dumpMultiLoop L s (g ++ rest) none [] st = .error .valueError)) cls groups)
    {st st' : DState} {l : List Item} (hd : dumpMultiLoop L s groups.flatten none [] st = .ok (l, st')) :
    ∃ cls', l = cls'.map .line ∧ List.Forall₂ R cls cls' := by
  induction h generalizing st st' l with
  | nil =>
    simp only [List.flatten_nil, dumpMultiLoop, bind_ok_iff] at hd
    obtain ⟨_, _, hd⟩ := hd
    exact ⟨[], (congrArg Prod.fst (Except.ok.inj hd)).symm, .nil⟩
  | cons h1 _ ih =>
    rw [List.flatten_cons] at hd
    rcases h1 with ⟨cl', hR, hw⟩ | hw
    · rw [hw, map_ok_iff] at hd
      obtain ⟨⟨l1, st1⟩, hd, e⟩ := hd
      obtain ⟨cls', rfl, hf⟩ := ih hd
      exact ⟨cl' :: cls', (congrArg Prod.fst e).symm, .cons hR hf⟩
    · rw [hw] at hd
      cases hd

/-- The lines of a multi-valued attribute. -/
theorem multi_params {L : Lib} {mem : MemberLoad σ} (hmem : MemStable L mem) {c : Cls} {items : List Item}
    {zones : List (Str × Nat)} {o : Obj σ} {ctx1 : Ctx} (h : loadObj L mem c items (some zones) = .ok (o, ctx1))
    (hg : ∀ cl, .line cl ∈ items → GoodParams cl.params) {s : AttrSpec} (hs : .value s ∈ c.convs)
    (hm : s.multi = true) {st st' : DState} {l : List Item} (hd : dumpMulti L s o st = .ok (l, st')) :
    ∃ cls cls', Conv.own (.value s) items = cls.map .line ∧ l = cls'.map .line ∧
      List.Forall₂ (fun cl cl' => ∀ k, k ≠ "VALUE".toList → dictGet? cl'.params k = dictGet? cl.params k) cls cls' := by
  obtain ⟨cls, groups, hown, hf, ha, hp⟩ := load_multi hmem rfl h hs hm
  rw [dumpMulti_groups ha hp] at hd
  have hin : ∀ cl ∈ cls, .line cl ∈ items ∧ cl.name = s.ics := by
    intro cl hcl
    have : Item.line cl ∈ Conv.own (.value s) items := by
      rw [hown]
      exact List.mem_map_of_mem hcl
    unfold Conv.own at this
    rw [List.mem_filter] at this
    exact ⟨this.1, List.mem_singleton.1 (of_decide_eq_true this.2)⟩
  have hf2 := (List.forall₂_and_left _ _).2 ⟨hin, hf⟩
  have hu := names_upper _ _ hs s.ics (List.mem_singleton_self _)
  obtain ⟨cls', e, hf'⟩ := dumpGroups_ok (R := fun cl cl' => ∀ k, k ≠ "VALUE".toList →
    dictGet? cl'.params k = dictGet? cl.params k) (hf2.imp (fun cl g hh => by
      obtain ⟨⟨h1, h2⟩, vals, hr, rfl⟩ := hh
      rcases multi_table c s hs hm with ht | ht
      · obtain ⟨x, cl', hsp, _, hw⟩ := spelled ht hu h2 (hg cl h1) hr
        exact Or.inl ⟨cl', hsp.params, hw⟩
      · obtain ⟨_, ⟨_, u, _, _, hw⟩ | ⟨_, hw⟩⟩ := attendee_line ht hr (hg cl h1).2 (hg cl h1).1
        · exact Or.inl ⟨_, fun k hk => dictGet_erase_ne _ hk, hw⟩
        · exact Or.inr hw)) hd
  exact ⟨cls, cls', hown, e, hf'⟩

/-! ### Times -/

theorem validate_end {e : Env} {s : Span} (h : e.validate s = .ok ()) (he : s.end?.isSome) : s.dur? = none := by
  have key : s.dur?.isSome = false := by
    simp only [Env.validate, bind_ok_iff] at h
    obtain ⟨_, h, _⟩ := h
    unfold Env.validateBase at h
    split at h
    · simp only [bind_ok_iff] at h
      obtain ⟨_, _, _, h, _⟩ := h
      obtain ⟨en, hen⟩ := Option.isSome_iff_exists.1 he
      rw [hen] at h
      simp only [ifGiven, Env.validateEnd, bind_ok_iff] at h
      obtain ⟨_, _, _, _, _, _, _, _, _, h, _⟩ := h
      exact raiseIf_ok.1 h
    · simp only [bind_ok_iff] at h
      obtain ⟨_, _, h⟩ := h
      exact raiseIf_ok.1 h
  cases hd : s.dur? with
  | none => rfl
  | some d => rw [hd] at key; cases key

theorem foldSpan_end {L : Lib} {rd : Reading σ} (hrd : SpanReading rd) {items : List Item}
    (hnames : ∀ i ∈ items, i.name ∈ Conv.timespan.names) {a b : Core σ} (h : foldConv L rd .timespan items a = .ok b)
    (ha : a.span.end?.isSome) : b.span.end?.isSome := by
  induction items generalizing a with
  | nil =>
    cases h
    exact ha
  | cons i is ih =>
    simp only [foldConv, bind_ok_iff] at h
    obtain ⟨a1, h1, h2⟩ := h
    refine ih (fun i hi => hnames i (List.mem_cons_of_mem _ hi)) h2 ?_
    obtain ⟨cl, rfl⟩ := spanItem_line h1
    rw [spanStep_iff hrd (hnames _ List.mem_cons_self)] at h1
    obtain ⟨_, h1⟩ := h1
    split at h1
    · obtain ⟨d, _, rfl⟩ := h1
      exact ha
    · obtain ⟨v, prec, p, _, _, rfl⟩ := h1
      simp only [Core.timed]
      split
      · exact ha
      · rfl

theorem parseSpanValue_params {L : Lib} {cl : ContentLine} {ctx ctx' : Ctx} {v : DT} {prec : Precision} {p : Params}
    (h : parseSpanValue L cl ctx = .ok (v, prec, p, ctx')) :
    p = dictErase (dictErase cl.params "VALUE".toList) "TZID".toList := by
  unfold parseSpanValue at h
  dsimp only at h
  split at h
  · rw [map_ok_iff] at h
    obtain ⟨⟨d, q, ctx2⟩, h, e⟩ := h
    simp only [Prod.mk.injEq] at e
    rw [← e.2.2.1, parseDt_params h]
  · split at h
    · rw [map_ok_iff] at h
      obtain ⟨⟨d, q, ctx2⟩, h, e⟩ := h
      simp only [Prod.mk.injEq] at e
      unfold parseDate at h
      split at h
      · rename_i hp
        cases h
        rw [← e.2.2.1, parseDt_params hp]
      · cases h
    · cases h

/-- What the lines of a timespan leave behind. -/
theorem load_span_line {L : Lib} {mem : MemberLoad σ} (hmem : MemStable L mem) {c : Cls} {items : List Item}
    {zones : List (Str × Nat)} {o : Obj σ} {ctx1 : Ctx} (h : loadObj L mem c items (some zones) = .ok (o, ctx1))
    (hc : .timespan ∈ c.convs) {cl : ContentLine} (hcl : .line cl ∈ items) (hn : cl.name ∈ Conv.timespan.names) :
    ∃ sp : Span, o.get "timespan".toList = .one (.span sp) ∧ sp.cls = c.spanCls ∧
      (items.filter fun i => i.name = cl.name) = [.line cl] ∧
      (cl.name = "DTSTART".toList → sp.begin?.isSome) ∧ (cl.name = "DURATION".toList → sp.dur?.isSome) ∧
      (cl.name = "DUE".toList → sp.end?.isSome ∧ sp.dur? = none) ∧
      o.extraParamsOf (spanKey cl.name) = .ok (if cl.name = "DURATION".toList then cl.params
        else dictErase (dictErase cl.params "VALUE".toList) "TZID".toList) := by
  obtain ⟨rd, b, hrd, hb, hget, hval, hend, hpar⟩ := load_span hmem h hc
  have hsr := spanReading hrd
  have hnames : ∀ i ∈ Conv.own .timespan items, i.name ∈ Conv.timespan.names := fun i hi =>
    of_decide_eq_true (List.mem_filter.1 hi).2
  have hown : .line cl ∈ Conv.own .timespan items := List.mem_filter.2 ⟨hcl, decide_eq_true hn⟩
  obtain ⟨pre, post, a1, a2, hsplit, hpre, hpost, f1, f2, f3⟩ := foldSpan_split hsr hnames hb hown
  have hnpre : ∀ i ∈ pre, i.name ∈ Conv.timespan.names := fun i hi => hnames i (by rw [hsplit]; simp [hi])
  have hnpost : ∀ i ∈ post, i.name ∈ Conv.timespan.names := fun i hi => hnames i (by rw [hsplit]; simp [hi])
  obtain ⟨p1, _, _, _⟩ := foldSpan_other hsr hn hnpre hpre f1
  obtain ⟨q1, q2, q3, _⟩ := foldSpan_other hsr hn hnpost hpost f3
  obtain ⟨hseen, hstep⟩ := (spanStep_iff hsr hn).1 f2
  refine ⟨spanOf c b.span, ?_, rfl, ?_, ?_, ?_, ?_, ?_⟩
  · unfold Obj.get
    rw [hget]
    rfl
  · have e1 : (items.filter fun i => i.name = cl.name) =
        (Conv.own .timespan items).filter fun i => i.name = cl.name := by
      unfold Conv.own
      rw [List.filter_filter]
      refine List.filter_congr fun i _ => ?_
      by_cases e : i.name = cl.name
      · simp [e, hn]
      · simp [e]
    rw [e1, hsplit, List.filter_append, List.filter_cons, if_pos (by exact decide_eq_true rfl),
      List.filter_eq_nil_iff.2 (fun i hi => by simpa using hpre i hi),
      List.filter_eq_nil_iff.2 (fun i hi => by simpa using hpost i hi)]
    rfl
  · intro e
    show b.span.begin?.isSome
    rw [q2 e]
    rw [if_neg (by rw [e]; decide)] at hstep
    obtain ⟨v, prec, p, _, _, rfl⟩ := hstep
    simp only [Core.timed]
    rw [if_pos e]
    rfl
  · intro e
    show b.span.dur?.isSome
    rw [q3 e]
    rw [if_pos e] at hstep
    obtain ⟨d, _, rfl⟩ := hstep
    rfl
  · intro e
    have : b.span.end?.isSome := by
      refine foldSpan_end hsr hnpost f3 ?_
      rw [if_neg (by rw [e]; decide)] at hstep
      obtain ⟨v, prec, p, _, _, rfl⟩ := hstep
      simp only [Core.timed]
      rw [if_neg (by rw [e]; decide)]
      rfl
    exact ⟨this, validate_end hval this⟩
  · have hk : extraKey (spanKey cl.name) ∈ Conv.timespan.paramKeys := by
      simp only [Conv.names, List.map_cons, List.map_nil, List.mem_cons, List.not_mem_nil, or_false] at hn
      rcases hn with e | e | e | e <;> rw [e] <;> decide
    have hget2 : dictGet? o.extraParams (extraKey (spanKey cl.name)) =
        if (if cl.name = "DURATION".toList then cl.params
          else dictErase (dictErase cl.params "VALUE".toList) "TZID".toList) = [] then none
        else some (.one (if cl.name = "DURATION".toList then cl.params
          else dictErase (dictErase cl.params "VALUE".toList) "TZID".toList)) := by
      rw [hpar _ hk, q1]
      by_cases e : cl.name = "DURATION".toList
      · simp only [if_pos e] at hstep ⊢
        obtain ⟨d, _, rfl⟩ := hstep
        have e2 : spanKey cl.name = "duration".toList := by rw [e]; decide
        rw [e2] at p1 ⊢
        simp only [storeSpanDur, dictGet_setExtraParams_eq]
        rw [p1]
        by_cases e3 : cl.params = []
        · simp [e3, Core.new, newObj, dictGet?]
        · simp [e3]
      · simp only [if_neg e] at hstep ⊢
        obtain ⟨v, prec, p, hr, _, rfl⟩ := hstep
        have hp : p = dictErase (dictErase cl.params "VALUE".toList) "TZID".toList := by
          have q := hrd .timespan (.line cl) (some zones) rfl rfl
          unfold Outcome at q
          rw [hr] at q
          obtain ⟨ctx', q, _⟩ := q
          simp only [readConv] at q
          rw [if_neg e, bind_ok_iff] at q
          obtain ⟨⟨v', prec', p', ctx2⟩, q5, q⟩ := q
          cases q
          exact parseSpanValue_params q5
        rw [← hp]
        simp only [Core.timed, dictGet_setExtraParams_eq]
        rw [p1]
        by_cases e3 : p = []
        · simp [e3, Core.new, newObj, dictGet?]
        · simp [e3]
    unfold Obj.extraParamsOf
    rw [hget2]
    generalize (if cl.name = "DURATION".toList then cl.params
          else dictErase (dictErase cl.params "VALUE".toList) "TZID".toList) = P
    by_cases e : P = []
    · rw [if_pos e, e]
    · rw [if_neg e]

end Ics
