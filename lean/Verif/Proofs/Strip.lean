import Verif.Model.Strip
import Verif.Proofs.SameDump
import Verif.Proofs.Unquote

/-
Lemmas on `strip_extras`.
-/
namespace Ics

variable {σ : Type}

/-! ### One line per value -/

/-- The parameters of a list with the marks that say that every value has a line of its own. -/
def ExtraVal.ownLines : ExtraVal → ExtraVal
  | .one p => .one p
  | .many ps => .many (ps.map fun p => setMerge (dictErase p mergeKey) false)

/-- A component in which every value of a list has a line of its own. -/
def Obj.ownLines (o : Obj σ) : Obj σ := { o with extraParams := mapVals ExtraVal.ownLines o.extraParams }

/-- A component without the marks. -/
def Obj.stripMerge (o : Obj σ) : Obj σ := { o with extraParams := mapVals ExtraVal.stripMerge o.extraParams }

theorem get_ownLines (o : Obj σ) (k : Str) :
    dictGet? o.ownLines.extraParams k = (dictGet? o.extraParams k).map ExtraVal.ownLines := dictGet_mapVals _ _ _

theorem get_stripMerge (o : Obj σ) (k : Str) :
    dictGet? o.stripMerge.extraParams k = (dictGet? o.extraParams k).map ExtraVal.stripMerge := dictGet_mapVals _ _ _

/-- Not the parameters of a list. -/
def NotList : Option ExtraVal → Prop
  | some (.many _) => False
  | _ => True

theorem RepParams.notList {r : List String} {e : Option ExtraVal} (h : RepParams r e) : NotList e := by
  unfold RepParams at h
  split at h
  · trivial
  · trivial
  · exact h.elim

theorem NotList.ownLines {e : Option ExtraVal} (h : NotList e) : e.map ExtraVal.ownLines = e := by
  unfold NotList at h
  split at h
  · exact h.elim
  · rename_i hn
    cases e with
    | none => rfl
    | some e =>
      cases e with
      | one p => rfl
      | many ps => exact absurd rfl (hn ps)

theorem NotList.stripMerge {e : Option ExtraVal} (h : NotList e) : e.map ExtraVal.stripMerge = e := by
  unfold NotList at h
  split at h
  · exact h.elim
  · rename_i hn
    cases e with
    | none => rfl
    | some e =>
      cases e with
      | one p => rfl
      | many ps => exact absurd rfl (hn ps)

section
variable {L : Lib} {zs : List (Str × Nat)} {M : Str → σ → Prop} {o : Obj σ}

/-- Only lists of values have lists of parameters. -/
theorem rep_notList (h : RepObj L zs M o) {cv : Conv} (hcv : cv ∈ o.cls.convs) (hm : cv.multiAttr = none) :
    ∀ k ∈ cv.paramKeys, NotList (dictGet? o.extraParams k) := by
  intro k hk
  cases cv with
  | value s =>
    have hs := h.single s hcv (Conv.multiAttr_none hm s rfl)
    cases List.mem_singleton.1 hk
    change NotList (dictGet? o.extraParams (upper s.attr))
    unfold RepSingle at hs
    split at hs
    · rw [hs.1]
      trivial
    · obtain ⟨c, -, -, -, h4, -⟩ := hs
      exact h4.notList
    · exact hs.elim
  | member a n =>
    cases List.mem_singleton.1 hk
    change NotList (dictGet? o.extraParams (upper a))
    rw [(h.members a n hcv).1]
    trivial
  | timespan =>
    obtain ⟨s, hs⟩ := h.time hcv
    simp only [Conv.paramKeys, List.mem_cons, List.not_mem_nil, or_false] at hk
    rcases hk with rfl | rfl | rfl | rfl | rfl
    · exact hs.beginParams.1.notList
    · rw [hs.endParams.1]
      trivial
    · exact hs.dueParams.1.notList
    · exact hs.durParams.1.notList
    · rw [hs.endParams.2]
      trivial
  | alarmAction =>
    cases List.mem_singleton.1 hk
    exact (h.action hcv).notList
  | calendarTimezone => cases hk

theorem markLast_own (p : Params) (hp : mergeKey ∉ p.map Prod.fst) (vs : List (Val σ)) :
    ((markLast (vs.map fun v => (v, setMerge p true))).map Prod.snd).map (fun p => setMerge (dictErase p mergeKey) false) =
      vs.map fun _ => setMerge p false := by
  have he : ∀ b, dictErase (setMerge p b) mergeKey = p := fun b => by
    rw [erase_setMerge, dictErase_absent _ _ (dictGet_eq_none.2 hp)]
  induction vs with
  | nil => rfl
  | cons v vs ih =>
    cases vs with
    | nil => simp only [List.map_cons, List.map_nil, markLast, setMerge_setMerge, he]
    | cons w vs =>
      rw [List.map_cons] at ih
      rw [List.map_cons, List.map_cons, markLast_cons_cons, List.map_cons, List.map_cons, ih, he]
      simp only [List.map_cons]

/-- The groups with one value each. -/
def splitGroups (groups : List (Params × List (Val σ))) : List (Params × List (Val σ)) :=
  groups.flatMap fun g => g.2.map fun v => (g.1, [v])

theorem splitGroups_values (groups : List (Params × List (Val σ))) :
    ((splitGroups groups).map Prod.snd).flatten = (groups.map Prod.snd).flatten := by
  induction groups with
  | nil => rfl
  | cons g groups ih =>
    simp only [splitGroups, List.flatMap_cons, List.map_append, List.flatten_append, List.map_cons, List.flatten_cons] at ih ⊢
    rw [ih]
    congr 1
    generalize g.2 = vs
    induction vs with
    | nil => rfl
    | cons v vs ih => simpa using ih

theorem splitGroups_params (groups : List (Params × List (Val σ))) (h : ∀ g ∈ groups, mergeKey ∉ g.1.map Prod.fst) :
    ((groups.map fun g => (markLast (g.2.map fun v => (v, setMerge g.1 true))).map Prod.snd).flatten).map
        (fun p => setMerge (dictErase p mergeKey) false) =
      ((splitGroups groups).map fun g => (markLast (g.2.map fun v => (v, setMerge g.1 true))).map Prod.snd).flatten := by
  induction groups with
  | nil => rfl
  | cons g groups ih =>
    rw [List.map_cons, List.flatten_cons, List.map_append, markLast_own _ (h g List.mem_cons_self),
      ih fun g' hg' => h g' (List.mem_cons_of_mem _ hg')]
    simp only [splitGroups, List.flatMap_cons, List.map_append, List.flatten_append]
    congr 1
    generalize g.2 = vs
    induction vs with
    | nil => rfl
    | cons v vs ih =>
      simp only [List.map_cons, List.flatten_cons, List.map_nil, markLast, setMerge_setMerge] at ih ⊢
      rw [ih]
      rfl

theorem repGroup_split {s : AttrSpec} {p : Params} {vs : List (Val σ)} (h : RepGroup L zs s p vs) {v : Val σ} (hv : v ∈ vs) :
    RepGroup L zs s p [v] where
  nonempty := nofun
  unique := h.unique
  params := h.params
  same := by
    obtain ⟨c, hc⟩ := h.same
    refine ⟨c, fun w hw => ?_⟩
    cases List.mem_singleton.1 hw
    exact hc v hv
  url := fun u hu => h.url u (by cases List.mem_singleton.1 hu; exact hv)
  attendee := fun a u x hx => by
    have := h.attendee a u x (by cases List.mem_singleton.1 hx; exact hv)
    exact ⟨this.1, this.2.1, this.2.2.1, rfl⟩

theorem repMulti_own {s : AttrSpec} (h : RepMulti L zs o s) : RepMulti L zs o.ownLines s := by
  obtain ⟨groups, h1, h2, h3⟩ := h
  rcases h3 with ⟨h3, h4⟩ | ⟨h3, h4⟩
  · refine ⟨groups, h1, h2, .inl ⟨?_, h4⟩⟩
    rw [get_ownLines, h3]
    rfl
  · refine ⟨splitGroups groups, ?_, ?_, .inr ⟨?_, ?_⟩⟩
    · intro g hg
      obtain ⟨g', hg', hv⟩ := List.mem_flatMap.1 hg
      obtain ⟨v, hw, rfl⟩ := List.mem_map.1 hv
      exact repGroup_split (h1 g' hg') hw
    · rw [splitGroups_values]
      exact h2
    · intro e
      obtain ⟨g, groups, rfl⟩ := List.exists_cons_of_ne_nil h3
      have := (List.flatMap_eq_nil_iff.1 e) g List.mem_cons_self
      exact (h1 g List.mem_cons_self).nonempty (List.map_eq_nil_iff.1 this)
    · rw [get_ownLines, h4, ← splitGroups_params _ fun g hg => (h1 g hg).params.2]
      rfl

theorem repSingle_params {s : AttrSpec} {p : Obj σ} (ha : p.get s.attr = o.get s.attr)
    (hp : dictGet? p.extraParams (upper s.attr) = dictGet? o.extraParams (upper s.attr) ∨
      dictGet? p.extraParams (upper s.attr) = none) (h : RepSingle L zs o s) : RepSingle L zs p s := by
  unfold RepSingle at h ⊢
  rw [ha]
  rcases hp with hp | hp
  · rw [hp]
    exact h
  · rw [hp]
    generalize o.get s.attr = x at h
    cases x with
    | none => exact ⟨rfl, h.2⟩
    | one v =>
      obtain ⟨c, h1, h2, h3, h4, h5⟩ := h
      exact ⟨c, h1, h2, h3, trivial, fun _ => rfl⟩
    | many l => exact h

theorem repMulti_none {s : AttrSpec} {p : Obj σ} (ha : p.get s.attr = o.get s.attr)
    (hp : dictGet? p.extraParams (upper s.attr) = none) (h : RepMulti L zs o s) : RepMulti L zs p s := by
  obtain ⟨groups, h1, h2, h3⟩ := h
  refine ⟨(splitGroups groups).map fun g => ([], g.2), ?_, ?_, .inl ⟨hp, ?_⟩⟩
  · intro g hg
    obtain ⟨g1, hg1, rfl⟩ := List.mem_map.1 hg
    obtain ⟨g', hg', hv⟩ := List.mem_flatMap.1 hg1
    obtain ⟨v, hw, rfl⟩ := List.mem_map.1 hv
    have := repGroup_split (h1 g' hg') hw
    exact {
      nonempty := nofun
      unique := List.nodup_nil
      params := ⟨List.not_mem_nil, List.not_mem_nil⟩
      same := this.same
      url := this.url
      attendee := fun a u x hx => ⟨(this.attendee a u x hx).1, (this.attendee a u x hx).2.1, rfl, rfl⟩ }
  · rw [ha, h2, ← splitGroups_values, List.map_map]
    rfl
  · intro g hg
    obtain ⟨g1, hg1, rfl⟩ := List.mem_map.1 hg
    obtain ⟨g', hg', hv⟩ := List.mem_flatMap.1 hg1
    obtain ⟨v, hw, rfl⟩ := List.mem_map.1 hv
    exact ⟨rfl, rfl⟩

theorem repSpan_params {s : Span} {p : Obj σ} (hc : p.cls = o.cls) (ha : p.get "timespan".toList = o.get "timespan".toList)
    (hp : ∀ k ∈ Conv.timespan.paramKeys, dictGet? p.extraParams k = dictGet? o.extraParams k ∨ dictGet? p.extraParams k = none)
    (h : RepSpan L zs o s) : RepSpan L zs p s where
  get := ha.trans h.get
  cls := by rw [hc]; exact h.cls
  valid := h.valid
  timed := h.timed
  begin := h.begin
  end_ := h.end_
  dur := h.dur
  beginParams := by
    rcases hp "BEGIN".toList (by decide) with e | e <;> rw [e]
    · exact h.beginParams
    · exact ⟨trivial, fun _ => rfl⟩
  endParams := by
    constructor
    · rcases hp "END".toList (by decide) with e | e <;> rw [e]
      exact h.endParams.1
    · rcases hp "DTEND".toList (by decide) with e | e <;> rw [e]
      exact h.endParams.2
  dueParams := by
    rw [hc]
    rcases hp "DUE".toList (by decide) with e | e <;> rw [e]
    · exact h.dueParams
    · exact ⟨trivial, fun _ => rfl⟩
  durParams := by
    rcases hp "DURATION".toList (by decide) with e | e <;> rw [e]
    · exact h.durParams
    · exact ⟨trivial, fun _ => rfl⟩

/-- Fewer unknown items, and single parameters that are kept or dropped. -/
theorem repObj_params {p : Obj σ} (h : RepObj L zs M o) (hc : p.cls = o.cls) (hn : p.extraName = o.extraName)
    (he : ∀ i ∈ p.extra, i ∈ o.extra) (ha : ∀ k, p.get k = o.get k)
    (hp : ∀ cv ∈ o.cls.convs, cv.multiAttr = none → ∀ k ∈ cv.paramKeys,
      dictGet? p.extraParams k = dictGet? o.extraParams k ∨ dictGet? p.extraParams k = none)
    (hm : ∀ s, .value s ∈ o.cls.convs → s.multi = true → RepMulti L zs p s) : RepObj L zs M p where
  cls := by rw [hc]; exact h.cls
  name := by rw [hn, hc]; exact h.name
  extra := fun i hi => by rw [hc]; exact h.extra i (he i hi)
  single := by
    rw [hc]
    intro s hs hf
    refine repSingle_params (ha _) (hp _ hs ?_ _ (List.mem_singleton_self _)) (h.single s hs hf)
    simp only [Conv.multiAttr, hf]
    rfl
  multi := by rw [hc]; exact hm
  members := by
    rw [hc]
    intro a n hcv
    obtain ⟨h1, h2⟩ := h.members a n hcv
    refine ⟨?_, by rw [ha]; exact h2⟩
    rcases hp _ hcv rfl (upper a) (List.mem_singleton_self _) with e | e <;> rw [e]
    exact h1
  time := by
    rw [hc]
    intro hcv
    obtain ⟨s, hs⟩ := h.time hcv
    exact ⟨s, repSpan_params hc (ha _) (hp _ hcv rfl) hs⟩
  action := by
    rw [hc]
    intro hcv
    rcases hp _ hcv rfl "ACTION".toList (List.mem_singleton_self _) with e | e <;> rw [e]
    · exact h.action hcv
    · trivial

theorem repObj_own (h : RepObj L zs M o) : RepObj L zs M o.ownLines :=
  repObj_params h rfl rfl (fun _ h => h) (fun _ => rfl) (fun cv hcv hm k hk => .inl (by
    rw [get_ownLines, (rep_notList h hcv hm k hk).ownLines])) fun s hs hm => repMulti_own (h.multi s hs hm)

theorem repObj_extra (h : RepObj L zs M o) : RepObj L zs M { o with extra := [] } :=
  repObj_params h rfl rfl (fun _ h => absurd h List.not_mem_nil) (fun _ => rfl) (fun cv hcv hm k hk => .inl rfl) fun s hs hm => by
    obtain ⟨g, h1⟩ := h.multi s hs hm
    exact ⟨g, h1⟩

theorem repObj_noParams (h : RepObj L zs M o) : RepObj L zs M { o with extraParams := [] } :=
  repObj_params h rfl rfl (fun _ h => h) (fun _ => rfl) (fun cv hcv hm k hk => .inr rfl) fun s hs hm =>
    repMulti_none (o := o) rfl rfl (h.multi s hs hm)

/-! ### Writing without marks -/

theorem zip_own {l : List (Val σ)} {ps : List Params} (h : ∀ p ∈ ps, mergeNext (dictErase p mergeKey) = false) :
    List.Forall₂ (SameStep L (fun _ _ : σ => False)) (l.zip (ps.map fun p => dictErase p mergeKey))
      (l.zip (ps.map fun p => setMerge (dictErase p mergeKey) false)) := by
  induction l generalizing ps with
  | nil => exact .nil
  | cons v l ih =>
    cases ps with
    | nil => exact .nil
    | cons p ps =>
      refine .cons ⟨.same v, ?_, ?_⟩ (ih fun q hq => h q (List.mem_cons_of_mem _ hq))
      · change mergeNext (dictErase p mergeKey) = mergeNext (setMerge (dictErase p mergeKey) false)
        rw [h p List.mem_cons_self, mergeNext_setMerge]
      · change dictErase (dictErase p mergeKey) mergeKey = dictErase (setMerge (dictErase p mergeKey) false) mergeKey
        rw [erase_setMerge]

theorem dumpMulti_own {s : AttrSpec} (h : ∀ ps, dictGet? o.extraParams (extraKey s.attr) = some (.many ps) →
    ∀ p ∈ ps, mergeNext (dictErase p mergeKey) = false) (st : DState) :
    dumpMulti L s o.stripMerge st = dumpMulti L s o.ownLines st := by
  unfold dumpMulti
  change (match o.get s.attr with | .many values => _ | _ => _) = (match o.get s.attr with | .many values => _ | _ => _)
  cases o.get s.attr with
  | none => rfl
  | one v => rfl
  | many values =>
    rw [get_stripMerge, get_ownLines]
    cases hp : dictGet? o.extraParams (extraKey s.attr) with
    | none => rfl
    | some e =>
      cases e with
      | one p => rfl
      | many ps =>
        simp only [Option.map_some, ExtraVal.stripMerge, ExtraVal.ownLines, zipParams, List.length_map, List.map_eq_nil_iff]
        by_cases h0 : ps = []
        · simp only [if_pos h0]
        · simp only [if_neg h0]
          by_cases h1 : ps.length ≠ values.length
          · simp only [if_pos h1]
          · simp only [if_neg h1, bind, Except.bind]
            exact dumpMultiLoop_same (zip_own (h ps hp)) _ _ _

theorem mergeNext_absent {p : Params} (h : mergeKey ∉ p.map Prod.fst) : mergeNext p = false := by
  unfold mergeNext
  rw [dictGet_eq_none.2 h]
  rfl

theorem markLast_snd {P : Params → Prop} {l : List (Val σ × Params)} (h : ∀ x ∈ l, ∀ b, P x.2 ∧ P (setMerge x.2 b)) :
    ∀ p ∈ (markLast l).map Prod.snd, P p := by
  induction l with
  | nil => exact fun p hp => absurd hp List.not_mem_nil
  | cons x l ih =>
    cases l with
    | nil =>
      intro p hp
      cases List.mem_singleton.1 hp
      exact (h x List.mem_cons_self false).2
    | cons y l =>
      intro p hp
      rw [markLast_cons_cons, List.map_cons] at hp
      rcases List.mem_cons.1 hp with rfl | hp
      · exact (h x List.mem_cons_self false).1
      · exact ih (fun z hz => h z (List.mem_cons_of_mem _ hz)) p hp

theorem rep_noMerge {s : AttrSpec} (h : RepMulti L zs o s) : ∀ ps, dictGet? o.extraParams (extraKey s.attr) = some (.many ps) →
    ∀ p ∈ ps, mergeNext (dictErase p mergeKey) = false := by
  intro ps hps p hp
  obtain ⟨groups, h1, -, h3⟩ := h
  rcases h3 with ⟨h3, -⟩ | ⟨-, h3⟩
  · rw [show dictGet? o.extraParams (extraKey s.attr) = none from h3] at hps
    cases hps
  · rw [show dictGet? o.extraParams (extraKey s.attr) = _ from h3] at hps
    injection hps with hps
    injection hps with hps
    subst hps
    obtain ⟨l, hl, hp⟩ := List.mem_flatten.1 hp
    obtain ⟨g, hg, rfl⟩ := List.mem_map.1 hl
    refine markLast_snd (P := fun p => mergeNext (dictErase p mergeKey) = false) ?_ p hp
    intro x hx b
    obtain ⟨v, -, rfl⟩ := List.mem_map.1 hx
    have he : dictErase g.1 mergeKey = g.1 := dictErase_absent _ _ (dictGet_eq_none.2 (h1 g hg).params.2)
    refine ⟨?_, ?_⟩
    · rw [erase_setMerge, he]
      exact mergeNext_absent (h1 g hg).params.2
    · rw [erase_setMerge, erase_setMerge, he]
      exact mergeNext_absent (h1 g hg).params.2

theorem conv_dump_own {memd : MemberDump σ} (h : RepObj L zs M o) {cv : Conv} (hcv : cv ∈ o.cls.convs) (st : DState) :
    cv.dump L memd o.stripMerge st = cv.dump L memd o.ownLines st := by
  have par : cv.multiAttr = none → ∀ k ∈ cv.paramKeys,
      dictGet? o.stripMerge.extraParams k = dictGet? o.ownLines.extraParams k := by
    intro hm k hk
    have := rep_notList h hcv hm k hk
    rw [get_stripMerge, get_ownLines, this.stripMerge, this.ownLines]
  cases cv with
  | value s =>
    cases hm : s.multi with
    | false =>
      have hp := par (by simp only [Conv.multiAttr, hm]; rfl) _ (List.mem_singleton_self _)
      simp only [Conv.dump, hm]
      unfold dumpSingle
      rw [extraParamsOf_same hp]
      rfl
    | true =>
      simp only [Conv.dump, hm]
      exact dumpMulti_own (rep_noMerge (h.multi s hcv hm)) st
  | member k n =>
    have hp := par rfl _ (List.mem_singleton_self _)
    change dumpMember memd k o.stripMerge st = dumpMember memd k o.ownLines st
    unfold dumpMember
    rw [hp]
    rfl
  | timespan =>
    have hp := par rfl
    have h1 : ∀ s st, dumpSpanBegin L o.stripMerge s st = dumpSpanBegin L o.ownLines s st := fun s st =>
      dumpSpanBegin_same ⟨rfl, sameTime?_refl _, sameTime?_refl _, rfl, rfl⟩ (hp _ (by decide)) st
    have h2 : ∀ s st, dumpSpanEnd L o.stripMerge s st = dumpSpanEnd L o.ownLines s st := fun s st =>
      dumpSpanEnd_same ⟨rfl, sameTime?_refl _, sameTime?_refl _, rfl, rfl⟩ (hp _ (by decide))
        (fun k hk => hp k (by revert k; decide)) st
    change dumpSpan L o.stripMerge st = dumpSpan L o.ownLines st
    unfold dumpSpan
    simp only [h1, h2]
    rfl
  | alarmAction => exact dumpAction_same (a := o.stripMerge) (b := o.ownLines) rfl (par rfl _ (List.mem_singleton_self _)) st
  | calendarTimezone => rfl

theorem dumpConvs_own {memd : MemberDump σ} (h : RepObj L zs M o) :
    ∀ (cvs : List Conv), (∀ cv ∈ cvs, cv ∈ o.cls.convs) →
      ∀ st, dumpConvs L memd cvs o.stripMerge st = dumpConvs L memd cvs o.ownLines st
  | [], _, _ => rfl
  | cv :: cvs, hcvs, st => by
    simp only [dumpConvs, conv_dump_own h (hcvs cv List.mem_cons_self),
      dumpConvs_own h cvs fun cv hcv => hcvs cv (List.mem_cons_of_mem _ hcv)]

theorem dumpObj_own {memd : MemberDump σ} (h : RepObj L zs M o) (st : DState) :
    dumpObj L memd o.stripMerge st = dumpObj L memd o.ownLines st := by
  unfold dumpObj
  rw [show o.stripMerge.cls = o.cls from rfl, show o.ownLines.cls = o.cls from rfl, dumpConvs_own h _ fun _ h => h]
  rfl

end

/-- One line for each value if no value is merged with the next one. -/
theorem dumpMultiLoop_own {L : Lib} {s : AttrSpec} {l : List (Val σ × Params)} (h : ∀ x ∈ l, mergeNext x.2 = false) :
    ∀ {ts st is st'}, dumpMultiLoop L s l none ts st = .ok (is, st') → is.length = l.length := by
  induction l with
  | nil =>
    intro ts st is st' h
    cases h
    rfl
  | cons x l ih =>
    obtain ⟨v, p⟩ := x
    intro ts st is st' hd
    have hp : mergeNext p = false := h _ List.mem_cons_self
    simp only [dumpMultiLoop, hp, bind, Except.bind] at hd
    split at hd
    · cases hd
    split at hd
    · cases hd
    split at hd
    · cases hd
    rw [if_neg Bool.false_ne_true] at hd
    split at hd
    · cases hd
    rename_i r hr
    have := ih (fun x hx => h x (List.mem_cons_of_mem _ hx)) hr
    injection hd with hd
    injection hd with hd _
    subst hd
    rw [List.length_cons, List.length_cons, this]

end Ics
