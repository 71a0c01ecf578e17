import Verif.Proofs.Accepted

/-
The time of a component that was read can be written.
-/
namespace Ics

variable {σ : Type}

theorem parseSpanValue_good {L : Lib} {cl : ContentLine} {ctx ctx' : Ctx} {v : DT} {prec : Precision} {p : Params}
    (h : parseSpanValue L cl ctx = .ok (v, prec, p, ctx')) : GoodTime v ∧ (prec = .day ∨ prec = .second) := by
  unfold parseSpanValue at h
  dsimp only at h
  split at h
  · rw [map_ok_iff] at h
    obtain ⟨⟨d, q, ctx2⟩, h, e⟩ := h
    cases e
    exact ⟨parseDt_good h, .inr rfl⟩
  · split at h
    · rw [map_ok_iff] at h
      obtain ⟨⟨d, q, ctx2⟩, h, e⟩ := h
      cases e
      obtain ⟨h1, h2⟩ := parseDate_good h
      exact ⟨⟨h1, rfl, h2⟩, .inl rfl⟩
    · cases h

theorem read_spanTime {L : Lib} {mem : MemberLoad σ} {zones : List (Str × Nat)} {rd : Reading σ}
    (h : IsReading L mem (L.toWorld.resolve (some zones)) rd) {cl : ContentLine} (hn : cl.name ≠ "DURATION".toList)
    {v : DT} {prec : Precision} {p : Params} (hd : rd .timespan (.line cl) = .ok (.spanTime v prec p)) :
    ∃ ctx', parseSpanValue L cl (some zones) = .ok (v, prec, p, ctx') := by
  have q := h .timespan (.line cl) (some zones) rfl rfl
  unfold Outcome at q
  rw [hd] at q
  obtain ⟨ctx', q, _⟩ := q
  simp only [readConv, if_neg hn, bind_ok_iff] at q
  obtain ⟨⟨v', prec', p', ctx2⟩, q1, q2⟩ := q
  cases q2
  exact ⟨_, q1⟩

theorem read_spanDur {L : Lib} {mem : MemberLoad σ} {zones : List (Str × Nat)} {rd : Reading σ}
    (h : IsReading L mem (L.toWorld.resolve (some zones)) rd) {cl : ContentLine} (hn : cl.name = "DURATION".toList)
    {d : Int} (hd : rd .timespan (.line cl) = .ok (.spanDur d)) : durationParse cl.value = .ok d := by
  have q := h .timespan (.line cl) (some zones) rfl rfl
  unfold Outcome at q
  rw [hd] at q
  obtain ⟨ctx', q, _⟩ := q
  simp only [readConv, if_pos hn, bind_ok_iff] at q
  obtain ⟨d', q1, q2⟩ := q
  cases q2
  exact q1

/-- What holds while the lines of the time are read. -/
structure SpanInv (c : Cls) (b : Core σ) : Prop where
  begin : ∀ d, b.span.begin? = some d → GoodTime d
  end_ : ∀ d, b.span.end? = some d → GoodTime d
  dur : ∀ d, b.span.dur? = some d → RepDur d
  timed : ((b.span.begin?.isSome ∨ b.span.end?.isSome) ∧ (b.span.prec? = some .day ∨ b.span.prec? = some .second)) ∨
    (b.span.begin? = none ∧ b.span.end? = none ∧ b.span.prec? = none)
  beginParams : RepParams ["VALUE", "TZID"] (dictGet? b.obj.extraParams "BEGIN".toList) ∧
    (b.span.begin? = none → dictGet? b.obj.extraParams "BEGIN".toList = none)
  endParams : dictGet? b.obj.extraParams "END".toList = none ∧ dictGet? b.obj.extraParams "DTEND".toList = none
  dueParams : RepParams ["VALUE", "TZID"] (dictGet? b.obj.extraParams "DUE".toList) ∧
    (b.span.end? = none ∨ c ≠ .todo → dictGet? b.obj.extraParams "DUE".toList = none)
  durParams : RepParams [] (dictGet? b.obj.extraParams "DURATION".toList) ∧
    (b.span.dur? = none → dictGet? b.obj.extraParams "DURATION".toList = none)

theorem spanNames {n : Str} (h : n ∈ Conv.timespan.names) :
    n = "DTSTART".toList ∨ n = "DTEND".toList ∨ n = "DUE".toList ∨ n = "DURATION".toList := by
  simpa [Conv.names] using h

theorem erase2_rep {p : Params} (h : (p.map Prod.fst).Nodup)
    (hne : dictErase (dictErase p "VALUE".toList) "TZID".toList ≠ []) :
    RepParams ["VALUE", "TZID"] (some (.one (dictErase (dictErase p "VALUE".toList) "TZID".toList))) := by
  refine ⟨hne, fun k hk => ?_⟩
  simp only [List.mem_cons, List.not_mem_nil, or_false] at hk
  rcases hk with rfl | rfl
  · exact fun e => erase_notMem h (erase_keys e)
  · exact erase_notMem (erase_nodup _ h)

theorem erase2_nil {p : Params} (h : (p.map Prod.fst).Nodup)
    (hk : ∀ k ∈ p.map Prod.fst, k = "VALUE".toList ∨ k = "TZID".toList) :
    dictErase (dictErase p "VALUE".toList) "TZID".toList = [] := by
  cases he : dictErase (dictErase p "VALUE".toList) "TZID".toList with
  | nil => rfl
  | cons x l =>
    have hx : x.1 ∈ (dictErase (dictErase p "VALUE".toList) "TZID".toList).map Prod.fst := by
      rw [he]
      exact List.mem_cons_self
    rcases hk _ (erase_keys (erase_keys hx)) with e | e
    · exact absurd (e ▸ erase_keys hx) (erase_notMem h)
    · exact absurd (e ▸ hx) (erase_notMem (erase_nodup _ h))

theorem spanInv_step {L : Lib} {mem : MemberLoad σ} {zones : List (Str × Nat)} {rd : Reading σ}
    (hrd : IsReading L mem (L.toWorld.resolve (some zones)) rd) {c : Cls} {cl : ContentLine}
    (hn : cl.name ∈ Conv.timespan.names) (hp : GoodParams cl.params)
    (he : cl.name = "DTEND".toList ∨ cl.name = "DUE".toList ∧ c ≠ .todo →
      ∀ k ∈ cl.params.map Prod.fst, k = "VALUE".toList ∨ k = "TZID".toList)
    {a b : Core σ} (h : coreConv L rd .timespan (.line cl) a = .ok b) (ha : SpanInv c a) : SpanInv c b := by
  obtain ⟨_, h⟩ := (spanStep_iff (spanReading hrd) hn).1 h
  split at h
  · rename_i e
    obtain ⟨d, hd, rfl⟩ := h
    have hg : ∀ k, k ≠ "DURATION".toList → dictGet? (storeSpanDur cl d a).obj.extraParams k = dictGet? a.obj.extraParams k := by
      intro k hk
      show dictGet? (Obj.setExtraParams _ _ _).extraParams _ = _
      rw [dictGet_setExtraParams_eq, if_neg]
      rintro ⟨_, h⟩
      exact hk h
    refine ⟨ha.begin, ha.end_, ?_, ha.timed, ?_, ?_, ?_, ?_, ?_⟩
    · intro d' e'
      cases e'
      exact durationParse_good (read_spanDur hrd e hd)
    · rw [hg _ (by decide)]
      exact ha.beginParams
    · rw [hg _ (by decide), hg _ (by decide)]
      exact ha.endParams
    · rw [hg _ (by decide)]
      exact ha.dueParams
    · show RepParams _ (dictGet? (Obj.setExtraParams _ _ _).extraParams _)
      rw [dictGet_setExtraParams_eq]
      split
      · rename_i h
        exact ⟨h.1, nofun⟩
      · exact ha.durParams.1
    · nofun
  · rename_i e
    obtain ⟨v, prec, p, hd, hprec, rfl⟩ := h
    obtain ⟨ctx', hv⟩ := read_spanTime hrd e hd
    obtain ⟨g1, g2⟩ := parseSpanValue_good hv
    have g3 := parseSpanValue_params hv
    subst g3
    have hg : ∀ k, dictGet? (a.timed cl.name v prec (dictErase (dictErase cl.params "VALUE".toList) "TZID".toList)).obj.extraParams k =
        if dictErase (dictErase cl.params "VALUE".toList) "TZID".toList ≠ [] ∧ k = extraKey (spanKey cl.name) then
          some (.one (dictErase (dictErase cl.params "VALUE".toList) "TZID".toList)) else dictGet? a.obj.extraParams k :=
      fun k => dictGet_setExtraParams_eq _ _ _ _
    have hprec' : some prec = some Precision.day ∨ some prec = some .second := by
      rcases g2 with rfl | rfl
      · exact .inl rfl
      · exact .inr rfl
    rcases spanNames hn with n | n | n | n
    · rw [n] at hg ⊢
      have hk : ∀ k, k ≠ "BEGIN".toList → dictGet? (a.timed "DTSTART".toList v prec _).obj.extraParams k = dictGet? a.obj.extraParams k :=
        fun k hk => (hg k).trans (if_neg fun h => hk h.2)
      refine ⟨?_, ha.end_, ha.dur, .inl ⟨.inl rfl, hprec'⟩, ⟨?_, nofun⟩, ?_, ?_, ?_⟩
      · intro d e
        cases e
        exact g1
      · rw [hg]
        split
        · rename_i h
          exact erase2_rep hp.1 h.1
        · exact ha.beginParams.1
      · rw [hk _ (by decide), hk _ (by decide)]
        exact ha.endParams
      · rw [hk _ (by decide)]
        exact ha.dueParams
      · rw [hk _ (by decide)]
        exact ha.durParams
    · have hnil := erase2_nil hp.1 (he (.inl n))
      rw [n] at hg ⊢
      have hk : ∀ k, dictGet? (a.timed "DTEND".toList v prec _).obj.extraParams k = dictGet? a.obj.extraParams k :=
        fun k => (hg k).trans (if_neg fun h => h.1 hnil)
      refine ⟨ha.begin, ?_, ha.dur, .inl ⟨.inr rfl, hprec'⟩, ?_, ?_, ?_, ?_⟩
      · intro d e
        cases e
        exact g1
      · rw [hk]
        exact ha.beginParams
      · rw [hk, hk]
        exact ha.endParams
      · rw [hk]
        exact ⟨ha.dueParams.1, fun h => ha.dueParams.2 (h.imp_left nofun)⟩
      · rw [hk]
        exact ha.durParams
    · have hnil : c ≠ .todo → dictErase (dictErase cl.params "VALUE".toList) "TZID".toList = [] := fun hc =>
        erase2_nil hp.1 (he (.inr ⟨n, hc⟩))
      rw [n] at hg ⊢
      have hk : ∀ k, k ≠ "DUE".toList → dictGet? (a.timed "DUE".toList v prec _).obj.extraParams k = dictGet? a.obj.extraParams k :=
        fun k hk => (hg k).trans (if_neg fun h => hk h.2)
      refine ⟨ha.begin, ?_, ha.dur, .inl ⟨.inr rfl, hprec'⟩, ?_, ?_, ⟨?_, ?_⟩, ?_⟩
      · intro d e
        cases e
        exact g1
      · rw [hk _ (by decide)]
        exact ha.beginParams
      · rw [hk _ (by decide), hk _ (by decide)]
        exact ha.endParams
      · rw [hg]
        split
        · rename_i h
          exact erase2_rep hp.1 h.1
        · exact ha.dueParams.1
      · rintro (h | h)
        · cases h
        · rw [hg, if_neg fun h' => h'.1 (hnil h)]
          exact ha.dueParams.2 (.inr h)
      · rw [hk _ (by decide)]
        exact ha.durParams
    · exact absurd n e

theorem spanInv_new (L : Lib) (c : Cls) : SpanInv c (.new L c : Core σ) :=
  ⟨nofun, nofun, nofun, .inr ⟨rfl, rfl, rfl⟩, ⟨trivial, fun _ => rfl⟩, ⟨rfl, rfl⟩, ⟨trivial, fun _ => rfl⟩,
    ⟨trivial, fun _ => rfl⟩⟩

theorem spanInv_fold {L : Lib} {mem : MemberLoad σ} {zones : List (Str × Nat)} {rd : Reading σ}
    (hrd : IsReading L mem (L.toWorld.resolve (some zones)) rd) {c : Cls} {items : List Item}
    (hn : ∀ i ∈ items, i.name ∈ Conv.timespan.names) (hp : ∀ cl, .line cl ∈ items → GoodParams cl.params)
    (he : ∀ cl, .line cl ∈ items → cl.name = "DTEND".toList ∨ cl.name = "DUE".toList ∧ c ≠ .todo →
      ∀ k ∈ cl.params.map Prod.fst, k = "VALUE".toList ∨ k = "TZID".toList)
    {a b : Core σ} (h : foldConv L rd .timespan items a = .ok b) (ha : SpanInv c a) : SpanInv c b := by
  induction items generalizing a with
  | nil =>
    cases h
    exact ha
  | cons i is ih =>
    simp only [foldConv, bind_ok_iff] at h
    obtain ⟨a1, h1, h2⟩ := h
    obtain ⟨cl, rfl⟩ := spanItem_line h1
    exact ih (fun i hi => hn i (List.mem_cons_of_mem _ hi)) (fun cl hi => hp cl (List.mem_cons_of_mem _ hi))
      (fun cl hi => he cl (List.mem_cons_of_mem _ hi)) h2
      (spanInv_step hrd (hn _ List.mem_cons_self) (hp _ List.mem_cons_self) (he _ List.mem_cons_self) h1 ha)

/-- The time of a component that was read. -/
theorem span_rep {L : Lib} {mem : MemberLoad σ} (hmem : MemStable L mem) {c : Cls} {items : List Item}
    {zones zs : List (Str × Nat)} {o : Obj σ} {ctx1 : Ctx} {M : σ → Prop}
    (h : loadObj L mem c items (some zones) = .ok (o, ctx1)) (hl : SafeLines items) (ho : SafeObj L zs M o)
    (he : ∀ cl, .line cl ∈ items → cl.name = "DTEND".toList ∨ cl.name = "DUE".toList ∧ c ≠ .todo →
      ∀ k ∈ cl.params.map Prod.fst, k = "VALUE".toList ∨ k = "TZID".toList)
    (hc : .timespan ∈ c.convs) : ∃ s, RepSpan L zs o s := by
  obtain ⟨rd, b, hrd, hb, hget, hval, hend, hpar⟩ := load_span hmem h hc
  have hcls := (loadObj_frame h).1
  have inv := spanInv_fold hrd (fun i hi => of_decide_eq_true (List.mem_filter.1 hi).2)
    (fun cl hi => hl.params cl (List.mem_filter.1 hi).1) (fun cl hi => he cl (List.mem_filter.1 hi).1) hb
    (spanInv_new L c)
  have hk : ∀ k : Str, k ∈ Conv.timespan.paramKeys → dictGet? o.extraParams k = dictGet? b.obj.extraParams k := hpar
  obtain ⟨s1, s2⟩ := ho.one _ _ (get_of_dict hget)
  refine ⟨spanOf c b.span, get_of_dict hget, ?_, hval, ?_, fun d hd => (inv.begin d hd).rep (s1 d hd),
    fun d hd => (inv.end_ d hd).rep (s2 d hd), inv.dur, ?_, ?_, ?_, ?_⟩
  · show c.spanCls = _
    rw [← hcls]
  · rcases inv.timed with ⟨h1, h2⟩ | ⟨h1, h2, h3⟩
    · left
      refine ⟨h1, ?_⟩
      show b.span.prec?.getD _ = _ ∨ b.span.prec?.getD _ = _
      rcases h2 with h2 | h2 <;> rw [h2]
      · exact .inl rfl
      · exact .inr rfl
    · right
      refine ⟨h1, h2, ?_⟩
      show b.span.prec?.getD _ = _
      rw [h3]
      rfl
  · rw [hk _ (by decide)]
    exact inv.beginParams
  · rw [hk _ (by decide), hk _ (by decide)]
    exact inv.endParams
  · rw [hk _ (by decide)]
    have e : o.cls = c := hcls
    rw [e]
    exact inv.dueParams
  · rw [hk _ (by decide)]
    exact inv.durParams

end Ics
