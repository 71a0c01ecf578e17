import Verif.Proofs.Lists
import Verif.Proofs.Order

/-
The time of a loaded component.
-/
namespace Ics

variable {σ : Type}

/-- The span that is made of the entries of the context. -/
def spanOf (c : Cls) (s : SpanCtx) : Span := ⟨c.spanCls, s.begin?, s.end?, s.dur?, s.prec?.getD (.other [])⟩

theorem corePost_span {L : Lib} {a b : Core σ} (h : corePost L .timespan a = .ok b) :
    dictGet? b.obj.attrs "timespan".toList = some (.one (.span (spanOf a.obj.cls a.span))) ∧
      L.validate (spanOf a.obj.cls a.span) = .ok () ∧
      a.span.endName?.getD a.obj.cls.spanCls.endName = a.obj.cls.spanCls.endName := by
  unfold corePost at h
  rw [map_ok_iff] at h
  obtain ⟨st, h, rfl⟩ := h
  simp only [Conv.post, postSpan, bind_ok_iff] at h
  obtain ⟨sp, h1, _, h2, o, h3, h⟩ := h
  cases h
  simp only [Env.mkSpan, bind_ok_iff] at h1
  obtain ⟨u, h1, h4⟩ := h1
  cases h4
  rw [raiseIf_ok, decide_eq_false_iff_not, not_not] at h2
  simp only [Obj.setattr, map_ok_iff] at h3
  obtain ⟨w, h3, rfl⟩ := h3
  simp only [Check.run, map_ok_iff] at h3
  obtain ⟨_, _, rfl⟩ := h3
  exact ⟨dictGet_set _ _ _, h1, h2⟩

theorem span_first {c : Cls} (h : .timespan ∈ c.convs) : ∃ rest, c.convs = .timespan :: rest ∧ .timespan ∉ rest := by
  cases c
  case event => exact ⟨_, rfl, by decide⟩
  case todo => exact ⟨_, rfl, by decide⟩
  all_goals exact absurd h (by decide)

/-- The time of a loaded component is made of what its lines say. -/
theorem load_span {L : Lib} {mem : MemberLoad σ} (hmem : MemStable L mem) {c : Cls} {items : List Item}
    {zones : List (Str × Nat)} {o : Obj σ} {ctx1 : Ctx} (h : loadObj L mem c items (some zones) = .ok (o, ctx1))
    (hc : .timespan ∈ c.convs) :
    ∃ (rd : Reading σ) (b : Core σ), IsReading L mem (L.toWorld.resolve (some zones)) rd ∧
      foldConv L rd .timespan (Conv.own .timespan items) (.new L c) = .ok b ∧
      dictGet? o.attrs "timespan".toList = some (.one (.span (spanOf c b.span))) ∧
      L.validate (spanOf c b.span) = .ok () ∧ b.span.endName?.getD c.spanCls.endName = c.spanCls.endName ∧
      ∀ k ∈ Conv.timespan.paramKeys, dictGet? o.extraParams k = dictGet? b.obj.extraParams k := by
  obtain ⟨rd, hrd⟩ := exists_reading hmem (L.toWorld.resolve (some zones))
  have k := loadObj_core hrd c items (ctx := some zones) rfl rfl
  unfold Outcome at k
  cases ho : coreLoad L rd c items with
  | error e =>
    rw [ho] at k
    rw [k] at h
    cases h
  | ok o' =>
    rw [ho] at k
    obtain ⟨ctx', k, _⟩ := k
    rw [k] at h
    cases h
    have hoc := ho
    simp only [coreLoad, bind_ok_iff, map_ok_iff] at ho
    obtain ⟨a, ha, a', ha', rfl⟩ := ho
    obtain ⟨b, hb, hab⟩ := coreItems_agree ha hc
    have kk := corePostAll_keep ha'
    obtain ⟨rest, e, hrest⟩ := span_first hc
    rw [e] at ha'
    simp only [corePostAll, bind_ok_iff] at ha'
    obtain ⟨a1, h1, h2⟩ := ha'
    have k1 := corePost_span h1
    have hcls : a.obj.cls = c := by
      have := (loadObj_frame k).1
      rw [← this]
      exact kk.2.2.symm
    rw [hcls, ← hab.span rfl] at k1
    refine ⟨rd, b, hrd, hb, ?_, k1.2.1, k1.2.2, fun x hx => ?_⟩
    · rw [(corePostAll_keep h2).1 _ fun h => absurd h hrest]
      exact k1.1
    · rw [kk.2.1, hab.params x hx]

theorem foldConv_append {L : Lib} {rd : Reading σ} {cv : Conv} {xs ys : List Item} {a b : Core σ} :
    foldConv L rd cv (xs ++ ys) a = .ok b ↔ ∃ m, foldConv L rd cv xs a = .ok m ∧ foldConv L rd cv ys m = .ok b := by
  induction xs generalizing a with
  | nil => exact ⟨fun h => ⟨a, rfl, h⟩, fun ⟨m, h1, h2⟩ => by cases h1; exact h2⟩
  | cons x xs ih =>
    simp only [List.cons_append, foldConv, bind_ok_iff, ih]
    constructor
    · rintro ⟨a1, h1, m, h2, h3⟩
      exact ⟨m, ⟨a1, h1, h2⟩, h3⟩
    · rintro ⟨m, ⟨a1, h1, h2⟩, h3⟩
      exact ⟨a1, h1, m, h2, h3⟩

/-- Lines with other names leave alone what belongs to a name. -/
theorem foldSpan_other {L : Lib} {rd : Reading σ} (hrd : SpanReading rd) {n : Str} (hn : n ∈ Conv.timespan.names)
    {items : List Item} (hnames : ∀ i ∈ items, i.name ∈ Conv.timespan.names) (hne : ∀ i ∈ items, i.name ≠ n)
    {a b : Core σ} (h : foldConv L rd .timespan items a = .ok b) :
    dictGet? b.obj.extraParams (extraKey (spanKey n)) = dictGet? a.obj.extraParams (extraKey (spanKey n)) ∧
      (n = "DTSTART".toList → b.span.begin? = a.span.begin?) ∧ (n = "DURATION".toList → b.span.dur? = a.span.dur?) ∧
      (n ∈ b.span.seen ↔ n ∈ a.span.seen) := by
  induction items generalizing a with
  | nil =>
    cases h
    exact ⟨rfl, fun _ => rfl, fun _ => rfl, Iff.rfl⟩
  | cons i is ih =>
    simp only [foldConv, bind_ok_iff] at h
    obtain ⟨a1, h1, h2⟩ := h
    obtain ⟨k1, k2, k3, k4⟩ := ih (fun i hi => hnames i (List.mem_cons_of_mem _ hi))
      (fun i hi => hne i (List.mem_cons_of_mem _ hi)) h2
    obtain ⟨cl, rfl⟩ := spanItem_line h1
    have hcl := hnames _ List.mem_cons_self
    have hcn : cl.name ≠ n := hne _ List.mem_cons_self
    have hkey : extraKey (spanKey n) ≠ extraKey (spanKey cl.name) := spanKey_inj hn hcl (Ne.symm hcn)
    rw [spanStep_iff hrd hcl] at h1
    obtain ⟨hseen, h1⟩ := h1
    have main : dictGet? a1.obj.extraParams (extraKey (spanKey n)) = dictGet? a.obj.extraParams (extraKey (spanKey n)) ∧
        (n = "DTSTART".toList → a1.span.begin? = a.span.begin?) ∧ (n = "DURATION".toList → a1.span.dur? = a.span.dur?) ∧
        (n ∈ a1.span.seen ↔ n ∈ a.span.seen) := by
      split at h1
      · rename_i e
        obtain ⟨d, _, rfl⟩ := h1
        rw [e] at hkey hcn
        refine ⟨?_, fun _ => rfl, fun h => absurd h.symm hcn, ?_⟩
        · show dictGet? (Obj.setExtraParams _ _ _).extraParams _ = _
          rw [dictGet_setExtraParams_eq, if_neg]
          rintro ⟨_, h⟩
          exact hkey h
        · simp only [storeSpanDur, List.mem_append, List.mem_singleton, e]
          exact ⟨fun h => h.resolve_right (Ne.symm hcn), Or.inl⟩
      · obtain ⟨v, prec, p, _, _, rfl⟩ := h1
        refine ⟨?_, fun h => ?_, fun _ => rfl, ?_⟩
        · show dictGet? (Obj.setExtraParams _ _ _).extraParams _ = _
          rw [dictGet_setExtraParams_eq, if_neg]
          rintro ⟨_, h⟩
          exact hkey h
        · simp only [Core.timed]
          rw [if_neg (fun e => hcn (e.trans h.symm))]
        · simp only [Core.timed, List.mem_append, List.mem_singleton]
          exact ⟨fun h => h.resolve_right (Ne.symm hcn), Or.inl⟩
    exact ⟨k1.trans main.1, fun h => (k2 h).trans (main.2.1 h), fun h => (k3 h).trans (main.2.2.1 h),
      k4.trans main.2.2.2⟩

theorem foldSpan_seen {L : Lib} {rd : Reading σ} (hrd : SpanReading rd) {items : List Item}
    (hnames : ∀ i ∈ items, i.name ∈ Conv.timespan.names) {a b : Core σ} (h : foldConv L rd .timespan items a = .ok b) :
    (∀ i ∈ items, i.name ∉ a.span.seen ∧ i.name ∈ b.span.seen) ∧ ∀ n ∈ a.span.seen, n ∈ b.span.seen := by
  induction items generalizing a with
  | nil =>
    cases h
    exact ⟨by simp, fun _ h => h⟩
  | cons i is ih =>
    simp only [foldConv, bind_ok_iff] at h
    obtain ⟨a1, h1, h2⟩ := h
    obtain ⟨k1, k2⟩ := ih (fun i hi => hnames i (List.mem_cons_of_mem _ hi)) h2
    obtain ⟨cl, rfl⟩ := spanItem_line h1
    rw [spanStep_iff hrd (hnames _ List.mem_cons_self)] at h1
    obtain ⟨hseen, h1⟩ := h1
    have main : ∀ n, n ∈ a1.span.seen ↔ n ∈ a.span.seen ∨ n = cl.name := by
      intro n
      split at h1
      · obtain ⟨d, _, rfl⟩ := h1
        simp only [storeSpanDur, List.mem_append, List.mem_singleton]
      · obtain ⟨v, prec, p, _, _, rfl⟩ := h1
        simp only [Core.timed, List.mem_append, List.mem_singleton]
    refine ⟨fun j hj => ?_, fun n hn => k2 n ((main n).2 (Or.inl hn))⟩
    rcases List.mem_cons.1 hj with rfl | hj
    · exact ⟨hseen, k2 _ ((main _).2 (Or.inr rfl))⟩
    · exact ⟨fun h => (k1 j hj).1 ((main _).2 (Or.inl h)), (k1 j hj).2⟩

/-- The lines around one of the lines. -/
theorem foldSpan_split {L : Lib} {rd : Reading σ} (hrd : SpanReading rd) {items : List Item}
    (hnames : ∀ i ∈ items, i.name ∈ Conv.timespan.names) {a b : Core σ} (h : foldConv L rd .timespan items a = .ok b)
    {cl : ContentLine} (hcl : .line cl ∈ items) :
    ∃ pre post a1 a2, items = pre ++ .line cl :: post ∧ (∀ i ∈ pre, i.name ≠ cl.name) ∧ (∀ i ∈ post, i.name ≠ cl.name) ∧
      foldConv L rd .timespan pre a = .ok a1 ∧ coreConv L rd .timespan (.line cl) a1 = .ok a2 ∧
      foldConv L rd .timespan post a2 = .ok b := by
  obtain ⟨pre, post, rfl⟩ := List.append_of_mem hcl
  rw [foldConv_append] at h
  obtain ⟨a1, h1, h2⟩ := h
  simp only [foldConv, bind_ok_iff] at h2
  obtain ⟨a2, h2, h3⟩ := h2
  refine ⟨pre, post, a1, a2, rfl, ?_, ?_, h1, h2, h3⟩
  · intro i hi e
    have := (foldSpan_seen hrd (fun i hi => hnames i (List.mem_append_left _ hi)) h1).1 i hi
    have k := ((spanStep_iff hrd (hnames _ hcl)).1 h2).1
    exact k (e ▸ this.2)
  · intro i hi e
    have := (foldSpan_seen hrd (fun i hi => hnames i (List.mem_append_right _ (List.mem_cons_of_mem _ hi))) h3).1 i hi
    have k := ((foldSpan_seen hrd (items := [.line cl]) (fun i hi => by
      rw [List.mem_singleton.1 hi]
      exact hnames _ hcl) (by simp only [foldConv, bind_ok_iff]; exact ⟨a2, h2, rfl⟩)).1 _ (List.mem_singleton_self _)).2
    exact this.1 (e ▸ k)

end Ics
