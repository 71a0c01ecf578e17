import Verif.Proofs.Decompose
import Mathlib.Data.List.Forall2

/-
What a loaded component contains, converter by converter.
-/
namespace Ics

variable {σ : Type}

/-! ### New components -/

theorem default_keys (L : Lib) (c : Cls) (cv : Conv) : (cv.default (σ := σ) L c).map Prod.fst = cv.attrKeys := by
  cases cv <;> rfl

theorem newObj_keys (L : Lib) (c : Cls) : (newObj (σ := σ) L c).attrs.map Prod.fst = c.convs.flatMap Conv.attrKeys := by
  unfold newObj
  dsimp only
  rw [List.map_flatMap]
  congr 1
  funext cv
  exact default_keys L c cv

theorem newObj_unique (L : Lib) (c : Cls) : UniqueKeys (newObj (σ := σ) L c).attrs := by
  unfold UniqueKeys
  rw [newObj_keys]
  cases c <;> decide +kernel

theorem newObj_get {L : Lib} {c : Cls} {cv : Conv} (h : cv ∈ c.convs) {k : Str} {v : AttrVal σ}
    (hv : (k, v) ∈ cv.default L c) : dictGet? (newObj (σ := σ) L c).attrs k = some v :=
  dictGet_of_mem (newObj_unique L c) (List.mem_flatMap.2 ⟨cv, h, hv⟩)

theorem new_value {L : Lib} {c : Cls} {s : AttrSpec} (h : .value s ∈ c.convs) :
    dictGet? (Core.new (σ := σ) L c).obj.attrs s.attr = some (defaultAttr L s.attr s.multi) :=
  newObj_get h (List.mem_singleton_self _)

theorem new_member {L : Lib} {c : Cls} {a n : Str} (h : .member a n ∈ c.convs) :
    dictGet? (Core.new (σ := σ) L c).obj.attrs a = some (.many []) :=
  newObj_get h (List.mem_singleton_self _)

/-! ### Post-processing -/

/-- What post-processing leaves alone. -/
theorem corePost_keep {L : Lib} {cv : Conv} {a b : Core σ} (h : corePost L cv a = .ok b) :
    (∀ k, (cv = .timespan → k ≠ "timespan".toList) → dictGet? b.obj.attrs k = dictGet? a.obj.attrs k) ∧
      b.obj.extraParams = a.obj.extraParams ∧ b.obj.cls = a.obj.cls ∧
      (cv ≠ .timespan → b.span = a.span) ∧ (∀ k, k ∉ cv.attrKeys → dictGet? b.counts k = dictGet? a.counts k) := by
  unfold corePost at h
  rw [map_ok_iff] at h
  obtain ⟨st, h, rfl⟩ := h
  unfold Conv.post at h
  cases cv with
  | value s =>
    dsimp only at h
    split at h
    · cases h
    · cases h
      refine ⟨fun _ _ => rfl, rfl, rfl, fun _ => rfl, fun k hk => ?_⟩
      exact dictGet_set_ne _ _ fun e => hk (List.mem_singleton.2 e)
  | timespan =>
    simp only [postSpan, Obj.setattr, bind_ok_iff, map_ok_iff] at h
    obtain ⟨s, _, _, _, o, ⟨v, _, rfl⟩, h⟩ := h
    cases h
    refine ⟨fun k hk => ?_, rfl, rfl, fun h => absurd rfl h, fun _ _ => rfl⟩
    exact dictGet_set_ne _ _ (hk rfl)
  | member _ _ => cases h; exact ⟨fun _ _ => rfl, rfl, rfl, fun _ => rfl, fun _ _ => rfl⟩
  | alarmAction => cases h; exact ⟨fun _ _ => rfl, rfl, rfl, fun _ => rfl, fun _ _ => rfl⟩
  | calendarTimezone => cases h; exact ⟨fun _ _ => rfl, rfl, rfl, fun _ => rfl, fun _ _ => rfl⟩

theorem corePostAll_keep {L : Lib} {cvs : List Conv} {a b : Core σ} (h : corePostAll L cvs a = .ok b) :
    (∀ k, (.timespan ∈ cvs → k ≠ "timespan".toList) → dictGet? b.obj.attrs k = dictGet? a.obj.attrs k) ∧
      b.obj.extraParams = a.obj.extraParams ∧ b.obj.cls = a.obj.cls := by
  induction cvs generalizing a with
  | nil => cases h; exact ⟨fun _ _ => rfl, rfl, rfl⟩
  | cons cv cvs ih =>
    simp only [corePostAll, bind_ok_iff] at h
    obtain ⟨a1, h1, h2⟩ := h
    have k1 := corePost_keep h1
    have k2 := ih h2
    refine ⟨fun k hk => ?_, k2.2.1.trans k1.2.1, k2.2.2.trans k1.2.2.1⟩
    rw [k2.1 k fun h => hk (List.mem_cons_of_mem _ h), k1.1 k fun e => hk (e ▸ List.mem_cons_self)]

/-- Only the timespan converter has the attribute `timespan`. -/
theorem attr_ne_timespan {c : Cls} {cv : Conv} (h : cv ∈ c.convs) (hne : cv ≠ .timespan) {k : Str}
    (hk : k ∈ cv.attrKeys) : Conv.timespan ∈ c.convs → k ≠ "timespan".toList := by
  intro ht e
  have := (footprints_disjoint c cv h .timespan ht hne).1 k (by rw [e]; exact List.mem_singleton_self _)
  exact this hk

/-- A successful load, converter by converter. -/
theorem coreLoad_agree {L : Lib} {rd : Reading σ} {c : Cls} {items : List Item} {o : Obj σ}
    (h : coreLoad L rd c items = .ok o) {cv : Conv} (hcv : cv ∈ c.convs) :
    ∃ b, foldConv L rd cv (cv.own items) (.new L c) = .ok b ∧
      (cv ≠ .timespan → ∀ k ∈ cv.attrKeys, dictGet? o.attrs k = dictGet? b.obj.attrs k) ∧
      (∀ k ∈ cv.paramKeys, dictGet? o.extraParams k = dictGet? b.obj.extraParams k) ∧ o.cls = b.obj.cls := by
  simp only [coreLoad, bind_ok_iff, map_ok_iff] at h
  obtain ⟨a, ha, a', ha', rfl⟩ := h
  obtain ⟨b, hb, hab⟩ := coreItems_agree ha (cv := cv) hcv
  have k := corePostAll_keep ha'
  refine ⟨b, hb, fun hne x hx => ?_, fun x hx => ?_, k.2.2.trans hab.cls.symm⟩
  · rw [k.1 x (attr_ne_timespan hcv hne hx), hab.attrs x hx]
  · rw [k.2.1, hab.params x hx]

/-! ### Members -/

theorem foldConv_member {L : Lib} {rd : Reading σ} {a n : Str} {items : List Item} {c b : Core σ}
    {l : List (Val σ)} (hl : dictGet? c.obj.attrs a = some (.many l))
    (h : foldConv L rd (.member a n) items c = .ok b) :
    ∃ ms : List σ, List.Forall₂ (fun i m => rd (.member a n) i = .ok (.member m) ∧ ∃ nm is, i = .cont nm is) items ms ∧
      dictGet? b.obj.attrs a = some (.many (l ++ ms.map .comp)) := by
  induction items generalizing c l with
  | nil =>
    cases h
    exact ⟨[], .nil, by simpa using hl⟩
  | cons i is ih =>
    simp only [foldConv, coreConv, bind_ok_iff] at h
    obtain ⟨c1, ⟨_, hp, d, hd, hs⟩, h2⟩ := h
    cases i with
    | line cl => cases hp
    | cont nm is' =>
      cases d with
      | member m =>
        simp only [storeConv, map_ok_iff] at hs
        obtain ⟨o, ho, rfl⟩ := hs
        have e : c.obj.get a = .many l := by
          unfold Obj.get
          rw [hl]
          rfl
        unfold Obj.appendValue at ho
        rw [e] at ho
        cases ho
        obtain ⟨ms, hf, hg⟩ := ih (l := l ++ [.comp m]) (dictGet_set _ _ _) h2
        refine ⟨m :: ms, .cons ⟨hd, nm, is', rfl⟩ hf, ?_⟩
        rw [hg, List.map_cons, List.append_assoc]
        rfl
      | _ => cases hs

/-- The members of a loaded component are what its sub-components are loaded as. -/
theorem load_member {L : Lib} {mem : MemberLoad σ} (hm : MemStable L mem) {c : Cls} {items : List Item} {ctx : Ctx}
    (hc : ctx.isSome) {r : Obj σ × Ctx} (h : loadObj L mem c items ctx = .ok r) {a n : Str}
    (hcv : .member a n ∈ c.convs) :
    ∃ ms : List σ, r.1.get a = .many (ms.map .comp) ∧
      List.Forall₂ (fun i m => ∃ is ctx', i = .cont n is ∧ mem n is ctx = .ok (m, ctx'))
        (items.filter fun i => i.name = n) ms := by
  obtain ⟨rd, hrd⟩ := exists_reading hm (L.toWorld.resolve ctx)
  have k := loadObj_core hrd c items hc rfl
  unfold Outcome at k
  cases ho : coreLoad L rd c items with
  | error e =>
    rw [ho] at k
    rw [k] at h
    cases h
  | ok o =>
    rw [ho] at k
    obtain ⟨ctx', k, _⟩ := k
    rw [k] at h
    cases h
    obtain ⟨b, hb, h1, _, _⟩ := coreLoad_agree ho hcv
    obtain ⟨ms, hf, hg⟩ := foldConv_member (new_member hcv) hb
    refine ⟨ms, ?_, ?_⟩
    · unfold Obj.get
      dsimp only
      rw [h1 (by simp) a (List.mem_singleton_self _), hg]
      rfl
    · have e : Conv.own (.member a n) items = items.filter fun i => i.name = n := by
        unfold Conv.own
        congr 1
        funext i
        simp [Conv.names]
      rw [e] at hf
      refine List.Forall₂.imp ?_ ((List.forall₂_and_left _ _).2 ⟨fun i hi => (List.mem_filter.1 hi).2, hf⟩)
      rintro i m ⟨hn, hr, nm, is, rfl⟩
      have hn : nm = n := of_decide_eq_true hn
      subst hn
      have q := hrd (.member a nm) (.cont nm is) ctx hc rfl
      unfold Outcome at q
      rw [hr] at q
      obtain ⟨ctx2, q, _⟩ := q
      simp only [readConv, bind_ok_iff] at q
      obtain ⟨x, hx, q⟩ := q
      cases q
      exact ⟨is, x.2, rfl, hx⟩

end Ics
