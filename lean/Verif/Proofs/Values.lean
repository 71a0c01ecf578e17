import Verif.Proofs.Members
import Verif.Proofs.Duplicate

/-
What the attributes of a loaded component are.
-/
namespace Ics

variable {σ : Type}

/-! ### Parameters through the value converters -/

/-- The parameters that encode a value: TZID, and for a person all. -/
def ValConv.isPerson : ValConv → Bool
  | .organizer => true
  | .attendee => true
  | _ => false

theorem parseDt_params {w : World} {fm : List Nat} {t : Str} {p p' : Params} {ctx ctx' : Ctx} {d : DT}
    (h : parseDt w fm t p ctx = .ok (d, p', ctx')) : p' = dictErase p "TZID".toList := by
  unfold parseDt at h
  dsimp only at h
  repeat' split at h
  all_goals cases h
  all_goals rfl

theorem parse_params {L : Lib} {c : ValConv} {t : Str} {p p' : Params} {ctx ctx' : Ctx} {v : Val σ}
    (h : c.parse L t p ctx = .ok (v, p', ctx')) :
    p' = if c.isPerson then [] else if c = .datetime then dictErase p "TZID".toList else p := by
  unfold ValConv.parse at h
  cases c <;> simp only [map_ok_iff] at h <;> obtain ⟨x, hx, e⟩ := h
  case datetime =>
    obtain ⟨d, q, ctx2⟩ := x
    simp only [Prod.mk.injEq] at e
    rw [← e.2.1, parseDt_params hx]
    rfl
  all_goals
    simp only [Prod.mk.injEq] at e
    rw [← e.2.1]
    rfl

theorem serializeDt_params {w : World} {d : DT} {t : Str} {p p' : Params} {ctx ctx' : Ctx}
    (h : serializeDt w d p ctx = .ok (t, p', ctx')) {k : Str} (hk : k ≠ "TZID".toList) :
    dictGet? p' k = dictGet? p k := by
  unfold serializeDt at h
  repeat' split at h
  all_goals cases h
  all_goals first | rfl | exact dictGet_set_ne _ _ hk

theorem serialize_params {L : Lib} {c : ValConv} (hc : c.isPerson = false) {t : Str} {p p' : Params} {ctx ctx' : Ctx}
    {v : Val σ} (h : c.serialize L v p ctx = .ok (t, p', ctx')) :
    (c ≠ .datetime → p' = p) ∧ ∀ k, k ≠ "TZID".toList → dictGet? p' k = dictGet? p k := by
  unfold ValConv.serialize at h
  split at h
  case h_4 => exact ⟨fun h => absurd rfl h, fun k hk => serializeDt_params h hk⟩
  case h_6 =>
    rw [map_ok_iff] at h
    obtain ⟨x, _, e⟩ := h
    simp only [Prod.mk.injEq] at e
    rw [e.2.1]
    exact ⟨fun _ => rfl, fun _ _ => rfl⟩
  case h_10 => cases hc
  case h_11 => cases hc
  case h_12 => cases h
  all_goals
    cases h
    exact ⟨fun _ => rfl, fun _ _ => rfl⟩

/-! ### Single values -/

theorem foldSingle {L : Lib} {rd : Reading σ} {c : Cls} {s : AttrSpec} (hm : s.multi = false) {items : List Item}
    (hs : .value s ∈ c.convs) {b : Core σ} (h : foldConv L rd (.value s) items (.new L c) = .ok b) :
    (items = [] ∧ b = .new L c) ∨ ∃ cl v p, items = [.line cl] ∧ rd (.value s) (.line cl) = .ok (.single v p) ∧
      storeSingle L s v p (.new L c) = .ok b := by
  cases items with
  | nil =>
    cases h
    exact Or.inl ⟨rfl, rfl⟩
  | cons i is =>
    right
    simp only [foldConv, bind_ok_iff] at h
    obtain ⟨a, h1, h2⟩ := h
    have once : (Conv.value s).once = true := by simp [Conv.once, hm]
    have hg := guarded_step once h1 i.name (Or.inl rfl)
    have hcnt : 0 < a.count s.attr := hg
    simp only [coreConv, bind_ok_iff] at h1
    obtain ⟨_, hp, d, hd, hst⟩ := h1
    cases i with
    | cont n is' => cases hp
    | line cl =>
      have hnil : is = [] := by
        cases is with
        | nil => rfl
        | cons j js =>
          simp only [foldConv, coreConv, bind_ok_iff] at h2
          obtain ⟨_, ⟨_, h3, _⟩, _⟩ := h2
          cases j with
          | cont n is' => cases h3
          | line cl' =>
            simp only [preConv, hm, Bool.false_eq_true, if_false, hcnt, decide_true] at h3
            cases h3
      subst hnil
      cases h2
      cases d with
      | single v p =>
        simp only [storeConv, hm, Bool.false_eq_true, if_false] at hst
        exact ⟨cl, v, p, rfl, hd, hst⟩
      | multi l => simp [storeConv, hm] at hst
      | _ => cases hst

/-- The value and the parameters of a single-valued attribute of a loaded component. -/
theorem load_single {L : Lib} {mem : MemberLoad σ} (hmem : MemStable L mem) {c : Cls} {items : List Item} {ctx : Ctx}
    (hc : ctx.isSome) {o : Obj σ} {ctx1 : Ctx} (h : loadObj L mem c items ctx = .ok (o, ctx1)) {s : AttrSpec}
    (hs : .value s ∈ c.convs) (hm : s.multi = false) :
    (Conv.own (.value s) items = [] ∧ dictGet? o.attrs s.attr = some (defaultAttr L s.attr false) ∧
      dictGet? o.extraParams (extraKey s.attr) = none) ∨
    ∃ cl p cv v p' ctx' w, Conv.own (.value s) items = [.line cl] ∧ prepareParams s.convs cl.params = .ok (p, cv) ∧
      cv.parse L cl.value p ctx = .ok (v, p', ctx') ∧ s.check.run L (.one v) = .ok w ∧
      dictGet? o.attrs s.attr = some w ∧
      dictGet? o.extraParams (extraKey s.attr) = if p' = [] then none else some (.one p') := by
  obtain ⟨rd, hrd⟩ := exists_reading hmem (L.toWorld.resolve ctx)
  have k := loadObj_core hrd c items hc rfl
  unfold Outcome at k
  cases ho : coreLoad L rd c items with
  | error e =>
    rw [ho] at k
    rw [k] at h
    cases h
  | ok o' =>
    rw [ho] at k
    obtain ⟨ctx', k, _⟩ := k
    rw [k] at h
    cases h
    obtain ⟨b, hb, h1, h2, _⟩ := coreLoad_agree ho hs
    have ka : s.attr ∈ (Conv.value s).attrKeys := List.mem_singleton_self _
    have kp : extraKey s.attr ∈ (Conv.value s).paramKeys := List.mem_singleton_self _
    rw [h1 (by simp) _ ka, h2 _ kp]
    rcases foldSingle hm hs hb with ⟨e, rfl⟩ | ⟨cl, v, p', e, hr, hst⟩
    · left
      refine ⟨e, ?_, rfl⟩
      rw [new_value hs, hm]
    · right
      have q := hrd (.value s) (.line cl) ctx hc rfl
      unfold Outcome at q
      rw [hr] at q
      obtain ⟨ctx2, q, _⟩ := q
      simp only [readConv, hm, Bool.false_eq_true, if_false, bind_ok_iff] at q
      obtain ⟨⟨p, cv⟩, hp, ⟨v1, p1, ctx3⟩, hparse, q⟩ := q
      cases q
      simp only [storeSingle, Obj.setattr, map_ok_iff] at hst
      obtain ⟨_, ⟨w, hw, rfl⟩, rfl⟩ := hst
      refine ⟨cl, p, cv, _, _, _, w, e, hp, hparse, hw, ?_, ?_⟩
      · exact dictGet_set _ _ _
      · show dictGet? (Obj.setExtraParams _ _ _).extraParams _ = _
        unfold Obj.setExtraParams
        split
        · rfl
        · exact dictGet_set _ _ _

/-! ### Lists -/

theorem appendAll_get {attr : Str} {l : List (Val σ × Params)} {o o' : Obj σ} (h : o.appendAll attr l = .ok o')
    {vs : List (Val σ)} (hv : dictGet? o.attrs attr = some (.many vs)) {ps : List Params}
    (hp : dictGet? o.extraParams (extraKey attr) = if ps = [] then none else some (.many ps)) :
    dictGet? o'.attrs attr = some (.many (vs ++ l.map Prod.fst)) ∧
      dictGet? o'.extraParams (extraKey attr) =
        if ps ++ l.map Prod.snd = [] then none else some (.many (ps ++ l.map Prod.snd)) := by
  induction l generalizing o vs ps with
  | nil =>
    cases h
    simp only [List.map_nil, List.append_nil]
    exact ⟨hv, hp⟩
  | cons x l ih =>
    obtain ⟨v, p⟩ := x
    simp only [Obj.appendAll, bind_ok_iff] at h
    obtain ⟨o1, h1, o2, h2, h3⟩ := h
    have e1 : o1.attrs = o.attrs ∧ dictGet? o1.extraParams (extraKey attr) = some (.many (ps ++ [p])) := by
      unfold Obj.appendExtraParams at h1
      rw [hp] at h1
      split at h1
      · rename_i e
        split at e
        · rename_i e'
          cases h1
          refine ⟨rfl, ?_⟩
          rw [e', dictGet_set]
          rfl
        · cases e
      · rename_i ps' e
        split at e
        · cases e
        · cases e
          cases h1
          exact ⟨rfl, dictGet_set _ _ _⟩
      · rename_i e
        split at e <;> cases e
    have e2 : dictGet? o2.attrs attr = some (.many (vs ++ [v])) ∧ o2.extraParams = o1.extraParams := by
      unfold Obj.appendValue Obj.get at h2
      rw [e1.1, hv] at h2
      cases h2
      exact ⟨dictGet_set _ _ _, rfl⟩
    have i := ih h3 e2.1 (ps := ps ++ [p]) (by rw [e2.2, e1.2]; simp)
    simpa [List.append_assoc] using i

theorem foldMulti {L : Lib} {rd : Reading σ} {s : AttrSpec} (hm : s.multi = true) {items : List Item} {a b : Core σ}
    (h : foldConv L rd (.value s) items a = .ok b) {vs : List (Val σ)}
    (hv : dictGet? a.obj.attrs s.attr = some (.many vs)) {ps : List Params}
    (hp : dictGet? a.obj.extraParams (extraKey s.attr) = if ps = [] then none else some (.many ps)) :
    ∃ groups : List (List (Val σ × Params)),
      List.Forall₂ (fun i g => rd (.value s) i = .ok (.multi g) ∧ ∃ cl, i = .line cl) items groups ∧
      dictGet? b.obj.attrs s.attr = some (.many (vs ++ groups.flatten.map Prod.fst)) ∧
      dictGet? b.obj.extraParams (extraKey s.attr) =
        if ps ++ groups.flatten.map Prod.snd = [] then none
        else some (.many (ps ++ groups.flatten.map Prod.snd)) := by
  induction items generalizing a vs ps with
  | nil =>
    cases h
    exact ⟨[], .nil, by simpa using hv, by simpa using hp⟩
  | cons i is ih =>
    simp only [foldConv, bind_ok_iff] at h
    obtain ⟨a1, h1, h2⟩ := h
    simp only [coreConv, bind_ok_iff] at h1
    obtain ⟨_, hpre, d, hd, hst⟩ := h1
    cases i with
    | cont n is' => cases hpre
    | line cl =>
      cases d with
      | single v p => simp [storeConv, hm] at hst
      | multi l =>
        simp only [storeConv, hm, if_true, storeMulti, map_ok_iff] at hst
        obtain ⟨o, ho, rfl⟩ := hst
        have g := appendAll_get ho hv hp
        obtain ⟨groups, hf, hg1, hg2⟩ := ih h2 g.1 g.2
        refine ⟨l :: groups, .cons ⟨hd, cl, rfl⟩ hf, ?_, ?_⟩
        · simpa [List.append_assoc] using hg1
        · simpa only [List.flatten_cons, List.map_append, List.append_assoc] using hg2
      | _ => cases hst

/-- The readings of a line of a multi-valued property. -/
def ReadsLine (L : Lib) (s : AttrSpec) (ctx : Ctx) (cl : ContentLine) (vals : List (Val σ × Params)) : Prop :=
  ∃ p cv ctx', prepareParams s.convs cl.params = .ok (p, cv) ∧
    parseValues L cv (cv.split cl.value).items p ctx = .ok (vals, ctx') ∧ (cv.split cl.value).err = none

/-- The values and the parameters of a multi-valued attribute of a loaded component. -/
theorem load_multi {L : Lib} {mem : MemberLoad σ} (hmem : MemStable L mem) {c : Cls} {items : List Item} {ctx : Ctx}
    (hc : ctx.isSome) {o : Obj σ} {ctx1 : Ctx} (h : loadObj L mem c items ctx = .ok (o, ctx1)) {s : AttrSpec}
    (hs : .value s ∈ c.convs) (hm : s.multi = true) :
    ∃ (cls : List ContentLine) (groups : List (List (Val σ × Params))),
      Conv.own (.value s) items = cls.map .line ∧
      List.Forall₂ (fun cl g => ∃ vals, ReadsLine L s ctx cl vals ∧ g = markLast vals) cls groups ∧
      dictGet? o.attrs s.attr = some (.many (groups.flatten.map Prod.fst)) ∧
      dictGet? o.extraParams (extraKey s.attr) =
        if groups.flatten = [] then none else some (.many (groups.flatten.map Prod.snd)) := by
  obtain ⟨rd, hrd⟩ := exists_reading hmem (L.toWorld.resolve ctx)
  have k := loadObj_core hrd c items hc rfl
  unfold Outcome at k
  cases ho : coreLoad L rd c items with
  | error e =>
    rw [ho] at k
    rw [k] at h
    cases h
  | ok o' =>
    rw [ho] at k
    obtain ⟨ctx', k, _⟩ := k
    rw [k] at h
    cases h
    obtain ⟨b, hb, h1, h2, _⟩ := coreLoad_agree ho hs
    have ka : s.attr ∈ (Conv.value s).attrKeys := List.mem_singleton_self _
    have kp : extraKey s.attr ∈ (Conv.value s).paramKeys := List.mem_singleton_self _
    rw [h1 (by simp) _ ka, h2 _ kp]
    obtain ⟨groups, hf, hg1, hg2⟩ := foldMulti hm hb (vs := []) (ps := [])
      (by rw [new_value hs, hm]; rfl) rfl
    have key : ∀ (is : List Item) (gs : List (List (Val σ × Params))),
        List.Forall₂ (fun i g => rd (.value s) i = .ok (.multi g) ∧ ∃ cl, i = .line cl) is gs →
        ∃ cls : List ContentLine, is = cls.map .line ∧
          List.Forall₂ (fun cl g => ∃ vals, ReadsLine L s ctx cl vals ∧ g = markLast vals) cls gs := by
      intro is gs hf
      induction hf with
      | nil => exact ⟨[], rfl, .nil⟩
      | cons h1 _ ih =>
        obtain ⟨hr, cl, rfl⟩ := h1
        obtain ⟨cls, rfl, hf⟩ := ih
        refine ⟨cl :: cls, rfl, .cons ?_ hf⟩
        have q := hrd (.value s) (.line cl) ctx hc rfl
        unfold Outcome at q
        rw [hr] at q
        obtain ⟨ctx2, q, _⟩ := q
        simp only [readConv, hm, if_true, bind_ok_iff] at q
        obtain ⟨⟨p, cv⟩, hp, ⟨vals, ctx3⟩, hparse, u, hu, q⟩ := q
        cases q
        refine ⟨vals, ⟨p, cv, _, hp, hparse, ?_⟩, rfl⟩
        unfold genEnd at hu
        split at hu
        · cases hu
        · assumption
    obtain ⟨cls, e, hf'⟩ := key _ _ hf
    refine ⟨cls, groups, e, hf', hg1, ?_⟩
    rw [hg2]
    simp only [List.nil_append, List.map_eq_nil_iff]

end Ics
