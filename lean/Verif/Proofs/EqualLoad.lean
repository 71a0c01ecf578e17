import Verif.Spec.Equal
import Verif.Proofs.AcceptedText
import Verif.Proofs.Values

/-
Helper lemmas for C96: components that were read are settled.
-/
namespace Ics

variable {σ : Type}

/-- What holds while a component is read; `K` are the names of its parameters. -/
structure KInv (M : σ → Prop) (K : Str → Prop) (o : Obj σ) : Prop where
  unique : UniqueKeys o.extraParams
  keys : ∀ kv ∈ o.extraParams, K kv.1
  params : ∀ kv ∈ o.extraParams, ProperExtra kv.2
  attrs : ∀ k, ProperAttr M (o.get k)

/-- The dictionaries and components in what was read. -/
def KDelta (M : σ → Prop) : Delta σ → Prop
  | .single v p => ProperVal M v ∧ ProperDict p
  | .multi l => ∀ x ∈ l, ProperVal M x.1 ∧ ProperDict x.2
  | .member m => M m
  | .spanTime _ _ p => ProperDict p
  | _ => True

section
variable {L : Lib} {M : σ → Prop} {K : Str → Prop}

theorem KInv.setAttr {o : Obj σ} (h : KInv M K o) {k : Str} {v : AttrVal σ} (hv : ProperAttr M v) :
    KInv M K { o with attrs := dictSet o.attrs k v } := by
  refine ⟨h.unique, h.keys, h.params, fun k' => ?_⟩
  unfold Obj.get
  dsimp only
  rw [dictGet_set_eq]
  split
  · exact hv
  · exact h.attrs k'

theorem KInv.setParam {o : Obj σ} (h : KInv M K o) {k : Str} (hk : K k) {e : ExtraVal} (he : ProperExtra e) :
    KInv M K { o with extraParams := dictSet o.extraParams k e } := by
  refine ⟨uniqueKeys_dictSet _ _ h.unique, fun kv hm => ?_, fun kv hm => ?_, h.attrs⟩
  · rcases mem_dictSet hm with rfl | hm
    · exact hk
    · exact h.keys kv hm
  · rcases mem_dictSet hm with rfl | hm
    · exact he
    · exact h.params kv hm

theorem KInv.setExtra {o : Obj σ} (h : KInv M K o) {k : Str} (hk : K (extraKey k)) {p : Params} (hp : ProperDict p) :
    KInv M K (o.setExtraParams k p) := by
  unfold Obj.setExtraParams
  split
  · exact h
  · exact h.setParam hk hp

theorem KInv.appendValue {o o' : Obj σ} (h : KInv M K o) {k : Str} {v : Val σ} (hv : ProperVal M v)
    (ho : o.appendValue k v = .ok o') : KInv M K o' := by
  unfold Obj.appendValue at ho
  have hg := h.attrs k
  split at ho
  · cases ho
    exact h.setAttr fun w hw => List.mem_singleton.1 hw ▸ hv
  · rename_i e
    rw [e] at hg
    cases ho
    refine h.setAttr fun w hw => ?_
    rcases List.mem_append.1 hw with hw | hw
    · exact hg w hw
    · exact List.mem_singleton.1 hw ▸ hv
  · cases ho

theorem KInv.appendExtra {o o' : Obj σ} (h : KInv M K o) {k : Str} (hk : K (extraKey k)) {p : Params} (hp : ProperDict p)
    (ho : o.appendExtraParams k p = .ok o') : KInv M K o' := by
  unfold Obj.appendExtraParams at ho
  split at ho
  · cases ho
    exact h.setParam hk fun w hw => List.mem_singleton.1 hw ▸ hp
  · rename_i ps e
    cases ho
    refine h.setParam hk fun w hw => ?_
    rcases List.mem_append.1 hw with hw | hw
    · exact h.params _ (mem_of_dictGet e) w hw
    · exact List.mem_singleton.1 hw ▸ hp
  · cases ho

theorem KInv.appendAll {l : List (Val σ × Params)} {k : Str} (hk : K (extraKey k))
    (hl : ∀ x ∈ l, ProperVal M x.1 ∧ ProperDict x.2) {o o' : Obj σ} (h : KInv M K o)
    (ho : o.appendAll k l = .ok o') : KInv M K o' := by
  induction l generalizing o with
  | nil =>
    cases ho
    exact h
  | cons x l ih =>
    obtain ⟨v, p⟩ := x
    simp only [Obj.appendAll, bind_ok_iff] at ho
    obtain ⟨o1, h1, o2, h2, h3⟩ := ho
    obtain ⟨a, b⟩ := hl _ List.mem_cons_self
    exact ih (fun x hx => hl x (List.mem_cons_of_mem _ hx)) ((h.appendExtra hk b h1).appendValue a h2) h3

theorem check_proper {ch : Check} {v : Val σ} {w : AttrVal σ} (hv : ProperVal M v) (h : ch.run L (.one v) = .ok w) :
    ProperAttr M w := by
  have key : ∀ a : AttrVal σ, ProperAttr M a → ch.run L a = .ok w → ProperAttr M w := by
    intro a ha h
    unfold Check.run at h
    split at h
    all_goals try split at h
    all_goals first
      | (injection h with h; rw [← h]; exact ha)
      | (injection h with h; rw [← h]; trivial)
      | (injection h)
      | (rw [map_ok_iff] at h; obtain ⟨d, _, rfl⟩ := h; trivial)
      | (rw [map_ok_iff] at h; obtain ⟨d, _, rfl⟩ := h; exact ha)
  exact key (.one v) hv h

theorem parse_proper {cv : ValConv} {t : Str} {p p' : Params} {ctx ctx' : Ctx} {v : Val σ}
    (h : cv.parse L t p ctx = .ok (v, p', ctx')) (hp : ProperDict p) : ProperVal M v ∧ ProperDict p' := by
  constructor
  · cases cv <;> obtain ⟨a, ha, he⟩ := map_ok_iff.1 h <;> cases he
    · trivial
    · trivial
    · trivial
    · trivial
    · trivial
    · trivial
    · trivial
    · unfold geoParse at ha
      split at ha
      · cases ha
      · split at ha
        · cases ha
          trivial
        · cases ha
    · exact hp
    · exact hp
  · rw [parse_params h]
    split
    · exact uniqueKeys_nil
    · split
      · exact uniqueKeys_dictErase _ hp
      · exact hp

theorem parseValues_proper {cv : ValConv} {ts : List Str} {p : Params} {ctx ctx' : Ctx} {vals : List (Val σ × Params)}
    (h : parseValues L cv ts p ctx = .ok (vals, ctx')) (hp : ProperDict p) : ∀ x ∈ vals, ProperVal M x.1 ∧ ProperDict x.2 := by
  induction ts generalizing p ctx vals with
  | nil =>
    injection h with h
    injection h with h _
    rw [← h]
    intro x hx
    exact absurd hx List.not_mem_nil
  | cons t ts ih =>
    simp only [parseValues, bind_ok_iff] at h
    obtain ⟨⟨v, p1, ctx1⟩, h1, ⟨r, ctx2⟩, h2, h⟩ := h
    injection h with h
    injection h with h h'
    subst h'
    rw [← h]
    obtain ⟨a, b⟩ := parse_proper (M := M) h1 hp
    intro x hx
    rcases List.mem_cons.1 hx with rfl | hx
    · exact ⟨a, uniqueKeys_dictSet _ _ b⟩
    · exact ih h2 (uniqueKeys_dictSet _ _ b) x hx

theorem markLast_proper {l : List (Val σ × Params)} (h : ∀ x ∈ l, ProperVal M x.1 ∧ ProperDict x.2) :
    ∀ x ∈ markLast l, ProperVal M x.1 ∧ ProperDict x.2 := by
  induction l using markLast.induct with
  | case1 => exact h
  | case2 v p =>
    intro x hx
    rw [markLast, List.mem_singleton] at hx
    obtain ⟨a, b⟩ := h _ List.mem_cons_self
    rw [hx]
    exact ⟨a, uniqueKeys_dictSet _ _ b⟩
  | case3 x y l ih =>
    intro z hz
    rw [markLast] at hz
    rcases List.mem_cons.1 hz with rfl | hz
    · exact h _ List.mem_cons_self
    · exact ih (fun w hw => h w (List.mem_cons_of_mem _ hw)) z hz

theorem properItem_line {cl : ContentLine} (h : ProperItem (.line cl)) : ProperDict cl.params := by
  cases h
  assumption

theorem read_proper {mem : MemberLoad σ} {cv : Conv} {item : Item} {ctx ctx' : Ctx} {d : Delta σ}
    (hi : ProperItem item) (h : readConv L mem cv item ctx = .ok (d, ctx'))
    (hm : ∀ a n' n is m ctx', cv = .member a n' → item = .cont n is → mem n is ctx = .ok (m, ctx') → M m) : KDelta M d := by
  unfold readConv at h
  split at h
  · have hp := properItem_line hi
    split at h
    · simp only [bind_ok_iff] at h
      obtain ⟨⟨p, cv⟩, h1, ⟨vals, ctx2⟩, h2, _, _, h⟩ := h
      cases h
      obtain ⟨rfl, _⟩ := prepare_ok h1
      exact markLast_proper (parseValues_proper h2 (uniqueKeys_dictErase _ hp))
    · simp only [bind_ok_iff] at h
      obtain ⟨⟨p, cv⟩, h1, ⟨v, p', ctx2⟩, h2, h⟩ := h
      cases h
      obtain ⟨rfl, _⟩ := prepare_ok h1
      exact parse_proper h2 (uniqueKeys_dictErase _ hp)
  · simp only [bind_ok_iff] at h
    obtain ⟨⟨m, ctx2⟩, h1, h⟩ := h
    cases h
    exact hm _ _ _ _ _ _ rfl rfl h1
  · split at h
    · simp only [bind_ok_iff] at h
      obtain ⟨x, _, h⟩ := h
      cases h
      trivial
    · simp only [bind_ok_iff] at h
      obtain ⟨⟨v, prec, p, ctx2⟩, h1, h⟩ := h
      cases h
      show ProperDict p
      rw [parseSpanValue_params h1]
      exact uniqueKeys_dictErase _ (uniqueKeys_dictErase _ (properItem_line hi))
  · cases h
    trivial

theorem store_keys {cv : Conv} (hK : ∀ k ∈ cv.paramKeys, K k) {item : Item} {d : Delta σ} {a b : Core σ}
    (hi : ProperItem item) (hd : KDelta M d) (h : storeConv L cv item d a = .ok b) (ha : KInv M K a.obj) : KInv M K b.obj := by
  unfold storeConv at h
  split at h
  · split at h
    · cases h
    · simp only [storeSingle, Obj.setattr, map_ok_iff] at h
      obtain ⟨o, ⟨w, hw, rfl⟩, rfl⟩ := h
      exact (ha.setExtra (hK _ (List.mem_singleton_self _)) hd.2).setAttr (check_proper hd.1 hw)
  · split at h
    · simp only [storeMulti, map_ok_iff] at h
      obtain ⟨o, ho, rfl⟩ := h
      exact KInv.appendAll (hK _ (List.mem_singleton_self _)) hd ha ho
    · cases h
  · simp only [map_ok_iff] at h
    obtain ⟨o, ho, rfl⟩ := h
    exact ha.appendValue (v := .comp _) hd ho
  · simp only [storeSpanTime, bind_ok_iff] at h
    obtain ⟨_, _, h⟩ := h
    split at h
    · cases h
      exact ha.setExtra (k := "begin".toList) (hK "BEGIN".toList (by decide)) hd
    · cases h
      refine ha.setExtra ?_ hd
      split
      · exact hK "DUE".toList (by decide)
      · exact hK "END".toList (by decide)
  · cases h
    exact ha.setExtra (k := "duration".toList) (hK "DURATION".toList (by decide)) (properItem_line hi)
  · unfold storeAction at h
    split at h
    · cases h
    · split at h
      · cases h
        exact ha
      · cases h
        exact ha.setParam (hK _ (List.mem_singleton_self _)) (properItem_line hi)
  · cases h
    exact ha
  · cases h

theorem convs_keys {mem : MemberLoad σ} {zones : List (Str × Nat)} {rd : Reading σ}
    (hrd : IsReading L mem (L.toWorld.resolve (some zones)) rd) {item : Item} (hi : ProperItem item) {cvs : List Conv}
    (hm : ∀ a n' n is m ctx', .member a n' ∈ cvs → item = .cont n is → mem n is (some zones) = .ok (m, ctx') → M m)
    (hK : ∀ cv ∈ cvs, ∀ k ∈ cv.paramKeys, K k) {a b : Core σ} (h : coreConvs L rd item cvs a = .ok b)
    (ha : KInv M K a.obj) : KInv M K b.obj := by
  induction cvs generalizing a with
  | nil =>
    cases h
    exact ha
  | cons cv cvs ih =>
    simp only [coreConvs, bind_ok_iff] at h
    obtain ⟨a1, h1, h2⟩ := h
    refine ih (fun a n' n is m ctx' hj => hm a n' n is m ctx' (List.mem_cons_of_mem _ hj))
      (fun cv hcv => hK cv (List.mem_cons_of_mem _ hcv)) h2 ?_
    simp only [coreConv, bind_ok_iff] at h1
    obtain ⟨_, _, d, hd, h1⟩ := h1
    have q := hrd cv item (some zones) rfl rfl
    unfold Outcome at q
    rw [hd] at q
    obtain ⟨ctx', q, _⟩ := q
    exact store_keys (hK cv List.mem_cons_self) hi
      (read_proper hi q fun a n' n is m ctx' e => hm a n' n is m ctx' (e ▸ List.mem_cons_self)) h1 ha

theorem items_keys {mem : MemberLoad σ} {zones : List (Str × Nat)} {rd : Reading σ}
    (hrd : IsReading L mem (L.toWorld.resolve (some zones)) rd) {c : Cls} {items : List Item}
    (hi : ∀ i ∈ items, ProperItem i)
    (hm : ∀ a n is m ctx', .member a n ∈ c.convs → .cont n is ∈ items → mem n is (some zones) = .ok (m, ctx') → M m)
    (hK : ∀ cv ∈ c.convs, ∀ k ∈ cv.paramKeys, K k) {a b : Core σ} (hc : a.obj.cls = c)
    (h : coreItems L rd items a = .ok b) (ha : KInv M K a.obj) : KInv M K b.obj := by
  induction items generalizing a with
  | nil =>
    cases h
    exact ha
  | cons i is ih =>
    simp only [coreItems, bind_ok_iff] at h
    obtain ⟨a1, h1, h2⟩ := h
    refine ih (fun j hj => hi j (List.mem_cons_of_mem _ hj)) (fun a n is m ctx' hc hj => hm a n is m ctx' hc (List.mem_cons_of_mem _ hj)) ((coreItem_cls h1).trans hc) h2 ?_
    simp only [coreItem, map_ok_iff] at h1
    obtain ⟨a2, h1, rfl⟩ := h1
    have := convs_keys (K := K) hrd (hi _ List.mem_cons_self)
      (fun a n' n is m ctx' hcv e hl => by
        obtain ⟨h3, h4⟩ := List.mem_filter.1 hcv
        subst e
        obtain rfl : n = n' := List.mem_singleton.1 (of_decide_eq_true h4)
        exact hm a n is m ctx' (hc ▸ h3) List.mem_cons_self hl)
      (fun cv hcv => hK cv (hc ▸ (List.mem_filter.1 hcv).1)) h1 ha
    unfold Core.keep
    split
    · exact ⟨this.unique, this.keys, this.params, this.attrs⟩
    · exact this

theorem post_keys {cvs : List Conv} {a b : Core σ} (h : corePostAll L cvs a = .ok b) (ha : KInv M K a.obj) : KInv M K b.obj := by
  induction cvs generalizing a with
  | nil =>
    cases h
    exact ha
  | cons cv cvs ih =>
    simp only [corePostAll, bind_ok_iff] at h
    obtain ⟨a1, h1, h2⟩ := h
    refine ih h2 ?_
    unfold corePost at h1
    rw [map_ok_iff] at h1
    obtain ⟨st, h1, rfl⟩ := h1
    cases cv with
    | timespan =>
      simp only [Conv.post, postSpan, bind_ok_iff] at h1
      obtain ⟨sp, _, _, _, o, h3, h⟩ := h1
      cases h
      simp only [Obj.setattr, map_ok_iff] at h3
      obtain ⟨w, h3, rfl⟩ := h3
      exact KInv.setAttr (o := a.obj) ha (check_proper (v := .span _) trivial h3)
    | value s =>
      simp only [Conv.post] at h1
      split at h1
      · cases h1
      · cases h1
        exact ha
    | _ =>
      cases h1
      exact ha

theorem default_proper {k : Str} {b : Bool} : ProperAttr M (defaultAttr L k b) := by
  unfold defaultAttr
  by_cases h1 : b = true
  · rw [if_pos h1]
    exact fun _ h => absurd h List.not_mem_nil
  rw [if_neg h1]
  by_cases h2 : k = "uid".toList
  · rw [if_pos h2]
    trivial
  rw [if_neg h2]
  by_cases h3 : k = "dtstamp".toList
  · rw [if_pos h3]
    trivial
  rw [if_neg h3]
  by_cases h4 : k = "version".toList
  · rw [if_pos h4]
    trivial
  rw [if_neg h4]
  by_cases h5 : k = "prodid".toList
  · rw [if_pos h5]
    trivial
  rw [if_neg h5]
  trivial

theorem new_keys (c : Cls) : KInv M K (newObj L c) := by
  refine ⟨uniqueKeys_nil, fun kv hm => absurd hm List.not_mem_nil, fun kv hm => absurd hm List.not_mem_nil, fun k => ?_⟩
  unfold Obj.get
  cases hg : dictGet? (newObj (σ := σ) L c).attrs k with
  | none => trivial
  | some v =>
    show ProperAttr M v
    obtain ⟨cv, hcv, hv⟩ := List.mem_flatMap.1 (mem_of_dictGet hg)
    cases cv with
    | value s =>
      rw [Conv.default, List.mem_singleton] at hv
      cases hv
      exact default_proper
    | member a n =>
      rw [Conv.default, List.mem_singleton] at hv
      cases hv
      exact fun _ h => absurd h List.not_mem_nil
    | timespan =>
      rw [Conv.default, List.mem_singleton] at hv
      cases hv
      trivial
    | _ => cases hv

end

theorem load_kinv {L : Lib} {M : σ → Prop} {mem : MemberLoad σ} (hmem : MemStable L mem) {c : Cls}
    {items : List Item} {zones : List (Str × Nat)} {o : Obj σ} {ctx1 : Ctx}
    (hi : ∀ i ∈ items, ProperItem i) (h : loadObj L mem c items (some zones) = .ok (o, ctx1))
    (hm : ∀ a n is m ctx', .member a n ∈ c.convs → .cont n is ∈ items → mem n is (some zones) = .ok (m, ctx') → M m) :
    KInv M (fun k => k ∈ c.convs.flatMap Conv.paramKeys) o := by
  obtain ⟨rd, hrd⟩ := exists_reading hmem (L.toWorld.resolve (some zones))
  have k := loadObj_core hrd c items (ctx := some zones) rfl rfl
  unfold Outcome at k
  cases ho : coreLoad L rd c items with
  | error e =>
    rw [ho] at k
    rw [k] at h
    cases h
  | ok o' =>
    rw [ho] at k
    obtain ⟨ctx', k, _⟩ := k
    rw [k] at h
    cases h
    simp only [coreLoad, bind_ok_iff, map_ok_iff] at ho
    obtain ⟨a, ha, a', ha', rfl⟩ := ho
    exact post_keys ha' (items_keys hrd hi hm (fun cv hcv k hk => List.mem_flatMap.2 ⟨cv, hcv, hk⟩) rfl ha (new_keys c))

theorem paramKeys_known (c : Cls) : ∀ k ∈ c.convs.flatMap Conv.paramKeys,
    k ∈ (oneParamKeys c ++ (listAttrs c).map String.toUpper).map String.toList := by
  cases c <;> decide +kernel

/-- The converter of a list of values. -/
def Conv.isList (k : String) : Conv → Bool
  | .value s => s.multi && s.attr == k.toList && extraKey s.attr == k.toUpper.toList
  | _ => false

theorem listAttrs_conv (c : Cls) : ∀ k ∈ listAttrs c, ∃ s, .value s ∈ c.convs ∧ s.multi = true ∧ s.attr = k.toList ∧
    extraKey s.attr = k.toUpper.toList := by
  have key : ∀ k ∈ listAttrs c, ∃ cv ∈ c.convs, cv.isList k = true := by cases c <;> decide +kernel
  intro k hk
  obtain ⟨cv, hcv, h⟩ := key k hk
  cases cv with
  | value s =>
    simp only [Conv.isList, Bool.and_eq_true, beq_iff_eq] at h
    exact ⟨s, hcv, h.1.1, h.1.2, h.2⟩
  | _ => cases h

/-- A component that was read is settled. -/
theorem load_settled {L : Lib} {M : σ → Prop} {mem : MemberLoad σ} (hmem : MemStable L mem) {c : Cls}
    {items : List Item} {zones : List (Str × Nat)} {o : Obj σ} {ctx1 : Ctx}
    (hi : ∀ i ∈ items, ProperItem i) (h : loadObj L mem c items (some zones) = .ok (o, ctx1))
    (hm : ∀ a n is m ctx', .member a n ∈ c.convs → .cont n is ∈ items → mem n is (some zones) = .ok (m, ctx') → M m) :
    SettledObj M o ∧ ProperObj M o := by
  have k := load_kinv hmem hi h hm
  obtain ⟨hc, -, he⟩ := loadObj_frame h
  dsimp only at hc he
  refine ⟨⟨fun n x hx => ?_, fun n hn => ?_, fun n _ m hi => ?_⟩, k.unique, fun n x hx => k.params _ (mem_of_dictGet hx),
    fun i hm => ?_, fun n _ => k.attrs _⟩
  · rw [hc]
    exact paramKeys_known c _ (k.keys _ (mem_of_dictGet hx))
  · rw [hc] at hn
    obtain ⟨s, hs, hmul, e1, e2⟩ := listAttrs_conv c n hn
    obtain ⟨cls, groups, -, -, hg, hp⟩ := load_multi hmem rfl h hs hmul
    rw [← e1, ← e2]
    refine ⟨_, by unfold Obj.get; rw [hg]; rfl, ?_⟩
    by_cases e : groups.flatten = []
    · rw [if_pos e] at hp
      exact .inl ⟨by rw [e]; rfl, hp⟩
    · rw [if_neg e] at hp
      exact .inr ⟨_, by simpa using e, by rw [List.length_map, List.length_map], hp⟩
  · have := k.attrs n.toList
    cases e : o.get n.toList with
    | none => rw [e] at hi; cases hi
    | one v =>
      rw [e] at hi this
      cases hi
      exact this
    | many l =>
      rw [e] at hi this
      cases hi with | many hi => exact this _ hi
  · rw [he] at hm
    exact hi i (List.mem_filter.1 hm).1

theorem properItem_cont {n : Str} {is : List Item} (h : ProperItem (.cont n is)) : ∀ i ∈ is, ProperItem i := by
  cases h
  assumption

theorem SettledObj.mono {M N : σ → Prop} {o : Obj σ} (h : SettledObj M o) (hi : ∀ m, M m → N m) : SettledObj N o :=
  ⟨h.keys, h.lists, fun k hk m hm => hi m (h.members k hk m hm)⟩

theorem ProperVal.mono {M N : σ → Prop} (hi : ∀ m, M m → N m) {v : Val σ} (h : ProperVal M v) : ProperVal N v := by
  cases v with
  | comp m => exact hi m h
  | _ => exact h

theorem ProperObj.mono {M N : σ → Prop} {o : Obj σ} (h : ProperObj M o) (hi : ∀ m, M m → N m) : ProperObj N o := by
  refine ⟨h.keys, h.params, h.extra, fun k hk => ?_⟩
  have := h.attrs k hk
  cases e : o.get k.toList with
  | none => trivial
  | one v => rw [e] at this; exact ProperVal.mono hi this
  | many l => rw [e] at this; exact fun v hv => ProperVal.mono hi (this v hv)

/-- An alarm that was read is settled. -/
theorem alarm_settled {L : Lib} {items : List Item} {zones : List (Str × Nat)} {o : Alarm} {ctx1 : Ctx}
    (hi : ∀ i ∈ items, ProperItem i) (h : loadAlarm L items (some zones) = .ok (o, ctx1)) : SettledAlarm o ∧ ProperAlarm o := by
  simp only [loadAlarm, bind_ok_iff] at h
  obtain ⟨i, hone, h⟩ := h
  cases i with
  | cont n is => cases h
  | line cl =>
    have hmem : MemStable L (fun (_ : Str) (_ : List Item) (_ : Ctx) => (.error .notImplementedError : Except PyErr (Empty × Ctx))) :=
      fun _ _ => Stable.error _ _
    exact load_settled hmem hi h fun _ _ _ _ _ _ _ _ => trivial

/-- An event or a todo that was read is settled. -/
theorem entry_settled {L : Lib} {c : Cls} {items : List Item} {zones : List (Str × Nat)} {o : EntryObj} {ctx1 : Ctx}
    (hi : ∀ i ∈ items, ProperItem i) (h : loadEntry L c items (some zones) = .ok (o, ctx1)) : SettledEntry o ∧ ProperEntry o := by
  have hmem : MemStable L (fun (_ : Str) (items : List Item) (ctx : Ctx) => loadAlarm L items ctx) :=
    fun _ items => loadAlarm_stable L items
  obtain ⟨h1, h2⟩ := load_settled (M := fun m => SettledAlarm m ∧ ProperAlarm m) hmem hi h
    fun a n is m ctx' hcv hm hload => alarm_settled (properItem_cont (hi _ hm)) hload
  exact ⟨h1.mono fun _ => And.left, h2.mono fun _ => And.right⟩

/-- A calendar that was read is settled. -/
theorem calendar_settled {L : Lib} {items : List Item} {o : CalObj} (hi : ∀ i ∈ items, ProperItem i)
    (h : loadCalendar L items = .ok o) : SettledCalendar o ∧ ProperCalendar o := by
  simp only [loadCalendar, bind_ok_iff] at h
  obtain ⟨avail, _, ⟨o', ctx1⟩, h, e⟩ := h
  cases e
  obtain ⟨h1, h2⟩ := load_settled (M := fun m => SettledEntry m ∧ ProperEntry m) (loadCalMember_stable L) hi h
    fun a n is m ctx' hcv hm hload => by
      rcases calendar_members hcv with ⟨rfl, rfl⟩ | ⟨rfl, rfl⟩
      · exact entry_settled (properItem_cont (hi _ hm)) hload
      · exact entry_settled (properItem_cont (hi _ hm)) hload
  exact ⟨h1.mono fun _ => And.left, h2.mono fun _ => And.right⟩

end Ics
