import Verif.Proofs.AcceptedObj
import Verif.Proofs.CalText
import Verif.Proofs.Parsed

/-
Components that were read from text can be written as text.
-/
namespace Ics

variable {σ : Type}

theorem writableTrees_mem {l : List Item} (h : WritableTrees l) : ∀ i ∈ l, WritableTree i := by
  induction l with
  | nil => exact fun i hi => absurd hi List.not_mem_nil
  | cons j l ih =>
    rw [WritableTrees] at h
    intro i hi
    rcases List.mem_cons.1 hi with rfl | hi
    · exact h.1
    · exact ih h.2 i hi

theorem geturl_noBreak {k : UrlChecks} {u : Url} (h : UrlWf k u) : NoBreak u.geturl := by
  have key : ∀ c ∈ u.geturl, c ≠ '\r' ∧ c ≠ '\n' := by
    intro c hc
    rcases mem_geturl hc with hc | rfl | rfl | rfl | rfl
    · exact (h.clean c hc).2
    all_goals decide
  exact ⟨fun hm => (key _ hm).1 rfl, fun hm => (key _ hm).2 rfl⟩

/-- An attribute that can be written. -/
def WAttr (L : Lib) (M : σ → Prop) : AttrVal σ → Prop
  | .none => True
  | .one v => WritableVal L M v
  | .many l => ∀ v ∈ l, WritableVal L M v

/-- Parameters that can be written. -/
def WExtra : ExtraVal → Prop
  | .one p => WritableParams p
  | .many ps => ∀ p ∈ ps, WritableParams p

/-- What holds while a component is read; `A` are its attributes. -/
structure WInv (L : Lib) (M : σ → Prop) (A : Str → Prop) (o : Obj σ) : Prop where
  attrs : ∀ kv ∈ o.attrs, A kv.1 ∧ WAttr L M kv.2
  params : ∀ kv ∈ o.extraParams, WExtra kv.2

/-- What was read from an item can be written. -/
def WDelta (L : Lib) (M : σ → Prop) : Delta σ → Prop
  | .single v p => WritableVal L M v ∧ WritableParams p
  | .multi l => ∀ x ∈ l, WritableVal L M x.1 ∧ WritableParams x.2
  | .member m => M m
  | .spanTime _ _ p => WritableParams p
  | .spanDur _ => True
  | .unit => True

section
variable {L : Lib} {M : σ → Prop} {A : Str → Prop}

theorem WInv.setAttr {o : Obj σ} (h : WInv L M A o) {k : Str} (hk : A k) {v : AttrVal σ} (hv : WAttr L M v) :
    WInv L M A { o with attrs := dictSet o.attrs k v } := by
  refine ⟨fun kv hm => ?_, h.params⟩
  rcases mem_dictSet hm with rfl | hm
  · exact ⟨hk, hv⟩
  · exact h.attrs kv hm

theorem WInv.setParam {o : Obj σ} (h : WInv L M A o) {k : Str} {e : ExtraVal} (hv : WExtra e) :
    WInv L M A { o with extraParams := dictSet o.extraParams k e } := by
  refine ⟨h.attrs, fun kv hm => ?_⟩
  rcases mem_dictSet hm with rfl | hm
  · exact hv
  · exact h.params kv hm

theorem WInv.setExtra {o : Obj σ} (h : WInv L M A o) {k : Str} {p : Params} (hp : WritableParams p) :
    WInv L M A (o.setExtraParams k p) := by
  unfold Obj.setExtraParams
  split
  · exact h
  · exact h.setParam hp

theorem WInv.get {o : Obj σ} (h : WInv L M A o) (k : Str) : WAttr L M (o.get k) := by
  unfold Obj.get
  cases hg : dictGet? o.attrs k with
  | none => trivial
  | some v => exact (h.attrs _ (mem_of_dictGet hg)).2

theorem WInv.appendValue {o o' : Obj σ} (h : WInv L M A o) {k : Str} (hk : A k) {v : Val σ} (hv : WritableVal L M v)
    (ho : o.appendValue k v = .ok o') : WInv L M A o' := by
  unfold Obj.appendValue at ho
  have hg := h.get k
  split at ho
  · cases ho
    exact h.setAttr hk fun w hw => List.mem_singleton.1 hw ▸ hv
  · rename_i e
    rw [e] at hg
    cases ho
    refine h.setAttr hk fun w hw => ?_
    rcases List.mem_append.1 hw with hw | hw
    · exact hg w hw
    · exact List.mem_singleton.1 hw ▸ hv
  · cases ho

theorem WInv.appendExtra {o o' : Obj σ} (h : WInv L M A o) {k : Str} {p : Params} (hp : WritableParams p)
    (ho : o.appendExtraParams k p = .ok o') : WInv L M A o' := by
  unfold Obj.appendExtraParams at ho
  split at ho
  · cases ho
    exact h.setParam fun w hw => List.mem_singleton.1 hw ▸ hp
  · rename_i ps e
    cases ho
    refine h.setParam fun w hw => ?_
    rcases List.mem_append.1 hw with hw | hw
    · exact h.params _ (mem_of_dictGet e) w hw
    · exact List.mem_singleton.1 hw ▸ hp
  · cases ho

theorem WInv.appendAll {l : List (Val σ × Params)} {k : Str} (hk : A k)
    (hl : ∀ x ∈ l, WritableVal L M x.1 ∧ WritableParams x.2) {o o' : Obj σ} (h : WInv L M A o)
    (ho : o.appendAll k l = .ok o') : WInv L M A o' := by
  induction l generalizing o with
  | nil =>
    cases ho
    exact h
  | cons x l ih =>
    obtain ⟨v, p⟩ := x
    simp only [Obj.appendAll, bind_ok_iff] at ho
    obtain ⟨o1, h1, o2, h2, h3⟩ := ho
    obtain ⟨a, b⟩ := hl _ List.mem_cons_self
    exact ih (fun x hx => hl x (List.mem_cons_of_mem _ hx)) ((h.appendExtra b h1).appendValue hk a h2) h3

theorem WritableLib.time (hL : WritableLib L) (d : DT) : WritableTime L d := fun t z _ hz => hL.zones t z hz

theorem WritableLib.span (hL : WritableLib L) (s : Span) : WritableVal L M (.span s) :=
  ⟨fun d _ => hL.time d, fun d _ => hL.time d⟩

theorem check_writable (hL : WritableLib L) {ch : Check} {v : Val σ} {w : AttrVal σ} (hv : WritableVal L M v)
    (h : ch.run L (.one v) = .ok w) : WAttr L M w := by
  have key : ∀ a : AttrVal σ, WAttr L M a → ch.run L a = .ok w → WAttr L M w := by
    intro a ha h
    unfold Check.run at h
    split at h
    all_goals try split at h
    all_goals first
      | (injection h with h; rw [← h]; exact ha)
      | (injection h with h; rw [← h]; trivial)
      | (injection h)
      | (rw [map_ok_iff] at h; obtain ⟨d, _, rfl⟩ := h; exact hL.time d)
      | (rw [map_ok_iff] at h; obtain ⟨d, _, rfl⟩ := h; exact ha)
  exact key (.one v) hv h

theorem parse_writable (hL : WritableLib L) {cv : ValConv} {t : Str} {p p' : Params} {ctx ctx' : Ctx} {v : Val σ}
    (h : cv.parse L t p ctx = .ok (v, p', ctx')) (hp : WritableParams p) : WritableVal L M v ∧ WritableParams p' := by
  constructor
  · cases cv <;> obtain ⟨a, ha, he⟩ := map_ok_iff.1 h <;> cases he
    · trivial
    · exact geturl_noBreak (urlparse_wf ha)
    · trivial
    · exact hL.time _
    · trivial
    · trivial
    · trivial
    · unfold geoParse at ha
      split at ha
      · cases ha
      · split at ha
        · cases ha
          exact ⟨hL.floats _, hL.floats _⟩
        · cases ha
    · exact ⟨geturl_noBreak (urlparse_wf ha), hp⟩
    · exact ⟨geturl_noBreak (urlparse_wf ha), hp⟩
  · rw [parse_params h]
    split
    · exact writableParams_nil
    · split
      · exact writableParams_erase hp _
      · exact hp

theorem merge_key : NoBreak mergeKey ∧ ∀ c ∈ mergeKey, c ≠ '=' ∧ c ≠ ':' ∧ c ≠ ';' := by
  unfold mergeKey
  refine ⟨⟨by decide, by decide⟩, ?_⟩
  simp

theorem setMerge_writable {p : Params} (hp : WritableParams p) (b : Bool) : WritableParams (setMerge p b) := by
  refine writableParams_set hp merge_key ⟨[], _, rfl, .inr ?_⟩ ?_
  · cases b <;> decide
  · intro x hx
    rw [List.mem_singleton.1 hx]
    cases b <;> decide

theorem parseValues_writable (hL : WritableLib L) {cv : ValConv} {ts : List Str} {p : Params}
    {ctx ctx' : Ctx} {vals : List (Val σ × Params)} (h : parseValues L cv ts p ctx = .ok (vals, ctx'))
    (hp : WritableParams p) : ∀ x ∈ vals, WritableVal L M x.1 ∧ WritableParams x.2 := by
  induction ts generalizing p ctx vals with
  | nil =>
    injection h with h
    injection h with h _
    rw [← h]
    intro x hx
    exact absurd hx List.not_mem_nil
  | cons t ts ih =>
    simp only [parseValues, bind_ok_iff] at h
    obtain ⟨⟨v, p1, ctx1⟩, h1, ⟨r, ctx2⟩, h2, h⟩ := h
    injection h with h
    injection h with h h'
    subst h'
    rw [← h]
    obtain ⟨a, b⟩ := parse_writable (M := M) hL h1 hp
    intro x hx
    rcases List.mem_cons.1 hx with rfl | hx
    · exact ⟨a, setMerge_writable b _⟩
    · exact ih h2 (setMerge_writable b true) x hx

theorem markLast_writable {l : List (Val σ × Params)} (h : ∀ x ∈ l, WritableVal L M x.1 ∧ WritableParams x.2) :
    ∀ x ∈ markLast l, WritableVal L M x.1 ∧ WritableParams x.2 := by
  induction l using markLast.induct with
  | case1 => exact h
  | case2 v p =>
    intro x hx
    rw [markLast, List.mem_singleton] at hx
    obtain ⟨a, b⟩ := h _ List.mem_cons_self
    rw [hx]
    exact ⟨a, setMerge_writable b _⟩
  | case3 x y l ih =>
    intro z hz
    rw [markLast] at hz
    rcases List.mem_cons.1 hz with rfl | hz
    · exact h _ List.mem_cons_self
    · exact ih (fun w hw => h w (List.mem_cons_of_mem _ hw)) z hz

theorem line_params {cl : ContentLine} (h : WritableItemLine cl) : WritableParams cl.params :=
  ⟨fun kv hm => ⟨h.pnameBreak kv hm, h.pnames kv hm⟩, h.distinct, h.vals, h.nocr⟩

theorem read_writable (hL : WritableLib L) {mem : MemberLoad σ} {cv : Conv} {item : Item} {ctx ctx' : Ctx} {d : Delta σ}
    (hi : WritableTree item) (h : readConv L mem cv item ctx = .ok (d, ctx'))
    (hm : ∀ a n' n is m ctx', cv = .member a n' → item = .cont n is → mem n is ctx = .ok (m, ctx') → M m) : WDelta L M d := by
  unfold readConv at h
  split at h
  · rename_i s cl
    rw [WritableTree] at hi
    have hp := line_params hi
    split at h
    · simp only [bind_ok_iff] at h
      obtain ⟨⟨p, cv⟩, h1, ⟨vals, ctx2⟩, h2, _, _, h⟩ := h
      cases h
      obtain ⟨rfl, _⟩ := prepare_ok h1
      exact markLast_writable (parseValues_writable hL h2 (writableParams_erase hp _))
    · simp only [bind_ok_iff] at h
      obtain ⟨⟨p, cv⟩, h1, ⟨v, p', ctx2⟩, h2, h⟩ := h
      cases h
      obtain ⟨rfl, _⟩ := prepare_ok h1
      exact parse_writable hL h2 (writableParams_erase hp _)
  · simp only [bind_ok_iff] at h
    obtain ⟨⟨m, ctx2⟩, h1, h⟩ := h
    cases h
    exact hm _ _ _ _ _ _ rfl rfl h1
  · rename_i cl
    rw [WritableTree] at hi
    split at h
    · simp only [bind_ok_iff] at h
      obtain ⟨x, _, h⟩ := h
      cases h
      trivial
    · simp only [bind_ok_iff] at h
      obtain ⟨⟨v, prec, p, ctx2⟩, h1, h⟩ := h
      cases h
      show WritableParams p
      rw [parseSpanValue_params h1]
      exact writableParams_erase (writableParams_erase (line_params hi) _) _
  · cases h
    trivial

theorem store_writable (hL : WritableLib L) {cv : Conv} (hA : ∀ k ∈ cv.attrKeys, A k) {item : Item} {d : Delta σ}
    {a b : Core σ} (hi : WritableTree item) (hd : WDelta L M d) (h : storeConv L cv item d a = .ok b)
    (ha : WInv L M A a.obj) : WInv L M A b.obj := by
  unfold storeConv at h
  split at h
  · split at h
    · cases h
    · simp only [storeSingle, Obj.setattr, map_ok_iff] at h
      obtain ⟨o, ⟨w, hw, rfl⟩, rfl⟩ := h
      exact (ha.setExtra hd.2).setAttr (hA _ (List.mem_singleton_self _)) (check_writable hL hd.1 hw)
  · split at h
    · simp only [storeMulti, map_ok_iff] at h
      obtain ⟨o, ho, rfl⟩ := h
      exact WInv.appendAll (hA _ (List.mem_singleton_self _)) hd ha ho
    · cases h
  · simp only [map_ok_iff] at h
    obtain ⟨o, ho, rfl⟩ := h
    exact ha.appendValue (v := .comp _) (hA _ (List.mem_singleton_self _)) hd ho
  · simp only [storeSpanTime, bind_ok_iff] at h
    obtain ⟨_, _, h⟩ := h
    split at h <;> cases h <;> exact ha.setExtra hd
  · cases h
    rw [WritableTree] at hi
    exact ha.setExtra (line_params hi)
  · unfold storeAction at h
    rw [WritableTree] at hi
    split at h
    · cases h
    · split at h
      · cases h
        exact ha
      · cases h
        exact ha.setParam (line_params hi)
  · cases h
    exact ha
  · cases h

theorem convs_writable (hL : WritableLib L) {mem : MemberLoad σ} {zones : List (Str × Nat)} {rd : Reading σ}
    (hrd : IsReading L mem (L.toWorld.resolve (some zones)) rd) {item : Item} (hi : WritableTree item)
    {cvs : List Conv} (hm : ∀ a n' n is m ctx', .member a n' ∈ cvs → item = .cont n is →
      mem n is (some zones) = .ok (m, ctx') → M m)
    (hA : ∀ cv ∈ cvs, ∀ k ∈ cv.attrKeys, A k) {a b : Core σ} (h : coreConvs L rd item cvs a = .ok b)
    (ha : WInv L M A a.obj) : WInv L M A b.obj := by
  induction cvs generalizing a with
  | nil =>
    cases h
    exact ha
  | cons cv cvs ih =>
    simp only [coreConvs, bind_ok_iff] at h
    obtain ⟨a1, h1, h2⟩ := h
    refine ih (fun a n' n is m ctx' hj => hm a n' n is m ctx' (List.mem_cons_of_mem _ hj))
      (fun cv hcv => hA cv (List.mem_cons_of_mem _ hcv)) h2 ?_
    simp only [coreConv, bind_ok_iff] at h1
    obtain ⟨_, _, d, hd, h1⟩ := h1
    have q := hrd cv item (some zones) rfl rfl
    unfold Outcome at q
    rw [hd] at q
    obtain ⟨ctx', q, _⟩ := q
    exact store_writable hL (hA cv List.mem_cons_self) hi (read_writable hL hi q fun a n' n is m ctx' e => hm a n' n is m ctx' (e ▸ List.mem_cons_self)) h1 ha

theorem items_writable (hL : WritableLib L) {mem : MemberLoad σ} {zones : List (Str × Nat)} {rd : Reading σ}
    (hrd : IsReading L mem (L.toWorld.resolve (some zones)) rd) {c : Cls} {items : List Item}
    (hi : ∀ i ∈ items, WritableTree i)
    (hm : ∀ a n is m ctx', .member a n ∈ c.convs → .cont n is ∈ items → mem n is (some zones) = .ok (m, ctx') → M m)
    (hA : ∀ cv ∈ c.convs, ∀ k ∈ cv.attrKeys, A k) {a b : Core σ} (hc : a.obj.cls = c)
    (h : coreItems L rd items a = .ok b) (ha : WInv L M A a.obj) : WInv L M A b.obj := by
  induction items generalizing a with
  | nil =>
    cases h
    exact ha
  | cons i is ih =>
    simp only [coreItems, bind_ok_iff] at h
    obtain ⟨a1, h1, h2⟩ := h
    refine ih (fun j hj => hi j (List.mem_cons_of_mem _ hj)) (fun a n is m ctx' hc hj => hm a n is m ctx' hc (List.mem_cons_of_mem _ hj))
      ((coreItem_cls h1).trans hc) h2 ?_
    simp only [coreItem, map_ok_iff] at h1
    obtain ⟨a2, h1, rfl⟩ := h1
    have := convs_writable (A := A) hL hrd (hi _ List.mem_cons_self)
      (fun a n' n is m ctx' hcv e hl => by
        obtain ⟨h3, h4⟩ := List.mem_filter.1 hcv
        subst e
        obtain rfl : n = n' := List.mem_singleton.1 (of_decide_eq_true h4)
        exact hm a n is m ctx' (hc ▸ h3) List.mem_cons_self hl)
      (fun cv hcv => hA cv (hc ▸ (List.mem_filter.1 hcv).1)) h1 ha
    unfold Core.keep
    split
    · exact ⟨this.attrs, this.params⟩
    · exact this

theorem post_writable (hL : WritableLib L) {cvs : List Conv} (hA : .timespan ∈ cvs → A "timespan".toList) {a b : Core σ}
    (h : corePostAll L cvs a = .ok b) (ha : WInv L M A a.obj) : WInv L M A b.obj := by
  induction cvs generalizing a with
  | nil =>
    cases h
    exact ha
  | cons cv cvs ih =>
    simp only [corePostAll, bind_ok_iff] at h
    obtain ⟨a1, h1, h2⟩ := h
    refine ih (fun e => hA (List.mem_cons_of_mem _ e)) h2 ?_
    unfold corePost at h1
    rw [map_ok_iff] at h1
    obtain ⟨st, h1, rfl⟩ := h1
    cases cv with
    | timespan =>
      simp only [Conv.post, postSpan, bind_ok_iff] at h1
      obtain ⟨sp, _, _, _, o, h3, h⟩ := h1
      cases h
      simp only [Obj.setattr, map_ok_iff] at h3
      obtain ⟨w, h3, rfl⟩ := h3
      exact WInv.setAttr (o := a.obj) ha (hA List.mem_cons_self) (check_writable hL (hL.span _) h3)
    | value s =>
      simp only [Conv.post] at h1
      split at h1
      · cases h1
      · cases h1
        exact ha
    | _ =>
      cases h1
      exact ha

theorem default_writable (hL : WritableLib L) {k : Str} {m : Bool} : WAttr L M (defaultAttr L k m) := by
  unfold defaultAttr
  by_cases h1 : m = true
  · rw [if_pos h1]
    intro v hv
    exact absurd hv List.not_mem_nil
  rw [if_neg h1]
  by_cases h2 : k = "uid".toList
  · rw [if_pos h2]
    trivial
  rw [if_neg h2]
  by_cases h3 : k = "dtstamp".toList
  · rw [if_pos h3]
    exact hL.time _
  rw [if_neg h3]
  by_cases h4 : k = "version".toList
  · rw [if_pos h4]
    trivial
  rw [if_neg h4]
  by_cases h5 : k = "prodid".toList
  · rw [if_pos h5]
    trivial
  rw [if_neg h5]
  trivial

theorem new_writable (hL : WritableLib L) {c : Cls} (hA : ∀ cv ∈ c.convs, ∀ k ∈ cv.attrKeys, A k) :
    WInv L M A (newObj L c) := by
  refine ⟨fun kv hm => ?_, nofun⟩
  obtain ⟨cv, hcv, hm⟩ := List.mem_flatMap.1 hm
  have hA := hA cv hcv
  cases cv with
  | value s =>
    rw [Conv.default, List.mem_singleton] at hm
    subst hm
    refine ⟨hA _ (List.mem_singleton_self _), ?_⟩
    exact default_writable hL
  | member a n =>
    rw [Conv.default, List.mem_singleton] at hm
    subst hm
    exact ⟨hA _ (List.mem_singleton_self _), fun v hv => absurd hv List.not_mem_nil⟩
  | timespan =>
    rw [Conv.default, List.mem_singleton] at hm
    subst hm
    exact ⟨hA _ (List.mem_singleton_self _), hL.span (M := M) _⟩
  | _ => cases hm

end

/-- The attributes of a class. -/
def Cls.hasAttr (c : Cls) (k : Str) : Prop := ∃ cv ∈ c.convs, k ∈ cv.attrKeys

theorem load_winv {L : Lib} (hL : WritableLib L) {M : σ → Prop} {mem : MemberLoad σ} (hmem : MemStable L mem) {c : Cls}
    {items : List Item} {zones : List (Str × Nat)} {o : Obj σ} {ctx1 : Ctx} (hi : ∀ i ∈ items, WritableTree i)
    (h : loadObj L mem c items (some zones) = .ok (o, ctx1))
    (hm : ∀ a n is m ctx', .member a n ∈ c.convs → .cont n is ∈ items → mem n is (some zones) = .ok (m, ctx') → M m) :
    WInv L M c.hasAttr o := by
  obtain ⟨rd, hrd⟩ := exists_reading hmem (L.toWorld.resolve (some zones))
  have k := loadObj_core hrd c items (ctx := some zones) rfl rfl
  unfold Outcome at k
  cases ho : coreLoad L rd c items with
  | error e =>
    rw [ho] at k
    rw [k] at h
    cases h
  | ok o' =>
    rw [ho] at k
    obtain ⟨ctx', k, _⟩ := k
    rw [k] at h
    cases h
    simp only [coreLoad, bind_ok_iff, map_ok_iff] at ho
    obtain ⟨a, ha, a', ha', rfl⟩ := ho
    have hA : ∀ cv ∈ c.convs, ∀ k ∈ cv.attrKeys, c.hasAttr k := fun cv hcv k hk => ⟨cv, hcv, hk⟩
    exact post_writable hL (fun e => hA _ e _ (List.mem_singleton_self _)) ha'
      (items_writable hL hrd hi hm hA rfl ha (new_writable hL hA))

theorem icsName_writable (c : Cls) : WritableName c.icsName := by
  cases c <;> exact ⟨by decide, by decide, by decide, by decide⟩

/-- A component that was read from lines that can be written can be written. -/
theorem load_writable {L : Lib} (hL : WritableLib L) {M : σ → Prop} {mem : MemberLoad σ} (hmem : MemStable L mem) {c : Cls}
    {items : List Item} {zones : List (Str × Nat)} {o : Obj σ} {ctx1 : Ctx} (hi : WritableTrees items)
    (h : loadObj L mem c items (some zones) = .ok (o, ctx1))
    (hm : ∀ a n is m ctx', .member a n ∈ c.convs → .cont n is ∈ items → mem n is (some zones) = .ok (m, ctx') → M m) :
    WritableObj L M o := by
  have hi := writableTrees_mem hi
  have w := load_winv hL hmem hi h hm
  obtain ⟨f1, f2, f3⟩ := loadObj_frame h
  refine ⟨?_, ?_, fun k v hk => ?_, fun k l hk => ?_, fun k p hk => w.params _ (mem_of_dictGet hk),
    fun k ps hk => w.params _ (mem_of_dictGet hk)⟩
  · rw [f2]
    exact icsName_writable c
  · rw [f3]
    exact writableTrees_of fun i h => hi i (List.mem_filter.1 h).1
  · have := w.get k
    rw [hk] at this
    exact this
  · have := w.get k
    rw [hk] at this
    exact this

theorem not_hasAttr {c : Cls} (hc : c ∈ [Cls.audioAlarm, .displayAlarm, .emailAlarm, .noneAlarm]) :
    ¬c.hasAttr "_action".toList := by
  rintro ⟨cv, h1, h2⟩
  have key : "_action".toList ∈ c.convs.flatMap Conv.attrKeys := List.mem_flatMap.2 ⟨cv, h1, h2⟩
  revert key
  simp only [List.mem_cons, List.not_mem_nil, or_false] at hc
  rcases hc with rfl | rfl | rfl | rfl <;> decide

/-- An alarm that was read can be written. -/
theorem alarm_writable {L : Lib} (hL : WritableLib L) {items : List Item} {zones : List (Str × Nat)} {o : Alarm}
    {ctx1 : Ctx} (hi : WritableTrees items) (h : loadAlarm L items (some zones) = .ok (o, ctx1))
    (hl : SafeAlarmItems items) : WritableAlarm L o := by
  simp only [loadAlarm, bind_ok_iff] at h
  obtain ⟨i, hone, h⟩ := h
  cases i with
  | cont n is => cases h
  | line cl =>
    have hcl : Item.line cl ∈ items ∧ cl.name = "ACTION".toList := by
      unfold oneItem at hone
      split at hone
      · rename_i e
        cases hone
        have : Item.line cl ∈ items.filter fun i => i.name = "ACTION".toList := e ▸ List.mem_singleton_self _
        exact ⟨(List.mem_filter.1 this).1, of_decide_eq_true (List.mem_filter.1 this).2⟩
      · cases hone
    have hstd := alarmCls_standard (hl.action cl hcl.1 hcl.2)
    have hmem : MemStable L (fun (_ : Str) (_ : List Item) (_ : Ctx) => (.error .notImplementedError : Except PyErr (Empty × Ctx))) :=
      fun _ _ => Stable.error _ _
    refine ⟨load_writable hL hmem hi h fun _ _ _ _ _ _ _ _ => trivial, fun a ha => ?_⟩
    have w := load_winv (M := fun _ => True) hL hmem (writableTrees_mem hi) h fun _ _ _ _ _ _ _ _ => trivial
    unfold Obj.get at ha
    cases hg : dictGet? o.attrs "_action".toList with
    | none =>
      rw [hg] at ha
      cases ha
    | some v => exact absurd (w.attrs _ (mem_of_dictGet hg)).1 (not_hasAttr hstd)

/-- An event or a todo that was read can be written. -/
theorem entry_writable {L : Lib} (hL : WritableLib L) {c : Cls} (hc : c = .event ∨ c = .todo)
    {items : List Item} {zones : List (Str × Nat)} {o : EntryObj} {ctx1 : Ctx} (hi : WritableTrees items)
    (h : loadEntry L c items (some zones) = .ok (o, ctx1)) (hl : SafeEntryItems c items) : WritableEntry L o := by
  have hmem : MemStable L (fun (_ : Str) (items : List Item) (ctx : Ctx) => loadAlarm L items ctx) :=
    fun _ items => loadAlarm_stable L items
  refine ⟨?_, load_writable hL hmem hi h fun a n is m ctx' hcv hm hload => ?_⟩
  · rw [show o.cls = _ from (loadObj_frame h).1]
    exact hc
  · obtain rfl := entry_members hc hcv
    have := writableTrees_mem hi _ hm
    rw [WritableTree] at this
    exact alarm_writable hL this.2 hload (hl.alarms is hm)

/-- A calendar that was read can be written. -/
theorem calendar_writable {L : Lib} (hL : WritableLib L) {items : List Item} {o : CalObj} (hi : WritableTrees items)
    (h : loadCalendar L items = .ok o) (hl : SafeCalendarItems items) : WritableCalendar L o := by
  simp only [loadCalendar, bind_ok_iff] at h
  obtain ⟨avail, _, ⟨o', ctx1⟩, h, e⟩ := h
  cases e
  refine load_writable hL (loadCalMember_stable L) hi h fun a n is m ctx' hcv hm hload => ?_
  have := writableTrees_mem hi _ hm
  rw [WritableTree] at this
  rcases calendar_members hcv with ⟨rfl, rfl⟩ | ⟨rfl, rfl⟩
  · exact entry_writable hL (.inl rfl) this.2 hload (hl.events is hm)
  · exact entry_writable hL (.inr rfl) this.2 hload (hl.todos is hm)

end Ics
