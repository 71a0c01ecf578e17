import Verif.Spec.Layout
import Verif.Proofs.Dump

/-
What is written has the layout.
-/
namespace Ics

variable {σ : Type}

/-- The converter fills the place. -/
def fits : Slot → Conv → Bool
  | .one a l, .value s => !s.multi && s.attr == a.toList && s.ics == l.toList
  | .list a l, .value s => s.multi && s.attr == a.toList && s.ics == l.toList
  | .members a, .member a' _ => a' == a.toList
  | .time, .timespan => true
  | .action, .alarmAction => true
  | .zones, .calendarTimezone => true
  | _, _ => false

theorem fits_all (c : Cls) : List.Forall₂ (fun s cv => fits s cv = true) (layout c) c.convs := by
  rw [List.forall₂_iff_zip]
  have : (layout c).length = c.convs.length ∧ ∀ x ∈ (layout c).zip c.convs, fits x.1 x.2 = true := by
    cases c <;> decide +kernel
  exact ⟨this.1, fun h => this.2 _ h⟩

theorem lineOf_isLine {n : String} {i : Item} (h : IsLine n.toList i) : LineOf n i := h

theorem multiLoop_count {L : Lib} {s : AttrSpec} {l : List (Val σ × Params)} {cur : Option Params} {ts : List Str}
    {st st' : DState} {is : List Item} (h : dumpMultiLoop L s l cur ts st = .ok (is, st')) :
    is.length ≤ l.length ∧ (l ≠ [] → is ≠ []) ∧ ((∀ x ∈ l, x.2 = []) → is.length = l.length) := by
  induction l generalizing cur ts st is with
  | nil =>
    simp only [dumpMultiLoop, bind_ok_iff] at h
    obtain ⟨_, _, h⟩ := h
    cases h
    simp
  | cons x l ih =>
    obtain ⟨v, p⟩ := x
    simp only [dumpMultiLoop, bind_ok_iff] at h
    obtain ⟨c, _, t, _, _, _, h⟩ := h
    split at h
    · rename_i hm
      obtain ⟨h1, h2, _⟩ := ih h
      have hl : l ≠ [] := by
        rintro rfl
        simp [dumpMultiLoop, raiseIf, bind, Except.bind] at h
      refine ⟨Nat.le_succ_of_le h1, fun _ => h2 hl, fun hp => ?_⟩
      obtain rfl : p = [] := hp (v, p) List.mem_cons_self
      cases hm
    · simp only [bind_ok_iff] at h
      obtain ⟨r, hr, h⟩ := h
      cases h
      obtain ⟨h1, _, h3⟩ := ih hr
      refine ⟨Nat.succ_le_succ h1, fun _ => List.cons_ne_nil _ _, fun hp => ?_⟩
      rw [List.length_cons, List.length_cons, h3 fun x hx => hp x (List.mem_cons_of_mem _ hx)]

theorem zipParams_length {vs : List (Val σ)} {e : Option ExtraVal} {l : List (Val σ × Params)}
    (h : zipParams vs e = .ok l) : l.length = vs.length ∧ (e = none → ∀ x ∈ l, x.2 = []) := by
  unfold zipParams at h
  split at h
  · cases h
    simp
  · split at h
    · cases h
      simp
    · split at h
      · cases h
      · rename_i hn
        cases h
        simp only [not_not] at hn
        simp [hn]
  · split at h
    · cases h
      simp
    · split at h <;> cases h

theorem multi_holds {L : Lib} {Z : Item → Prop} {P : σ → Item → Prop} {s : AttrSpec} {a l : String}
    (ha : s.attr = a.toList) (hl : s.ics = l.toList) (hu : upper s.ics = s.ics) {o : Obj σ} {st st' : DState}
    {is : List Item} (h : dumpMulti L s o st = .ok (is, st')) : Holds Z P o (.list a l) is := by
  have hlines := dumpMulti_lines hu h
  unfold dumpMulti at h
  split at h
  · rename_i vs hg
    simp only [bind_ok_iff] at h
    obtain ⟨zs, hz, h⟩ := h
    obtain ⟨h1, h2⟩ := zipParams_length hz
    obtain ⟨k1, k2, k3⟩ := multiLoop_count h
    refine .list (vs := vs) (ha ▸ hg) (fun i hi => by
        have := hlines i hi
        rwa [hl] at this) (fun hne => k2 ?_) (h1 ▸ k1)
      (fun hn => h1 ▸ k3 (h2 (ha ▸ hn)))
    rintro rfl
    exact hne (List.eq_nil_of_length_eq_zero h1.symm)
  · cases h

theorem single_holds {L : Lib} {Z : Item → Prop} {P : σ → Item → Prop} {s : AttrSpec} {a l : String}
    (ha : s.attr = a.toList) (hl : s.ics = l.toList) (hu : upper s.ics = s.ics) {o : Obj σ} {st st' : DState}
    {is : List Item} (h : dumpSingle L s o st = .ok (is, st')) : Holds Z P o (.one a l) is := by
  unfold dumpSingle at h
  split at h
  · rename_i hg
    cases h
    exact .absent (ha ▸ hg)
  · rename_i v hg
    simp only [bind_ok_iff] at h
    obtain ⟨p, _, x, _, y, _, h⟩ := h
    cases h
    exact .present (ha ▸ hg) ⟨_, _, by rw [mkContentLine, hu, hl]⟩
  · cases h

theorem span_holds {L : Lib} {Z : Item → Prop} {P : σ → Item → Prop} {o : Obj σ} {st st' : DState}
    {is : List Item} (h : dumpSpan L o st = .ok (is, st')) : Holds Z P o .time is := by
  unfold dumpSpan at h
  split at h
  · rename_i s hg
    simp only [bind_ok_iff] at h
    obtain ⟨⟨a, st1⟩, ha, ⟨b, st2⟩, hb, h⟩ := h
    cases h
    have kb : LineIf s.begin?.isSome "DTSTART" a := by
      unfold dumpSpanBegin at ha
      split at ha
      · rename_i e
        cases ha
        exact .inr ⟨by rw [e]; rfl, rfl⟩
      · rename_i e
        split at ha
        · cases ha
        · simp only [bind_ok_iff] at ha
          obtain ⟨_, _, _, _, ha⟩ := ha
          cases ha
          exact .inl ⟨by rw [e]; rfl, _, rfl, _, _, by rw [mkContentLine, spanNames_upper.1]⟩
    have ke : s.cls.endLine = (if s.cls = .todo then "DUE" else "DTEND").toList := by
      cases s.cls <;> rfl
    unfold dumpSpanEnd at hb
    split at hb
    · rename_i d _ hd
      simp only [bind_ok_iff] at hb
      obtain ⟨_, _, hb⟩ := hb
      cases hb
      rw [← List.append_nil a]
      exact .time hg kb (.inr ⟨by rw [hd]; simp, rfl⟩)
        (.inl ⟨by rw [hd]; rfl, _, rfl, _, _, by rw [mkContentLine, spanNames_upper.2.1]⟩)
    · rename_i en hd he
      simp only [bind_ok_iff] at hb
      obtain ⟨_, _, _, _, hb⟩ := hb
      cases hb
      rw [← List.append_nil (a ++ _)]
      exact .time hg kb
        (.inl ⟨by rw [hd, he]; rfl, _, rfl, _, _, by rw [mkContentLine, spanNames_upper.2.2.1, ke]⟩)
        (.inr ⟨by rw [hd]; rfl, rfl⟩)
    · rename_i hd he
      cases hb
      rw [← List.append_nil (a ++ _)]
      exact .time hg kb (.inr ⟨by rw [he]; rfl, rfl⟩) (.inr ⟨by rw [hd]; rfl, rfl⟩)
  · cases h

theorem action_holds {Z : Item → Prop} {P : σ → Item → Prop} {o : Obj σ} {st st' : DState}
    {is : List Item} (h : dumpAction o st = .ok (is, st')) : Holds Z P o .action is := by
  have e : upper "ACTION".toList = "ACTION".toList := by decide
  have key : ∀ t, o.action = .one (.text t) → ∀ x, actionText o.cls = some x → t = x.toList := by
    intro t ht x hx
    unfold Obj.action at ht
    cases hc : o.cls <;> rw [hc] at hx ht <;> cases hx <;> cases ht <;> rfl
  unfold dumpAction at h
  split at h
  · rename_i t ht _
    cases h
    rw [mkContentLine, e]
    exact .action (key _ ht)
  · rename_i t p ht _
    cases h
    rw [mkContentLine, e]
    exact .action (key _ ht)
  · cases h

theorem conv_holds {L : Lib} {mem : MemberDump σ} {Z : Item → Prop} {P : σ → Item → Prop} {o : Obj σ}
    (hm : ∀ m st i st', mem m st = .ok (i, st') → P m i) {c : Cls} {cv : Conv} (hcv : cv ∈ c.convs) {s : Slot}
    (hf : fits s cv = true) {st st' : DState} {is : List Item} (h : cv.dump L mem o st = .ok (is, st')) :
    Holds Z P o s is := by
  cases cv with
  | value sp =>
    have hu := names_upper _ _ hcv sp.ics (List.mem_singleton_self _)
    cases s <;> simp only [fits, Bool.and_eq_true, Bool.not_eq_true', beq_iff_eq, Bool.false_eq_true] at hf
    · unfold Conv.dump at h
      dsimp only at h
      rw [hf.1.1, if_neg (by decide)] at h
      exact single_holds hf.1.2 hf.2 hu h
    · unfold Conv.dump at h
      dsimp only at h
      rw [hf.1.1, if_pos rfl] at h
      exact multi_holds hf.1.2 hf.2 hu h
  | member a n =>
    cases s <;> simp only [fits, beq_iff_eq, Bool.false_eq_true] at hf
    obtain ⟨ms, hg, hfa⟩ := dumpMember_forall h
    exact .members (hf ▸ hg) (hfa.imp fun m i ⟨_, _, hmi⟩ => hm _ _ _ _ hmi)
  | timespan =>
    cases s <;> simp only [fits, Bool.false_eq_true] at hf
    exact span_holds h
  | alarmAction =>
    cases s <;> simp only [fits, Bool.false_eq_true] at hf
    exact action_holds h
  | calendarTimezone =>
    cases s <;> simp only [fits, Bool.false_eq_true] at hf
    cases h
    exact .zones fun _ h => absurd h List.not_mem_nil

theorem holds_parts {L : Lib} {mem : MemberDump σ} {Z : Item → Prop} {P : σ → Item → Prop} {o : Obj σ}
    (hm : ∀ m st i st', mem m st = .ok (i, st') → P m i) {c : Cls} {cvs : List Conv} (hsub : ∀ cv ∈ cvs, cv ∈ c.convs)
    {sl : List Slot} (hf : List.Forall₂ (fun s cv => fits s cv = true) sl cvs) {parts : List (List Item)}
    (hp : List.Forall₂ (fun cv part => ∃ st1 st2, cv.dump L mem o st1 = .ok (part, st2)) cvs parts) :
    List.Forall₂ (Holds Z P o) sl parts := by
  induction hf generalizing parts with
  | nil => cases hp; exact .nil
  | cons h1 _ ih =>
    cases hp with
    | cons hd hr =>
      obtain ⟨st1, st2, hd⟩ := hd
      exact .cons (conv_holds hm (hsub _ List.mem_cons_self) h1 hd)
        (ih (fun cv hcv => hsub cv (List.mem_cons_of_mem _ hcv)) hr)

theorem obj_laid {L : Lib} {mem : MemberDump σ} {P : σ → Item → Prop} {o : Obj σ}
    (hm : ∀ m st i st', mem m st = .ok (i, st') → P m i) (Z : Item → Prop) {st st' : DState} {i : Item}
    (h : dumpObj L mem o st = .ok (i, st')) : Laid Z P o i := by
  simp only [dumpObj, bind_ok_iff] at h
  obtain ⟨⟨is, st1⟩, h1, h⟩ := h
  cases h
  obtain ⟨parts, rfl, hf⟩ := dumpConvs_parts h1
  exact ⟨parts, rfl, holds_parts hm (fun _ h => h) (fits_all _) hf⟩

theorem dumpZones_each {L : Lib} {zs : List (Str × Nat)} {is : List Item} (h : dumpZones L zs = .ok is) :
    ∀ i ∈ is, ∃ z, L.tzDump z = .ok i := by
  induction zs generalizing is with
  | nil => cases h; simp
  | cons x zs ih =>
    obtain ⟨n, z⟩ := x
    simp only [dumpZones, bind_ok_iff] at h
    obtain ⟨i, h1, is1, h2, h⟩ := h
    cases h
    intro j hj
    rcases List.mem_cons.1 hj with rfl | hj
    · exact ⟨z, h1⟩
    · exact ih h2 j hj

/-! ### Counting -/

theorem lineCount_append (n : String) (a b : List Item) : lineCount n (a ++ b) = lineCount n a + lineCount n b :=
  List.countP_append

theorem lineCount_all {n : String} {is : List Item} (h : ∀ i ∈ is, LineOf n i) : lineCount n is = is.length := by
  unfold lineCount
  rw [List.countP_eq_length]
  intro i hi
  obtain ⟨p, t, rfl⟩ := h i hi
  simp

theorem lineCount_other {n : String} {is : List Item} (h : ∀ i ∈ is, ∀ p t, i ≠ .line ⟨n.toList, p, t⟩) :
    lineCount n is = 0 := by
  unfold lineCount
  rw [List.countP_eq_zero]
  intro i hi
  cases i with
  | cont _ _ => simp
  | line cl =>
    intro e
    simp only [decide_eq_true_eq] at e
    exact h _ hi cl.params cl.value (by rw [← e])

theorem lineOf_ne {m n : String} (hne : m ≠ n) {i : Item} (h : LineOf m i) (p : Params) (t : Str) :
    i ≠ .line ⟨n.toList, p, t⟩ := by
  obtain ⟨q, u, rfl⟩ := h
  intro e
  have e' : m.toList = n.toList := (congrArg (fun i : Item => i.name) e :)
  exact hne (String.ext e')

/-- The names of the lines of a place. -/
def Slot.lines : Slot → List String
  | .one _ l => [l]
  | .list _ l => [l]
  | .members _ => []
  | .time => ["DTSTART", "DTEND", "DUE", "DURATION"]
  | .action => ["ACTION"]
  | .zones => []

theorem holds_lines {Z : Item → Prop} {P : σ → Item → Prop} {o : Obj σ} (hz : ∀ i, Z i → ∃ n is, i = .cont n is)
    (hP : ∀ m i, P m i → ∃ n is, i = .cont n is) {s : Slot} {is : List Item} (h : Holds Z P o s is) {n : String}
    (hn : n ∉ s.lines) : lineCount n is = 0 := by
  have cont : ∀ i : Item, (∃ n is, i = .cont n is) → ∀ p t, i ≠ .line ⟨n.toList, p, t⟩ := by
    rintro _ ⟨_, _, rfl⟩ p t e
    cases e
  have lif : ∀ {c : Bool} {m : String} {is : List Item}, m ≠ n → LineIf c m is → lineCount n is = 0 := by
    rintro c m is hne (⟨_, i, rfl, hi⟩ | ⟨_, rfl⟩)
    · exact lineCount_other fun j hj => by
        obtain rfl := List.mem_singleton.1 hj
        exact lineOf_ne hne hi
    · rfl
  cases h with
  | absent _ => rfl
  | present _ hi =>
    refine lineCount_other fun j hj => ?_
    obtain rfl := List.mem_singleton.1 hj
    exact lineOf_ne (fun e => hn (List.mem_singleton.2 e.symm)) hi
  | list _ hi _ _ _ =>
    exact lineCount_other fun j hj => lineOf_ne (fun e => hn (List.mem_singleton.2 e.symm)) (hi j hj)
  | members _ hf =>
    refine lineCount_other fun j hj => ?_
    obtain ⟨m, _, hm⟩ := forall₂_mem hf j hj
    exact cont j (hP _ _ hm)
  | @time s b e d _ hb he hd =>
    simp only [Slot.lines, List.mem_cons, List.not_mem_nil, or_false, not_or] at hn
    have : (if s.cls = .todo then "DUE" else "DTEND") ≠ n := by
      split
      · exact Ne.symm hn.2.2.1
      · exact Ne.symm hn.2.1
    rw [lineCount_append, lineCount_append, lif (Ne.symm hn.1) hb, lif this he, lif (Ne.symm hn.2.2.2) hd]
  | action _ =>
    refine lineCount_other fun j hj => ?_
    obtain rfl := List.mem_singleton.1 hj
    exact lineOf_ne (fun e => hn (List.mem_singleton.2 e.symm)) ⟨_, _, rfl⟩
  | zones h => exact lineCount_other fun j hj => cont j (hz _ (h j hj))

/-- The lines of the names that only one place has are those of that place. -/
theorem parts_count {Z : Item → Prop} {P : σ → Item → Prop} {o : Obj σ} (hz : ∀ i, Z i → ∃ n is, i = .cont n is)
    (hP : ∀ m i, P m i → ∃ n is, i = .cont n is) {sl : List Slot} {parts : List (List Item)}
    (h : List.Forall₂ (Holds Z P o) sl parts) :
    (∀ n : String, (∀ s ∈ sl, n ∉ s.lines) → lineCount n parts.flatten = 0) ∧
    ∀ s ∈ sl, sl.Nodup → (∀ s' ∈ sl, s' ≠ s → ∀ n ∈ s.lines, n ∉ s'.lines) →
      ∃ part, Holds Z P o s part ∧ ∀ n ∈ s.lines, lineCount n parts.flatten = lineCount n part := by
  induction h with
  | nil => exact ⟨fun _ _ => rfl, fun s hs => absurd hs List.not_mem_nil⟩
  | @cons x part sl parts h1 h2 ih =>
    simp only [List.flatten_cons, lineCount_append]
    constructor
    · intro n hall
      rw [holds_lines hz hP h1 (hall x List.mem_cons_self), ih.1 n fun s hs => hall s (List.mem_cons_of_mem _ hs)]
    · intro s hs hnd hall
      obtain ⟨hx, hnd⟩ := List.nodup_cons.1 hnd
      by_cases e : s = x
      · subst e
        refine ⟨part, h1, fun n hn => ?_⟩
        rw [ih.1 n fun s' hs' => hall s' (List.mem_cons_of_mem _ hs') (fun e => hx (e ▸ hs')) n hn]
        rfl
      · obtain ⟨part', hp', hc⟩ := ih.2 s ((List.mem_cons.1 hs).resolve_left e) hnd
          fun s' hs' => hall s' (List.mem_cons_of_mem _ hs')
        refine ⟨part', hp', fun n hn => ?_⟩
        rw [holds_lines hz hP h1 (hall x List.mem_cons_self (Ne.symm e) n hn), hc n hn, Nat.zero_add]

theorem layout_nodup (c : Cls) : (layout c).Nodup := by cases c <;> decide +kernel

theorem layout_apart (c : Cls) (hc : c ≠ .customAlarm) : ∀ s ∈ layout c, ∀ s' ∈ layout c, s' ≠ s → ∀ n ∈ s.lines, n ∉ s'.lines := by
  cases c <;> first | exact absurd rfl hc | decide +kernel

theorem layout_handled (c : Cls) : ∀ s ∈ layout c, ∀ n ∈ s.lines, ∃ cv ∈ c.convs, n.toList ∈ cv.names ∧ cv ≠ .calendarTimezone := by
  cases c <;> decide +kernel

theorem extra_count {c : Cls} {extra : List Item} (hx : ∀ i ∈ extra, unhandled c i = true) {s : Slot} (hs : s ∈ layout c)
    {n : String} (hn : n ∈ s.lines) : lineCount n extra = 0 := by
  obtain ⟨cv, hcv, hmem, hz⟩ := layout_handled c s hs n hn
  refine lineCount_other fun i hi p t e => unhandled_name (hx i hi) hcv hz ?_
  rw [e]
  exact hmem

theorem laid_count {Z : Item → Prop} {P : σ → Item → Prop} {o : Obj σ} (hz : ∀ i, Z i → ∃ n is, i = .cont n is)
    (hP : ∀ m i, P m i → ∃ n is, i = .cont n is) (hc : o.cls ≠ .customAlarm) (hx : ∀ i ∈ o.extra, unhandled o.cls i = true)
    {name : Str} {items : List Item} (h : Laid Z P o (.cont name items)) {s : Slot} (hs : s ∈ layout o.cls) :
    ∃ part, Holds Z P o s part ∧ ∀ n ∈ s.lines, lineCount n items = lineCount n part := by
  obtain ⟨parts, e, hf⟩ := h
  cases e
  obtain ⟨part, hp, e⟩ := (parts_count hz hP hf).2 s hs (layout_nodup _)
    fun s' hs' hne => layout_apart _ hc s hs s' hs' hne
  exact ⟨part, hp, fun n hn => by rw [lineCount_append, e n hn, extra_count hx hs hn]; rfl⟩

theorem laid_one {Z : Item → Prop} {P : σ → Item → Prop} {o : Obj σ} (hz : ∀ i, Z i → ∃ n is, i = .cont n is)
    (hP : ∀ m i, P m i → ∃ n is, i = .cont n is) (hc : o.cls ≠ .customAlarm) (hx : ∀ i ∈ o.extra, unhandled o.cls i = true)
    {name : Str} {items : List Item} (h : Laid Z P o (.cont name items)) {a l : String} (hs : .one a l ∈ layout o.cls) :
    (lineCount l items = 1 ∧ o.get a.toList ≠ .none) ∨ (lineCount l items = 0 ∧ o.get a.toList = .none) := by
  obtain ⟨part, hp, hn⟩ := laid_count hz hP hc hx h hs
  rw [hn l (List.mem_singleton_self _)]
  cases hp with
  | absent hg => exact .inr ⟨rfl, hg⟩
  | present hg hi =>
    refine .inl ⟨?_, by rw [hg]; nofun⟩
    rw [lineCount_all fun j hj => by rw [List.mem_singleton.1 hj]; exact hi]
    rfl

theorem laid_list {Z : Item → Prop} {P : σ → Item → Prop} {o : Obj σ} (hz : ∀ i, Z i → ∃ n is, i = .cont n is)
    (hP : ∀ m i, P m i → ∃ n is, i = .cont n is) (hc : o.cls ≠ .customAlarm) (hx : ∀ i ∈ o.extra, unhandled o.cls i = true)
    {name : Str} {items : List Item} (h : Laid Z P o (.cont name items)) {a l : String} (hs : .list a l ∈ layout o.cls) :
    ∃ vs, o.get a.toList = .many vs ∧ (1 ≤ lineCount l items ↔ vs ≠ []) := by
  obtain ⟨part, hp, hn⟩ := laid_count hz hP hc hx h hs
  rw [hn l (List.mem_singleton_self _)]
  cases hp with
  | @list _ _ vs _ hg hi h1 h2 _ =>
    refine ⟨vs, hg, ?_⟩
    rw [lineCount_all hi, Nat.one_le_iff_ne_zero, Ne, List.length_eq_zero_iff]
    refine ⟨fun h e => ?_, h1⟩
    subst e
    exact h (List.eq_nil_of_length_eq_zero (Nat.le_zero.1 h2))

theorem lineIf_count {c : Bool} {m : String} {is : List Item} (h : LineIf c m is) (n : String) :
    lineCount n is = if c = true ∧ n = m then 1 else 0 := by
  rcases h with ⟨rfl, i, rfl, hi⟩ | ⟨rfl, rfl⟩
  · by_cases e : n = m
    · subst e
      rw [if_pos ⟨rfl, rfl⟩, lineCount_all fun j hj => by rw [List.mem_singleton.1 hj]; exact hi]
      rfl
    · rw [if_neg fun h => e h.2]
      exact lineCount_other fun j hj => by
        rw [List.mem_singleton.1 hj]
        exact lineOf_ne (Ne.symm e) hi
  · rw [if_neg fun h => by cases h.1]
    rfl

theorem laid_time {Z : Item → Prop} {P : σ → Item → Prop} {o : Obj σ} (hz : ∀ i, Z i → ∃ n is, i = .cont n is)
    (hP : ∀ m i, P m i → ∃ n is, i = .cont n is) (hc : o.cls ≠ .customAlarm) (hx : ∀ i ∈ o.extra, unhandled o.cls i = true)
    {name : Str} {items : List Item} (h : Laid Z P o (.cont name items)) (hs : .time ∈ layout o.cls) {s : Span}
    (hg : o.get "timespan".toList = .one (.span s)) :
    lineCount "DTSTART" items = (if s.begin? = none then 0 else 1) ∧
    lineCount "DTEND" items = (if s.cls ≠ .todo ∧ s.end? ≠ none ∧ s.dur? = none then 1 else 0) ∧
    lineCount "DUE" items = (if s.cls = .todo ∧ s.end? ≠ none ∧ s.dur? = none then 1 else 0) ∧
    lineCount "DURATION" items = (if s.dur? = none then 0 else 1) := by
  obtain ⟨part, hp, hn⟩ := laid_count hz hP hc hx h hs
  rw [hn "DTSTART" (by decide), hn "DTEND" (by decide), hn "DUE" (by decide), hn "DURATION" (by decide)]
  cases hp with
  | @time s' b e d hg' hb he hd =>
    rw [hg] at hg'
    cases hg'
    simp only [lineCount_append, lineIf_count hb, lineIf_count he, lineIf_count hd]
    by_cases ht : s.cls = .todo <;> cases s.begin? <;> cases s.end? <;> cases s.dur? <;> simp [ht]

end Ics
