import Verif.Proofs.Load

/-
Properties that occur twice or not at all.
-/
namespace Ics

variable {σ : Type}

theorem coreItems_append (L : Lib) (rd : Reading σ) (xs ys : List Item) (c : Core σ) :
    coreItems L rd (xs ++ ys) c = coreItems L rd xs c >>= coreItems L rd ys := by
  induction xs generalizing c with
  | nil => rfl
  | cons x xs ih =>
    simp only [List.cons_append, coreItems, bind, Except.bind]
    cases coreItem L rd x c with
    | error e => rfl
    | ok c1 => exact ih c1

/-- The converters that accept a property once. -/
def Conv.once : Conv → Bool
  | .value s => !s.multi
  | .timespan => true
  | _ => false

theorem singleNames_once (c : Cls) : ∀ n ∈ singleNames c, n.toList ≠ "ACTION".toList ∧
    ∃ cv ∈ c.convs, n.toList ∈ cv.names ∧ cv.once = true := by
  cases c <;> decide +kernel

theorem names_unique (c : Cls) : ∀ cv ∈ c.convs, ∀ n ∈ cv.names, n ≠ "ACTION".toList →
    c.lookup n = [cv] := by
  cases c <;> decide +kernel

/-- The converter has seen a property with this name. -/
def Guarded (cv : Conv) (n : Str) (c : Core σ) : Prop :=
  match cv with
  | .value s => 0 < c.count s.attr
  | .timespan => n ∈ c.span.seen
  | _ => True

theorem Guarded.congr {cv : Conv} {n : Str} {a b : Core σ} (h : Agree cv a b) (hg : Guarded cv n a) :
    Guarded cv n b := by
  cases cv with
  | value s =>
    have := h.count (show s.attr ∈ _ from List.mem_singleton_self _)
    simpa only [Guarded, this] using hg
  | timespan => simpa only [Guarded, h.span rfl] using hg
  | _ => trivial

theorem guarded_step {L : Lib} {rd : Reading σ} {cv : Conv} (hcv : cv.once = true) {i : Item} {a b : Core σ}
    (h : coreConv L rd cv i a = .ok b) (n : Str) : (i.name = n ∨ Guarded cv n a) → Guarded cv n b := by
  intro hn
  simp only [coreConv, bind_ok_iff] at h
  obtain ⟨_, hp, d, _, hs⟩ := h
  cases cv with
  | value s =>
    unfold Guarded Core.count
    cases i with
    | cont _ _ => cases hp
    | line cl =>
      unfold storeConv at hs
      cases d with
      | single v p =>
        have hm : s.multi = false := by simpa [Conv.once] using hcv
        simp only [hm, Bool.false_eq_true, if_false, storeSingle, map_ok_iff] at hs
        obtain ⟨o, _, rfl⟩ := hs
        dsimp only
        rw [dictGet_set]
        exact Nat.succ_pos _
      | multi l =>
        have hm : s.multi = false := by simpa [Conv.once] using hcv
        simp only [hm, Bool.false_eq_true, if_false] at hs
        cases hs
      | _ => cases hs
  | timespan =>
    cases i with
    | cont _ _ => cases hp
    | line cl =>
      unfold storeConv at hs
      unfold Guarded
      cases d with
      | spanTime v prec p =>
        simp only [storeSpanTime, bind_ok_iff] at hs
        obtain ⟨_, _, hs⟩ := hs
        split at hs <;> cases hs <;> dsimp only <;> rw [List.mem_append] <;>
          exact hn.elim (fun e => Or.inr (by rw [← e]; exact List.mem_singleton_self _)) Or.inl
      | spanDur d =>
        cases hs
        show n ∈ _ ++ _
        rw [List.mem_append]
        exact hn.elim (fun e => Or.inr (by rw [← e]; exact List.mem_singleton_self _)) Or.inl
      | _ => cases hs
  | member _ _ => trivial
  | alarmAction => trivial
  | calendarTimezone => trivial

theorem guarded_fold {L : Lib} {rd : Reading σ} {cv : Conv} (hcv : cv.once = true) {items : List Item}
    {a b : Core σ} (h : foldConv L rd cv items a = .ok b) (n : Str) :
    ((∃ i ∈ items, i.name = n) ∨ Guarded cv n a) → Guarded cv n b := by
  induction items generalizing a with
  | nil =>
    cases h
    rintro (⟨i, hi, _⟩ | h)
    · simp at hi
    · exact h
  | cons i is ih =>
    simp only [foldConv, bind_ok_iff] at h
    obtain ⟨a1, h1, h2⟩ := h
    rintro (⟨j, hj, hn⟩ | hg)
    · rcases List.mem_cons.1 hj with rfl | hj
      · exact ih h2 (Or.inr (guarded_step hcv h1 n (Or.inl hn)))
      · exact ih h2 (Or.inl ⟨j, hj, hn⟩)
    · exact ih h2 (Or.inr (guarded_step hcv h1 n (Or.inr hg)))

theorem guarded_error {L : Lib} {rd : Reading σ} {cv : Conv} (hcv : cv.once = true) {cl : ContentLine} {a : Core σ}
    (h : Guarded cv cl.name a) : coreConv L rd cv (.line cl) a = .error .valueError := by
  cases cv with
  | value s =>
    have hm : s.multi = false := by simpa [Conv.once] using hcv
    have h : 0 < a.count s.attr := h
    simp only [coreConv, preConv, hm, h, decide_true, raiseIf]
    rfl
  | timespan =>
    have h : cl.name ∈ a.span.seen := h
    simp only [coreConv, preConv, h, decide_true, raiseIf]
    rfl
  | _ => cases hcv

/-- A line that comes a second time is a `ValueError`. -/
theorem core_duplicate {L : Lib} {rd : Reading σ} {c : Cls} {n : String} (hn : n ∈ singleNames c) {P : List Item}
    {l1 : Item} (h1 : l1 ∈ P) (hn1 : l1.name = n.toList) {l2 : ContentLine} (hn2 : l2.name = n.toList)
    (R : List Item) :
    (coreItems L rd (P ++ .line l2 :: R) (.new L c) = .error .valueError) ∨
      ∃ e, coreItems L rd P (.new L c) = .error e := by
  obtain ⟨hna, cv, hcv, hname, honce⟩ := singleNames_once c n hn
  cases hP : coreItems L rd P (.new L c) with
  | error e => exact Or.inr ⟨e, rfl⟩
  | ok a =>
    left
    obtain ⟨b, hb, hab⟩ := coreItems_agree hP (cv := cv) hcv
    have hg : Guarded cv n.toList a := by
      refine Guarded.congr hab (guarded_fold honce hb _ (Or.inl ⟨l1, ?_, hn1⟩))
      unfold Conv.own
      rw [List.mem_filter]
      exact ⟨h1, by rw [hn1]; simpa using hname⟩
    have hcls : a.obj.cls = c := coreItems_cls hP
    have : coreItem L rd (.line l2) a = .error .valueError := by
      rw [coreItem, hcls]
      have e : c.lookup (Item.line l2).name = [cv] := by
        rw [show (Item.line l2).name = n.toList from hn2]
        exact names_unique c cv hcv _ hname hna
      rw [e]
      simp only [coreConvs]
      rw [guarded_error honce (hn2 ▸ hg)]
      rfl
    rw [coreItems_append, hP]
    simp only [bind, Except.bind, coreItems, this]

theorem loadObj_error {L : Lib} {mem : MemberLoad σ} {ctx : Ctx} {rd : Reading σ}
    (h : IsReading L mem (L.toWorld.resolve ctx) rd) (hc : ctx.isSome) (c : Cls) (items : List Item) (e : PyErr) :
    loadObj L mem c items ctx = .error e ↔ coreLoad L rd c items = .error e := by
  have k := loadObj_core h c items hc rfl
  unfold Outcome at k
  cases ho : coreLoad L rd c items with
  | error e' =>
    rw [ho] at k
    rw [k]
    simp
  | ok o =>
    rw [ho] at k
    obtain ⟨ctx', k, _⟩ := k
    rw [k]
    simp

theorem coreLoad_error {L : Lib} {rd : Reading σ} {c : Cls} {items : List Item} {e : PyErr}
    (h : coreItems L rd items (.new L c) = .error e) : coreLoad L rd c items = .error e := by
  simp only [coreLoad, h]
  rfl

theorem coreItems_prefix {L : Lib} {rd : Reading σ} {P R : List Item} {a : Core σ} {e : PyErr}
    (h : coreItems L rd P a = .error e) : coreItems L rd (P ++ R) a = .error e := by
  rw [coreItems_append, h]
  rfl

/-- Loading a component in which a line comes a second time fails, with `ValueError` unless it already
fails without that line. -/
theorem load_duplicate {L : Lib} {mem : MemberLoad σ} (hm : MemStable L mem) {ctx : Ctx} (hc : ctx.isSome) {c : Cls}
    {n : String} (hn : n ∈ singleNames c) {P : List Item} {l1 : Item} (h1 : l1 ∈ P) (hn1 : l1.name = n.toList)
    {l2 : ContentLine} (hn2 : l2.name = n.toList) (R : List Item) :
    ∃ e, loadObj L mem c (P ++ .line l2 :: R) ctx = .error e ∧
      (e = .valueError ∨ loadObj L mem c (P ++ R) ctx = .error e) := by
  obtain ⟨rd, hrd⟩ := exists_reading hm (L.toWorld.resolve ctx)
  simp only [loadObj_error hrd hc]
  rcases core_duplicate (L := L) (rd := rd) hn h1 hn1 hn2 R with h | ⟨e, h⟩
  · exact ⟨_, coreLoad_error h, Or.inl rfl⟩
  · exact ⟨e, coreLoad_error (coreItems_prefix h), Or.inr (coreLoad_error (coreItems_prefix h))⟩

/-- Loading a component with a member that cannot be loaded fails with the error of the member, unless
what comes before already makes it fail. -/
theorem load_bad_member {L : Lib} {mem : MemberLoad σ} (hm : MemStable L mem) {ctx : Ctx} (hc : ctx.isSome) {c : Cls}
    {a n : Str} (hcv : .member a n ∈ c.convs) {A : List Item} {xs : List Item} {e : PyErr}
    (he : mem n xs ctx = .error e) (B : List Item) :
    loadObj L mem c (A ++ .cont n xs :: B) ctx = .error e ∨
      ∃ e', loadObj L mem c (A ++ .cont n xs :: B) ctx = .error e' ∧
        ∀ B', loadObj L mem c (A ++ B') ctx = .error e' := by
  obtain ⟨rd, hrd⟩ := exists_reading hm (L.toWorld.resolve ctx)
  simp only [loadObj_error hrd hc]
  cases hA : coreItems L rd A (.new L c) with
  | error e' =>
    exact Or.inr ⟨e', coreLoad_error (coreItems_prefix hA), fun B' => coreLoad_error (coreItems_prefix hA)⟩
  | ok k =>
    left
    refine coreLoad_error ?_
    have hcls : k.obj.cls = c := coreItems_cls hA
    have hne : n ≠ "ACTION".toList := by
      have : ∀ cv ∈ c.convs, ∀ a n, cv = .member a n → n ≠ "ACTION".toList := by
        cases c <;> simp [Cls.convs, entryConvs, alarmConvs, attr1, attrN]
      exact this _ hcv a n rfl
    have hr : rd (.member a n) (.cont n xs) = .error e := by
      have q := hrd (.member a n) (.cont n xs) ctx hc rfl
      unfold Outcome at q
      cases hx : rd (.member a n) (.cont n xs) with
      | error e' =>
        rw [hx] at q
        simp only [readConv, he, bind, Except.bind] at q
        cases q
        rfl
      | ok d =>
        rw [hx] at q
        obtain ⟨ctx', q, _⟩ := q
        simp only [readConv, he, bind, Except.bind] at q
        cases q
    have : coreItem L rd (.cont n xs) k = .error e := by
      rw [coreItem, hcls]
      rw [show c.lookup (Item.cont n xs).name = [.member a n] from
        names_unique c _ hcv n (List.mem_singleton_self _) hne]
      simp only [coreConvs, coreConv, preConv, hr]
      rfl
    rw [coreItems_append, hA]
    simp only [bind, Except.bind, coreItems, this]

/-- A required attribute without a line is a `ValueError`. -/
theorem corePostAll_required {L : Lib} {s : AttrSpec} (hr : s.required = true) {cvs : List Conv}
    (hs : .value s ∈ cvs) (ht : .timespan ∉ cvs) {k : Core σ} (hk : k.count s.attr = 0) :
    corePostAll L cvs k = .error .valueError := by
  induction cvs generalizing k with
  | nil => simp at hs
  | cons cv cvs ih =>
    simp only [corePostAll, corePost, Conv.post]
    rcases List.mem_cons.1 hs with rfl | hs'
    · have e : (k.state none).count s.attr = 0 := hk
      simp only [hr, e]
      rfl
    · have ht' : .timespan ∉ cvs := fun h => ht (List.mem_cons_of_mem _ h)
      cases cv with
      | value s' =>
        dsimp only
        split
        · rfl
        · refine ih hs' ht' (k := ⟨k.obj, dictSet k.counts s'.attr 0, k.span⟩) ?_
          unfold Core.count at hk ⊢
          dsimp only
          by_cases e : s'.attr = s.attr
          · rw [e, dictGet_set]
            rfl
          · rw [dictGet_set_ne _ _ (Ne.symm e)]
            exact hk
      | timespan => exact absurd List.mem_cons_self ht
      | member _ _ => exact ih hs' ht' (k := k) hk
      | alarmAction => exact ih hs' ht' (k := k) hk
      | calendarTimezone => exact ih hs' ht' (k := k) hk

theorem coreItems_absent {L : Lib} {rd : Reading σ} {c : Cls} {s : AttrSpec} (hs : .value s ∈ c.convs)
    {items : List Item} (hi : ∀ i ∈ items, i.name ≠ s.ics) {k : Core σ}
    (h : coreItems L rd items (.new L c) = .ok k) : k.count s.attr = 0 := by
  obtain ⟨b, hb, hab⟩ := coreItems_agree h hs
  have e : Conv.own (.value s) items = [] := by
    unfold Conv.own
    rw [List.filter_eq_nil_iff]
    intro i hm
    simpa [Conv.names] using hi i hm
  rw [e] at hb
  cases hb
  rw [← hab.count (List.mem_singleton_self _)]
  rfl

/-- Loading a component without a required line fails: with `ValueError`, or with an error that no
further items at the end can avoid. -/
theorem load_required {L : Lib} {mem : MemberLoad σ} (hm : MemStable L mem) {ctx : Ctx} (hc : ctx.isSome) {c : Cls}
    {s : AttrSpec} (hr : s.required = true) (hs : .value s ∈ c.convs) (ht : .timespan ∉ c.convs) {items : List Item}
    (hi : ∀ i ∈ items, i.name ≠ s.ics) :
    ∃ e, loadObj L mem c items ctx = .error e ∧
      (e = .valueError ∨ ∀ more, loadObj L mem c (items ++ more) ctx = .error e) := by
  obtain ⟨rd, hrd⟩ := exists_reading hm (L.toWorld.resolve ctx)
  simp only [loadObj_error hrd hc]
  cases h : coreItems L rd items (.new L c) with
  | error e => exact ⟨e, coreLoad_error h, Or.inr fun more => coreLoad_error (coreItems_prefix h)⟩
  | ok k =>
    refine ⟨.valueError, ?_, Or.inl rfl⟩
    simp only [coreLoad, h, bind, Except.bind, corePostAll_required hr hs ht (coreItems_absent hs hi h)]
    rfl

end Ics
