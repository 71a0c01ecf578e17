import Verif.Proofs.WriteAssign
import Verif.Proofs.AcceptedObj
import Verif.Spec.ReadWrite

/-
What reading leaves for writing.
-/
namespace Ics

variable {σ : Type}

/-! ### Only lists have lists of parameters -/

/-- The keys of the parameters of the lists of a class. -/
def ListKey (c : Cls) (k : Str) : Prop := ∃ s, .value s ∈ c.convs ∧ s.multi = true ∧ extraKey s.attr = k

/-- Lists of parameters are for lists. -/
def ListKeys (o : Obj σ) : Prop := ∀ k ps, dictGet? o.extraParams k = some (.many ps) → ListKey o.cls k

theorem listKeys_set_one {o : Obj σ} (h : ListKeys o) (k : Str) (p : Params) :
    ListKeys { o with extraParams := dictSet o.extraParams k (.one p) } := by
  intro k' ps hk
  dsimp only at hk
  rw [dictGet_set_eq] at hk
  by_cases e : k' = k
  · rw [if_pos e] at hk
    cases hk
  · rw [if_neg e] at hk
    exact h k' ps hk

theorem listKeys_setExtra {o : Obj σ} (h : ListKeys o) (n : Str) (p : Params) : ListKeys (o.setExtraParams n p) := by
  unfold Obj.setExtraParams
  split
  · exact h
  · exact listKeys_set_one h _ _

theorem listKeys_setattr {L : Lib} {o o' : Obj σ} (h : ListKeys o) {a : Str} {ch : Check} {v : AttrVal σ}
    (hs : o.setattr L a ch v = .ok o') : ListKeys o' := by
  unfold Obj.setattr at hs
  obtain ⟨_, _, rfl⟩ := map_ok_iff.1 hs
  exact h

theorem listKeys_appendValue {o o' : Obj σ} (h : ListKeys o) {a : Str} {v : Val σ} (hs : o.appendValue a v = .ok o') :
    ListKeys o' ∧ o'.cls = o.cls := by
  unfold Obj.appendValue at hs
  split at hs <;> cases hs <;> exact ⟨h, rfl⟩

theorem listKeys_appendAll {a : Str} {l : List (Val σ × Params)} {o o' : Obj σ} (h : ListKeys o)
    (hk : ListKey o.cls (extraKey a)) (hs : o.appendAll a l = .ok o') : ListKeys o' := by
  induction l generalizing o with
  | nil =>
    cases hs
    exact h
  | cons x l ih =>
    obtain ⟨v, p⟩ := x
    simp only [Obj.appendAll, bind_ok_iff] at hs
    obtain ⟨o1, h1, o2, h2, h3⟩ := hs
    have k1 : ListKeys o1 ∧ o1.cls = o.cls := by
      have set : ∀ q, ListKeys { o with extraParams := dictSet o.extraParams (extraKey a) (.many q) } := by
        intro q k' ps hk'
        dsimp only at hk'
        rw [dictGet_set_eq] at hk'
        by_cases e : k' = extraKey a
        · rw [e]
          exact hk
        · rw [if_neg e] at hk'
          exact h k' ps hk'
      unfold Obj.appendExtraParams at h1
      split at h1 <;> cases h1
      · exact ⟨set _, rfl⟩
      · exact ⟨set _, rfl⟩
    have k2 := listKeys_appendValue k1.1 h2
    exact ih k2.1 (by rw [k2.2, k1.2]; exact hk) h3

theorem populate_listKeys {L : Lib} {mem : MemberLoad σ} {cv : Conv} {item : Item} {st : LState σ}
    {r : Bool × LState σ} (hcv : cv ∈ st.obj.cls.convs) (h : cv.populate L mem item st = .ok r) (hk : ListKeys st.obj) :
    ListKeys r.2.obj := by
  unfold Conv.populate at h
  split at h
  · rename_i s cl
    replace h := map_ok_iff.1 h
    obtain ⟨st', h, rfl⟩ := h
    cases hm : s.multi
    · rw [hm, if_neg Bool.false_ne_true] at h
      simp only [populateSingle, bind_ok_iff] at h
      obtain ⟨_, _, _, _, _, _, o, ho, h⟩ := h
      cases h
      exact listKeys_setattr (listKeys_setExtra hk _ _) ho
    · rw [hm, if_pos rfl] at h
      simp only [populateMulti, bind_ok_iff] at h
      obtain ⟨_, _, _, _, _, _, o, ho, h⟩ := h
      cases h
      exact listKeys_appendAll hk ⟨s, hcv, hm, rfl⟩ ho
  · cases h
  · replace h := map_ok_iff.1 h
    obtain ⟨st', h, rfl⟩ := h
    simp only [populateMember, bind_ok_iff] at h
    obtain ⟨_, _, o, ho, h⟩ := h
    cases h
    exact (listKeys_appendValue hk ho).1
  · cases h
  · replace h := map_ok_iff.1 h
    obtain ⟨st', h, rfl⟩ := h
    simp only [populateSpan, bind_ok_iff] at h
    obtain ⟨_, _, h⟩ := h
    split at h
    · simp only [populateSpanDuration, bind_ok_iff] at h
      obtain ⟨_, _, h⟩ := h
      cases h
      exact listKeys_setExtra hk _ _
    · simp only [populateSpanTime, bind_ok_iff] at h
      obtain ⟨_, _, _, _, h⟩ := h
      split at h <;> cases h <;> exact listKeys_setExtra hk _ _
  · cases h
  · replace h := map_ok_iff.1 h
    obtain ⟨st', h, rfl⟩ := h
    unfold populateAction at h
    split at h
    · cases h
    · split at h <;> cases h
      · exact hk
      · exact listKeys_set_one hk _ _
  · cases h
  · cases h
    exact hk
  · cases h
    exact hk

theorem populateConvs_listKeys {L : Lib} {mem : MemberLoad σ} {item : Item} {cvs : List Conv} {b : Bool}
    {st : LState σ} {r : Bool × LState σ} (hcv : ∀ cv ∈ cvs, cv ∈ st.obj.cls.convs)
    (h : populateConvs L mem item cvs b st = .ok r) (hk : ListKeys st.obj) : ListKeys r.2.obj := by
  induction cvs generalizing b st with
  | nil =>
    cases h
    exact hk
  | cons cv cvs ih =>
    simp only [populateConvs, bind_ok_iff] at h
    obtain ⟨⟨b1, st1⟩, h1, h2⟩ := h
    refine ih (fun x hx => ?_) h2 (populate_listKeys (hcv cv List.mem_cons_self) h1 hk)
    rw [(populate_frame h1).1.1]
    exact hcv x (List.mem_cons_of_mem _ hx)

theorem populateItems_listKeys {L : Lib} {mem : MemberLoad σ} {items : List Item} {st st' : LState σ}
    (h : populateItems L mem items st = .ok st') (hk : ListKeys st.obj) : ListKeys st'.obj := by
  induction items generalizing st with
  | nil =>
    cases h
    exact hk
  | cons i is ih =>
    simp only [populateItems, bind_ok_iff] at h
    obtain ⟨st1, h1, h2⟩ := h
    refine ih h2 ?_
    simp only [populateItem, bind_ok_iff] at h1
    obtain ⟨⟨b, st2⟩, h3, h4⟩ := h1
    have := populateConvs_listKeys (fun cv hcv => (lookup_mem.1 hcv).1) h3 hk
    dsimp only at h4
    split at h4 <;> cases h4 <;> exact this

theorem postAll_listKeys {L : Lib} {cvs : List Conv} {st st' : LState σ} (h : postAll L cvs st = .ok st')
    (hk : ListKeys st.obj) : ListKeys st'.obj := by
  induction cvs generalizing st with
  | nil =>
    cases h
    exact hk
  | cons cv cvs ih =>
    simp only [postAll, bind_ok_iff] at h
    obtain ⟨st1, h1, h2⟩ := h
    refine ih h2 ?_
    unfold Conv.post at h1
    split at h1
    · split at h1 <;> cases h1
      exact hk
    · simp only [postSpan, bind_ok_iff] at h1
      obtain ⟨_, _, _, _, o, ho, h1⟩ := h1
      cases h1
      exact listKeys_setattr hk ho
    · cases h1
      exact hk

theorem load_listKeys {L : Lib} {mem : MemberLoad σ} {c : Cls} {items : List Item} {ctx : Ctx} {r : Obj σ × Ctx}
    (h : loadObj L mem c items ctx = .ok r) : ListKeys r.1 := by
  simp only [loadObj, bind_ok_iff] at h
  obtain ⟨st1, h1, st2, h2, h⟩ := h
  cases h
  exact postAll_listKeys h2 (populateItems_listKeys h1 fun k ps hk => by cases hk)

/-- The keys of the other attributes. -/
def otherKeysB (c : Cls) : Conv → Bool
  | .value s => !s.multi || ((loneAttrs c).all (fun p => upper p.1.toList != extraKey s.attr) &&
      ((memberLists c).all (fun a => upper a.toList != extraKey s.attr) &&
        ["BEGIN", "DURATION", "DUE", "DTEND", "ACTION"].all fun k => k.toList != extraKey s.attr))
  | _ => true

theorem rows_otherKeys (c : Cls) : c.convs.all (otherKeysB c) = true := by cases c <;> decide +kernel

theorem listKey_other {c : Cls} {k : Str} (h : ListKey c k) :
    (∀ p ∈ loneAttrs c, upper p.1.toList ≠ k) ∧ (∀ a ∈ memberLists c, upper a.toList ≠ k) ∧
      ∀ a ∈ ["BEGIN", "DURATION", "DUE", "DTEND", "ACTION"], a.toList ≠ k := by
  obtain ⟨s, hs, hm, rfl⟩ := h
  have := List.all_eq_true.1 (rows_otherKeys c) _ hs
  unfold otherKeysB at this
  dsimp only at this
  rw [hm, Bool.not_true, Bool.false_or, Bool.and_eq_true, Bool.and_eq_true, List.all_eq_true, List.all_eq_true,
    List.all_eq_true] at this
  exact ⟨fun p hp => by simpa using this.1 p hp, fun p hp => by simpa using this.2.1 p hp,
    fun p hp => by simpa using this.2.2 p hp⟩

/-! ### The values that were read -/

theorem parse_kind {L : Lib} {cv : ValConv} {t : Str} {p p' : Params} {ctx ctx' : Ctx} {v : Val σ}
    (h : cv.parse L t p ctx = .ok (v, p', ctx')) : ∃ k ∈ convKinds cv, OfKind k v := by
  cases cv <;> simp only [ValConv.parse, map_ok_iff] at h <;> obtain ⟨x, hx, e⟩ := h <;>
    simp only [Prod.mk.injEq] at e <;> obtain ⟨rfl, -, -⟩ := e
  case geo =>
    unfold geoParse at hx
    split at hx
    · cases hx
    · split at hx <;> cases hx
      exact ⟨_, List.mem_singleton.2 rfl, .geo⟩
  all_goals first
    | exact ⟨_, List.mem_cons_self, .int⟩
    | exact ⟨_, List.mem_singleton.2 rfl, by constructor⟩

/-- What the checks of the attributes leave. -/
def leavesB : Conv → Bool
  | .value s => s.multi || s.check == .any ||
      match checkKinds s.check with
      | some ks => ks.all fun k => (s.convs.flatMap convKinds).contains k
      | none => false
  | _ => true

theorem rows_leaves (c : Cls) : c.convs.all leavesB = true := by cases c <;> decide +kernel

theorem check_leaves {L : Lib} {c : Cls} {s : AttrSpec} (hs : .value s ∈ c.convs) (hm : s.multi = false) {v : Val σ}
    {w : AttrVal σ} (hv : ∃ k ∈ s.convs.flatMap convKinds, OfKind k v) (h : s.check.run L (.one v) = .ok w) :
    w = .none ∨ ∃ x, w = .one x ∧ ∃ k ∈ s.convs.flatMap convKinds, OfKind k x := by
  have hc := List.all_eq_true.1 (rows_leaves c) _ hs
  unfold leavesB at hc
  dsimp only at hc
  rw [hm, Bool.false_or, Bool.or_eq_true, beq_iff_eq] at hc
  rcases hc with hc | hc
  · rw [hc] at h
    cases h
    exact .inr ⟨v, rfl, hv⟩
  · cases hk : checkKinds s.check with
    | none => rw [hk] at hc; cases hc
    | some kk =>
      rw [hk] at hc
      dsimp only at hc
      rcases check_kinds hk h with h | ⟨x, hx, k, hkk, hkx⟩
      · exact .inl h
      · exact .inr ⟨x, hx, k, by simpa using List.all_eq_true.1 hc k hkk, hkx⟩

theorem check_int {L : Lib} {ch : Check} {v : Val σ} {n : Int} (h : ch.run L (.one v) = .ok (.one (.int n))) : v = .int n := by
  unfold Check.run at h
  split at h
  all_goals first
    | (cases h; rfl)
    | (cases h; done)
    | (rw [map_ok_iff] at h; obtain ⟨_, _, h⟩ := h; cases h; done)
    | skip
  · split at h <;> cases h
  · split at h
    · rename_i e _
      rw [AttrVal.one.injEq] at e
      injection h with h
      injection h with h
      exact e.trans h
    · cases h

/-- The values of new objects are no numbers. -/
def notIntB : AttrVal σ → Bool
  | .one (.int _) => false
  | _ => true

theorem fresh_noInt (L : Lib) (c : Cls) : (loneAttrs c).all (fun p => notIntB ((newObj L c : Obj σ).get p.1.toList)) = true := by
  cases c <;> rfl

/-- A single-valued attribute that was read. -/
theorem loaded_one {L : Lib} {mem : MemberLoad σ} (hmem : MemStable L mem) {c : Cls} {items : List Item} {ctx : Ctx}
    (hc : ctx.isSome) {o : Obj σ} {ctx1 : Ctx} (h : loadObj L mem c items ctx = .ok (o, ctx1)) {a : String} {ks : List ValKind}
    (ha : (a, ks) ∈ loneAttrs c) :
    (o.get a.toList = .none ∨ ∃ v, o.get a.toList = .one v ∧ ∃ k ∈ ks, OfKind k v) ∧
      ∀ n, o.get a.toList = .one (.int n) → n.natAbs < 10 ^ 4300 := by
  obtain ⟨s, hs, hm, hsa, rfl⟩ := convOne ha
  rw [← hsa]
  rcases load_single hmem hc h hs hm with ⟨-, hg, -⟩ | ⟨cl, p, cv, v, p', ctx', w, -, hp, hparse, hw, hg, -⟩
  · have e : o.get s.attr = (newObj L c : Obj σ).get s.attr := by
      unfold Obj.get
      rw [hg, show dictGet? (newObj L c : Obj σ).attrs s.attr = _ from new_value hs, hm]
    rw [e, hsa]
    refine ⟨?_, fun n hn => ?_⟩
    · have := List.all_eq_true.1 (fresh_one (σ := σ) L c) _ ha
      dsimp only at this
      revert this
      generalize (newObj L c : Obj σ).get a.toList = v
      intro this
      cases v with
      | none => exact .inl rfl
      | many l => exact (Bool.false_ne_true this).elim
      | one v =>
        obtain ⟨k, hk, hv⟩ := List.any_eq_true.1 this
        exact .inr ⟨v, rfl, k, hk, ofKind_of hv⟩
    · have := List.all_eq_true.1 (fresh_noInt (σ := σ) L c) _ ha
      dsimp only at this
      rw [hn] at this
      exact (Bool.false_ne_true this).elim
  · have e : o.get s.attr = w := by
      unfold Obj.get
      rw [hg]
      rfl
    rw [e]
    obtain ⟨k, hk, hkv⟩ := parse_kind hparse
    refine ⟨check_leaves hs hm ⟨k, List.mem_flatMap.2 ⟨cv, (prepare_ok hp).2, hk⟩, hkv⟩ hw, fun n hn => ?_⟩
    rw [hn] at hw
    have := check_int hw
    subst this
    cases cv <;> simp only [ValConv.parse, map_ok_iff] at hparse <;> obtain ⟨x, hx, e⟩ := hparse <;>
      simp only [Prod.mk.injEq] at e <;> obtain ⟨e, -, -⟩ := e <;> first | (cases e; done) | skip
    · cases e
      exact intParse_good hx
    · unfold geoParse at hx
      split at hx
      · cases hx
      · split at hx <;> cases hx
        cases e

/-! ### The lines of a list -/

theorem restOnLines_marked {c : Params} {init : List (Val σ × Params)} {last : Val σ × Params} {rest : List (Val σ × Params)}
    (h1 : ∀ x ∈ init, Marked x.2) (h2 : ¬ Marked last.2) :
    RestOnLines c (init ++ last :: rest) ↔ (∀ y ∈ init ++ [last], SameDict c (lineParams y.1 y.2)) ∧ OnLines rest := by
  induction init with
  | nil =>
    obtain ⟨v, p⟩ := last
    rw [List.nil_append, List.nil_append, restOnLines_cons, List.forall_mem_singleton]
    constructor
    · rintro ⟨h, ⟨hm, -⟩ | ⟨-, hr⟩⟩
      · exact absurd hm h2
      · exact ⟨h, hr⟩
    · rintro ⟨h, hr⟩
      exact ⟨h, .inr ⟨h2, hr⟩⟩
  | cons x init ih =>
    obtain ⟨v, p⟩ := x
    have hx : Marked p := h1 _ List.mem_cons_self
    rw [List.cons_append, List.cons_append, restOnLines_cons, List.forall_mem_cons,
      ih fun y hy => h1 y (List.mem_cons_of_mem _ hy)]
    constructor
    · rintro ⟨h, ⟨-, hr⟩ | ⟨hm, -⟩⟩
      · exact ⟨⟨h, hr.1⟩, hr.2⟩
      · exact absurd hx hm
    · rintro ⟨⟨h, h'⟩, hr⟩
      exact ⟨h, .inl ⟨hx, h', hr⟩⟩

/-- All values of the line have the parameters of the first one. -/
def Uniform (g : List (Val σ × Params)) : Prop :=
  ∀ x r, g = x :: r → ∀ y ∈ r, SameDict (lineParams x.1 x.2) (lineParams y.1 y.2)

/-- The values of one line: all but the last are marked. -/
def LineMarks (g : List (Val σ × Params)) : Prop :=
  g = [] ∨ ∃ init last, g = init ++ [last] ∧ (∀ x ∈ init, Marked x.2) ∧ ¬ Marked last.2

theorem onLines_group {g rest : List (Val σ × Params)} (h : LineMarks g) : OnLines (g ++ rest) ↔ Uniform g ∧ OnLines rest := by
  rcases h with rfl | ⟨init, last, rfl, h1, h2⟩
  · exact ⟨fun h => ⟨fun x r e => (List.cons_ne_nil _ _ e.symm).elim, h⟩, fun h => h.2⟩
  · rw [List.append_assoc, List.singleton_append]
    cases init with
    | nil =>
      obtain ⟨v, p⟩ := last
      rw [List.nil_append, onLines_cons]
      constructor
      · rintro (⟨hm, -⟩ | ⟨-, hr⟩)
        · exact absurd hm h2
        · exact ⟨fun x r h => by cases h; exact fun _ h => absurd h List.not_mem_nil, hr⟩
      · exact fun h => .inr ⟨h2, h.2⟩
    | cons x init =>
      obtain ⟨v, p⟩ := x
      have hx : Marked p := h1 _ List.mem_cons_self
      rw [List.cons_append, onLines_cons, restOnLines_marked (fun y hy => h1 y (List.mem_cons_of_mem _ hy)) h2]
      constructor
      · rintro (⟨-, h, hr⟩ | ⟨hm, -⟩)
        · exact ⟨fun x r e => by cases e; exact h, hr⟩
        · exact absurd hx hm
      · rintro ⟨h, hr⟩
        exact .inl ⟨hx, h _ _ rfl, hr⟩

theorem onLines_groups {gs : List (List (Val σ × Params))} (h : ∀ g ∈ gs, LineMarks g) :
    OnLines gs.flatten ↔ ∀ g ∈ gs, Uniform g := by
  induction gs with
  | nil => exact ⟨fun _ _ h => absurd h List.not_mem_nil, fun _ => onLines_nil⟩
  | cons g gs ih =>
    rw [List.flatten_cons, onLines_group (h g List.mem_cons_self), ih fun g hg => h g (List.mem_cons_of_mem _ hg),
      List.forall_mem_cons]

theorem marked_setMerge (p : Params) (b : Bool) : Marked (setMerge p b) ↔ b = true := by
  rw [← mergeNext_iff, mergeNext_setMerge]

theorem parseValues_marked {L : Lib} {cv : ValConv} {ts : List Str} {p : Params} {ctx ctx' : Ctx}
    {vals : List (Val σ × Params)} (h : parseValues L cv ts p ctx = .ok (vals, ctx')) :
    ∀ x ∈ vals, Marked x.2 ∧ ∃ k ∈ convKinds cv, OfKind k x.1 := by
  induction ts generalizing p ctx ctx' vals with
  | nil =>
    cases h
    exact fun _ h => absurd h List.not_mem_nil
  | cons t ts ih =>
    simp only [parseValues, bind_ok_iff] at h
    obtain ⟨⟨v, p1, ctx1⟩, h1, ⟨r, ctx2⟩, h2, h⟩ := h
    dsimp only at h2 h
    injection h with h
    rw [Prod.mk.injEq] at h
    obtain ⟨rfl, -⟩ := h
    intro x hx
    rcases List.mem_cons.1 hx with rfl | hx
    · exact ⟨(marked_setMerge _ _).2 rfl, parse_kind h1⟩
    · exact ih h2 x hx

theorem markLast_last (init : List (Val σ × Params)) (v : Val σ) (p : Params) :
    markLast (init ++ [(v, p)]) = init ++ [(v, setMerge p false)] := by
  induction init with
  | nil => rfl
  | cons x init ih =>
    cases init with
    | nil => rfl
    | cons y init =>
      rw [List.cons_append, List.cons_append, markLast_cons_cons, ← List.cons_append, ih]
      rfl

theorem markLast_marks {vals : List (Val σ × Params)} (h : ∀ x ∈ vals, Marked x.2) : LineMarks (markLast vals) := by
  rcases List.eq_nil_or_concat vals with rfl | ⟨init, ⟨v, p⟩, rfl⟩
  · exact .inl rfl
  · rw [List.concat_eq_append] at h ⊢
    rw [markLast_last]
    exact .inr ⟨init, _, rfl, fun x hx => h x (List.mem_append_left _ hx), fun hm => by
      rw [marked_setMerge] at hm
      cases hm⟩

/-- Each value of the marked line is a value with its parameters, except for the mark. -/
theorem mem_markLast {vals : List (Val σ × Params)} {x : Val σ × Params} (h : x ∈ markLast vals) :
    ∃ y ∈ vals, x.1 = y.1 ∧ dictErase x.2 mergeKey = dictErase y.2 mergeKey := by
  rcases List.eq_nil_or_concat vals with rfl | ⟨init, ⟨v, p⟩, rfl⟩
  · exact absurd h List.not_mem_nil
  · rw [List.concat_eq_append] at h ⊢
    rw [markLast_last] at h
    rcases List.mem_append.1 h with h | h
    · exact ⟨x, List.mem_append_left _ h, rfl, rfl⟩
    · rw [List.mem_singleton.1 h]
      exact ⟨(v, p), List.mem_append_right _ (List.mem_singleton.2 rfl), rfl, erase_setMerge p false⟩

theorem sameDict_refl {p : Params} (h : UniqueKeys p) : SameDict p p := (paramsEq_iff p p).1 (paramsEq_refl h)

theorem lineParams_eq {v : Val σ} {p q : Params} (h : dictErase p mergeKey = dictErase q mergeKey) :
    lineParams v p = lineParams v q := by
  have h : dictErase p "__merge_next".toList = dictErase q "__merge_next".toList := h
  unfold lineParams
  rw [h]

/-- The lines of plain values can be written. -/
theorem uniform_plain {L : Lib} {s : AttrSpec} (hc : s.convs ∈ plainLists) {ctx : Ctx} {cl : ContentLine}
    {vals : List (Val σ × Params)} (h : ReadsLine L s ctx cl vals) (hu : UniqueKeys cl.params) : Uniform (markLast vals) := by
  obtain ⟨p, cv, ctx', hp, hv, -⟩ := h
  obtain ⟨rfl, hcv⟩ := prepare_ok hp
  have hpl : cv.plain = true ∧ cv ∈ [ValConv.text, .uri, .binary] := by
    unfold plainLists at hc
    simp only [List.mem_cons, List.not_mem_nil, or_false] at hc
    rcases hc with hc | hc <;> rw [hc] at hcv <;> simp only [List.mem_cons, List.not_mem_nil, or_false] at hcv
    · subst hcv; decide
    · rcases hcv with rfl | rfl <;> decide
  obtain ⟨-, vs, rfl, hf⟩ := parseValues_plain hpl.1 hv
  have hq : UniqueKeys (dictErase cl.params "VALUE".toList) := uniqueKeys_dictErase _ hu
  generalize dictErase cl.params "VALUE".toList = q at *
  have key : ∃ r, UniqueKeys r ∧ ∀ x ∈ markLast (vs.map fun v => (v, setMerge q true)), lineParams x.1 x.2 = r := by
    refine ⟨if cv = .binary then dictSet (dictErase q mergeKey) "VALUE".toList [⟨false, "BINARY".toList⟩]
      else dictErase q mergeKey, ?_, fun x hx => ?_⟩
    · split
      · exact uniqueKeys_dictSet _ _ (uniqueKeys_dictErase _ hq)
      · exact uniqueKeys_dictErase _ hq
    · obtain ⟨y, hy, e1, e2⟩ := mem_markLast hx
      obtain ⟨v, hv, rfl⟩ := List.mem_map.1 hy
      obtain ⟨t, -, ht⟩ := forall₂_mem hf v hv
      rw [e1]
      dsimp only at e2 ⊢
      rw [erase_setMerge] at e2
      rw [lineParams_eq e2]
      obtain ⟨k, hk, hkv⟩ := parse_kind (ht [] none)
      have e : ∀ q : Params, dictErase q mergeKey = dictErase q "__merge_next".toList := fun _ => rfl
      rw [e]
      have := hpl.2
      simp only [List.mem_cons, List.not_mem_nil, or_false] at this
      rcases this with rfl | rfl | rfl <;> rw [List.mem_singleton.1 hk] at hkv <;> cases hkv <;> rfl
  obtain ⟨r, hr, hall⟩ := key
  intro x rest e y hy
  rw [hall x (e ▸ List.mem_cons_self), hall y (e ▸ List.mem_cons_of_mem _ hy)]
  exact sameDict_refl hr

/-- The values of a line of attendees. -/
theorem parseValues_attendee {L : Lib} {ts : List Str} {p : Params} {ctx ctx' : Ctx} {vals : List (Val σ × Params)}
    (h : parseValues L .attendee ts p ctx = .ok (vals, ctx')) :
    (ts = [] ∧ vals = []) ∨ ∃ u us, vals = (.person true (.url u) p, setMerge [] true) ::
      List.map (fun u => (.person true (.url u) (setMerge [] true), setMerge [] true)) us ∧ us.length + 1 = ts.length := by
  induction ts generalizing p ctx ctx' vals with
  | nil =>
    cases h
    exact .inl ⟨rfl, rfl⟩
  | cons t ts ih =>
    simp only [parseValues, bind_ok_iff] at h
    obtain ⟨⟨v, p1, ctx1⟩, h1, ⟨r, ctx2⟩, h2, h⟩ := h
    simp only [ValConv.parse, map_ok_iff] at h1
    obtain ⟨u, -, e⟩ := h1
    simp only [Prod.mk.injEq] at e
    obtain ⟨rfl, rfl, rfl⟩ := e
    dsimp only at h2 h
    injection h with h
    rw [Prod.mk.injEq] at h
    obtain ⟨rfl, -⟩ := h
    right
    rcases ih h2 with ⟨rfl, rfl⟩ | ⟨u', us, rfl, hl⟩
    · exact ⟨u, [], rfl, rfl⟩
    · exact ⟨u, u' :: us, rfl, by simp [hl]⟩

/-- The lines of attendees can be written if there is one attendee, or the parameters are those of the other ones. -/
theorem uniform_attendee {L : Lib} {s : AttrSpec} (hc : s.convs = [.attendee]) {ctx : Ctx} {cl : ContentLine}
    {vals : List (Val σ × Params)} (h : ReadsLine L s ctx cl vals) (hu : UniqueKeys cl.params) :
    Uniform (markLast vals) ↔ ¬ (',' ∈ cl.value ∧
      ¬ SameDict (dictErase cl.params "VALUE".toList) [("__merge_next".toList, [⟨false, "TRUE".toList⟩])]) := by
  obtain ⟨p, cv, ctx', hp, hv, -⟩ := h
  obtain ⟨rfl, hcv⟩ := prepare_ok hp
  rw [hc] at hcv
  obtain rfl := List.mem_singleton.1 hcv
  have hupd : dictUpdate [] (dictErase cl.params "VALUE".toList) = dictErase cl.params "VALUE".toList :=
    dictUpdate_nil (uniqueKeys_dictErase _ hu)
  generalize dictErase cl.params "VALUE".toList = q at *
  have he : ∀ b, dictErase (setMerge [] b) "__merge_next".toList = [] := fun b => by cases b <;> rfl
  have e1 : ∀ b u, lineParams (.person true (.url u) q : Val σ) (setMerge [] b) = q := by
    intro b u
    unfold lineParams
    rw [he]
    exact hupd
  have e2 : ∀ b u, lineParams (.person true (.url u) (setMerge [] true) : Val σ) (setMerge [] b) =
      [("__merge_next".toList, [⟨false, "TRUE".toList⟩])] := by
    intro b u
    unfold lineParams
    rw [he]
    rfl
  have hs : (ValConv.attendee.split cl.value).items = splitComma cl.value := rfl
  rw [hs] at hv
  rcases parseValues_attendee hv with ⟨h0, -⟩ | ⟨u, us, rfl, hl⟩
  · rcases splitComma_cases cl.value with ⟨-, h⟩ | ⟨-, a, b, r, h⟩ <;> rw [h0] at h <;> cases h
  · rcases splitComma_cases cl.value with ⟨h1, h⟩ | ⟨h1, a, b, r, h⟩
    · rw [h] at hl
      cases us with
      | nil =>
        refine ⟨fun _ hn => h1 hn.1, fun _ x rest e => ?_⟩
        cases e
        exact fun _ h => absurd h List.not_mem_nil
      | cons x us => simp at hl
    · rw [h] at hl
      cases us with
      | nil => simp at hl
      | cons u' us =>
        have el : ∀ y ∈ markLast ((.person true (.url u') (setMerge [] true), setMerge [] true) ::
            List.map (fun u => (.person true (.url u) (setMerge [] true), setMerge [] true)) us : List (Val σ × Params)),
            lineParams y.1 y.2 = [("__merge_next".toList, [⟨false, "TRUE".toList⟩])] := by
          intro y hy
          obtain ⟨z, hz, h1, h2⟩ := mem_markLast hy
          have : ∃ u, z = (.person true (.url u) (setMerge [] true), setMerge [] true) := by
            rcases List.mem_cons.1 hz with rfl | hz
            · exact ⟨_, rfl⟩
            · obtain ⟨u, -, rfl⟩ := List.mem_map.1 hz
              exact ⟨_, rfl⟩
          obtain ⟨u, rfl⟩ := this
          rw [h1, lineParams_eq h2]
          exact e2 true u
        rw [List.map_cons, markLast_cons_cons]
        constructor
        · intro hf hn
          obtain ⟨z, hz⟩ : ∃ z, z ∈ markLast ((.person true (.url u') (setMerge [] true), setMerge [] true) ::
              List.map (fun u => (.person true (.url u) (setMerge [] true), setMerge [] true)) us : List (Val σ × Params)) := by
            cases us with
            | nil => exact ⟨_, List.mem_singleton.2 rfl⟩
            | cons u us => exact ⟨_, List.mem_cons_self⟩
          have := hf _ _ rfl z hz
          rw [el z hz, e1] at this
          exact hn.2 this
        · intro hn x rest e y hy
          rw [List.cons.injEq] at e
          obtain ⟨rfl, rfl⟩ := e
          rw [el y hy, e1]
          exact not_not.1 fun h => hn ⟨h1, h⟩

/-- What is wrong with a line of the list. -/
def LineFault (s : AttrSpec) (cl : ContentLine) : Prop :=
  s.convs = [.attendee] ∧ ',' ∈ cl.value ∧
    ¬ SameDict (dictErase cl.params "VALUE".toList) [("__merge_next".toList, [⟨false, "TRUE".toList⟩])]

/-- A list that was read. -/
theorem loaded_list {L : Lib} {mem : MemberLoad σ} (hmem : MemStable L mem) {c : Cls} {items : List Item} {ctx : Ctx}
    (hc : ctx.isSome) {o : Obj σ} {ctx1 : Ctx} (h : loadObj L mem c items ctx = .ok (o, ctx1))
    (hu : ∀ cl, .line cl ∈ items → UniqueKeys cl.params) {s : AttrSpec} (hs : .value s ∈ c.convs) (hm : s.multi = true) :
    ∃ values, o.get s.attr = .many values ∧ (∀ v ∈ values, ∃ k ∈ s.convs.flatMap convKinds, OfKind k v) ∧
      ∀ e, (∃ x, dictGet? o.extraParams (upper s.attr) = some x ∧ ListFault values x e) ↔
        e = .valueError ∧ ∃ cl, .line cl ∈ items ∧ cl.name = s.ics ∧ LineFault s cl := by
  obtain ⟨cls, groups, hown, hf, hg, hp⟩ := load_multi hmem hc h hs hm
  have hmem' : ∀ cl, cl ∈ cls ↔ .line cl ∈ items ∧ cl.name = s.ics := by
    intro cl
    have : Item.line cl ∈ Conv.own (.value s) items ↔ cl ∈ cls := by
      rw [hown, List.mem_map]
      exact ⟨fun ⟨x, hx, e⟩ => by cases e; exact hx, fun h => ⟨cl, h, rfl⟩⟩
    rw [← this]
    unfold Conv.own
    rw [List.mem_filter, decide_eq_true_iff]
    exact and_congr_right fun _ => List.mem_singleton
  have hmarks : ∀ g ∈ groups, LineMarks g ∧ ∀ x ∈ g, ∃ k ∈ s.convs.flatMap convKinds, OfKind k x.1 := by
    intro g hgm
    obtain ⟨cl, -, vals, ⟨p, cv, ctx', hp, hv, -⟩, rfl⟩ := forall₂_mem hf g hgm
    have := parseValues_marked hv
    refine ⟨markLast_marks fun x hx => (this x hx).1, fun x hx => ?_⟩
    obtain ⟨y, hy, e, -⟩ := mem_markLast hx
    obtain ⟨k, hk, hkv⟩ := (this y hy).2
    exact ⟨k, List.mem_flatMap.2 ⟨cv, (prepare_ok hp).2, hk⟩, by rw [e]; exact hkv⟩
  have hall : ∀ {cls : List ContentLine} {groups : List (List (Val σ × Params))},
      List.Forall₂ (fun cl g => ∃ vals, ReadsLine L s ctx cl vals ∧ g = markLast vals) cls groups →
      (∀ cl ∈ cls, .line cl ∈ items) → ((∀ g ∈ groups, Uniform g) ↔ ∀ cl ∈ cls, ¬ LineFault s cl) := by
    intro cls groups hf hin
    induction hf with
    | nil => exact ⟨fun _ _ h => absurd h List.not_mem_nil, fun _ _ h => absurd h List.not_mem_nil⟩
    | @cons cl g cls groups h1 _ ih =>
      rw [List.forall_mem_cons, List.forall_mem_cons, ih fun cl hcl => hin cl (List.mem_cons_of_mem _ hcl)]
      refine and_congr_left fun _ => ?_
      obtain ⟨vals, hr, rfl⟩ := h1
      have huk := hu cl (hin cl List.mem_cons_self)
      rcases multi_table c s hs hm with hpl | hat
      · refine ⟨fun _ hn => ?_, fun _ => uniform_plain hpl hr huk⟩
        rw [hn.1] at hpl
        revert hpl
        decide
      · rw [uniform_attendee hat hr huk]
        exact not_congr ⟨fun h => ⟨hat, h⟩, fun h => h.2⟩
  refine ⟨groups.flatten.map Prod.fst, by unfold Obj.get; rw [hg]; rfl, ?_, fun e => ?_⟩
  · intro v hv
    obtain ⟨x, hx, rfl⟩ := List.mem_map.1 hv
    obtain ⟨g, hg, hx⟩ := List.mem_flatten.1 hx
    exact (hmarks g hg).2 x hx
  · have hlines := onLines_groups fun g hg => (hmarks g hg).1
    have hp : dictGet? o.extraParams (upper s.attr) =
        if groups.flatten = [] then none else some (.many (groups.flatten.map Prod.snd)) := hp
    rw [hp]
    have hrhs : (∃ cl, .line cl ∈ items ∧ cl.name = s.ics ∧ LineFault s cl) ↔ ¬ OnLines groups.flatten := by
      rw [hlines, hall hf fun cl hcl => ((hmem' cl).1 hcl).1]
      constructor
      · rintro ⟨cl, h1, h2, h3⟩ hn
        exact hn cl ((hmem' cl).2 ⟨h1, h2⟩) h3
      · intro hn
        apply not_not.1
        intro h
        exact hn fun cl hcl hf => h ⟨cl, ((hmem' cl).1 hcl).1, ((hmem' cl).1 hcl).2, hf⟩
    rw [hrhs]
    constructor
    · rintro ⟨x, hx, hf⟩
      by_cases hn : groups.flatten = []
      · rw [if_pos hn] at hx
        cases hx
      · rw [if_neg hn] at hx
        cases hx
        cases hf with
        | length _ h => exact absurd (by rw [List.length_map, List.length_map]) h
        | lines _ _ h =>
          rw [zip_fst_snd] at h
          exact ⟨rfl, h⟩
    · rintro ⟨rfl, hn⟩
      have hne : groups.flatten ≠ [] := fun h => hn (h ▸ onLines_nil)
      refine ⟨.many (groups.flatten.map Prod.snd), by rw [if_neg hne], .lines (fun h => hne (List.map_eq_nil_iff.1 h))
        (by rw [List.length_map, List.length_map]) ?_⟩
      rw [zip_fst_snd]
      exact hn

/-! ### Components that were read -/

theorem attendee_rows (c : Cls) : c.convs.all (fun cv => match cv with
    | .value s => !s.multi || s.convs != [.attendee] || (s.ics == "ATTENDEE".toList && (c == .event || c == .emailAlarm))
    | _ => true) = true := by cases c <;> decide +kernel

theorem attendee_row {c : Cls} (h : c = .event ∨ c = .emailAlarm) :
    ∃ s, .value s ∈ c.convs ∧ s.multi = true ∧ s.convs = [.attendee] ∧ s.ics = "ATTENDEE".toList := by
  rcases h with rfl | rfl
  · exact ⟨⟨"attendees".toList, "ATTENDEE".toList, true, false, [.attendee], .list⟩, by decide, rfl, rfl, rfl⟩
  · exact ⟨⟨"attendees".toList, "ATTENDEE".toList, true, false, [.attendee], .any⟩, by decide, rfl, rfl, rfl⟩

/-- A time in a zone without a name. -/
def Nameless (L : Lib) (o : Obj σ) : Prop :=
  ∃ d t, WrittenTime (fun _ _ => False) o d ∧ L.dtIsUtc d = false ∧ d.tz = some t ∧ L.conv t = .unserializable

/-- Why a component that was read cannot be written. -/
theorem loaded_fault {L : Lib} {mem : MemberLoad σ} (hmem : MemStable L mem) {c : Cls} {items : List Item} {ctx : Ctx}
    (hc : ctx.isSome) {o : Obj σ} {ctx1 : Ctx} (h : loadObj L mem c items ctx = .ok (o, ctx1))
    (hu : ∀ cl, .line cl ∈ items → UniqueKeys cl.params) {P : σ → PyErr → Prop} {e : PyErr} :
    WriteFault L P o e ↔ (e = .valueError ∧ (Nameless L o ∨
      (c = .event ∨ c = .emailAlarm) ∧ ∃ cl, .line cl ∈ items ∧ CrowdedLine cl)) ∨ ∃ m, MemberOf o m ∧ P m e := by
  have hcls : o.cls = c := (loadObj_frame h).1
  have hk : ∀ k ps, dictGet? o.extraParams k = some (.many ps) → ListKey c k := by
    intro k ps hps
    rw [← hcls]
    exact load_listKeys h k ps hps
  have listed : ∀ k ∈ ["BEGIN", "DURATION", "DUE", "DTEND", "ACTION"], ¬ ListedParams o k := by
    rintro k hk' ⟨p, ps, hps⟩
    exact (listKey_other (hk _ _ hps)).2.2 k hk' rfl
  constructor
  · intro hf
    cases hf with
    | number hr hv hb =>
      rw [hcls] at hr
      exact absurd hb (Nat.not_le.2 ((loaded_one hmem hc h hr).2 _ hv))
    | zone h1 h2 h3 h4 => exact .inl ⟨rfl, .inl ⟨_, _, h1, h2, h3, h4⟩⟩
    | params hr _ hp =>
      rw [hcls] at hr
      exact absurd rfl ((listKey_other (hk _ _ hp)).1 _ hr)
    | beginParams _ _ _ hp => exact absurd hp (listed _ (by decide))
    | durationParams _ _ _ hp => exact absurd hp (listed _ (by decide))
    | endParams _ _ _ _ hp => exact absurd hp (listed _ (by split <;> decide))
    | listParams hr hg hx hl =>
      rw [hcls] at hr
      obtain ⟨s, hs, hm, ha, rfl⟩ := convList hr
      rw [← ha] at hg hx
      obtain ⟨values, hg', -, hiff⟩ := loaded_list hmem hc h hu hs hm
      rw [hg] at hg'
      cases hg'
      obtain ⟨rfl, cl, h1, h2, h3⟩ := (hiff e).1 ⟨_, hx, hl⟩
      have row := List.all_eq_true.1 (attendee_rows c) _ hs
      dsimp only at row
      rw [hm, h3.1, Bool.not_true, Bool.false_or, bne_self_eq_false, Bool.false_or, Bool.and_eq_true, Bool.or_eq_true,
        beq_iff_eq, beq_iff_eq, beq_iff_eq] at row
      exact .inl ⟨rfl, .inr ⟨row.2, cl, h1, h2.trans row.1, h3.2⟩⟩
    | actionParams _ hp => exact absurd rfl ((listKey_other (hk _ _ hp)).2.2 "ACTION" (by decide))
    | memberParams hr hp =>
      rw [hcls] at hr
      exfalso
      obtain ⟨ics, hcv⟩ := convMember hr
      obtain ⟨rd, hrd⟩ := load_reading hmem hc h
      obtain ⟨b, hb, _, hpp, _⟩ := coreLoad_agree hrd hcv
      have e := hpp _ (List.mem_singleton_self _)
      rw [foldMember_params hb] at e
      replace e : dictGet? o.extraParams (upper _) = none := e
      rcases hp with ⟨p, -, hp⟩ | ⟨p, -, hp⟩ <;> rw [e] at hp <;> cases hp
    | member hm hp => exact .inr ⟨_, hm, hp⟩
  · rintro (⟨rfl, ⟨d, t, h1, h2, h3, h4⟩ | ⟨hcl, cl, h1, h2⟩⟩ | ⟨m, hm, hp⟩)
    · exact .zone h1 h2 h3 h4
    · obtain ⟨s, hs, hm, hconv, hics⟩ := attendee_row hcl
      obtain ⟨values, hg, -, hiff⟩ := loaded_list hmem hc h hu hs hm
      obtain ⟨x, hx, hl⟩ := (hiff .valueError).2 ⟨rfl, cl, h1, by rw [hics]; exact h2.1, hconv, h2.2⟩
      obtain ⟨a, ks, hr, ha, -⟩ := listRow hs hm
      rw [← ha] at hg hx
      rw [← hcls] at hr
      exact .listParams hr hg hx hl
    · exact .member hm hp

/-- The attributes of a component that was read are of the right types. -/
theorem loaded_typed {L : Lib} {mem : MemberLoad σ} (hmem : MemStable L mem) {c : Cls} {items : List Item}
    {zones : List (Str × Nat)} {o : Obj σ} {ctx1 : Ctx} (h : loadObj L mem c items (some zones) = .ok (o, ctx1))
    {P : σ → Prop} (hact : c = .customAlarm → ∃ cl, .line cl ∈ items ∧ cl.name = "ACTION".toList)
    (hP : ∀ a n, .member a n ∈ c.convs → ∀ is m ctx', .cont n is ∈ items → mem n is (some zones) = .ok (m, ctx') → P m) :
    Typed P o := by
  have hcls : o.cls = c := (loadObj_frame h).1
  refine ⟨fun a ks ha => ?_, fun a ks ha => ?_, fun a ha => ?_, fun hc => ?_, fun hc => ?_⟩
  · rw [hcls] at ha
    exact (loaded_one hmem rfl h ha).1
  · rw [hcls] at ha
    obtain ⟨s, hs, hm, hsa, rfl⟩ := convList ha
    rw [← hsa]
    obtain ⟨cls, groups, -, hf, hg, -⟩ := load_multi hmem rfl h hs hm
    refine ⟨groups.flatten.map Prod.fst, by unfold Obj.get; rw [hg]; rfl, fun v hv => ?_⟩
    obtain ⟨x, hx, rfl⟩ := List.mem_map.1 hv
    obtain ⟨g, hg, hx⟩ := List.mem_flatten.1 hx
    obtain ⟨cl, -, vals, ⟨p, cv, ctx', hp, hv, -⟩, rfl⟩ := forall₂_mem hf g hg
    obtain ⟨y, hy, e, -⟩ := mem_markLast hx
    obtain ⟨k, hk, hkv⟩ := (parseValues_marked hv y hy).2
    exact ⟨k, List.mem_flatMap.2 ⟨cv, (prepare_ok hp).2, hk⟩, by rw [e]; exact hkv⟩
  · rw [hcls] at ha
    obtain ⟨ics, hcv⟩ := convMember ha
    obtain ⟨ms, hg, hf⟩ := load_member hmem rfl h hcv
    refine ⟨_, hg, fun v hv => ?_⟩
    obtain ⟨m, hm, rfl⟩ := List.mem_map.1 hv
    obtain ⟨i, hi, is, ctx', rfl, hload⟩ := forall₂_mem hf m hm
    exact ⟨m, rfl, hP _ _ hcv is m ctx' (List.mem_filter.1 hi).1 hload⟩
  · rw [hcls] at hc
    obtain ⟨_, b, -, -, hg, -⟩ := load_span hmem h (rows_span hc)
    exact ⟨_, by unfold Obj.get; rw [hg]; rfl⟩
  · rw [hcls] at hc
    obtain ⟨cl, hcl, hn⟩ := hact hc
    have hs : Conv.value ⟨"_action".toList, "ACTION".toList, false, false, [.text], .any⟩ ∈ c.convs := by
      rw [hc]
      decide
    rcases load_single hmem rfl h hs rfl with ⟨h0, -⟩ | ⟨_, p, cv, v, p', ctx', w, -, hp, hparse, hw, hg, -⟩
    · exfalso
      have : Item.line cl ∈ Conv.own (.value ⟨"_action".toList, "ACTION".toList, false, false, [.text], .any⟩) items := by
        unfold Conv.own
        rw [List.mem_filter, decide_eq_true_iff]
        exact ⟨hcl, List.mem_singleton.2 hn⟩
      rw [h0] at this
      cases this
    · cases hw
      have hcv : cv = .text := List.mem_singleton.1 (prepare_ok hp).2
      subst hcv
      obtain ⟨k, hk, hkv⟩ := parse_kind hparse
      rw [List.mem_singleton.1 hk] at hkv
      cases hkv
      exact ⟨_, by unfold Obj.get; rw [hg]; rfl⟩

/-- The class of an alarm is that of its action. -/
theorem loadAlarm_cls {L : Lib} {items : List Item} {ctx ctx1 : Ctx} {o : Alarm} (h : loadAlarm L items ctx = .ok (o, ctx1)) :
    ∃ cl, .line cl ∈ items ∧ cl.name = "ACTION".toList ∧ (∀ i ∈ items, i.name = "ACTION".toList → i = .line cl) ∧
      o.cls = alarmCls cl.value ∧
      loadObj L (fun _ _ _ => .error .notImplementedError) (alarmCls cl.value) items ctx = .ok (o, ctx1) := by
  simp only [loadAlarm, bind_ok_iff] at h
  obtain ⟨i, hi, h⟩ := h
  cases i with
  | cont n is => cases h
  | line cl =>
    unfold oneItem at hi
    split at hi
    · rename_i e
      cases hi
      have hm : ∀ i, i ∈ items ∧ i.name = "ACTION".toList ↔ i = .line cl := by
        intro i
        rw [← List.mem_singleton (b := Item.line cl), ← e, List.mem_filter, decide_eq_true_iff]
      have h1 := (hm (.line cl)).2 rfl
      exact ⟨cl, h1.1, h1.2, fun i h1 h2 => (hm i).1 ⟨h1, h2⟩, (loadObj_frame h).1, h⟩
    · cases hi

theorem noAlarms_stable (L : Lib) :
    MemStable L (fun (_ : Str) (_ : List Item) (_ : Ctx) => (.error .notImplementedError : Except PyErr (Empty × Ctx))) :=
  fun _ _ => Stable.error _ _

theorem alarmCls_alarm (v : Str) : alarmCls v ∉ [Cls.calendar, .event, .todo] := by
  unfold alarmCls
  repeat' split
  all_goals decide

theorem alarmCls_email (v : Str) : alarmCls v = .emailAlarm ↔ v = "EMAIL".toList := by
  constructor
  · unfold alarmCls
    repeat' split
    all_goals intro h
    all_goals first | assumption | (cases h; done)
  · rintro rfl
    decide

theorem alarm_typed {L : Lib} {items : List Item} {zones : List (Str × Nat)} {o : Alarm} {ctx1 : Ctx}
    (h : loadAlarm L items (some zones) = .ok (o, ctx1)) : TypedAlarm o := by
  obtain ⟨cl, h1, h2, -, h3, h⟩ := loadAlarm_cls h
  refine ⟨h3 ▸ alarmCls_alarm _, loaded_typed (noAlarms_stable L) h (fun _ => ⟨cl, h1, h2⟩) fun a n hcv is m => nomatch m⟩

theorem entry_typed {L : Lib} {c : Cls} (hc : c = .event ∨ c = .todo) {items : List Item} {zones : List (Str × Nat)}
    {o : EntryObj} {ctx1 : Ctx} (h : loadEntry L c items (some zones) = .ok (o, ctx1)) : TypedEntry o := by
  refine ⟨?_, loaded_typed (fun _ items => loadAlarm_stable L items) h (fun e => ?_) fun a n _ is m ctx' _ hm => alarm_typed hm⟩
  · rw [show o.cls = c from (loadObj_frame h).1]
    exact hc
  · subst e
    exact absurd hc (by decide)

theorem calMember_cls (n : Str) : (if n = "VTODO".toList then Cls.todo else .event) = .event ∨
    (if n = "VTODO".toList then Cls.todo else .event) = .todo := by
  split
  · exact .inr rfl
  · exact .inl rfl

theorem calendar_typed {L : Lib} {items : List Item} {o : CalObj} (h : loadCalendar L items = .ok o) : TypedCalendar o := by
  simp only [loadCalendar, bind_ok_iff] at h
  obtain ⟨avail, _, ⟨o', ctx1⟩, h, e⟩ := h
  cases e
  exact ⟨(loadObj_frame h).1, loaded_typed (loadCalMember_stable L) h nofun fun a n _ is m ctx' _ hm =>
    entry_typed (calMember_cls n) hm⟩

/-- Why an alarm that was read cannot be written. -/
theorem alarm_fault {L : Lib} {items : List Item} {zones : List (Str × Nat)} {o : Alarm} {ctx1 : Ctx}
    (h : loadAlarm L items (some zones) = .ok (o, ctx1)) (hu : ∀ cl, LineIn cl items → UniqueKeys cl.params) {e : PyErr} :
    AlarmWriteFault L o e ↔ e = .valueError ∧ (Nameless L o ∨ CrowdedAlarm items) := by
  obtain ⟨cl, h1, h2, huniq, h3, h⟩ := loadAlarm_cls h
  unfold AlarmWriteFault
  rw [loaded_fault (noAlarms_stable L) rfl h fun cl hcl => hu cl (.here hcl)]
  have key : (alarmCls cl.value = .event ∨ alarmCls cl.value = .emailAlarm) ↔
      ∃ cl, .line cl ∈ items ∧ cl.name = "ACTION".toList ∧ cl.value = "EMAIL".toList := by
    rw [alarmCls_email]
    constructor
    · rintro (hc | hc)
      · exact absurd (hc ▸ alarmCls_alarm cl.value) (by decide)
      · exact ⟨cl, h1, h2, hc⟩
    · rintro ⟨x, k1, k2, k3⟩
      have := huniq _ k1 k2
      cases this
      exact .inr k3
  rw [key]
  exact or_iff_left fun ⟨m, _⟩ => nomatch m

/-- The components in a component that was read. -/
theorem loaded_member {L : Lib} {mem : MemberLoad σ} (hmem : MemStable L mem) {c : Cls} {items : List Item} {ctx : Ctx}
    (hc : ctx.isSome) {o : Obj σ} {ctx1 : Ctx} (h : loadObj L mem c items ctx = .ok (o, ctx1)) :
    (∀ m, MemberOf o m → ∃ a n is ctx', .member a n ∈ c.convs ∧ .cont n is ∈ items ∧ mem n is ctx = .ok (m, ctx')) ∧
    ∀ a n is, .member a n ∈ c.convs → .cont n is ∈ items → ∃ m ctx', MemberOf o m ∧ mem n is ctx = .ok (m, ctx') := by
  have hcls : o.cls = c := (loadObj_frame h).1
  constructor
  · rintro m ⟨a, ha, l, hl, hm⟩
    rw [hcls] at ha
    obtain ⟨n, hcv⟩ := convMember ha
    obtain ⟨ms, hg, hf⟩ := load_member hmem hc h hcv
    rw [hl] at hg
    cases hg
    obtain ⟨m', hm', e⟩ := List.mem_map.1 hm
    cases e
    obtain ⟨i, hi, is, ctx', rfl, hload⟩ := forall₂_mem hf m hm'
    exact ⟨_, n, is, ctx', hcv, (List.mem_filter.1 hi).1, hload⟩
  · intro a n is hcv hi
    obtain ⟨ms, hg, hf⟩ := load_member hmem hc h hcv
    obtain ⟨m, hm, is', ctx', e, hload⟩ := forall₂_mem (List.Forall₂.flip hf) (.cont n is)
      (List.mem_filter.2 ⟨hi, decide_eq_true rfl⟩)
    cases e
    obtain ⟨a', ha', e⟩ := memberRow hcv
    exact ⟨m, ctx', ⟨a', by rw [hcls]; exact ha', _, by rw [e]; exact hg, List.mem_map_of_mem hm⟩, hload⟩

/-- An event or a todo has a crowded line, or an alarm in it has one. -/
def CrowdedEntry (c : Cls) (items : List Item) : Prop :=
  (c = .event ∧ ∃ cl, .line cl ∈ items ∧ CrowdedLine cl) ∨ ∃ as, .cont "VALARM".toList as ∈ items ∧ CrowdedAlarm as

/-- A time is written that is in a zone without a name. -/
def NamelessTime (L : Lib) (P : DT → Prop) : Prop :=
  ∃ d t, P d ∧ L.dtIsUtc d = false ∧ d.tz = some t ∧ L.conv t = .unserializable

theorem nameless_members {L : Lib} {P : σ → DT → Prop} {o : Obj σ} :
    NamelessTime L (WrittenTime P o) ↔ Nameless L o ∨ ∃ m, MemberOf o m ∧ NamelessTime L (P m) := by
  constructor
  · rintro ⟨d, t, h, h2, h3, h4⟩
    cases h with
    | attr k1 k2 => exact .inl ⟨d, t, .attr k1 k2, h2, h3, h4⟩
    | begin k1 k2 k3 k4 => exact .inl ⟨d, t, .begin k1 k2 k3 k4, h2, h3, h4⟩
    | «end» k1 k2 k3 k4 k5 => exact .inl ⟨d, t, .end k1 k2 k3 k4 k5, h2, h3, h4⟩
    | member hm hp => exact .inr ⟨_, hm, d, t, hp, h2, h3, h4⟩
  · rintro (⟨d, t, h, h2, h3, h4⟩ | ⟨m, hm, d, t, h, h2, h3, h4⟩)
    · cases h with
      | attr k1 k2 => exact ⟨d, t, .attr k1 k2, h2, h3, h4⟩
      | begin k1 k2 k3 k4 => exact ⟨d, t, .begin k1 k2 k3 k4, h2, h3, h4⟩
      | «end» k1 k2 k3 k4 k5 => exact ⟨d, t, .end k1 k2 k3 k4 k5, h2, h3, h4⟩
      | member hm hp => exact hp.elim
    · exact ⟨d, t, .member hm h, h2, h3, h4⟩

theorem nameless_alarm {L : Lib} {o : Alarm} : NamelessTime L (AlarmWritten o) ↔ Nameless L o := by
  unfold AlarmWritten
  rw [nameless_members]
  exact or_iff_left fun ⟨m, _⟩ => nomatch m

theorem entry_alarms {c : Cls} (hc : c = .event ∨ c = .todo) : .member "alarms".toList "VALARM".toList ∈ c.convs := by
  rcases hc with rfl | rfl <;> decide

/-- Why an event or a todo that was read cannot be written. -/
theorem entry_fault {L : Lib} {c : Cls} (hc : c = .event ∨ c = .todo) {items : List Item} {zones : List (Str × Nat)}
    {o : EntryObj} {ctx1 : Ctx} (h : loadEntry L c items (some zones) = .ok (o, ctx1))
    (hu : ∀ cl, LineIn cl items → UniqueKeys cl.params) {e : PyErr} :
    EntryWriteFault L o e ↔ e = .valueError ∧ (NamelessTime L (EntryWritten o) ∨ CrowdedEntry c items) := by
  have hmem : MemStable L (fun (_ : Str) (items : List Item) (ctx : Ctx) => loadAlarm L items ctx) :=
    fun _ items => loadAlarm_stable L items
  obtain ⟨m1, m2⟩ := loaded_member hmem rfl h
  unfold EntryWriteFault EntryWritten CrowdedEntry
  rw [loaded_fault hmem rfl h fun cl hcl => hu cl (.here hcl), nameless_members]
  have hmail : (c = .event ∨ c = .emailAlarm) ↔ c = .event :=
    or_iff_left fun e => by rw [e] at hc; exact absurd hc (by decide)
  rw [hmail]
  constructor
  · rintro (⟨rfl, hn | hcr⟩ | ⟨m, hm, hf⟩)
    · exact ⟨rfl, .inl (.inl hn)⟩
    · exact ⟨rfl, .inr (.inl hcr)⟩
    · obtain ⟨a, n, is, ctx', hcv, hi, hload⟩ := m1 m hm
      have hn := entry_members hc hcv
      subst hn
      obtain ⟨rfl, hk⟩ := (alarm_fault hload fun cl hcl => hu cl (.inside hi hcl)).1 hf
      rcases hk with hk | hk
      · exact ⟨rfl, .inl (.inr ⟨m, hm, nameless_alarm.2 hk⟩)⟩
      · exact ⟨rfl, .inr (.inr ⟨is, hi, hk⟩)⟩
  · rintro ⟨rfl, (hn | ⟨m, hm, hn⟩) | hcr | ⟨as, hi, hcr⟩⟩
    · exact .inl ⟨rfl, .inl hn⟩
    · obtain ⟨a, n, is, ctx', hcv, hi, hload⟩ := m1 m hm
      exact .inr ⟨m, hm, (alarm_fault hload fun cl hcl => hu cl (.inside hi hcl)).2 ⟨rfl, .inl (nameless_alarm.1 hn)⟩⟩
    · exact .inl ⟨rfl, .inr hcr⟩
    · obtain ⟨m, ctx', hm, hload⟩ := m2 _ _ as (entry_alarms hc) hi
      exact .inr ⟨m, hm, (alarm_fault hload fun cl hcl => hu cl (.inside hi hcl)).2 ⟨rfl, .inr hcr⟩⟩

theorem todo_name : ("VEVENT".toList = "VTODO".toList) = False := by decide

theorem crowded_iff {items : List Item} : CrowdedCalendar items ↔
    ∃ a n is, .member a n ∈ Cls.calendar.convs ∧ .cont n is ∈ items ∧
      CrowdedEntry (if n = "VTODO".toList then Cls.todo else .event) is := by
  constructor
  · rintro (⟨h1, h2, h3⟩ | ⟨hn, h1, h2, h3⟩)
    · exact ⟨"events".toList, "VEVENT".toList, _, by decide, h1, .inl ⟨by decide, _, h2, h3⟩⟩
    · rcases hn with rfl | rfl
      · exact ⟨"events".toList, "VEVENT".toList, _, by decide, h1, .inr ⟨_, h2, h3⟩⟩
      · exact ⟨"todos".toList, "VTODO".toList, _, by decide, h1, .inr ⟨_, h2, h3⟩⟩
  · rintro ⟨a, n, is, hcv, hi, ⟨hc, cl, h1, h2⟩ | ⟨as, h1, h2⟩⟩
    · rcases calendar_members hcv with ⟨-, rfl⟩ | ⟨-, rfl⟩
      · exact .event hi h1 h2
      · exact absurd hc (by decide)
    · refine .alarm ?_ hi h1 h2
      rcases calendar_members hcv with ⟨-, h⟩ | ⟨-, h⟩
      · exact .inl h
      · exact .inr h

/-- Why a calendar that was read cannot be written. -/
theorem calendar_fault {L : Lib} {items : List Item} {o : CalObj} (h : loadCalendar L items = .ok o)
    (hu : ∀ cl, LineIn cl items → UniqueKeys cl.params) {e : PyErr} :
    WriteFault L (EntryWriteFault L) o e ↔
      e = .valueError ∧ (NamelessTime L (CalendarWritten o) ∨ CrowdedCalendar items) := by
  simp only [loadCalendar, bind_ok_iff] at h
  obtain ⟨avail, _, ⟨o', ctx1⟩, h, e⟩ := h
  cases e
  obtain ⟨m1, m2⟩ := loaded_member (loadCalMember_stable L) rfl h
  unfold CalendarWritten
  rw [loaded_fault (loadCalMember_stable L) rfl h fun cl hcl => hu cl (.here hcl), nameless_members, crowded_iff]
  have hmail : ¬ (Cls.calendar = .event ∨ Cls.calendar = .emailAlarm) := by decide
  constructor
  · rintro (⟨rfl, hn | ⟨hcr, -⟩⟩ | ⟨m, hm, hf⟩)
    · exact ⟨rfl, .inl (.inl hn)⟩
    · exact absurd hcr hmail
    · obtain ⟨a, n, is, ctx', hcv, hi, hload⟩ := m1 m hm
      obtain ⟨rfl, hk⟩ := (entry_fault (calMember_cls n) hload fun cl hcl => hu cl (.inside hi hcl)).1 hf
      rcases hk with hk | hk
      · exact ⟨rfl, .inl (.inr ⟨m, hm, hk⟩)⟩
      · exact ⟨rfl, .inr ⟨a, n, is, hcv, hi, hk⟩⟩
  · rintro ⟨rfl, (hn | ⟨m, hm, hn⟩) | ⟨a, n, is, hcv, hi, hcr⟩⟩
    · exact .inl ⟨rfl, .inl hn⟩
    · obtain ⟨a, n, is, ctx', hcv, hi, hload⟩ := m1 m hm
      exact .inr ⟨m, hm, (entry_fault (calMember_cls n) hload fun cl hcl => hu cl (.inside hi hcl)).2 ⟨rfl, .inl hn⟩⟩
    · obtain ⟨m, ctx', hm, hload⟩ := m2 a n is hcv hi
      exact .inr ⟨m, hm, (entry_fault (calMember_cls n) hload fun cl hcl => hu cl (.inside hi hcl)).2 ⟨rfl, .inr hcr⟩⟩

end Ics
