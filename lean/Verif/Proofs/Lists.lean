import Verif.Proofs.Values
import Verif.Props.Text
import Verif.Props.Generic
import Verif.Props.Component
import Verif.Proofs.LineRoundTrip

/-
Reading and writing multi-valued properties.
-/
namespace Ics

variable {σ : Type}

/-! ### The marker -/

theorem dictErase_dictSet {κ ν : Type} [DecidableEq κ] (d : List (κ × ν)) (k : κ) (v : ν) :
    dictErase (dictSet d k v) k = dictErase d k := by
  induction d with
  | nil => simp [dictSet, dictErase]
  | cons x d ih =>
    obtain ⟨k1, v1⟩ := x
    by_cases h : k1 = k
    · simp [dictSet, dictErase, h]
    · simp [dictSet, dictErase, h, ih]

theorem dictSet_dictSet {κ ν : Type} [DecidableEq κ] (d : List (κ × ν)) (k : κ) (v w : ν) :
    dictSet (dictSet d k v) k w = dictSet d k w := by
  induction d with
  | nil => simp [dictSet]
  | cons x d ih =>
    obtain ⟨k1, v1⟩ := x
    by_cases h : k1 = k
    · simp [dictSet, h]
    · simp [dictSet, h, ih]

theorem setMerge_setMerge (p : Params) (a b : Bool) : setMerge (setMerge p a) b = setMerge p b :=
  dictSet_dictSet ..

theorem erase_setMerge (p : Params) (b : Bool) : dictErase (setMerge p b) mergeKey = dictErase p mergeKey :=
  dictErase_dictSet ..

theorem mergeNext_setMerge (p : Params) (b : Bool) : mergeNext (setMerge p b) = b := by
  unfold mergeNext setMerge
  rw [dictGet_set]
  cases b <;> decide +kernel

theorem paramsEq_refl {p : Params} (h : UniqueKeys p) : paramsEq p p = true := by
  unfold paramsEq
  simp only [beq_self_eq_true, Bool.true_and, List.all_eq_true, beq_iff_eq]
  rintro ⟨k, v⟩ hkv
  rw [dictGet_of_mem h hkv]
  rfl

/-! ### Writing a group -/

/-- The values of a group are written on one line. -/
def WritesBack (L : Lib) (s : AttrSpec) (cl : ContentLine) (g : List (Val σ × Params)) : Prop :=
  ∀ rest st, dumpMultiLoop L s (g ++ rest) none [] st =
    (dumpMultiLoop L s rest none [] st).map fun r => (.line cl :: r.1, r.2)

theorem markLast_cons_cons (x y : Val σ × Params) (l : List (Val σ × Params)) :
    markLast (x :: y :: l) = x :: markLast (y :: l) := rfl

theorem markLast_fst (l : List (Val σ × Params)) : (markLast l).map Prod.fst = l.map Prod.fst := by
  induction l with
  | nil => rfl
  | cons x l ih =>
    cases l with
    | nil => rfl
    | cons y l => rw [markLast_cons_cons, List.map_cons, ih]; rfl

theorem dumpGroup {L : Lib} {s : AttrSpec} {cv : ValConv} {p q : Params} (hp : mergeKey ∉ p.map Prod.fst)
    (hq : UniqueKeys q) {vs : List (Val σ)} {ts : List Str} (hne : vs ≠ [])
    (h : List.Forall₂ (fun v t => findConverter s.convs p v = .ok (cv, q) ∧
      ∀ ctx, cv.serialize L v q ctx = .ok (t, q, ctx)) vs ts) (cur : Option Params) (hc : cur = none ∨ cur = some q)
    (texts : List Str) (rest : List (Val σ × Params)) (st : DState) :
    dumpMultiLoop L s (markLast (vs.map fun v => (v, setMerge p true)) ++ rest) cur texts st =
      (dumpMultiLoop L s rest none [] st).map fun r =>
        (.line (mkContentLine s.ics q (joinComma (texts ++ ts))) :: r.1, r.2) := by
  induction h generalizing cur texts with
  | nil => exact absurd rfl hne
  | @cons v t vs ts h1 h2 ih =>
    have hsame : checkSame cur q = .ok () := by
      rcases hc with rfl | rfl
      · rfl
      · simp [checkSame, raiseIf, paramsEq_refl hq]
    have he : ∀ b, dictErase (setMerge p b) mergeKey = p := fun b => by
      rw [erase_setMerge, dictErase_absent _ _ (dictGet_eq_none.2 hp)]
    cases h2 with
    | nil =>
      simp only [List.map_cons, List.map_nil, markLast, setMerge_setMerge, List.cons_append, List.nil_append,
        dumpMultiLoop, mergeNext_setMerge, he, h1.1, h1.2, hsame, bind, Except.bind, Bool.false_eq_true, if_false]
      cases dumpMultiLoop L s rest none [] st <;> rfl
    | @cons v' t' vs ts h3 h4 =>
      have i := ih (by simp) (some (cur.getD q)) (Or.inr (by rcases hc with rfl | rfl <;> rfl)) (texts ++ [t])
      simp only [List.map_cons, markLast_cons_cons, List.cons_append, List.append_assoc, List.nil_append] at i ⊢
      simp only [dumpMultiLoop, mergeNext_setMerge, he, h1.1, h1.2, hsame, bind, Except.bind, if_true]
      exact i

/-! ### Values without parameters of their own -/

/-- The converters that neither read nor change the parameters. -/
def ValConv.plain : ValConv → Bool
  | .datetime => false
  | .organizer => false
  | .attendee => false
  | _ => true

theorem parse_plain {L : Lib} {cv : ValConv} (hp : cv.plain = true) {t : Str} {p p' : Params} {ctx ctx' : Ctx}
    {v : Val σ} (h : cv.parse L t p ctx = .ok (v, p', ctx')) :
    p' = p ∧ ctx' = ctx ∧ ∀ q ctx, cv.parse L t q ctx = .ok (v, q, ctx) := by
  cases cv <;> first | cases hp | skip
  all_goals
    simp only [ValConv.parse, map_ok_iff] at h ⊢
    obtain ⟨x, hx, e⟩ := h
    simp only [Prod.mk.injEq] at e
    exact ⟨e.2.1.symm, e.2.2.symm, fun q ctx => ⟨x, hx, by rw [e.1]⟩⟩

theorem parseValues_plain {L : Lib} {cv : ValConv} (hp : cv.plain = true) {ts : List Str} {p : Params}
    {ctx ctx' : Ctx} {vals : List (Val σ × Params)} (h : parseValues L cv ts p ctx = .ok (vals, ctx')) :
    ctx' = ctx ∧ ∃ vs : List (Val σ), vals = vs.map (fun v => (v, setMerge p true)) ∧
      List.Forall₂ (fun t v => ∀ q ctx, cv.parse L t q ctx = .ok (v, q, ctx)) ts vs := by
  induction ts generalizing p ctx vals with
  | nil =>
    cases h
    exact ⟨rfl, [], rfl, .nil⟩
  | cons t ts ih =>
    simp only [parseValues, bind_ok_iff] at h
    obtain ⟨⟨v, p1, ctx1⟩, h1, ⟨r, ctx2⟩, h2, h⟩ := h
    dsimp only at h2 h
    obtain rfl : ctx2 = ctx' := by cases h; rfl
    obtain ⟨rfl, rfl, hv⟩ := parse_plain hp h1
    obtain ⟨e, vs, rfl, hf⟩ := ih h2
    cases h
    refine ⟨e, v :: vs, ?_, .cons hv hf⟩
    simp only [List.map_cons, setMerge_setMerge]

/-- The lists of converters of the multi-valued properties with plain values. -/
def plainLists : List (List ValConv) := [[.text], [.uri, .binary]]

theorem plain_write {L : Lib} {convs : List ValConv} (hc : convs ∈ plainLists) {cv : ValConv} (hcv : cv ∈ convs)
    {t : Str} {v : Val σ} (h : ∀ q ctx, cv.parse L t q ctx = .ok (v, q, ctx)) (p : Params) :
    findConverter convs p v =
      .ok (cv, if convs.head? = some cv then p else dictSet p "VALUE".toList [⟨false, cv.icsType⟩]) ∧
    ∀ q ctx, cv.serialize L v q ctx = .ok (canonText v, q, ctx) := by
  have k := h [] none
  have key : (cv = .text ∧ convs = [.text] ∧ ∃ s, v = .text s) ∨
      (cv = .uri ∧ convs = [.uri, .binary] ∧ ∃ u, v = .url u) ∨
      (cv = .binary ∧ convs = [.uri, .binary] ∧ ∃ b, v = .bytes b) := by
    simp only [plainLists, List.mem_cons, List.not_mem_nil, or_false] at hc
    rcases hc with rfl | rfl
    · obtain rfl := List.mem_singleton.1 hcv
      simp only [ValConv.parse, map_ok_iff] at k
      obtain ⟨x, _, e⟩ := k
      exact Or.inl ⟨rfl, rfl, x, (Prod.mk.inj e).1.symm⟩
    · simp only [List.mem_cons, List.not_mem_nil, or_false] at hcv
      rcases hcv with rfl | rfl
      all_goals
        simp only [ValConv.parse, map_ok_iff] at k
        obtain ⟨x, _, e⟩ := k
      · exact Or.inr (Or.inl ⟨rfl, rfl, x, (Prod.mk.inj e).1.symm⟩)
      · exact Or.inr (Or.inr ⟨rfl, rfl, x, (Prod.mk.inj e).1.symm⟩)
  rcases key with ⟨rfl, rfl, s, rfl⟩ | ⟨rfl, rfl, u, rfl⟩ | ⟨rfl, rfl, b, rfl⟩
  · exact ⟨rfl, fun _ _ => rfl⟩
  · exact ⟨rfl, fun _ _ => rfl⟩
  · exact ⟨rfl, fun _ _ => rfl⟩

/-- A line of plain values: what is read from it and what is written for it. -/
theorem plain_line {L : Lib} {s : AttrSpec} (hc : s.convs ∈ plainLists) {ctx : Ctx} {cl : ContentLine}
    {vals : List (Val σ × Params)} (h : ReadsLine L s ctx cl vals) (hm : mergeKey ∉ cl.params.map Prod.fst)
    (hu : UniqueKeys cl.params) :
    ∃ cv ∈ s.convs, ∃ (ts : List Str) (vs : List (Val σ)), cv.split cl.value = .done ts ∧ ts ≠ [] ∧
      vals.map Prod.fst = vs ∧ List.Forall₂ (fun t v => ∀ q ctx, cv.parse L t q ctx = .ok (v, q, ctx)) ts vs ∧
      prepareParams s.convs cl.params = .ok (dictErase cl.params "VALUE".toList, cv) ∧
      WritesBack L s (mkContentLine s.ics (if s.convs.head? = some cv then dictErase cl.params "VALUE".toList
        else dictSet (dictErase cl.params "VALUE".toList) "VALUE".toList [⟨false, cv.icsType⟩])
          (joinComma (vs.map canonText))) (markLast vals) := by
  obtain ⟨p, cv, ctx', hprep, hparse, herr⟩ := h
  have hp : p = dictErase cl.params "VALUE".toList ∧ cv ∈ s.convs := by
    unfold prepareParams at hprep
    dsimp only at hprep
    split at hprep
    · rw [map_ok_iff] at hprep
      obtain ⟨c, hf, e⟩ := hprep
      cases e
      unfold findByType at hf
      split at hf
      · rename_i hfind
        cases hf
        exact ⟨rfl, List.mem_of_find?_eq_some hfind⟩
      · cases hf
    · cases hprep
    · split at hprep
      · rename_i c _ e
        cases hprep
        exact ⟨rfl, e ▸ List.mem_cons_self⟩
      · cases hprep
  obtain ⟨rfl, hcv⟩ := hp
  have hplain : cv.plain = true := by
    have : ∀ convs ∈ plainLists, ∀ cv ∈ convs, cv.plain = true := by decide
    exact this _ hc _ hcv
  obtain ⟨_, vs, rfl, hf⟩ := parseValues_plain hplain hparse
  have hts : (cv.split cl.value).items ≠ [] := by
    obtain ⟨g, gs, hg⟩ := splitComma_ne cl.value
    cases cv
    case text =>
      have e : ValConv.split .text cl.value = splitTextFrom g gs := by
        rw [ValConv.split, splitTextList, hg]
      rw [e] at herr ⊢
      exact (splitTextFrom_join gs g).2.2 herr
    all_goals
      simp [ValConv.split, Gen.done, hg]
  refine ⟨cv, hcv, (cv.split cl.value).items, vs, ?_, hts, ?_, hf, hprep, ?_⟩
  · cases hs : cv.split cl.value with
    | mk items err =>
      rw [hs] at herr
      cases herr
      rfl
  · rw [List.map_map]
    exact List.map_id' vs
  · have hmk : mergeKey ∉ (dictErase cl.params "VALUE".toList).map Prod.fst := fun h =>
      hm (((dictErase_sublist _ _).map _).subset h)
    have huk : UniqueKeys (dictErase cl.params "VALUE".toList) := uniqueKeys_dictErase _ hu
    intro rest st
    refine (dumpGroup (cv := cv) hmk (q := if s.convs.head? = some cv then dictErase cl.params "VALUE".toList
        else dictSet (dictErase cl.params "VALUE".toList) "VALUE".toList [⟨false, cv.icsType⟩]) ?_
      (ts := vs.map canonText) ?_ ?_ none (Or.inl rfl) [] rest st)
    · split
      · exact huk
      · exact uniqueKeys_dictSet _ _ huk
    · rintro rfl
      exact hts (List.forall₂_nil_right_iff.1 hf)
    · rw [List.forall₂_map_right_iff, List.forall₂_same]
      intro v hv
      obtain ⟨t, _, ht⟩ := forall₂_mem hf v hv
      have := plain_write hc hcv ht (dictErase cl.params "VALUE".toList)
      exact ⟨this.1, this.2 _⟩

/-- Writing the values of all lines. -/
theorem dumpGroups {L : Lib} {s : AttrSpec} {cls : List ContentLine} {groups : List (List (Val σ × Params))}
    (h : List.Forall₂ (WritesBack L s) cls groups) (st : DState) :
    dumpMultiLoop L s groups.flatten none [] st = .ok (cls.map .line, st) := by
  induction h with
  | nil => rfl
  | cons h1 _ ih =>
    rw [List.flatten_cons, h1, ih]
    rfl

theorem zip_fst_snd {α β : Type} (l : List (α × β)) : (l.map Prod.fst).zip (l.map Prod.snd) = l := by
  induction l with
  | nil => rfl
  | cons x l ih => simp [ih]

theorem dumpMulti_groups {L : Lib} {s : AttrSpec} {o : Obj σ} {groups : List (List (Val σ × Params))}
    (ha : dictGet? o.attrs s.attr = some (.many (groups.flatten.map Prod.fst)))
    (hp : dictGet? o.extraParams (extraKey s.attr) =
        if groups.flatten = [] then none else some (.many (groups.flatten.map Prod.snd))) (st : DState) :
    dumpMulti L s o st = dumpMultiLoop L s groups.flatten none [] st := by
  unfold dumpMulti Obj.get
  rw [ha]
  have e : zipParams (groups.flatten.map Prod.fst) (dictGet? o.extraParams (extraKey s.attr)) = .ok groups.flatten := by
    rw [hp]
    split
    · rename_i e
      rw [e]
      rfl
    · rename_i e
      have e' : groups.flatten.map Prod.snd ≠ [] := fun h => e (List.map_eq_nil_iff.1 h)
      unfold zipParams
      dsimp only
      rw [if_neg e', if_neg (by rw [List.length_map, List.length_map]; exact fun h => h rfl), zip_fst_snd]
  show (zipParams _ _ >>= _) = _
  rw [e]
  rfl

/-! ### Attendees -/

theorem dictUpdate_nil {κ ν : Type} [DecidableEq κ] {d new : List (κ × ν)} (h : UniqueKeys (d ++ new)) :
    dictUpdate d new = d ++ new := by
  induction new generalizing d with
  | nil => simp [dictUpdate]
  | cons x new ih =>
    have hx : x.1 ∉ d.map Prod.fst := by
      intro hm
      unfold UniqueKeys at h
      rw [List.map_append, List.nodup_append] at h
      exact h.2.2 _ hm _ (by simp) rfl
    rw [dictUpdate, dictSet_new _ _ _ hx, ih]
    · simp
    · simpa using h

theorem splitComma_cases (s : Str) :
    (',' ∉ s ∧ splitComma s = [s]) ∨ (',' ∈ s ∧ ∃ a b r, splitComma s = a :: b :: r) := by
  induction s with
  | nil => exact Or.inl ⟨by simp, rfl⟩
  | cons c s ih =>
    by_cases hc : c = ','
    · right
      obtain ⟨g, gs, hg⟩ := splitComma_ne s
      exact ⟨by simp [hc], [], g, gs, by simp [splitComma, hc, hg]⟩
    · rcases ih with ⟨h1, h2⟩ | ⟨h1, a, b, r, h2⟩
      · left
        exact ⟨by simp [h1, Ne.symm hc], by simp [splitComma, hc, h2]⟩
      · right
        exact ⟨by simp [h1], c :: a, b, r, by simp [splitComma, hc, h2]⟩

theorem attendee_line {L : Lib} {s : AttrSpec} (hc : s.convs = [.attendee]) {ctx : Ctx} {cl : ContentLine}
    {vals : List (Val σ × Params)} (h : ReadsLine L s ctx cl vals) (hm : mergeKey ∉ cl.params.map Prod.fst)
    (hu : UniqueKeys cl.params) :
    prepareParams s.convs cl.params = .ok (dictErase cl.params "VALUE".toList, .attendee) ∧
    ((',' ∉ cl.value ∧ ∃ u, urlparse L.urlChecks cl.value = .ok u ∧
      vals.map Prod.fst = [.person true (.url u) (dictErase cl.params "VALUE".toList)] ∧
      WritesBack L s (mkContentLine s.ics (dictErase cl.params "VALUE".toList) u.geturl) (markLast vals)) ∨
    (',' ∈ cl.value ∧ ∀ rest st, dumpMultiLoop L s (markLast vals ++ rest) none [] st = .error .valueError)) := by
  obtain ⟨p, cv, ctx', hprep, hparse, _⟩ := h
  rw [hc] at hprep ⊢
  have hp : p = dictErase cl.params "VALUE".toList ∧ cv = .attendee := by
    unfold prepareParams at hprep
    dsimp only at hprep
    split at hprep
    · rw [map_ok_iff] at hprep
      obtain ⟨c, hf, e⟩ := hprep
      cases e
      unfold findByType at hf
      split at hf
      · rename_i hfind
        cases hf
        exact ⟨rfl, List.mem_singleton.1 (List.mem_of_find?_eq_some hfind)⟩
      · cases hf
    · cases hprep
    · cases hprep
      exact ⟨rfl, rfl⟩
  obtain ⟨rfl, rfl⟩ := hp
  refine ⟨hprep, ?_⟩
  have hmk : mergeKey ∉ (dictErase cl.params "VALUE".toList).map Prod.fst := fun h =>
    hm (((dictErase_sublist _ _).map _).subset h)
  have huk : UniqueKeys (dictErase cl.params "VALUE".toList) := uniqueKeys_dictErase _ hu
  have hupd : dictUpdate [] (dictErase cl.params "VALUE".toList) = dictErase cl.params "VALUE".toList :=
    dictUpdate_nil huk
  generalize dictErase cl.params "VALUE".toList = p at *
  have hfc : ∀ e x q, findConverter (σ := σ) s.convs q (.person true e x) = .ok (.attendee, q) := by
    intro e x q
    rw [hc]
    rfl
  have he : ∀ b, dictErase (setMerge [] b) mergeKey = [] := fun b => by
    rw [erase_setMerge]
    rfl
  rcases splitComma_cases cl.value with ⟨h1, h2⟩ | ⟨h1, a, b, r, h2⟩
  · left
    refine ⟨h1, ?_⟩
    simp only [ValConv.split, h2, Gen.done, parseValues, ValConv.parse, bind_ok_iff, map_ok_iff] at hparse
    obtain ⟨x, ⟨u, hurl, rfl⟩, y, ⟨rfl⟩, ⟨rfl⟩⟩ := hparse
    refine ⟨u, hurl, rfl, fun rest st => ?_⟩
    simp only [markLast, setMerge_setMerge, List.cons_append, List.nil_append, dumpMultiLoop, mergeNext_setMerge, he,
      hfc, ValConv.serialize, checkSame, bind, Except.bind, Bool.false_eq_true, if_false, hupd, Email.str?]
    cases dumpMultiLoop L s rest none [] st <;> rfl
  · right
    refine ⟨h1, fun rest st => ?_⟩
    simp only [ValConv.split, h2, Gen.done, parseValues, ValConv.parse, bind_ok_iff, map_ok_iff] at hparse
    obtain ⟨x, ⟨u, hurl, rfl⟩, y, ⟨x2, ⟨u2, hurl2, rfl⟩, y2, hrest, hy⟩, hvals⟩ := hparse
    obtain ⟨q, l, hl⟩ : ∃ q l, markLast vals = (.person true (.url u) p, setMerge [] true) ::
        (.person true (.url u2) (setMerge [] true), setMerge [] q) :: l := by
      cases hy
      cases hvals
      rw [markLast_cons_cons]
      cases y2.1 with
      | nil => exact ⟨_, _, rfl⟩
      | cons z zs => exact ⟨_, _, rfl⟩
    have hne : paramsEq p (dictUpdate [] (setMerge [] true)) = false := by
      have e : dictUpdate [] (setMerge [] true) = setMerge [] true := rfl
      rw [e, Bool.eq_false_iff]
      intro h
      simp only [paramsEq, Bool.and_eq_true, beq_iff_eq, List.all_eq_true] at h
      cases p with
      | nil => cases h.1
      | cons x p =>
        have := h.2 x List.mem_cons_self
        have hx : x.1 ≠ mergeKey := fun e => hmk (by simp [e])
        have e2 : dictGet? (setMerge [] true) x.1 = none := by
          unfold setMerge
          rw [dictGet_set_ne _ _ hx]
          rfl
        rw [e2] at this
        cases this
    rw [hl]
    simp only [List.cons_append, dumpMultiLoop, mergeNext_setMerge, he, hfc, ValConv.serialize, checkSame, bind,
      Except.bind, if_true, hupd, Option.getD_none, hne, raiseIf, Bool.not_false]

/-! ### What is written for a loaded component -/

theorem entry_dump_own {L : Lib} {c : Cls} (hc : c = .event ∨ c = .todo) {items : List Item}
    {zones : List (Str × Nat)} {o : EntryObj} {ctx' : Ctx} (h : loadEntry L c items (some zones) = .ok (o, ctx'))
    {st st' : DState} {i : Item} (hd : dumpEntry L o st = .ok (i, st')) :
    ∃ items', i = .cont c.icsName items' ∧
      ∀ cv ∈ c.convs, ∃ st1 st2, cv.dump L (dumpAlarm L) o st1 = .ok (cv.own items', st2) := by
  have k := loadObj_frame h
  have hms : MemStable L fun _ items ctx => loadAlarm L items ctx := fun _ items => loadAlarm_stable L items
  have hdn : DumpNamed (σ := Alarm) Obj.extraName (dumpAlarm L) := by
    intro m st i st' hmi
    obtain ⟨known, e, _⟩ := C38_write_alarm L m st st' i hmi
    exact ⟨_, e⟩
  have hmn : MembersNamed Obj.extraName o := by
    refine load_membersNamed hms rfl h ?_
    intro a n hcv is m ctx2 ha
    have e : n = "VALARM".toList := by
      have : ∀ cv ∈ c.convs, ∀ a n, cv = .member a n → n = "VALARM".toList := by
        rcases hc with rfl | rfl <;> simp [Cls.convs, entryConvs, attr1, attrN]
      exact this _ hcv a n rfl
    rw [e]
    exact (C38_alarm L is _ _ m ha).1
  obtain ⟨known, rfl, hk, hown⟩ := dumpObj_parts hdn hmn hd
  have e1 : o.cls = c := k.1
  rw [e1] at hk hown
  have hcu : c ≠ .customAlarm := by rcases hc with rfl | rfl <;> decide
  have htz : Conv.calendarTimezone ∉ c.convs := by rcases hc with rfl | rfl <;> decide
  refine ⟨known ++ o.extra, by rw [k.2.1], fun cv hcv => ?_⟩
  rw [own_append, k.2.2, own_extra hcv (fun e => htz (e ▸ hcv)), List.append_nil]
  exact hown hcu cv hcv

theorem alarm_dump_own {L : Lib} {items : List Item} {ctx ctx' : Ctx} {a : Alarm}
    (h : loadAlarm L items ctx = .ok (a, ctx')) (hc : a.cls ≠ .customAlarm)
    {st st' : DState} {i : Item} (hd : dumpAlarm L a st = .ok (i, st')) :
    ∃ items', i = .cont "VALARM".toList items' ∧
      ∀ cv ∈ a.cls.convs, ∃ st1 st2, cv.dump L (fun m _ => nomatch m) a st1 = .ok (cv.own items', st2) := by
  obtain ⟨h1, h2⟩ := C38_alarm L items ctx ctx' a h
  obtain ⟨known, rfl, hk, hown⟩ := dumpObj_parts (nameOf := fun _ => []) (fun m => nomatch m)
    (fun _ _ _ ms _ m => nomatch m) hd
  have htz : Conv.calendarTimezone ∉ a.cls.convs := by
    simp only [loadAlarm, bind_ok_iff] at h
    obtain ⟨i, _, h⟩ := h
    cases i with
    | cont n is => cases h
    | line cl =>
      rw [(loadObj_frame h).1]
      unfold alarmCls
      repeat' split
      all_goals decide
  refine ⟨known ++ a.extra, by rw [h1], fun cv hcv => ?_⟩
  rw [own_append, h2, own_extra hcv (fun e => htz (e ▸ hcv)), List.append_nil]
  exact hown hc cv hcv

/-! ### All lines of a property -/

/-- A loaded multi-valued property, given what each line becomes. -/
theorem load_lines {L : Lib} {mem : MemberLoad σ} (hmem : MemStable L mem) {c : Cls} {items : List Item}
    {zones : List (Str × Nat)} {o : Obj σ} {ctx1 : Ctx} (h : loadObj L mem c items (some zones) = .ok (o, ctx1))
    {s : AttrSpec} (hs : .value s ∈ c.convs) (hm : s.multi = true)
    {R : ContentLine → List (Val σ) → ContentLine → Prop}
    (hR : ∀ cl, .line cl ∈ items → cl.name = s.ics → ∀ vals : List (Val σ × Params), ReadsLine L s (some zones) cl vals →
      ∃ cl', R cl (vals.map Prod.fst) cl' ∧ WritesBack L s cl' (markLast vals)) :
    ∃ x : List (ContentLine × List (Val σ) × ContentLine), (∀ y ∈ x, R y.1 y.2.1 y.2.2) ∧
      Conv.own (.value s) items = x.map (fun y => .line y.1) ∧
      o.get s.attr = .many (x.map fun y => y.2.1).flatten ∧
      ∀ st, dumpMulti L s o st = .ok (x.map (fun y => .line y.2.2), st) := by
  obtain ⟨cls, groups, hown, hf, ha, hp⟩ := load_multi hmem rfl h hs hm
  have hd := fun st => dumpMulti_groups (L := L) (s := s) ha hp st
  have hin : ∀ cl ∈ cls, .line cl ∈ items ∧ cl.name = s.ics := by
    intro cl hcl
    have : Item.line cl ∈ Conv.own (.value s) items := by
      rw [hown]
      exact List.mem_map_of_mem hcl
    unfold Conv.own at this
    rw [List.mem_filter] at this
    refine ⟨this.1, ?_⟩
    have := of_decide_eq_true this.2
    exact List.mem_singleton.1 this
  have key : ∀ (cls : List ContentLine) (groups : List (List (Val σ × Params))),
      (∀ cl ∈ cls, .line cl ∈ items ∧ cl.name = s.ics) →
      List.Forall₂ (fun cl g => ∃ vals, ReadsLine L s (some zones) cl vals ∧ g = markLast vals) cls groups →
      ∃ x : List (ContentLine × List (Val σ) × ContentLine), (∀ y ∈ x, R y.1 y.2.1 y.2.2) ∧
        cls = x.map Prod.fst ∧ groups.map (List.map Prod.fst) = x.map (fun y => y.2.1) ∧
        List.Forall₂ (WritesBack L s) (x.map fun y => y.2.2) groups := by
    intro cls groups hin hf
    induction hf with
    | nil => exact ⟨[], by simp, rfl, rfl, .nil⟩
    | @cons cl g cls groups h1 _ ih =>
      obtain ⟨x, hx1, rfl, hx2, hx3⟩ := ih fun cl hcl => hin cl (List.mem_cons_of_mem _ hcl)
      obtain ⟨vals, hr, rfl⟩ := h1
      obtain ⟨cl', hR', hw⟩ := hR cl (hin cl List.mem_cons_self).1 (hin cl List.mem_cons_self).2 vals hr
      refine ⟨(cl, vals.map Prod.fst, cl') :: x, ?_, rfl, ?_, .cons hw hx3⟩
      · intro y hy
        rcases List.mem_cons.1 hy with rfl | hy
        · exact hR'
        · exact hx1 y hy
      · rw [List.map_cons, List.map_cons, hx2, markLast_fst]
  obtain ⟨x, hx1, rfl, hx2, hx3⟩ := key cls groups hin hf
  refine ⟨x, hx1, ?_, ?_, fun st => ?_⟩
  · rw [hown, List.map_map]
    rfl
  · unfold Obj.get
    rw [ha, ← hx2, List.map_flatten]
    rfl
  · rw [hd, dumpGroups hx3, List.map_map]
    rfl

end Ics
