import Verif.Proofs.Core

/-
Each converter reads and writes its own part of the component, so loading a component is loading, for
each converter separately, the lines that it handles.
-/
namespace Ics

variable {σ α β γ δ : Type}

/-- Two results of the same kind: the same error, or related values. -/
def ERel (R : α → β → Prop) : Except PyErr α → Except PyErr β → Prop
  | .ok a, .ok b => R a b
  | .error e, .error f => e = f
  | _, _ => False

theorem ERel.map {R : α → β → Prop} {S : γ → δ → Prop} {x : Except PyErr α} {y : Except PyErr β} {f : α → γ}
    {g : β → δ} (h : ERel R x y) (hf : ∀ a b, R a b → S (f a) (g b)) : ERel S (x.map f) (y.map g) := by
  cases x <;> cases y <;> simp only [ERel, Except.map] at h ⊢
  · exact h
  · exact hf _ _ h

theorem ERel.bind {R : α → β → Prop} {S : γ → δ → Prop} {x : Except PyErr α} {y : Except PyErr β}
    {f : α → Except PyErr γ} {g : β → Except PyErr δ} (h : ERel R x y)
    (hf : ∀ a b, R a b → ERel S (f a) (g b)) : ERel S (x >>= f) (y >>= g) := by
  cases x <;> cases y <;> simp only [ERel] at h
  · exact h
  · exact hf _ _ h

theorem ERel.same {R : α → α → Prop} (h : ∀ a, R a a) (x : Except PyErr α) : ERel R x x := by
  cases x
  · rfl
  · exact h _

theorem ERel.ok_left {R : α → β → Prop} {x : Except PyErr α} {y : Except PyErr β} (h : ERel R x y) {a : α}
    (hx : x = .ok a) : ∃ b, y = .ok b ∧ R a b := by
  subst hx
  cases y with
  | error e => cases h
  | ok b => exact ⟨b, rfl, h⟩

theorem ERel.error_left {R : α → β → Prop} {x : Except PyErr α} {y : Except PyErr β} (h : ERel R x y) {e : PyErr}
    (hx : x = .error e) : y = .error e := by
  subst hx
  cases y with
  | error f =>
    have : e = f := h
    rw [this]
  | ok b => cases h

theorem ERel.symm {R : α → β → Prop} {S : β → α → Prop} {x : Except PyErr α} {y : Except PyErr β}
    (h : ERel R x y) (hs : ∀ a b, R a b → S b a) : ERel S y x := by
  cases x <;> cases y <;> simp only [ERel] at h ⊢
  · exact h.symm
  · exact hs _ _ h

/-- The attributes that a converter reads and writes. -/
def Conv.attrKeys : Conv → List Str
  | .value s => [s.attr]
  | .member a _ => [a]
  | .timespan => ["timespan".toList]
  | .alarmAction => []
  | .calendarTimezone => []

/-- The entries of `extra_params` that a converter reads and writes. -/
def Conv.paramKeys : Conv → List Str
  | .value s => [extraKey s.attr]
  | .member a _ => [extraKey a]
  | .timespan => ["BEGIN".toList, "END".toList, "DUE".toList, "DURATION".toList, "DTEND".toList]
  | .alarmAction => ["ACTION".toList]
  | .calendarTimezone => []

/-- Two states agree on some attributes and parameters. -/
structure AgreeOn (A P : List Str) (sp : Bool) (a b : Core σ) : Prop where
  cls : a.obj.cls = b.obj.cls
  attrs : ∀ k ∈ A, dictGet? a.obj.attrs k = dictGet? b.obj.attrs k
  params : ∀ k ∈ P, dictGet? a.obj.extraParams k = dictGet? b.obj.extraParams k
  counts : ∀ k ∈ A, dictGet? a.counts k = dictGet? b.counts k
  span : sp = true → a.span = b.span

def Conv.isSpan : Conv → Bool
  | .timespan => true
  | _ => false

/-- Two states agree on what a converter reads and writes. -/
abbrev Agree (cv : Conv) (a b : Core σ) : Prop := AgreeOn cv.attrKeys cv.paramKeys cv.isSpan a b

theorem AgreeOn.refl {A P : List Str} {sp : Bool} (a : Core σ) : AgreeOn A P sp a a :=
  ⟨rfl, fun _ _ => rfl, fun _ _ => rfl, fun _ _ => rfl, fun _ => rfl⟩

theorem AgreeOn.symm {A P : List Str} {sp : Bool} {a b : Core σ} (h : AgreeOn A P sp a b) : AgreeOn A P sp b a :=
  ⟨h.cls.symm, fun k hk => (h.attrs k hk).symm, fun k hk => (h.params k hk).symm,
    fun k hk => (h.counts k hk).symm, fun hs => (h.span hs).symm⟩

theorem AgreeOn.trans {A P : List Str} {sp : Bool} {a b c : Core σ} (h : AgreeOn A P sp a b)
    (k : AgreeOn A P sp b c) : AgreeOn A P sp a c :=
  ⟨h.cls.trans k.cls, fun x hx => (h.attrs x hx).trans (k.attrs x hx),
    fun x hx => (h.params x hx).trans (k.params x hx), fun x hx => (h.counts x hx).trans (k.counts x hx),
    fun hs => (h.span hs).trans (k.span hs)⟩

theorem keep_agree {A P : List Str} {sp : Bool} (c : Core σ) (item : Item) : AgreeOn A P sp c (c.keep item) := by
  unfold Core.keep
  split <;> exact ⟨rfl, fun _ _ => rfl, fun _ _ => rfl, fun _ _ => rfl, fun _ => rfl⟩

theorem dictGet_set_congr {κ ν : Type} [DecidableEq κ] {d d' : List (κ × ν)} {k k' : κ} (v : ν)
    (h : dictGet? d k' = dictGet? d' k') : dictGet? (dictSet d k v) k' = dictGet? (dictSet d' k v) k' := by
  rw [dictGet_set_eq, dictGet_set_eq, h]

theorem dictGet_setExtraParams (o : Obj σ) (n : Str) (p : Params) (k : Str) :
    dictGet? (o.setExtraParams n p).extraParams k =
      if p ≠ [] ∧ k = extraKey n then some (.one p) else dictGet? o.extraParams k := by
  unfold Obj.setExtraParams
  by_cases hp : p = []
  · rw [if_pos hp, if_neg fun h => h.1 hp]
  · rw [if_neg hp]
    dsimp only
    rw [dictGet_set_eq]
    by_cases hk : k = extraKey n
    · rw [if_pos hk, if_pos ⟨hp, hk⟩]
    · rw [if_neg hk, if_neg fun h => hk h.2]

theorem setExtraParams_attrs (o : Obj σ) (n : Str) (p : Params) : (o.setExtraParams n p).attrs = o.attrs := by
  unfold Obj.setExtraParams
  split <;> rfl

theorem setExtraParams_cls (o : Obj σ) (n : Str) (p : Params) : (o.setExtraParams n p).cls = o.cls := by
  unfold Obj.setExtraParams
  split <;> rfl

/-! ### A converter depends on its own part only -/

theorem appendAll_congr {n : Str} {A P : List Str} (hA : n ∈ A) (hP : extraKey n ∈ P) {l : List (Val σ × Params)}
    {o o' : Obj σ} (hc : o.cls = o'.cls) (ha : ∀ k ∈ A, dictGet? o.attrs k = dictGet? o'.attrs k)
    (hp : ∀ k ∈ P, dictGet? o.extraParams k = dictGet? o'.extraParams k) :
    ERel (fun x y : Obj σ => x.cls = y.cls ∧ (∀ k ∈ A, dictGet? x.attrs k = dictGet? y.attrs k) ∧
      ∀ k ∈ P, dictGet? x.extraParams k = dictGet? y.extraParams k) (o.appendAll n l) (o'.appendAll n l) := by
  induction l generalizing o o' with
  | nil => exact ⟨hc, ha, hp⟩
  | cons x l ih =>
    obtain ⟨v, p⟩ := x
    simp only [Obj.appendAll]
    refine ERel.bind (R := fun x y : Obj σ => x.cls = y.cls ∧ (∀ k ∈ A, dictGet? x.attrs k = dictGet? y.attrs k) ∧
      ∀ k ∈ P, dictGet? x.extraParams k = dictGet? y.extraParams k) ?_ fun o1 o1' h1 => ?_
    · unfold Obj.appendExtraParams
      rw [hp _ hP]
      split
      · exact ⟨hc, ha, fun k hk => dictGet_set_congr _ (hp k hk)⟩
      · exact ⟨hc, ha, fun k hk => dictGet_set_congr _ (hp k hk)⟩
      · rfl
    · obtain ⟨hc1, ha1, hp1⟩ := h1
      refine ERel.bind (R := fun x y : Obj σ => x.cls = y.cls ∧ (∀ k ∈ A, dictGet? x.attrs k = dictGet? y.attrs k) ∧
        ∀ k ∈ P, dictGet? x.extraParams k = dictGet? y.extraParams k) ?_ fun o2 o2' h2 => ih h2.1 h2.2.1 h2.2.2
      unfold Obj.appendValue Obj.get
      rw [ha1 _ hA]
      split
      · exact ⟨hc1, fun k hk => dictGet_set_congr _ (ha1 k hk), hp1⟩
      · exact ⟨hc1, fun k hk => dictGet_set_congr _ (ha1 k hk), hp1⟩
      · rfl

theorem AgreeOn.count {A P : List Str} {sp : Bool} {a b : Core σ} (h : AgreeOn A P sp a b) {k : Str} (hk : k ∈ A) :
    a.count k = b.count k := by
  unfold Core.count
  rw [h.counts k hk]

theorem pre_congr {cv : Conv} {item : Item} {a b : Core σ} (h : Agree cv a b) : preConv cv item a = preConv cv item b := by
  unfold preConv
  cases cv with
  | value s => cases item <;> simp only [h.count (show s.attr ∈ _ from List.mem_singleton_self _)]
  | member x y => cases item <;> rfl
  | timespan => cases item <;> simp only [h.span rfl]
  | alarmAction => cases item <;> rfl
  | calendarTimezone => cases item <;> rfl

theorem store_congr {L : Lib} {cv : Conv} {item : Item} {d : Delta σ} {a b : Core σ} (h : Agree cv a b) :
    ERel (Agree cv) (storeConv L cv item d a) (storeConv L cv item d b) := by
  unfold storeConv
  split
  · rename_i s cl v p
    split
    · rfl
    unfold storeSingle Obj.setattr
    refine ERel.map (R := fun x y : Obj σ => x.cls = y.cls ∧ dictGet? x.attrs s.attr = dictGet? y.attrs s.attr ∧
      dictGet? x.extraParams (extraKey s.attr) = dictGet? y.extraParams (extraKey s.attr)) ?_ ?_
    · refine ERel.map (ERel.same (R := fun x y => x = y) (fun _ => rfl) _) ?_
      rintro v' _ rfl
      dsimp only
      refine ⟨?_, ?_, ?_⟩
      · rw [setExtraParams_cls, setExtraParams_cls, h.cls]
      · rw [setExtraParams_attrs, setExtraParams_attrs]
        exact dictGet_set_congr _ (h.attrs _ (List.mem_singleton_self _))
      · rw [dictGet_setExtraParams, dictGet_setExtraParams, h.params _ (List.mem_singleton_self _)]
    · rintro x y ⟨h1, h2, h3⟩
      refine ⟨h1, ?_, ?_, ?_, fun hs => absurd hs (by simp [Conv.isSpan])⟩
      · intro k hk
        obtain rfl := List.mem_singleton.1 hk
        exact h2
      · intro k hk
        obtain rfl := List.mem_singleton.1 hk
        exact h3
      · intro k hk
        obtain rfl := List.mem_singleton.1 hk
        dsimp only
        rw [dictGet_set_eq, dictGet_set_eq, if_pos rfl, if_pos rfl, h.count (List.mem_singleton_self _)]
  · rename_i s cl l
    split
    swap
    · rfl
    unfold storeMulti
    refine ERel.map (appendAll_congr (A := [s.attr]) (P := [extraKey s.attr]) (List.mem_singleton_self _)
      (List.mem_singleton_self _) h.cls h.attrs h.params) ?_
    rintro x y ⟨h1, h2, h3⟩
    refine ⟨h1, h2, h3, ?_, fun hs => absurd hs (by simp [Conv.isSpan])⟩
    intro k hk
    obtain rfl := List.mem_singleton.1 hk
    dsimp only
    rw [dictGet_set_eq, dictGet_set_eq, if_pos rfl, if_pos rfl, h.count (List.mem_singleton_self _)]
  · rename_i attr n name items m
    refine ERel.map (R := fun x y : Obj σ => x.cls = y.cls ∧ dictGet? x.attrs attr = dictGet? y.attrs attr ∧
      x.extraParams = a.obj.extraParams ∧ y.extraParams = b.obj.extraParams) ?_ ?_
    · have ha := h.attrs attr (List.mem_singleton_self _)
      unfold Obj.appendValue Obj.get
      rw [ha]
      split
      · exact ⟨h.cls, dictGet_set_congr _ ha, rfl, rfl⟩
      · exact ⟨h.cls, dictGet_set_congr _ ha, rfl, rfl⟩
      · rfl
    · rintro x y ⟨h1, h2, h3, h4⟩
      refine ⟨h1, ?_, ?_, h.counts, fun hs => absurd hs (by simp [Conv.isSpan])⟩
      · intro k hk
        obtain rfl := List.mem_singleton.1 hk
        exact h2
      · intro k hk
        dsimp only
        rw [h3, h4]
        exact h.params k hk
  · rename_i cl v prec p
    unfold storeSpanTime
    rw [h.span rfl]
    refine ERel.bind (R := fun _ _ => True) (ERel.same (fun _ => trivial) _) fun _ _ _ => ?_
    split
    · refine ⟨?_, ?_, ?_, h.counts, fun _ => rfl⟩
      · dsimp only
        rw [setExtraParams_cls, setExtraParams_cls, h.cls]
      · intro k hk
        dsimp only
        rw [setExtraParams_attrs, setExtraParams_attrs, h.attrs k hk]
      · intro k hk
        dsimp only
        rw [dictGet_setExtraParams, dictGet_setExtraParams, h.params k hk]
    · refine ⟨?_, ?_, ?_, h.counts, fun _ => rfl⟩
      · dsimp only
        rw [setExtraParams_cls, setExtraParams_cls, h.cls]
      · intro k hk
        dsimp only
        rw [setExtraParams_attrs, setExtraParams_attrs, h.attrs k hk]
      · intro k hk
        dsimp only
        rw [dictGet_setExtraParams, dictGet_setExtraParams, h.params k hk]
  · unfold storeSpanDur
    rw [h.span rfl]
    refine ⟨?_, ?_, ?_, h.counts, fun _ => rfl⟩
    · dsimp only
      rw [setExtraParams_cls, setExtraParams_cls, h.cls]
    · intro k hk
      dsimp only
      rw [setExtraParams_attrs, setExtraParams_attrs, h.attrs k hk]
    · intro k hk
      dsimp only
      rw [dictGet_setExtraParams, dictGet_setExtraParams, h.params k hk]
  · rename_i cl
    unfold storeAction
    rw [h.cls]
    split
    · rfl
    · split
      · exact h
      · refine ⟨h.cls, h.attrs, ?_, h.counts, h.span⟩
        intro k hk
        exact dictGet_set_congr _ (h.params k hk)
  · exact h
  · rfl

theorem coreConv_congr {L : Lib} {rd : Reading σ} {cv : Conv} {item : Item} {a b : Core σ} (h : Agree cv a b) :
    ERel (Agree cv) (coreConv L rd cv item a) (coreConv L rd cv item b) := by
  unfold coreConv
  rw [pre_congr h]
  refine ERel.bind (R := fun _ _ => True) (ERel.same (fun _ => trivial) _) fun _ _ _ => ?_
  refine ERel.bind (R := fun x y => x = y) (ERel.same (fun _ => rfl) _) ?_
  rintro d _ rfl
  exact store_congr h

/-! ### A converter changes its own part only -/

/-- Nothing changed but what a converter writes. -/
structure Outside (cv : Conv) (a b : Core σ) : Prop where
  cls : a.obj.cls = b.obj.cls
  attrs : ∀ k, k ∉ cv.attrKeys → dictGet? b.obj.attrs k = dictGet? a.obj.attrs k
  params : ∀ k, k ∉ cv.paramKeys → dictGet? b.obj.extraParams k = dictGet? a.obj.extraParams k
  counts : ∀ k, k ∉ cv.attrKeys → dictGet? b.counts k = dictGet? a.counts k
  span : cv.isSpan = false → b.span = a.span

theorem Outside.refl {cv : Conv} (a : Core σ) : Outside cv a a :=
  ⟨rfl, fun _ _ => rfl, fun _ _ => rfl, fun _ _ => rfl, fun _ => rfl⟩

theorem appendAll_outside {n : Str} {l : List (Val σ × Params)} {o o' : Obj σ} (h : o.appendAll n l = .ok o') :
    (∀ k, k ≠ n → dictGet? o'.attrs k = dictGet? o.attrs k) ∧
      ∀ k, k ≠ extraKey n → dictGet? o'.extraParams k = dictGet? o.extraParams k := by
  induction l generalizing o with
  | nil => cases h; exact ⟨fun _ _ => rfl, fun _ _ => rfl⟩
  | cons x l ih =>
    obtain ⟨v, p⟩ := x
    simp only [Obj.appendAll, bind_ok_iff] at h
    obtain ⟨o1, h1, o2, h2, h3⟩ := h
    have i := ih h3
    have a1 : o1.attrs = o.attrs ∧ ∀ k, k ≠ extraKey n → dictGet? o1.extraParams k = dictGet? o.extraParams k := by
      unfold Obj.appendExtraParams at h1
      split at h1 <;> cases h1 <;> exact ⟨rfl, fun k hk => dictGet_set_ne _ _ hk⟩
    have a2 : o2.extraParams = o1.extraParams ∧ ∀ k, k ≠ n → dictGet? o2.attrs k = dictGet? o1.attrs k := by
      unfold Obj.appendValue at h2
      split at h2 <;> cases h2 <;> exact ⟨rfl, fun k hk => dictGet_set_ne _ _ hk⟩
    refine ⟨fun k hk => ?_, fun k hk => ?_⟩
    · rw [i.1 k hk, a2.2 k hk, a1.1]
    · rw [i.2 k hk, a2.1, a1.2 k hk]

theorem span_extraKeys : extraKey "begin".toList = "BEGIN".toList ∧ extraKey "end".toList = "END".toList ∧
    extraKey "due".toList = "DUE".toList ∧ extraKey "duration".toList = "DURATION".toList := by decide

theorem setExtraParams_span_outside {o : Obj σ} {n : Str} {p : Params} {k : Str}
    (hn : n = "begin".toList ∨ n = "end".toList ∨ n = "due".toList ∨ n = "duration".toList)
    (hk : k ∉ Conv.timespan.paramKeys) :
    dictGet? (o.setExtraParams n p).extraParams k = dictGet? o.extraParams k := by
  rw [dictGet_setExtraParams, if_neg]
  rintro ⟨-, rfl⟩
  apply hk
  rcases hn with rfl | rfl | rfl | rfl <;> decide

theorem store_outside {L : Lib} {cv : Conv} {item : Item} {d : Delta σ} {a b : Core σ}
    (h : storeConv L cv item d a = .ok b) : Outside cv a b := by
  unfold storeConv at h
  split at h
  · rename_i s cl v p
    split at h
    · cases h
    simp only [storeSingle, Obj.setattr, map_ok_iff] at h
    obtain ⟨o, ⟨v', _, rfl⟩, rfl⟩ := h
    refine ⟨(setExtraParams_cls _ _ _).symm, ?_, ?_, ?_, fun _ => rfl⟩
    · intro k hk
      dsimp only
      rw [dictGet_set_ne _ _ fun e => hk (List.mem_singleton.2 e), setExtraParams_attrs]
    · intro k hk
      dsimp only
      rw [dictGet_setExtraParams, if_neg fun e => hk (List.mem_singleton.2 e.2)]
    · intro k hk
      exact dictGet_set_ne _ _ fun e => hk (List.mem_singleton.2 e)
  · rename_i s cl l
    split at h
    swap
    · cases h
    simp only [storeMulti, map_ok_iff] at h
    obtain ⟨o, ho, rfl⟩ := h
    have i := appendAll_outside ho
    refine ⟨(appendAll_frame ho).1.symm, ?_, ?_, ?_, fun _ => rfl⟩
    · exact fun k hk => i.1 k fun e => hk (List.mem_singleton.2 e)
    · exact fun k hk => i.2 k fun e => hk (List.mem_singleton.2 e)
    · exact fun k hk => dictGet_set_ne _ _ fun e => hk (List.mem_singleton.2 e)
  · rename_i attr n name items m
    rw [map_ok_iff] at h
    obtain ⟨o, ho, rfl⟩ := h
    unfold Obj.appendValue at ho
    split at ho <;> cases ho <;>
      exact ⟨rfl, fun k hk => dictGet_set_ne _ _ fun e => hk (List.mem_singleton.2 e), fun _ _ => rfl,
        fun _ _ => rfl, fun _ => rfl⟩
  · rename_i cl v prec p
    simp only [storeSpanTime, bind_ok_iff] at h
    obtain ⟨_, _, h⟩ := h
    split at h
    · cases h
      refine ⟨(setExtraParams_cls _ _ _).symm, ?_, ?_, fun _ _ => rfl, fun hs => absurd hs (by simp [Conv.isSpan])⟩
      · intro k _
        dsimp only
        rw [setExtraParams_attrs]
      · intro k hk
        exact setExtraParams_span_outside (Or.inl rfl) hk
    · cases h
      refine ⟨(setExtraParams_cls _ _ _).symm, ?_, ?_, fun _ _ => rfl, fun hs => absurd hs (by simp [Conv.isSpan])⟩
      · intro k _
        dsimp only
        rw [setExtraParams_attrs]
      · intro k hk
        refine setExtraParams_span_outside ?_ hk
        split
        · exact Or.inr (Or.inr (Or.inl rfl))
        · exact Or.inr (Or.inl rfl)
  · cases h
    refine ⟨(setExtraParams_cls _ _ _).symm, ?_, ?_, fun _ _ => rfl, fun hs => absurd hs (by simp [Conv.isSpan])⟩
    · intro k _
      show dictGet? (Obj.setExtraParams _ _ _).attrs k = _
      rw [setExtraParams_attrs]
    · intro k hk
      exact setExtraParams_span_outside (Or.inr (Or.inr (Or.inr rfl))) hk
  · rename_i cl
    unfold storeAction at h
    split at h
    · cases h
    · split at h
      · cases h
        exact .refl _
      · cases h
        exact ⟨rfl, fun _ _ => rfl, fun k hk => dictGet_set_ne _ _ fun e => hk (List.mem_singleton.2 e),
          fun _ _ => rfl, fun _ => rfl⟩
  · cases h
    exact .refl _
  · cases h

theorem coreConv_outside {L : Lib} {rd : Reading σ} {cv : Conv} {item : Item} {a b : Core σ}
    (h : coreConv L rd cv item a = .ok b) : Outside cv a b := by
  simp only [coreConv, bind_ok_iff] at h
  obtain ⟨_, _, d, _, h⟩ := h
  exact store_outside h

/-- Different converters of a class have different attributes, parameters and so on. -/
theorem footprints_disjoint (c : Cls) : ∀ cv ∈ c.convs, ∀ cv' ∈ c.convs, cv ≠ cv' →
    (∀ k ∈ cv'.attrKeys, k ∉ cv.attrKeys) ∧ (∀ k ∈ cv'.paramKeys, k ∉ cv.paramKeys) ∧
      (cv'.isSpan = true → cv.isSpan = false) := by
  cases c <;> decide +kernel

theorem convs_nodup (c : Cls) : c.convs.Nodup := by
  cases c <;> decide +kernel

theorem Outside.agree {c : Cls} {cv cv' : Conv} (h : cv ∈ c.convs) (h' : cv' ∈ c.convs) (hne : cv ≠ cv')
    {a b : Core σ} (ho : Outside cv a b) : Agree cv' a b := by
  obtain ⟨h1, h2, h3⟩ := footprints_disjoint c cv h cv' h' hne
  exact ⟨ho.cls, fun k hk => (ho.attrs k (h1 k hk)).symm, fun k hk => (ho.params k (h2 k hk)).symm,
    fun k hk => (ho.counts k (h1 k hk)).symm, fun hs => (ho.span (h3 hs)).symm⟩

/-! ### Decomposition -/

/-- The items that a converter handles. -/
def Conv.own (cv : Conv) (items : List Item) : List Item := items.filter fun i => i.name ∈ cv.names

/-- Populate with one converter only. -/
def foldConv (L : Lib) (rd : Reading σ) (cv : Conv) : List Item → Core σ → Except PyErr (Core σ)
  | [], c => .ok c
  | i :: is, c => coreConv L rd cv i c >>= foldConv L rd cv is

theorem foldConv_congr {L : Lib} {rd : Reading σ} {cv : Conv} {items : List Item} {a b : Core σ} (h : Agree cv a b) :
    ERel (Agree cv) (foldConv L rd cv items a) (foldConv L rd cv items b) := by
  induction items generalizing a b with
  | nil => exact h
  | cons i is ih => exact ERel.bind (coreConv_congr h) fun _ _ => ih

theorem coreConvs_agree {L : Lib} {rd : Reading σ} {c : Cls} {item : Item} {cvs : List Conv}
    (hsub : ∀ cv ∈ cvs, cv ∈ c.convs) (hnd : cvs.Nodup) {a a' : Core σ}
    (h : coreConvs L rd item cvs a = .ok a') {cv : Conv} (hcv : cv ∈ c.convs) :
    (cv ∈ cvs → ∃ b, coreConv L rd cv item a = .ok b ∧ Agree cv b a') ∧ (cv ∉ cvs → Agree cv a a') := by
  induction cvs generalizing a with
  | nil =>
    cases h
    exact ⟨fun h => (by simp at h), fun _ => .refl _⟩
  | cons x cvs ih =>
    simp only [coreConvs, bind_ok_iff] at h
    obtain ⟨a1, h1, h2⟩ := h
    have i := ih (fun y hy => hsub y (List.mem_cons_of_mem _ hy)) (List.nodup_cons.1 hnd).2 h2
    have hx : x ∉ cvs := (List.nodup_cons.1 hnd).1
    by_cases e : cv = x
    · subst e
      refine ⟨fun _ => ⟨a1, h1, i.2 hx⟩, fun h => absurd (List.mem_cons_self) h⟩
    · have ag : Agree cv a a1 :=
        (coreConv_outside h1).agree (hsub x List.mem_cons_self) hcv (Ne.symm e)
      refine ⟨fun hm => ?_, fun hm => ag.trans (i.2 fun h => hm (List.mem_cons_of_mem _ h))⟩
      have hm' : cv ∈ cvs := (List.mem_cons.1 hm).resolve_left e
      obtain ⟨b, hb, hb'⟩ := i.1 hm'
      obtain ⟨b', hb1, hb2⟩ := (coreConv_congr (L := L) (rd := rd) (item := item) ag.symm).ok_left hb
      exact ⟨b', hb1, hb2.symm.trans hb'⟩

theorem lookup_nodup (c : Cls) (n : Str) : (c.lookup n).Nodup := (convs_nodup c).filter _

theorem coreItem_agree {L : Lib} {rd : Reading σ} {item : Item} {a a' : Core σ}
    (h : coreItem L rd item a = .ok a') {cv : Conv} (hcv : cv ∈ a.obj.cls.convs) :
    (item.name ∈ cv.names → ∃ b, coreConv L rd cv item a = .ok b ∧ Agree cv b a') ∧
      (item.name ∉ cv.names → Agree cv a a') := by
  rw [coreItem, map_ok_iff] at h
  obtain ⟨a1, h1, rfl⟩ := h
  have i := coreConvs_agree (fun cv h => (lookup_mem.1 h).1) (lookup_nodup _ _) h1 hcv
  refine ⟨fun hn => ?_, fun hn => ?_⟩
  · obtain ⟨b, hb, hb'⟩ := i.1 (lookup_mem.2 ⟨hcv, hn⟩)
    exact ⟨b, hb, hb'.trans (keep_agree _ _)⟩
  · exact (i.2 fun h => hn (lookup_mem.1 h).2).trans (keep_agree _ _)

/-- Loading is, for each converter, loading with that converter only. -/
theorem coreItems_agree {L : Lib} {rd : Reading σ} {items : List Item} {a a' : Core σ}
    (h : coreItems L rd items a = .ok a') {cv : Conv} (hcv : cv ∈ a.obj.cls.convs) :
    ∃ b, foldConv L rd cv (cv.own items) a = .ok b ∧ Agree cv b a' := by
  induction items generalizing a with
  | nil =>
    cases h
    exact ⟨_, rfl, .refl _⟩
  | cons i is ih =>
    simp only [coreItems, bind_ok_iff] at h
    obtain ⟨a1, h1, h2⟩ := h
    have k := coreItem_agree h1 hcv
    obtain ⟨b, hb, hb'⟩ := ih h2 (by rw [coreItem_cls h1]; exact hcv)
    unfold Conv.own
    rw [List.filter_cons]
    by_cases hn : i.name ∈ cv.names
    · rw [if_pos (by simpa using hn)]
      obtain ⟨d, hd, hd'⟩ := k.1 hn
      obtain ⟨b', hb1, hb2⟩ := (foldConv_congr (L := L) (rd := rd) (items := cv.own is) hd'.symm).ok_left hb
      refine ⟨b', ?_, hb2.symm.trans hb'⟩
      simp only [foldConv, hd]
      exact hb1
    · rw [if_neg (by simpa using hn)]
      obtain ⟨b', hb1, hb2⟩ := (foldConv_congr (L := L) (rd := rd) (items := cv.own is) (k.2 hn).symm).ok_left hb
      exact ⟨b', hb1, hb2.symm.trans hb'⟩

theorem coreConvs_ok {L : Lib} {rd : Reading σ} {c : Cls} {item : Item} {cvs : List Conv}
    (hsub : ∀ cv ∈ cvs, cv ∈ c.convs) (hnd : cvs.Nodup) {a : Core σ}
    (h : ∀ cv ∈ cvs, ∃ b, coreConv L rd cv item a = .ok b) : ∃ a', coreConvs L rd item cvs a = .ok a' := by
  induction cvs generalizing a with
  | nil => exact ⟨a, rfl⟩
  | cons x cvs ih =>
    obtain ⟨a1, h1⟩ := h x List.mem_cons_self
    have hx : x ∉ cvs := (List.nodup_cons.1 hnd).1
    simp only [coreConvs, h1]
    refine ih (fun y hy => hsub y (List.mem_cons_of_mem _ hy)) (List.nodup_cons.1 hnd).2 fun cv hm => ?_
    have ag : Agree cv a a1 := (coreConv_outside h1).agree (hsub x List.mem_cons_self)
      (hsub cv (List.mem_cons_of_mem _ hm)) fun e => hx (e ▸ hm)
    obtain ⟨b, hb⟩ := h cv (List.mem_cons_of_mem _ hm)
    obtain ⟨b', hb1, _⟩ := (coreConv_congr (L := L) (rd := rd) (item := item) ag).ok_left hb
    exact ⟨b', hb1⟩

/-- Conversely, loading succeeds if it does for each converter. -/
theorem coreItems_ok {L : Lib} {rd : Reading σ} {items : List Item} {a : Core σ}
    (h : ∀ cv ∈ a.obj.cls.convs, ∃ b, foldConv L rd cv (cv.own items) a = .ok b) :
    ∃ a', coreItems L rd items a = .ok a' := by
  induction items generalizing a with
  | nil => exact ⟨a, rfl⟩
  | cons i is ih =>
    have h1 : ∃ a1, coreItem L rd i a = .ok a1 := by
      obtain ⟨a1, h1⟩ := coreConvs_ok (L := L) (rd := rd) (c := a.obj.cls) (item := i)
        (fun cv h => (lookup_mem.1 h).1) (lookup_nodup _ i.name) (a := a) fun cv hm => by
          obtain ⟨h1, h2⟩ := lookup_mem.1 hm
          obtain ⟨b, hb⟩ := h cv h1
          unfold Conv.own at hb
          rw [List.filter_cons, if_pos (by simpa using h2)] at hb
          simp only [foldConv, bind_ok_iff] at hb
          obtain ⟨d, hd, _⟩ := hb
          exact ⟨d, hd⟩
      exact ⟨_, by rw [coreItem, h1]; rfl⟩
    obtain ⟨a1, h1⟩ := h1
    simp only [coreItems, h1]
    refine ih fun cv hcv => ?_
    have hcv' : cv ∈ a.obj.cls.convs := coreItem_cls h1 ▸ hcv
    have k := coreItem_agree h1 hcv'
    obtain ⟨b, hb⟩ := h cv hcv'
    unfold Conv.own at hb
    rw [List.filter_cons] at hb
    by_cases hn : i.name ∈ cv.names
    · rw [if_pos (by simpa using hn)] at hb
      simp only [foldConv, bind_ok_iff] at hb
      obtain ⟨d, hd, hb⟩ := hb
      obtain ⟨d', hd', hd2⟩ := k.1 hn
      cases hd.symm.trans hd'
      obtain ⟨b', hb1, _⟩ := (foldConv_congr (L := L) (rd := rd) (items := cv.own is) hd2).ok_left hb
      exact ⟨b', hb1⟩
    · rw [if_neg (by simpa using hn)] at hb
      obtain ⟨b', hb1, _⟩ := (foldConv_congr (L := L) (rd := rd) (items := cv.own is) (k.2 hn)).ok_left hb
      exact ⟨b', hb1⟩

end Ics
