import Verif.Spec.Person
import Verif.Spec.Unquote
import Verif.Proofs.Tree
import Verif.Proofs.Lists

namespace Ics

theorem param_inj {a b : PersonAttr} (h : a.param = b.param) : a = b := by
  cases a <;> cases b <;> first | rfl | (exact absurd h (by decide +kernel))

theorem param_ne {a b : PersonAttr} (h : a ≠ b) : a.param ≠ b.param := fun e => h (param_inj e)

theorem personGet_congr (k : UrlChecks) {x y : Params} {a : PersonAttr}
    (h : dictGet? x a.param = dictGet? y a.param) : personGet k x a = personGet k y a := by
  unfold personGet
  rw [h]

theorem personSet_shape {extra extra' : Params} {a : PersonAttr} {d : PropData}
    (h : personSet extra a d = .ok extra') : ∃ ps, extra' = dictSet extra a.param ps := by
  unfold personSet at h
  split at h
  · cases h1 : d.iter with
    | error e => rw [h1] at h; cases h
    | ok vs =>
      rw [h1] at h
      dsimp only [bind, Except.bind] at h
      cases h2 : eachM a.conv.serialize vs with
      | error e => rw [h2] at h; cases h
      | ok ps => rw [h2] at h; cases h; exact ⟨ps, rfl⟩
  · cases d with
    | null =>
      dsimp only at h
      split at h
      · cases h
      · cases h
      · cases h; exact ⟨_, rfl⟩
    | many vs =>
      dsimp only at h
      split at h
      · cases h
      · cases h
      · cases h; exact ⟨_, rfl⟩
    | one v =>
      dsimp only [bind, Except.bind] at h
      cases h2 : a.conv.serialize v with
      | error e => rw [h2] at h; cases h
      | ok p => rw [h2] at h; cases h; exact ⟨_, rfl⟩

theorem bool_trip (b : Bool) : boolParse (boolSerialize b) = .ok b := by cases b <;> decide +kernel

/-- A fitting value is stored as something that reads as that value. -/
theorem fits_trip {k : UrlChecks} {c : PConv} {v : PropVal} (h : v.Fits k c) :
    ∃ p, c.serialize v = .ok p ∧ c.parse k p = .ok v := by
  cases c with
  | raw =>
    cases v with
    | text p => exact ⟨p, rfl, rfl⟩
    | _ => exact absurd h (by simp [PropVal.Fits])
  | boolean =>
    cases v with
    | bool b => exact ⟨_, rfl, by simp only [PConv.parse, bool_trip]; rfl⟩
    | _ => exact absurd h (by simp [PropVal.Fits])
  | uri =>
    cases v with
    | url u =>
      refine ⟨_, rfl, ?_⟩
      have h' : urlparse k u.geturl = .ok u := h
      show (urlparse k u.geturl).map PropVal.url = _
      rw [h']; rfl
    | _ => exact absurd h (by simp [PropVal.Fits])

theorem eachM_trip {α β : Type} {f : α → Except PyErr β} {g : β → Except PyErr α} {l : List α}
    (h : ∀ a ∈ l, ∃ b, f a = .ok b ∧ g b = .ok a) :
    ∃ bs, eachM f l = .ok bs ∧ eachM g bs = .ok l := by
  induction l with
  | nil => exact ⟨[], rfl, rfl⟩
  | cons a l ih =>
    obtain ⟨b, h1, h2⟩ := h a (List.mem_cons_self ..)
    obtain ⟨bs, h3, h4⟩ := ih fun x hx => h x (List.mem_cons_of_mem _ hx)
    exact ⟨b :: bs, by simp [eachM, h1, h3, bind, Except.bind], by simp [eachM, h2, h4, bind, Except.bind]⟩

theorem get_set_self {k : UrlChecks} {extra : Params} {a : PersonAttr} {d : PropData}
    (h : (PersonOp.set a d).Proper k) :
    ∃ extra', personSet extra a d = .ok extra' ∧ personGet k extra' a = .ok d := by
  cases d with
  | null => exact absurd h (by simp [PersonOp.Proper])
  | one v =>
    obtain ⟨hm, hf⟩ : a.multi = false ∧ v.Fits k a.conv := h
    obtain ⟨p, h1, h2⟩ := fits_trip hf
    refine ⟨dictSet extra a.param [p], ?_, ?_⟩
    · simp [personSet, hm, h1, bind, Except.bind]
    · simp [personGet, dictGet_set_eq, hm, h2, Except.map]
  | many vs =>
    obtain ⟨hm, hf⟩ : a.multi = true ∧ ∀ v ∈ vs, v.Fits k a.conv := h
    obtain ⟨ps, h1, h2⟩ := eachM_trip (f := a.conv.serialize) (g := a.conv.parse k) fun v hv => fits_trip (hf v hv)
    refine ⟨dictSet extra a.param ps, ?_, ?_⟩
    · simp [personSet, hm, h1, bind, Except.bind, PropData.iter]
    · simp [personGet, dictGet_set_eq, hm, h2, Except.map]

/-- One access keeps the correspondence. -/
theorem person_step {k : UrlChecks} {extra : Params} (hu : UniqueKeys extra) {op : PersonOp}
    (hp : op.Proper k) :
    (op.step k extra).2 = (PersonVars.step (personGet k extra) op).2 ∧
    (fun a => personGet k (op.step k extra).1 a) = (PersonVars.step (personGet k extra) op).1 ∧
    UniqueKeys (op.step k extra).1 := by
  cases op with
  | get a => exact ⟨rfl, rfl, hu⟩
  | set a d =>
    obtain ⟨extra', h1, h2⟩ := get_set_self (extra := extra) hp
    obtain ⟨ps, rfl⟩ := personSet_shape h1
    simp only [PersonOp.step, h1, PersonVars.step]
    refine ⟨trivial, ?_, uniqueKeys_dictSet _ _ hu⟩
    funext b
    unfold PersonVars.assign
    split
    · rename_i e; rw [e]; exact h2
    · rename_i hne
      exact personGet_congr k (dictGet_set_ne _ _ (param_ne hne))
  | del a =>
    simp only [PersonOp.step, PersonVars.step, personDel]
    refine ⟨trivial, ?_, uniqueKeys_dictErase _ hu⟩
    funext b
    unfold PersonVars.assign
    split
    · rename_i e
      rw [e, personGet, dictGet_erase hu, if_pos rfl]
    · rename_i hne
      exact personGet_congr k (dictGet_erase_ne _ (param_ne hne))

theorem person_run {k : UrlChecks} (ops : List PersonOp) (hp : ∀ op ∈ ops, op.Proper k) :
    ∀ {extra : Params}, UniqueKeys extra →
    (personRun k extra ops).2 = (PersonVars.run (personGet k extra) ops).2 ∧
    (fun a => personGet k (personRun k extra ops).1 a) = (PersonVars.run (personGet k extra) ops).1 := by
  induction ops with
  | nil => intro extra _; exact ⟨rfl, rfl⟩
  | cons op ops ih =>
    intro extra hu
    obtain ⟨h1, h2, h3⟩ := person_step hu (hp op (List.mem_cons_self ..))
    obtain ⟨h4, h5⟩ := ih (fun o ho => hp o (List.mem_cons_of_mem _ ho)) h3
    have h2' : personGet k (op.step k extra).1 = (PersonVars.step (personGet k extra) op).1 := h2
    simp only [personRun, PersonVars.run]
    rw [← h2', h1, h4]
    exact ⟨rfl, h5⟩

/-- Parameters that are no property are never touched. -/
theorem person_frame {k : UrlChecks} {n : Str} (hn : ∀ a : PersonAttr, n ≠ a.param) (ops : List PersonOp) :
    ∀ extra, dictGet? (personRun k extra ops).1 n = dictGet? extra n := by
  induction ops with
  | nil => intro _; rfl
  | cons op ops ih =>
    intro extra
    simp only [personRun]
    rw [ih]
    cases op with
    | get a => rfl
    | del a => exact dictGet_erase_ne _ (hn a)
    | set a d =>
      simp only [PersonOp.step]
      cases h : personSet extra a d with
      | error e => rfl
      | ok x =>
        obtain ⟨ps, rfl⟩ := personSet_shape h
        exact dictGet_set_ne _ _ (hn a)

/-! ### Writing and reading -/

theorem personReread_eq {k : UrlChecks} {name : Str} {u : Url} {extra : Params}
    (h : WritableLine ⟨name, extra, u.geturl⟩) (hu : urlparse k u.geturl = .ok u) :
    personReread k name u extra = .ok (u, normParams extra) := by
  have hd : dictUpdate ([] : Params) extra = extra := by
    have := dictUpdate_nil (d := ([] : Params)) (new := extra) h.distinct
    simpa using this
  unfold personReread
  rw [hd, writable_parse h]
  simp [bind, Except.bind, normLine, mkContentLine, hu]

theorem dictGet_norm (x : Params) (n : Str) :
    dictGet? (normParams x) n = (dictGet? x n).map fun vs => vs.map normPVal := by
  induction x with
  | nil => rfl
  | cons p x ih =>
    obtain ⟨m, vs⟩ := p
    unfold normParams at ih ⊢
    simp only [List.map_cons, dictGet?]
    split
    · rfl
    · exact ih

theorem normPVal_eq {v : PVal} (h : '\r' ∉ v.text) : normPVal v = ⟨v.quoted || needsQuote v.text, v.text⟩ := by
  unfold normPVal
  congr 1
  rw [List.filter_eq_self]
  intro c hc
  simp only [ne_eq, decide_eq_true_eq]
  rintro rfl
  exact h hc

theorem parse_norm {k : UrlChecks} {c : PConv} {v : PVal} (hc : c ≠ .uri) (h : '\r' ∉ v.text) :
    (c.parse k (normPVal v)).map PropVal.plain = (c.parse k v).map PropVal.plain := by
  rw [normPVal_eq h]
  cases c with
  | raw => rfl
  | boolean => rfl
  | uri => exact absurd rfl hc

theorem eachM_congr_map {α β γ : Type} {f : α → Except PyErr β} {p : β → γ} {g : α → α} {l : List α}
    (h : ∀ a ∈ l, (f (g a)).map p = (f a).map p) :
    (eachM f (l.map g)).map (List.map p) = (eachM f l).map (List.map p) := by
  induction l with
  | nil => rfl
  | cons a l ih =>
    have h1 := h a (List.mem_cons_self ..)
    have h2 := ih fun x hx => h x (List.mem_cons_of_mem _ hx)
    simp only [List.map_cons, eachM, bind, Except.bind]
    cases e1 : f (g a) with
    | error x =>
      cases e2 : f a with
      | error y =>
        rw [e1, e2] at h1
        simpa [Except.map] using h1
      | ok y => rw [e1, e2] at h1; simp [Except.map] at h1
    | ok x =>
      cases e2 : f a with
      | error y => rw [e1, e2] at h1; simp [Except.map] at h1
      | ok y =>
        rw [e1, e2] at h1
        simp only [Except.map, Except.ok.injEq] at h1
        cases e3 : eachM f (l.map g) with
        | error z =>
          cases e4 : eachM f l with
          | error w => rw [e3, e4] at h2; simpa [Except.map] using h2
          | ok w => rw [e3, e4] at h2; simp [Except.map] at h2
        | ok z =>
          cases e4 : eachM f l with
          | error w => rw [e3, e4] at h2; simp [Except.map] at h2
          | ok w =>
            rw [e3, e4] at h2
            simp only [Except.map, Except.ok.injEq] at h2
            simp [Except.map, h1, h2]

/-- Text and boolean properties read the same after writing and reading. -/
theorem get_norm {k : UrlChecks} {x : Params} {a : PersonAttr} (ha : a.conv ≠ .uri)
    (hr : ∀ p ∈ x, ∀ v ∈ p.2, '\r' ∉ v.text) :
    (personGet k (normParams x) a).map PropData.plain = (personGet k x a).map PropData.plain := by
  unfold personGet
  rw [dictGet_norm]
  cases hg : dictGet? x a.param with
  | none => rfl
  | some ps =>
    have hps : ∀ v ∈ ps, '\r' ∉ v.text := hr _ (mem_of_dictGet hg)
    simp only [Option.map_some]
    split
    · have := eachM_congr_map (f := a.conv.parse k) (p := PropVal.plain) (g := normPVal) (l := ps)
        fun v hv => parse_norm ha (hps v hv)
      cases e1 : eachM (a.conv.parse k) (ps.map normPVal) <;> cases e2 : eachM (a.conv.parse k) ps <;>
        rw [e1, e2] at this <;> simp [Except.map, PropData.plain] at this ⊢ <;> exact this
    · match ps, hps with
      | [], _ => rfl
      | [p], hps =>
        have := parse_norm (k := k) ha (hps p (List.mem_cons_self ..))
        simp only [List.map_cons, List.map_nil]
        cases e1 : a.conv.parse k (normPVal p) <;> cases e2 : a.conv.parse k p <;>
          rw [e1, e2] at this <;> simp [Except.map, PropData.plain] at this ⊢ <;> exact this
      | p :: q :: r, _ => rfl

/-- Properties whose values need no quotation marks read the same. -/
theorem get_norm_plain {k : UrlChecks} {x : Params} {a : PersonAttr}
    (h : ∀ ps, dictGet? x a.param = some ps → ∀ v ∈ ps, v.quoted = false ∧ needsQuote v.text = false ∧ '\r' ∉ v.text) :
    personGet k (normParams x) a = personGet k x a := by
  apply personGet_congr
  rw [dictGet_norm]
  cases hg : dictGet? x a.param with
  | none => rfl
  | some ps =>
    simp only [Option.map_some, Option.some.injEq]
    conv_rhs => rw [← List.map_id ps]
    apply List.map_congr_left
    intro v hv
    obtain ⟨h1, h2, h3⟩ := h ps hg v hv
    rw [normPVal_eq h3, h1, h2]
    obtain ⟨q, t⟩ := v
    cases h1
    rfl

theorem eachM_err {α β : Type} {f : α → Except PyErr β} {e : PyErr} {l : List α}
    (h : ∀ a ∈ l, (∃ b, f a = .ok b) ∨ f a = .error e) (h' : ∃ a ∈ l, f a = .error e) :
    eachM f l = .error e := by
  induction l with
  | nil => obtain ⟨a, ha, _⟩ := h'; exact absurd ha List.not_mem_nil
  | cons a l ih =>
    rcases h a (List.mem_cons_self ..) with ⟨b, hb⟩ | hb
    · have : eachM f l = .error e := by
        apply ih fun x hx => h x (List.mem_cons_of_mem _ hx)
        obtain ⟨x, hx, hxe⟩ := h'
        rcases List.mem_cons.1 hx with rfl | hx
        · rw [hb] at hxe; cases hxe
        · exact ⟨x, hx, hxe⟩
      simp [eachM, hb, this, bind, Except.bind]
    · simp [eachM, hb, bind, Except.bind]

theorem eachM_ok {α β : Type} {f : α → Except PyErr β} {l : List α} {bs : List β} (h : eachM f l = .ok bs) :
    ∀ a ∈ l, ∃ b, f a = .ok b := by
  induction l generalizing bs with
  | nil => intro a ha; exact absurd ha List.not_mem_nil
  | cons a l ih =>
    simp only [eachM, bind, Except.bind] at h
    cases e1 : f a with
    | error x => rw [e1] at h; cases h
    | ok b =>
      rw [e1] at h
      dsimp only at h
      cases e2 : eachM f l with
      | error x => rw [e2] at h; cases h
      | ok cs =>
        intro x hx
        rcases List.mem_cons.1 hx with rfl | hx
        · exact ⟨b, e1⟩
        · exact ih e2 x hx

/-- A URI property one of whose values contains a delimiter cannot be read any more. -/
theorem get_norm_uri {k : UrlChecks} {x : Params} {a : PersonAttr} {d : PropData} {ps : List PVal} {v : PVal}
    (ha : a.conv = .uri) (hr : ∀ p ∈ x, ∀ v ∈ p.2, '\r' ∉ v.text)
    (hd : personGet k x a = .ok d) (hg : dictGet? x a.param = some ps) (hv : v ∈ ps)
    (hq : needsQuote v.text = true) : personGet k (normParams x) a = .error .attributeError := by
  have hps : ∀ v ∈ ps, '\r' ∉ v.text := hr _ (mem_of_dictGet hg)
  have hbad : PConv.uri.parse k (normPVal v) = .error .attributeError := by
    rw [normPVal_eq (hps v hv), hq, Bool.or_true]
    have : v.text ≠ [] := by intro e; rw [e] at hq; cases hq
    simp [PConv.parse, this]
  have hok : ∀ w ∈ ps, (∃ b, PConv.uri.parse k w = .ok b) →
      (∃ b, PConv.uri.parse k (normPVal w) = .ok b) ∨ PConv.uri.parse k (normPVal w) = .error .attributeError := by
    intro w hw ⟨b, hb⟩
    rw [normPVal_eq (hps w hw)]
    cases hwq : (w.quoted || needsQuote w.text) with
    | true =>
      by_cases ht : w.text = []
      · left; exact ⟨_, by simp [PConv.parse, ht]; rfl⟩
      · right; simp [PConv.parse, ht]
    | false =>
      left
      obtain ⟨q, t⟩ := w
      simp only [Bool.or_eq_false_iff] at hwq
      obtain ⟨rfl, -⟩ := hwq
      exact ⟨b, hb⟩
  unfold personGet at hd ⊢
  rw [dictGet_norm]
  rw [hg] at hd ⊢
  simp only [Option.map_some, ha] at hd ⊢
  split at hd
  · rename_i hm
    rw [if_pos hm]
    cases e : eachM (PConv.uri.parse k) ps with
    | error y => rw [e] at hd; cases hd
    | ok bs =>
      have := eachM_ok e
      rw [eachM_err (e := .attributeError)]
      · rfl
      · intro y hy
        obtain ⟨w, hw, rfl⟩ := List.mem_map.1 hy
        exact hok w hw (this w hw)
      · exact ⟨_, List.mem_map_of_mem hv, hbad⟩
  · rename_i hm
    rw [if_neg hm]
    match ps, hv with
    | [p], hv =>
      cases List.mem_singleton.1 hv
      simp only [List.map_cons, List.map_nil, hbad]
      rfl
    | p :: q :: r, _ => cases hd

end Ics
