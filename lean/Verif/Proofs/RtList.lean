import Verif.Proofs.RtConv

/-
Writing the values of a list and reading them back.
-/
namespace Ics

variable {σ : Type}

theorem b64Char_comma (n : Nat) : b64Char n ≠ ',' := by
  by_cases h : n < 64
  · have : ∀ n : Fin 64, b64Char n.val ≠ ',' := by decide +kernel
    exact this ⟨n, h⟩
  · unfold b64Char
    rw [if_neg (by omega), if_neg (by omega), if_neg (by omega)]
    split <;> decide

theorem b64_comma (x : List (Fin 256)) : ',' ∉ b64encode x := by
  induction x using b64encode.induct with
  | case1 => simp [b64encode]
  | case2 a => simp [b64encode, (b64Char_comma _).symm]
  | case3 a b => simp [b64encode, (b64Char_comma _).symm]
  | case4 a b c l ih => simp [b64encode, (b64Char_comma _).symm, ih]

theorem parseValues_back {L : Lib} {c : ValConv} {ts : List Str} {vs : List (Val σ)}
    (h : List.Forall₂ (fun t v => ∀ q ctx, c.parse L t q ctx = .ok (v, q, ctx)) ts vs) (p : Params) (ctx : Ctx) :
    parseValues L c ts p ctx = .ok (vs.map fun v => (v, setMerge p true), ctx) := by
  induction h generalizing p with
  | nil => rfl
  | cons h1 _ ih =>
    simp only [parseValues, h1, ih, bind, Except.bind, setMerge_setMerge]
    rfl

/-- A list read from one line that is written on one line. -/
def RtLine (L : Lib) (s : AttrSpec) (p : Params) (vs : List (Val σ)) (cl : ContentLine) : Prop :=
  cl.name = s.ics ∧ WritesBack L s cl (markLast (vs.map fun v => (v, setMerge p true))) ∧
    ∀ mem ctx, readConv L mem (.value s) (.line cl) ctx =
      .ok (.multi (markLast (vs.map fun v => (v, setMerge p true))), ctx)

theorem writesBack_unmarked {L : Lib} {s : AttrSpec} {v : Val σ} {cl : ContentLine}
    (h : WritesBack L s cl (markLast ([v].map fun v => (v, setMerge [] true)))) : WritesBack L s cl [(v, [])] := by
  intro rest st
  rw [← h rest st]
  simp only [List.map_cons, List.map_nil, markLast, setMerge_setMerge, List.singleton_append, dumpMultiLoop,
    mergeNext_setMerge, erase_setMerge]
  rfl

theorem canon_rep {L : Lib} {zs : List (Str × Nat)} {convs : List ValConv} (hc : convs ∈ plainLists) {c : ValConv}
    (hcv : c ∈ convs) {v : Val σ} (h : RepVal L zs c v) (q : Params) (ctx : Ctx) :
    c.parse L (canonText v) q ctx = .ok (v, q, ctx) ∧ c.serialize L v q ctx = .ok (canonText v, q, ctx) := by
  have : c = .text ∨ c = .uri ∨ c = .binary := by
    have : ∀ convs ∈ plainLists, ∀ c ∈ convs, c = .text ∨ c = .uri ∨ c = .binary := by decide
    exact this _ hc _ hcv
  rcases this with rfl | rfl | rfl <;> cases v <;> try exact h.elim
  · simp [ValConv.parse, canonText, C10_roundtrip, Except.map, ValConv.serialize]
  · rename_i u
    have h : urlparse L.urlChecks u.geturl = .ok u := h
    simp [ValConv.parse, canonText, h, Except.map, ValConv.serialize]
  · simp [ValConv.parse, canonText, C18_binary, Except.map, ValConv.serialize]

theorem rt_group {L : Lib} {zs : List (Str × Nat)} {s : AttrSpec} (hm : s.multi = true) (hup : upper s.ics = s.ics)
    (hconv : s.convs ∈ plainLists ∨ s.convs = [.attendee]) {p : Params} {vs : List (Val σ)}
    (h : RepGroup L zs s p vs) : ∃ cl, RtLine L s p vs cl := by
  obtain ⟨c, hsame⟩ := h.same
  have hc : c ∈ s.convs := by
    cases vs with
    | nil => exact absurd rfl h.nonempty
    | cons v vs => exact List.mem_of_find?_eq_some (hsame v List.mem_cons_self).1
  rcases hconv with hconv | hconv
  · have hw : ∀ v ∈ vs, findConverter s.convs p v =
        .ok (c, if s.convs.head? = some c then p else dictSet p "VALUE".toList [⟨false, c.icsType⟩]) := by
      intro v hv
      unfold findConverter
      rw [(hsame v hv).1]
      dsimp only
      split <;> rfl
    obtain ⟨v0, hv0⟩ := List.exists_mem_of_ne_nil _ h.nonempty
    obtain ⟨val, _, _, hfc, hprep⟩ := prepare_written (hsame v0 hv0).1 h.params.1
    have hq := (hw v0 hv0).symm.trans hfc
    have hq : (if s.convs.head? = some c then p else dictSet p "VALUE".toList [⟨false, c.icsType⟩]) = p ++ val :=
      congrArg Prod.snd (Except.ok.inj hq)
    have hprep := hprep [] (fun h => nomatch h)
    rw [List.append_nil, List.append_nil] at hprep
    refine ⟨mkContentLine s.ics (p ++ val) (joinComma (vs.map canonText)), hup, ?_, fun mem ctx => ?_⟩
    · intro rest st
      refine dumpGroup (cv := c) h.params.2 (q := p ++ val) ?_ (ts := vs.map canonText) h.nonempty ?_ none (Or.inl rfl) [] rest st
      · rw [← hq]
        split
        · exact h.unique
        · exact uniqueKeys_dictSet _ _ h.unique
      · rw [List.forall₂_map_right_iff, List.forall₂_same]
        intro v hv
        refine ⟨?_, fun ctx => (canon_rep hconv hc (hsame v hv).2 _ ctx).2⟩
        rw [hw v hv, hq]
    · have hsplit : c.split (joinComma (vs.map canonText)) = .done (vs.map canonText) := by
        have htab : ∀ convs ∈ plainLists, ∀ c ∈ convs, c = .text ∨ c = .uri ∨ c = .binary := by decide
        rcases htab _ hconv _ hc with rfl | rfl | rfl
        · obtain ⟨ts, rfl⟩ : ∃ ts : List Str, vs = ts.map .text := by
            clear hprep hfc hq hw hv0 v0 h
            induction vs with
            | nil => exact ⟨[], rfl⟩
            | cons v vs ih =>
              obtain ⟨ts, rfl⟩ := ih fun v hv => hsame v (List.mem_cons_of_mem _ hv)
              have := (hsame v List.mem_cons_self).2
              cases v <;> first | exact ⟨_ :: ts, rfl⟩ | exact this.elim
          rw [List.map_map]
          refine (C11_roundtrip ts ?_).1
          rintro rfl
          exact h.nonempty rfl
        · rw [ValConv.split, splitComma_join]
          · simpa using h.nonempty
          · intro t ht
            obtain ⟨v, hv, rfl⟩ := List.mem_map.1 ht
            have := (hsame v hv).2
            cases v <;> first | exact h.url _ hv | exact this.elim
          all_goals intro e; cases e
        · rw [ValConv.split, splitComma_join]
          · simpa using h.nonempty
          · intro t ht
            obtain ⟨v, hv, rfl⟩ := List.mem_map.1 ht
            have := (hsame v hv).2
            cases v <;> first | exact b64_comma _ | exact this.elim
          all_goals intro e; cases e
      have hpv := parseValues_back (L := L) (c := c) (ts := vs.map canonText) (vs := vs) (by
        rw [List.forall₂_map_left_iff, List.forall₂_same]
        intro v hv q ctx
        exact (canon_rep hconv hc (hsame v hv).2 q ctx).1) p ctx
      simp only [readConv, hm, if_true, mkContentLine, hprep, bind, Except.bind, hsplit, Gen.done, hpv, genEnd]
  · have hca : c = .attendee := by
      rw [hconv] at hc
      exact List.mem_singleton.1 hc
    subst hca
    obtain ⟨v0, hv0⟩ := List.exists_mem_of_ne_nil _ h.nonempty
    obtain ⟨u, extra, rfl, r1, r2, r3⟩ : ∃ u extra, v0 = .person true (.url u) extra ∧ RepUrl L u ∧ RepPerson extra := by
      have := (hsame v0 hv0).2
      cases v0 with
      | person att e x =>
        cases att <;> cases e <;> first | exact ⟨_, _, rfl, this⟩ | exact this.elim
      | _ => exact this.elim
    obtain ⟨h1, h2, rfl, h4⟩ := h.attendee _ _ _ hv0
    obtain ⟨v1, rfl⟩ := List.length_eq_one_iff.1 h4
    cases List.mem_singleton.1 hv0
    have hupd : dictUpdate [] extra = extra := dictUpdate_nil r2
    have he : ∀ b, dictErase (setMerge [] b) mergeKey = [] := fun b => by
      rw [erase_setMerge]
      rfl
    have hfc : findConverter (σ := σ) s.convs [] (.person true (.url u) extra) = .ok (.attendee, []) := by
      rw [hconv]
      rfl
    refine ⟨mkContentLine s.ics extra u.geturl, hup, fun rest st => ?_, fun mem ctx => ?_⟩
    · simp only [List.map_cons, List.map_nil, markLast, setMerge_setMerge, List.cons_append, List.nil_append,
        dumpMultiLoop, mergeNext_setMerge, he,
        hfc, ValConv.serialize, checkSame, bind, Except.bind, Bool.false_eq_true, if_false, hupd, Email.str?]
      cases dumpMultiLoop L s rest none [] st <;> rfl
    · have hprep : prepareParams s.convs extra = .ok (extra, .attendee) := by
        unfold prepareParams
        rw [hconv, dictGet_eq_none.2 r3, dictErase_absent _ _ (dictGet_eq_none.2 r3)]
      have hsp : splitComma u.geturl = [u.geturl] := by
        rcases splitComma_cases u.geturl with h | h
        · exact h.2
        · exact absurd h.1 h1
      have r1 : urlparse L.urlChecks u.geturl = .ok u := r1
      simp only [readConv, hm, if_true, mkContentLine, hprep, bind, Except.bind, ValConv.split, hsp, Gen.done,
        parseValues, ValConv.parse, r1, Except.map, genEnd]
      rfl

theorem appendAll_ok {attr : Str} (l : List (Val σ × Params)) {o : Obj σ} {vs : List (Val σ)}
    (hv : dictGet? o.attrs attr = some (.many vs)) {ps : List Params}
    (hp : dictGet? o.extraParams (extraKey attr) = if ps = [] then none else some (.many ps)) :
    ∃ o', o.appendAll attr l = .ok o' := by
  induction l generalizing o vs ps with
  | nil => exact ⟨o, rfl⟩
  | cons x l ih =>
    obtain ⟨v, p⟩ := x
    have h1 : o.appendExtraParams attr p =
        .ok { o with extraParams := dictSet o.extraParams (extraKey attr) (.many (ps ++ [p])) } := by
      unfold Obj.appendExtraParams
      rw [hp]
      by_cases h : ps = []
      · rw [if_pos h, h]
        rfl
      · rw [if_neg h]
    simp only [Obj.appendAll, h1, bind, Except.bind, Obj.appendValue, Obj.get, hv, Option.getD_some]
    refine ih (vs := vs ++ [v]) (ps := ps ++ [p]) ?_ ?_
    · dsimp only
      rw [dictGet_set]
    · dsimp only
      rw [dictGet_set, if_neg (by simp)]

theorem foldMulti_ok {L : Lib} {rd : Reading σ} {s : AttrSpec} (hm : s.multi = true) {items : List Item}
    {groups : List (List (Val σ × Params))}
    (h : List.Forall₂ (fun i g => rd (.value s) i = .ok (.multi g) ∧ ∃ cl, i = .line cl) items groups) {a : Core σ}
    {vs : List (Val σ)} (hv : dictGet? a.obj.attrs s.attr = some (.many vs)) {ps : List Params}
    (hp : dictGet? a.obj.extraParams (extraKey s.attr) = if ps = [] then none else some (.many ps)) :
    ∃ b, foldConv L rd (.value s) items a = .ok b := by
  induction h generalizing a vs ps with
  | nil => exact ⟨a, rfl⟩
  | cons h1 _ ih =>
    obtain ⟨h1, cl, rfl⟩ := h1
    rename_i g _ _ _
    obtain ⟨o', ho⟩ := appendAll_ok g hv hp
    have hg := appendAll_get ho hv hp
    have : coreConv L rd (.value s) (.line cl) a =
        .ok { a with obj := o', counts := dictSet a.counts s.attr (a.count s.attr + g.length) } := by
      simp only [coreConv, preConv, hm, if_true, h1, bind, Except.bind, storeConv, storeMulti, ho, Except.map]
    obtain ⟨b, hb⟩ := ih (a := { a with obj := o', counts := dictSet a.counts s.attr (a.count s.attr + g.length) })
      hg.1 hg.2
    refine ⟨b, ?_⟩
    rw [foldConv, this]
    exact hb

theorem rt_multi {L : Lib} {mem : MemberLoad σ} {memd : MemberDump σ} {R : σ → σ → Prop}
    {zs : List (Str × Nat)} {need : Bool} {o : Obj σ} {s : AttrSpec} (hs : .value s ∈ o.cls.convs)
    (hm : s.multi = true) (hreq : s.required = false) (h : RepMulti L zs o s) :
    RT L mem memd R zs need o (.value s) := by
  intro avail dts hsub hdts
  have hup : upper s.ics = s.ics := names_upper _ _ hs _ (List.mem_singleton_self _)
  obtain ⟨groups, hg, hget, hpar⟩ := h
  have hex : ∀ g ∈ groups, ∃ cl, RtLine L s g.1 g.2 cl := fun g hgm => rt_group hm hup (multi_table _ _ hs hm) (hg g hgm)
  obtain ⟨cls, hcls⟩ : ∃ cls, List.Forall₂ (fun g cl => RtLine L s g.1 g.2 cl) groups cls := by
    clear hg hget hpar
    induction groups with
    | nil => exact ⟨[], .nil⟩
    | cons g gs ih =>
      obtain ⟨cl, h1⟩ := hex g List.mem_cons_self
      obtain ⟨cls, h2⟩ := ih fun g h => hex g (List.mem_cons_of_mem _ h)
      exact ⟨_, .cons h1 h2⟩
  have hdump : dumpMulti L s o ⟨some avail, dts⟩ = .ok (cls.map .line, ⟨some avail, dts⟩) := by
    rcases hpar with ⟨hn, h1⟩ | ⟨hne, hps⟩
    · unfold dumpMulti
      rw [hget]
      unfold extraKey
      rw [hn]
      have e : ((groups.map Prod.snd).flatten.map fun v => (v, ([] : Params))) =
          (groups.map fun g => g.2.map fun v => (v, ([] : Params))).flatten := by
        rw [List.map_flatten, List.map_map]
        rfl
      simp only [zipParams, bind, Except.bind, e]
      refine dumpGroups ?_ _
      rw [List.forall₂_map_right_iff]
      refine List.Forall₂.flip (List.Forall₂.imp ?_ ((List.forall₂_and_left _ _).2 ⟨fun _ h => h, hcls⟩))
      rintro g cl ⟨hgm, _, h2, _⟩
      obtain ⟨e1, e2⟩ := h1 g hgm
      obtain ⟨v, e2⟩ := List.length_eq_one_iff.1 e2
      rw [e1, e2] at h2
      show WritesBack L s cl (List.map (fun v => (v, [])) g.2)
      rw [e2]
      exact writesBack_unmarked h2
    · have e : (groups.map Prod.snd).flatten =
          ((groups.map fun g => markLast (g.2.map fun v => (v, setMerge g.1 true))).flatten).map Prod.fst := by
        rw [List.map_flatten, List.map_map]
        congr 1
        apply List.map_congr_left
        intro g _
        simp only [Function.comp, markLast_fst, List.map_map]
        exact (List.map_id' _).symm
      have e' : (groups.map fun g => (markLast (g.2.map fun v => (v, setMerge g.1 true))).map Prod.snd).flatten =
          ((groups.map fun g => markLast (g.2.map fun v => (v, setMerge g.1 true))).flatten).map Prod.snd := by
        rw [List.map_flatten, List.map_map]
        rfl
      have hfl : (groups.map fun g => markLast (g.2.map fun v => (v, setMerge g.1 true))).flatten ≠ [] := by
        obtain ⟨g, hgm⟩ := List.exists_mem_of_ne_nil _ hne
        intro h0
        rw [List.flatten_eq_nil_iff] at h0
        have := h0 _ (List.mem_map_of_mem hgm)
        have h2 := congrArg List.length this
        rw [markLast_length, List.length_map] at h2
        exact (hg g hgm).nonempty (List.length_eq_zero_iff.1 h2)
      rw [dumpMulti_groups (groups := groups.map fun g => markLast (g.2.map fun v => (v, setMerge g.1 true)))]
      · refine dumpGroups ?_ _
        rw [List.forall₂_map_right_iff]
        exact List.Forall₂.flip (List.Forall₂.imp (fun g cl h => h.2.1) hcls)
      · rw [← e]
        unfold Obj.get at hget
        cases hd : dictGet? o.attrs s.attr with
        | none =>
          rw [hd] at hget
          cases hget
        | some x =>
          rw [hd] at hget
          exact congrArg some hget
      · rw [if_neg hfl, ← e']
        exact hps
  refine ⟨cls.map .line, avail, dts, ?_, fun _ => rfl, .refl _, hsub, fun i hi => ?_, fun zones rd hz hrd => ?_⟩
  · simp only [Conv.dump, hm, if_true, hdump]
  · obtain ⟨cl, hcl, rfl⟩ := List.mem_map.1 hi
    obtain ⟨g, _, h1, _⟩ := forall₂_mem hcls cl hcl
    refine ⟨?_, fun e => nomatch e⟩
    show cl.name ∈ [s.ics]
    rw [h1]
    exact List.mem_singleton_self _
  · have hread : List.Forall₂ (fun i g => rd (.value s) i = .ok (.multi g) ∧ ∃ cl, i = .line cl)
        (cls.map .line) (groups.map fun g => markLast (g.2.map fun v => (v, setMerge g.1 true))) := by
      rw [List.forall₂_map_right_iff, List.forall₂_map_left_iff]
      exact List.Forall₂.flip (List.Forall₂.imp
        (fun g cl h => ⟨reading_ok hrd rfl (h.2.2 mem (some zones)), cl, rfl⟩) hcls)
    have hnv := new_value (L := L) (σ := σ) hs
    rw [hm] at hnv
    obtain ⟨b, hb⟩ := foldMulti_ok (L := L) hm hread (a := .new L o.cls) (vs := []) hnv (ps := []) rfl
    obtain ⟨groups', hg', hv', hp'⟩ := foldMulti hm hb (vs := []) hnv (ps := []) rfl
    have hgeq : groups' = groups.map fun g => markLast (g.2.map fun v => (v, setMerge g.1 true)) := by
      clear hb hv' hp' hdump hpar hget hex
      generalize (groups.map fun g => markLast (g.2.map fun v => (v, setMerge g.1 true))) = gs at *
      clear hcls
      generalize cls.map Item.line = items at *
      induction hread generalizing groups' with
      | nil =>
        cases hg'
        rfl
      | cons h1 _ ih =>
        cases hg' with
        | cons h2 h3 =>
          have := h1.1.symm.trans h2.1
          cases this
          rw [ih _ h3]
    rw [hgeq, List.nil_append] at hv' hp'
    refine ⟨b, hb, fun _ k hk => ?_, fun hn => ?_, fun s' e _ ps hps => ?_, fun s' e _ hnone => ?_,
      fun s' e hr => ?_, fun e => nomatch e⟩
    · rw [List.mem_singleton.1 hk, hget, get_of_dict hv']
      have e : (groups.map Prod.snd).flatten =
          ((groups.map fun g => markLast (g.2.map fun v => (v, setMerge g.1 true))).flatten).map Prod.fst := by
        rw [List.map_flatten, List.map_map]
        congr 1
        apply List.map_congr_left
        intro g _
        simp only [Function.comp, markLast_fst, List.map_map]
        exact (List.map_id' _).symm
      rw [← e]
      exact .many (List.forall₂_same.2 fun v _ => .same v)
    · have := hn s rfl
      rw [hm] at this
      cases this
    · cases e
      rcases hpar with ⟨hn, _⟩ | ⟨hne, hps'⟩
      · unfold extraKey at hps
        rw [hn] at hps
        cases hps
      · rw [hp']
        unfold extraKey at hps
        rw [hps'] at hps
        have e' : (groups.map fun g => (markLast (g.2.map fun v => (v, setMerge g.1 true))).map Prod.snd).flatten =
            ((groups.map fun g => markLast (g.2.map fun v => (v, setMerge g.1 true))).flatten).map Prod.snd := by
          rw [List.map_flatten, List.map_map]
          rfl
        rw [← e']
        rw [if_neg]
        · exact hps
        · intro h0
          rw [h0] at hps
          obtain ⟨g, hgm⟩ := List.exists_mem_of_ne_nil _ hne
          rw [List.flatten_eq_nil_iff] at h0
          have := h0 _ (List.mem_map_of_mem hgm)
          have h2 := congrArg List.length this
          rw [List.length_map, markLast_length, List.length_map] at h2
          exact (hg g hgm).nonempty (List.length_eq_zero_iff.1 h2)
    · cases e
      unfold extraKey at hnone
      rcases hpar with ⟨_, h1⟩ | ⟨_, hps'⟩
      · by_cases h0 : ((groups.map fun g => markLast (g.2.map fun v => (v, setMerge g.1 true))).flatten).map Prod.snd = []
        · rw [hp', if_pos h0]
          exact .inl rfl
        · refine .inr ⟨_, get_of_dict hv', ?_⟩
          rw [hp', if_neg h0, List.map_map]
          congr 2
          refine List.map_congr_left fun x hx => ?_
          obtain ⟨l, hl, hx⟩ := List.mem_flatten.1 hx
          obtain ⟨g, hgm, rfl⟩ := List.mem_map.1 hl
          obtain ⟨e1, e2⟩ := h1 g hgm
          obtain ⟨v, e2⟩ := List.length_eq_one_iff.1 e2
          rw [e1, e2] at hx
          obtain rfl : x = (v, setMerge (setMerge [] true) false) := List.mem_singleton.1 hx
          show setMerge (setMerge [] true) false = ownLine
          decide
      · rw [hps'] at hnone
        cases hnone
    · cases e
      rw [hreq] at hr
      cases hr

end Ics
