import Verif.Spec.Accepted
import Verif.Proofs.RtEntry
import Verif.Proofs.Params
import Verif.Proofs.Urlparse

/-
A component that was read from safe items, with safe values, can be represented.
-/
namespace Ics

variable {σ : Type}

/-! ### Values -/

theorem wallOf_good {f : Fields} {w : Int} (h : wallOf f = .ok w) : w % 1000000 = 0 ∧ 0 ≤ w ∧ w < maxWall := by
  unfold wallOf at h
  split at h
  · rename_i hc
    obtain ⟨h1, h2, h3, h4, h5, h6, h7, h8, h9⟩ := hc
    have hw := Except.ok.inj h
    have hord : 1 ≤ ymd2ord f.year f.month f.day ∧ ymd2ord f.year f.month f.day ≤ 3652059 := by
      have hb := monthDay_bound (isLeap f.year) f.month (by omega) h3
      have hy := daysBeforeYear_mono (y := f.year) (y' := 10000) h1 (by omega)
      have h10000 : daysBeforeYear 10000 = 3652059 := by decide
      unfold ymd2ord
      constructor
      · omega
      · omega
    have hs : f.hour * 3600 + f.minute * 60 + f.second < 86400 := by omega
    unfold maxWall
    unfold dayUs at hw
    omega
  · cases h

theorem parseDt_good {w : World} {fm : List Nat} {t : Str} {p p' : Params} {ctx ctx' : Ctx} {d : DT}
    (h : parseDt w fm t p ctx = .ok (d, p', ctx')) :
    d.wall % 1000000 = 0 ∧ d.fold = false ∧ 0 ≤ d.wall ∧ d.wall < maxWall := by
  unfold parseDt at h
  split at h
  · cases h
  · dsimp only at h
    split at h
    · cases h
    · split at h
      · cases h
      · split at h
        · cases h
        · split at h
          · cases h
          · rename_i wall hw
            obtain ⟨h1, h2, h3⟩ := wallOf_good hw
            split at h
            · split at h
              · cases h
              · cases h
                exact ⟨h1, rfl, h2, h3⟩
            · split at h
              · cases h
                exact ⟨h1, rfl, h2, h3⟩
              · split at h
                · cases h
                · cases h
                  exact ⟨h1, rfl, h2, h3⟩

theorem parseDate_good {w : World} {t : Str} {p p' : Params} {ctx ctx' : Ctx} {d : Int}
    (h : parseDate w t p ctx = .ok (d, p', ctx')) : d % 1000000 = 0 ∧ 0 ≤ d ∧ d < maxWall := by
  unfold parseDate at h
  split at h
  · rename_i hd
    obtain ⟨_, _, h3, h4⟩ := parseDt_good hd
    cases h
    unfold dayUs
    omega
  · cases h

/-- A wall clock in whole seconds that can be written. -/
def GoodTime (d : DT) : Prop := d.wall % 1000000 = 0 ∧ d.fold = false ∧ 0 ≤ d.wall ∧ d.wall < maxWall

theorem GoodTime.rep {L : Lib} {zs : List (Str × Nat)} {d : DT} (h : GoodTime d) (hs : SafeTime L zs d) : RepTime L zs d :=
  ⟨h.1, h.2.1, h.2.2.1, h.2.2.2, hs.1, hs.2⟩

theorem astimezone_good {L : Lib} (hU : UtcOk L) (hW : WholeOffsets L) {d d' : DT} (hd : GoodTime d)
    (hz : ∀ t, d.tz = some t → ∃ n, t = .zone n)
    (h : L.astimezone d (.zone L.icsUtc) = .ok d') : GoodTime d' ∧ L.astimezone d' (.zone L.icsUtc) = .ok d' := by
  unfold Env.astimezone at h
  split at h
  · rename_i e
    cases h
    refine ⟨hd, ?_⟩
    unfold Env.astimezone
    rw [if_pos e]
  · have key : ∀ off : Int, off % 1000000 = 0 →
        (match mkWall (d.wall - off) with
        | .error x => Except.error x
        | .ok u =>
          match mkWall (L.tzFromUtc (.zone L.icsUtc) u).1 with
          | .ok w => .ok ⟨w, (L.tzFromUtc (.zone L.icsUtc) u).2, some (.zone L.icsUtc)⟩
          | .error x => .error x) = Except.ok d' → GoodTime d' ∧ L.astimezone d' (.zone L.icsUtc) = .ok d' := by
      intro off ho h
      split at h
      · cases h
      · rename_i u hu
        have hu : u = d.wall - off := by
          unfold mkWall at hu
          split at hu
          · exact (Except.ok.inj hu).symm
          · cases hu
        have hf : L.tzFromUtc (.zone L.icsUtc) u = (u, false) := hU.fromUtc u
        rw [hf] at h
        split at h
        · rename_i w hw
          unfold mkWall at hw
          split at hw
          · rename_i hr
            have hw : u = w := Except.ok.inj hw
            cases h
            refine ⟨⟨?_, rfl, hw ▸ hr.1, hw ▸ hr.2⟩, ?_⟩
            · have := hd.1
              dsimp only
              omega
            · unfold Env.astimezone
              rw [if_pos rfl]
          · cases hw
        · cases h
    cases htz : d.tz with
    | none =>
      rw [htz] at h
      exact key _ (hW.2 _ _) h
    | some t =>
      obtain ⟨n, rfl⟩ := hz t htz
      rw [htz] at h
      exact key _ (hW.1 _ _ _) h

theorem parseDt_zone {w : World} {fm : List Nat} {t : Str} {p p' : Params} {ctx ctx' : Ctx} {d : DT}
    (h : parseDt w fm t p ctx = .ok (d, p', ctx')) : ∀ t, d.tz = some t → ∃ n, t = .zone n := by
  unfold parseDt at h
  split at h
  · cases h
  · dsimp only at h
    split at h
    · cases h
    · split at h
      · cases h
      · split at h
        · cases h
        · split at h
          · cases h
          · split at h
            · split at h
              · cases h
              · cases h
                intro t e
                cases e
                exact ⟨_, rfl⟩
            · split at h
              · cases h
                intro t e
                cases e
              · split at h
                · cases h
                · cases h
                  intro t e
                  cases e
                  exact ⟨_, rfl⟩

theorem durationParse_good {t : Str} {us : Int} (h : durationParse t = .ok us) : RepDur us := by
  have body : ∀ (sign : Int) (s : Str), durationBody sign s = .ok us → RepDur us := by
    intro sign s h
    unfold durationBody at h
    split at h
    · cases h
    · split at h
      · split at h
        · cases h
        · rename_i days secs _
          unfold mkTimedelta at h
          split at h
          · rename_i hr
            cases h
            refine ⟨?_, hr.1, hr.2⟩
            generalize sign * days = x
            generalize sign * secs = y
            omega
          · cases h
      · cases h
  unfold durationParse at h
  split at h
  · cases h
  · split at h
    · exact body _ _ h
    · split at h
      · exact body _ _ h
      · exact body _ _ h

theorem underscores_digits {s : Str} (h : underscoresOk s = true) : ∀ c ∈ s, isDigit c = true ∨ c = '_' := by
  induction s with
  | nil => exact fun c hc => nomatch hc
  | cons a s ih =>
    cases s with
    | nil =>
      intro c hc
      rw [List.mem_singleton.1 hc]
      exact .inl h
    | cons b s =>
      rw [underscoresOk, Bool.and_eq_true] at h
      intro c hc
      rcases List.mem_cons.1 hc with rfl | hc
      · have := h.1
        simp only [Bool.or_eq_true, Bool.and_eq_true, decide_eq_true_eq] at this
        rcases this with this | this
        · exact .inl this.1
        · exact .inr this.1
      · exact ih h.2 c hc

theorem ofDigitChars_lt {s : Str} (h : ∀ c ∈ s, isDigit c = true) (a : Nat) :
    Nat.ofDigitChars 10 s a < (a + 1) * 10 ^ s.length := by
  induction s generalizing a with
  | nil => simp [Nat.ofDigitChars]
  | cons c s ih =>
    have hc : c.toNat - '0'.toNat < 10 := by
      have := h c List.mem_cons_self
      rw [isDigit_eq] at this
      simp only [Char.isDigit, Bool.and_eq_true, decide_eq_true_eq] at this
      obtain ⟨h1, h2⟩ := this
      have h1 : 48 ≤ c.toNat := h1
      have h2 : c.toNat ≤ 57 := h2
      have : '0'.toNat = 48 := rfl
      omega
    have := ih (fun d hd => h d (List.mem_cons_of_mem _ hd)) (10 * a + (c.toNat - '0'.toNat))
    rw [Nat.ofDigitChars_cons]
    refine Nat.lt_of_lt_of_le this ?_
    rw [List.length_cons, Nat.pow_succ, Nat.mul_comm (10 ^ s.length) 10, ← Nat.mul_assoc]
    exact Nat.mul_le_mul_right _ (by omega)

theorem intParse_good {t : Str} {n : Int} (h : intParse t = .ok n) : n.natAbs < 10 ^ 4300 := by
  have body : ∀ (s : Str) (n : Int), intBody s = .ok n → n.natAbs < 10 ^ 4300 := by
    intro s n h
    unfold intBody at h
    split at h
    · cases h
    · split at h
      · rename_i hc
        rw [Bool.and_eq_true] at hc
        have hd : ∀ c ∈ (_ : Str).filter (· ≠ '_'), isDigit c = true := fun c hc' => by
          obtain ⟨h1, h2⟩ := List.mem_filter.1 hc'
          exact (underscores_digits hc.2 c h1).resolve_right (of_decide_eq_true h2)
        unfold intOfDigits at h
        split at h
        · cases h
        · rename_i hl
          cases h
          have := ofDigitChars_lt hd 0
          rw [Int.natAbs_natCast]
          refine Nat.lt_of_lt_of_le this ?_
          rw [Nat.zero_add, Nat.one_mul]
          exact Nat.pow_le_pow_right (by decide) (Nat.not_lt.1 fun e => hl (.inr e))
      · cases h
  unfold intParse at h
  dsimp only at h
  split at h
  · split at h
    · rename_i hb
      cases h
      rw [Int.natAbs_neg]
      exact body _ _ hb
    · cases h
  · exact body _ _ h
  · exact body _ _ h

/-- What is known of a value that a converter has read. -/
def Parsed (L : Lib) : ValConv → Val σ → Prop
  | .text, .text _ => True
  | .uri, .url u => UrlWf L.urlChecks u
  | .binary, .bytes _ => True
  | .datetime, .dt d => GoodTime d ∧ ∀ t, d.tz = some t → ∃ n, t = .zone n
  | .duration, .dur us => RepDur us
  | .integer, .int n => n.natAbs < 10 ^ 4300
  | .boolean, .bool _ => True
  | .geo, .geo _ _ => True
  | .organizer, .person false (.url u) x => UrlWf L.urlChecks u ∧ RepPerson x
  | .attendee, .person true (.url u) x => UrlWf L.urlChecks u ∧ RepPerson x
  | _, _ => False

theorem parse_parsed {L : Lib} {cv : ValConv} {t : Str} {p p' : Params} {ctx ctx' : Ctx} {v : Val σ}
    (h : cv.parse L t p ctx = .ok (v, p', ctx')) (hp : RepPerson p) : Parsed L cv v := by
  cases cv <;> obtain ⟨a, ha, he⟩ := map_ok_iff.1 h <;> cases he
  · trivial
  · exact urlparse_wf ha
  · trivial
  · exact ⟨parseDt_good ha, parseDt_zone ha⟩
  · exact durationParse_good ha
  · exact intParse_good ha
  · trivial
  · unfold geoParse at ha
    split at ha
    · cases ha
    · split at ha
      · cases ha
        trivial
      · cases ha
  · exact ⟨urlparse_wf ha, hp⟩
  · exact ⟨urlparse_wf ha, hp⟩

theorem Parsed.rep {L : Lib} {zs : List (Str × Nat)} {M : σ → Prop} {cv : ValConv} {v : Val σ} (h : Parsed L cv v)
    (hs : SafeVal L zs M v) : RepVal L zs cv v := by
  unfold Parsed at h
  split at h
  · trivial
  · exact urlparse_geturl h hs
  · trivial
  · exact h.1.rep hs
  · exact h
  · exact h
  · trivial
  · exact hs
  · exact ⟨urlparse_geturl h.1 hs, h.2⟩
  · exact ⟨urlparse_geturl h.1 hs, h.2⟩
  · exact h.elim

theorem Parsed.accepts {L : Lib} {cv : ValConv} {v : Val σ} (h : Parsed L cv v) :
    cv.accepts v = true ∧ ∀ c : ValConv, c.accepts v = true → c = cv ∨ c = .integer ∧ cv = .boolean := by
  unfold Parsed at h
  split at h <;> first | exact h.elim | (refine ⟨rfl, fun c hc => ?_⟩; cases c <;> first | exact .inl rfl | exact .inr ⟨rfl, rfl⟩ | cases hc)

/-- The value that a validator makes of a value that was read is accepted by it as it is. -/
theorem Parsed.check {L : Lib} (hU : UtcOk L) (hW : WholeOffsets L) {cv : ValConv} {v : Val σ} (h : Parsed L cv v)
    {ch : Check} (hg : ch = .geo → cv = .geo) {w : AttrVal σ} (hr : ch.run L (.one v) = .ok w) :
    ∃ v', w = .one v' ∧ Parsed L cv v' ∧ ch.run L (.one v') = .ok (.one v') := by
  have same : w = .one v → ∃ v', w = .one v' ∧ Parsed L cv v' ∧ ch.run L (.one v') = .ok (.one v') := fun e =>
    ⟨v, e, h, e ▸ hr⟩
  have utc : ∀ d, v = .dt d → cv = .datetime → (L.astimezone d (.zone L.icsUtc)).map (fun d => AttrVal.one (Val.dt d)) = .ok w →
      ∃ d', w = .one (.dt d') ∧ Parsed (σ := σ) L cv (.dt d') ∧
        (L.astimezone d' (.zone L.icsUtc)).map (fun d => AttrVal.one (Val.dt d)) = .ok (.one (.dt (σ := σ) d')) := by
    intro d e ec hr2
    subst e ec
    obtain ⟨d', h1, h2⟩ := map_ok_iff.1 hr2
    obtain ⟨h3, h4⟩ := astimezone_good hU hW h.1 h.2 h1
    refine ⟨d', h2.symm, ⟨h3, ?_⟩, by rw [h4]; rfl⟩
    have : d'.tz = some (.zone L.icsUtc) := by
      unfold Env.astimezone at h4
      split at h4
      · assumption
      · dsimp only at h4
        split at h4
        · cases h4
        · split at h4
          · rw [← Except.ok.inj h4]
          · cases h4
    intro t e
    rw [this] at e
    cases e
    exact ⟨_, rfl⟩
  have hdt : ∀ d, v = .dt d → cv = .datetime := by
    intro d e
    subst e
    unfold Parsed at h
    cases cv <;> first | rfl | exact h.elim
  have htx : ∀ s, v = .text s → cv = .text := by
    intro d e
    subst e
    unfold Parsed at h
    cases cv <;> first | rfl | exact h.elim
  cases ch with
  | any => exact same (Except.ok.inj hr).symm
  | status =>
    cases v with
    | text s =>
      rw [htx s rfl] at h ⊢
      have hr : (if upper s ∈ statusValues then _ else _) = _ := hr
      split at hr
      · rename_i hm
        cases hr
        refine ⟨.text (upper s), rfl, trivial, ?_⟩
        have hu : upper (upper s) = upper s := by
          unfold statusValues at hm
          simp only [List.map_cons, List.map_nil, List.mem_cons, List.not_mem_nil, or_false] at hm
          rcases hm with e | e | e <;> rw [e] <;> decide
        show (if upper (upper s) ∈ statusValues then _ else _) = _
        rw [hu, if_pos hm]
      · cases hr
    | _ => cases hr
  | utc =>
    cases v with
    | dt d => 
      obtain ⟨d', h1, h2, h3⟩ := utc d rfl (hdt d rfl) hr
      exact ⟨_, h1, h2, h3⟩
    | _ => cases hr
  | utcRequired =>
    cases v with
    | dt d => 
      obtain ⟨d', h1, h2, h3⟩ := utc d rfl (hdt d rfl) hr
      exact ⟨_, h1, h2, h3⟩
    | _ => cases hr
  | geo =>
    rw [hg rfl] at h
    cases v with
    | geo a b => exact same (Except.ok.inj hr).symm
    | _ => exact h.elim
  | organizerOpt =>
    cases v with
    | person a e x =>
      cases a with
      | false => exact same (Except.ok.inj hr).symm
      | true => cases hr
    | _ => cases hr
  | range m =>
    cases v with
    | int n =>
      have hr' : (if 0 ≤ n ∧ n ≤ m then _ else _) = _ := hr
      split at hr'
      · exact same (Except.ok.inj hr').symm
      · cases hr'
    | bool b => exact same (Except.ok.inj hr).symm
    | _ => cases hr
  | timespan c =>
    cases v with
    | span s =>
      unfold Parsed at h
      cases cv <;> exact h.elim
    | _ => cases hr
  | list => cases hr
  | str => cases v <;> first | exact same (Except.ok.inj hr).symm | cases hr
  | strOpt => cases v <;> first | exact same (Except.ok.inj hr).symm | cases hr
  | datetime => cases v <;> first | exact same (Except.ok.inj hr).symm | cases hr
  | timedelta => cases v <;> first | exact same (Except.ok.inj hr).symm | cases hr
  | trigger => cases v <;> first | exact same (Except.ok.inj hr).symm | cases hr

/-! ### Single values -/

theorem default_check {L : Lib} {a : Str} : ∃ v, defaultAttr (σ := σ) L a false = v ∧
    (v = .none ∧ a ∉ ["uid", "dtstamp", "version", "prodid"].map String.toList ∨
      a = "dtstamp".toList ∨ ∃ t, v = .one (.text t) ∧ a ∈ ["uid", "version", "prodid"].map String.toList) := by
  unfold defaultAttr
  rw [if_neg Bool.false_ne_true]
  split
  · rename_i e
    exact ⟨_, rfl, .inr (.inr ⟨_, rfl, by rw [e]; decide⟩)⟩
  · split
    · rename_i e
      exact ⟨_, rfl, .inr (.inl e)⟩
    · split
      · rename_i e
        exact ⟨_, rfl, .inr (.inr ⟨_, rfl, by rw [e]; decide⟩)⟩
      · split
        · rename_i e
          exact ⟨_, rfl, .inr (.inr ⟨_, rfl, by rw [e]; decide⟩)⟩
        · refine ⟨_, rfl, .inl ⟨rfl, ?_⟩⟩
          intro e
          simp only [List.map_cons, List.map_nil, List.mem_cons, List.not_mem_nil, or_false] at e
          rcases e with e | e | e | e <;> contradiction

/-- The attributes that are never missing; and a list of types has no two types for the same value. -/
theorem single_specs (c : Cls) : ∀ s, .value s ∈ c.convs → s.multi = false →
    (s.attr ∈ ["uid", "version", "prodid"].map String.toList → s.convs = [.text] ∧ (s.check = .any ∨ s.check = .str)) ∧
    (s.attr = "dtstamp".toList → s.ics = "DTSTAMP".toList) ∧ (.boolean ∈ s.convs → .integer ∉ s.convs) ∧
    (.organizer ∈ s.convs → s.convs = [.organizer]) ∧ .attendee ∉ s.convs := by
  intro s hs hm
  cases c <;> simp only [Cls.convs, entryConvs, alarmConvs, attr1, attrN, List.cons_append, List.nil_append, List.mem_cons,
      List.not_mem_nil, or_false, Conv.value.injEq, reduceCtorEq, false_or] at hs <;>
    (repeat' rcases hs with rfl | hs) <;> (try subst hs) <;> cases hm <;> decide

theorem erase_notMem {p : Params} {k : Str} (h : (p.map Prod.fst).Nodup) : k ∉ (dictErase p k).map Prod.fst := by
  induction p with
  | nil => exact List.not_mem_nil
  | cons a p ih =>
    rw [List.map_cons, List.nodup_cons] at h
    rw [dictErase]
    split
    · rename_i e
      exact e ▸ h.1
    · rename_i e
      intro hk
      rcases List.mem_cons.1 hk with hk | hk
      · exact e hk.symm
      · exact ih h.2 hk

theorem erase_keys {p : Params} {k k' : Str} (h : k' ∈ (dictErase p k).map Prod.fst) : k' ∈ p.map Prod.fst :=
  ((dictErase_sublist p k).map Prod.fst).subset h

theorem erase_nodup {p : Params} (k : Str) (h : (p.map Prod.fst).Nodup) : ((dictErase p k).map Prod.fst).Nodup :=
  h.sublist ((dictErase_sublist p k).map Prod.fst)

theorem repPerson_erase {p : Params} (h : (p.map Prod.fst).Nodup) : RepPerson (dictErase p "VALUE".toList) :=
  ⟨erase_nodup _ h, erase_notMem h⟩

theorem find_accepts {L : Lib} {convs : List ValConv} {cv : ValConv} {v : Val σ} (hc : cv ∈ convs) (h : Parsed L cv v)
    (hb : .boolean ∈ convs → .integer ∉ convs) : convs.find? (fun c => c.accepts v) = some cv := by
  cases hf : convs.find? (fun c => c.accepts v) with
  | none =>
    have := List.find?_eq_none.1 hf cv hc
    exact absurd h.accepts.1 this
  | some c =>
    have h1 := List.find?_some hf
    have h2 := List.mem_of_find?_eq_some hf
    rcases h.accepts.2 c h1 with e | ⟨e1, e2⟩
    · rw [e]
    · subst e1 e2
      exact absurd h2 (hb hc)

/-- A single-valued attribute after reading. -/
theorem single_rep {L : Lib} (hU : UtcOk L) (hW : WholeOffsets L) {mem : MemberLoad σ} (hmem : MemStable L mem) {c : Cls}
    {items : List Item} {zones zs : List (Str × Nat)} {o : Obj σ} {ctx1 : Ctx} {M : σ → Prop}
    (h : loadObj L mem c items (some zones) = .ok (o, ctx1)) (hl : SafeLines items) (ho : SafeObj L zs M o)
    {s : AttrSpec} (hs : .value s ∈ c.convs) (hm : s.multi = false)
    (hstamp : s.attr = "dtstamp".toList → ∃ cl, .line cl ∈ items ∧ cl.name = "DTSTAMP".toList) : RepSingle L zs o s := by
  obtain ⟨t1, t2, t3, t4, t5⟩ := single_specs c s hs hm
  unfold RepSingle
  rcases load_single hmem rfl h hs hm with ⟨h1, h2, h3⟩ | ⟨cl, p, cv, v, p', ctx', w, h1, h2, h3, h4, h5, h6⟩
  · obtain ⟨v, hv, hd⟩ := default_check (σ := σ) (L := L) (a := s.attr)
    rw [get_of_dict h2, hv]
    have h3 : dictGet? o.extraParams (upper s.attr) = none := h3
    rcases hd with ⟨rfl, hn⟩ | hd | ⟨t, rfl, ht⟩
    · exact ⟨h3, hn⟩
    · obtain ⟨cl, hcl, hn⟩ := hstamp hd
      have : Item.line cl ∈ Conv.own (.value s) items :=
        List.mem_filter.2 ⟨hcl, decide_eq_true (List.mem_singleton.2 (hn.trans (t2 hd).symm))⟩
      rw [h1] at this
      cases this
    · obtain ⟨e, ech⟩ := t1 ht
      refine ⟨.text, ?_, trivial, ?_, ?_, nofun⟩
      · rw [e]
        rfl
      · rcases ech with e | e <;> rw [e] <;> rfl
      · rw [h3]
        trivial
  · obtain ⟨e1, e2⟩ := prepare_ok h2
    have hcl : Item.line cl ∈ items := (List.mem_filter.1 (h1 ▸ List.mem_singleton_self _ : Item.line cl ∈ Conv.own (.value s) items)).1
    have hgood := hl.params cl hcl
    have hper : RepPerson p := e1 ▸ repPerson_erase hgood.1
    obtain ⟨v', rfl, hp, hr⟩ := (parse_parsed h3 hper).check hU hW (fun e => by
      rw [(single_table c s hs hm).1 e] at e2
      exact List.mem_singleton.1 e2) h4
    have hv := ho.one s.attr v' (get_of_dict h5)
    rw [get_of_dict h5]
    have h6 : dictGet? o.extraParams (upper s.attr) = _ := h6
    have hparams := parse_params h3
    refine ⟨cv, find_accepts e2 hp t3, hp.rep hv, hr, ?_, ?_⟩
    · rw [h6]
      by_cases hpe : p' = []
      · rw [if_pos hpe]
        trivial
      · rw [if_neg hpe]
        refine ⟨hpe, ?_⟩
        have hV : "VALUE".toList ∉ p'.map Prod.fst := by
          rw [hparams]
          split
          · exact List.not_mem_nil
          · split
            · exact fun e => hper.2 (erase_keys e)
            · exact hper.2
        split
        · rename_i hcv
          intro k hk
          simp only [List.mem_cons, List.not_mem_nil, or_false] at hk
          rcases hk with rfl | rfl
          · exact hV
          · rw [hparams, hcv]
            exact erase_notMem hper.1
        · intro k hk
          rw [List.mem_singleton.1 hk]
          exact hV
    · intro e
      rw [h6, if_pos]
      rw [hparams, e]
      rfl

/-! ### Lists -/

/-- The values of a line of a list. -/
theorem group_rep {L : Lib} {zs : List (Str × Nat)} {M : σ → Prop} {s : AttrSpec}
    (ht : s.convs ∈ plainLists ∨ s.convs = [.attendee]) {ctx : Ctx} {cl : ContentLine} {vals : List (Val σ × Params)}
    (h : ReadsLine L s ctx cl vals) (hp : GoodParams cl.params) (ha : s.convs = [.attendee] → ',' ∉ cl.value)
    (hs : ∀ v ∈ vals.map Prod.fst, SafeVal L zs M v) :
    ∃ p vs, RepGroup L zs s p vs ∧ vals = vs.map fun v => (v, setMerge p true) := by
  have hper := repPerson_erase hp.1
  have hmk : mergeKey ∉ (dictErase cl.params "VALUE".toList).map Prod.fst := fun e => hp.2 (erase_keys e)
  obtain ⟨p, cv, ctx', hprep, hparse, herr⟩ := h
  obtain ⟨rfl, hcv⟩ := prepare_ok hprep
  rcases ht with hc | hc
  · have hplain : cv.plain = true := by
      have : ∀ convs ∈ plainLists, ∀ cv ∈ convs, cv.plain = true := by decide
      exact this _ hc _ hcv
    obtain ⟨_, vs, rfl, hf⟩ := parseValues_plain hplain hparse
    have hmap : (vs.map fun v => (v, setMerge (dictErase cl.params "VALUE".toList) true)).map Prod.fst = vs := by
      rw [List.map_map]
      exact List.map_id _
    rw [hmap] at hs
    have hpar : ∀ v ∈ vs, Parsed L cv v ∧ (cv = .uri → ∃ t, ',' ∉ t ∧ cv.parse L t [] none = .ok (v, [], none)) := by
      intro v hv
      obtain ⟨t, htm, ht⟩ := forall₂_mem hf v hv
      refine ⟨parse_parsed (ht [] none) ⟨List.nodup_nil, List.not_mem_nil⟩, fun e => ⟨t, ?_, ht [] none⟩⟩
      rw [e] at htm
      exact splitComma_no_comma _ _ htm
    have hne : vs ≠ [] := by
      rintro rfl
      have he := List.forall₂_nil_right_iff.1 hf
      revert he
      obtain ⟨g, gs, hg⟩ := splitComma_ne cl.value
      cases cv
      case text =>
        have e : ValConv.split .text cl.value = splitTextFrom g gs := by
          rw [ValConv.split, splitTextList, hg]
        rw [e] at herr ⊢
        exact (splitTextFrom_join gs g).2.2 herr
      all_goals
        simp [ValConv.split, Gen.done, hg]
    refine ⟨_, vs, ⟨hne, hper.1, ⟨hper.2, hmk⟩, ⟨cv, fun v hv => ⟨?_, (hpar v hv).1.rep (hs v hv)⟩⟩, ?_, ?_⟩, rfl⟩
    · refine find_accepts hcv (hpar v hv).1 fun hb => ?_
      have : ∀ convs ∈ plainLists, ValConv.boolean ∉ convs := by decide
      exact absurd hb (this _ hc)
    · intro u hu
      obtain ⟨h1, h2⟩ := hpar _ hu
      have : cv = .uri := by
        cases cv <;> first | rfl | exact (h1 : False).elim
      obtain ⟨t, ht, h3⟩ := h2 this
      rw [this] at h3
      obtain ⟨a, h3, e⟩ := map_ok_iff.1 h3
      cases e
      exact geturl_noComma h3 ht
    · intro a u x hu
      have h1 := (hpar _ hu).1
      cases cv <;> first | exact (h1 : False).elim | cases hplain
  · have hcv : cv = .attendee := List.mem_singleton.1 (hc ▸ hcv)
    subst hcv
    have hno := ha hc
    rcases splitComma_cases cl.value with ⟨_, h2⟩ | ⟨h1, _⟩
    · simp only [ValConv.split, h2, Gen.done, parseValues, ValConv.parse, bind_ok_iff, map_ok_iff] at hparse
      obtain ⟨x, ⟨u, hurl, rfl⟩, y, ⟨rfl⟩, ⟨rfl⟩⟩ := hparse
      refine ⟨[], [.person true (.url u) (dictErase cl.params "VALUE".toList)], ⟨List.cons_ne_nil _ _, List.nodup_nil,
        ⟨List.not_mem_nil, List.not_mem_nil⟩, ⟨.attendee, fun v hv => ?_⟩, ?_, ?_⟩, rfl⟩
      · rw [List.mem_singleton.1 hv, hc]
        refine ⟨rfl, Parsed.rep (cv := .attendee) ⟨urlparse_wf hurl, hper⟩ (hs _ List.mem_cons_self)⟩
      · intro u' hu
        cases List.mem_singleton.1 hu
      · intro a u' x hu
        cases List.mem_singleton.1 hu
        exact ⟨geturl_noComma hurl hno, hmk, rfl, rfl⟩
    · exact absurd h1 hno

theorem attendee_specs (c : Cls) : ∀ s, .value s ∈ c.convs → s.convs = [.attendee] → s.ics = "ATTENDEE".toList := by
  intro s hs
  have : ∀ cv ∈ c.convs, ∀ s, cv = .value s → s.convs = [.attendee] → s.ics = "ATTENDEE".toList := by
    cases c <;> simp [Cls.convs, entryConvs, alarmConvs, attr1, attrN]
  exact this _ hs s rfl

/-- A list of a component that was read. -/
theorem multi_rep {L : Lib} {mem : MemberLoad σ} (hmem : MemStable L mem) {c : Cls}
    {items : List Item} {zones zs : List (Str × Nat)} {o : Obj σ} {ctx1 : Ctx} {M : σ → Prop}
    (h : loadObj L mem c items (some zones) = .ok (o, ctx1)) (hl : SafeLines items) (ho : SafeObj L zs M o)
    {s : AttrSpec} (hs : .value s ∈ c.convs) (hm : s.multi = true) : RepMulti L zs o s := by
  obtain ⟨cls, groups, h1, h2, h3, h4⟩ := load_multi hmem rfl h hs hm
  have hown : ∀ cl ∈ cls, .line cl ∈ items ∧ cl.name = s.ics := by
    intro cl hcl
    have : Item.line cl ∈ Conv.own (.value s) items := h1 ▸ List.mem_map_of_mem hcl
    exact ⟨(List.mem_filter.1 this).1, List.mem_singleton.1 (of_decide_eq_true (List.mem_filter.1 this).2)⟩
  have hsafe : ∀ v ∈ groups.flatten.map Prod.fst, SafeVal L zs M v := ho.many s.attr _ (get_of_dict h3)
  obtain ⟨gs, hg1, hg2⟩ : ∃ gs : List (Params × List (Val σ)), (∀ g ∈ gs, RepGroup L zs s g.1 g.2) ∧
      groups = gs.map fun g => markLast (g.2.map fun v => (v, setMerge g.1 true)) := by
    clear h1 h3 h4
    induction h2 with
    | nil => exact ⟨[], nofun, rfl⟩
    | @cons cl g cls groups hh _ ih =>
      obtain ⟨vals, hr, rfl⟩ := hh
      obtain ⟨gs, e1, e2⟩ := ih (fun cl hcl => hown cl (List.mem_cons_of_mem _ hcl)) fun v hv => hsafe v (by
        rw [List.flatten_cons, List.map_append]
        exact List.mem_append_right _ hv)
      obtain ⟨i1, i2⟩ := hown cl List.mem_cons_self
      obtain ⟨p, vs, e3, rfl⟩ := group_rep (zs := zs) (M := M) (multi_table c s hs hm) hr (hl.params cl i1)
        (fun e => hl.attendee cl i1 (i2.trans (attendee_specs c s hs e))) fun v hv => hsafe v (by
          rw [List.flatten_cons, List.map_append, markLast_fst]
          exact List.mem_append_left _ hv)
      refine ⟨(p, vs) :: gs, ?_, ?_⟩
      · intro g hg
        rcases List.mem_cons.1 hg with rfl | hg
        · exact e3
        · exact e1 g hg
      · rw [e2]
        rfl
  have e1 : groups.flatten.map Prod.fst = (gs.map Prod.snd).flatten := by
    rw [hg2, List.map_flatten, List.map_map]
    congr 1
    refine List.map_congr_left fun g _ => ?_
    show (markLast _).map Prod.fst = _
    rw [markLast_fst, List.map_map]
    exact List.map_id _
  have e2 : groups.flatten.map Prod.snd = (gs.map fun g => (markLast (g.2.map fun v => (v, setMerge g.1 true))).map Prod.snd).flatten := by
    rw [hg2, List.map_flatten, List.map_map]
    rfl
  refine ⟨gs, hg1, ?_, ?_⟩
  · rw [get_of_dict h3, e1]
  · have h4 : dictGet? o.extraParams (upper s.attr) = _ := h4
    cases gs with
    | nil =>
      left
      rw [h4, hg2]
      exact ⟨rfl, nofun⟩
    | cons g gs =>
      right
      refine ⟨List.cons_ne_nil _ _, ?_⟩
      rw [h4, e2, if_neg]
      intro e
      rw [e] at e1
      exact (hg1 g List.mem_cons_self).nonempty (List.append_eq_nil_iff.1 e1.symm).1

end Ics
