import Verif.Spec.ReadText
import Verif.Proofs.ReadTime
import Verif.Proofs.Text
import Verif.Props.ReadTime

/-
The values of a component that was read are those that its lines say.
-/
namespace Ics

variable {σ : Type}

/-! ### Texts -/

theorem unescapeChar_says {c d : Char} (h : unescapeChar c = .ok d) {v t : Str} (hv : TextSays v t) :
    TextSays ('\\' :: c :: v) (d :: t) := by
  unfold unescapeChar at h
  split at h
  · rename_i e; cases h; rw [e]; exact .escaped (by decide) hv
  · split at h
    · rename_i e; cases h; rw [e]; exact .escaped (by decide) hv
    · split at h
      · rename_i e; cases h; exact .newline e hv
      · split at h
        · rename_i e; cases h; exact .return e hv
        · split at h
          · rename_i e; cases h; rw [e]; exact .escaped (by decide) hv
          · cases h

theorem unescape_says (n : Nat) : ∀ (v t : Str), v.length ≤ n → unescapeText v = .ok t → TextSays v t := by
  induction n with
  | zero =>
    intro v t hl h
    cases v with
    | nil => cases h; exact .nil
    | cons c v => simp at hl
  | succ n ih =>
    intro v t hl h
    cases v with
    | nil => cases h; exact .nil
    | cons c v =>
      by_cases hc : c = '\\'
      · subst hc
        cases v with
        | nil => rw [unescapeText_end] at h; cases h
        | cons c2 v =>
          rw [unescapeText_esc] at h
          cases hx : unescapeChar c2 with
          | error e => rw [hx] at h; cases h
          | ok d =>
            rw [hx] at h
            simp only [map_ok_iff] at h
            obtain ⟨t', h, rfl⟩ := h
            exact unescapeChar_says hx (ih v t' (by simp at hl; omega) h)
      · rw [unescapeText_plain hc] at h
        split at h
        · cases h
        · rename_i hn
          rw [map_ok_iff] at h
          obtain ⟨t', h, rfl⟩ := h
          refine .plain ?_ (ih v t' (by simp at hl; omega) h)
          simp only [not_or] at hn
          simp [hc, hn]

theorem says_unescape {v t : Str} (h : TextSays v t) : unescapeText v = .ok t := by
  induction h with
  | nil => rfl
  | plain hc _ ih =>
    simp only [List.mem_cons, List.not_mem_nil, or_false, not_or] at hc
    rw [unescapeText_plain hc.1, if_neg (by simp [hc]), ih]
    rfl
  | escaped hc _ ih =>
    simp only [List.mem_cons, List.not_mem_nil, or_false] at hc
    rw [unescapeText_esc, ih]
    rcases hc with rfl | rfl | rfl <;> rfl
  | newline hc _ ih => rw [unescapeText_esc, ih]; rcases hc with rfl | rfl <;> rfl
  | «return» hc _ ih => rw [unescapeText_esc, ih]; rcases hc with rfl | rfl <;> rfl

theorem unescape_iff_says (v t : Str) : unescapeText v = .ok t ↔ TextSays v t :=
  ⟨unescape_says v.length v t le_rfl, says_unescape⟩

/-! ### Numbers -/

theorem digits_say (n : Nat) : ∀ (s p : Str) (c : Char) (k : Nat), s.length ≤ n → NumberSays (p ++ [c]) k → isDigit c = true →
    underscoresOk (c :: s) = true → NumberSays (p ++ [c] ++ s) (Nat.ofDigitChars 10 (s.filter (· ≠ '_')) k) := by
  induction n with
  | zero =>
    intro s p c k hl h hc hu
    obtain rfl : s = [] := List.eq_nil_of_length_eq_zero (by omega)
    simpa using h
  | succ n ih =>
    intro s p c k hl h hc hu
    cases s with
    | nil => simpa using h
    | cons d s =>
      have hcu : c ≠ '_' := fun e => by rw [e] at hc; exact absurd hc (by decide)
      rw [underscoresOk] at hu
      simp only [hc, hcu, decide_false, Bool.false_and, Bool.or_false, Bool.true_and, Bool.and_eq_true,
        Bool.or_eq_true, decide_eq_true_eq] at hu
      obtain ⟨hd, hu⟩ := hu
      rcases hd with hd | rfl
      · have hdu : d ≠ '_' := fun e => by rw [e] at hd; exact absurd hd (by decide)
        have := ih s (p ++ [c]) d _ (by simp at hl; omega) (.next h (of_decide_eq_true hd)) hd hu
        rw [List.filter_cons_of_pos (by simpa using hdu), Nat.ofDigitChars_cons]
        rwa [List.append_assoc _ [d], List.singleton_append] at this
      · cases s with
        | nil => exact absurd hu (by decide)
        | cons e s =>
          rw [underscoresOk] at hu
          have h0 : isDigit '_' = false := by decide
          simp only [h0, Bool.false_and, Bool.false_or, decide_true, Bool.true_and, Bool.and_eq_true] at hu
          obtain ⟨he, hu⟩ := hu
          have heu : e ≠ '_' := fun e' => by rw [e'] at he; exact absurd he (by decide)
          have h1 : NumberSays (p ++ [c] ++ ['_'] ++ [e]) (10 * k + (e.toNat - 48)) := by
            have := NumberSays.underscore h (of_decide_eq_true he : '0' ≤ e ∧ e ≤ '9')
            simpa using this
          have := ih s (p ++ [c] ++ ['_']) e _ (by simp at hl; omega) h1 he hu
          rw [List.filter_cons_of_neg (by simp), List.filter_cons_of_pos (by simpa using heu), Nat.ofDigitChars_cons]
          simpa using this

theorem intBody_says {s : Str} {n : Int} (h : intBody s = .ok n) : ∃ k : Nat, NumberSays s k ∧ n = k := by
  unfold intBody at h
  split at h
  · cases h
  · rename_i c s
    split at h
    · rename_i hc
      simp only [Bool.and_eq_true] at hc
      have hcu : c ≠ '_' := fun e => by rw [e] at hc; exact absurd hc.1 (by decide)
      unfold intOfDigits at h
      split at h
      · cases h
      · injection h with h
        refine ⟨_, ?_, h.symm⟩
        have := digits_say s.length s [] c _ le_rfl (.digit (of_decide_eq_true hc.1)) hc.1 hc.2
        rw [List.filter_cons_of_pos (by simpa using hcu), Nat.ofDigitChars_cons]
        simpa using this
    · cases h

theorem blank_of {s : Str} (h : ∀ c ∈ s, isCSpace c = true) : Blank s := by
  intro c hc
  have := h c hc
  simp only [isCSpace, Bool.or_eq_true, decide_eq_true_eq] at this
  simp only [List.mem_cons, List.not_mem_nil, or_false]
  tauto

theorem stripped_parts (s : Str) : ∃ a b, Blank a ∧ Blank b ∧
    s = a ++ ((s.dropWhile isCSpace).reverse.dropWhile isCSpace).reverse ++ b := by
  refine ⟨s.takeWhile isCSpace, ((s.dropWhile isCSpace).reverse.takeWhile isCSpace).reverse,
    blank_of fun c hc => List.mem_takeWhile_imp hc, blank_of fun c hc => List.mem_takeWhile_imp (List.mem_reverse.1 hc), ?_⟩
  rw [List.append_assoc, ← List.reverse_append, List.takeWhile_append_dropWhile, List.reverse_reverse,
    List.takeWhile_append_dropWhile]

theorem int_says {s : Str} {n : Int} (h : intParse s = .ok n) : IntSays s n := by
  obtain ⟨a, b, ha, hb, e⟩ := stripped_parts s
  unfold intParse at h
  dsimp only at h
  generalize ((s.dropWhile isCSpace).reverse.dropWhile isCSpace).reverse = m at h e
  rw [e]
  split at h
  · rename_i m
    split at h
    · rename_i k hk
      cases h
      obtain ⟨j, h1, rfl⟩ := intBody_says hk
      exact .minus ha hb h1
    · cases h
  · obtain ⟨j, h1, rfl⟩ := intBody_says h
    exact .plus ha hb h1
  · obtain ⟨j, h1, rfl⟩ := intBody_says h
    exact .unsigned ha hb h1

theorem bool_says {v : Str} {b : Bool} (h : boolParse v = .ok b) : BoolSays v b := by
  unfold boolParse at h
  unfold BoolSays
  split at h
  · rename_i e; cases h; rw [e]; decide
  split at h
  · rename_i e; cases h; rw [e]; decide
  dsimp only at h
  split at h
  · rename_i e; cases h; rw [e]; decide
  split at h
  · rename_i e; cases h; rw [e]; decide
  split at h
  · rename_i e
    cases h
    simp only [List.map_cons, List.map_nil, List.mem_cons, List.not_mem_nil, or_false, if_true] at e ⊢
    exact .inr e
  split at h
  · rename_i e
    cases h
    simp only [List.map_cons, List.map_nil, List.mem_cons, List.not_mem_nil, or_false, if_false, Bool.false_eq_true] at e ⊢
    exact .inr e
  · cases h

/-! ### Lists -/

theorem list_says {l : List Str} (hl : l ≠ []) {ts : List Str} (h : List.Forall₂ TextSays l ts) : ListSays (joinComma l) ts := by
  induction h with
  | nil => exact absurd rfl hl
  | @cons v t l ts h hrest ih =>
    cases l with
    | nil =>
      cases hrest
      exact .one h
    | cons w l =>
      rw [joinComma_cons _ _ (by simp)]
      exact .more h (ih (by simp))

/-! ### One line -/

theorem own_one {σ : Type} {items : List Item} {name : String} {P : ContentLine → AttrVal σ → Prop} {m v : AttrVal σ}
    {s : AttrSpec} (hs : s.ics = name.toList)
    (h : Conv.own (.value s) items = [] ∧ v = m ∨ ∃ cl, Conv.own (.value s) items = [.line cl] ∧ P cl v) :
    Given items name P m v := by
  have hown : Conv.own (.value s) items = items.filter fun i => i.name = name.toList := by
    unfold Conv.own
    congr 1
    funext i
    show decide (i.name ∈ [s.ics]) = _
    rw [hs]
    simp only [List.mem_singleton]
  rw [hown] at h
  rcases h with ⟨h, rfl⟩ | ⟨cl, h, hp⟩
  · refine .missing (fun i hi e => ?_) rfl
    rw [List.filter_eq_nil_iff] at h
    exact h i hi (by simpa using e)
  · obtain ⟨a, b, rfl, ha, hc, hb⟩ := List.filter_eq_cons_iff.1 h
    refine .line rfl (of_decide_eq_true hc) (fun i hi => ?_) hp
    rcases List.mem_append.1 hi with hi | hi
    · simpa using ha i hi
    · rw [List.filter_eq_nil_iff] at hb
      simpa using hb i hi

/-- A value of a component that was read. -/
theorem load_given {σ : Type} {L : Lib} {mem : MemberLoad σ} (hmem : MemStable L mem) {c : Cls} {is : List Item}
    {zones : List (Str × Nat)} {o : Obj σ} {ctx : Ctx}
    (h : loadObj L mem c is (some zones) = .ok (o, ctx)) {s : AttrSpec} (hs : .value s ∈ c.convs) (hm : s.multi = false)
    {name : String} (hn : s.ics = name.toList) {P : ContentLine → AttrVal σ → Prop}
    (hP : ∀ cl p cv (v : Val σ) p' ctx' w, prepareParams s.convs cl.params = .ok (p, cv) →
      cv.parse L cl.value p (some zones) = .ok (v, p', ctx') → s.check.run L (.one v) = .ok w → P cl w) :
    Given is name P (defaultAttr L s.attr false) (o.get s.attr) := by
  apply own_one hn
  rcases load_single hmem rfl h hs hm with
    ⟨h1, h2, -⟩ | ⟨cl, p, cv, v, p', ctx', w, h1, h2, h3, h4, h5, -⟩
  · exact .inl ⟨h1, get_of_dict h2⟩
  · rw [get_of_dict h5]
    exact .inr ⟨cl, h1, hP _ _ _ _ _ _ _ h2 h3 h4⟩

theorem prepare_single {c : ValConv} {params p : Params} {cv : ValConv} (h : prepareParams [c] params = .ok (p, cv)) :
    cv = c ∧ p = dictErase params "VALUE".toList ∧
      ∀ v, dictGet? params "VALUE".toList = some [v] → v.text = c.icsType := by
  unfold prepareParams at h
  dsimp only at h
  split at h
  · rename_i v hv
    rw [map_ok_iff] at h
    obtain ⟨c', h, e⟩ := h
    cases e
    unfold findByType at h
    rw [List.find?_singleton] at h
    by_cases hc : c.icsType = v.text
    · simp only [hc, decide_true, if_true] at h
      cases h
      refine ⟨rfl, rfl, fun w hw => ?_⟩
      rw [hv] at hw
      cases hw
      exact hc.symm
    · simp only [hc, decide_false, Bool.false_eq_true, if_false] at h
      cases h
  · cases h
  · rename_i h1 h2
    cases h
    exact ⟨rfl, rfl, fun v hv => absurd hv (h1 v)⟩

theorem says_text {σ : Type} {L : Lib} {cl : ContentLine} {p p' : Params} {ctx ctx' : Ctx} {v : Val σ}
    (h : ValConv.text.parse L cl.value p ctx = .ok (v, p', ctx')) : ∃ t, TextSays cl.value t ∧ v = .text t := by
  simp only [ValConv.parse, map_ok_iff] at h
  obtain ⟨t, h, e⟩ := h
  cases e
  exact ⟨t, (unescape_iff_says _ _).1 h, rfl⟩

/-- What a date with a time is read as is what it says. -/
theorem says_datetime {σ : Type} {L : Lib} {cl : ContentLine} {p' : Params} {zones : List (Str × Nat)} {ctx' : Ctx}
    {v : Val σ} (hd : ¬ IsDate cl)
    (h : ValConv.datetime.parse L cl.value (dictErase cl.params "VALUE".toList) (some zones) = .ok (v, p', ctx')) :
    ∃ d, SaysTime (zonesOf L.toWorld zones) L.utc cl d .second ∧ v = .dt d := by
  simp only [ValConv.parse, map_ok_iff] at h
  obtain ⟨⟨d, q, ctx2⟩, h, e⟩ := h
  cases e
  refine ⟨d, ?_, rfl⟩
  obtain ⟨tz, last, wall, h1, hl, -, hst, hr⟩ := (parseDt_iff _ _ _ _ _ _).1 h
  obtain ⟨y, m, dd, hh, n, s, ht, rfl⟩ := (strptime_wall_iff _ _).1 hst
  rw [stripDt_eq] at ht
  rw [endsInZ_iff hl] at hr
  obtain ⟨hz, -, e⟩ | ⟨hz, rfl, e⟩ | ⟨hz, name, z, ctx', rfl, h2, e⟩ := hr
  · cases e
    exact .utc hd ht hz
  · cases e
    have := noZone_of_paramTz h1
    unfold NoZone at this
    rw [tzid_erase] at this
    exact .floating hd ht hz this
  · cases e
    obtain ⟨v, g1, g2, rfl⟩ := paramTz_some h1
    rw [tzid_erase] at g1
    exact .zoned hd ht hz g1 g2 (zoneFor_resolve ((selectTz_iff _ _ _ _ _).1 h2))

theorem says_moment {L : Lib} {cl : ContentLine} {p p' : Params} {zones : List (Str × Nat)} {ctx' : Ctx} {v : Val Alarm}
    (hp : prepareParams [.datetime] cl.params = .ok (p, .datetime))
    (h : ValConv.datetime.parse L cl.value p (some zones) = .ok (v, p', ctx')) :
    ∃ d, SaysTime (zonesOf L.toWorld zones) L.utc cl d .second ∧ v = .dt d := by
  obtain ⟨-, rfl, hv⟩ := prepare_single hp
  refine says_datetime ?_ h
  rintro ⟨q, hq⟩
  exact absurd (hv _ hq) (by simp only; decide)

/-- The zone of the library for UTC. -/
theorem to_utc {L : Lib} (hU : UtcOk L) {Z : Str → Nat → Prop} {cl : ContentLine} {d x : DT} {pr : Precision}
    (hs : SaysTime Z L.utc cl d pr) (h : L.astimezone d (.zone L.icsUtc) = .ok x) :
    x = ⟨L.toEnv.instant d, false, some (.zone L.icsUtc)⟩ := by
  rw [astimezone_eq] at h
  split at h
  · rename_i hz
    have hf : d.fold = false := by cases hs <;> rfl
    injection h with h
    subst h
    obtain ⟨w, f, z⟩ := d
    simp only at hz hf
    subst hz hf
    have : L.toEnv.instant ⟨w, false, some (.zone L.icsUtc)⟩ = w := by
      show w - L.off L.icsUtc w false = w
      rw [hU.off _ _ _ hU.ics]
      omega
    rw [this]
  · split at h
    · cases h
    · rename_i u hu
      have hu' : u = L.toEnv.instant d := by
        unfold mkWall at hu
        split at hu
        · cases hu; rfl
        · cases hu
      have h2 : L.toEnv.tzFromUtc (.zone L.icsUtc) u = (u, false) := hU.fromUtc u
      rw [h2] at h
      simp only [hu'] at h
      unfold mkWall at h
      split at h
      · rename_i w hw
        split at hw
        · cases hw
          cases h
          rfl
        · cases hw
      · cases h

theorem SaysTime.map {Z Z' : Str → Nat → Prop} (h : Z = Z') {u : Nat} {cl : ContentLine} {d : DT} {p : Precision}
    (k : SaysTime Z u cl d p) : SaysTime Z' u cl d p := h ▸ k

theorem parseTexts {L : Lib} {l : List Str} {p : Params} {ctx ctx' : Ctx} {vals : List (Val Alarm × Params)}
    (h : parseValues L .text l p ctx = .ok (vals, ctx')) :
    ∃ ts, List.Forall₂ TextSays l ts ∧ vals.map Prod.fst = ts.map .text := by
  induction l generalizing p ctx ctx' vals with
  | nil => cases h; exact ⟨[], .nil, rfl⟩
  | cons v l ih =>
    simp only [parseValues, bind_ok_iff] at h
    obtain ⟨⟨x, p1, ctx1⟩, h1, ⟨rest, ctx2⟩, h2, e⟩ := h
    cases e
    simp only [ValConv.parse, map_ok_iff] at h1
    obtain ⟨t, h1, e⟩ := h1
    cases e
    obtain ⟨ts, h3, h4⟩ := ih h2
    exact ⟨t :: ts, .cons ((unescape_iff_says _ _).1 h1) h3, by rw [List.map_cons, h4]; rfl⟩

theorem entry_texts {L : Lib} (hU : UtcOk L) {cal is : List Item} {zones : List (Str × Nat)} (hz : loadZones L cal [] = .ok zones)
    {c : Cls} (hc : c = .event ∨ c = .todo) {o : EntryObj} {ctx : Ctx} (h : loadEntry L c is (some zones) = .ok (o, ctx)) :
    ValuesSaid L (TzidMeans L cal) is o := by
  have hmem : ∀ s, .value s ∈ entryConvs → .value s ∈ c.convs := by
    rcases hc with rfl | rfl <;> exact fun s hs => List.mem_append_left _ hs
  have text : ∀ (a n : String), attr1 a n [.text] ∈ entryConvs →
      Given is n SaysText (defaultAttr L a.toList false) (o.get a.toList) := fun a n hs =>
    load_given (fun _ items => loadAlarm_stable L items) h (hmem _ hs) rfl rfl fun cl p cv v p' ctx' w h1 h2 h3 => by
      obtain ⟨rfl, -⟩ := prepare_single h1
      obtain ⟨t, h4, rfl⟩ := says_text h2
      cases h3
      exact ⟨t, h4, rfl⟩
  have stamp : ∀ (a n : String) (k : Check), (k = .utc ∨ k = .utcRequired) → attr1 a n [.datetime] k ∈ entryConvs →
      Given is n (SaysStamp L (TzidMeans L cal)) (defaultAttr L a.toList false) (o.get a.toList) := fun a n k hk hs =>
    load_given (fun _ items => loadAlarm_stable L items) h (hmem _ hs) rfl rfl fun cl p cv v p' ctx' w h1 h2 h3 => by
      obtain ⟨rfl, -⟩ := prepare_single h1
      obtain ⟨d, h4, rfl⟩ := says_moment h1 h2
      have h5 : ∃ x, L.astimezone d (.zone L.icsUtc) = .ok x ∧ w = .one (.dt x) := by
        rcases hk with rfl | rfl
        · simp only [Check.run, map_ok_iff] at h3
          obtain ⟨x, h3, e⟩ := h3
          exact ⟨x, h3, e.symm⟩
        · simp only [Check.run, map_ok_iff] at h3
          obtain ⟨x, h3, e⟩ := h3
          exact ⟨x, h3, e.symm⟩
      obtain ⟨x, h5, rfl⟩ := h5
      rw [to_utc hU h4 h5]
      exact ⟨d, h4.map (zonesOf_means hz), rfl⟩
  refine ⟨text "summary" "SUMMARY" (by decide), text "description" "DESCRIPTION" (by decide),
    text "location" "LOCATION" (by decide), text "uid" "UID" (by decide), ?_, ?_,
    stamp "created" "CREATED" .utc (.inl rfl) (by decide), stamp "last_modified" "LAST-MODIFIED" .utc (.inl rfl) (by decide),
    stamp "dtstamp" "DTSTAMP" .utcRequired (.inr rfl) (by decide)⟩
  · refine load_given (s := ⟨"status".toList, "STATUS".toList, false, false, [.text], .status⟩) (fun _ items => loadAlarm_stable L items) h
      (hmem _ (by decide)) rfl rfl fun cl p cv v p' ctx' w h1 h2 h3 => ?_
    obtain ⟨rfl, -⟩ := prepare_single h1
    obtain ⟨t, h4, rfl⟩ := says_text h2
    simp only [Check.run] at h3
    split at h3
    · rename_i hst
      cases h3
      exact ⟨t, h4, hst, rfl⟩
    · cases h3
  · refine load_given (s := ⟨"url".toList, "URL".toList, false, false, [.text, .uri], .any⟩) (fun _ items => loadAlarm_stable L items) h
      (hmem _ (by decide)) rfl rfl fun cl p cv v p' ctx' w h1 h2 h3 => ?_
    cases h3
    unfold prepareParams at h1
    dsimp only at h1
    split at h1
    · rename_i x hx
      rw [map_ok_iff] at h1
      obtain ⟨c', h1, e⟩ := h1
      cases e
      unfold findByType at h1
      split at h1
      · rename_i c2 hc2
        cases h1
        have hm := List.mem_of_find?_eq_some hc2
        have ht := List.find?_some hc2
        simp only [decide_eq_true_eq] at ht
        simp only [List.mem_cons, List.not_mem_nil, or_false] at hm
        rcases hm with rfl | rfl
        · right
          refine ⟨?_, ?_⟩
          · rintro ⟨q, hq⟩
            rw [hx] at hq
            cases hq
            exact absurd ht (by simp only; decide)
          · obtain ⟨t, h4, rfl⟩ := says_text h2
            exact ⟨t, h4, rfl⟩
        · left
          obtain ⟨q, t⟩ := x
          simp only at ht
          refine ⟨⟨q, by rw [hx, ← ht]; rfl⟩, ?_⟩
          simp only [ValConv.parse, map_ok_iff] at h2
          obtain ⟨u, h2, e⟩ := h2
          cases e
          exact ⟨u, h2, rfl⟩
      · cases h1
    · cases h1
    · rename_i g1 g2
      cases h1
      right
      refine ⟨?_, ?_⟩
      · rintro ⟨q, hq⟩
        exact g1 _ hq
      · obtain ⟨t, h4, rfl⟩ := says_text h2
        exact ⟨t, h4, rfl⟩

theorem event_texts {L : Lib} {is : List Item} {zones : List (Str × Nat)} {o : EntryObj} {ctx : Ctx}
    (h : loadEntry L .event is (some zones) = .ok (o, ctx)) : EventSaid is o := by
  refine ⟨?_, ?_, ?_⟩
  · refine load_given (s := ⟨"classification".toList, "CLASSIFICATION".toList, false, false, [.text], .strOpt⟩) (fun _ items => loadAlarm_stable L items) h
      (by decide) rfl rfl fun cl p cv v p' ctx' w h1 h2 h3 => ?_
    obtain ⟨rfl, -⟩ := prepare_single h1
    obtain ⟨t, h4, rfl⟩ := says_text h2
    cases h3
    exact ⟨t, h4, rfl⟩
  · refine load_given (s := ⟨"transparent".toList, "TRANSPARENT".toList, false, false, [.boolean], .any⟩) (fun _ items => loadAlarm_stable L items) h
      (by decide) rfl rfl fun cl p cv v p' ctx' w h1 h2 h3 => ?_
    obtain ⟨rfl, -⟩ := prepare_single h1
    simp only [ValConv.parse, map_ok_iff] at h2
    obtain ⟨b, h2, e⟩ := h2
    cases e
    cases h3
    exact ⟨b, bool_says h2, rfl⟩
  · obtain ⟨cls, groups, h1, h2, h3, -⟩ := load_multi (fun _ items => loadAlarm_stable L items) rfl h
      (s := ⟨"categories".toList, "CATEGORIES".toList, true, false, [.text], .list⟩) (by decide) rfl
    have key : ∃ ts : List (List Str), List.Forall₂ (fun (cl : ContentLine) ts => ListSays cl.value ts) cls ts ∧
        groups.flatten.map Prod.fst = ts.flatten.map .text := by
      clear h1 h3
      induction h2 with
      | nil => exact ⟨[], .nil, rfl⟩
      | @cons cl g cls groups hg _ ih =>
        obtain ⟨ts, k1, k2⟩ := ih
        obtain ⟨vals, ⟨p, cv, ctx', h1, h2, h3⟩, rfl⟩ := hg
        obtain ⟨rfl, -⟩ := prepare_single h1
        obtain ⟨t, h4, h5⟩ := parseTexts h2
        refine ⟨t :: ts, .cons ?_ k1, ?_⟩
        · obtain ⟨g, gs, hg⟩ := splitComma_ne cl.value
          have hsp : ValConv.text.split cl.value = splitTextFrom g gs := by
            show splitTextList cl.value = _
            unfold splitTextList
            rw [hg]
          rw [hsp] at h3 h4
          obtain ⟨j1, -, j3⟩ := splitTextFrom_join gs g
          have := list_says (j3 h3) h4
          rwa [j1 h3, ← hg, joinComma_split] at this
        · rw [List.flatten_cons, List.flatten_cons, List.map_append, List.map_append, markLast_fst, h5, k2]
    obtain ⟨ts, k1, k2⟩ := key
    refine ⟨cls, ts, ?_, k1, ?_⟩
    · rw [← h1]
      unfold Conv.own
      congr 1
      funext i
      show _ = decide (i.name ∈ ["CATEGORIES".toList])
      simp only [List.mem_singleton]
    · rw [get_of_dict h3, k2]

theorem todo_texts {L : Lib} {cal is : List Item} {zones : List (Str × Nat)} (hz : loadZones L cal [] = .ok zones)
    {o : EntryObj} {ctx : Ctx} (h : loadEntry L .todo is (some zones) = .ok (o, ctx)) : TodoSaid L (TzidMeans L cal) is o := by
  have num : ∀ (a n : String) (max : Nat), attr1 a n [.integer] (.range max) ∈ Cls.todo.convs →
      Given is n (SaysNumber max) (defaultAttr L a.toList false) (o.get a.toList) := fun a n max hs =>
    load_given (fun _ items => loadAlarm_stable L items) h hs rfl rfl fun cl p cv v p' ctx' w h1 h2 h3 => by
      obtain ⟨rfl, -⟩ := prepare_single h1
      simp only [ValConv.parse, map_ok_iff] at h2
      obtain ⟨k, h2, e⟩ := h2
      cases e
      simp only [Check.run] at h3
      split at h3
      · rename_i hr
        cases h3
        exact ⟨k, int_says h2, hr.1, hr.2, rfl⟩
      · cases h3
  refine ⟨num "percent" "PERCENT" 100 (by decide), num "priority" "PRIORITY" 9 (by decide), ?_⟩
  refine load_given (s := ⟨"completed".toList, "COMPLETED".toList, false, false, [.datetime], .datetime⟩) (fun _ items => loadAlarm_stable L items) h
    (by decide) rfl rfl fun cl p cv v p' ctx' w h1 h2 h3 => ?_
  obtain ⟨rfl, -⟩ := prepare_single h1
  obtain ⟨d, h4, rfl⟩ := says_moment h1 h2
  cases h3
  exact ⟨d, h4.map (zonesOf_means hz), rfl⟩

theorem bool_iff (v : Str) (b : Bool) : boolParse v = .ok b ↔ BoolSays v b := by
  refine ⟨bool_says, fun h => ?_⟩
  have hT : ∀ w : Str, w = "TRUE".toList → boolParse w = .ok true := fun w e => by rw [e]; rfl
  have hF : ∀ w : Str, w = "FALSE".toList → boolParse w = .ok false := fun w e => by rw [e]; rfl
  by_cases h1 : v = "TRUE".toList
  · rw [h1] at h ⊢
    cases b with
    | true => rfl
    | false => exact absurd h (by unfold BoolSays; decide)
  by_cases h2 : v = "FALSE".toList
  · rw [h2] at h ⊢
    cases b with
    | false => rfl
    | true => exact absurd h (by unfold BoolSays; decide)
  unfold boolParse
  rw [if_neg h1, if_neg h2]
  unfold BoolSays at h
  generalize upper v = u at h
  dsimp only
  cases b with
  | true =>
    simp only [if_true, List.map_cons, List.map_nil, List.mem_cons, List.not_mem_nil, or_false] at h
    rcases h with rfl | rfl | rfl | rfl | rfl | rfl <;> rfl
  | false =>
    simp only [if_false, Bool.false_eq_true, List.map_cons, List.map_nil, List.mem_cons, List.not_mem_nil, or_false] at h
    rcases h with rfl | rfl | rfl | rfl | rfl | rfl <;> rfl

theorem digit_ends {v : Str} {n : Nat} (h : NumberSays v n) :
    (∃ c s, v = c :: s ∧ isDigit c = true) ∧ (∃ p c, v = p ++ [c] ∧ isDigit c = true) := by
  induction h with
  | @digit c hc => exact ⟨⟨c, [], rfl, decide_eq_true hc⟩, [], c, rfl, decide_eq_true hc⟩
  | @next v n c _ hc ih =>
    obtain ⟨⟨d, s, rfl, hd⟩, -⟩ := ih
    exact ⟨⟨d, s ++ [c], rfl, hd⟩, _, c, rfl, decide_eq_true hc⟩
  | @underscore v n c _ hc ih =>
    obtain ⟨⟨d, s, rfl, hd⟩, -⟩ := ih
    exact ⟨⟨d, s ++ ['_', c], rfl, hd⟩, d :: s ++ ['_'], c, by simp, decide_eq_true hc⟩

theorem underscores_snoc {p : Str} {d : Char} (hd : isDigit d = true) (h : underscoresOk (p ++ [d]) = true) {t : Str}
    (ht : underscoresOk (d :: t) = true) : underscoresOk (p ++ d :: t) = true := by
  induction p with
  | nil => exact ht
  | cons x p ih =>
    cases p with
    | nil =>
      rw [List.cons_append, List.nil_append, underscoresOk] at h ⊢
      simp only [Bool.and_eq_true] at h ⊢
      exact ⟨h.1, ht⟩
    | cons y p =>
      rw [List.cons_append, List.cons_append, underscoresOk] at h ⊢
      simp only [Bool.and_eq_true] at h ⊢
      exact ⟨h.1, ih h.2⟩

theorem number_ok {v : Str} {n : Nat} (h : NumberSays v n) :
    underscoresOk v = true ∧ Nat.ofDigitChars 10 (v.filter (· ≠ '_')) 0 = n := by
  have hne : ∀ {c : Char}, '0' ≤ c ∧ c ≤ '9' → c ≠ '_' := fun hc e => by
    rw [e] at hc; exact absurd hc (by decide)
  induction h with
  | @digit c hc =>
    refine ⟨decide_eq_true hc, ?_⟩
    rw [List.filter_cons_of_pos (by simpa using hne hc), Nat.ofDigitChars_cons]
    simp
  | @next v n c hv hc ih =>
    obtain ⟨-, p, d, rfl, hd⟩ := digit_ends hv
    refine ⟨?_, ?_⟩
    · rw [List.append_assoc]
      refine underscores_snoc hd ih.1 ?_
      have hc' : isDigit c = true := decide_eq_true hc
      simp [underscoresOk, hd, hc']
    · rw [List.filter_append, Nat.ofDigitChars_append, ih.2, List.filter_cons_of_pos (by simpa using hne hc),
        Nat.ofDigitChars_cons]
      simp
  | @underscore v n c hv hc ih =>
    obtain ⟨-, p, d, rfl, hd⟩ := digit_ends hv
    refine ⟨?_, ?_⟩
    · rw [List.append_assoc]
      refine underscores_snoc hd ih.1 ?_
      have hc' : isDigit c = true := decide_eq_true hc
      simp [underscoresOk, hd, hc']
    · rw [List.filter_append, Nat.ofDigitChars_append, ih.2, List.filter_cons_of_neg (by simp),
        List.filter_cons_of_pos (by simpa using hne hc), Nat.ofDigitChars_cons]
      simp

theorem number_digits {v : Str} {n : Nat} (h : NumberSays v n) : v.filter (· ≠ '_') = v.filter isDigit := by
  induction h with
  | @digit c hc =>
    have hc' : isDigit c = true := decide_eq_true hc
    have : c ≠ '_' := fun e => by rw [e] at hc; exact absurd hc (by decide)
    simp [hc', this]
  | @next v n c hv hc ih =>
    have hc' : isDigit c = true := decide_eq_true hc
    have : c ≠ '_' := fun e => by rw [e] at hc; exact absurd hc (by decide)
    rw [List.filter_append, List.filter_append, ih]
    simp [hc', this]
  | @underscore v n c hv hc ih =>
    have hc' : isDigit c = true := decide_eq_true hc
    have : c ≠ '_' := fun e => by rw [e] at hc; exact absurd hc (by decide)
    have h0 : isDigit '_' = false := by decide
    rw [List.filter_append, List.filter_append, ih]
    simp [hc', this, h0]

theorem number_body {v : Str} {n : Nat} (h : NumberSays v n) :
    intBody v = if (v.filter isDigit).length ≤ 4300 then .ok (n : Int) else .error .valueError := by
  obtain ⟨⟨c, s, rfl, hc⟩, -⟩ := digit_ends h
  obtain ⟨h1, h2⟩ := number_ok h
  unfold intBody
  dsimp only
  rw [hc, h1, Bool.and_true, if_pos rfl]
  unfold intOfDigits
  rw [h2, number_digits h]
  have hne : (c :: s).filter isDigit ≠ [] := by rw [List.filter_cons_of_pos hc]; simp
  unfold maxStrDigits
  by_cases hl : ((c :: s).filter isDigit).length ≤ 4300
  · rw [if_pos hl, if_neg (by rintro (e | e); exacts [hne e, by omega])]
  · rw [if_neg hl, if_pos (.inr (by omega))]

theorem space_of {s : Str} (h : Blank s) : ∀ c ∈ s, isCSpace c = true := by
  intro c hc
  have := h c hc
  simp only [List.mem_cons, List.not_mem_nil, or_false] at this
  simp only [isCSpace, Bool.or_eq_true, decide_eq_true_eq]
  tauto

theorem blank_digits {s : Str} (h : Blank s) : s.filter isDigit = [] := by
  rw [List.filter_eq_nil_iff]
  intro c hc
  have := h c hc
  simp only [List.mem_cons, List.not_mem_nil, or_false] at this
  rcases this with rfl | rfl | rfl | rfl | rfl | rfl <;> decide

theorem dropWhile_prefix {p : Char → Bool} {a t : Str} (h : ∀ c ∈ a, p c = true) : (a ++ t).dropWhile p = t.dropWhile p := by
  induction a with
  | nil => rfl
  | cons x a ih =>
    rw [List.cons_append, List.dropWhile_cons_of_pos (h x List.mem_cons_self)]
    exact ih fun c hc => h c (List.mem_cons_of_mem _ hc)

theorem strip_blank {a m b : Str} (ha : Blank a) (hb : Blank b) {x y : Char} {s p : Str} (h1 : m = x :: s) (h2 : m = p ++ [y])
    (hx : isCSpace x = false) (hy : isCSpace y = false) :
    (((a ++ m ++ b).dropWhile isCSpace).reverse.dropWhile isCSpace).reverse = m := by
  rw [List.append_assoc, dropWhile_prefix (space_of ha)]
  have e1 : (m ++ b).dropWhile isCSpace = m ++ b := by
    rw [h1, List.cons_append, List.dropWhile_cons_of_neg (by rw [hx]; decide)]
  rw [e1, List.reverse_append, dropWhile_prefix fun c hc => space_of hb c (List.mem_reverse.1 hc)]
  have e2 : m.reverse.dropWhile isCSpace = m.reverse := by
    rw [h2, List.reverse_append, List.reverse_singleton, List.singleton_append,
      List.dropWhile_cons_of_neg (by rw [hy]; decide)]
  rw [e2, List.reverse_reverse]

theorem digit_not_space {c : Char} (h : isDigit c = true) : isCSpace c = false ∧ c ≠ '-' ∧ c ≠ '+' := by
  refine ⟨?_, ?_, ?_⟩
  · rw [Bool.eq_false_iff]
    intro k
    simp only [isCSpace, Bool.or_eq_true, decide_eq_true_eq] at k
    rcases k with ((((rfl | rfl) | rfl) | rfl) | rfl) | rfl <;> exact absurd h (by decide)
  · rintro rfl; exact absurd h (by decide)
  · rintro rfl; exact absurd h (by decide)

theorem int_iff (s : Str) (n : Int) : intParse s = .ok n ↔ IntSays s n ∧ (s.filter isDigit).length ≤ 4300 := by
  have back : ∀ {s n}, IntSays s n → intParse s = if (s.filter isDigit).length ≤ 4300 then .ok n else .error .valueError := by
    intro s n h
    cases h with
    | @unsigned a v b n ha hb hv =>
      obtain ⟨⟨c, t, e1, hc⟩, p, d, e2, hd⟩ := digit_ends hv
      unfold intParse
      dsimp only
      rw [strip_blank ha hb e1 e2 (digit_not_space hc).1 (digit_not_space hd).1]
      have hf : (a ++ v ++ b).filter isDigit = v.filter isDigit := by
        rw [List.filter_append, List.filter_append, blank_digits ha, blank_digits hb, List.nil_append, List.append_nil]
      rw [hf, ← number_body hv]
      split
      · injection e1 with e
        exact absurd e.symm (digit_not_space hc).2.1
      · injection e1 with e
        exact absurd e.symm (digit_not_space hc).2.2
      · rfl
    | @plus a v b n ha hb hv =>
      obtain ⟨⟨c, t, e1, hc⟩, p, d, e2, hd⟩ := digit_ends hv
      unfold intParse
      dsimp only
      rw [strip_blank (m := '+' :: v) (p := '+' :: p) ha hb rfl (by rw [e2]; rfl) (by decide) (digit_not_space hd).1]
      have hf : (a ++ '+' :: v ++ b).filter isDigit = v.filter isDigit := by
        rw [List.filter_append, List.filter_append, blank_digits ha, blank_digits hb, List.nil_append, List.append_nil,
          List.filter_cons_of_neg (by decide)]
      rw [hf, ← number_body hv]
      rfl
    | @minus a v b n ha hb hv =>
      obtain ⟨⟨c, t, e1, hc⟩, p, d, e2, hd⟩ := digit_ends hv
      unfold intParse
      dsimp only
      rw [strip_blank (m := '-' :: v) (p := '-' :: p) ha hb rfl (by rw [e2]; rfl) (by decide) (digit_not_space hd).1]
      have hf : (a ++ '-' :: v ++ b).filter isDigit = v.filter isDigit := by
        rw [List.filter_append, List.filter_append, blank_digits ha, blank_digits hb, List.nil_append, List.append_nil,
          List.filter_cons_of_neg (by decide)]
      rw [hf]
      show (match intBody v with | .ok n => .ok (-n) | .error e => .error e : Except PyErr Int) = _
      rw [number_body hv]
      by_cases hl : (v.filter isDigit).length ≤ 4300
      · rw [if_pos hl, if_pos hl]
      · rw [if_neg hl, if_neg hl]
  constructor
  · intro h
    have h1 := int_says h
    refine ⟨h1, ?_⟩
    have h2 := back h1
    rw [h] at h2
    split at h2
    · assumption
    · cases h2
  · rintro ⟨h, hl⟩
    rw [back h, if_pos hl]

end Ics
