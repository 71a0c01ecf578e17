import Verif.Proofs.Needed
import Verif.Props.Text
import Verif.Proofs.Lists

/-
Lists of values that survive.
-/
namespace Ics

variable {σ : Type}

/-- What a value needs that was written on a line of its own and read from it. -/
theorem value_needed {L : Lib} (hF : ∀ x, ';' ∉ L.formatFloat x) {R : σ → σ → Prop} {convs : List ValConv}
    (hp : ∀ x ∈ convs, x.isPerson = true → convs = [x])
    {v v1 : Val σ} {c cv : ValConv} {p0 p p1 p' : Params} {t : Str} {ctx ctx' ctx1 : Ctx} {zones : List (Str × Nat)}
    (hfc : findConverter convs [] v = .ok (c, p0)) (hser : c.serialize L v p0 ctx = .ok (t, p, ctx')) (hv : PyVal v)
    (hprep : prepareParams convs p = .ok (p1, cv)) (hparse : cv.parse L t p1 (some zones) = .ok (v1, p', ctx1))
    (hsame : SameVal L R v v1) :
    convs.find? (fun c => c.accepts v) = some c ∧ Kept L zones c v ∧ cv = c ∧
      (∀ att e extra, v = .person att e extra → "VALUE".toList ∉ extra.map Prod.fst) ∧
      ∃ q, c.serialize L v [] ctx = .ok (t, q, ctx') := by
  obtain ⟨hfind, hcase⟩ := prepare_back hp hfc hser hv hprep
  have hacc := List.find?_some hfind
  refine ⟨hfind, ?_⟩
  rcases hcase with ⟨att, e, extra, rfl, hk, rfl⟩ | ⟨rfl, hk, hser'⟩
  · exfalso
    obtain rfl : v1 = .person att e extra := by cases hsame; rfl
    have := parse_person_only hparse
    have hl := congrArg List.length this
    cases hx : dictGet? extra "VALUE".toList with
    | none => exact dictGet_eq_none.1 hx hk
    | some x =>
      have := dictErase_length hx
      omega
  · exact ⟨kept_of hF hacc hv hser' hparse hsame, rfl, hk, _, hser'⟩

/-- A list without parameters is written with a line for each value. -/
theorem loop_plain {L : Lib} {s : AttrSpec} : ∀ {l : List (Val σ)} {st st' : DState} {is : List Item},
    dumpMultiLoop L s (l.map fun v => (v, [])) none [] st = .ok (is, st') →
    ∃ lines : List ContentLine, is = lines.map .line ∧
      List.Forall₂ (fun v cl => ∃ c p0 t p ctx ctx', findConverter s.convs [] v = .ok (c, p0) ∧
        c.serialize L v p0 ctx = .ok (t, p, ctx') ∧ cl = mkContentLine s.ics p t) l lines
  | [], st, st', is, h => by
    cases h
    exact ⟨[], rfl, .nil⟩
  | v :: l, st, st', is, h => by
    simp only [List.map_cons, dumpMultiLoop, bind_ok_iff] at h
    obtain ⟨⟨c, p0⟩, hf, ⟨t, p, ctx⟩, hs, _, -, h⟩ := h
    rw [if_neg (by decide)] at h
    simp only [bind_ok_iff] at h
    obtain ⟨⟨is', st2⟩, h, e⟩ := h
    cases e
    obtain ⟨lines, rfl, hl⟩ := loop_plain h
    exact ⟨_ :: lines, rfl, .cons ⟨c, p0, t, p, _, ctx, hf, hs, rfl⟩ hl⟩

theorem singletons {α : Type} : ∀ {groups : List (List α)}, (∀ g ∈ groups, g ≠ []) →
    groups.length ≤ groups.flatten.length ∧
      (groups.flatten.length = groups.length → ∃ xs : List α, groups = xs.map fun x => [x])
  | [], _ => ⟨Nat.le_refl _, fun _ => ⟨[], rfl⟩⟩
  | g :: gs, h => by
    obtain ⟨h1, h2⟩ := singletons fun g hg => h g (List.mem_cons_of_mem _ hg)
    have hg := List.length_pos_iff.2 (h g List.mem_cons_self)
    simp only [List.flatten_cons, List.length_append, List.length_cons]
    refine ⟨by omega, fun he => ?_⟩
    obtain ⟨xs, rfl⟩ := h2 (by omega)
    obtain ⟨x, rfl⟩ := List.length_eq_one_iff.1 (show g.length = 1 by omega)
    exact ⟨x :: xs, rfl⟩

theorem flatten_singletons {α : Type} (xs : List α) : (xs.map fun x => [x]).flatten = xs := by
  induction xs with
  | nil => rfl
  | cons x xs ih => simp only [List.map_cons, List.flatten_cons, ih]; rfl

theorem three {α β γ : Type} {P : α → β → Prop} {Q : β → γ → Prop} {R : α → γ → Prop} {l : List α} {m : List β}
    {n : List γ} (h1 : List.Forall₂ P l m) : List.Forall₂ Q m n → List.Forall₂ R l n →
    ∀ a ∈ l, ∃ b c, P a b ∧ Q b c ∧ R a c := by
  induction h1 generalizing n with
  | nil => exact fun _ _ _ h => absurd h List.not_mem_nil
  | cons p _ ih =>
    intro h2 h3
    cases h2 with
    | cons q h2 =>
      cases h3 with
      | cons r h3 =>
        intro a ha
        rcases List.mem_cons.1 ha with rfl | ha
        · exact ⟨_, _, p, q, r⟩
        · exact ih h2 h3 a ha

theorem parseValues_length {L : Lib} {c : ValConv} : ∀ {ts : List Str} {p : Params} {ctx ctx' : Ctx}
    {vals : List (Val σ × Params)}, parseValues L c ts p ctx = .ok (vals, ctx') → vals.length = ts.length
  | [], _, _, _, _, h => by cases h; rfl
  | t :: ts, p, ctx, ctx', vals, h => by
    simp only [parseValues, bind_ok_iff] at h
    obtain ⟨⟨x, p1, c1⟩, _, ⟨rest, c2⟩, h, e⟩ := h
    cases e
    simp only [List.length_cons, parseValues_length h]

/-- The pieces of a text. -/
theorem split_pieces {c : ValConv} {s : Str} (h : (c.split s).err = none) :
    (c.split s).items ≠ [] ∧ ∀ x, (c.split s).items = [x] → x = s ∧ (c ≠ .text → ',' ∉ s) := by
  by_cases hc : c = .text
  · subst hc
    have hj := (C11_split_lossless s).1 h
    have hi : (ValConv.text.split s).items = (splitTextList s).items := rfl
    rw [hi]
    refine ⟨fun he => ?_, fun x he => ?_⟩
    · rw [he] at hj
      subst hj
      rw [C11_empty] at he
      cases he
    · rw [he] at hj
      exact ⟨hj, fun h => absurd rfl h⟩
  · have hi : (c.split s).items = splitComma s := by
      cases c <;> first | exact absurd rfl hc | rfl
    rw [hi]
    rcases splitComma_cases s with ⟨h1, h2⟩ | ⟨h1, a, b, r, h2⟩
    · rw [h2]
      refine ⟨by simp, fun x he => ?_⟩
      cases he
      exact ⟨rfl, fun _ => h1⟩
    · rw [h2]
      exact ⟨by simp, fun x he => by cases he⟩

/-- What is needed so that a list without parameters survives. -/
theorem multi_needed {L : Lib} (hF : ∀ x, ';' ∉ L.formatFloat x) {mem : MemberLoad σ}
    {memd : MemberDump σ} (hmem : MemStable L mem) {R : σ → σ → Prop} {o o' : Obj σ} {st st' : DState} {n : Str}
    {items : List Item} {zones : List (Str × Nat)} {ctx1 : Ctx} (h1 : dumpObj L memd o st = .ok (.cont n items, st'))
    (h2 : loadObj L mem o.cls items (some zones) = .ok (o', ctx1)) {s : AttrSpec} (hs : .value s ∈ o.cls.convs)
    (hm : s.multi = true) (hp : dictGet? o.extraParams (upper s.attr) = none)
    (hv : ∀ l, o.get s.attr = .many l → ∀ v ∈ l, PyVal v) (hR : SameAttr L R (o.get s.attr) (o'.get s.attr)) :
    KeptList L zones o s := by
  have hup : upper s.ics = s.ics := names_upper _ _ hs _ (List.mem_singleton_self _)
  simp only [dumpObj, bind_ok_iff] at h1
  obtain ⟨⟨is, st1⟩, h1, e⟩ := h1
  cases e
  obtain ⟨parts, rfl, hf⟩ := dumpConvs_parts h1
  obtain ⟨part, hpart, st2, st3, hd⟩ := forall₂_mem hf.flip _ hs
  simp only [Conv.dump, hm, if_true] at hd
  obtain ⟨cls, groups, hown, hgr, hget, -⟩ := load_multi hmem rfl h2 hs hm
  have hget : o'.get s.attr = .many (groups.flatten.map Prod.fst) := by unfold Obj.get; rw [hget]; rfl
  unfold dumpMulti at hd
  unfold KeptList
  cases hg : o.get s.attr with
  | none => rw [hg] at hd; cases hd
  | one v => rw [hg] at hd; cases hd
  | many l =>
    refine ⟨l, rfl, ?_⟩
    rw [hg] at hd
    simp only [bind_ok_iff] at hd
    obtain ⟨zl, hz, hd⟩ := hd
    rw [show dictGet? o.extraParams (extraKey s.attr) = none from hp] at hz
    cases hz
    obtain ⟨lines, rfl, hl⟩ := loop_plain hd
    rw [hg, hget] at hR
    have hsame : List.Forall₂ (SameVal L R) l (groups.flatten.map Prod.fst) := by
      cases hR with
      | many h => exact h
    -- every group has a value
    have hne : ∀ g ∈ groups, g ≠ [] := by
      intro g hg
      obtain ⟨cl, _, vals, ⟨p, cv, ctx', _, hpv, herr⟩, rfl⟩ := forall₂_mem hgr g hg
      have := parseValues_length hpv
      have h0 := List.length_pos_iff.2 (split_pieces herr).1
      intro h
      have := congrArg List.length h
      rw [markLast_length] at this
      simp only [List.length_nil] at this
      omega
    obtain ⟨hle, hsing⟩ := singletons hne
    -- the written lines are the lines that were read
    have hsub : List.Sublist (lines.map Item.line) (cls.map Item.line) := by
      rw [← hown]
      have hall : (lines.map Item.line).filter (fun i => decide (i.name ∈ (Conv.value s).names)) = lines.map Item.line := by
        rw [List.filter_eq_self]
        intro i hi
        obtain ⟨cl, hcl, rfl⟩ := List.mem_map.1 hi
        obtain ⟨v, _, c, p0, t, p, _, _, _, _, rfl⟩ := forall₂_mem hl cl hcl
        show decide (upper s.ics ∈ [s.ics]) = true
        rw [hup]
        simp
      rw [← hall]
      refine List.Sublist.filter _ ?_
      exact (List.sublist_flatten_of_mem hpart).trans (List.sublist_append_left _ _)
    have hlen1 := hl.length_eq
    have hlen2 := hgr.length_eq
    have hlen3 := hsame.length_eq
    have hlen4 := hsub.length_le
    simp only [List.length_map] at hlen3 hlen4
    have hlines : lines = cls := by
      have := hsub.eq_of_length (by simp only [List.length_map]; omega)
      exact List.map_injective_iff.2 (fun a b h => by injection h) this
    subst hlines
    obtain ⟨xs, rfl⟩ := hsing (by omega)
    have hxs : (xs.map fun x => [x]).flatten = xs := by
      exact flatten_singletons xs
    rw [hxs] at hsame
    rw [List.forall₂_map_right_iff] at hsame hgr
    intro v hvl
    obtain ⟨cl, x, ⟨c, p0, t, p, ctx, ctx', hfc, hser, rfl⟩, ⟨vals, ⟨p1, cv, ctx2, hprep, hpv, herr⟩, hvals⟩, hsv⟩ :=
      three hl hgr hsame v hvl
    have hlv := congrArg List.length hvals
    rw [markLast_length, parseValues_length hpv] at hlv
    obtain ⟨y, hy⟩ := List.length_eq_one_iff.1 hlv.symm
    obtain ⟨rfl, hcomma⟩ := (split_pieces herr).2 y hy
    rw [hy] at hpv
    simp only [parseValues, bind_ok_iff] at hpv
    obtain ⟨⟨v1, p2, ctx3⟩, hparse, ⟨rest, ctx4⟩, hrest, e⟩ := hpv
    cases hrest
    cases e
    cases hvals
    obtain ⟨k1, k2, rfl, k3, q, k4⟩ := value_needed hF (person_head _ _ hs s rfl) hfc hser (hv l hg v hvl) hprep hparse hsv
    have hacc := List.find?_some k1
    refine ⟨cv, k1, k2, ?_, ?_⟩
    · rintro u rfl
      cases cv <;> first | (cases hacc; done) | skip
      cases k4
      exact hcomma (by decide)
    · rintro att u extra rfl
      refine ⟨?_, k3 _ _ _ rfl⟩
      cases cv <;> first | (cases hacc; done) | skip
      · cases k4
        exact hcomma (by decide)
      · cases k4
        exact hcomma (by decide)

end Ics
