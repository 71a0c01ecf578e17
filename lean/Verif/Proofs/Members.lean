import Verif.Proofs.Load
import Verif.Proofs.Dump

/-
Reading and writing: the unhandled items and the members.
-/
namespace Ics

variable {σ : Type}

theorem forall₂_comp {α β γ : Type} {R : α → β → Prop} {S : β → γ → Prop} {l : List α} {m : List β} {n : List γ}
    (h : List.Forall₂ R l m) (k : List.Forall₂ S m n) : List.Forall₂ (fun a c => ∃ b, R a b ∧ S b c) l n := by
  induction h generalizing n with
  | nil => cases k; exact .nil
  | cons h1 _ ih =>
    cases k with
    | cons k1 k2 => exact .cons ⟨_, h1, k1⟩ (ih k2)

theorem comp_injective {ms ms' : List σ} (h : AttrVal.many (ms.map Val.comp) = .many (ms'.map .comp)) : ms = ms' :=
  (List.map_injective_iff.2 fun _ _ h => Val.comp.inj h) (AttrVal.many.inj h)

theorem named_own (a n : Str) (l : List Item) : (l.filter fun i => i.name = n) = Conv.own (.member a n) l := by
  unfold Conv.own
  congr 1
  funext i
  simp [Conv.names]

/-- The members of a loaded component have the right names. -/
theorem load_membersNamed {L : Lib} {mem : MemberLoad σ} (hm : MemStable L mem) {c : Cls} {items : List Item}
    {ctx : Ctx} (hc : ctx.isSome) {r : Obj σ × Ctx} (h : loadObj L mem c items ctx = .ok r) {nameOf : σ → Str}
    (hn : ∀ a n, Conv.member a n ∈ c.convs → ∀ is m ctx', mem n is ctx = .ok (m, ctx') → nameOf m = n) :
    MembersNamed nameOf r.1 := by
  intro a n hcv ms' hg' m hmem
  rw [(loadObj_frame h).1] at hcv
  obtain ⟨ms, hg, hf⟩ := load_member hm hc h hcv
  rw [hg'] at hg
  obtain rfl := comp_injective hg
  obtain ⟨i, hi, is, ctx2, rfl, ha⟩ := forall₂_mem hf m hmem
  exact hn a n hcv is m ctx2 ha

/-- What is written for a loaded component, given that each converter wrote what `known` has for it. -/
theorem known_roundtrip {L : Lib} {mem : MemberLoad σ} {memd : MemberDump σ} (hm : MemStable L mem) {c : Cls}
    {items : List Item} {ctx : Ctx} (hc : ctx.isSome) {r : Obj σ × Ctx} (h : loadObj L mem c items ctx = .ok r)
    {known : List Item} (hk : ∀ k ∈ known, unhandled c k = false) :
    SameExtra c items (known ++ r.1.extra) ∧
      ∀ a n, Conv.member a n ∈ c.convs →
        (∃ st1 st2, (Conv.member a n).dump L memd r.1 st1 = .ok (Conv.own (.member a n) known, st2)) →
        List.Forall₂ (fun x y => ∃ is m ctx' s1 s2, x = .cont n is ∧ mem n is ctx = .ok (m, ctx') ∧
          memd m s1 = .ok (y, s2)) (items.filter fun i => i.name = n)
          ((known ++ r.1.extra).filter fun i => i.name = n) := by
  have k := loadObj_frame h
  refine ⟨?_, fun a n hcv hd => ?_⟩
  · unfold SameExtra
    rw [List.filter_append, k.2.2, List.filter_filter]
    have : known.filter (unhandled c) = [] := by
      rw [List.filter_eq_nil_iff]
      intro x hx
      simp [hk x hx]
    simp [this]
  · obtain ⟨st1, st2, hd⟩ := hd
    obtain ⟨ms, hg, hf⟩ := load_member hm hc h hcv
    obtain ⟨ms', hg', hf'⟩ := dumpMember_forall hd
    rw [hg'] at hg
    obtain rfl := comp_injective hg
    rw [named_own a n (known ++ r.1.extra), own_append, k.2.2, own_extra hcv (by simp), List.append_nil]
    refine (forall₂_comp hf hf').imp ?_
    rintro x y ⟨m, ⟨is, ctx', rfl, hl⟩, s1, s2, hw⟩
    exact ⟨is, m, ctx', s1, s2, rfl, hl, hw⟩

end Ics
