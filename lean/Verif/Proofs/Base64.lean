import Verif.Spec.Base64
import Verif.Proofs.Generic
import Verif.Proofs.Component
import Mathlib.Data.List.Infix
import Mathlib.Tactic.Ring

/-
Lemmas about base 64.
-/
namespace Ics

theorem b64Val_eq (c : Char) : b64Val c = if c ∈ base64Letters then some (base64Letters.idxOf c) else none := by
  by_cases hc : c.toNat < 128
  · have key : ∀ n : Fin 128, b64Val (Char.ofNat n.val) =
        if Char.ofNat n.val ∈ base64Letters then some (base64Letters.idxOf (Char.ofNat n.val)) else none := by decide +kernel
    have := key ⟨c.toNat, hc⟩
    rwa [Char.ofNat_toNat] at this
  · have h1 : c ∉ base64Letters := by
      intro h
      have key : base64Letters.all (fun c => c.toNat < 128) = true := by decide +kernel
      exact hc (by simpa using List.all_eq_true.1 key c h)
    rw [if_neg h1]
    have h2 : ∀ d : Char, d.toNat < 128 → ¬c ≤ d := by
      intro d hd h
      have : c.toNat ≤ d.toNat := h
      omega
    have h3 : ∀ d : Char, d.toNat < 128 → c ≠ d := fun d hd h => hc (h ▸ hd)
    unfold b64Val
    rw [if_neg fun h => h2 _ (by decide) h.2, if_neg fun h => h2 _ (by decide) h.2, if_neg fun h => h2 _ (by decide) h.2,
      if_neg (h3 _ (by decide)), if_neg (h3 _ (by decide))]

theorem pad_no_letter : '=' ∉ base64Letters := by decide +kernel

theorem idxOf_lt {c : Char} (h : c ∈ base64Letters) : base64Letters.idxOf c < 64 := by
  have := List.idxOf_lt_length_of_mem h
  have h64 : base64Letters.length = 64 := by decide +kernel
  omega

theorem digits_snoc_of {p : Str} {c : Char} (h : c ∈ base64Letters) :
    base64Digits (p ++ [c]) = base64Digits p ++ [base64Letters.idxOf c] := by
  unfold base64Digits
  rw [List.filter_append, List.map_append]
  simp [h]

theorem digits_snoc_other {p : Str} {c : Char} (h : c ∉ base64Letters) : base64Digits (p ++ [c]) = base64Digits p := by
  unfold base64Digits
  rw [List.filter_append]
  simp [h]

theorem pads_snoc_of {p : Str} {c : Char} (h : c ∈ base64Letters) : base64Pads (p ++ [c]) = 0 := by
  unfold base64Pads
  rw [List.reverse_append, List.reverse_singleton, List.singleton_append, List.takeWhile_cons_of_neg (by simp [h])]
  rfl

theorem pads_snoc_other {p : Str} {c : Char} (h : c ∉ base64Letters) :
    base64Pads (p ++ [c]) = base64Pads p + if c = '=' then 1 else 0 := by
  unfold base64Pads
  rw [List.reverse_append, List.reverse_singleton, List.singleton_append, List.takeWhile_cons_of_pos (by simp [h]),
    List.count_cons]
  simp

theorem numberOf_snoc (b : Nat) (ds : List Nat) (d : Nat) : numberOf b (ds ++ [d]) = b * numberOf b ds + d := by
  unfold numberOf
  rw [List.foldl_append]
  rfl

theorem numberOf_inj : ∀ (xs ys : List (Fin 256)), xs.length = ys.length →
    numberOf 256 (xs.map Fin.val) = numberOf 256 (ys.map Fin.val) → xs = ys := by
  intro xs
  induction xs using List.reverseRecOn with
  | nil =>
    intro ys h _
    exact (List.length_eq_zero_iff.1 h.symm).symm
  | append_singleton xs x ih =>
    intro ys h hn
    rcases List.eq_nil_or_concat ys with rfl | ⟨zs, z, rfl⟩
    · simp at h
    · rw [List.concat_eq_append] at *
      rw [List.map_append, List.map_append, List.map_singleton, List.map_singleton, numberOf_snoc, numberOf_snoc] at hn
      have hx := x.isLt
      have hz := z.isLt
      have h1 : x = z := Fin.ext (by omega)
      rw [h1, ih zs (by simpa using h) (by omega)]

/-- No part of the text up to here is filled up. -/
def NoneYet (p : Str) : Prop := ∀ u, u <+: p → ¬Base64Padded u

theorem noneYet_snoc {p : Str} {c : Char} (h : NoneYet p) (hc : ¬Base64Padded (p ++ [c])) : NoneYet (p ++ [c]) := by
  intro u hu
  rcases List.prefix_concat_iff.1 hu with rfl | hu
  · exact hc
  · exact h u hu

theorem part_of_padded {p s t : Str} (h : NoneYet p) {c : Char} (hc : Base64Padded (p ++ [c])) :
    Base64Part (p ++ c :: s) t ↔ t = p ++ [c] := by
  have hp : p ++ [c] <+: p ++ c :: s := ⟨s, by simp⟩
  have hm : ∀ u, u <+: p ++ [c] → Base64Padded u → u = p ++ [c] := by
    intro u hu hx
    rcases List.prefix_concat_iff.1 hu with rfl | hu
    · rfl
    · exact absurd hx (h u hu)
  constructor
  · rintro (⟨h1, h2, h3⟩ | ⟨-, -, h3⟩)
    · rcases List.prefix_or_prefix_of_prefix h1 hp with h4 | h4
      · exact hm t h4 h2
      · exact (h3 _ h4 hc).symm
    · exact absurd hc (h3 _ hp)
  · rintro rfl
    exact .inl ⟨hp, hc, hm⟩

theorem part_end {p t : Str} (h : NoneYet p) : Base64Part p t ↔ t = p ∧ (base64Digits p).length % 4 = 0 := by
  constructor
  · rintro (⟨h1, h2, -⟩ | ⟨h1, h2, -⟩)
    · exact absurd h2 (h t h1)
    · exact ⟨h1, h2⟩
  · rintro ⟨h1, h2⟩
    exact .inr ⟨h1, h2, h⟩

/-- Where the loop is after it has read `p` and made the bytes `done`. -/
structure LoopAt (p : Str) (quad left pads : Nat) (done : List (Fin 256)) : Prop where
  group : quad = (base64Digits p).length % 4
  signs : 2 ≤ quad → pads = base64Pads p
  len : done.length = 6 * (base64Digits p).length / 8
  num : numberOf 64 (base64Digits p) = numberOf 256 (done.map Fin.val) * 2 ^ (6 * (base64Digits p).length % 8) + left
  rest : left < 2 ^ (6 * (base64Digits p).length % 8)

theorem ofNat_val {n : Nat} (h : n < 256) : (Fin.ofNat 256 n).val = n := Nat.mod_eq_of_lt h

theorem loop_spec : ∀ (s p : Str) (quad left pads : Nat) (done : List (Fin 256)), NoneYet p → LoopAt p quad left pads done →
    (∀ out, b64Loop quad left pads s = .ok out → ∃ t, Base64Part (p ++ s) t ∧ Base64Bytes (base64Digits t) (done ++ out)) ∧
      ∀ t, Base64Part (p ++ s) t → ∃ out, b64Loop quad left pads s = .ok out := by
  have whole : ∀ {p : Str} {quad left pads : Nat} {done : List (Fin 256)}, LoopAt p quad left pads done →
      ∀ out, Except.ok (ε := PyErr) [] = .ok out → Base64Bytes (base64Digits p) (done ++ out) := by
    intro p quad left pads done h out ho
    cases ho
    rw [List.append_nil]
    refine ⟨h.len, ?_⟩
    rw [h.num, Nat.mul_comm, Nat.mul_add_div (Nat.two_pow_pos _), Nat.div_eq_of_lt h.rest, Nat.add_zero]
  intro s
  induction s with
  | nil =>
    intro p quad left pads done hn h
    rw [List.append_nil]
    unfold b64Loop
    by_cases hq : quad = 0
    · rw [if_pos hq]
      exact ⟨fun out ho => ⟨p, (part_end hn).2 ⟨rfl, by rw [← h.group, hq]⟩, whole h out ho⟩, fun _ _ => ⟨_, rfl⟩⟩
    · rw [if_neg hq]
      exact ⟨fun out ho => (by cases ho), fun t ht => absurd (h.group.trans ((part_end hn).1 ht).2) hq⟩
  | cons c s ih =>
    intro p quad left pads done hn h
    have happ : p ++ c :: s = (p ++ [c]) ++ s := by simp
    unfold b64Loop
    by_cases hc : c = '='
    · subst hc
      rw [if_pos rfl]
      have hd := digits_snoc_other (p := p) pad_no_letter
      have hp := pads_snoc_other (p := p) pad_no_letter
      rw [if_pos rfl] at hp
      have hpad : Base64Padded (p ++ ['=']) ↔ 2 ≤ quad ∧ 4 ≤ quad + (pads + 1) := by
        unfold Base64Padded
        rw [hd, hp, ← h.group]
        have hq4 : quad < 4 := by rw [h.group]; omega
        constructor
        · rintro (⟨h1, h2⟩ | ⟨h1, h2⟩)
          · have := h.signs (by omega)
            omega
          · omega
        · rintro ⟨h1, h2⟩
          have := h.signs h1
          omega
      have h' : ∀ x, (2 ≤ quad → x = pads + 1) → LoopAt (p ++ ['=']) quad left x done := by
        intro x hx
        refine ⟨by rw [hd]; exact h.group, fun h2 => ?_, by rw [hd]; exact h.len, by rw [hd]; exact h.num, by rw [hd]; exact h.rest⟩
        rw [hp, hx h2, h.signs h2]
      by_cases hq : 2 ≤ quad ∧ 4 ≤ quad + (pads + 1)
      · rw [if_pos hq]
        exact ⟨fun out ho => ⟨_, (part_of_padded hn (hpad.2 hq)).2 rfl, whole (h' (pads + 1) fun _ => rfl) out ho⟩,
          fun _ _ => ⟨_, rfl⟩⟩
      · rw [if_neg hq, happ]
        refine ih _ _ _ _ _ (noneYet_snoc hn fun hx => hq (hpad.1 hx)) (h' _ fun h2 => ?_)
        rw [if_pos h2]
    · rw [if_neg hc, b64Val_eq]
      by_cases hl : c ∈ base64Letters
      · rw [if_pos hl]
        dsimp only
        have hd := digits_snoc_of (p := p) hl
        have hp := pads_snoc_of (p := p) hl
        have hv := idxOf_lt hl
        generalize base64Letters.idxOf c = v at *
        have hn' : NoneYet (p ++ [c]) := noneYet_snoc hn fun hx => by
          unfold Base64Padded at hx
          rw [hp] at hx
          omega
        have hlen : (base64Digits (p ++ [c])).length = (base64Digits p).length + 1 := by rw [hd]; simp
        have hnum : numberOf 64 (base64Digits (p ++ [c])) = 64 * numberOf 64 (base64Digits p) + v := by
          rw [hd, numberOf_snoc]
        rw [happ]
        have h1 := h.num
        have h2 := h.rest
        have h3 := h.len
        have hq := h.group
        clear h
        generalize (base64Digits p).length = n at *
        have step : ∀ (q' l' b r r' : Nat), q' = (n + 1) % 4 → 6 * n % 8 = r → 6 * (n + 1) % 8 = r' → b < 256 → l' < 2 ^ r' →
            6 * n / 8 + 1 = 6 * (n + 1) / 8 →
            64 * (numberOf 256 (done.map Fin.val) * 2 ^ r + left) + v =
              (256 * numberOf 256 (done.map Fin.val) + b) * 2 ^ r' + l' →
            (∀ out, (b64Loop q' l' 0 s).map (Fin.ofNat 256 b :: ·) = .ok out →
              ∃ t, Base64Part (p ++ [c] ++ s) t ∧ Base64Bytes (base64Digits t) (done ++ out)) ∧
            ∀ t, Base64Part (p ++ [c] ++ s) t → ∃ out, (b64Loop q' l' 0 s).map (Fin.ofNat 256 b :: ·) = .ok out := by
          intro q' l' b r r' e1 e2 e3 hb hl' e4 e5
          obtain ⟨i1, i2⟩ := ih (p ++ [c]) q' l' 0 (done ++ [Fin.ofNat 256 b]) hn'
            ⟨by rw [hlen]; exact e1, fun _ => hp.symm, by rw [hlen, List.length_append, h3]; exact e4, by
              rw [hnum, h1, hlen, e2, e3, List.map_append, List.map_singleton, numberOf_snoc, ofNat_val hb]
              exact e5, by rw [hlen, e3]; exact hl'⟩
          constructor
          · intro out ho
            obtain ⟨rest, hr, rfl⟩ := map_ok_iff.1 ho
            obtain ⟨t, k1, k2⟩ := i1 rest hr
            exact ⟨t, k1, by simpa using k2⟩
          · intro t ht
            obtain ⟨out, ho⟩ := i2 t ht
            rw [ho]
            exact ⟨_, rfl⟩
        have hq4 : quad = 0 ∨ quad = 1 ∨ quad = 2 ∨ quad = 3 := by omega
        rcases hq4 with rfl | rfl | rfl | rfl
        · have e2 : 6 * n % 8 = 0 := by omega
          have e3 : 6 * (n + 1) % 8 = 6 := by omega
          rw [e2] at h1 h2
          refine ih (p ++ [c]) 1 v 0 done hn' ⟨by rw [hlen]; omega, fun _ => hp.symm, by rw [hlen, h3]; omega, ?_, ?_⟩
          · rw [hnum, h1, hlen, e3]
            omega
          · rw [hlen, e3]
            omega
        · have e2 : 6 * n % 8 = 6 := by omega
          have e3 : 6 * (n + 1) % 8 = 4 := by omega
          rw [e2] at h2
          exact step 2 (v % 16) (left * 4 + v / 16) 6 4 (by omega) e2 e3 (by omega) (by omega) (by omega) (by omega)
        · have e2 : 6 * n % 8 = 4 := by omega
          have e3 : 6 * (n + 1) % 8 = 2 := by omega
          rw [e2] at h2
          exact step 3 (v % 4) (left * 16 + v / 4) 4 2 (by omega) e2 e3 (by omega) (by omega) (by omega) (by omega)
        · have e2 : 6 * n % 8 = 2 := by omega
          have e3 : 6 * (n + 1) % 8 = 0 := by omega
          rw [e2] at h2
          exact step 0 0 (left * 64 + v) 2 0 (by omega) e2 e3 (by omega) (by omega) (by omega) (by omega)
      · rw [if_neg hl]
        dsimp only
        have hd := digits_snoc_other (p := p) hl
        have hp := pads_snoc_other (p := p) hl
        rw [if_neg hc, Nat.add_zero] at hp
        rw [happ]
        refine ih _ _ _ _ _ (noneYet_snoc hn fun hx => ?_) ?_
        · unfold Base64Padded at hx
          rw [hd, hp] at hx
          exact hn p (List.prefix_refl p) hx
        · exact ⟨by rw [hd]; exact h.group, by rw [hp]; exact h.signs, by rw [hd]; exact h.len, by rw [hd]; exact h.num,
            by rw [hd]; exact h.rest⟩

theorem base64Part_unique {s t u : Str} (h : Base64Part s t) (k : Base64Part s u) : t = u := by
  rcases h with ⟨h1, h2, h3⟩ | ⟨rfl, -, h3⟩
  · rcases k with ⟨k1, k2, k3⟩ | ⟨-, -, k3⟩
    · rcases List.prefix_or_prefix_of_prefix h1 k1 with h4 | h4
      · exact k3 _ h4 h2
      · exact (h3 _ h4 k2).symm
    · exact absurd h2 (k3 _ h1)
  · rcases k with ⟨k1, k2, -⟩ | ⟨rfl, -, -⟩
    · exact absurd k2 (h3 _ k1)
    · rfl

/-! ### Encoding -/

theorem numberOf_cons (b : Nat) (d : Nat) (ds : List Nat) : numberOf b (d :: ds) = d * b ^ ds.length + numberOf b ds := by
  induction ds using List.reverseRecOn with
  | nil => simp [numberOf]
  | append_singleton ds x ih =>
    rw [← List.cons_append, numberOf_snoc, numberOf_snoc, ih, List.length_append, List.length_singleton, Nat.pow_succ]
    ring

/-- The letters with the given positions. -/
theorem b64Char_letter (n : Nat) (h : n < 64) : b64Char n ∈ base64Letters ∧ base64Letters.idxOf (b64Char n) = n := by
  have := (b64_char n h).1
  rw [b64Val_eq] at this
  split at this
  · rename_i hm
    exact ⟨hm, Option.some.inj this⟩
  · cases this

theorem encode_spec (bs : List (Fin 256)) : ∃ ds : List Nat, ∃ k, (∀ d ∈ ds, d < 64) ∧
    b64encode bs = ds.map b64Char ++ List.replicate k '=' ∧ ds.length = (4 * bs.length + 2) / 3 ∧
    ds.length + k = 4 * ((bs.length + 2) / 3) ∧
    numberOf 64 ds = numberOf 256 (bs.map Fin.val) * 2 ^ (6 * ds.length - 8 * bs.length) := by
  induction bs using b64encode.induct with
  | case1 => exact ⟨[], 0, nofun, rfl, rfl, rfl, rfl⟩
  | case2 a =>
    have ha := a.isLt
    refine ⟨[a.val / 4, a.val % 4 * 16], 2, ?_, rfl, by simp, by simp, ?_⟩
    · simp
      omega
    · simp [numberOf]
      omega
  | case3 a b =>
    have ha := a.isLt
    have hb := b.isLt
    refine ⟨[a.val / 4, a.val % 4 * 16 + b.val / 16, b.val % 16 * 4], 1, ?_, rfl, by simp, by simp, ?_⟩
    · simp
      omega
    · simp [numberOf]
      omega
  | case4 a b c l ih =>
    have ha := a.isLt
    have hb := b.isLt
    have hc := c.isLt
    obtain ⟨ds, k, h1, h2, h3, h4, h5⟩ := ih
    refine ⟨a.val / 4 :: (a.val % 4 * 16 + b.val / 16) :: (b.val % 16 * 4 + c.val / 64) :: c.val % 64 :: ds, k, ?_, ?_, ?_, ?_, ?_⟩
    · simp only [List.forall_mem_cons]
      exact ⟨by omega, by omega, by omega, by omega, h1⟩
    · rw [b64encode, h2]
      rfl
    · simp only [List.length_cons]
      omega
    · simp only [List.length_cons]
      omega
    · simp only [List.map_cons, numberOf_cons, List.length_cons, List.length_map, h5]
      obtain ⟨e, he⟩ : ∃ e, 6 * ds.length = 8 * l.length + e := ⟨6 * ds.length - 8 * l.length, by omega⟩
      rw [show 6 * (ds.length + 1 + 1 + 1 + 1) - 8 * (l.length + 1 + 1 + 1) = e by omega,
        show 6 * ds.length - 8 * l.length = e by omega]
      have h64 : 64 ^ ds.length = 256 ^ l.length * 2 ^ e := by
        generalize l.length = m at *
        rw [show (64 : Nat) = 2 ^ 6 from rfl, show (256 : Nat) = 2 ^ 8 from rfl, ← Nat.pow_mul, ← Nat.pow_mul, he, Nat.pow_add]
      have hA : a.val / 4 * 262144 + (a.val % 4 * 16 + b.val / 16) * 4096 + (b.val % 16 * 4 + c.val / 64) * 64 + c.val % 64 =
          a.val * 65536 + b.val * 256 + c.val := by omega
      generalize a.val / 4 = a1 at *
      generalize a.val % 4 * 16 + b.val / 16 = a2 at *
      generalize b.val % 16 * 4 + c.val / 64 = a3 at *
      generalize c.val % 64 = a4 at *
      generalize numberOf 256 (l.map Fin.val) = N
      calc _ = (a1 * 262144 + a2 * 4096 + a3 * 64 + a4) * 64 ^ ds.length + N * 2 ^ e := by ring
        _ = _ := by
          rw [hA, h64]
          ring

end Ics
