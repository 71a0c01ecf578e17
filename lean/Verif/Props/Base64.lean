import Verif.Proofs.Base64
import Verif.Proofs.Faults

/-
C97: base 64.
-/
namespace Ics

/-- C97, reading: a text is read as bytes if and only if all its characters are ASCII, there is a part that counts, and the bytes
are the bits of the letters of this part.  Characters that are no letters are ignored, also signs `=` in other places; what comes
after the first group that is filled up is ignored, too. -/
theorem C97_decode (s : Str) (bs : List (Fin 256)) :
    b64decode s = .ok bs ↔
      (∀ c ∈ s, c.toNat < 128) ∧ ∃ t, Base64Part s t ∧ Base64Bytes (base64Digits t) bs := by
  have hn : NoneYet [] := by
    intro u hu
    rw [List.prefix_nil.1 hu]
    unfold Base64Padded
    rintro (⟨h, -⟩ | ⟨h, -⟩) <;> cases h
  obtain ⟨h1, h2⟩ := loop_spec s [] 0 0 0 [] hn ⟨rfl, nofun, rfl, rfl, by decide⟩
  unfold b64decode
  by_cases ha : s.all (fun c => c.toNat < 128) = true
  · rw [if_pos ha]
    have ha' : ∀ c ∈ s, c.toNat < 128 := fun c hc => by simpa using List.all_eq_true.1 ha c hc
    constructor
    · intro h
      exact ⟨ha', h1 bs h⟩
    · rintro ⟨-, t, ht, hb⟩
      obtain ⟨out, ho⟩ := h2 t ht
      obtain ⟨u, hu, hc⟩ := h1 out ho
      cases base64Part_unique ht hu
      rw [ho, numberOf_inj bs out (hb.1.trans hc.1.symm) (hb.2.trans hc.2.symm)]
  · rw [if_neg ha]
    constructor
    · intro h
      cases h
    · rintro ⟨h, -⟩
      exact absurd (List.all_eq_true.2 fun c hc => decide_eq_true (h c hc)) ha

/-- C97: every other text is a `ValueError`. -/
theorem C97_error (s : Str) (h : ¬((∀ c ∈ s, c.toNat < 128) ∧ ∃ t, Base64Part s t)) : b64decode s = .error .valueError := by
  cases hd : b64decode s with
  | ok bs =>
    obtain ⟨h1, t, h2, -⟩ := (C97_decode s bs).1 hd
    exact absurd ⟨h1, t, h2⟩ h
  | error e => exact congrArg _ (b64decode_value s e hd)

/-- C97, writing: bytes are written as their bits, filled up by zeros, in letters, with signs `=` up to a multiple of four. -/
theorem C97_encode (bs : List (Fin 256)) : ∃ t k, b64encode bs = t ++ List.replicate k '=' ∧ (∀ c ∈ t, c ∈ base64Letters) ∧
    t.length = (4 * bs.length + 2) / 3 ∧ t.length + k = 4 * ((bs.length + 2) / 3) ∧
    numberOf 64 (base64Digits t) = numberOf 256 (bs.map Fin.val) * 2 ^ (6 * t.length - 8 * bs.length) := by
  obtain ⟨ds, k, h1, h2, h3, h4, h5⟩ := encode_spec bs
  have hd : base64Digits (ds.map b64Char) = ds := by
    clear h2 h3 h4 h5
    induction ds with
    | nil => rfl
    | cons d ds ih =>
      obtain ⟨k1, k2⟩ := b64Char_letter d (h1 d List.mem_cons_self)
      have := ih fun x hx => h1 x (List.mem_cons_of_mem _ hx)
      unfold base64Digits at *
      rw [List.map_cons, List.filter_cons_of_pos (by simpa using k1), List.map_cons, k2, this]
  refine ⟨ds.map b64Char, k, h2, ?_, by rw [List.length_map]; exact h3, by rw [List.length_map]; exact h4, ?_⟩
  · intro c hc
    obtain ⟨d, hd, rfl⟩ := List.mem_map.1 hc
    exact (b64Char_letter d (h1 d hd)).1
  · rw [hd, List.length_map]
    exact h5

/-- A text with a line break, a stray sign and bits that are dropped; what comes after the padding is ignored. -/
example : b64decode "a=G\nkAAAAA".toList = .ok [104, 105, 0, 0, 0, 0] ∧ b64decode "aGl= !AAA".toList = .ok [104, 105] := by decide +kernel

/-- Letters that are missing or characters that are no ASCII. -/
example : b64decode "aGk".toList = .error .valueError ∧ b64decode "aGk=é".toList = .error .valueError := by decide +kernel

/-- An example of RFC 4648: `Zm9vYg==` means `foob`. -/
example : Base64Padded "Zm9vYg==".toList ∧ Base64Bytes (base64Digits "Zm9vYg==".toList) [102, 111, 111, 98] ∧
    ∃ t, Base64Part "Zm9vYg==".toList t := by
  refine ⟨?_, ?_, ?_⟩
  · unfold Base64Padded
    decide +kernel
  · unfold Base64Bytes
    decide +kernel
  · obtain ⟨-, t, h1, -⟩ := (C97_decode "Zm9vYg==".toList [102, 111, 111, 98]).1 (by decide +kernel)
    exact ⟨t, h1⟩

/-- C97 is false of RFC 5545, which demands well-formed base 64: a text with other characters is accepted. -/
theorem C97_strict_fails : b64decode "Z!m9v".toList = .ok [102, 111, 111] ∧ '!' ∉ base64Letters := by decide +kernel

end Ics
