import Verif.Py.Basic

/-
What a text in base 64 means (RFC 4648, section 4), for texts with any other characters in between.
-/
namespace Ics

/-- The letters of base 64, in order. -/
def base64Letters : Str := "ABCDEFGHIJKLMNOPQRSTUVWXYZabcdefghijklmnopqrstuvwxyz0123456789+/".toList

/-- The digits of a text: the positions of its letters in the alphabet; all other characters are left out. -/
def base64Digits (t : Str) : List Nat := (t.filter (· ∈ base64Letters)).map fun c => base64Letters.idxOf c

/-- The number with the given digits, the first one being the most significant. -/
def numberOf (base : Nat) (ds : List Nat) : Nat := ds.foldl (fun n d => base * n + d) 0

/-- The number of signs `=` after the last letter. -/
def base64Pads (t : Str) : Nat := (t.reverse.takeWhile (· ∉ base64Letters)).count '='

/-- The last group of letters is shorter than four and is filled up by signs `=`: two letters by two, three by one. -/
def Base64Padded (t : Str) : Prop :=
  ((base64Digits t).length % 4 = 2 ∧ 2 ≤ base64Pads t) ∨ ((base64Digits t).length % 4 = 3 ∧ 1 ≤ base64Pads t)

/-- The part of a text that counts: the text up to the first group that is filled up, or all of it if its letters are groups of
four and no group is filled up. -/
def Base64Part (s t : Str) : Prop :=
  (t <+: s ∧ Base64Padded t ∧ ∀ u, u <+: t → Base64Padded u → u = t) ∨
    (t = s ∧ (base64Digits s).length % 4 = 0 ∧ ∀ u, u <+: s → ¬Base64Padded u)

/-- The bytes are the bits of the digits, as many as make whole bytes (bits that are left over are dropped). -/
def Base64Bytes (ds : List Nat) (bs : List (Fin 256)) : Prop :=
  bs.length = 6 * ds.length / 8 ∧ numberOf 256 (bs.map Fin.val) = numberOf 64 ds / 2 ^ (6 * ds.length % 8)

end Ics
