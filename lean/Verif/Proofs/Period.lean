import Verif.Model.Period
import Verif.Proofs.Datetime

namespace Ics

theorem natStr_pos (n : Nat) : 1 ≤ (natStr n).length := by
  have e : natStr n = if n < 10 then [Nat.digitChar n]
      else natStr (n / 10) ++ [Nat.digitChar (n % 10)] := Nat.toDigits_eq_if (by decide)
  rw [e]
  split <;> simp

theorem pad2_isDigit (n : Nat) : ∀ c ∈ pad2 n, isDigit c = true := by
  intro c hc
  unfold pad2 at hc
  split at hc
  · rw [List.mem_cons] at hc
    rcases hc with rfl | h
    · decide
    · exact natStr_digit _ h
  · exact natStr_digit _ hc

theorem pad2_length (n : Nat) : 2 ≤ (pad2 n).length := by
  unfold pad2
  have := natStr_pos n
  split
  · simp; omega
  · have e : natStr n = if n < 10 then [Nat.digitChar n]
      else natStr (n / 10) ++ [Nat.digitChar (n % 10)] := Nat.toDigits_eq_if (by decide)
    have := natStr_pos (n / 10)
    rw [e, if_neg (by assumption)]
    simp; omega

theorem yearStr_isDigit (pad : Bool) (n : Nat) : ∀ c ∈ yearStr pad n, isDigit c = true := by
  intro c hc
  unfold yearStr at hc
  split at hc
  · rw [List.mem_append, List.mem_replicate] at hc
    rcases hc with ⟨-, rfl⟩ | h
    · decide
    · exact natStr_digit _ h
  · exact natStr_digit _ hc

theorem datetimeStr_chars (pad : Bool) (f : Fields) :
    ∀ c ∈ datetimeStr pad f, isDigit c = true ∨ c = 'T' := by
  intro c hc
  simp only [datetimeStr, dateStr, List.mem_append, List.mem_cons] at hc
  rcases hc with ((h | h) | h) | h | (h | h) | h
  · exact .inl (yearStr_isDigit _ _ _ h)
  · exact .inl (pad2_isDigit _ _ h)
  · exact .inl (pad2_isDigit _ _ h)
  · exact .inr h
  · exact .inl (pad2_isDigit _ _ h)
  · exact .inl (pad2_isDigit _ _ h)
  · exact .inl (pad2_isDigit _ _ h)

theorem datetimeStr_length (pad : Bool) (f : Fields) : 11 ≤ (datetimeStr pad f).length := by
  have h1 := pad2_length f.month
  have h2 := pad2_length f.day
  have h3 := pad2_length f.hour
  have h4 := pad2_length f.minute
  have h5 := pad2_length f.second
  simp only [datetimeStr, dateStr, List.length_append, List.length_cons]
  omega

theorem partitionSlash_append {a b : Str} (h : '/' ∉ a) :
    partitionSlash (a ++ '/' :: b) = some (a, b) := by
  induction a with
  | nil => simp [partitionSlash]
  | cons c a ih =>
    simp only [List.mem_cons, not_or] at h
    rw [List.cons_append, partitionSlash, if_neg (fun x => h.1 x.symm), ih h.2]

/-- What `serializeDt` writes. -/
theorem serializeDt_text {w : World} {d : DT} {params params' : Params} {ctx ctx' : Ctx} {t : Str}
    (h : serializeDt w d params ctx = .ok (t, params', ctx')) :
    t = datetimeStr w.padYear (fieldsOf d.wall) ∨ t = datetimeStr w.padYear (fieldsOf d.wall) ++ ['Z'] := by
  unfold serializeDt at h
  split at h
  · cases h; exact .inr rfl
  · split at h
    · cases h; exact .inl rfl
    · split at h
      · cases h
      · cases h; exact .inl rfl
      · split at h
        · cases h
        · cases h; exact .inl rfl

theorem serializeDt_noSlash {w : World} {d : DT} {params params' : Params} {ctx ctx' : Ctx} {t : Str}
    (h : serializeDt w d params ctx = .ok (t, params', ctx')) : '/' ∉ t := by
  have key : '/' ∉ datetimeStr w.padYear (fieldsOf d.wall) := by
    intro hm
    rcases datetimeStr_chars _ _ _ hm with h | h <;> exact absurd h (by decide)
  rcases serializeDt_text h with rfl | rfl
  · exact key
  · simp [key]

/-- The period parser does not know the format of a full date-time. -/
theorem parseDt_base_fails {w : World} {d : DT} {params params' : Params} {ctx ctx' : Ctx} {t : Str}
    (h : serializeDt w d params ctx = .ok (t, params', ctx')) (p : Params) (c : Ctx) :
    parseDt w baseFormats t p c = .error .valueError := by
  have key : stripDt t = datetimeStr w.padYear (fieldsOf d.wall) := by
    rcases serializeDt_text h with rfl | rfl
    · exact stripDt_id (datetimeStr_chars _ _)
    · rw [stripDt, List.filter_append, ← stripDt, stripDt_id (datetimeStr_chars _ _)]; simp
  have hlen := datetimeStr_length w.padYear (fieldsOf d.wall)
  have hn : (stripDt t).length ∉ baseFormats := by
    rw [key]; simp only [baseFormats, List.mem_cons, List.not_mem_nil, or_false]; omega
  have hne : t ≠ [] := by
    rintro rfl
    rw [← key] at hlen
    simp [stripDt] at hlen
  unfold parseDt
  rw [List.getLast?_eq_some_getLast hne]
  have he : ∀ e, paramTz p = .error e → e = .valueError := by
    intro e he
    unfold paramTz at he
    split at he <;> cases he
    rfl
  cases hp : paramTz p with
  | error e => rw [he e hp]
  | ok tz => simp only [hn, not_false_eq_true, if_true]

end Ics
