import Verif.Spec.TimeEffect
import Verif.Props.Session

/-
C106: what the operations on times do.
-/
namespace Ics

theorem convertEnd_effect {e : Env} {s t : Span} {g : EndTarget} (h : e.convertEnd s g = .ok t) :
    t.begin? = s.begin? ∧ t.prec = s.prec ∧ EndEffect t g := by
  have r1 : s.endRepr = .duration → s.dur?.isSome := by
    unfold Span.endRepr
    intro k
    split at k
    · assumption
    · split at k <;> cases k
  have r2 : s.endRepr = .end_ → s.dur? = none ∧ s.end?.isSome := by
    unfold Span.endRepr
    intro k
    split at k
    · cases k
    · rename_i hd
      split at k
      · exact ⟨by simpa using hd, by assumption⟩
      · cases k
  have r3 : s.endRepr = .none → s.end? = none ∧ s.dur? = none := by
    unfold Span.endRepr
    intro k
    split at k
    · cases k
    · rename_i hd
      split at k
      · cases k
      · rename_i he
        exact ⟨by simpa using he, by simpa using hd⟩
  unfold Env.convertEnd at h
  dsimp only at h
  split at h
  · rename_i hk
    cases h
    refine ⟨rfl, rfl, ?_⟩
    rcases hk with ⟨k1, rfl⟩ | ⟨k1, rfl⟩ | ⟨k1, rfl | ⟨rfl, _⟩⟩
    · exact .inl (r1 k1)
    · exact r3 k1
    · exact .inl (r2 k1).2
    · exact .inl (r2 k1).2
  · split at h
    · rename_i hk
      obtain ⟨d, h1, h2⟩ := bind_ok_iff.1 h
      obtain ⟨_, rfl⟩ := mkSpan_ok.1 h2
      refine ⟨rfl, rfl, ?_⟩
      obtain ⟨k1, rfl⟩ := hk
      obtain ⟨k2, k3⟩ := r2 k1
      obtain ⟨en, hen⟩ := Option.isSome_iff_exists.1 k3
      cases hb : s.begin? with
      | none => exact .inr ⟨rfl, rfl⟩
      | some b =>
        left
        unfold Env.effDur at h1
        rw [k2, hen, hb] at h1
        dsimp only at h1
        split at h1 <;> cases h1
        rfl
    · split at h
      · rename_i hk
        obtain ⟨en, h1, h2⟩ := bind_ok_iff.1 h
        obtain ⟨_, rfl⟩ := mkSpan_ok.1 h2
        refine ⟨rfl, rfl, ?_⟩
        have key : en.isSome ∨ s.begin? = none := by
          obtain ⟨d, hd⟩ := Option.isSome_iff_exists.1 (r1 hk.1)
          unfold Env.effEnd at h1
          split at h1
          · cases h1; exact .inl rfl
          · split at h1
            · exact .inr (by assumption)
            · unfold Env.effDur at h1
              rw [hd] at h1
              dsimp only at h1
              split at h1 <;> cases h1
              exact .inl rfl
        rcases hk.2 with rfl | ⟨rfl, _⟩ <;> exact key.imp id fun k => ⟨rfl, k⟩
      · split at h
        · rename_i hk
          obtain ⟨_, rfl⟩ := mkSpan_ok.1 h
          subst hk
          exact ⟨rfl, rfl, rfl, rfl⟩
        · cases h

/-- C106: what an operation does to the times, and that it does nothing else. -/
theorem C106_effect (L : Lib) (m m1 : EntryObj) (hc : m.cls = .event ∨ m.cls = .todo) (c : Edit)
    (h : m.timeEdit L c = .ok m1) :
    ∃ s t, m.get "timespan".toList = .one (.span s) ∧ m1.get "timespan".toList = .one (.span t) ∧ TimeEffect L c s t ∧
      m1.cls = m.cls ∧ m1.extraName = m.extraName ∧ m1.extra = m.extra ∧ m1.extraParams = m.extraParams ∧
      ∀ a, a ≠ "timespan".toList → m1.get a = m.get a := by
  obtain ⟨s, t, h1, h2, _, h4, _, _⟩ := timeEdit_parts hc h
  refine ⟨s, t, h1, h4, ?_, timeEdit_frame h⟩
  cases c with
  | timespan v => cases h2; rfl
  | begin v => obtain ⟨_, rfl⟩ := mkSpan_ok.1 h2; exact ⟨rfl, rfl, rfl, rfl⟩
  | end_ v => obtain ⟨_, rfl⟩ := mkSpan_ok.1 h2; exact ⟨rfl, rfl, rfl, rfl⟩
  | duration v => obtain ⟨_, rfl⟩ := mkSpan_ok.1 h2; exact ⟨rfl, rfl, rfl, rfl⟩
  | convertEnd g =>
    obtain ⟨k1, k2, k3⟩ := convertEnd_effect (show L.convertEnd s (Entry.endTarget ⟨m.cls.spanCls, s, none⟩ g) = .ok t from h2)
    refine ⟨k1, k2, ?_⟩
    unfold Entry.endTarget at k3
    dsimp only at k3
    split at k3
    · rename_i hg
      rw [hg.2]
      exact k3
    · exact k3
  | makeAllDay =>
    have h2 : L.makeAllDay s = .ok t := h2
    unfold Env.makeAllDay at h2
    split at h2
    · rename_i hd
      cases h2
      have hd : s.prec = .day := of_decide_eq_true hd
      exact ⟨hd, fun _ => rfl, fun hn => absurd hd hn⟩
    · rename_i hd
      have hd : s.prec ≠ .day := fun e => hd (decide_eq_true e)
      obtain ⟨en, h3, h5⟩ := bind_ok_iff.1 h2
      unfold Env.makeAllDayFrom at h5
      split at h5
      · split at h5
        · rename_i en' b' hb'
          obtain ⟨d, h6, h7⟩ := bind_ok_iff.1 h5
          obtain ⟨_, rfl⟩ := mkSpan_ok.1 h7
          exact ⟨rfl, fun e => absurd e hd, fun _ => hb'.symm⟩
        · cases h5
      · obtain ⟨_, rfl⟩ := mkSpan_ok.1 h5
        exact ⟨rfl, fun e => absurd e hd, fun _ => rfl⟩
  | unsetAllDay => obtain ⟨_, rfl⟩ := mkSpan_ok.1 h2; exact ⟨rfl, rfl, rfl, nofun⟩
  | replaceTimezone tz =>
    have h2 : L.replaceTimezone s tz = .ok t := h2
    unfold Env.replaceTimezone at h2
    split at h2
    · cases h2
    · obtain ⟨_, rfl⟩ := mkSpan_ok.1 h2
      exact ⟨rfl, rfl, rfl, rfl⟩
  | convertTimezone tz =>
    have h2 : L.convertTimezone s tz = .ok t := h2
    unfold Env.convertTimezone at h2
    split at h2
    · cases h2
    · simp only [bind_ok_iff] at h2
      obtain ⟨b, hb, en, he, h3⟩ := h2
      obtain ⟨_, rfl⟩ := mkSpan_ok.1 h3
      refine ⟨rfl, rfl, fun z hz hl => ?_⟩
      subst hz
      exact ⟨sameMoment_of hl (convertOpt_ok hb), sameMoment_of hl (convertOpt_ok he)⟩

/-- `C106_effect` applies to the operations of the example: all of them succeed on the event. -/
example : ((loadEntry exLib .event exEventItems (some [("X/Y".toList, 1)])).toOption.map fun r =>
    (r.1.timeEdits exLib exTimeSteps).isOk) = some true := by
  decide +kernel

end Ics
